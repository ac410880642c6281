import Verif.Model.KMeans

/-!
# Model of the sampled surface of a cluster (`kmeans_obstacle.py`)
-/

namespace Verif.KMeans

variable {d n : ℕ}

/-- The entry `i` of `np.linspace(0, 2 * math.pi, n_points)` (kmeans_obstacle.py:614); a single entry is `0`. -/
noncomputable def linspaceAngle (nPoints i : ℕ) : ℝ := i * (2 * Real.pi / ((nPoints : ℝ) - 1))

/-- A column of `np.vstack((np.cos(angle), np.sin(angle)))` (kmeans_obstacle.py:616); used in two dimensions only. -/
noncomputable def circlePoint (angle : ℝ) : Vec d :=
  WithLp.toLp 2 fun i => if i.val = 0 then Real.cos angle else Real.sin angle

/-- `evaluate_surface_points` (kmeans_obstacle.py:607-625). -/
noncomputable def Obs.evaluateSurfacePoints [NeZero d] (o : Obs n d) (nPoints : ℕ) : Except PyErr (List (Vec d)) :=
  if d ≠ 2 then .error .notImplemented
  else .ok ((List.range nPoints).map fun i =>
    (o.getPointOnSurface (circlePoint (linspaceAngle nPoints i) + o.centers o.index) true).1)

end Verif.KMeans
