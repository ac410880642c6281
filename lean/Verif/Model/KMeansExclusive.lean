import Verif.Model.KMeansPredict

/-!
# Model of `KMeansMotionLearner._predict_outside_of_obstacle_mutually_exclusive`
(kmeans_learner/kmeans_motion_learner.py:758-838)

The older prediction outside of the clusters, in which only the closest cluster counts.  The attribute
`convergence_radius` is always `math.pi` (kmeans_motion_learner.py:87), so that the velocity on the surface is the
direction of the centre.
-/

open scoped RealInnerProductSpace

namespace Verif.KMeans

variable {d n k : ℕ}

/-- `weights_surf` before the direction counts (kmeans_motion_learner.py:778-791), for the distances of the two
closest centres.  On the outer boundary the exponent is `inf` and the base zero: the weight is zero. -/
noncomputable def exclusiveBase (d0 d1 radius cutOff power : ℝ) : Option ℝ :=
  open Classical in
  let maxRadius := radius * cutOff
  let surface := maxRadius - d0
  let relative := if d1 > maxRadius then surface else d1 - d0
  let maxDist := maxRadius - radius
  if maxDist = 0 then none
  else if surface = 0 then some 0
  else npPow (relative / maxDist) (maxDist / surface * power)

/-- The part of the function after the weight of the surface (kmeans_motion_learner.py:793-838), for the closest
centre `c`.  A velocity of zero, or a position at the centre, gives `nan`. -/
noncomputable def exclusiveMean (mean : Vec d → List ℝ → List (Vec d) → Vec d) (x v c : Vec d) (w : ℝ) :
    Except PyErr (Vec d) :=
  open Classical in
  if w ≤ 0 then .ok v
  else if ‖v‖ = 0 ∨ ‖c - x‖ = 0 then .error .nan
  else
    let pow := ⟪(1 / ‖c - x‖) • (c - x), v⟫ / ‖v‖ - Real.cos Real.pi
    if pow ≤ 0 then .ok v
    else
      match npPow w ((1 - Real.cos Real.pi) / pow) with
      | none => .error .nan
      | some w' => .ok (mean v [w', 1 - w'] [(1 / ‖c - x‖) • (c - x), v])

/-- `_predict_outside_of_obstacle_mutually_exclusive` (kmeans_motion_learner.py:758-838); `argsort` is
`np.argsort` of the distances. -/
noncomputable def predictExclusive (mean : Vec d → List ℝ → List (Vec d) → Vec d)
    (argsort : (Fin n → ℝ) → List (Fin n)) (l : Learner n d) (x : Vec d) (cutOff : ℝ := 4) (power : ℝ := 1) :
    Except PyErr (Vec d) :=
  open Classical in
  let dist := fun i => ‖x - l.centers i‖
  match argsort dist with
  | [] => .error .indexError
  | i :: rest =>
    if dist i > l.radius * cutOff then .ok (l.outside x)
    else
      match rest with
      | [] => .error .indexError
      | j :: _ =>
        match exclusiveBase (dist i) (dist j) l.radius cutOff power with
        | none => .error .nan
        | some w => exclusiveMean mean x (l.outside x) (l.centers i) w

end Verif.KMeans
