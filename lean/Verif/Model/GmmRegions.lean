import Verif.Model.GmmGradient
import Verif.Model.GmmGraph

/-!
# Model of the regions of a learned graph of Gaussians (gmm_learner/graph.py)

`GraphGMM.get_end_point`, `create_learned_boundary`, `_get_local_attractor` and `set_convergence_directions`.

External: `numpy.linalg.eigh`, the class `Ellipse` (its attributes, its `get_gamma` and its
`get_intersection_with_surface` are parameters) and `LinearSystem`, of which the attractor is kept.
`create_graph_from_gaussians` is modelled in `GmmGraph`.  Not modelled: `ellipse_axes_length`, whose result
`get_end_point` overwrites.
-/

namespace Verif.Gmm

variable {d : ℕ}

/-- The external `numpy.linalg.eigh`. -/
abbrev Eigh (d : ℕ) := Matrix (Fin d) (Fin d) ℝ → (Fin d → ℝ) × Matrix (Fin d) (Fin d) ℝ

/-- `u = w[0] / np.linalg.norm(w[0])`, `angle = np.arctan2(u[1], u[0])` (graph.py:226-227, 403-404): `w[0]` is the
first row of the matrix with the eigenvectors as columns. -/
noncomputable def rowAngle (w : Matrix (Fin 2) (Fin 2) ℝ) : Except PyErr ℝ :=
  open Classical in
  let row : Vec 2 := WithLp.toLp 2 (fun j => w 0 j)
  if ‖row‖ = 0 then .error .nan else .ok (Complex.arg ⟨row 0 / ‖row‖, row 1 / ‖row‖⟩)

/-- `v = np.sqrt(2.0) * np.sqrt(v)` (graph.py:230, 405).  Simplification: with an eigenvalue that is not positive
the result is taken to be `nan` (the fit regularises the covariances). -/
noncomputable def rootLengths (e : Fin 2 → ℝ) : Except PyErr (Fin 2 → ℝ) :=
  open Classical in
  if ∃ i, e i ≤ 0 then .error .nan else .ok (fun i => Real.sqrt 2 * Real.sqrt (e i))

/-- The scaling of the direction (graph.py:232-250) in the frame of the angle. -/
noncomputable def endOffset (angle : ℝ) (v : Fin 2 → ℝ) (direction : Vec 2) : Except PyErr (Vec 2) :=
  open Classical in
  let a := -angle
  let rot : Matrix (Fin 2) (Fin 2) ℝ := !![Real.cos a, Real.sin a; -Real.sin a, Real.cos a]
  let c := apply rot.transpose direction
  let fac := ∑ i, c i ^ 2 / v i ^ 2
  if fac = 0 then .error .nan else .ok (apply rot ((1 / Real.sqrt fac) • c))

/-- `get_end_point` (graph.py:203-252); `direction` is the learned velocity at the mean, i.e. the (external)
`get_angle_space_inverse` of the learned angle. -/
noncomputable def endPoint : {d : ℕ} → (eigh : Eigh d) → (mean : Vec d) → (covariance : Matrix (Fin d) (Fin d) ℝ) →
    (direction : Vec d) → Except PyErr (Vec d)
  | 2, eigh, mean, covariance, direction => do
    let angle ← rowAngle (eigh covariance).2
    let v ← rootLengths (eigh covariance).1
    let offset ← endOffset angle v direction
    .ok (mean + offset)
  | _, _, _, _, _ => .error .notImplemented

/-- One round of the loop of `create_learned_boundary` (graph.py:398-417). -/
noncomputable def learnedRegion (eigh : Eigh 2) (oversize : ℝ) (mean : Vec 2) (covariance : Matrix (Fin 2) (Fin 2) ℝ) :
    Except PyErr (AnalyticEllipse 2) := do
  let angle ← rowAngle (eigh covariance).2
  let v ← rootLengths (eigh covariance).1
  .ok ⟨mean, angle, fun i => v i * oversize⟩

/-- The regions made by `create_learned_boundary` (graph.py:391-417) from the means and covariances. -/
noncomputable def learnedRegions : {d : ℕ} → Eigh d → (oversize : ℝ) → List (Vec d × Matrix (Fin d) (Fin d) ℝ) →
    Except PyErr (List (AnalyticEllipse d))
  | 2, eigh, oversize, gs => gs.mapM (fun g => learnedRegion eigh oversize g.1 g.2)
  | _, _, _, _ => .error .notImplemented

/-- The learned container as far as `_get_local_attractor` uses it. -/
structure Learned where
  regions : List (AnalyticEllipse 2)
  ends : List (Vec 2)
  graph : MultiBoundary
  attractor : Vec 2

/-- The external functions of the regions: `get_gamma` and `get_intersection_with_surface(edge_point, direction)`
(`none`: no point). -/
structure RegionExt where
  gamma : AnalyticEllipse 2 → Vec 2 → ℝ
  surface : AnalyticEllipse 2 → Vec 2 → Vec 2 → Option (Vec 2)

open Classical in
/-- `_get_local_attractor` (graph.py:158-184).  A missing point calls `breakpoint()`. -/
noncomputable def localAttractor (ext : RegionExt) (l : Learned) (it : ℕ) : Except PyErr (Vec 2) := do
  let region ← pyGetInt l.regions it
  if 1 ≤ ext.gamma region l.attractor then .ok l.attractor
  else
    let parent ← l.graph.getParent it
    let parentRegion ← pyGetInt l.regions parent
    let relDir := region.center - parentRegion.center
    let edge ← pyGetInt l.ends it
    match ext.surface region edge ((-1 : ℝ) • relDir) with
    | none => .error .breakpoint
    | some q => .ok q

/-- The assignment of `set_convergence_directions` (graph.py:381-389): the attractors of the linear systems in
`_ConvergenceDynamics`. -/
def assignDynamics (dynamics : List (Vec 2)) (it : ℕ) (a : Vec 2) : List (Vec 2) :=
  if it < dynamics.length then dynamics.set it a else dynamics ++ [a]

/-- The loop of `set_convergence_directions` (graph.py:368-389), from region `it` on, with `n` regions left.
Simplification: the angle space and the reference length (graph.py:372-377) are not used and left out. -/
noncomputable def setDynamicsLoop (ext : RegionExt) (l : Learned) : (n it : ℕ) → List (Vec 2) →
    Except PyErr (List (Vec 2))
  | 0, _, dynamics => .ok dynamics
  | n + 1, it, dynamics =>
    match localAttractor ext l it with
    | .error e => .error e
    | .ok a => setDynamicsLoop ext l n (it + 1) (assignDynamics dynamics it a)

/-- `set_convergence_directions` (graph.py:364-389). -/
noncomputable def setDynamics (ext : RegionExt) (l : Learned) (dynamics : List (Vec 2)) : Except PyErr (List (Vec 2)) :=
  setDynamicsLoop ext l l.regions.length 0 dynamics

end Verif.Gmm
