import Verif.Model.GraphHandler
import Verif.Model.Hull
import Mathlib.LinearAlgebra.Matrix.DotProduct
import Mathlib.LinearAlgebra.Matrix.ToLin

/-!
# Model of `nonlinear_avoidance/gmm_obstacle.py`

External: the fit and `predict_proba` of `sklearn`, `eigh`, `get_intersection_with_circle`,
`get_directional_weighted_sum`.  The derivatives, the shared points and the analytic
ellipses are in `GmmGradient`.  Not modelled: plotting, `avoid` and `get_relative_orientation_of_ellipses` (which use attributes that do not exist).
-/

open scoped RealInnerProductSpace

namespace Verif.Gmm

variable {d : ℕ}

/-- The attributes of one Gaussian: `means_[index]`, `precisions_cholesky_[index]`,
`_axes_directions[:, :, index]` and `_axes_lengths[:, index]`. -/
structure Gauss (d : ℕ) where
  mean : Vec d
  cholesky : Matrix (Fin d) (Fin d) ℝ
  directions : Matrix (Fin d) (Fin d) ℝ
  lengths : Fin d → ℝ

/-- A matrix times a vector. -/
noncomputable def apply (m : Matrix (Fin d) (Fin d) ℝ) (v : Vec d) : Vec d :=
  WithLp.toLp 2 (m.mulVec v.ofLp)

/-- `delta_dist.T @ precisions_cholesky_ @ delta_dist` (gmm_obstacle.py:496-497). -/
noncomputable def quad (g : Gauss d) (position : Vec d) : ℝ :=
  ⟪position - g.mean, apply g.cholesky (position - g.mean)⟫

/-- `get_gamma_proportional` (gmm_obstacle.py:495-498); the root of a negative number is `nan`
(`none`). -/
noncomputable def gammaProportional (factor : ℝ) (g : Gauss d) (position : Vec d) : Option ℝ :=
  open Classical in
  if quad g position < 0 then none else some (Real.sqrt (quad g position) / factor)

/-- `get_gamma` (gmm_obstacle.py:518-524). -/
noncomputable def getGamma (factor : ℝ) (g : Gauss d) (position : Vec d) : Option ℝ :=
  open Classical in
  (gammaProportional factor g position).map (fun gamma =>
    if gamma = 0 then 0 else ‖position - g.mean‖ * (1 - 1 / gamma) + 1)

/-- `project_point_on_surface` (gmm_obstacle.py:526-530); `none` for `nan` or infinite values. -/
noncomputable def projectOnSurface (factor : ℝ) (g : Gauss d) (position : Vec d) : Option (Vec d) :=
  open Classical in
  (gammaProportional factor g position).bind (fun gamma =>
    if gamma = 0 then none else some (gamma⁻¹ • (position - g.mean) + g.mean))

/-- `transform_position_to_unitcircle_frame` (gmm_obstacle.py:532-543). -/
noncomputable def toUnit (g : Gauss d) (position : Vec d) : Vec d :=
  WithLp.toLp 2 (fun i => apply g.directions.transpose (position - g.mean) i / g.lengths i)

/-- `transform_position_from_unitcircle_frame` (gmm_obstacle.py:545-557). -/
noncomputable def fromUnit (g : Gauss d) (position : Vec d) : Vec d :=
  apply g.directions (WithLp.toLp 2 (fun i => position i * g.lengths i)) + g.mean

/-- `get_reference_direction` (gmm_obstacle.py:571-579), in a space with at least one dimension. -/
noncomputable def referenceDirection {n : ℕ} (g : Gauss (n + 1)) (position : Vec (n + 1)) :
    Vec (n + 1) :=
  open Classical in
  if ‖position - g.mean‖ ≠ 0 then (‖position - g.mean‖)⁻¹ • (position - g.mean)
  else EuclideanSpace.single 0 1

/-- `get_normal_direction` (gmm_obstacle.py:581-600): `0 ** (-0.5)` is infinite and spoils all entries,
the power of a negative number is `nan`. -/
noncomputable def normalDirection {n : ℕ} (factor : ℝ) (g : Gauss (n + 1)) (position : Vec (n + 1)) :
    Option (Vec (n + 1)) :=
  open Classical in
  if quad g position ≤ 0 then none
  else
    if ‖((quad g position ^ (-(1 / 2) : ℝ)) * factor⁻¹) • apply g.cholesky (position - g.mean)‖ ≠ 0 then
      some ((‖((quad g position ^ (-(1 / 2) : ℝ)) * factor⁻¹)
          • apply g.cholesky (position - g.mean)‖)⁻¹
        • (((quad g position ^ (-(1 / 2) : ℝ)) * factor⁻¹) • apply g.cholesky (position - g.mean)))
    else
      some (EuclideanSpace.single 0 1)

/-! ## Weights -/

/-- The occlusion factor of one Gaussian (gmm_obstacle.py:371-403).  `reference` is its reference point,
`parent` the mean of its parent, `surfaceGamma` the proportional gamma of the parent at the projected
surface point (`none`: no parent).  With a zero vector the cosine is `nan`, all comparisons are false
and the factor is `nan`. -/
noncomputable def occlusionFactor (position reference : Vec d) (parent : Option (Vec d × ℝ)) :
    Except PyErr ℝ :=
  open Classical in
  match parent with
  | none => .ok 1
  | some (mean, surfaceGamma) =>
    if surfaceGamma ≥ 1 then .ok 1
    else if ‖position - reference‖ * ‖mean - reference‖ = 0 then .error .nan
    else if ⟪position - reference, mean - reference⟫
        / (‖position - reference‖ * ‖mean - reference‖) ≤ 0 then .ok 1
    else if ⟪position - reference, mean - reference⟫
        / (‖position - reference‖ * ‖mean - reference‖) ≥ 1 then .ok 0
    else .ok (surfaceGamma ^ (1 / (1 - ⟪position - reference, mean - reference⟫
        / (‖position - reference‖ * ‖mean - reference‖))))

/-- `evaluate_gamma_weights` (gmm_obstacle.py:326-359): the new `relative_weights`, from the gammas and
the occlusion factors of all Gaussians.  Simplification: the gammas are numbers (`nan` is treated in
`gammaProportional`). -/
noncomputable def gammaWeights (gammas : List ℝ) (factors : Except PyErr (List ℝ)) :
    Except PyErr (List ℝ) :=
  open Classical in
  if gammas.any (fun g => decide (g - 1 ≤ 0)) then
    .ok (gammas.map (fun g => if g - 1 ≤ 0 then
      1 / ((gammas.countP (fun g => decide (g - 1 ≤ 0)) : ℕ) : ℝ) else 0))
  else
    match factors with
    | .error e => .error e
    | .ok fs =>
      if (List.zipWith (fun g f => 1 / (g - 1) * f) gammas fs).sum ≠ 0 then
        .ok ((List.zipWith (fun g f => 1 / (g - 1) * f) gammas fs).map
          (fun w => w / (List.zipWith (fun g f => 1 / (g - 1) * f) gammas fs).sum))
      else .ok (List.zipWith (fun g f => 1 / (g - 1) * f) gammas fs)

/-! ## Mean normal -/

/-- The end of `evalute_weighted_reference_and_normal_offset` (gmm_obstacle.py:309-324): `delta` is the
sum of the differences between normal and reference directions, `reference` the mean reference
direction.  The branch for `delta = 0` does not return, so `0 / 0` follows. -/
noncomputable def meanNormal (delta reference : Vec d) : Except PyErr (Vec d) :=
  open Classical in
  if ‖delta‖ = 0 then .error .nan
  else
    let dot := (-1) * (⟪delta, reference⟫ / ‖delta‖)
    let scaling := if dot < Real.sqrt 2 / 2 then 1 else Real.sqrt 2 * dot
    if ‖scaling • reference + delta‖ = 0 then .error .nan
    else .ok ((‖scaling • reference + delta‖)⁻¹ • (scaling • reference + delta))

/-- `delta_normal` (gmm_obstacle.py:280-295): the sum over the Gaussians with a non-zero weight; every
Gaussian is given as weight, normal and reference direction. -/
noncomputable def deltaNormal (l : List (ℝ × Vec d × Vec d)) : Vec d :=
  open Classical in ((l.filter (fun g => decide (g.1 ≠ 0))).map (fun g => g.2.1 - g.2.2)).sum

/-! ## Guidance around the root -/

/-- `get_root_rotation_direction` (gmm_obstacle.py:211-228); the projection is written without the basis
(the first column of `get_orthogonal_basis` is the kernel direction, the others are orthonormal). -/
noncomputable def rootRotationDirection (kernel position velocity : Vec d) : Vec d :=
  open Classical in
  if ‖position - kernel‖ = 0 then velocity
  else
    let dir := (‖position - kernel‖)⁻¹ • (position - kernel)
    if ⟪dir, velocity⟫ < 1 then velocity else velocity - ⟪dir, velocity⟫ • dir

/-! ## Hierarchy -/

/-- `ind_closest` (gmm_obstacle.py:132-136): the norm is taken over `axis=0`, that is for every dimension
over all Gaussians. -/
noncomputable def indClosest (means : List (Vec d)) : Except PyErr ℕ :=
  let center : Vec d := ((means.length : ℝ))⁻¹ • means.sum
  Hull.argmin ((List.finRange d).map (fun j =>
    Real.sqrt ((means.map (fun m => (m j - center j) ^ 2)).sum)))

/-- `np.argmax` over all pairs (remaining row, assigned column) in row-major order
(gmm_obstacle.py:153-157): the first largest entry. -/
noncomputable def bestPair (proba : ℕ → ℕ → ℝ) (first : ℕ × ℕ) (rest : List (ℕ × ℕ)) : ℕ × ℕ :=
  open Classical in
  rest.foldl (fun best c => if proba best.1 best.2 < proba c.1 c.2 then c else best) first

/-- The loop `while len(remaining_list)` (gmm_obstacle.py:151-176); `fuel` is the number of remaining
Gaussians. `proba v a` is the probability of Gaussian `a` at the mean of Gaussian `v`.
Simplification: the reference points are not part of the state. -/
noncomputable def growLoop (proba : ℕ → ℕ → ℝ) :
    ℕ → List ℕ → List ℕ → GraphHandler ℕ → Except PyErr (GraphHandler ℕ)
  | 0, _, _, g => .ok g
  | fuel + 1, remaining, assigned, g =>
    match remaining.flatMap (fun r => assigned.map (fun a => (r, a))) with
    | [] => .ok g
    | pair :: pairs =>
      match g.addElementWithParent (bestPair proba pair pairs).1 (bestPair proba pair pairs).2 with
      | (_, .error e) => .error e
      | (g1, .ok ()) =>
        growLoop proba fuel (remaining.erase (bestPair proba pair pairs).1)
          (assigned ++ [(bestPair proba pair pairs).1]) g1

/-- `evaluate_hirarchy_and_reference_points` (gmm_obstacle.py:126-176): the graph. -/
noncomputable def evaluateHierarchy (means : List (Vec d)) (proba : ℕ → ℕ → ℝ) :
    Except PyErr (GraphHandler ℕ) := do
  let root ← indClosest means
  if root < means.length then
    growLoop proba (means.length - 1) ((List.range means.length).erase root) [root]
      ((GraphHandler.create []).setRoot root)
  else .error .indexError

end Verif.Gmm
