import Verif.Model.Weights

/-!
# Model of the pulling functions of `RotationalAvoider` (avoidance/rotational_avoider.py)

The static functions which rotate a direction in the direction space: `_get_projected_velocity`,
`_get_rotated_convergence_direction`, `get_tangent_convergence_direction_from_unit_direction`,
`_get_projection_of_inverted_convergence_direction` and `_get_projected_nonlinear_velocity`.  All the
`UnitDirection` objects of one call share their base; a direction is given by its angle (`as_angle()`), and the
sums, differences and multiples of `UnitDirection` objects are those of the angles (vartools).  Simplification:
`UnitDirection.from_angle` stores the angle as it is.
-/

open scoped RealInnerProductSpace

namespace Verif.Pull

variable {k : ℕ}

/-- The external functions of vartools.

* `circle s v r`: `get_intersection_with_circle(s, v, r)`, one point (`only_positive=True`, the default)
* `circleBoth s v r`: the same with `only_positive=False`, the two columns of the array
* `invert a`: the angle of `invert_normal()` -/
structure Ext (k : ℕ) where
  circle : Vec k → Vec k → ℝ → Option (Vec k)
  circleBoth : Vec k → Vec k → ℝ → Option (Vec k × Vec k)
  invert : Vec k → Vec k

/-- The factor `weight_deviation = norm_dir_conv / norm_tangent_dist` and the weight of it
(rotational_avoider.py:917-923).  A division by zero gives `inf`, hence the weight one. -/
noncomputable def deviationFactor (weight distance tangentDistance : ℝ) : Option ℝ :=
  open Classical in
  if tangentDistance = 0 then some 1
  else getDirectionalDeviationWeight weight (distance / tangentDistance)

/-- `_get_rotated_convergence_direction` (rotational_avoider.py:883-926) for the angles of the two vectors.
The value `none` is the returned `None`.  Without an intersection `from_angle(None)` fails. -/
noncomputable def rotatedConvergence (ext : Ext k) (weight radius : ℝ) (conv ref : Vec k) :
    Except PyErr (Option (Vec k)) :=
  open Classical in
  if ‖conv‖ ≥ radius then .ok (some conv)
  else if ‖conv - ref‖ = 0 then .ok none
  else
    match ext.circle ref (conv - ref) radius with
    | none => .error .typeError
    | some tangent =>
      match deviationFactor weight ‖conv - ref‖ ‖tangent - ref‖ with
      | none => .error .nan
      | some w => .ok (some (w • tangent + (1 - w) • conv))

/-- The reduction of the weight for velocities which already go beyond the tangent
(rotational_avoider.py:752-767).  The quotient of a vanishing tangent is `nan`, which is not positive. -/
noncomputable def tailWeight (weight : ℝ) (tangent delta : Vec k) : ℝ :=
  open Classical in
  let dot := ⟪tangent, delta⟫ / (‖tangent‖ * ‖delta‖)
  if dot > 0 then weight * (1 - dot) else weight

/-- The tangent direction with the norm `convergence_radius` (rotational_avoider.py:745-750).  Scaling the zero
angle gives `inf * 0`. -/
noncomputable def scaledTangent (radius : ℝ) (tangent : Vec k) : Option (Vec k) :=
  open Classical in
  if radius = ‖tangent‖ then some tangent
  else if ‖tangent‖ = 0 then none
  else some ((radius / ‖tangent‖) • tangent)

/-- `_get_projected_velocity` (rotational_avoider.py:734-776).  With a `nan` tangent the result is `nan`
whenever the weight passes the check at the end. -/
noncomputable def projectedVelocity (tangent initial : Vec k) (weight radius : ℝ) : Except PyErr (Vec k) :=
  open Classical in
  match scaledTangent radius tangent with
  | none => if weight < 0 ∨ weight > 1 then .error .breakpoint else .error .nan
  | some t =>
    if ‖initial - t‖ = 0 then .ok initial
    else
      let w := tailWeight weight t (initial - t)
      if w < 0 ∨ w > 1 then .error .breakpoint
      else .ok (w • t + (1 - w) • initial)

/-- `get_tangent_convergence_direction_from_unit_direction` (rotational_avoider.py:820-851). -/
noncomputable def tangentFromDirection (ext : Ext k) (conv ref : Vec k) (radius : ℝ) : Except PyErr (Vec k) :=
  open Classical in
  if ‖conv - ref‖ = 0 then
    if h : 0 < k then .ok (EuclideanSpace.single ⟨0, h⟩ radius) else .error .indexError
  else
    match ext.circle ref (conv - ref) radius with
    | none => .error .valueError
    | some a => .ok a

/-- The end of `_get_projection_of_inverted_convergence_direction` (rotational_avoider.py:652-673), for the two
intersection points. -/
noncomputable def secantPoint (conv p0 p1 : Vec k) : Except PyErr (Vec k) :=
  open Classical in
  let w := ‖p0 - p1‖ / ‖conv - p0‖
  if w > 1 then .error .breakpoint
  else
    let a := (1 - w) • p0 + w • conv
    if ‖a‖ > Real.pi then .error .notImplemented else .ok a

/-- `_get_projection_of_inverted_convergence_direction` (rotational_avoider.py:574-673). -/
noncomputable def projectionOfInverted (ext : Ext k) (conv nonlinear : Vec k) (radius : ℝ) :
    Except PyErr (Vec k) :=
  open Classical in
  if ‖nonlinear‖ ≤ radius then .ok conv
  else if ‖conv‖ ≤ radius then
    match ext.circle conv (conv - nonlinear) radius with
    | none => .error .typeError
    | some p => .ok p
  else
    match ext.circleBoth conv (conv - nonlinear) radius with
    | none => .ok conv
    | some (p0, p1) => secantPoint conv p0 p1

/-- `_get_projected_nonlinear_velocity` (rotational_avoider.py:675-732). -/
noncomputable def projectedNonlinear (ext : Ext k) (conv nonlinear : Vec k) (weight radius : ℝ) :
    Except PyErr (Vec k) :=
  open Classical in
  let invNonlinear := ext.invert nonlinear
  let invRadius := Real.pi - radius
  if ‖invNonlinear‖ ≤ invRadius then .ok nonlinear
  else
    let invConv := ext.invert conv
    let w := getNonlinearInvertedWeight ‖invConv‖ ‖invNonlinear‖ invRadius weight
    if w = 0 then .ok (ext.invert invNonlinear)
    else
      match projectionOfInverted ext invConv invNonlinear invRadius with
      | .error e => .error e
      | .ok p => .ok (ext.invert (w • p + (1 - w) • invNonlinear))

end Verif.Pull
