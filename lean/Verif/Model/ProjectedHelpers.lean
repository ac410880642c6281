import Verif.Model.Projected

/-!
# Model of helpers of `ProjectedRotationDynamics` (dynamics/projected_rotation_dynamics.py)

`_get_lyapunov_gradient`, `_get_projected_lyapunov_gradient`, `_get_vector_rotation_of_modulation`,
`get_projected_gamma` and `evaluate_rotation_shrunkposition_to_transform`.
-/

namespace Verif.Projected

variable {d : ℕ} [Fact (2 ≤ d)]

/-- `_get_lyapunov_gradient` (projected_rotation_dynamics.py:399-408). -/
noncomputable def lyapunovGradient (attractor position : Vec d) : Vec d :=
  open Classical in
  let dir := attractor - position
  if ‖dir‖ = 0 then 0 else (1 / ‖dir‖) • dir

/-- `_get_projected_lyapunov_gradient` (projected_rotation_dynamics.py:410-419); the position is not used. -/
noncomputable def projectedLyapunovGradient (attractor reference _position : Vec d) : Vec d :=
  open Classical in
  let dir := attractor - reference
  if ‖dir‖ = 0 then 0 else (1 / ‖dir‖) • dir

/-- `VectorRotationXd(np.eye(self.dimension, 2), rotation_angle=0.0)` (projected_rotation_dynamics.py:426, 435). -/
noncomputable def trivialRotation : Rot (Vec d) :=
  ⟨⟨EuclideanSpace.single i0 1, EuclideanSpace.single i1 1⟩, 0⟩

/-- `_get_vector_rotation_of_modulation` (projected_rotation_dynamics.py:421-439): `avoid` is
`obstacle_avoidance_rotational` (avoidance/rotational_avoidance.py:13-15) with the obstacle and the velocity as
convergence velocity. -/
noncomputable def modulationRotation (avoid : Vec d → Vec d → Except PyErr (Vec d)) (position velocity : Vec d) :
    Except PyErr (Rot (Vec d)) :=
  open Classical in
  if ‖velocity‖ = 0 then .ok trivialRotation
  else
    match avoid position velocity with
    | .error e => .error e
    | .ok modulated =>
      if ‖modulated‖ = 0 then .ok trivialRotation
      else
        match fromDirections ((1 / ‖velocity‖) • velocity) ((1 / ‖modulated‖) • modulated) with
        | none => .error .nan
        | some r => .ok r

/-- `get_projected_gamma` (projected_rotation_dynamics.py:93-118): `self.rotation` (line 104) is never set, and without
`return` (line 118) the result is `None`. -/
noncomputable def projectedGamma (gamma : Vec d → ℝ) (minGamma maxGamma : ℝ) (attractor position : Vec d) :
    Except PyErr (Option ℝ) :=
  open Classical in
  if gamma position ≥ maxGamma then .ok (some maxGamma)
  else if gamma position ≥ minGamma then
    if ‖attractor - position‖ = 0 then .ok none else .error .attributeError
  else .ok none

/-- A call of `_get_position_after_deflating_obstacle` with keywords (projected_rotation_dynamics.py:126-131): an unknown
keyword raises `TypeError`, the default weight is one. Simplified: the keyword `in_obstacle_frame` is left out, the frame
being fixed to the one of the caller. -/
noncomputable def deflateCall (radius : Vec d → ℝ) (ref : Option (Vec d)) (position : Vec d)
    (keywords : List (String × ℝ)) : Except PyErr (Vec d) :=
  if keywords.any (fun k => k.1 ∉ ["deflation_weight"]) then .error .typeError
  else
    match deflate radius ref position (((keywords.find? (fun k => k.1 = "deflation_weight")).map Prod.snd).getD 1) with
    | none => .error .nan
    | some p => .ok p

/-- `evaluate_rotation_shrunkposition_to_transform` (projected_rotation_dynamics.py:550-581): the keyword is `weight`
(lines 558, 561); the rest is `evaluate_rotation_start_to_end` with the shrunk positions. -/
noncomputable def shrunkPositionRotation (radius : Vec d → ℝ) (ref : Option (Vec d)) (attractor position : Vec d)
    (obstacle : Obstacle d) : Except PyErr (Option (Rot (Vec d))) := do
  let shrunkPosition ← deflateCall radius ref position [("weight", 1)]
  let shrunkAttractor ← deflateCall radius ref attractor [("weight", 1)]
  rotationStartToEnd shrunkPosition obstacle.referencePoint shrunkAttractor

end Verif.Projected
