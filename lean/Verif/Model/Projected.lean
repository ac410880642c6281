import Verif.Model.Avoider

/-!
# Model of `dynamics/projected_rotation_dynamics.py`

`ProjectedRotationDynamics`: deflating and inflating an obstacle, folding and unfolding the space
around the attractor, the projected position, and the convergence sequence around an obstacle.

External code that appears as a parameter:

* `radius`: `obstacle.get_local_radius` in the frame the function is called in,
* `basis v`: `get_orthogonal_basis(v)` of `vartools`, an orthonormal matrix (as a linear isometry)
  whose first column is `v`,
* `directionalSum`: `get_directional_weighted_sum` of `vartools`.
-/

open scoped RealInnerProductSpace

namespace Verif

/-- The geometry of the obstacle that `ProjectedRotationDynamics` uses:

* `toLocal`, `fromLocal`: `pose.transform_position_to_relative`, `.._from_relative`
* `localGamma`: `get_gamma(.., in_obstacle_frame=True)`
* `localRadius`: `get_local_radius(.., in_global_frame=False)` -/
structure Geometry (d : ℕ) where
  toLocal : Vec d → Vec d
  fromLocal : Vec d → Vec d
  localGamma : Vec d → ℝ
  localRadius : Vec d → ℝ

namespace Projected

section Any
variable {d : ℕ}

/-- `relative_position` (projected_rotation_dynamics.py:143-146, 179-183): `ref = none` is the
obstacle frame, otherwise `ref` is `obstacle.global_reference_point`. -/
def relative (ref : Option (Vec d)) (position : Vec d) : Vec d :=
  match ref with
  | none => position
  | some r => position - r

/-- The way back (projected_rotation_dynamics.py:159-162, 193-196, 261-262). -/
def absolute (ref : Option (Vec d)) (relativePosition : Vec d) : Vec d :=
  match ref with
  | none => relativePosition
  | some r => relativePosition + r

/-- `_get_position_after_deflating_obstacle` (projected_rotation_dynamics.py:126-162).  `none`:
the division `0 / 0` of line 156 gives `nan`. -/
noncomputable def deflate (radius : Vec d → ℝ) (ref : Option (Vec d)) (position : Vec d)
    (weight : ℝ := 1) : Option (Vec d) :=
  open Classical in
  let r := radius position
  let rel := relative ref position
  let posNorm := ‖rel‖
  if posNorm < r then some (absolute ref 0)
  else if posNorm = 0 then none
  else some (absolute ref (((posNorm - r * weight) / posNorm) • rel))

/-- `relative_position` after the guard of projected_rotation_dynamics.py:185-188: a zero vector
gets the first coordinate `1e-6`. -/
noncomputable def nudged [Fact (2 ≤ d)] (rel : Vec d) : Vec d :=
  open Classical in if ‖rel‖ = 0 then EuclideanSpace.single i0 1e-6 else rel

/-- `_get_position_after_inflating_obstacle` (projected_rotation_dynamics.py:164-196). -/
noncomputable def inflate [Fact (2 ≤ d)] (radius : Vec d → ℝ) (ref : Option (Vec d))
    (position : Vec d) (weight : ℝ := 1) : Vec d :=
  let r := radius position
  let rel := nudged (relative ref position)
  let posNorm := ‖rel‖
  absolute ref (((posNorm + r * weight) / posNorm) • rel)

/-- `sys.float_info.max`. -/
noncomputable def floatMax : ℝ := 2 ^ 1024 - 2 ^ 971

/-- The vector from the attractor to the obstacle (projected_rotation_dynamics.py:206-212,
274-279). -/
def attractorToObstacle (ref : Option (Vec d)) (attractor : Vec d) : Vec d :=
  match ref with
  | none => (-1 : ℝ) • attractor
  | some r => r - attractor

end Any

section Fold
variable {d : ℕ} [Fact (2 ≤ d)]

/-- Norm of `transformed_position[1:]`. -/
noncomputable def tailNorm (t : Vec d) : ℝ :=
  Real.sqrt (∑ i ∈ Finset.univ.erase (i0 : Fin d), t i ^ 2)

/-- `t` with the first coordinate replaced. -/
noncomputable def setFirst (t : Vec d) (x : ℝ) : Vec d :=
  WithLp.toLp 2 (Function.update (WithLp.ofLp t) i0 x)

/-- `t` with all but the first coordinate multiplied by `c`. -/
noncomputable def scaleTail (t : Vec d) (c : ℝ) : Vec d :=
  WithLp.toLp 2 (fun i => if i = i0 then t i else c * t i)

/-- `transformed_position[0]` (projected_rotation_dynamics.py:231-238). -/
noncomputable def foldedRadial (distAttrObs distAttrPos : ℝ) : ℝ :=
  open Classical in
  if distAttrPos ≠ 0 then distAttrObs * Real.log (distAttrPos / distAttrObs) else (-1) * floatMax

/-- The treatment of the other coordinates (projected_rotation_dynamics.py:240-257).  At the
attractor the direction of line 240 is `nan` and both comparisons are false: nothing changes.
`power` is `self.dotprod_projection_power`. -/
noncomputable def foldTail (t : Vec d) (atAttractor : Prop) (dotProd : ℝ) (power : ℝ) : Vec d :=
  open Classical in
  if atAttractor then t
  else if dotProd ≤ -1 then WithLp.toLp 2 (Function.update (WithLp.ofLp t) i1 floatMax)
  else if dotProd < 1 then
    if tailNorm t ≠ 0 then scaleTail t (1 / tailNorm t * (2 / (1 + dotProd) - 1) ^ (1 / power))
    else t
  else t

/-- `_get_folded_position_opposite_kernel_point` (projected_rotation_dynamics.py:198-263). -/
noncomputable def fold (basis : Vec d → (Vec d ≃ₗᵢ[ℝ] Vec d)) (ref : Option (Vec d))
    (position attractor : Vec d) (power : ℝ := 2) : Vec d :=
  open Classical in
  let vecAO := attractorToObstacle ref attractor
  let distAO := ‖vecAO‖
  if distAO = 0 then position
  else
    let dirAO := (1 / distAO) • vecAO
    let vecAP := position - attractor
    let distAP := ‖vecAP‖
    let t := (basis dirAO).symm vecAP
    let t := setFirst t (foldedRadial distAO distAP)
    let dirAP := (1 / distAP) • vecAP
    let t := foldTail t (distAP = 0) ⟪dirAP, dirAO⟫ power
    let expanded := basis dirAO t
    absolute ref (setFirst expanded (expanded i0 * distAO))

/-- `uniform_position` (projected_rotation_dynamics.py:314-328); the angle of the rotation is
overwritten with `acos(dot_prod)`.  `none` for `nan`. -/
noncomputable def uniformPosition (dirAO dirOP : Vec d) (dotProd : ℝ) : Option (Vec d) :=
  open Classical in
  if dotProd < 1 then
    let dirPerp := dirOP - dotProd • dirAO
    if ‖dirPerp‖ = 0 then none
    else
      match fromDirections dirAO ((1 / ‖dirPerp‖) • dirPerp) with
      | none => none
      | some r => some (({ r with angle := Real.arccos dotProd } : Rot (Vec d)).rotate dirAO)
  else some dirAO

/-- `_get_unfolded_position_opposite_kernel_point` (projected_rotation_dynamics.py:265-342): the
result and the content of the argument array `transformed_position` after the call, which the
assignment of line 297 overwrites in the obstacle frame. -/
noncomputable def unfold (ref : Option (Vec d)) (transformed attractor : Vec d)
    (power : ℝ := 2) : Option (Vec d) × Vec d :=
  open Classical in
  let vecAO := attractorToObstacle ref attractor
  let distAO := ‖vecAO‖
  if distAO = 0 then (some transformed, transformed)
  else
    let dirAO := (1 / distAO) • vecAO
    let vecOP := relative ref transformed
    let vecOP := setFirst vecOP (vecOP i0 / distAO)
    let after := match ref with
      | none => vecOP
      | some _ => transformed
    let posNorm := ‖vecOP‖
    if posNorm = 0 then (some after, after)
    else
      let dirOP := (1 / posNorm) • vecOP
      let radius := ⟪dirAO, dirOP⟫ * posNorm
      let factor := Real.sqrt (max (posNorm ^ 2 - radius ^ 2) 0)
      let dotProd := 2 / (factor ^ power + 1) - 1
      match uniformPosition dirAO dirOP dotProd with
      | none => (none, after)
      | some u => (some ((Real.exp (radius / distAO) * distAO) • u + attractor), after)

/-- `get_projected_position` (projected_rotation_dynamics.py:349-397); `_get_deflation_weight`
(120-124) is the constant one. -/
noncomputable def projectedPosition (basis : Vec d → (Vec d ≃ₗᵢ[ℝ] Vec d)) (g : Geometry d)
    (attractor position : Vec d) (power : ℝ := 2) : Option (Vec d) :=
  open Classical in do
  let rel := g.toLocal position
  let relAttractor := g.toLocal attractor
  if g.localGamma relAttractor < 1 then pure position
  else if g.localGamma rel ≤ 1 then pure position
  else
    let deflatedPosition ← deflate g.localRadius none rel
    let deflatedAttractor ← deflate g.localRadius none relAttractor
    let folded := fold basis none deflatedPosition deflatedAttractor power
    if ‖folded‖ > 1e10 then pure folded
    else pure (g.fromLocal (inflate g.localRadius none folded))

/-- `evaluate_projected_weight` (projected_rotation_dynamics.py:583-598). -/
noncomputable def evaluateProjectedWeight (basis : Vec d → (Vec d ≃ₗᵢ[ℝ] Vec d))
    (g : Geometry d) (attractor position : Vec d) (obstacle : Obstacle d)
    (weightPower : ℝ := 1 / 2) : Option ℝ := do
  let projected ← projectedPosition basis g attractor position
  pure (projectedWeight (obstacle.gamma projected) (obstacle.gamma position) weightPower)

/-- `evaluate_rotation_start_to_end` (projected_rotation_dynamics.py:449-473). -/
noncomputable def rotationStartToEnd (start finish center : Vec d) :
    Except PyErr (Option (Rot (Vec d))) :=
  open Classical in
  let dirStart := center - start
  if ‖dirStart‖ = 0 then .ok none
  else
    let dirStart := (1 / ‖dirStart‖) • dirStart
    let dirEnd := center - finish
    if ‖dirEnd‖ = 0 then .error .notImplemented
    else
      let dirEnd := (1 / ‖dirEnd‖) • dirEnd
      if ⟪dirStart, dirEnd⟫ ≤ -1 then .ok none
      else
        match fromDirections dirStart dirEnd with
        | none => .error .nan
        | some r => .ok (some r)

/-- `evaluate_rotation_position_to_transform` (projected_rotation_dynamics.py:475-498): the same
lines with the reference point of the obstacle as end and the attractor as centre. -/
noncomputable def rotationPositionToTransform (attractor position : Vec d) (obstacle : Obstacle d) :
    Except PyErr (Option (Rot (Vec d))) :=
  rotationStartToEnd position obstacle.referencePoint attractor

/-- `get_base_convergence` (projected_rotation_dynamics.py:441-447), also `_get_lyapunov_gradient`
(399-409). -/
noncomputable def baseConvergence (attractor position : Vec d) : Vec d :=
  open Classical in
  if ‖attractor - position‖ = 0 then attractor - position
  else (1 / ‖attractor - position‖) • (attractor - position)

/-- `evaluate_convergence_sequence_around_obstacle` (projected_rotation_dynamics.py:600-623).
`None.push_root_from_base_and_angle` raises `AttributeError`. -/
noncomputable def convergenceSequence (initial : Dynamics d) (attractor position : Vec d)
    (obstacle : Obstacle d) (initialSequence : RotSeq (Vec d)) : Except PyErr (RotSeq (Vec d)) := do
  match ← rotationPositionToTransform attractor position obstacle with
  | none => pure initialSequence
  | some r =>
    match ← evaluateDynamicsSequence obstacle.referencePoint initial with
    | none => throw .attributeError
    | some s => pure (s.pushRootFromBaseAndAngle r.base r.angle)

/-- `evaluate_convergence_around_obstacle` (projected_rotation_dynamics.py:625-676).
`directionalSum null directions weights` is `get_directional_weighted_sum(..., normalize=True)`. -/
noncomputable def convergenceAroundObstacle
    (directionalSum : Vec d → List (Vec d) → List ℝ → Vec d)
    (basis : Vec d → (Vec d ≃ₗᵢ[ℝ] Vec d)) (g : Geometry d)
    (initial : Vec d → Vec d) (attractor position : Vec d) (obstacle : Obstacle d) :
    Except PyErr (Vec d) := do
  let initialVelocity := initial position
  let obstacleVelocity := initial obstacle.referencePoint
  match ← rotationPositionToTransform attractor position obstacle with
  | none => pure initialVelocity
  | some r =>
    let transformed := r.rotate initialVelocity
    match evaluateProjectedWeight basis g attractor position obstacle with
    | none => throw .nan
    | some weight =>
      let averaged :=
        directionalSum transformed [obstacleVelocity, transformed] [weight, 1 - weight]
      let averaged := r.rotate averaged ((-1) * (1 - weight))
      pure (‖initialVelocity‖ • averaged)

/-- `compute_obstacle_convergence_sequence` (projected_rotation_dynamics.py:500-548).  Line 517
calls `evaluate_rotation_position_to_transform` without its argument `obstacle`, which raises
`TypeError`; the rest of the method cannot be reached. -/
noncomputable def obstacleConvergenceSequence (basis : Vec d → (Vec d ≃ₗᵢ[ℝ] Vec d))
    (g : Geometry d) (attractor position : Vec d) (obstacle : Obstacle d)
    (initialSequence : RotSeq (Vec d)) : Except PyErr (RotSeq (Vec d)) :=
  open Classical in
  match evaluateProjectedWeight basis g attractor position obstacle with
  | none => .error .typeError
  | some weight => if weight ≤ 0 then .ok initialSequence else .error .typeError

/-- `ProjectedRotationDynamics` as the convergence dynamics of an avoider.  `geometry` gives the
local geometry of each obstacle.  `evaluate_rotation_start_to_end` without a centre raises
`TypeError` (`None - start`). -/
noncomputable def convergence (basis : Vec d → (Vec d ≃ₗᵢ[ℝ] Vec d))
    (geometry : Obstacle d → Geometry d) (attractor : Vec d) : Convergence d where
  projectedWeight p o :=
    match evaluateProjectedWeight basis (geometry o) attractor p o with
    | none => .error .nan
    | some w => .ok w
  positionToTransform p o := rotationPositionToTransform attractor p o
  startToEnd s e c :=
    match c with
    | none => .error .typeError
    | some c => rotationStartToEnd s e c

end Fold
end Projected
end Verif
