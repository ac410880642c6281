import Verif.Model.Composite
import Verif.Model.Sequence

/-!
# Model of the dynamical systems in `nonlinear_avoidance/dynamics`

wavy_attractor_dynamics.py, circular_dynamics.py and spiral_dynamics.py.  The poses are those of
`vartools` (`Verif.Pose`).
-/

open scoped RealInnerProductSpace

namespace Verif
namespace Flows

/-! ## wavy_attractor_dynamics.py -/

/-- `WavyLinearDynamics.get_rotation_matrix(angle) @ v` (wavy_attractor_dynamics.py:37-40). -/
noncomputable def rotate2 (angle : ℝ) (v : Vec 2) : Vec 2 :=
  !₂[Real.cos angle * v 0 + -Real.sin angle * v 1, Real.sin angle * v 0 + Real.cos angle * v 1]

/-- `WavyLinearDynamics` (wavy_attractor_dynamics.py:19-35).  `linear` is `evaluate` of the external
`LinearSystem`. -/
structure Wavy where
  attractor : Vec 2
  stretch : ℝ := 1
  maximumDeviation : ℝ := Real.pi * 0.3
  linear : Vec 2 → Vec 2

/-- `WavyLinearDynamics.evaluate` (wavy_attractor_dynamics.py:42-49). -/
noncomputable def Wavy.evaluate (w : Wavy) (position : Vec 2) : Vec 2 :=
  let distance := ‖position - w.attractor‖
  let deviation := Real.sin (distance * w.stretch)
  rotate2 (deviation * w.maximumDeviation) (w.linear position)

/-! ## circular_dynamics.py: `CircularRotationDynamics` -/

/-- `CircularRotationDynamics` (circular_dynamics.py:92-130), which exists in two dimensions only.
`base` is `base_matrix`; the pose is stored but not used by any method. -/
structure CircularRotation where
  radius : ℝ := 1
  constantVelocity : ℝ := 1
  outsideFactor : ℝ := 1
  insideFactor : ℝ := 1
  direction : ℝ := 1
  pose : Pose 2 := .trivial
  base : Vec 2 ≃ₗᵢ[ℝ] Vec 2 := .refl ℝ _

/-- `CircularRotationDynamics.sigmoid` (circular_dynamics.py:145-162). -/
noncomputable def sigmoid (x : ℝ) (growth : ℝ := 1) (maxExponent : ℝ := 50)
    (margin : ℝ := 1e-9) : ℝ :=
  open Classical in
  let exponent := growth * x
  if exponent > maxExponent then 1 - margin
  else if exponent < (-1) * maxExponent then margin
  else
    let value := 1 / (1 + Real.exp ((-1) * exponent))
    max (min value (1 - margin)) margin

instance : Fact (2 ≤ 2) := ⟨le_refl 2⟩

namespace CircularRotation

/-- `distance_surface` for a distance `n` from the centre (circular_dynamics.py:168-173). -/
noncomputable def distanceSurface (c : CircularRotation) (n : ℝ) : ℝ :=
  open Classical in
  if n < c.radius then (1 - c.radius / n) * c.insideFactor
  else (n - c.radius) * (1 / c.radius) * c.outsideFactor

/-- `get_rotation_weight` (circular_dynamics.py:164-175). -/
noncomputable def rotationWeight (c : CircularRotation) (position : Vec 2) : ℝ :=
  2 * sigmoid (c.distanceSurface ‖position‖)

/-- `self._rotation` (circular_dynamics.py:121-123): `np.copysign(1, direction)`. -/
noncomputable def rotation (c : CircularRotation) : Option (Rot (Vec 2)) :=
  open Classical in
  fromDirections !₂[1, 0] !₂[0, if 0 ≤ c.direction then 1 else -1]

/-- `evaluate` (circular_dynamics.py:177-189). -/
noncomputable def evaluate (c : CircularRotation) (position : Vec 2) : Except PyErr (Vec 2) :=
  open Classical in
  if ‖position‖ = 0 then .ok position
  else
    let localPosition := c.base.symm position
    let weight := c.rotationWeight localPosition
    let initDirection :=
      if ‖localPosition‖ = 0 then localPosition else (1 / ‖localPosition‖) • localPosition
    match c.rotation with
    | none => .error .nan
    | some r => .ok (c.base (c.constantVelocity • r.rotate initDirection weight))

end CircularRotation

/-! ## circular_dynamics.py: `SimpleCircularDynamics` -/

/-- `SimpleCircularDynamics` (circular_dynamics.py:192-225); `k1` and `k2` are `1 / radius`. -/
structure SimpleCircular (d : ℕ) where
  pose : Pose d
  maximumVelocity : ℝ := 1
  radius : ℝ := 1

namespace SimpleCircular
variable {d : ℕ} [Fact (2 ≤ d)]

/-- `np.linalg.norm(position[:2])`. -/
noncomputable def planarNorm (x : Vec d) : ℝ := Real.sqrt (x i0 ^ 2 + x i1 ^ 2)

/-- `get_phi` (circular_dynamics.py:240-243). -/
noncomputable def phi (c : SimpleCircular d) (x : Vec d) : ℝ :=
  open Classical in
  let difference := (x i0 ^ 2 + x i1 ^ 2) - c.radius ^ 2
  if 0 ≤ difference then Real.sqrt |difference| else -Real.sqrt |difference|

/-- `get_grad` (circular_dynamics.py:245-251), as a vector with zeros behind the second entry. -/
noncomputable def grad (x : Vec d) : Vec d :=
  open Classical in
  if planarNorm x = 0 then 0
  else EuclideanSpace.single i0 (x i0 / planarNorm x) + EuclideanSpace.single i1 (x i1 / planarNorm x)

/-- `direction` (circular_dynamics.py:262-265). -/
noncomputable def direction (c : SimpleCircular d) (x : Vec d) : Vec d :=
  WithLp.toLp 2 (fun i =>
    if i = i0 then -(grad x i1) - 1 / c.radius * c.phi x * grad x i0
    else if i = i1 then grad x i0 - 1 / c.radius * c.phi x * grad x i1
    else (-1) * x i * (1 / c.radius))

/-- The local velocity (circular_dynamics.py:255-281). -/
noncomputable def localVelocity (c : SimpleCircular d) (x : Vec d) : Vec d :=
  open Classical in
  let posNorm := ‖x‖
  if posNorm = 0 then 0
  else
    let direction := c.direction x
    if ‖direction‖ = 0 then direction
    else
      let normalized := (1 / ‖direction‖) • direction
      let slowDown := 1 / 3 * c.radius
      if posNorm < slowDown then (posNorm / slowDown * c.maximumVelocity) • normalized
      else normalized

/-- `evaluate` (circular_dynamics.py:253-283): the early returns of lines 255-256 and 267-268 skip
the transformation of the (zero) result, which makes no difference. -/
noncomputable def evaluate (c : SimpleCircular d) (position : Vec d) : Vec d :=
  c.pose.orientation (c.localVelocity (c.pose.toRelative position))

end SimpleCircular

/-! ## circular_dynamics.py: `DynamicDynamics` -/

/-- `DynamicDynamics` (circular_dynamics.py:20-48); `base` is the position of the main dynamics,
`baseVelocity` the dynamics of the base. -/
structure MovingBase (d : ℕ) where
  base : Vec d
  baseVelocity : Vec d → Vec d
  influenceRadius : ℝ := 2
  decentFactor : ℝ := 2
  timeStep : ℝ := 1 / 100

/-- The weight of `update_base` (circular_dynamics.py:60-75); `none`: the early return. -/
noncomputable def MovingBase.weight {d : ℕ} (m : MovingBase d) (position : Vec d) : Option ℝ :=
  open Classical in
  let dist := ‖position - m.base‖
  if dist < m.influenceRadius then some 1
  else if dist < m.influenceRadius * m.decentFactor then
    some ((m.decentFactor * m.influenceRadius - dist) / ((m.decentFactor - 1) * m.influenceRadius))
  else none

/-- `update_base` (circular_dynamics.py:59-81): the state after the call and whether it stopped at
the `breakpoint()` of line 81. -/
noncomputable def MovingBase.updateBase {d : ℕ} (m : MovingBase d) (position : Vec d) :
    MovingBase d × Except PyErr Unit :=
  match m.weight position with
  | none => (m, .ok ())
  | some w => ({ m with base := (w * m.timeStep) • m.baseVelocity m.base + m.base },
      .error .breakpoint)

/-! ## spiral_dynamics.py -/

/-- The two-dimensional part of a three-dimensional vector, `[1:]`. -/
noncomputable def tail3 (x : Vec 3) : Vec 2 := !₂[x 1, x 2]

/-- `np.hstack((0.0, v))`. -/
noncomputable def hstack0 (v : Vec 2) : Vec 3 := !₂[0, v 0, v 1]

/-- Normalising and scaling with the speed (spiral_dynamics.py:57-59, 123-125). -/
noncomputable def normalised (speed : ℝ) (v : Vec 3) : Except PyErr (Vec 3) :=
  open Classical in
  if ‖v‖ = 0 then .error .nan else .ok (speed • ((1 / ‖v‖) • v))

/-- `SpiralingDynamics3D` (spiral_dynamics.py:18-45). -/
structure Spiral where
  pose : Pose 3
  direction : Vec 3
  circular : SimpleCircular 2
  speed : ℝ := 1

/-- `SpiralingDynamics3D.evaluate` (spiral_dynamics.py:47-60).  Note line 52: the rotating velocity
is transformed like a position. -/
noncomputable def Spiral.evaluate (s : Spiral) (position : Vec 3) : Except PyErr (Vec 3) :=
  let localPosition := s.pose.toRelative position
  let rotating := hstack0 (s.circular.evaluate (tail3 localPosition))
  let rotating := s.pose.fromRelative rotating
  normalised s.speed (rotating + s.direction)

/-- `SpiralingAttractorDynamics3D.evaluate` (spiral_dynamics.py:105-126), with the fields of
`Spiral`. -/
noncomputable def Spiral.evaluateAttractor (s : Spiral) (position : Vec 3) :
    Except PyErr (Vec 3) :=
  open Classical in
  let rotating2 := s.circular.evaluate !₂[position 0, position 2]
  let rotating : Vec 3 := !₂[rotating2 0, 0, rotating2 1]
  let toAttractor := s.pose.position - position
  let baseNorm := ‖toAttractor‖
  let toAttractor := if baseNorm > s.speed then (s.speed / baseNorm) • toAttractor else toAttractor
  normalised s.speed (rotating + toAttractor)

end Flows
end Verif
