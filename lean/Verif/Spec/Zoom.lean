import Verif.Spec.TimeScale
import Verif.Model.Projected

/-!
# Specification: the same scene with another unit of length

Every position `y` becomes `c y`; directions stay as they are.  `zoom...` keeps the velocities, `unit...` multiplies them by
`c` as well: the same motion, described with another unit of length.
-/

namespace Verif.Spec

variable {d : ℕ}

/-- The obstacle, enlarged by `c`. -/
noncomputable def zoomObstacle (c : ℝ) (o : Obstacle d) : Obstacle d where
  gamma y := o.gamma (c⁻¹ • y)
  normal y := o.normal (c⁻¹ • y)
  reference y := o.reference (c⁻¹ • y)
  referencePoint := c • o.referencePoint
  center := c • o.center
  intersection s v := (o.intersection (c⁻¹ • s) v).map (c • ·)
  tailEffect := o.tailEffect
  isBoundary := o.isBoundary
  isCuboid := o.isCuboid

/-- The obstacle tree, enlarged by `c`, with the same velocities of its points. -/
noncomputable def zoomTree (c : ℝ) (t : ObstacleTree d) : ObstacleTree d where
  components := t.components.map (zoomObstacle c)
  rootIdx := t.rootIdx
  parentIdx := t.parentIdx
  position := c • t.position
  twist := t.twist.map (fun w => (w.1, w.2.map (fun a => c⁻¹ * a)))
  deformationRate := t.deformationRate.map (fun r => c⁻¹ * r)

/-- The dynamics, enlarged by `c`, with the same velocities. -/
noncomputable def zoomDynamics (c : ℝ) (f : Dynamics d) : Dynamics d where
  evaluate y := f.evaluate (c⁻¹ • y)
  attractorPosition := f.attractorPosition.map (c • ·)
  ownSequence := f.ownSequence.map (fun s y => s (c⁻¹ • y))

/-- The whole scene, enlarged by `c`, with the same velocities and the convergence dynamics `K`. -/
noncomputable def zoomAvoider (c : ℝ) (a : Avoider d) (K : Convergence d) : Avoider d where
  initial := zoomDynamics c a.initial
  evaluateMagnitude := a.evaluateMagnitude.map (fun m y => m (c⁻¹ • y))
  default := a.default.map (zoomDynamics c)
  convergence := K
  convergenceRadius := a.convergenceRadius
  gammaMaximumRepulsion := a.gammaMaximumRepulsion
  power := a.power
  trees := a.trees.map (zoomTree c)

/-- The obstacle tree with another unit of length: the linear velocity is multiplied, the angular velocity and the rate of
the deformation are not. -/
noncomputable def unitTree (c : ℝ) (t : ObstacleTree d) : ObstacleTree d where
  components := t.components.map (zoomObstacle c)
  rootIdx := t.rootIdx
  parentIdx := t.parentIdx
  position := c • t.position
  twist := t.twist.map (fun w => (c • w.1, w.2))
  deformationRate := t.deformationRate

/-- The dynamics with another unit of length. -/
noncomputable def unitDynamics (c : ℝ) (f : Dynamics d) : Dynamics d where
  evaluate y := c • f.evaluate (c⁻¹ • y)
  attractorPosition := f.attractorPosition.map (c • ·)
  ownSequence := f.ownSequence.map (fun s y => s (c⁻¹ • y))

/-- The whole scene with another unit of length. -/
noncomputable def unitAvoider (c : ℝ) (a : Avoider d) (K : Convergence d) : Avoider d where
  initial := unitDynamics c a.initial
  evaluateMagnitude := a.evaluateMagnitude.map (fun m y => c * m (c⁻¹ • y))
  default := a.default.map (unitDynamics c)
  convergence := K
  convergenceRadius := a.convergenceRadius
  gammaMaximumRepulsion := a.gammaMaximumRepulsion
  power := a.power
  trees := a.trees.map (unitTree c)

/-- The local geometry of an obstacle, enlarged by `c`. -/
noncomputable def zoomGeometry (c : ℝ) (g : Geometry d) : Geometry d where
  toLocal y := c • g.toLocal (c⁻¹ • y)
  fromLocal y := c • g.fromLocal (c⁻¹ • y)
  localGamma y := g.localGamma (c⁻¹ • y)
  localRadius y := c * g.localRadius (c⁻¹ • y)

/-- `K` gives in the enlarged scene the results which the convergence dynamics of the avoider gives in the old one (for the
position `x` and the components of the obstacles). -/
structure ConvergenceZoomed (c : ℝ) (x : Vec d) (a : Avoider d) (K : Convergence d) : Prop where
  projectedWeight : ∀ t ∈ a.trees, ∀ o ∈ t.components,
    K.projectedWeight (c • x) (zoomObstacle c o) = a.convergence.projectedWeight x o
  positionToTransform : ∀ t ∈ a.trees, ∀ o ∈ t.components,
    K.positionToTransform (c • x) (zoomObstacle c o) = a.convergence.positionToTransform x o
  startToEnd : ∀ s e z, K.startToEnd (c • s) (c • e) (z.map (c • ·)) = a.convergence.startToEnd s e z

/-- For every component which contains `x`, the comparison of the position with the centre has the same outcome with both
units, or the comparison is not made. -/
def SameCentre (a : Avoider d) (c : ℝ) (x : Vec d) (t : ObstacleTree d) : Prop :=
  a.gammaMaximumRepulsion = none
    ∨ ∀ o ∈ t.components, o.gamma x < 1 → (allclose (c • x) (c • o.center) ↔ allclose x o.center)

/-- The intersection of a ray does not depend on the length of the direction. -/
def RayObstacle (o : Obstacle d) : Prop := ∀ s v : Vec d, ∀ t : ℝ, 0 < t → o.intersection s (t • v) = o.intersection s v

/-- `y` is the attractor, or it is further than `1e-8` away with both units. -/
def NotNear (c : ℝ) (f : Dynamics d) (y : Vec d) : Prop :=
  f.ownSequence = none → ∀ z ∈ f.attractorPosition, z = y ∨ (1e-8 < ‖z - y‖ ∧ 1e-8 < ‖c • (z - y)‖)

end Verif.Spec
