import Verif.Model.Projected

/-!
# Specification: the same scene in other coordinates

The scene is described with another origin: every position `y` becomes `y + c`, every direction stays as it is.
-/

namespace Verif.Spec

variable {d : ℕ}

/-- The obstacle, moved by `c`. -/
noncomputable def shiftObstacle (c : Vec d) (o : Obstacle d) : Obstacle d where
  gamma y := o.gamma (y - c)
  normal y := o.normal (y - c)
  reference y := o.reference (y - c)
  referencePoint := o.referencePoint + c
  center := o.center + c
  intersection s v := (o.intersection (s - c) v).map (· + c)
  tailEffect := o.tailEffect
  isBoundary := o.isBoundary
  isCuboid := o.isCuboid

/-- The obstacle tree, moved by `c`. -/
noncomputable def shiftTree (c : Vec d) (t : ObstacleTree d) : ObstacleTree d where
  components := t.components.map (shiftObstacle c)
  rootIdx := t.rootIdx
  parentIdx := t.parentIdx
  position := t.position + c
  twist := t.twist
  deformationRate := t.deformationRate

/-- The dynamics, moved by `c`. -/
noncomputable def shiftDynamics (c : Vec d) (f : Dynamics d) : Dynamics d where
  evaluate y := f.evaluate (y - c)
  attractorPosition := f.attractorPosition.map (· + c)
  ownSequence := f.ownSequence.map (fun s y => s (y - c))

/-- The convergence dynamics, moved by `c`. -/
noncomputable def shiftConvergence (c : Vec d) (k : Convergence d) : Convergence d where
  projectedWeight y o := k.projectedWeight (y - c) (shiftObstacle (-c) o)
  positionToTransform y o := k.positionToTransform (y - c) (shiftObstacle (-c) o)
  startToEnd s e z := k.startToEnd (s - c) (e - c) (z.map (· - c))

/-- The whole scene, moved by `c`. -/
noncomputable def shiftAvoider (c : Vec d) (a : Avoider d) : Avoider d where
  initial := shiftDynamics c a.initial
  evaluateMagnitude := a.evaluateMagnitude.map (fun m y => m (y - c))
  default := a.default.map (shiftDynamics c)
  convergence := shiftConvergence c a.convergence
  convergenceRadius := a.convergenceRadius
  gammaMaximumRepulsion := a.gammaMaximumRepulsion
  power := a.power
  trees := a.trees.map (shiftTree c)

/-- `K` gives in the coordinates moved by `c` the results which the convergence dynamics of the avoider gives in the
old ones (for the position `x` and the components of the obstacles). -/
structure ConvergenceMoved (c x : Vec d) (a : Avoider d) (K : Convergence d) : Prop where
  projectedWeight : ∀ t ∈ a.trees, ∀ o ∈ t.components,
    K.projectedWeight (x + c) (shiftObstacle c o) = a.convergence.projectedWeight x o
  positionToTransform : ∀ t ∈ a.trees, ∀ o ∈ t.components,
    K.positionToTransform (x + c) (shiftObstacle c o) = a.convergence.positionToTransform x o
  startToEnd : ∀ s e z, K.startToEnd (s + c) (e + c) (z.map (· + c)) = a.convergence.startToEnd s e z

/-- For every component which contains `x`, the comparison of the position with the centre has the same outcome in both
coordinates, or the comparison is not made. -/
def SameRadii (a : Avoider d) (c x : Vec d) (t : ObstacleTree d) : Prop :=
  a.gammaMaximumRepulsion = none
    ∨ ∀ o ∈ t.components, o.gamma x < 1 → (allclose (x + c) (o.center + c) ↔ allclose x o.center)

/-- The geometry of the obstacle, moved by `c`. -/
noncomputable def shiftGeometry (c : Vec d) (g : Geometry d) : Geometry d where
  toLocal y := g.toLocal (y - c)
  fromLocal y := g.fromLocal y + c
  localGamma := g.localGamma
  localRadius := g.localRadius

/-- The folded position is not so far away that `get_projected_position` returns it without the transformation back. -/
def NotFar [Fact (2 ≤ d)] (basis : Vec d → (Vec d ≃ₗᵢ[ℝ] Vec d)) (g : Geometry d) (attractor x : Vec d) : Prop :=
  ∀ p q, Projected.deflate g.localRadius none (g.toLocal x) = some p
    → Projected.deflate g.localRadius none (g.toLocal attractor) = some q → ‖Projected.fold basis none p q‖ ≤ 1e10

end Verif.Spec
