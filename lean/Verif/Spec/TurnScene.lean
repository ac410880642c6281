import Verif.Spec.Turn
import Verif.Spec.Avoider

/-!
# Specification: the same scene with turned axes

The linear isometry `R` (a rotation or a reflection) gives the new coordinates: every position and every direction `y`
becomes `R y`.
-/

open scoped RealInnerProductSpace

namespace Verif.Spec

variable {d : ℕ}

/-- The obstacle in the turned coordinates. -/
noncomputable def turnObstacle (R : Vec d ≃ₗᵢ[ℝ] Vec d) (o : Obstacle d) : Obstacle d where
  gamma y := o.gamma (R.symm y)
  normal y := R (o.normal (R.symm y))
  reference y := R (o.reference (R.symm y))
  referencePoint := R o.referencePoint
  center := R o.center
  intersection s v := (o.intersection (R.symm s) (R.symm v)).map R
  tailEffect := o.tailEffect
  isBoundary := o.isBoundary
  isCuboid := o.isCuboid

/-- The obstacle tree in the turned coordinates.  The angular velocity of the plane is kept (theorems about this
specification only allow obstacles which do not rotate). -/
noncomputable def turnObstacles (R : Vec d ≃ₗᵢ[ℝ] Vec d) (t : ObstacleTree d) : ObstacleTree d where
  components := t.components.map (turnObstacle R)
  rootIdx := t.rootIdx
  parentIdx := t.parentIdx
  position := R t.position
  twist := t.twist.map (fun w => (R w.1, w.2))
  deformationRate := t.deformationRate

/-- The dynamics in the turned coordinates. -/
noncomputable def turnDynamics (R : Vec d ≃ₗᵢ[ℝ] Vec d) (f : Dynamics d) : Dynamics d where
  evaluate y := R (f.evaluate (R.symm y))
  attractorPosition := f.attractorPosition.map R
  ownSequence := f.ownSequence.map (fun s y => (s (R.symm y)).map (fun q => q.map (fun l => l.map (turnRot R))))

/-- The whole scene in the turned coordinates, with the convergence dynamics `K`. -/
noncomputable def turnedAvoider (R : Vec d ≃ₗᵢ[ℝ] Vec d) (a : Avoider d) (K : Convergence d) : Avoider d where
  initial := turnDynamics R a.initial
  evaluateMagnitude := a.evaluateMagnitude.map (fun m y => m (R.symm y))
  default := a.default.map (turnDynamics R)
  convergence := K
  convergenceRadius := a.convergenceRadius
  gammaMaximumRepulsion := a.gammaMaximumRepulsion
  power := a.power
  trees := a.trees.map (turnObstacles R)

/-- A component of an obstacle which is star-shaped with respect to its reference point: everywhere else the normal is a
unit vector which points away from the reference point; the reference direction points to the reference point; a ray which
starts at the reference point, or another point not outside, meets the surface in a point of the ray. -/
structure StarComponent (o : Obstacle d) : Prop where
  smooth : o.isCuboid = false
  reference : ∀ y, o.reference y = -unit (y - o.referencePoint)
  normal : ∀ y, y ≠ o.referencePoint → ‖o.normal y‖ = 1 ∧ 0 < ⟪o.normal y, y - o.referencePoint⟫
  ray : ∀ s v p, s = o.referencePoint ∨ o.gamma s ≤ 1 → o.intersection s v = some p → p ≠ o.referencePoint ∧ ∃ t : ℝ, 0 ≤ t ∧ p = s + t • v

/-- On the way from a component to the root of its obstacle, the reference directions of a component and its parent are
equal, or clearly different. -/
def ClearBranches (x : Vec d) (t : ObstacleTree d) : Prop :=
  ∀ j entries, computeBranch x j t = .ok entries → ∀ e ∈ entries.zip entries.tail,
    ClearlyApart (unit e.2.reference) (unit e.1.reference)

/-- The position is outside of all components, or on their surface. -/
def NotInside (x : Vec d) (t : ObstacleTree d) : Prop := ∀ o ∈ t.components, 1 ≤ o.gamma x ∧ x ≠ o.referencePoint

/-- The direction of convergence is defined at the position, it is a unit vector, and in the turned scene it is the turned
one. -/
def DirectionTurned {k : ℕ} [Fact (2 ≤ d)] (ext : Ext d k) (R : Vec d ≃ₗᵢ[ℝ] Vec d) (a : Avoider d) (K : Convergence d)
    (x : Vec d) : Prop :=
  ∃ s conv v s' conv', evaluateDynamicsSequence x a.initial = .ok (some s)
    ∧ computeConvergenceSequence ext a x s = .ok conv ∧ conv.getEndVector = .ok v ∧ ‖v‖ = 1
    ∧ evaluateDynamicsSequence (R x) (turnDynamics R a.initial) = .ok (some s')
    ∧ computeConvergenceSequence ext (turnedAvoider R a K) (R x) s' = .ok conv' ∧ conv'.getEndVector = .ok (R v)

/-- What C140 requires of an obstacle at a position: it does not rotate, its components are star-shaped, the position is
not inside of them, and the reference directions of a component and its parent are equal or clearly different. -/
structure TurnReady (x : Vec d) (ot : ObstacleTree d) : Prop where
  star : ∀ o ∈ ot.components, StarComponent o
  outside : NotInside x ot
  clear : ClearBranches x ot
  still : ¬ Rotating ot

end Verif.Spec
