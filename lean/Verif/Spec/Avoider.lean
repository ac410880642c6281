import Verif.Model.Avoider
import Verif.Spec.Geometry
import Verif.Spec.Weights

/-!
# Vocabulary for statements about the avoider
-/

namespace Verif.Spec

variable {d : ℕ}

/-- The position is on the surface or inside of one of the components. -/
def InContact (x : Vec d) (t : ObstacleTree d) : Prop := ∃ o ∈ t.components, o.gamma x ≤ 1

/-- At most one of the obstacles is in contact. -/
def AtMostOneContact (x : Vec d) (ts : List (ObstacleTree d)) : Prop :=
  ts.Pairwise (fun t t' => ¬ (InContact x t ∧ InContact x t'))

/-- The obstacle neither moves nor deforms. -/
def Static (t : ObstacleTree d) : Prop := t.twist = none ∧ t.deformationRate = none

/-- What the external obstacle class guarantees: distance values are non-negative, normal and
reference directions are at most unit vectors. -/
structure SaneObstacle (o : Obstacle d) : Prop where
  gamma_nonneg : ∀ y, 0 ≤ o.gamma y
  normal_le : ∀ y, ‖o.normal y‖ ≤ 1
  reference_le : ∀ y, ‖o.reference y‖ ≤ 1

/-- The position is on the surface of the obstacle, and the external intersection of the surface with the ray from
the position away from the reference point is the position itself. -/
structure OnSurface (o : Obstacle d) (x : Vec d) : Prop where
  gamma : o.gamma x = 1
  outward : o.intersection x ((-1 : ℝ) • o.reference x) = some x

/-- The external intersection of the surface with the ray from the position towards the reference point is the position
itself: the intersection closest to the position is taken. -/
def NearFirst (o : Obstacle d) (x : Vec d) : Prop := o.intersection x (o.reference x) = some x

/-- The component is attached to its parent: its reference point is inside of the parent, the inside of the parent is
convex, and the external intersection of the surface of the component with a ray away from the reference point, from
inside of the component, is on this ray. -/
structure AttachedTo (o parent : Obstacle d) : Prop where
  inside : parent.gamma o.referencePoint < 1
  convex : Convex ℝ {y | parent.gamma y < 1}
  outward : ∀ y, y ≠ o.referencePoint → o.gamma y < 1 → ∃ s : ℝ, 0 ≤ s
    ∧ o.intersection y ((-1 : ℝ) • o.reference y) = some (y + s • (y - o.referencePoint))

/-- All components of all obstacles are sane. -/
def SaneTrees (ts : List (ObstacleTree d)) : Prop := ∀ t ∈ ts, ∀ o ∈ t.components, SaneObstacle o

/-- Non-negative weights with sum one. -/
def Convex (ws : List ℝ) : Prop := Nonneg ws ∧ ws.sum = 1

end Verif.Spec

namespace Verif.Spec

/-- The velocity at the position `x` of the plane that moves with an obstacle: translation,
rotation around and expansion from the position of the obstacle.  The rotation is scaled
with `s`. -/
noncomputable def movedVelocity (x : Vec 2) (s : ℝ) (t : ObstacleTree 2) : Vec 2 :=
  let r := x - t.position
  let linear : Vec 2 := match t.twist with
    | none => 0
    | some (lin, _) => lin
  let angular : ℝ := match t.twist with
    | some (_, some w) => w
    | _ => 0
  let rate : ℝ := t.deformationRate.getD 0
  linear + (s * angular) • !₂[-(r 1), r 0] + rate • r

/-- The velocity at the position `x` of a space that moves with an obstacle which does not rotate: translation, and
expansion from the position of the obstacle. -/
noncomputable def driftVelocity {d : ℕ} (x : Vec d) (t : ObstacleTree d) : Vec d :=
  (match t.twist with
    | none => 0
    | some (lin, _) => lin) + t.deformationRate.getD 0 • (x - t.position)

/-- The dynamics moves at `x`: a dynamics without an own sequence (see `Dynamics.ownSequence`) has a non-zero velocity,
and is not at its attractor; a dynamics with an own sequence does not answer "at rest". -/
def MovesAt {d : ℕ} (dyn : Dynamics d) (x : Vec d) : Prop :=
  (dyn.ownSequence = none → dyn.evaluate x ≠ 0 ∧ dyn.attractorPosition ≠ some x)
    ∧ ∀ f, dyn.ownSequence = some f → f x ≠ .ok none

/-- The obstacle rotates. -/
def Rotating {d : ℕ} (t : ObstacleTree d) : Prop := ∃ lin w, t.twist = some (lin, some w)

end Verif.Spec

namespace Verif.Spec

variable {d k : ℕ} [Fact (2 ≤ d)]

/-- In the evaluation of the avoider at the position `x`, the sequence of the initial dynamics, the
convergence sequence and its end vector `u` are defined, and `pr` is what is prepared for the final
averaging (tangent directions, weights, normals). -/
def PreparedFor (ext : Ext d k) (a : Avoider d) (x : Vec d) (pr : Prepared d) : Prop :=
  ∃ s conv u, evaluateDynamicsSequence x a.initial = .ok (some s)
    ∧ computeConvergenceSequence ext a x s = .ok conv ∧ conv.getEndVector = .ok u
    ∧ prepareAvoidance ext a x u = .ok pr

end Verif.Spec
