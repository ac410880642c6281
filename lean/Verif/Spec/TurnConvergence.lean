import Verif.Spec.TurnScene
import Verif.Spec.Convergence
import Verif.Spec.Shift

/-!
# Specification: the convergence dynamics in turned coordinates
-/

open scoped RealInnerProductSpace

namespace Verif.Spec

variable {d k : ℕ}

/-- The same outcome in turned coordinates: the same exception, no rotation in both, or the turned rotation. -/
def SameTransform (R : Vec d ≃ₗᵢ[ℝ] Vec d) : Except PyErr (Option (Rot (Vec d))) → Except PyErr (Option (Rot (Vec d))) → Prop
  | .error e, .error e' => e = e'
  | .ok none, .ok none => True
  | .ok (some p), .ok (some p') => RotTurned R p p'
  | _, _ => False

/-- `K` gives in the turned coordinates the results which the convergence dynamics of the avoider gives in the old ones, for
the position `x` and the components of the obstacles. -/
structure ConvergenceTurned (R : Vec d ≃ₗᵢ[ℝ] Vec d) (x : Vec d) (a : Avoider d) (K : Convergence d) : Prop where
  weight : ∀ t ∈ a.trees, ∀ o ∈ t.components,
    K.projectedWeight (R x) (turnObstacle R o) = a.convergence.projectedWeight x o
  position : ∀ t ∈ a.trees, ∀ o ∈ t.components,
    SameTransform R (a.convergence.positionToTransform x o) (K.positionToTransform (R x) (turnObstacle R o))
  between : ∀ t ∈ a.trees, ∀ o ∈ t.components, ∀ p, p = x ∨ (∃ o' ∈ t.components, p = o'.referencePoint) →
    SameTransform R (a.convergence.startToEnd p o.referencePoint a.initial.attractorPosition)
      (K.startToEnd (R p) (R o.referencePoint) (a.initial.attractorPosition.map R))

/-- The geometry of an obstacle in the turned coordinates: its own coordinates stay the same. -/
noncomputable def turnGeometry (R : Vec d ≃ₗᵢ[ℝ] Vec d) (g : Geometry d) : Geometry d where
  toLocal y := g.toLocal (R.symm y)
  fromLocal y := R (g.fromLocal y)
  localGamma := g.localGamma
  localRadius := g.localRadius

variable [Fact (2 ≤ d)]

/-- The direction of the dynamics at `y` and the direction to the attractor are equal, or clearly different (for dynamics
without own method `evaluate_dynamics_sequence`). -/
def ClearAt (f : Dynamics d) (y : Vec d) : Prop :=
  f.ownSequence = none → ClearlyApart (unit (referenceDirection y f none)) (unit (f.evaluate y))

/-- The first direction of a sequence is the one to which the rotation leads, up to the absolute tolerance of
`np.allclose`. -/
def Continues (o : Rot (Vec d)) (s : RotSeq (Vec d)) : Prop :=
  ∀ q ∈ s.head?, ‖q.base.b0 - unit o.getSecondVector‖ ≤ 1e-8

/-- The tree of `vector_rotation_reduction`: the sequence `s` to the node 1; the rotation `o` to the node -1, and below it
the sequence `s2` to the node 2. -/
def ReductionTree (s : RotSeq (Vec d)) (o : Rot (Vec d)) (s2 : RotSeq (Vec d)) (t : Tree NodeId d) : Prop :=
  ∃ t1 t2, Tree.fromSequence interId (.num 0) (.num 1) s = .ok t1
    ∧ t1.addNodeOrientation (.num (-1)) o (.num 0) = (t2, .ok ())
    ∧ t2.addSequence interId (.num 2) s2 (.num (-1)) = (t, .ok ())

/-- The obstacle changes the direction of convergence: its weight is larger than the threshold of the code (the weight is
zero if the attractor is inside). -/
def Active (a : Avoider d) (ot : ObstacleTree d) : Prop := ∃ w, treeWeight a ot = .ok w ∧ 1e-6 < w

/-- What C140 requires of the directions of convergence at the position `x`, where `s` is the sequence of the initial
dynamics: sequences start with unit vectors, and continue where the transformation between two positions ends; directions
are equal, or clearly different, and not opposite; projected weights are at most one; only the root of an obstacle has no
parent. -/
structure ClearConvergence (ext : Ext d k) (a : Avoider d) (x : Vec d) (s : RotSeq (Vec d)) : Prop where
  first : ∀ q ∈ s.head?, ‖q.base.b0‖ = 1
  weight : ∀ ot ∈ a.trees, Active a ot → ∀ root ∈ ot.components[ot.rootIdx]?, ∀ w, a.convergence.projectedWeight x root = .ok w → w ≤ 1
  dynamics : ∀ ot ∈ a.trees, Active a ot → ∀ root ∈ ot.components[ot.rootIdx]?, ClearAt (convergenceOf a) root.referencePoint
  reduction : ∀ ot ∈ a.trees, Active a ot → ∀ root ∈ ot.components[ot.rootIdx]?, ∀ o s2,
    a.convergence.positionToTransform x root = .ok (some o)
      → evaluateDynamicsSequence root.referencePoint (convergenceOf a) = .ok (some s2)
      → Continues o s2 ∧ ∀ t, ReductionTree s o s2 t → ClearDirections t
  roots : ∀ ot ∈ a.trees, ∀ c < ot.components.length, ot.parentIdx c = none → c = ot.rootIdx
  chain : ∀ ot ∈ a.trees, Active a ot → ∀ root ∈ ot.components[ot.rootIdx]?, ∀ p,
    (p = x ∨ ∃ o' ∈ ot.components, p = o'.referencePoint) → ∀ r s2,
      a.convergence.startToEnd p root.referencePoint a.initial.attractorPosition = .ok (some r)
      → evaluateDynamicsSequence root.referencePoint (convergenceOf a) = .ok (some s2) → Continues r s2
  tree : ∀ st, ConvergenceTree ext a x s st → ClearDirections st.tree

end Verif.Spec
