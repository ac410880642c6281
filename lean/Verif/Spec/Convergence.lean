import Verif.Spec.Avoider
import Verif.Spec.Path
import Verif.Props.TreeMean

/-!
# Vocabulary for the convergence direction of the avoider
-/

namespace Verif.Spec

variable {d k : ℕ} [Fact (2 ≤ d)]

/-- A sequence of rotations as it comes from a list of vectors, no two neighbours of which are opposite or closer
than the numerical tolerance (unless they are equal). -/
structure Proper (s : RotSeq (Vec d)) : Prop where
  ne : s ≠ []
  on : ∀ q ∈ s, OrthonormalPair q.base.b0 q.base.b1
  connected : Connected s
  good : ∀ q ∈ s, GoodPair q.getFirstVector q.getSecondVector
  short : s.length < 50

/-- The weight of a component of an obstacle for the convergence at the position `x`: the projected weight times
the weight of the obstacle; both exceed the threshold of the code. -/
def ConvergenceWeight (a : Avoider d) (x : Vec d) (t : ObstacleTree d) (o : Obstacle d) (w : ℝ) : Prop :=
  ∃ p g, a.convergence.projectedWeight x o = .ok p ∧ treeWeight a t = .ok g ∧ 1e-6 < p ∧ 1e-6 < g ∧ w = p * g

/-- The dynamics to which the avoider converges: the default dynamics, if there are any, otherwise the initial
ones. -/
def convergenceOf (a : Avoider d) : Dynamics d := a.default.getD a.initial

/-- `st` is the tree of convergence directions at the position `x`, with the nodes and weights of the obstacles,
for the sequence `s` of the initial dynamics. -/
def ConvergenceTree (ext : Ext d k) (a : Avoider d) (x : Vec d) (s : RotSeq (Vec d)) (st : ConvState d) : Prop :=
  ∃ t, Tree.fromSequence interId (.num (-10)) (.num (-1)) s = .ok t
    ∧ a.trees.zipIdx.foldlM (convTree ext a x s) ⟨t, [], []⟩ = .ok st

end Verif.Spec
