import Verif.Model.Tree
import Verif.Spec.Geometry
import Mathlib.Logic.Relation

/-!
# Specification vocabulary for direction trees (C17 – C27)

Only the raw data of a tree (node list, edge list, attributes) is used here.
-/

open scoped RealInnerProductSpace

namespace Verif.Spec

variable {I : Type} [DecidableEq I] {d : ℕ}

/-- `a` is the parent of `b`. -/
def IsParent (t : Tree I d) (a b : I) : Prop := (a, b) ∈ t.edges

/-- `b` is a proper descendant of `a`. -/
def Descendant (t : Tree I d) (a b : I) : Prop := Relation.TransGen (IsParent t) a b

/-- A rooted tree with consistent levels and unit directions. -/
structure RootedTree (t : Tree I d) (r : I) : Prop where
  /-- identifiers are unique -/
  nodup : t.nodes.Nodup
  /-- the root was inserted first -/
  root_first : t.nodes.head? = some r
  root_idx : t.root = some r
  /-- edges connect existing nodes -/
  edge_fst : ∀ p c, IsParent t p c → p ∈ t.nodes
  edge_snd : ∀ p c, IsParent t p c → c ∈ t.nodes
  /-- no node has two incoming edges -/
  one_parent : (t.edges.map Prod.snd).Nodup
  /-- every node but the root has a parent -/
  has_parent : ∀ n ∈ t.nodes, n ≠ r → ∃ p, IsParent t p n
  root_no_parent : ∀ p, ¬ IsParent t p r
  /-- parents are inserted before their children -/
  parent_before : ∀ p c, IsParent t p c → t.nodes.idxOf p < t.nodes.idxOf c
  root_level : t.level r = some 0
  child_level : ∀ p c, IsParent t p c → ∃ l, t.level p = some l ∧ t.level c = some (l + 1)
  level_bound : ∀ n ∈ t.nodes, ∃ l, t.level n = some l ∧ 0 ≤ l ∧ l < 100
  unit_dir : ∀ n ∈ t.nodes, ∃ v, t.dir n = some v ∧ ‖v‖ = 1
  /-- only existing nodes have attributes -/
  no_attr : ∀ n, n ∉ t.nodes → t.level n = none ∧ t.dir n = none

/-- What `np.argsort` guarantees: a permutation of the indices that sorts the list. -/
def ArgsortSpec (argsort : List ℤ → List ℕ) : Prop :=
  ∀ l : List ℤ, (argsort l).Perm (List.range l.length)
    ∧ ((argsort l).map (fun i => l.getD i 0)).Pairwise (· ≤ ·)

/-- The direction of a node (zero if it has none). -/
def dirOf (t : Tree I d) (n : I) : Vec d := (t.dir n).getD 0

/-- Neighbouring directions are not opposite, and they are equal or further apart than
the tolerance of `np.allclose`. -/
def GoodDirections (t : Tree I d) : Prop :=
  ∀ p c, IsParent t p c → ¬ Opposite (dirOf t p) (dirOf t c)
    ∧ (dirOf t p = dirOf t c ∨ ¬ allclose (dirOf t p) (dirOf t c))

/-- The weight given to node `n` by an argument list (zero if it is not mentioned; the
last entry wins). -/
def givenWeight : List (I × ℝ) → I → ℝ
  | [], _ => 0
  | (m, w) :: rest, n => if n ∈ rest.map Prod.fst then givenWeight rest n
      else if n = m then w else 0

open Classical in
/-- The weight of the branch starting at `n`: the sum of the given weights of `n` and of
all its descendants. -/
noncomputable def branchWeight (t : Tree I d) (given : List (I × ℝ)) (n : I) : ℝ :=
  ∑ m ∈ t.nodes.toFinset.filter (fun m => m = n ∨ Descendant t n m), givenWeight given m

end Verif.Spec
