import Verif.Model.GraphHandler

/-!
# Specification of histories of graph operations
-/

namespace Verif.Spec

open GraphHandler

variable {α : Type} [DecidableEq α]

/-- Every call of a history satisfies `P` in the state in which it is made. -/
def EachCall (P : GraphHandler α → Call α → Prop) : GraphHandler α → List (Call α) → Prop
  | _, [] => True
  | g, c :: cs => P g c ∧ EachCall P (g.step c).1 cs

/-- New elements are new, elements referred to are present. -/
def Known (g : GraphHandler α) : Call α → Prop
  | .setRoot v => v ∉ g.values
  | .add v p => v ∉ g.values ∧ p ∈ g.values
  | .setParent v p => v ∈ g.values ∧ p ∈ g.values

/-- As `Known`, and only elements without a parent are given one. -/
def KnownOnce (g : GraphHandler α) : Call α → Prop
  | .setRoot v => v ∉ g.values
  | .add v p => v ∉ g.values ∧ p ∈ g.values
  | .setParent v p => g.getParent v = .ok none ∧ p ∈ g.values

/-- `w` is listed among the children of `v`. -/
def ListedChild (g : GraphHandler α) (v w : α) : Prop := ∃ l, g.getChildren v = .ok l ∧ w ∈ l

end Verif.Spec
