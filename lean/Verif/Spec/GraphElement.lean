import Verif.Model.GraphElement
import Mathlib.Data.Finset.Insert

/-!
# Specification for C133: what a linked tree of elements should look like
-/

namespace Verif.Spec
open Verif.Elements

variable {α : Type} [DecidableEq α]

/-- Parents and children of the elements outside of `gone` agree: an element has a parent exactly if this parent lists
it, once, and no element is its own parent. -/
structure Linked (h : Heap α) (gone : Finset ℕ) : Prop where
  listed : ∀ c ∉ gone, ∀ p, (h c).parent = some p → p ∉ gone ∧ c ∈ (h p).children
  back : ∀ p ∉ gone, ∀ c ∈ (h p).children, c ∉ gone ∧ (h c).parent = some p
  once : ∀ p ∉ gone, (h p).children.Nodup
  other : ∀ c ∉ gone, (h c).parent ≠ some c

/-- No sibling of the element has the same value. -/
def Lone (h : Heap α) (e : ℕ) : Prop :=
  ∀ s, s ≠ e → (h s).parent = (h e).parent → (h s).parent ≠ none → (h s).value ≠ (h e).value

/-- The elements which are expelled in a history. -/
def expelled : List Call → Finset ℕ
  | [] => ∅
  | .expel e :: cs => insert e (expelled cs)
  | _ :: cs => expelled cs

/-- A use of the elements as intended, where the elements `gone` have been expelled before: only elements without
parent are attached, to another element, and neither of the two has been expelled; the elements to expel differ in
value from their siblings, and nothing is expelled twice. -/
def Intended (limit : ℕ) : Heap α → Finset ℕ → List Call → Prop
  | _, _, [] => True
  | h, gone, .addChild p c :: cs =>
    c ∉ gone ∧ p ∉ gone ∧ c ≠ p ∧ (h c).parent = none ∧ Intended limit (addChild h p c) gone cs
  | h, gone, .setParent c p :: cs =>
    c ∉ gone ∧ p ∉ gone ∧ c ≠ p ∧ (h c).parent = none ∧ Intended limit (setParent h c p) gone cs
  | h, gone, .expel e :: cs => e ∉ gone ∧ Lone h e ∧ Intended limit (expel limit h e).1 (insert e gone) cs

end Verif.Spec
