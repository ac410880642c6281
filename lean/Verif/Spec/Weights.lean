import Mathlib.Data.Real.Basic
import Mathlib.Algebra.BigOperators.Group.List.Basic

/-!
# Vocabulary for statements about weight lists
-/

namespace Verif.Spec

/-- All entries lie in the unit interval. -/
def InUnit (ws : List ℝ) : Prop := ∀ w ∈ ws, 0 ≤ w ∧ w ≤ 1

/-- All entries are non-negative. -/
def Nonneg (ws : List ℝ) : Prop := ∀ w ∈ ws, 0 ≤ w

/-- The list `out` has one entry for every entry of `inp`. -/
def SameLength {α β : Type*} (inp : List α) (out : List β) : Prop := out.length = inp.length

/-- A larger entry of `inp` never gets a smaller entry of `out`. -/
def OrderPreserving (inp out : List ℝ) : Prop :=
  ∀ i j, i < inp.length → j < inp.length → inp.getD i 0 ≤ inp.getD j 0 →
    out.getD i 0 ≤ out.getD j 0

/-- A smaller entry of `inp` never gets a smaller entry of `out`. -/
def OrderReversing (inp out : List ℝ) : Prop :=
  ∀ i j, i < inp.length → j < inp.length → inp.getD i 0 ≤ inp.getD j 0 →
    out.getD j 0 ≤ out.getD i 0

end Verif.Spec
