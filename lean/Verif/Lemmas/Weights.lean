import Verif.Model.Weights
import Verif.Spec.Weights
import Mathlib.Algebra.Order.BigOperators.Group.List
import Mathlib.Algebra.BigOperators.Ring.List
import Mathlib.Data.List.GetD

/-!
# Lemmas about weight lists
-/

open Verif.Spec

namespace Verif

lemma getD_map {α : Type*} (f : α → ℝ) (l : List α) (i : ℕ) (hi : i < l.length) :
    (l.map f).getD i 0 = f l[i] := by
  rw [List.getD_eq_getElem _ _ (by simpa using hi)]; simp

lemma getD_eq (l : List ℝ) (i : ℕ) (hi : i < l.length) : l.getD i 0 = l[i] :=
  List.getD_eq_getElem _ _ hi

lemma sum_nonneg' {l : List ℝ} (h : Nonneg l) : 0 ≤ l.sum := List.sum_nonneg h

lemma le_sum_of_mem {l : List ℝ} (h : Nonneg l) {x : ℝ} (hx : x ∈ l) : x ≤ l.sum :=
  List.single_le_sum h x hx

lemma sum_pos_of_mem {l : List ℝ} (h : Nonneg l) {x : ℝ} (hx : x ∈ l) (hp : 0 < x) : 0 < l.sum :=
  lt_of_lt_of_le hp (le_sum_of_mem h hx)

lemma sum_map_div (l : List ℝ) (c : ℝ) : (l.map (· / c)).sum = l.sum / c := by
  induction l with
  | nil => simp
  | cons a l ih => simp only [List.map_cons, List.sum_cons, ih]; ring

lemma sum_normalised {l : List ℝ} (h : l.sum ≠ 0) : (normalised l).sum = 1 := by
  unfold normalised; rw [sum_map_div, div_self h]

lemma normalised_inUnit {l : List ℝ} (h : Nonneg l) : InUnit (normalised l) := by
  intro w hw
  obtain ⟨x, hx, rfl⟩ := List.mem_map.mp hw
  refine ⟨div_nonneg (h x hx) (sum_nonneg' h), div_le_one_of_le₀ (le_sum_of_mem h hx) (sum_nonneg' h)⟩

lemma length_normalised (l : List ℝ) : (normalised l).length = l.length := by simp [normalised]

lemma indicator_length (p : ℝ → Prop) (xs : List ℝ) : (indicator p xs).length = xs.length := by
  simp [indicator]

lemma indicator_nonneg (p : ℝ → Prop) (xs : List ℝ) : Nonneg (indicator p xs) := by
  intro w hw
  obtain ⟨x, _, rfl⟩ := List.mem_map.mp hw
  split_ifs <;> norm_num

lemma indicator_inUnit (p : ℝ → Prop) (xs : List ℝ) : InUnit (indicator p xs) := by
  intro w hw
  obtain ⟨x, _, rfl⟩ := List.mem_map.mp hw
  split_ifs <;> norm_num

open Classical in
lemma indicator_sum (p : ℝ → Prop) (xs : List ℝ) :
    (indicator p xs).sum = (xs.filter (fun x => p x)).length := by
  induction xs with
  | nil => simp [indicator]
  | cons a l ih =>
    have : (indicator p (a :: l)).sum = (if p a then 1 else 0) + (indicator p l).sum := by
      simp [indicator]
    rw [this, ih, List.filter_cons]
    by_cases h : p a
    · simp [h]; ring
    · simp [h]

lemma indicator_sum_ne {p : ℝ → Prop} {xs : List ℝ} :
    (indicator p xs).sum ≠ 0 ↔ ∃ x ∈ xs, p x := by
  classical
  rw [indicator_sum]
  simp only [ne_eq, Nat.cast_eq_zero, List.length_eq_zero_iff, List.filter_eq_nil_iff,
    decide_eq_true_eq]
  push Not
  rfl

lemma indicator_getD (p : ℝ → Prop) (xs : List ℝ) (i : ℕ) (hi : i < xs.length) :
    (indicator p xs).getD i 0 = open Classical in if p (xs.getD i 0) then 1 else 0 := by
  unfold indicator
  rw [getD_map _ _ _ hi, getD_eq _ _ hi]

end Verif
