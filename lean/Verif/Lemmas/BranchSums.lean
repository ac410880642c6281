import Verif.Lemmas.TreeResult

/-! # Helper lemmas: sums of the given weights, and trees whose branches have owners -/

open scoped RealInnerProductSpace

namespace Verif
open Spec

variable {d : ℕ} {I : Type} [DecidableEq I]

/-- The edges of the tree start at the root or stay with the same owner. -/
def OwnedEdges {A : Type} (own : I → A) (r : I) (t : Tree I d) : Prop := ∀ p c, IsParent t p c → p = r ∨ own p = own c

/-- The descendants of a node other than the root have its owner. -/
lemma owned_desc {A : Type} {own : I → A} {r : I} {t : Tree I d} (h : RootedTree t r) (ho : OwnedEdges own r t)
    {m n : I} (hm : m ≠ r) (hd : Descendant t m n) : own n = own m ∧ n ≠ r := by
  induction hd with
  | single hp =>
    refine ⟨((ho _ _ hp).resolve_left hm).symm, ?_⟩
    rintro rfl
    exact h.root_no_parent _ hp
  | tail _ hp ih =>
    refine ⟨((ho _ _ hp).resolve_left ih.2).symm.trans ih.1, ?_⟩
    rintro rfl
    exact h.root_no_parent _ hp

/-! ## Sums of the given weights -/

lemma givenWeight_cons {n m : I} {w : ℝ} {rest : List (I × ℝ)} (hn : n ∉ rest.map Prod.fst) :
    givenWeight ((n, w) :: rest) m = (if m = n then w else 0) + givenWeight rest m := by
  have h0 : ∀ l : List (I × ℝ), m ∉ l.map Prod.fst → givenWeight l m = 0 := by
    intro l hl
    cases l with
    | nil => rfl
    | cons e l =>
      rw [List.map_cons, List.mem_cons] at hl
      push Not at hl
      simp only [givenWeight, if_neg hl.2, if_neg hl.1]
  have h1 : givenWeight ((n, w) :: rest) m
      = if m ∈ rest.map Prod.fst then givenWeight rest m else if m = n then w else 0 := by
    simp only [givenWeight]
  rw [h1]
  by_cases hm : m ∈ rest.map Prod.fst
  · rw [if_pos hm, if_neg (by rintro rfl; exact hn hm), zero_add]
  · rw [if_neg hm, h0 rest hm, add_zero]

open Classical in
/-- The given weights of the nodes with a property. -/
lemma sum_given (nodes : List I) (P : I → Prop) {z : List (I × ℝ)} (hz : (z.map Prod.fst).Nodup)
    (hsub : ∀ e ∈ z, e.1 ∈ nodes) :
    ∑ m ∈ nodes.toFinset.filter P, givenWeight z m = ((z.filter (fun e => P e.1)).map Prod.snd).sum := by
  induction z with
  | nil => simp [givenWeight]
  | cons e rest ih =>
    obtain ⟨n, w⟩ := e
    rw [List.map_cons, List.nodup_cons] at hz
    rw [Finset.sum_congr rfl (fun m _ => givenWeight_cons (m := m) (w := w) hz.1), Finset.sum_add_distrib,
      ih hz.2 (fun e he => hsub e (List.mem_cons_of_mem _ he)), Finset.sum_ite_eq']
    have hn : n ∈ nodes := hsub (n, w) List.mem_cons_self
    by_cases hP : P n
    · rw [if_pos (by simp [hn, hP]), List.filter_cons_of_pos (by simpa using hP), List.map_cons, List.sum_cons]
    · rw [if_neg (by simp [hP]), List.filter_cons_of_neg (by simpa using hP), zero_add]

open Classical in
lemma branchWeight_filter (t : Tree I d) (n : I) {z : List (I × ℝ)} (hz : (z.map Prod.fst).Nodup)
    (hsub : ∀ e ∈ z, e.1 ∈ t.nodes) :
    branchWeight t z n = ((z.filter (fun e => decide (e.1 = n ∨ Descendant t n e.1))).map Prod.snd).sum := by
  have := sum_given t.nodes (fun m => m = n ∨ Descendant t n m) hz hsub
  unfold branchWeight
  convert this



lemma filter_sum_le {z : List (I × ℝ)} (hz : ∀ e ∈ z, 0 ≤ e.2) (P Q : I → Bool)
    (hPQ : ∀ e ∈ z, P e.1 → Q e.1) :
    ((z.filter (fun e => P e.1)).map Prod.snd).sum ≤ ((z.filter (fun e => Q e.1)).map Prod.snd).sum := by
  induction z with
  | nil => simp
  | cons e z ih =>
    have h1 := ih (fun e he => hz e (List.mem_cons_of_mem _ he)) (fun e he => hPQ e (List.mem_cons_of_mem _ he))
    have h0 := hz e List.mem_cons_self
    by_cases hP : P e.1
    · have hQ := hPQ e List.mem_cons_self hP
      rw [List.filter_cons_of_pos (p := fun e : I × ℝ => P e.1) hP, List.filter_cons_of_pos (p := fun e : I × ℝ => Q e.1) hQ, List.map_cons, List.map_cons,
        List.sum_cons, List.sum_cons]
      linarith
    · rw [List.filter_cons_of_neg (p := fun e : I × ℝ => P e.1) hP]
      by_cases hQ : Q e.1
      · rw [List.filter_cons_of_pos (p := fun e : I × ℝ => Q e.1) hQ, List.map_cons, List.sum_cons]
        linarith
      · rw [List.filter_cons_of_neg (p := fun e : I × ℝ => Q e.1) hQ]; exact h1


/-- If different nodes with weights have different owners, every branch has at most the largest weight. -/
lemma owned_branch_le {A : Type} {own : I → A} {r : I} {t : Tree I d} (h : RootedTree t r) (ho : OwnedEdges own r t)
    {z : List (I × ℝ)} (hz : (z.map Prod.fst).Nodup) (hsub : ∀ e ∈ z, e.1 ∈ t.nodes)
    (hinj : ∀ e ∈ z, ∀ e' ∈ z, own e.1 = own e'.1 → e.1 = e'.1) (h1 : ∀ e ∈ z, e.2 ≤ 1) {m : I} (hm : m ≠ r) :
    branchWeight t z m ≤ 1 := by
  classical
  rw [branchWeight_filter t m hz hsub]
  have hnd := (List.Nodup.of_map _ hz).filter (fun e => decide (e.1 = m ∨ Descendant t m e.1))
  generalize hl : z.filter (fun e => decide (e.1 = m ∨ Descendant t m e.1)) = l at hnd
  have hsame : ∀ e ∈ l, ∀ e' ∈ l, e.1 = e'.1 := by
    intro e he e' he'
    rw [← hl, List.mem_filter] at he he'
    have key : ∀ e : I × ℝ, (e.1 = m ∨ Descendant t m e.1) → own e.1 = own m := by
      rintro e (h' | h')
      · rw [h']
      · exact (owned_desc h ho hm h').1
    exact hinj e he.1 e' he'.1 ((key e (by simpa using he.2)).trans (key e' (by simpa using he'.2)).symm)
  have hlz : ∀ e ∈ l, e ∈ z := by
    intro e he
    rw [← hl] at he
    exact (List.mem_filter.mp he).1
  match l, hnd, hsame, hlz with
  | [], _, _, _ => simp
  | [e], _, _, h => simpa using h1 e (h e (by simp))
  | e :: e' :: l, hnd, hs, h =>
    exfalso
    have e1 : e.1 = e'.1 := hs e (by simp) e' (by simp)
    have e2 : e = e' := List.inj_on_of_nodup_map hz (h e (by simp)) (h e' (by simp)) e1
    rw [List.nodup_cons] at hnd
    exact hnd.1 (by rw [e2]; simp)

end Verif
