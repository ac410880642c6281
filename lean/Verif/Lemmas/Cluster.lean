import Verif.Lemmas.Avoider

/-! # Helper lemmas: the cluster weights of the avoider -/

open scoped RealInnerProductSpace

namespace Verif
open Spec

variable {d k : ℕ} [Fact (2 ≤ d)]
set_option linter.unusedSectionVars false

lemma data_weights {ext : Ext d k} {a : Avoider d} {x v : Vec d} {p : ObstacleTree d × ℕ}
    {D : TreeData d} (hp : 0 ≤ a.power) (hg : ∀ o ∈ p.1.components, ∀ y, 0 ≤ o.gamma y)
    (h : DataOf ext a x v p D) :
    ∃ g, p.1.gamma x = .ok g ∧ D.weights.length = p.1.components.length ∧ Nonneg D.weights
      ∧ D.weights.sum ≤ 1 ∧ (1 < g → D.weights.sum < 1) := by
  obtain ⟨⟨gammas, gw, occ, h1, h2, hw⟩, _, _⟩ := h
  obtain ⟨g, root, hgam, _, _, _, _, hl, hnn, hs, _, h3, _, h4, _⟩ :=
    gammaAndWeights_spec (rw := D.slow.1) (prox := D.slow.2) hp h1
  obtain ⟨hl', ho, _⟩ := occlusion_spec h2 hg
  have key : ∀ (gw occ : List ℝ), Nonneg gw → (∀ w ∈ occ, 0 ≤ w ∧ w ≤ 1) →
      Nonneg (List.zipWith (· * ·) gw occ) ∧ (List.zipWith (· * ·) gw occ).sum ≤ gw.sum := by
    intro gw
    induction gw with
    | nil => intro occ _ _; exact ⟨by intro w hw; simp at hw, by simp⟩
    | cons a l ih =>
      intro occ hn ho
      cases occ with
      | nil =>
        refine ⟨by intro w hw; simp at hw, ?_⟩
        simp only [List.zipWith_nil_right, List.sum_nil]
        exact sum_nonneg' hn
      | cons b l' =>
        have ⟨i1, i2⟩ := ih l' (fun w hw => hn w (List.mem_cons_of_mem _ hw))
          (fun w hw => ho w (List.mem_cons_of_mem _ hw))
        have ha := hn a List.mem_cons_self
        have hb := ho b List.mem_cons_self
        constructor
        · intro w hw
          rw [List.zipWith_cons_cons, List.mem_cons] at hw
          rcases hw with rfl | hw
          · exact mul_nonneg ha hb.1
          · exact i1 w hw
        · rw [List.zipWith_cons_cons, List.sum_cons, List.sum_cons]
          nlinarith
  have ⟨k1, k2⟩ := key gw occ hnn ho
  rw [← hw] at k1 k2
  refine ⟨g, hgam, ?_, k1, by linarith, ?_⟩
  · rw [hw, List.length_zipWith]; omega
  · intro h1g
    have := h4 h1g
    have h5 : 1 / g < 1 := by rw [div_lt_one (by linarith)]; exact h1g
    linarith

lemma flatten_sum {ls : List ℝ} {cs : List (List ℝ)}
    (h : List.Forall₂ (fun l c => c.sum = 1 ∨ (c = [] ∧ l = 0)) ls cs) :
    (List.zipWith (fun wo (wc : List ℝ) => wc.map (fun w => wo * w)) ls cs).flatten.sum = ls.sum := by
  induction h with
  | nil => simp
  | @cons l c ls cs hlc _ ih =>
    rw [List.zipWith_cons_cons, List.flatten_cons, List.sum_append, ih, List.sum_cons,
      List.sum_map_mul_left, List.map_id']
    rcases hlc with h | ⟨h, h'⟩
    · rw [h, mul_one]
    · rw [h, h']; simp

lemma filter_pos {w : List ℝ} (h : Nonneg w) :
    open Classical in
    (normalised (w.filter (fun x => x > 0))).sum = 1 ∧ 0 < w.sum
      ∨ (normalised (w.filter (fun x => x > 0)) = [] ∧ w.sum = 0) := by
  classical
  have hs : (w.filter (fun x => x > 0)).sum = w.sum := by
    induction w with
    | nil => rfl
    | cons a l ih =>
      have := ih (fun x hx => h x (List.mem_cons_of_mem _ hx))
      have ha := h a List.mem_cons_self
      by_cases hp : a > 0
      · rw [List.filter_cons_of_pos (by simpa using hp), List.sum_cons, List.sum_cons, this]
      · rw [List.filter_cons_of_neg (by simpa using hp), List.sum_cons, this]
        have : a = 0 := by linarith
        rw [this, zero_add]
  by_cases he : w.filter (fun x => x > 0) = []
  · right
    rw [he] at hs ⊢
    exact ⟨rfl, hs.symm⟩
  · left
    obtain ⟨y, hy⟩ := List.exists_mem_of_ne_nil _ he
    have hy0 : 0 < y := by simpa using (List.mem_filter.mp hy).2
    have hpos : 0 < (w.filter (fun x => x > 0)).sum := sum_pos_of_mem
      (fun x hx => by simpa using le_of_lt (by simpa using (List.mem_filter.mp hx).2)) hy hy0
    exact ⟨sum_normalised (ne_of_gt hpos), hs ▸ hpos⟩

/-- The limited weights of the trees with positive influence. -/
lemma limited_zero {os : List ℝ} (i : ℕ) (hi : i < os.length) (h : os[i] = 0) :
    (getLimitedWeightsToMaxSum os).1.getD i 0 = 0 :=
  C28_zero os i hi (by rw [getD_eq _ _ hi, h])

open Classical in
/-- The sum and the sign of the cluster weights. -/
lemma cluster_spec {Ds : List (TreeData d)} (hn : ∀ D ∈ Ds, Nonneg D.weights) (t : Tree NodeId d) :
    let cl := clusterWeights (stateOf t Ds).influence (stateOf t Ds).componentWeights
    let os := Ds.map (fun D => D.weights.sum)
    cl.sum = (getLimitedWeightsToMaxSum os).1.sum ∧ InUnit cl
      ∧ cl.length = (Ds.map (fun D => (D.weights.filter (fun w => w > 0)).length)).sum
      ∧ (cl ≠ [] → 0 < os.sum) := by
  intro cl os
  have hos : Nonneg os := by
    intro w hw
    obtain ⟨D, hD, rfl⟩ := List.mem_map.mp hw
    exact sum_nonneg' (hn D hD)
  obtain ⟨hlen, hin, _⟩ := C28_in_unit os hos
  have hlen' : (getLimitedWeightsToMaxSum os).1.length = Ds.length := by
    rw [hlen]; simp [os]
  have hlz : ∀ (i : ℕ) (hi : i < Ds.length), Ds[i].weights.sum = 0 →
      (getLimitedWeightsToMaxSum os).1.getD i 0 = 0 := by
    intro i hi h0
    exact limited_zero i (by simpa [os] using hi) (by simpa [os] using h0)
  set ls := (getLimitedWeightsToMaxSum os).1 with hls
  have hcl : cl = (List.zipWith (fun wo (wc : List ℝ) => wc.map (fun w => wo * w)) ls
      (Ds.map (fun D => normalised (D.weights.filter (fun w => w > 0))))).flatten := rfl
  have hF : List.Forall₂ (fun l c => c.sum = 1 ∨ (c = [] ∧ l = 0)) ls
      (Ds.map (fun D => normalised (D.weights.filter (fun w => w > 0)))) := by
    rw [List.forall₂_iff_get]
    refine ⟨by rw [hlen']; simp, ?_⟩
    intro i h1 h2
    have hi : i < Ds.length := by simpa using h2
    simp only [List.get_eq_getElem, List.getElem_map]
    rcases filter_pos (hn _ (List.getElem_mem hi)) with h | ⟨h, h'⟩
    · exact Or.inl h.1
    · right
      refine ⟨h, ?_⟩
      have := hlz i hi h'
      rwa [getD_eq _ _ h1] at this
  refine ⟨by rw [hcl, flatten_sum hF], ?_, ?_, ?_⟩
  · intro w hw
    rw [hcl, List.mem_flatten] at hw
    obtain ⟨l, hl, hwl⟩ := hw
    obtain ⟨i, hi, rfl⟩ := List.getElem_of_mem hl
    rw [List.getElem_zipWith, List.mem_map] at hwl
    obtain ⟨c, hc, rfl⟩ := hwl
    rw [List.getElem_map] at hc
    have h1 := hin _ (List.getElem_mem (l := ls) (by
      rw [List.length_zipWith] at hi; omega : i < ls.length))
    have h2 : 0 ≤ c ∧ c ≤ 1 := normalised_inUnit (fun x hx => by
      simpa using le_of_lt (by simpa using (List.mem_filter.mp hx).2)) c hc
    exact ⟨mul_nonneg h1.1 h2.1, mul_le_one₀ h1.2 h2.1 h2.2⟩
  · rw [hcl, List.length_flatten]
    congr 1
    apply List.ext_getElem
    · simp [hlen']
    · intro i h1 h2
      simp [normalised]
  · intro hne
    by_contra hle
    push Not at hle
    have hz : ∀ D ∈ Ds, D.weights.sum = 0 := by
      intro D hD
      have h1 := le_sum_of_mem hos (List.mem_map.mpr ⟨D, hD, rfl⟩)
      have h2 := sum_nonneg' (hn D hD)
      linarith
    apply hne
    rw [hcl, List.flatten_eq_nil_iff]
    intro l hl
    obtain ⟨i, hi, rfl⟩ := List.getElem_of_mem hl
    rw [List.getElem_zipWith, List.getElem_map]
    have hi' : i < Ds.length := by simp at hi; omega
    rcases filter_pos (hn _ (List.getElem_mem hi')) with h | ⟨h, _⟩
    · have := hz _ (List.getElem_mem hi'); linarith [h.2]
    · rw [h]; rfl

lemma limited_sum_pos {os : List ℝ} (h : Nonneg os) (hp : 0 < os.sum) :
    0 < (getLimitedWeightsToMaxSum os).1.sum := by
  classical
  by_cases h1 : (os.filter (fun w => w ≥ 1)).length ≤ 1
  · rw [C28_sum_partial os h h1]
    unfold getLimitedWeightsToMaxSum
    split_ifs
    · exact hp
    · norm_num
    · norm_num
  · rw [(C28_sum_saturated os h (by omega)).1]
    have : 0 < (os.filter (fun w => w ≥ 1)).length := by omega
    exact_mod_cast this

lemma exists_pos_of_sum_pos {l : List ℝ} (h : 0 < l.sum) : ∃ w ∈ l, 0 < w := by
  by_contra hc
  push Not at hc
  have : l.sum ≤ 0 := by
    clear h
    induction l with
    | nil => simp
    | cons a l ih =>
      rw [List.sum_cons]
      have := hc a List.mem_cons_self
      have := ih (fun w hw => hc w (List.mem_cons_of_mem _ hw))
      linarith
  linarith

end Verif
