import Verif.Lemmas.TreeResult

/-! # Helper lemmas: the weighted mean of leaves below nodes that do not rotate -/

open Verif.Spec
open scoped RealInnerProductSpace

set_option linter.unusedSectionVars false

namespace Verif

open Spec.RootedTree (lev)

variable {I : Type} [DecidableEq I] {d : ℕ} {t : Tree I d} {r : I}

section
variable [h2 : Fact (2 ≤ d)]

lemma givenWeight_append (a b : List (I × ℝ)) (n : I) :
    givenWeight (a ++ b) n = if n ∈ b.map Prod.fst then givenWeight b n else givenWeight a n := by
  induction a with
  | nil =>
    split_ifs with h
    · rfl
    · rw [List.nil_append]; exact givenWeight_not_mem _ _ h
  | cons p a ih =>
    obtain ⟨m, w⟩ := p
    rw [List.cons_append]
    simp only [givenWeight, List.map_append, List.mem_append, ih]
    by_cases hb : n ∈ b.map Prod.fst
    · simp [hb]
    · rw [if_neg hb]; simp only [hb, or_false]; simp [hb]

/-- The weighted mean of leaves, each below its own node that has the direction of the root; the
rest of the weight is on the root.  The leaves may be within the tolerance of the root: their
rotations then have the right angle, but not the right axis. -/
lemma two_level_mean_inner (h : RootedTree t r) (hd : Defined t)
    (hE : ExactInner t r (orientOf t r)) {argsort : List ℤ → List ℕ}
    (has : ArgsortSpec argsort) (st : NodeState I d) (ns : List I) (ws : List ℝ) (mid : I → I)
    (hlen : ns.length = ws.length) (hnd : ns.Nodup) (hch : ∀ n ∈ ns, IsParent t (mid n) n)
    (hmid : ∀ n ∈ ns, IsParent t r (mid n)) (hdir : ∀ n ∈ ns, dirOf t (mid n) = dirOf t r)
    (hinj : ∀ n ∈ ns, ∀ m ∈ ns, mid n = mid m → n = m)
    (hnn : ∀ w ∈ ws, 0 ≤ w ∧ w ≤ 1) :
    t.getWeightedMean argsort st (ns ++ [r]) (ws ++ [1 - ws.sum]) = .ok (sphereExp (dirOf t r)
      ((ns.zip ws).map (fun p => p.2 • ((orientOf t r p.1).angle • (orientOf t r p.1).base.b1))).sum) := by
  classical
  set given := ns.zip ws with hgiven
  have hz : (ns ++ [r]).zip (ws ++ [1 - ws.sum]) = given ++ [(r, 1 - ws.sum)] := by
    rw [List.zip_append hlen]; rfl
  set all := given ++ [(r, 1 - ws.sum)] with hall
  have hfst : given.map Prod.fst = ns := List.map_fst_zip (by omega)
  have hsnd : given.map Prod.snd = ws := List.map_snd_zip (by omega)
  have hknown : ∀ n ∈ ns, n ∈ t.nodes := fun n hn => h.edge_snd _ _ (hch n hn)
  have hlevm : ∀ n ∈ ns, lev t (mid n) = 1 := by
    intro n hn; have := h.lev_child (hmid n hn); rw [h.lev_root] at this; omega
  have hlev2 : ∀ n ∈ ns, lev t n = 2 := by
    intro n hn; have := h.lev_child (hch n hn); rw [hlevm n hn] at this; omega
  have hrns : ∀ n ∈ ns, n ≠ r := by
    rintro n hn rfl; have := hlev2 _ hn; rw [h.lev_root] at this; omega
  have hrn : r ∉ ns := fun hr => hrns r hr rfl
  have hnd' : (given.map Prod.fst).Nodup := by rw [hfst]; exact hnd
  have hndA : (all.map Prod.fst).Nodup := by
    rw [hall, List.map_append, hfst, List.nodup_append]
    refine ⟨hnd, by simp, ?_⟩
    rintro a ha b hb rfl
    simp at hb
    subst hb
    exact hrn ha
  have hinA : ∀ p ∈ all, p.1 ∈ t.nodes := by
    intro p hp
    rw [hall, List.mem_append, List.mem_singleton] at hp
    rcases hp with hp | rfl
    · exact hknown _ (zip_fst_mem hp).1
    · exact h.root_mem
  have hgA : ∀ n, n ≠ r → givenWeight all n = givenWeight given n := by
    intro n hn
    rw [hall, givenWeight_append, if_neg (by simpa using hn)]
  have hg0 : ∀ n, 0 ≤ givenWeight given n :=
    givenWeight_nonneg given (fun p hp => (hnn _ (zip_fst_mem hp).2).1)
  have hg1 : ∀ n, givenWeight given n ≤ 1 := by
    intro n
    by_cases hn : n ∈ ns
    · rw [← hfst] at hn
      obtain ⟨p, hp, rfl⟩ := List.mem_map.mp hn
      rw [givenWeight_of_mem hnd' hp]
      exact (hnn _ (zip_fst_mem hp).2).2
    · rw [givenWeight_not_mem _ _ (by rw [hfst]; exact hn)]; norm_num
  set W := branchWeight t all with hW
  have hroot : W r = 1 := by
    rw [hW, branchWeight_root h all hndA hinA, hall, List.map_append, hsnd, List.sum_append]
    simp
  have hdr : ∀ n ∈ t.nodes, n ≠ r → ¬ Descendant t n r := by
    intro n hn hnr hd
    have h1 := h.lev_desc hd
    have h3 := Ascending.lev_pos h hn hnr
    rw [h.lev_root] at h1; omega
  -- the weights of the levels
  have hWeq : ∀ n ∈ t.nodes, n ≠ r → W n = ∑ m ∈ t.nodes.toFinset.filter
      (fun m => m = n ∨ Descendant t n m), givenWeight given m := by
    intro n hn hnr
    rw [hW, branchWeight]
    apply Finset.sum_congr rfl
    intro m hm
    rw [Finset.mem_filter] at hm
    apply hgA
    rintro rfl
    rcases hm.2 with e | e
    · exact hnr e.symm
    · exact hdr n hn hnr e
  have hWmid : ∀ n ∈ ns, W (mid n) = givenWeight given n := by
    intro n hn
    have hmr : mid n ≠ r := by
      intro e; have := hlevm n hn; rw [e, h.lev_root] at this; omega
    rw [hWeq _ (h.edge_fst _ _ (hch n hn)) hmr, Finset.sum_eq_single n]
    · intro m hm hmn
      rw [Finset.mem_filter] at hm
      apply givenWeight_not_mem
      rw [hfst]
      intro hmns
      rcases hm.2 with e | e
      · have h1 := hlev2 m hmns
        rw [e, hlevm n hn] at h1; omega
      · rcases h.desc_parent e (hch m hmns) with e' | e'
        · exact hmn (hinj m hmns n hn e')
        · have h1 := h.lev_desc e'
          rw [hlevm n hn, hlevm m hmns] at h1; omega
    · intro hx
      exfalso; apply hx
      rw [Finset.mem_filter, List.mem_toFinset]
      exact ⟨hknown n hn, Or.inr (.single (hch n hn))⟩
  have hWdeep : ∀ n ∈ t.nodes, n ≠ r → (∀ m ∈ ns, n ≠ mid m) → W n = givenWeight given n := by
    intro n hn hnr hnm
    rw [hWeq n hn hnr, Finset.sum_eq_single n]
    · intro m hm hmn
      rw [Finset.mem_filter] at hm
      apply givenWeight_not_mem
      rw [hfst]
      intro hmns
      rcases hm.2 with e | e
      · exact hmn e
      · rcases h.desc_parent e (hch m hmns) with e' | e'
        · exact hnm m hmns e'.symm
        · have h1 := h.lev_desc e'
          have h3 := Ascending.lev_pos h hn hnr
          rw [hlevm m hmns] at h1; omega
    · intro hx
      exfalso; apply hx
      rw [Finset.mem_filter, List.mem_toFinset]; exact ⟨hn, Or.inl rfl⟩
  have hmidns : ∀ n ∈ ns, ∀ m ∈ ns, n ≠ mid m := by
    intro n hn m hm e
    have h1 := hlev2 n hn
    rw [e, hlevm m hm] at h1; omega
  have hWn : ∀ n ∈ ns, W n = givenWeight given n := fun n hn =>
    hWdeep n (hknown n hn) (hrns n hn) (hmidns n hn)
  have hgw : GoodWeights t r W := by
    have hin : ∀ n, n ∈ t.nodes → n ≠ r → 0 ≤ W n ∧ W n ≤ 1 := by
      intro n hn hnr
      by_cases hm : ∃ m ∈ ns, n = mid m
      · obtain ⟨m, hm, rfl⟩ := hm
        rw [hWmid m hm]; exact ⟨hg0 m, hg1 m⟩
      · push Not at hm
        rw [hWdeep n hn hnr hm]; exact ⟨hg0 n, hg1 n⟩
    refine ⟨?_, ?_, fun n hn hnr => Or.inl (hin n hn hnr).2⟩
    · intro n
      by_cases hn : n ∈ t.nodes
      · by_cases hnr : n = r
        · rw [hnr, hroot]; norm_num
        · exact (hin n hn hnr).1
      · rw [hW, branchWeight, Finset.sum_eq_zero]
        intro m hm
        rw [Finset.mem_filter, List.mem_toFinset] at hm
        rcases hm.2 with e | e
        · exact absurd (e ▸ hm.1) hn
        · exact absurd (h.desc_mem_left e) hn
    · intro p c hp
      have hcr : c ≠ r := by rintro rfl; exact h.root_no_parent _ hp
      by_cases hpr : p = r
      · rw [hpr, hroot]; exact (hin c (h.edge_snd _ _ hp) hcr).2
      · rw [hWeq p (h.edge_fst _ _ hp) hpr, hWeq c (h.edge_snd _ _ hp) hcr]
        apply Finset.sum_le_sum_of_subset_of_nonneg
        · intro m hm
          rw [Finset.mem_filter] at hm ⊢
          refine ⟨hm.1, Or.inr ?_⟩
          rcases hm.2 with e | e
          · rw [e]; exact .single hp
          · exact .head hp e
        · intro m _ _; exact hg0 m
  have hnz : ∀ n ∈ t.nodes, n ≠ r → W n ≠ 0 → n ∈ ns ∨ ∃ m ∈ ns, n = mid m ∧ W m ≠ 0 := by
    intro n hn hnr h0
    by_cases hm : ∃ m ∈ ns, n = mid m
    · obtain ⟨m, hm, rfl⟩ := hm
      rw [hWmid m hm, ← hWn m hm] at h0
      exact Or.inr ⟨m, hm, rfl, h0⟩
    · push Not at hm
      rw [hWdeep n hn hnr hm] at h0
      left
      by_contra hc
      exact h0 (givenWeight_not_mem _ _ (by rw [hfst]; exact hc))
  have hO := orientOf_isOrient h hd
  have hmid0 : ∀ n ∈ ns, (orientOf t r (mid n)).angle = 0 := by
    intro n hn
    rw [hO.angle (hmid n hn), hdir n hn]
    have := (dir_eq h h.root_mem).2
    exact InnerProductGeometry.angle_self (by intro e; rw [e] at this; simp at this)
  have hlenA : (ns ++ [r]).length = (ws ++ [1 - ws.sum]).length := by simp [hlen]
  have hknownA : ∀ n ∈ ns ++ [r], n ∈ t.nodes := by
    intro n hn
    rw [List.mem_append, List.mem_singleton] at hn
    rcases hn with hn | rfl
    · exact hknown n hn
    · exact h.root_mem
  by_cases hex : ∃ n ∈ ns, W n ≠ 0
  · obtain ⟨n1, hn1, hn1W⟩ := hex
    have hL : ∀ l : ℤ, (∃ n ∈ t.nodes, lev t n = l ∧ W n ≠ 0) ↔ 0 ≤ l ∧ l < (2 + 1 : ℕ) := by
      intro l
      constructor
      · rintro ⟨n, hn, rfl, h0⟩
        by_cases hnr : n = r
        · rw [hnr, h.lev_root]; norm_num
        · rcases hnz n hn hnr h0 with e | ⟨m, hm, rfl, _⟩
          · rw [hlev2 n e]; norm_num
          · rw [hlevm m hm]; norm_num
      · rintro ⟨h0, h1⟩
        have : l = 0 ∨ l = 1 ∨ l = 2 := by push_cast at h1; omega
        rcases this with rfl | rfl | rfl
        · exact ⟨r, h.root_mem, h.lev_root, by rw [hroot]; norm_num⟩
        · exact ⟨mid n1, h.edge_fst _ _ (hch n1 hn1), hlevm n1 hn1, by
            rw [hWmid n1 hn1, ← hWn n1 hn1]; exact hn1W⟩
        · exact ⟨n1, hknown _ hn1, hlev2 _ hn1, hn1W⟩
    obtain ⟨sorted, S, R, g1, g2, g3, g4, g5, g6, g7⟩ := mean_spec_inner h hd hE has st hlenA hknownA hgw
      (by rw [hz]) 2 hL
    set q := partOf t W (orientOf t r) sorted with hq
    have hzero : ∀ j : ℕ, j < 2 → ∀ n ∈ idsAt t W sorted (j : ℤ), (q n).angle = 0 := by
      intro j hj n hn
      obtain ⟨a1, a2, a3⟩ := (mem_idsAt h g1).mp hn
      rw [g2.ang n a1]
      by_cases hnr : n = r
      · rw [hnr, hO.root]; simp
      · rcases hnz n a1 hnr a3 with e | ⟨m, hm, rfl, _⟩
        · rw [hlev2 n e] at a2; omega
        · rw [hmid0 m hm, zero_mul]
    have hq2 := (levelsUpTo_zero (W := W) (sorted := sorted) q 2 hzero).1
    rw [hq2] at g4
    have hbase : ∀ n ∈ ns, (q n).base = (orientOf t r n).base := by
      intro n hn
      apply partOf_base
      intro a ha
      rcases h.desc_parent ha (hch n hn) with e | e
      · rw [← e]; exact hmid0 n hn
      · rcases h.desc_parent e (hmid n hn) with e' | e'
        · rw [← e', hO.root]
        · exfalso
          have h1 := h.lev_desc e'
          have h3 := Ascending.lev_nonneg h (h.desc_mem_left e')
          rw [h.lev_root] at h1; omega
    have hS : S = dirOf t r := by
      have := g3.level.shared n1 (hknown _ hn1) (by rw [hlev2 _ hn1]; rfl) hn1W
      rw [hq2, hbase n1 hn1, hO.b0 h (hch _ hn1), hdir n1 hn1] at this
      exact this.symm
    have hmean : meanOf q (idsAt t W sorted ((2 : ℕ) : ℤ))
        = (given.map (fun p => p.2 • ((orientOf t r p.1).angle • (orientOf t r p.1).base.b1))).sum := by
      unfold meanOf
      rw [← List.sum_toFinset _ (idsAt_nodup h g1 _),
        ← sum_givenWeight given hnd' ns.toFinset
          (fun p hp => List.mem_toFinset.mpr (zip_fst_mem hp).1)
          (fun n => (orientOf t r n).angle • (orientOf t r n).base.b1)]
      have hsub : (idsAt t W sorted ((2 : ℕ) : ℤ)).toFinset ⊆ ns.toFinset := by
        intro n hn
        rw [List.mem_toFinset, mem_idsAt h g1] at hn
        rw [List.mem_toFinset]
        rcases hnz n hn.1 (by rintro rfl; have := hn.2.1; rw [h.lev_root] at this; simp at this)
          hn.2.2 with e | ⟨m, hm, rfl, _⟩
        · exact e
        · have := hn.2.1; rw [hlevm m hm] at this; simp at this
      rw [← Finset.sum_subset hsub]
      · apply Finset.sum_congr rfl
        intro n hn
        have hns := List.mem_toFinset.mp (hsub hn)
        rw [g2.ang n (hknown n hns), hbase n hns, hWn n hns, mul_comm,
          ← smul_smul]
      · intro n hn hnot
        have hns := List.mem_toFinset.mp hn
        have : W n = 0 := by
          by_contra h0
          apply hnot
          rw [List.mem_toFinset, mem_idsAt h g1]
          exact ⟨hknown n hns, by rw [hlev2 n hns]; rfl, h0⟩
        rw [← hWn n hns, this, zero_smul]
    rw [g7, second_eq]
    have hRang : R.angle = ‖meanOf q (idsAt t W sorted ((2 : ℕ) : ℤ))‖ := by rw [g4]; rfl
    rw [hmean] at hRang
    congr 1
    unfold sphereExp
    rw [← hRang, g5.first, hS]
    rcases g5.on with e | e
    · have := planeRot_b0 e R.angle
      rw [g5.first, hS] at this
      rw [this]
      congr 1
      by_cases h0 : R.angle = 0
      · rw [h0]; simp
      · have : R.base.b1 = unit (meanOf q (idsAt t W sorted ((2 : ℕ) : ℤ))) := by
          rw [g4]
          unfold levelRot
          rw [if_neg]
          · rfl
          · rw [hmean, ← hRang]; exact h0
        rw [this, hmean]
    · rw [e]; simp
  · push Not at hex
    have hsum0 : (given.map (fun p => p.2 • ((orientOf t r p.1).angle • (orientOf t r p.1).base.b1))).sum = 0 := by
      apply List.sum_eq_zero
      intro v hv
      obtain ⟨p, hp, rfl⟩ := List.mem_map.mp hv
      have hp1 := (zip_fst_mem hp).1
      rw [← givenWeight_of_mem hnd' hp, ← hWn _ hp1, hex _ hp1, zero_smul]
    have hL : ∀ l : ℤ, (∃ n ∈ t.nodes, lev t n = l ∧ W n ≠ 0) ↔ 0 ≤ l ∧ l < (0 + 1 : ℕ) := by
      intro l
      constructor
      · rintro ⟨n, hn, rfl, h0⟩
        by_cases hnr : n = r
        · rw [hnr, h.lev_root]; norm_num
        · rcases hnz n hn hnr h0 with e | ⟨m, hm, _, h1⟩
          · exact absurd (hex n e) h0
          · exact absurd (hex m hm) h1
      · rintro ⟨h0, h1⟩
        have : l = 0 := by push_cast at h1; omega
        subst this
        exact ⟨r, h.root_mem, h.lev_root, by rw [hroot]; norm_num⟩
    obtain ⟨sorted, S, R, g1, g2, g3, g4, g5, g6, g7⟩ := mean_spec_inner h hd hE has st hlenA hknownA hgw
      (by rw [hz]) 0 hL
    have hRa : R.angle = 0 := by
      have h1 := g5.le
      have h3 := g5.nonneg
      have : ∑ n ∈ t.nodes.toFinset.filter (fun n => lev t n = ((0 : ℕ) : ℤ)),
          W n * (orientOf t r n).angle = 0 := by
        apply Finset.sum_eq_zero
        intro n hn
        rw [Finset.mem_filter, List.mem_toFinset] at hn
        have : n = r := by
          by_contra hnr
          have := Ascending.lev_pos h hn.1 hnr
          rw [hn.2] at this; simp at this
        rw [this, hO.root]; simp
      rw [this] at h1
      linarith
    have hS : S = dirOf t r := by
      have := g3.level.shared r h.root_mem (by rw [h.lev_root]; rfl) (by rw [hroot]; norm_num)
      rw [← this]
      change (partOf t W (orientOf t r) sorted r).base.b0 = _
      rw [partOf_base]
      · rw [hO.root]
      · intro n hn
        exfalso
        have h1 := h.lev_desc hn
        have h3 := Ascending.lev_nonneg h (h.desc_mem_left hn)
        rw [h.lev_root] at h1; omega
    rw [g7, second_eq, hRa, hsum0, planeRot_zero, g5.first, hS]
    congr 1
    unfold sphereExp
    simp

/-- The weighted mean of leaves, each below its own node that has the direction of the root; the
rest of the weight is on the root. -/
lemma two_level_mean (h : RootedTree t r) (hg : GoodDirections t) {argsort : List ℤ → List ℕ}
    (has : ArgsortSpec argsort) (st : NodeState I d) (ns : List I) (ws : List ℝ) (mid : I → I)
    (hlen : ns.length = ws.length) (hnd : ns.Nodup) (hch : ∀ n ∈ ns, IsParent t (mid n) n)
    (hmid : ∀ n ∈ ns, IsParent t r (mid n)) (hdir : ∀ n ∈ ns, dirOf t (mid n) = dirOf t r)
    (hinj : ∀ n ∈ ns, ∀ m ∈ ns, mid n = mid m → n = m)
    (hnn : ∀ w ∈ ws, 0 ≤ w ∧ w ≤ 1) :
    t.getWeightedMean argsort st (ns ++ [r]) (ws ++ [1 - ws.sum]) = .ok (sphereExp (dirOf t r)
      ((ns.zip ws).map (fun p => p.2 • sphereLog (dirOf t r) (dirOf t p.1))).sum) := by
  rw [two_level_mean_inner h (defined_of_good h hg) (exact_of_good h (orientOf_isOrient h
    (defined_of_good h hg)) hg).inner has st ns ws mid hlen hnd hch hmid hdir hinj hnn]
  congr 2
  refine congrArg List.sum (List.map_congr_left fun p hp => ?_)
  have hp1 := (zip_fst_mem hp).1
  rw [orientOf_vec h hg (hch _ hp1), hdir _ hp1]

end
end Verif
