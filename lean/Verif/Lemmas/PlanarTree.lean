import Verif.Lemmas.Planar

/-! # Helper lemmas: weighted means of trees of planar directions -/

open Verif.Spec
open scoped RealInnerProductSpace

set_option linter.unusedSectionVars false

namespace Verif

open Spec.RootedTree (lev)

variable {I : Type} [DecidableEq I] {t : Tree I 2} {r : I}

/-- Sum over the nodes below level `j` of the weighted signed angles. -/
noncomputable def signedTurn (t : Tree I 2) (W : I → ℝ) (O : I → Rot (Vec 2)) (j : ℤ) : ℝ :=
  ∑ n ∈ t.nodes.toFinset.filter (fun n => lev t n < j), W n * (baseSign (O n).base * (O n).angle)

lemma signedTurn_succ (W : I → ℝ) (O : I → Rot (Vec 2)) (j : ℤ) :
    signedTurn t W O (j + 1) = signedTurn t W O j
    + ∑ n ∈ t.nodes.toFinset.filter (fun n => lev t n = j),
        W n * (baseSign (O n).base * (O n).angle) := by
  unfold signedTurn
  rw [← Finset.sum_union]
  · congr 1
    ext n
    simp only [Finset.mem_filter, Finset.mem_union]
    constructor
    · rintro ⟨h1, h3⟩
      by_cases e : lev t n = j
      · exact Or.inr ⟨h1, e⟩
      · exact Or.inl ⟨h1, by omega⟩
    · rintro (⟨h1, h3⟩ | ⟨h1, h3⟩)
      · exact ⟨h1, by omega⟩
      · exact ⟨h1, by omega⟩
  · rw [Finset.disjoint_left]
    intro n h1 h3
    simp only [Finset.mem_filter] at h1 h3
    omega

/-- The partial rotations of the nodes turn in the same sense as their orientations. -/
def SameSigns (t : Tree I 2) (O q : I → Rot (Vec 2)) : Prop :=
  ∀ m ∈ t.nodes, baseSign (q m).base = baseSign (O m).base

lemma partOf_signs (h : RootedTree t r) {W : I → ℝ} {O : I → Rot (Vec 2)}
    (hon : ∀ n ∈ t.nodes, (O n).base.ON) {sorted : List I} (hs : Ascending t sorted) :
    SameSigns t O (partOf t W O sorted) := by
  unfold partOf
  have hL : ∀ n ∈ sorted.reverse, n ∈ t.nodes := fun n hn =>
    hs.mem_iff.mp (List.mem_reverse.mp hn)
  revert hL
  generalize sorted.reverse = L
  intro hL
  suffices ∀ q, SameSigns t O q → SameSigns t O (L.foldl (pStep t W O) q) from
    this O (fun _ _ => rfl)
  induction L with
  | nil => intro q hq; exact hq
  | cons n L ih =>
    intro q hq
    rw [List.foldl_cons]
    apply ih (fun m hm => hL m (List.mem_cons_of_mem _ hm))
    intro m hm
    unfold pStep
    split_ifs with h1 h3
    · rw [h1]
    · simp only
      rw [baseSign_map _ _ (hon n (hL n List.mem_cons_self))]
      exact hq m hm
    · exact hq m hm

lemma mean_planar {q : I → Rot (Vec 2)} (ids : List I) (S : Vec 2)
    (hon : ∀ n ∈ ids, (q n).base.ON) (hS : ∀ n ∈ ids, (q n).base.b0 = S) :
    meanOf q ids = (ids.map (fun n => baseSign (q n).base * (q n).angle)).sum
      • (!₂[- S 1, S 0] : Vec 2) := by
  unfold meanOf
  induction ids with
  | nil => simp
  | cons n ids ih =>
    rw [List.map_cons, List.sum_cons, List.map_cons, List.sum_cons,
      ih (fun m hm => hon m (List.mem_cons_of_mem _ hm))
        (fun m hm => hS m (List.mem_cons_of_mem _ hm)), add_smul]
    congr 1
    obtain ⟨h1, h3⟩ := (hon n List.mem_cons_self).second
    rw [hS n List.mem_cons_self] at h1 h3
    ext i
    fin_cases i
    · simp [h1]; ring
    · simp [h3]; ring

/-- The rotation of a level, in the plane. -/
lemma levelRot_planar {q : I → Rot (Vec 2)} (ids : List I) (S : Vec 2) (hSn : ‖S‖ = 1)
    (hon : ∀ n ∈ ids, (q n).base.ON) (hS : ∀ n ∈ ids, (q n).base.b0 = S) (v : Vec 2) :
    planeRot (levelRot q ids S).base (levelRot q ids S).angle v
      = turnBy ((ids.map (fun n => baseSign (q n).base * (q n).angle)).sum) v := by
  have hm := mean_planar ids S hon hS
  set σ := (ids.map (fun n => baseSign (q n).base * (q n).angle)).sum with hσ
  have hSq := norm_sq_two S
  rw [hSn] at hSq
  have hJ : ‖(!₂[- S 1, S 0] : Vec 2)‖ = 1 := by
    have : ‖(!₂[- S 1, S 0] : Vec 2)‖ ^ 2 = 1 ^ 2 := by
      rw [norm_sq_two, hSq]; simp; ring
    exact (sq_eq_sq₀ (norm_nonneg _) (by norm_num)).mp this
  have hn : ‖meanOf q ids‖ = |σ| := by rw [hm, norm_smul, hJ, mul_one, Real.norm_eq_abs]
  by_cases h0 : σ = 0
  · have : (levelRot q ids S).angle = 0 := by
      change ‖meanOf q ids‖ = 0; rw [hn, h0, abs_zero]
    rw [this, h0, planeRot_zero, turnBy_zero]
  · have hne : ‖meanOf q ids‖ ≠ 0 := by rw [hn]; exact abs_ne_zero.mpr h0
    have hne' : |σ| ≠ 0 := abs_ne_zero.mpr h0
    have hb : (levelRot q ids S).base = ⟨S, (σ / |σ|) • (!₂[- S 1, S 0] : Vec 2)⟩ := by
      simp only [levelRot, if_neg hne]
      rw [hn, hm, smul_smul]
      congr 2; ring
    have ha : (levelRot q ids S).angle = |σ| := hn
    have hBon : (⟨S, (σ / |σ|) • (!₂[- S 1, S 0] : Vec 2)⟩ : Base (Vec 2)).ON := by
      refine ⟨hSn, ?_, ?_⟩
      · change ‖(σ / |σ|) • (!₂[- S 1, S 0] : Vec 2)‖ = 1
        rw [norm_smul, hJ, mul_one, Real.norm_eq_abs, abs_div, abs_abs, div_self hne']
      · change ⟪S, (σ / |σ|) • (!₂[- S 1, S 0] : Vec 2)⟫ = 0
        rw [inner_smul_right, inner_two]; simp; right; ring
    rw [hb, ha, planeRot_two hBon]
    have hsg : baseSign (⟨S, (σ / |σ|) • (!₂[- S 1, S 0] : Vec 2)⟩ : Base (Vec 2)) = σ / |σ| := by
      simp only [baseSign, PiLp.smul_apply, PiLp.toLp_apply, Matrix.cons_val_zero,
        Matrix.cons_val_one, smul_eq_mul]
      linear_combination (-(σ / |σ|)) * hSq
    rw [hsg, div_mul_cancel₀ _ hne']

lemma levelParts_signs {O q : I → Rot (Vec 2)} (hq : SameSigns t O q) (ids : List I)
    (hids : ∀ n ∈ ids, n ∈ t.nodes) (hon : ∀ n ∈ t.nodes, (q n).base.ON) (R : Rot (Vec 2))
    (hR : R.base.ON ∨ R.angle = 0) : SameSigns t O (levelParts t q ids R) := by
  classical
  have hun : ∀ (l : List I) (q : I → Rot (Vec 2)), (∀ n ∈ l, n ∈ t.nodes) →
      (∀ n ∈ t.nodes, (q n).base.ON) → SameSigns t O q → SameSigns t O (unrot t l q) := by
    intro l
    induction l with
    | nil => intro q _ _ hq; exact hq
    | cons n l ih =>
      intro q hl hon hq
      rw [unrot_cons]
      apply ih _ (fun m hm => hl m (List.mem_cons_of_mem _ hm))
      · intro m hm
        simp only [unrot, List.foldl_cons, List.foldl_nil]
        split_ifs
        · exact (hon n (hl n List.mem_cons_self)).planeRot (hon m hm) _
        · exact hon m hm
      · intro m hm
        simp only [unrot, List.foldl_cons, List.foldl_nil]
        split_ifs
        · simp only
          rw [baseSign_map _ _ (hon n (hl n List.mem_cons_self))]; exact hq m hm
        · exact hq m hm
  have h1 := hun ids q hids hon hq
  intro m hm
  unfold levelParts
  split_ifs
  · simp only
    rcases hR with e | e
    · rw [baseSign_map _ _ e]; exact h1 m hm
    · rw [e, Base.map_id]; exact h1 m hm
  · exact hq m hm

section
variable {W : I → ℝ} {O : I → Rot (Vec 2)} {sorted : List I}

/-- The sum over the weighted nodes of a level. -/
lemma level_sum (h : RootedTree t r) (hs : Ascending t sorted) {l : ℤ} {q : I → Rot (Vec 2)}
    {S : Vec 2} (hi : LevelInv t W O l q S) (hsg : SameSigns t O q) :
    ((idsAt t W sorted l).map (fun n => baseSign (q n).base * (q n).angle)).sum
      = ∑ n ∈ t.nodes.toFinset.filter (fun n => lev t n = l),
          W n * (baseSign (O n).base * (O n).angle) := by
  have hmem := fun n => mem_idsAt (W := W) h hs (l := l) (n := n)
  have e1 : (idsAt t W sorted l).map (fun n => baseSign (q n).base * (q n).angle)
      = (idsAt t W sorted l).map (fun n => W n * (baseSign (O n).base * (O n).angle)) := by
    apply List.map_congr_left
    intro n hn
    have hn' := ((hmem n).mp hn).1
    rw [hsg n hn', hi.ang n hn']; ring
  rw [e1, ← List.sum_toFinset _ (idsAt_nodup h hs l)]
  apply Finset.sum_subset
  · intro n hn
    rw [List.mem_toFinset, hmem] at hn
    rw [Finset.mem_filter, List.mem_toFinset]; exact ⟨hn.1, hn.2.1⟩
  · intro n hn hnot
    rw [Finset.mem_filter, List.mem_toFinset] at hn
    rw [List.mem_toFinset, hmem] at hnot
    have : W n = 0 := by
      by_contra h0; exact hnot ⟨hn.1, hn.2, h0⟩
    rw [this, zero_mul]

/-- One level in the plane: the direction after it. -/
lemma level_turn (h : RootedTree t r) (hs : Ascending t sorted) {l : ℤ} {q : I → Rot (Vec 2)}
    {S : Vec 2} (hi : LevelInv t W O l q S) (hsg : SameSigns t O q)
    (hne : idsAt t W sorted l ≠ []) (v : Vec 2) :
    planeRot (levelRot q (idsAt t W sorted l) S).base (levelRot q (idsAt t W sorted l) S).angle v
      = turnBy (∑ n ∈ t.nodes.toFinset.filter (fun n => lev t n = l),
          W n * (baseSign (O n).base * (O n).angle)) v := by
  have hmem := fun n => mem_idsAt (W := W) h hs (l := l) (n := n)
  obtain ⟨n0, hn0⟩ := List.exists_mem_of_ne_nil _ hne
  obtain ⟨a1, a2, a3⟩ := (hmem n0).mp hn0
  rw [levelRot_planar _ S (hi.norm_shared a1 a2 a3)
    (fun n hn => hi.on n ((hmem n).mp hn).1)
    (fun n hn => hi.shared n ((hmem n).mp hn).1 ((hmem n).mp hn).2.1 ((hmem n).mp hn).2.2),
    level_sum h hs hi hsg]

/-- The state before a level with weighted nodes: the shared first vector is the direction of
the root turned by the weighted signed angles of all nodes above. -/
lemma loop_turn (h : RootedTree t r) (hs : Ascending t sorted) (hW : ∀ n, 0 ≤ W n)
    (hmono : ∀ p c, IsParent t p c → W c ≠ 0 → W p ≠ 0)
    (hO : ∀ n ∈ t.nodes, 0 ≤ (O n).angle) {q : I → Rot (Vec 2)} (hq : Linked t r W O q)
    (hsg : SameSigns t O q) (K : ℕ)
    (hK : ∀ l : ℤ, (∃ n ∈ t.nodes, lev t n = l ∧ W n ≠ 0) ↔ 0 ≤ l ∧ l < K) (j : ℕ)
    (hj : j < K) (S : Vec 2)
    (hS : LevelInv t W O j (levelsUpTo t W sorted ⟨q, [], none⟩ j).q S) :
    S = turnBy (signedTurn t W O j) (dirOf t r)
      ∧ SameSigns t O (levelsUpTo t W sorted ⟨q, [], none⟩ j).q := by
  induction j generalizing S with
  | zero =>
    refine ⟨?_, hsg⟩
    have h0 : signedTurn t W O ((0 : ℕ) : ℤ) = 0 := by
      unfold signedTurn
      rw [Finset.filter_false_of_mem]
      · simp
      · intro n hn
        have := Ascending.lev_nonneg h (List.mem_toFinset.mp hn)
        push_cast; omega
    rw [h0, turnBy_zero]
    obtain ⟨n, hn, hl, hWn⟩ := (hK 0).mpr ⟨le_refl 0, by omega⟩
    have hWr : W r ≠ 0 := by
      by_cases e : n = r
      · rw [← e]; exact hWn
      · have := Ascending.lev_pos h hn e
        omega
    rw [← hS.shared r h.root_mem (by rw [h.lev_root]; rfl) hWr]
    exact hq.root
  | succ j ih =>
    obtain ⟨S0, hS0⟩ := loop_inv h hs hW hmono hO hq K hK j (by omega)
    obtain ⟨g1, g2⟩ := ih (by omega) S0 hS0.level
    obtain ⟨c, hc, hcl, hWc⟩ := (hK (j + 1 : ℕ)).mpr ⟨by positivity, by exact_mod_cast hj⟩
    have hcr : c ≠ r := by
      rintro rfl; rw [h.lev_root] at hcl; push_cast at hcl; omega
    obtain ⟨p, hp⟩ := h.has_parent c hc hcr
    have hpi : p ∈ idsAt t W sorted (j : ℤ) := (mem_idsAt h hs).mpr
      ⟨h.edge_fst _ _ hp, by have := h.lev_child hp; push_cast at hcl; omega, hmono p c hp hWc⟩
    have hne : idsAt t W sorted (j : ℤ) ≠ [] := List.ne_nil_of_mem hpi
    have hnx := hS0.level.next h hmono (idsAt t W sorted (j : ℤ)) (idsAt_nodup h hs _)
      (fun n => mem_idsAt h hs) hne
    obtain ⟨hR, hSn⟩ := levelRot_spec h hs hW hO hS0.level hne
    set R := levelRot (levelsUpTo t W sorted ⟨q, [], none⟩ j).q (idsAt t W sorted (j : ℤ)) S0 with hRd
    have hqn : (levelsUpTo t W sorted ⟨q, [], none⟩ (j + 1)).q
        = levelParts t (levelsUpTo t W sorted ⟨q, [], none⟩ j).q (idsAt t W sorted (j : ℤ)) R := by
      rw [levelsUpTo_succ, pureLevel_cons h hs hS0.level hne R hRd,
        if_neg (fun hh => hh p hpi c (.single hp))]
      split_ifs <;> rfl
    rw [hqn] at hS ⊢
    constructor
    · have e1 := hS.shared c hc hcl hWc
      have e2 := hnx.shared c hc (by push_cast at hcl; exact hcl) hWc
      rw [← e1, e2, hRd, level_turn h hs hS0.level g2 hne, g1, turnBy_add]
      congr 1
      push_cast
      rw [signedTurn_succ]; ring
    · exact levelParts_signs g2 _ (fun n hn => ((mem_idsAt h hs).mp hn).1) hS0.level.on R hR.on

end

/-- The sum over all nodes of weighted signed angles. -/
lemma signedTurn_all {W : I → ℝ} {O : I → Rot (Vec 2)} (L : ℕ)
    (hL : ∀ l : ℤ, (∃ n ∈ t.nodes, lev t n = l ∧ W n ≠ 0) ↔ 0 ≤ l ∧ l < (L + 1 : ℕ)) :
    signedTurn t W O ((L : ℤ) + 1)
      = ∑ n ∈ t.nodes.toFinset, W n * (baseSign (O n).base * (O n).angle) := by
  unfold signedTurn
  apply Finset.sum_subset (Finset.filter_subset _ _)
  intro n hn hnot
  have : W n = 0 := by
    by_contra h0
    have := ((hL (lev t n)).mp ⟨n, List.mem_toFinset.mp hn, rfl, h0⟩).2
    exact hnot (Finset.mem_filter.mpr ⟨hn, by push_cast at this; omega⟩)
  rw [this, zero_mul]

/-- The signed angle of an edge. -/
lemma edge_angle (h : RootedTree t r) (hg : GoodDirections t) {Θ : I → ℝ} (hΘ : PathAngles t r Θ)
    {p c : I} (hp : IsParent t p c) :
    baseSign (orientOf t r c).base * (orientOf t r c).angle = Θ c - Θ p := by
  have hO := orientOf_isOrient h (defined_of_good h hg)
  have hE := exact_of_good h hO hg
  have hcn := h.edge_snd _ _ hp
  have hon := hE.on c hcn
  have hmap := hE.maps c hcn
  rw [planeRot_two hon, hE.first p c hp, (hΘ.edge p c hp).2] at hmap
  have hpn := (dir_eq h (h.edge_fst _ _ hp)).2
  have hcn' := (dir_eq h hcn).2
  refine turnBy_inj ?_ (hΘ.edge p c hp).1 hpn hmap
  have ha := hO.angle hp
  have hlt : (orientOf t r c).angle < Real.pi := by
    rw [ha]
    refine lt_of_le_of_ne (InnerProductGeometry.angle_le_pi _ _) ?_
    intro he
    obtain ⟨_, k, hk, hk'⟩ := InnerProductGeometry.angle_eq_pi_iff.mp he
    exact (hg p c hp).1 ⟨-k, by linarith, by rw [hk']; simp⟩
  have h0 := hO.angle_nonneg h hcn
  rcases hon.sign with e | e <;> rw [e]
  · rw [one_mul, abs_of_nonneg h0]; exact hlt
  · rw [neg_one_mul, abs_neg, abs_of_nonneg h0]; exact hlt

/-- The sum of the increments on the way to a node. -/
lemma path_sum (h : RootedTree t r) {Θ θ : I → ℝ} (hr : Θ r = θ r)
    (he : ∀ p c, IsParent t p c → θ c = Θ c - Θ p) (m : I) (hm : m ∈ t.nodes) :
    open Classical in
    ∑ n ∈ t.nodes.toFinset.filter (fun n => m = n ∨ Descendant t n m), θ n = Θ m := by
  classical
  have key : ∀ k : ℕ, ∀ m ∈ t.nodes, lev t m = k →
      ∑ n ∈ t.nodes.toFinset.filter (fun n => m = n ∨ Descendant t n m), θ n = Θ m := by
    intro k
    induction k with
    | zero =>
      intro m hm hl
      have : m = r := by
        by_contra e
        have := Ascending.lev_pos h hm e
        push_cast at hl; omega
      subst this
      have : t.nodes.toFinset.filter (fun n => m = n ∨ Descendant t n m) = {m} := by
        ext n
        simp only [Finset.mem_filter, List.mem_toFinset, Finset.mem_singleton]
        constructor
        · rintro ⟨_, e | e⟩
          · exact e.symm
          · exfalso
            cases e with
            | single e => exact h.root_no_parent _ e
            | tail _ e => exact h.root_no_parent _ e
        · rintro rfl; exact ⟨hm, Or.inl rfl⟩
      rw [this, Finset.sum_singleton, hr]
    | succ k ih =>
      intro m hm hl
      have hmr : m ≠ r := by rintro rfl; rw [h.lev_root] at hl; push_cast at hl; omega
      obtain ⟨p, hp⟩ := h.has_parent m hm hmr
      have hpl : lev t p = k := by have := h.lev_child hp; push_cast at hl; omega
      have hpn := h.edge_fst _ _ hp
      have := ih p hpn hpl
      have hset : t.nodes.toFinset.filter (fun n => m = n ∨ Descendant t n m)
          = insert m (t.nodes.toFinset.filter (fun n => p = n ∨ Descendant t n p)) := by
        ext n
        simp only [Finset.mem_filter, List.mem_toFinset, Finset.mem_insert]
        constructor
        · rintro ⟨hn, e | e⟩
          · exact Or.inl e.symm
          · right
            rcases h.desc_parent e hp with e' | e'
            · exact ⟨hn, Or.inl e'⟩
            · exact ⟨hn, Or.inr e'⟩
        · rintro (rfl | ⟨hn, rfl | e⟩)
          · exact ⟨hm, Or.inl rfl⟩
          · exact ⟨hn, Or.inr (.single hp)⟩
          · exact ⟨hn, Or.inr (e.tail hp)⟩
      rw [hset, Finset.sum_insert, this, he p m hp]
      · ring
      · simp only [Finset.mem_filter, not_and, not_or]
        intro _
        refine ⟨?_, ?_⟩
        · rintro rfl; omega
        · intro e
          have := h.lev_desc e
          omega
  obtain ⟨l, h1, h3, _⟩ := h.level_bound m hm
  rw [h.level_eq hm] at h1
  have hl := Option.some.inj h1
  exact key l.toNat m hm (by omega)

/-- Branch weights of edge angles are given weights of path angles. -/
lemma branch_path_sum (h : RootedTree t r) {Θ θ : I → ℝ} (hr : Θ r = θ r)
    (he : ∀ p c, IsParent t p c → θ c = Θ c - Θ p) (given : List (I × ℝ)) :
    ∑ n ∈ t.nodes.toFinset, branchWeight t given n * θ n
      = ∑ m ∈ t.nodes.toFinset, givenWeight given m * Θ m := by
  classical
  unfold branchWeight
  simp only [Finset.sum_mul, Finset.sum_filter]
  rw [Finset.sum_comm]
  apply Finset.sum_congr rfl
  intro m hm
  rw [← path_sum h hr he m (List.mem_toFinset.mp hm), Finset.mul_sum, Finset.sum_filter]
  apply Finset.sum_congr rfl
  intro n _
  simp only [mul_ite, mul_zero, ite_mul, zero_mul]

/-- The weighted mean in the plane. -/
lemma mean_turn (h : RootedTree t r) (hg : GoodDirections t) {argsort : List ℤ → List ℕ}
    (has : ArgsortSpec argsort) (st : NodeState I 2) {ns : List I} {ws : List ℝ}
    (hlen : ns.length = ws.length) (hknown : ∀ n ∈ ns, n ∈ t.nodes)
    (hgw : GoodWeights t r (branchWeight t (ns.zip ws)))
    (hr : branchWeight t (ns.zip ws) r ≠ 0) {Θ : I → ℝ} (hΘ : PathAngles t r Θ) :
    t.getWeightedMean argsort st ns ws = .ok (turnBy
      (∑ m ∈ t.nodes.toFinset, givenWeight (ns.zip ws) m * Θ m) (dirOf t r)) := by
  have hO := orientOf_isOrient h (defined_of_good h hg)
  have hE := exact_of_good h hO hg
  obtain ⟨L, hL⟩ := exists_deepest h hgw hr
  obtain ⟨sorted, S, R, g1, g2, g3, g4, g5, g6, g7⟩ := mean_spec_good h hg.inner has st hlen hknown hgw rfl L hL
  rw [g7, second_eq, g5.first, g4]
  have hsg := partOf_signs (W := branchWeight t (ns.zip ws)) h hE.on g1
  obtain ⟨k1, k2⟩ := loop_turn h g1 hgw.nonneg hgw.mono' (fun n hn => hO.angle_nonneg h hn) g2 hsg
    (L + 1) hL L (by omega) S g3.level
  have hne : idsAt t (branchWeight t (ns.zip ws)) sorted (L : ℤ) ≠ [] := by
    obtain ⟨n, h1, h3, h4⟩ := (hL L).mpr ⟨by positivity, by push_cast; omega⟩
    exact List.ne_nil_of_mem ((mem_idsAt h g1).mpr ⟨h1, h3, h4⟩)
  rw [level_turn h g1 g3.level k2 hne]
  conv_lhs => rw [k1]
  rw [turnBy_add]
  congr 2
  rw [add_comm, ← signedTurn_succ, signedTurn_all L hL]
  apply branch_path_sum h
  · rw [hΘ.root, hO.root]; simp
  · intro p c hp; exact edge_angle h hg hΘ hp

end Verif
