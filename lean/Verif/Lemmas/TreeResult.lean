import Verif.Lemmas.TreeReduce

/-! # Helper lemmas: the result of `reduce_weighted_to_sequence` -/

open Verif.Spec
open scoped RealInnerProductSpace

set_option linter.unusedSectionVars false

namespace Verif

open Spec.RootedTree (lev)

variable {I : Type} [DecidableEq I] {d : ℕ} {t : Tree I d} {r : I}

lemma givenWeight_nonneg (given : List (I × ℝ)) (hw : ∀ p ∈ given, 0 ≤ p.2) (n : I) :
    0 ≤ givenWeight given n := by
  induction given with
  | nil => exact le_refl 0
  | cons p l ih =>
    obtain ⟨a, w⟩ := p
    simp only [givenWeight]
    split_ifs
    · exact ih (fun q hq => hw q (List.mem_cons_of_mem _ hq))
    · exact hw (a, w) List.mem_cons_self
    · exact le_refl 0

lemma givenWeight_of_mem {given : List (I × ℝ)} (hnd : (given.map Prod.fst).Nodup) {p : I × ℝ}
    (hp : p ∈ given) : givenWeight given p.1 = p.2 := by
  induction given with
  | nil => simp at hp
  | cons q l ih =>
    obtain ⟨a, w⟩ := q
    rw [List.map_cons, List.nodup_cons] at hnd
    simp only [givenWeight]
    rcases List.mem_cons.mp hp with e | e
    · rw [e]; simp only [if_neg hnd.1, if_true]
    · rw [if_pos (List.mem_map.mpr ⟨p, e, rfl⟩)]; exact ih hnd.2 e

/-- A sum over the nodes of a list of distinct nodes. -/
lemma sum_givenWeight {E : Type*} [AddCommMonoid E] [Module ℝ E] (given : List (I × ℝ))
    (hnd : (given.map Prod.fst).Nodup) (s : Finset I) (hs : ∀ p ∈ given, p.1 ∈ s) (f : I → E) :
    ∑ n ∈ s, givenWeight given n • f n = (given.map (fun p => p.2 • f p.1)).sum := by
  have e1 : (given.map (fun p => p.2 • f p.1))
      = (given.map Prod.fst).map (fun n => givenWeight given n • f n) := by
    rw [List.map_map]
    apply List.map_congr_left
    intro p hp
    simp only [Function.comp]
    rw [givenWeight_of_mem hnd hp]
  rw [e1, ← List.sum_toFinset _ hnd]
  symm
  apply Finset.sum_subset
  · intro n hn
    obtain ⟨p, hp, rfl⟩ := List.mem_map.mp (List.mem_toFinset.mp hn)
    exact hs p hp
  · intro n _ hn
    rw [givenWeight_not_mem _ _ (fun e => hn (List.mem_toFinset.mpr e)), zero_smul]

lemma branchWeight_desc_le (h : RootedTree t r) (given : List (I × ℝ))
    (hw : ∀ p ∈ given, 0 ≤ p.2) {a b : I} (hd : Descendant t a b) :
    branchWeight t given b ≤ branchWeight t given a := by
  induction hd with
  | single h1 => exact branchWeight_child_le h given hw h1
  | tail _ h1 ih => exact le_trans (branchWeight_child_le h given hw h1) ih

lemma branchWeight_le_root (h : RootedTree t r) (given : List (I × ℝ))
    (hw : ∀ p ∈ given, 0 ≤ p.2) {n : I} (hn : n ∈ t.nodes) :
    branchWeight t given n ≤ branchWeight t given r := by
  by_cases hr : n = r
  · rw [hr]
  · exact branchWeight_desc_le h given hw (h.root_desc hn hr)

lemma branchWeight_root (h : RootedTree t r) (given : List (I × ℝ))
    (hnd : (given.map Prod.fst).Nodup) (hin : ∀ p ∈ given, p.1 ∈ t.nodes) :
    branchWeight t given r = (given.map Prod.snd).sum := by
  classical
  have e : t.nodes.toFinset.filter (fun m => m = r ∨ Descendant t r m) = t.nodes.toFinset := by
    apply Finset.filter_true_of_mem
    intro m hm
    by_cases hr : m = r
    · exact Or.inl hr
    · exact Or.inr (h.root_desc (List.mem_toFinset.mp hm) hr)
  unfold branchWeight
  rw [e]
  have := sum_givenWeight given hnd t.nodes.toFinset
    (fun p hp => List.mem_toFinset.mpr (hin p hp)) (fun _ => (1 : ℝ))
  simp only [smul_eq_mul, mul_one] at this
  rw [this]

lemma zip_fst_mem {α β : Type*} {a : List α} {b : List β} {p : α × β} (h : p ∈ a.zip b) :
    p.1 ∈ a ∧ p.2 ∈ b := by
  obtain ⟨x, y⟩ := p; exact ⟨(List.of_mem_zip h).1, (List.of_mem_zip h).2⟩

section
variable [h2 : Fact (2 ≤ d)]

/-- Admissible arguments of a reduction. -/
structure Args (t : Tree I d) (r : I) (ns : List I) (ws : List ℝ) : Prop where
  len : ns.length = ws.length
  known : ∀ n ∈ ns, n ∈ t.nodes
  nonneg : ∀ w ∈ ws, 0 ≤ w
  le_one : ∀ n ∈ t.nodes, n ≠ r → branchWeight t (ns.zip ws) n ≤ 1

lemma Args.zip_known {ns : List I} {ws : List ℝ} (ha : Args t r ns ws) :
    ∀ p ∈ ns.zip ws, p.1 ∈ t.nodes := fun _ hp => ha.known _ (zip_fst_mem hp).1

lemma Args.zip_nonneg {ns : List I} {ws : List ℝ} (ha : Args t r ns ws) :
    ∀ p ∈ ns.zip ws, 0 ≤ p.2 := fun _ hp => ha.nonneg _ (zip_fst_mem hp).2

lemma Args.good (h : RootedTree t r) {ns : List I} {ws : List ℝ} (ha : Args t r ns ws) :
    GoodWeights t r (branchWeight t (ns.zip ws)) :=
  ⟨branchWeight_nonneg t _ ha.zip_nonneg, fun _ _ hp => branchWeight_child_le h _ ha.zip_nonneg hp,
    fun n hn hnr => Or.inl (ha.le_one n hn hnr)⟩

lemma GoodWeights.mono' {W : I → ℝ} (hW : GoodWeights t r W) :
    ∀ p c, IsParent t p c → W c ≠ 0 → W p ≠ 0 := by
  intro p c hp hc h0
  have h1 := hW.mono p c hp
  have h3 := hW.nonneg c
  rw [h0] at h1
  exact hc (le_antisymm h1 h3)

/-- There is a deepest weighted level. -/
lemma exists_deepest (h : RootedTree t r) {W : I → ℝ} (hW : GoodWeights t r W) (hr : W r ≠ 0) :
    ∃ L : ℕ, ∀ l : ℤ, (∃ n ∈ t.nodes, lev t n = l ∧ W n ≠ 0) ↔ 0 ≤ l ∧ l < (L + 1 : ℕ) := by
  obtain ⟨k, hk⟩ := exists_segment h (fun n => W n ≠ 0) (hW.mono')
  have : 0 < k := by
    have := ((hk 0).mp ⟨r, h.root_mem, h.lev_root, hr⟩).2
    omega
  exact ⟨k - 1, by rw [Nat.sub_add_cancel this]; exact hk⟩

open Classical in
/-- The result of a reduction; the weight of the root may be negative, and the leaves may be
within the tolerance of their parents. -/
lemma reduce_spec_inner (h : RootedTree t r) (hd : Defined t)
    (hE : ExactInner t r (orientOf t r)) {argsort : List ℤ → List ℕ}
    (has : ArgsortSpec argsort) (st : NodeState I d) {ns : List I} {ws : List ℝ}
    (hlen : ns.length = ws.length) (hknown : ∀ n ∈ ns, n ∈ t.nodes) {W : I → ℝ}
    (hgw : GoodWeights t r W) (hW : branchWeight t (ns.zip ws) = W) (L : ℕ)
    (hL : ∀ l : ℤ, (∃ n ∈ t.nodes, lev t n = l ∧ W n ≠ 0) ↔ 0 ≤ l ∧ l < (L + 1 : ℕ)) :
    ∃ sorted S R, t.getNodesAscending argsort = .ok sorted ∧ Ascending t sorted
      ∧ Linked t r W (orientOf t r) (partOf t W (orientOf t r) sorted)
      ∧ LoopInv t r W (orientOf t r) L
          (levelsUpTo t W sorted ⟨partOf t W (orientOf t r) sorted, [], none⟩ L) S
      ∧ R = levelRot (levelsUpTo t W sorted ⟨partOf t W (orientOf t r) sorted, [], none⟩ L).q
          (idsAt t W sorted L) S
      ∧ LevelRot t W (orientOf t r) L S R ∧ ‖S‖ = 1
      ∧ t.reduceWeightedToSequence argsort st ns ws = .ok (
        if (∀ n ∈ idsAt t W sorted L, ∀ m, ¬ Descendant t n m) ∨ R.angle = 0 then
          (levelsUpTo t W sorted ⟨partOf t W (orientOf t r) sorted, [], none⟩ L).seq ++ [R]
        else (levelsUpTo t W sorted ⟨partOf t W (orientOf t r) sorted, [], none⟩ L).seq ++ [R, R]) := by
  have hO := orientOf_isOrient h hd
  obtain ⟨sorted, hs1, hs⟩ := getNodesAscending_spec h has
  obtain ⟨st', u1, u2, u3, u4⟩ := updatePartialRotations_spec h hd st ns ws (fun _ hp => hknown _ (zip_fst_mem hp).1) hs
  rw [hW] at u2 u3 u4
  have hl := partOf_linked h hE hgw hs
  obtain ⟨S, R, g1, g2, g3, g4, g5⟩ := graphSumming_eq h hs hgw.nonneg hgw.mono'
    (fun n hn => hO.angle_nonneg h hn) hl st' u2 u3 L hL
  refine ⟨sorted, S, R, hs1, hs, hl, g1, g2, g3, g4, ?_⟩
  unfold Tree.reduceWeightedToSequence
  rw [if_neg (by rw [hlen]; simp), hs1]
  simp only [bind, Except.bind, u1, g5]

/-- The rotations of the inner nodes are exact. -/
lemma inner_exact [h2 : Fact (2 ≤ d)] (h : RootedTree t r) (hg : InnerDirections t) : ExactInner t r (orientOf t r) := by
  have hO := orientOf_isOrient h (inner_defined h hg)
  refine ⟨fun n hn => hO.on h hn, fun p c hp => hO.b0 h hp, fun n hn hc => ?_, by rw [hO.root],
    fun p c hp e => hO.still h hp e⟩
  by_cases hr : n = r
  · subst hr; rw [hO.root]; simp
  · obtain ⟨c, hc⟩ := hc.resolve_left hr
    obtain ⟨p, hp⟩ := h.has_parent n hn hr
    have hpn := (dir_eq h (h.edge_fst _ _ hp)).2
    have hnn := (dir_eq h hn).2
    have hs := fromDirections_some (hO.child p n hp)
    rw [planeRot_b0 (hO.on h hn)]
    rcases (hg p n hp).2 with e | e | e
    · have ha : (orientOf t r n).angle = 0 := by
        rw [hs.2.2.2.2, e, InnerProductGeometry.angle_self]
        rintro h0; rw [h0] at hnn; simp at hnn
      rw [ha, hs.2.2.2.1, unit_of_norm_one hpn, e]; simp
    · have := fromDirections_far_maps (hO.child p n hp)
        (by rw [unit_of_norm_one hpn, unit_of_norm_one hnn]; exact e)
      rw [this, unit_of_norm_one hnn]
    · exact absurd hc (e c)

open Classical in
/-- The result of a reduction; the weight of the root may be negative. -/
lemma reduce_spec_good (h : RootedTree t r) (hg : InnerDirections t) {argsort : List ℤ → List ℕ}
    (has : ArgsortSpec argsort) (st : NodeState I d) {ns : List I} {ws : List ℝ}
    (hlen : ns.length = ws.length) (hknown : ∀ n ∈ ns, n ∈ t.nodes) {W : I → ℝ}
    (hgw : GoodWeights t r W) (hW : branchWeight t (ns.zip ws) = W) (L : ℕ)
    (hL : ∀ l : ℤ, (∃ n ∈ t.nodes, lev t n = l ∧ W n ≠ 0) ↔ 0 ≤ l ∧ l < (L + 1 : ℕ)) :
    ∃ sorted S R, t.getNodesAscending argsort = .ok sorted ∧ Ascending t sorted
      ∧ Linked t r W (orientOf t r) (partOf t W (orientOf t r) sorted)
      ∧ LoopInv t r W (orientOf t r) L
          (levelsUpTo t W sorted ⟨partOf t W (orientOf t r) sorted, [], none⟩ L) S
      ∧ R = levelRot (levelsUpTo t W sorted ⟨partOf t W (orientOf t r) sorted, [], none⟩ L).q
          (idsAt t W sorted L) S
      ∧ LevelRot t W (orientOf t r) L S R ∧ ‖S‖ = 1
      ∧ t.reduceWeightedToSequence argsort st ns ws = .ok (
        if (∀ n ∈ idsAt t W sorted L, ∀ m, ¬ Descendant t n m) ∨ R.angle = 0 then
          (levelsUpTo t W sorted ⟨partOf t W (orientOf t r) sorted, [], none⟩ L).seq ++ [R]
        else (levelsUpTo t W sorted ⟨partOf t W (orientOf t r) sorted, [], none⟩ L).seq ++ [R, R]) :=
  reduce_spec_inner h (inner_defined h hg) (inner_exact h hg)
    has st hlen hknown hgw hW L hL

open Classical in
/-- The result of a reduction. -/
lemma reduce_spec (h : RootedTree t r) (hg : InnerDirections t) {argsort : List ℤ → List ℕ}
    (has : ArgsortSpec argsort) (st : NodeState I d) {ns : List I} {ws : List ℝ}
    (ha : Args t r ns ws) {W : I → ℝ} (hW : branchWeight t (ns.zip ws) = W) (L : ℕ)
    (hL : ∀ l : ℤ, (∃ n ∈ t.nodes, lev t n = l ∧ W n ≠ 0) ↔ 0 ≤ l ∧ l < (L + 1 : ℕ)) :
    ∃ sorted S R, t.getNodesAscending argsort = .ok sorted ∧ Ascending t sorted
      ∧ Linked t r W (orientOf t r) (partOf t W (orientOf t r) sorted)
      ∧ LoopInv t r W (orientOf t r) L
          (levelsUpTo t W sorted ⟨partOf t W (orientOf t r) sorted, [], none⟩ L) S
      ∧ R = levelRot (levelsUpTo t W sorted ⟨partOf t W (orientOf t r) sorted, [], none⟩ L).q
          (idsAt t W sorted L) S
      ∧ LevelRot t W (orientOf t r) L S R ∧ ‖S‖ = 1
      ∧ t.reduceWeightedToSequence argsort st ns ws = .ok (
        if (∀ n ∈ idsAt t W sorted L, ∀ m, ¬ Descendant t n m) ∨ R.angle = 0 then
          (levelsUpTo t W sorted ⟨partOf t W (orientOf t r) sorted, [], none⟩ L).seq ++ [R]
        else (levelsUpTo t W sorted ⟨partOf t W (orientOf t r) sorted, [], none⟩ L).seq ++ [R, R]) :=
  reduce_spec_good h hg has st ha.len ha.known (hW ▸ ha.good h) hW L hL

lemma endVector_append (s : RotSeq (Vec d)) (R : Rot (Vec d)) :
    RotSeq.getEndVector (s ++ [R]) = .ok R.getSecondVector := by
  unfold RotSeq.getEndVector
  rw [List.getLast?_append]
  simp [Rot.rotate, Rot.getSecondVector]

open Classical in
/-- The result of `get_weighted_mean`; the weight of the root may be negative, and the leaves
may be within the tolerance of their parents. -/
lemma mean_spec_inner (h : RootedTree t r) (hd : Defined t)
    (hE : ExactInner t r (orientOf t r)) {argsort : List ℤ → List ℕ}
    (has : ArgsortSpec argsort) (st : NodeState I d) {ns : List I} {ws : List ℝ}
    (hlen : ns.length = ws.length) (hknown : ∀ n ∈ ns, n ∈ t.nodes) {W : I → ℝ}
    (hgw : GoodWeights t r W) (hW : branchWeight t (ns.zip ws) = W) (L : ℕ)
    (hL : ∀ l : ℤ, (∃ n ∈ t.nodes, lev t n = l ∧ W n ≠ 0) ↔ 0 ≤ l ∧ l < (L + 1 : ℕ)) :
    ∃ sorted S R, Ascending t sorted
      ∧ Linked t r W (orientOf t r) (partOf t W (orientOf t r) sorted)
      ∧ LoopInv t r W (orientOf t r) L
          (levelsUpTo t W sorted ⟨partOf t W (orientOf t r) sorted, [], none⟩ L) S
      ∧ R = levelRot (levelsUpTo t W sorted ⟨partOf t W (orientOf t r) sorted, [], none⟩ L).q
          (idsAt t W sorted L) S
      ∧ LevelRot t W (orientOf t r) L S R ∧ ‖S‖ = 1
      ∧ t.getWeightedMean argsort st ns ws = .ok R.getSecondVector := by
  obtain ⟨sorted, S, R, -, g1, g2, g3, g4, g5, g6, g7⟩ := reduce_spec_inner h hd hE has st hlen hknown hgw hW L hL
  refine ⟨sorted, S, R, g1, g2, g3, g4, g5, g6, ?_⟩
  unfold Tree.getWeightedMean
  rw [g7]
  simp only [bind, Except.bind]
  split_ifs
  · exact endVector_append _ _
  · rw [show (levelsUpTo t W sorted ⟨partOf t W (orientOf t r) sorted, [], none⟩ L).seq ++ [R, R]
      = ((levelsUpTo t W sorted ⟨partOf t W (orientOf t r) sorted, [], none⟩ L).seq ++ [R]) ++ [R] by
        simp]
    exact endVector_append _ _

open Classical in
/-- The result of `get_weighted_mean`; the weight of the root may be negative. -/
lemma mean_spec_good (h : RootedTree t r) (hg : InnerDirections t) {argsort : List ℤ → List ℕ}
    (has : ArgsortSpec argsort) (st : NodeState I d) {ns : List I} {ws : List ℝ}
    (hlen : ns.length = ws.length) (hknown : ∀ n ∈ ns, n ∈ t.nodes) {W : I → ℝ}
    (hgw : GoodWeights t r W) (hW : branchWeight t (ns.zip ws) = W) (L : ℕ)
    (hL : ∀ l : ℤ, (∃ n ∈ t.nodes, lev t n = l ∧ W n ≠ 0) ↔ 0 ≤ l ∧ l < (L + 1 : ℕ)) :
    ∃ sorted S R, Ascending t sorted
      ∧ Linked t r W (orientOf t r) (partOf t W (orientOf t r) sorted)
      ∧ LoopInv t r W (orientOf t r) L
          (levelsUpTo t W sorted ⟨partOf t W (orientOf t r) sorted, [], none⟩ L) S
      ∧ R = levelRot (levelsUpTo t W sorted ⟨partOf t W (orientOf t r) sorted, [], none⟩ L).q
          (idsAt t W sorted L) S
      ∧ LevelRot t W (orientOf t r) L S R ∧ ‖S‖ = 1
      ∧ t.getWeightedMean argsort st ns ws = .ok R.getSecondVector :=
  mean_spec_inner h (inner_defined h hg) (inner_exact h hg)
    has st hlen hknown hgw hW L hL

open Classical in
/-- The result of `get_weighted_mean`. -/
lemma mean_spec (h : RootedTree t r) (hg : InnerDirections t) {argsort : List ℤ → List ℕ}
    (has : ArgsortSpec argsort) (st : NodeState I d) {ns : List I} {ws : List ℝ}
    (ha : Args t r ns ws) {W : I → ℝ} (hW : branchWeight t (ns.zip ws) = W) (L : ℕ)
    (hL : ∀ l : ℤ, (∃ n ∈ t.nodes, lev t n = l ∧ W n ≠ 0) ↔ 0 ≤ l ∧ l < (L + 1 : ℕ)) :
    ∃ sorted S R, Ascending t sorted
      ∧ Linked t r W (orientOf t r) (partOf t W (orientOf t r) sorted)
      ∧ LoopInv t r W (orientOf t r) L
          (levelsUpTo t W sorted ⟨partOf t W (orientOf t r) sorted, [], none⟩ L) S
      ∧ R = levelRot (levelsUpTo t W sorted ⟨partOf t W (orientOf t r) sorted, [], none⟩ L).q
          (idsAt t W sorted L) S
      ∧ LevelRot t W (orientOf t r) L S R ∧ ‖S‖ = 1
      ∧ t.getWeightedMean argsort st ns ws = .ok R.getSecondVector :=
  mean_spec_good h hg has st ha.len ha.known (hW ▸ ha.good h) hW L hL

/-! ### Levels with a single weighted node -/

lemma levelRot_single (q : I → Rot (Vec d)) (a : I) (hon : (q a).base.ON) (h0 : 0 ≤ (q a).angle)
    (v : Vec d) :
    planeRot (levelRot q [a] (q a).base.b0).base (levelRot q [a] (q a).base.b0).angle v
      = planeRot (q a).base (q a).angle v := by
  have hm : meanOf q [a] = (q a).angle • (q a).base.b1 := by simp [meanOf]
  have hn : ‖meanOf q [a]‖ = (q a).angle := by
    rw [hm, norm_smul, hon.norm_snd, mul_one, Real.norm_eq_abs, abs_of_nonneg h0]
  by_cases hz : (q a).angle = 0
  · have : (levelRot q [a] (q a).base.b0).angle = 0 := by
      change ‖meanOf q [a]‖ = 0; rw [hn, hz]
    rw [this, hz, planeRot_zero, planeRot_zero]
  · have e1 : (levelRot q [a] (q a).base.b0) = q a := by
      unfold levelRot
      rw [hn, if_neg hz, hm, smul_smul, one_div, inv_mul_cancel₀ hz, one_smul]
    rw [e1]

lemma levelParts_single (q : I → Rot (Vec d)) (a : I) (hon : (q a).base.ON)
    (h0 : 0 ≤ (q a).angle) :
    levelParts t q [a] (levelRot q [a] (q a).base.b0) = q := by
  funext m
  unfold levelParts
  by_cases hd : Descendant t a m
  · rw [if_pos ⟨a, by simp, hd⟩]
    have : unrot t [a] q m
        = ⟨(q m).base.map (planeRot (q a).base ((-1) * (q a).angle)), (q m).angle⟩ := by
      simp [unrot, hd]
    rw [this]
    have key : ∀ v, planeRot (levelRot q [a] (q a).base.b0).base
        (levelRot q [a] (q a).base.b0).angle (planeRot (q a).base ((-1) * (q a).angle) v) = v := by
      intro v
      rw [levelRot_single q a hon h0, planeRot_planeRot hon]
      rw [show (-1) * (q a).angle + (q a).angle = 0 by ring, planeRot_zero]
    simp only [Base.map, key]
  · rw [if_neg]
    rintro ⟨n, hn, hnm⟩
    rw [List.mem_singleton] at hn
    rw [hn] at hnm; exact hd hnm

/-- As long as every level has a single weighted node, the partial rotations do not change. -/
lemma levelsUpTo_single {W : I → ℝ} {sorted : List I} (q : I → Rot (Vec d))
    (hon : ∀ n ∈ t.nodes, (q n).base.ON) (hang : ∀ n ∈ t.nodes, 0 ≤ (q n).angle) (k : ℕ)
    (hids : ∀ j < k, ∃ a ∈ t.nodes, idsAt t W sorted (j : ℤ) = [a]) :
    (levelsUpTo t W sorted ⟨q, [], none⟩ k).q = q := by
  induction k with
  | zero => rfl
  | succ k ih =>
    have ih := ih (fun j hj => hids j (by omega))
    obtain ⟨a, ha, hk⟩ := hids k (by omega)
    rw [levelsUpTo_succ]
    unfold pureLevel
    rw [hk]
    simp only [ih]
    split_ifs
    · rfl
    · exact levelParts_single q a (hon a ha) (hang a ha)
    · exact levelParts_single q a (hon a ha) (hang a ha)

/-- The partial rotation of a node below nodes that do not rotate. -/
lemma partOf_base {W : I → ℝ} {O : I → Rot (Vec d)} (sorted : List I) (m : I)
    (hm : ∀ n, Descendant t n m → (O n).angle = 0) :
    (partOf t W O sorted m).base = (O m).base := by
  unfold partOf
  generalize sorted.reverse = L
  suffices ∀ q : I → Rot (Vec d), (q m).base = (O m).base →
      (L.foldl (pStep t W O) q m).base = (O m).base from this O rfl
  induction L with
  | nil => intro q hq; exact hq
  | cons n L ih =>
    intro q hq
    rw [List.foldl_cons]
    apply ih
    unfold pStep
    split_ifs with h1 h3
    · rw [h1]
    · rw [hm n h3.2.2, zero_mul, sub_zero, Base.map_id]; exact hq
    · exact hq

lemma levelRot_zero (q : I → Rot (Vec d)) (ids : List I) (first : Vec d)
    (h0 : ∀ n ∈ ids, (q n).angle = 0) : (levelRot q ids first).angle = 0 := by
  have hm : meanOf q ids = 0 := by
    unfold meanOf
    apply List.sum_eq_zero
    intro v hv
    obtain ⟨n, hn, rfl⟩ := List.mem_map.mp hv
    rw [h0 n hn, zero_smul]
  change ‖meanOf q ids‖ = 0
  rw [hm, norm_zero]

/-- A level whose nodes do not rotate does not change anything. -/
lemma levelParts_zero (q : I → Rot (Vec d)) (ids : List I) (first : Vec d)
    (h0 : ∀ n ∈ ids, (q n).angle = 0) : levelParts t q ids (levelRot q ids first) = q := by
  classical
  have ha : (levelRot q ids first).angle = 0 := levelRot_zero q ids first h0
  have hun : ∀ (l : List I), (∀ n ∈ l, (q n).angle = 0) → unrot t l q = q := by
    intro l
    induction l with
    | nil => intro _; rfl
    | cons n l ih =>
      intro hl
      rw [unrot_cons]
      have : unrot t [n] q = q := by
        funext m
        simp only [unrot, List.foldl_cons, List.foldl_nil]
        split_ifs
        · rw [hl n List.mem_cons_self, mul_zero, Base.map_id]
        · rfl
      rw [this]
      exact ih (fun x hx => hl x (List.mem_cons_of_mem _ hx))
  funext m
  unfold levelParts
  rw [hun ids h0, ha]
  split_ifs
  · rw [Base.map_id]
  · rfl

lemma levelsUpTo_zero {W : I → ℝ} {sorted : List I} (q : I → Rot (Vec d)) (k : ℕ)
    (hids : ∀ j < k, ∀ n ∈ idsAt t W sorted (j : ℤ), (q n).angle = 0) :
    (levelsUpTo t W sorted ⟨q, [], none⟩ k).q = q ∧ (levelsUpTo t W sorted ⟨q, [], none⟩ k).seq = [] := by
  induction k with
  | zero => exact ⟨rfl, rfl⟩
  | succ k ih =>
    have ih := ih (fun j hj => hids j (by omega))
    have hk := hids k (by omega)
    rw [levelsUpTo_succ]
    unfold pureLevel
    split
    · exact ih
    · rename_i n0 rest heq
      rw [heq] at hk
      have hR : (levelRot q (n0 :: rest) (q n0).base.b0).angle = 0 := levelRot_zero q _ _ hk
      simp only [ih.1, ih.2]
      rw [if_pos hR]
      split_ifs
      · exact ⟨rfl, rfl⟩
      · exact ⟨levelParts_zero q _ _ hk, rfl⟩

/-! ### One node with weight one -/

lemma branchWeight_one (n m : I) (hn : n ∈ t.nodes) :
    branchWeight t ([n].zip [(1 : ℝ)]) m
      = open Classical in if n = m ∨ Descendant t m n then 1 else 0 := by
  classical
  unfold branchWeight
  have e : ∀ x, givenWeight ([n].zip [(1 : ℝ)]) x = if x = n then 1 else 0 := by
    intro x; simp [givenWeight]
  simp only [e]
  rw [Finset.sum_ite_eq']
  simp [hn]

lemma one_hot_core (h : RootedTree t r) (hg : GoodDirections t) {argsort : List ℤ → List ℕ}
    (has : ArgsortSpec argsort) (st : NodeState I d) (n : I) (hn : n ∈ t.nodes) :
    ∃ (seq : List (Rot (Vec d))) (R : Rot (Vec d)), t.reduceWeightedToSequence argsort st [n] [1] = .ok (
        open Classical in
        if (∀ m, ¬ Descendant t n m) ∨ R.angle = 0 then seq ++ [R] else seq ++ [R, R])
      ∧ R.getSecondVector = dirOf t n ∧ R.base.b0 = (orientOf t r n).base.b0
      ∧ R.angle = (orientOf t r n).angle
      ∧ ((∀ m, Descendant t m n → (orientOf t r m).angle = 0) → seq = []) := by
  classical
  set W := branchWeight t ([n].zip [(1 : ℝ)]) with hW
  have hWv : ∀ m, W m = if n = m ∨ Descendant t m n then 1 else 0 := fun m =>
    branchWeight_one n m hn
  have hWz : ∀ m, W m ≠ 0 ↔ n = m ∨ Descendant t m n := by
    intro m; rw [hWv m]; split_ifs with e <;> simp [e]
  have ha : Args t r [n] [1] := by
    refine ⟨rfl, by simpa using hn, by simp, ?_⟩
    intro m _ _
    rw [← hW, hWv m]; split_ifs <;> norm_num
  have hgw := ha.good h
  obtain ⟨L, hL⟩ := exists_deepest h hgw (by
    rw [← hW, hWz]
    by_cases hr : n = r
    · exact Or.inl hr
    · exact Or.inr (h.root_desc hn hr))
  have hL' := hL
  rw [← hW] at hL
  have hlevn : lev t n = (L : ℤ) := by
    have h1 := ((hL (lev t n)).mp ⟨n, hn, rfl, (hWz n).mpr (Or.inl rfl)⟩).2
    obtain ⟨m, _, hm1, hm2⟩ := (hL L).mpr ⟨by positivity, by push_cast; omega⟩
    rcases (hWz m).mp hm2 with e | e
    · rw [e]; exact hm1
    · have := h.lev_desc e
      push_cast at h1; omega
  obtain ⟨sorted, S, R, -, g1, g2, g3, g4, g5, g6, g7⟩ := reduce_spec h hg.inner has st ha hW.symm L hL
  have hd := defined_of_good h hg
  have hO := orientOf_isOrient h hd
  have hE := exact_of_good h hO hg
  set q := partOf t W (orientOf t r) sorted with hq
  have hsingle : ∀ j < L + 1, ∃ a ∈ t.nodes, idsAt t W sorted (j : ℤ) = [a] := by
    intro j hj
    obtain ⟨a, ha1, ha2, ha3⟩ := (hL j).mpr ⟨by positivity, by exact_mod_cast hj⟩
    refine ⟨a, ha1, ?_⟩
    have hmem : ∀ x, x ∈ idsAt t W sorted (j : ℤ) ↔ x = a := by
      intro x
      rw [mem_idsAt h g1]
      constructor
      · rintro ⟨hx1, hx2, hx3⟩
        have hx := (hWz x).mp hx3
        have ha := (hWz a).mp ha3
        rcases hx with e | e
        · rcases ha with e' | e'
          · rw [← e, e']
          · have := h.lev_desc e'; rw [e] at this; omega
        · rcases ha with e' | e'
          · have := h.lev_desc e; rw [e'] at this; omega
          · exact h.desc_same_level e e' (by omega)
      · rintro rfl; exact ⟨ha1, ha2, ha3⟩
    have hnd := idsAt_nodup (W := W) h g1 (j : ℤ)
    apply List.perm_singleton.mp
    rw [List.perm_ext_iff_of_nodup hnd (by simp)]
    intro x; rw [hmem]; simp
  have hang : ∀ m ∈ t.nodes, 0 ≤ (q m).angle := by
    intro m hm
    rw [g2.ang m hm]
    exact mul_nonneg (hO.angle_nonneg h hm) (hgw.nonneg m)
  have hqL := levelsUpTo_single (W := W) (sorted := sorted) q g2.on hang L
    (fun j hj => hsingle j (by omega))
  rw [hqL] at g4
  have hidsL : idsAt t W sorted (L : ℤ) = [n] := by
    obtain ⟨a, _, e⟩ := hsingle L (by omega)
    have : n ∈ idsAt t W sorted (L : ℤ) :=
      (mem_idsAt h g1).mpr ⟨hn, hlevn, (hWz n).mpr (Or.inl rfl)⟩
    rw [e, List.mem_singleton] at this
    rw [e, this]
  rw [hidsL] at g4
  have hSn : (q n).base.b0 = S := by
    have := g3.level.shared n hn hlevn ((hWz n).mpr (Or.inl rfl))
    rw [hqL] at this; exact this
  have hqn : q n = orientOf t r n := by
    have e1 : (q n).base = (orientOf t r n).base :=
      partOf_zero_one (by
        intro m; rw [hWv m]; split_ifs
        · exact Or.inr rfl
        · exact Or.inl rfl) sorted n
    have e2 : (q n).angle = (orientOf t r n).angle := by
      rw [g2.ang n hn, hWv n, if_pos (Or.inl rfl), mul_one]
    exact Rot.ext e1 e2
  refine ⟨(levelsUpTo t W sorted ⟨q, [], none⟩ L).seq, R, ?_, ?_, ?_, ?_, ?_⟩
  · rw [hidsL] at g7
    simp only [List.mem_singleton, forall_eq] at g7
    exact g7
  · rw [second_eq, g4, ← hSn]
    have e3 : (levelRot q [n] (q n).base.b0).base.b0 = (q n).base.b0 := rfl
    rw [e3, levelRot_single q n (g2.on n hn) (hang n hn), hqn]
    exact hE.maps n hn
  · rw [g5.first, ← hSn, hqn]
  · have hm : meanOf q [n] = (q n).angle • (q n).base.b1 := by simp [meanOf]
    rw [g4, ← hqn]
    change ‖meanOf q [n]‖ = _
    rw [hm, norm_smul, (g2.on n hn).norm_snd, mul_one, Real.norm_eq_abs, abs_of_nonneg (hang n hn)]
  · intro hz
    refine (levelsUpTo_zero q L ?_).2
    intro j hj m hm
    obtain ⟨hm1, hm2, hm3⟩ := (mem_idsAt h g1).mp hm
    rw [g2.ang m hm1]
    rcases (hWz m).mp hm3 with e | e
    · rw [← e] at hm2; omega
    · rw [hz m e, zero_mul]

lemma one_hot_mean (h : RootedTree t r) (hg : GoodDirections t) {argsort : List ℤ → List ℕ}
    (has : ArgsortSpec argsort) (st : NodeState I d) (n : I) (hn : n ∈ t.nodes) :
    t.getWeightedMean argsort st [n] [1] = .ok (dirOf t n) := by
  classical
  obtain ⟨seq, R, g1, g3, _, _⟩ := one_hot_core h hg has st n hn
  unfold Tree.getWeightedMean
  rw [g1, ← g3]
  simp only [bind, Except.bind]
  split_ifs
  · exact endVector_append _ _
  · rw [show seq ++ [R, R] = (seq ++ [R]) ++ [R] by simp]
    exact endVector_append _ _

/-! ### Nodes attached to the root -/

lemma orientOf_vec (h : RootedTree t r) (hg : GoodDirections t) {p c : I} (hp : IsParent t p c) :
    (orientOf t r c).angle • (orientOf t r c).base.b1 = sphereLog (dirOf t p) (dirOf t c) := by
  have hd := defined_of_good h hg
  have hO := orientOf_isOrient h hd
  have hpn := (dir_eq h (h.edge_fst _ _ hp)).2
  have hcn := (dir_eq h (h.edge_snd _ _ hp)).2
  have hp0 : dirOf t p ≠ 0 := by intro h0; rw [h0] at hpn; simp at hpn
  have hc0 : dirOf t c ≠ 0 := by intro h0; rw [h0] at hcn; simp at hcn
  unfold sphereLog
  rw [hO.angle hp]
  rcases (hg p c hp).2 with e | e
  · rw [e, InnerProductGeometry.angle_self hc0, zero_smul, zero_smul]
  · have hch := hO.child p c hp
    rw [fromDirections_far hp0 hc0 (by rw [unit_of_norm_one hpn, unit_of_norm_one hcn]; exact e)
      (hg p c hp).1] at hch
    rw [← Option.some.inj hch]
    simp only [unit_of_norm_one hpn, unit_of_norm_one hcn]

/-- The mean of nodes attached to the root; the weights may exceed one together. -/
lemma star_mean_le (h : RootedTree t r) (hg : GoodDirections t) {argsort : List ℤ → List ℕ}
    (has : ArgsortSpec argsort) (st : NodeState I d) (ns : List I) (ws : List ℝ)
    (hlen : ns.length = ws.length) (hnd : ns.Nodup) (hch : ∀ n ∈ ns, IsParent t r n)
    (hnn : ∀ w ∈ ws, 0 ≤ w) (hpos : 0 < ws.sum) (hle : ∀ w ∈ ws, w ≤ 1) :
    t.getWeightedMean argsort st ns ws = .ok (sphereExp (dirOf t r)
      ((ns.zip ws).map (fun p => p.2 • sphereLog (dirOf t r) (dirOf t p.1))).sum) := by
  classical
  set given := ns.zip ws with hgiven
  have hfst : given.map Prod.fst = ns := List.map_fst_zip (by omega)
  have hsnd : given.map Prod.snd = ws := List.map_snd_zip (by omega)
  have hnd' : (given.map Prod.fst).Nodup := by rw [hfst]; exact hnd
  have hknown : ∀ n ∈ ns, n ∈ t.nodes := fun n hn => h.edge_snd _ _ (hch n hn)
  have hzin : ∀ p ∈ given, p.1 ∈ t.nodes := fun p hp => hknown _ (zip_fst_mem hp).1
  have hznn : ∀ p ∈ given, 0 ≤ p.2 := fun p hp => hnn _ (zip_fst_mem hp).2
  set W := branchWeight t given with hW
  have hroot : W r = ws.sum := by rw [hW, branchWeight_root h given hnd' hzin, hsnd]
  -- the weight of nodes below the root
  have hlev1 : ∀ n ∈ ns, lev t n = 1 := by
    intro n hn; have := h.lev_child (hch n hn); rw [h.lev_root] at this; omega
  have hWn : ∀ n ∈ t.nodes, n ≠ r → W n = givenWeight given n := by
    intro n hn hnr
    rw [hW, branchWeight, Finset.sum_eq_single n]
    · intro m hm hmn
      rw [Finset.mem_filter] at hm
      rcases hm.2 with e | e
      · exact absurd e hmn
      · apply givenWeight_not_mem
        rw [hfst]
        intro hmns
        have h1 := h.lev_desc e
        have h3 := Ascending.lev_pos h hn hnr
        have h4 := hlev1 m hmns
        omega
    · intro hx
      exfalso; apply hx
      rw [Finset.mem_filter, List.mem_toFinset]; exact ⟨hn, Or.inl rfl⟩
  have ha : Args t r ns ws := by
    refine ⟨hlen, hknown, hnn, ?_⟩
    intro n hn hnr
    rw [← hgiven, ← hW, hWn n hn hnr]
    by_cases hns : n ∈ ns
    · rw [← hfst] at hns
      obtain ⟨p, hp, rfl⟩ := List.mem_map.mp hns
      rw [givenWeight_of_mem hnd' hp]
      exact hle _ (zip_fst_mem hp).2
    · rw [givenWeight_not_mem _ _ (by rw [hfst]; exact hns)]; norm_num
  have hgw := ha.good h
  rw [← hgiven, ← hW] at hgw
  have hin : ∀ n ∈ t.nodes, n ≠ r → W n ≠ 0 → n ∈ ns := by
    intro n hn hnr h0
    rw [hWn n hn hnr] at h0
    by_contra hc
    exact h0 (givenWeight_not_mem _ _ (by rw [hfst]; exact hc))
  have hrns : ∀ n ∈ ns, n ≠ r := by
    rintro n hn rfl; exact h.root_no_parent _ (hch _ hn)
  obtain ⟨n1, hn1, hn1W⟩ : ∃ n ∈ ns, W n ≠ 0 := by
    by_contra hc
    push Not at hc
    have : ws.sum = 0 := by
      rw [← hsnd]
      apply List.sum_eq_zero
      intro w hw
      obtain ⟨p, hp, rfl⟩ := List.mem_map.mp hw
      have hp1 := (zip_fst_mem hp).1
      rw [← givenWeight_of_mem hnd' hp, ← hWn p.1 (hknown _ hp1) (hrns _ hp1)]
      exact hc _ hp1
    linarith
  have hL : ∀ l : ℤ, (∃ n ∈ t.nodes, lev t n = l ∧ W n ≠ 0) ↔ 0 ≤ l ∧ l < (1 + 1 : ℕ) := by
    intro l
    constructor
    · rintro ⟨n, hn, rfl, h0⟩
      by_cases hnr : n = r
      · rw [hnr, h.lev_root]; norm_num
      · rw [hlev1 n (hin n hn hnr h0)]; norm_num
    · rintro ⟨h0, h1⟩
      have : l = 0 ∨ l = 1 := by push_cast at h1; omega
      rcases this with rfl | rfl
      · exact ⟨r, h.root_mem, h.lev_root, by rw [hroot]; exact ne_of_gt hpos⟩
      · exact ⟨n1, hknown _ hn1, hlev1 _ hn1, hn1W⟩
  obtain ⟨sorted, S, R, g1, g2, g3, g4, g5, g6, g7⟩ := mean_spec h hg.inner has st ha hW.symm 1 hL
  have hd := defined_of_good h hg
  have hO := orientOf_isOrient h hd
  set q := partOf t W (orientOf t r) sorted with hq
  have hang : ∀ m ∈ t.nodes, 0 ≤ (q m).angle := by
    intro m hm
    rw [g2.ang m hm]
    exact mul_nonneg (hO.angle_nonneg h hm) (hgw.nonneg m)
  have hids0 : ∀ j : ℕ, j < 1 → ∃ a ∈ t.nodes, idsAt t W sorted (j : ℤ) = [a] := by
    intro j hj
    have : j = 0 := by omega
    subst this
    refine ⟨r, h.root_mem, ?_⟩
    apply List.perm_singleton.mp
    rw [List.perm_ext_iff_of_nodup (idsAt_nodup h g1 _) (by simp)]
    intro x
    rw [mem_idsAt h g1, List.mem_singleton]
    constructor
    · rintro ⟨hx1, hx2, _⟩
      by_contra hxr
      have := Ascending.lev_pos h hx1 hxr
      push_cast at hx2; omega
    · rintro rfl
      exact ⟨h.root_mem, by rw [h.lev_root]; rfl, by rw [hroot]; exact ne_of_gt hpos⟩
  have hq1 := levelsUpTo_single (W := W) (sorted := sorted) q g2.on hang 1 hids0
  rw [hq1] at g4
  have hbase : ∀ n ∈ ns, (q n).base = (orientOf t r n).base := by
    intro n hn
    apply partOf_base
    intro a ha
    rcases h.desc_parent ha (hch n hn) with e | e
    · rw [← e, hO.root]
    · exfalso
      have h1 := h.lev_desc e
      have h3 := Ascending.lev_nonneg h (h.desc_mem_left e)
      rw [h.lev_root] at h1; omega
  have hS : S = dirOf t r := by
    have := g3.level.shared n1 (hknown _ hn1) (by rw [hlev1 _ hn1]; rfl) hn1W
    rw [hq1, hbase n1 hn1, hO.b0 h (hch _ hn1)] at this
    exact this.symm
  have hmean : meanOf q (idsAt t W sorted ((1 : ℕ) : ℤ))
      = (given.map (fun p => p.2 • sphereLog (dirOf t r) (dirOf t p.1))).sum := by
    unfold meanOf
    rw [← List.sum_toFinset _ (idsAt_nodup h g1 _),
      ← sum_givenWeight given hnd' ns.toFinset
        (fun p hp => List.mem_toFinset.mpr (zip_fst_mem hp).1)
        (fun n => sphereLog (dirOf t r) (dirOf t n))]
    have hsub : (idsAt t W sorted ((1 : ℕ) : ℤ)).toFinset ⊆ ns.toFinset := by
      intro n hn
      rw [List.mem_toFinset, mem_idsAt h g1] at hn
      rw [List.mem_toFinset]
      refine hin n hn.1 ?_ hn.2.2
      rintro rfl
      have := hn.2.1
      rw [h.lev_root] at this; simp at this
    rw [← Finset.sum_subset hsub]
    · apply Finset.sum_congr rfl
      intro n hn
      have hns := List.mem_toFinset.mp (hsub hn)
      rw [g2.ang n (hknown n hns), hbase n hns, hWn n (hknown n hns) (hrns n hns), mul_comm,
        ← smul_smul, orientOf_vec h hg (hch n hns)]
    · intro n hn hnot
      have hns := List.mem_toFinset.mp hn
      have : W n = 0 := by
        by_contra h0
        apply hnot
        rw [List.mem_toFinset, mem_idsAt h g1]
        exact ⟨hknown n hns, by rw [hlev1 n hns]; rfl, h0⟩
      rw [← hWn n (hknown n hns) (hrns n hns), this, zero_smul]
  rw [g7, second_eq]
  have hRang : R.angle = ‖meanOf q (idsAt t W sorted ((1 : ℕ) : ℤ))‖ := by rw [g4]; rfl
  rw [hmean] at hRang
  congr 1
  unfold sphereExp
  rw [← hRang, g5.first, hS]
  rcases g5.on with e | e
  · have := planeRot_b0 e R.angle
    rw [g5.first, hS] at this
    rw [this]
    congr 1
    by_cases h0 : R.angle = 0
    · rw [h0]; simp
    · have : R.base.b1 = unit (meanOf q (idsAt t W sorted ((1 : ℕ) : ℤ))) := by
        rw [g4]
        unfold levelRot
        rw [if_neg]
        · rfl
        · rw [hmean, ← hRang]; exact h0
      rw [this, hmean]
  · rw [e]; simp

lemma star_mean (h : RootedTree t r) (hg : GoodDirections t) {argsort : List ℤ → List ℕ}
    (has : ArgsortSpec argsort) (st : NodeState I d) (ns : List I) (ws : List ℝ)
    (hlen : ns.length = ws.length) (hnd : ns.Nodup) (hch : ∀ n ∈ ns, IsParent t r n)
    (hnn : ∀ w ∈ ws, 0 ≤ w) (hpos : 0 < ws.sum) (hle : ws.sum ≤ 1) :
    t.getWeightedMean argsort st ns ws = .ok (sphereExp (dirOf t r)
      ((ns.zip ws).map (fun p => p.2 • sphereLog (dirOf t r) (dirOf t p.1))).sum) :=
  star_mean_le h hg has st ns ws hlen hnd hch hnn hpos
    (fun w hw => (List.single_le_sum hnn w hw).trans hle)

end
end Verif
