import Verif.Lemmas.TreeLevels
import Verif.Spec.Path
import Mathlib.Geometry.Euclidean.Angle.Unoriented.TriangleInequality

/-! # Helper lemmas: `reduce_weighted_to_sequence` as a whole -/

open Verif.Spec
open scoped RealInnerProductSpace

set_option linter.unusedSectionVars false

namespace Verif

open Spec.RootedTree (lev)

section Path
variable {V : Type*} [NormedAddCommGroup V] [InnerProductSpace ℝ V]

lemma leads_append {a b : V} {s : List (Rot V)} (hs : Leads a s b) (R : Rot V)
    (hR : R.base.b0 = b) : Leads a (s ++ [R]) R.getSecondVector := by
  induction s generalizing a with
  | nil => exact ⟨by rw [← (show a = b from hs)] at hR; exact hR, rfl⟩
  | cons r s ih => exact ⟨hs.1, ih hs.2⟩

lemma leads_connected {a b : V} {s : List (Rot V)} (hs : Leads a s b) : Connected s := by
  induction s generalizing a with
  | nil => exact List.IsChain.nil
  | cons r s ih =>
    cases s with
    | nil => exact List.IsChain.singleton r
    | cons r' s' =>
      exact List.isChain_cons_cons.mpr ⟨hs.2.1.symm, ih hs.2⟩

lemma angle_planeRot_le {B : Base V} (hB : B.ON) {α : ℝ} (hα : 0 ≤ α) :
    InnerProductGeometry.angle B.b0 (planeRot B α B.b0) ≤ α := by
  by_cases hp : α ≤ Real.pi
  · rw [InnerProductGeometry.angle, planeRot_inner0 hB, planeRot_norm hB, hB.i00, hB.i10,
      hB.norm_fst]
    simp only [mul_one, mul_zero, sub_zero, div_one]
    rw [Real.arccos_cos hα hp]
  · exact le_trans (InnerProductGeometry.angle_le_pi _ _) (le_of_lt (not_le.mp hp))

end Path

variable {I : Type} [DecidableEq I] {d : ℕ} {t : Tree I d} {r : I}

/-! ### The list of levels -/

/-- Downward closed sets of levels are initial segments. -/
lemma exists_segment (h : RootedTree t r) (P : I → Prop)
    (hP : ∀ p c, IsParent t p c → P c → P p) :
    ∃ k : ℕ, ∀ l : ℤ, (∃ n ∈ t.nodes, lev t n = l ∧ P n) ↔ 0 ≤ l ∧ l < k := by
  classical
  have hex : ∃ k : ℕ, ¬ ∃ n ∈ t.nodes, lev t n = (k : ℤ) ∧ P n := by
    refine ⟨100, ?_⟩
    rintro ⟨n, hn, hl, _⟩
    obtain ⟨l, h1, _, h3⟩ := h.level_bound n hn
    rw [h.level_eq hn] at h1
    have := Option.some.inj h1
    push_cast at hl; omega
  have hdown : ∀ (j : ℕ) (l : ℤ), 0 ≤ l → (∃ n ∈ t.nodes, lev t n = l + j ∧ P n) →
      ∃ n ∈ t.nodes, lev t n = l ∧ P n := by
    intro j
    induction j with
    | zero => intro l _ hn; simpa using hn
    | succ j ih =>
      rintro l hl0 ⟨n, hn, hl, hPn⟩
      apply ih l hl0
      have hnr : n ≠ r := by
        rintro rfl; rw [h.lev_root] at hl; push_cast at hl; omega
      obtain ⟨p, hp⟩ := h.has_parent n hn hnr
      refine ⟨p, h.edge_fst _ _ hp, ?_, hP p n hp hPn⟩
      have := h.lev_child hp
      push_cast at hl; omega
  refine ⟨Nat.find hex, fun l => ⟨?_, ?_⟩⟩
  · rintro ⟨n, hn, hl, hPn⟩
    have h0 : 0 ≤ l := by rw [← hl]; exact Ascending.lev_nonneg h hn
    refine ⟨h0, ?_⟩
    by_contra hlt
    push Not at hlt
    apply Nat.find_spec hex
    apply hdown (l - Nat.find hex).toNat _ (by positivity)
    refine ⟨n, hn, ?_, hPn⟩
    rw [hl, Int.toNat_of_nonneg (by simpa using hlt)]; ring
  · rintro ⟨h0, h1⟩
    have := Nat.find_min hex (m := l.toNat) (by omega)
    push Not at this
    rwa [Int.toNat_of_nonneg h0] at this

lemma levelSet_eq (h : RootedTree t r) {sorted : List I} (hs : Ascending t sorted) :
    ∃ k : ℕ, t.levelSet sorted = (List.range k).map (fun j : ℕ => (j : ℤ))
      ∧ ∀ n ∈ t.nodes, lev t n < k := by
  obtain ⟨k, hk⟩ := exists_segment h (fun _ => True) (fun _ _ _ _ => trivial)
  refine ⟨k, ?_, fun n hn => ((hk _).mp ⟨n, hn, rfl, trivial⟩).2⟩
  have hmap : sorted.filterMap t.level = sorted.map (lev t) := by
    rw [← List.filterMap_eq_map]
    apply List.filterMap_congr
    intro n hn
    rw [h.level_eq (hs.mem_iff.mp hn)]; rfl
  unfold Tree.levelSet
  rw [hmap]
  have hp1 : ((sorted.map (lev t)).dedup).Pairwise (· ≤ ·) := by
    refine List.Pairwise.sublist (List.dedup_sublist _) ?_
    rw [List.pairwise_map]; exact hs.asc
  have hp2 : ((List.range k).map (fun j : ℕ => (j : ℤ))).Pairwise (· ≤ ·) := by
    rw [List.pairwise_map]
    refine List.Pairwise.imp ?_ List.pairwise_lt_range
    intro a b hab; exact_mod_cast hab.le
  apply List.Perm.eq_of_pairwise' hp1 hp2
  rw [List.perm_ext_iff_of_nodup (List.nodup_dedup _)
    (List.Nodup.map (fun a b hab => by exact_mod_cast hab) List.nodup_range)]
  intro l
  rw [List.mem_dedup]
  have : l ∈ sorted.map (lev t) ↔ ∃ n ∈ t.nodes, lev t n = l ∧ True := by
    simp [List.mem_map, hs.mem_iff]
  rw [this, hk l]
  simp only [List.mem_map, List.mem_range]
  constructor
  · rintro ⟨h0, h1⟩; exact ⟨l.toNat, by omega, by omega⟩
  · rintro ⟨a, h0, h1⟩; omega

/-! ### The whole loop -/

section Loop
variable [Fact (2 ≤ d)] {W : I → ℝ} {O : I → Rot (Vec d)} {sorted : List I}

/-- The state before level `j`, without the error cases. -/
noncomputable def levelsUpTo (t : Tree I d) (W : I → ℝ) (sorted : List I) (p0 : PState I d)
    (j : ℕ) : PState I d := (List.range j).foldl (fun s (l : ℕ) => pureLevel t W sorted s (l : ℤ)) p0

lemma levelsUpTo_succ (p0 : PState I d) (j : ℕ) :
    levelsUpTo t W sorted p0 (j + 1) = pureLevel t W sorted (levelsUpTo t W sorted p0 j) (j : ℤ) := by
  simp [levelsUpTo, List.range_succ, List.foldl_append]

lemma pureLevel_nil (s : PState I d) (l : ℤ) (hl : idsAt t W sorted l = []) :
    pureLevel t W sorted s l = s := by
  unfold pureLevel; rw [hl]

lemma levelsUpTo_const (h : RootedTree t r) (hs : Ascending t sorted) (p0 : PState I d) (K : ℕ)
    (hK : ∀ l : ℤ, (∃ n ∈ t.nodes, lev t n = l ∧ W n ≠ 0) ↔ 0 ≤ l ∧ l < K) (j : ℕ) :
    levelsUpTo t W sorted p0 (K + j) = levelsUpTo t W sorted p0 K := by
  induction j with
  | zero => rfl
  | succ j ih =>
    rw [← Nat.add_assoc, levelsUpTo_succ, pureLevel_nil, ih]
    rw [List.eq_nil_iff_forall_not_mem]
    intro n hn
    obtain ⟨h1, h3, h4⟩ := (mem_idsAt h hs).mp hn
    have := ((hK _).mp ⟨n, h1, h3, h4⟩).2
    push_cast at this; omega

/-- Total rotation of the nodes below level `j`. -/
noncomputable def turned (t : Tree I d) (W : I → ℝ) (O : I → Rot (Vec d)) (j : ℤ) : ℝ :=
  ∑ n ∈ t.nodes.toFinset.filter (fun n => lev t n < j), W n * (O n).angle

/-- What holds before level `j`, as long as there are weighted nodes at level `j`. -/
structure LoopInv (t : Tree I d) (r : I) (W : I → ℝ) (O : I → Rot (Vec d)) (j : ℕ)
    (s : PState I d) (S : Vec d) : Prop where
  level : LevelInv t W O j s.q S
  leads : Leads (dirOf t r) s.seq S
  on : ∀ R ∈ s.seq, R.base.ON
  bound : InnerProductGeometry.angle (dirOf t r) S ≤ turned t W O j

/-- The rotation of a level with weighted nodes. -/
structure LevelRot (t : Tree I d) (W : I → ℝ) (O : I → Rot (Vec d)) (l : ℤ) (S : Vec d)
    (R : Rot (Vec d)) : Prop where
  first : R.base.b0 = S
  on : R.base.ON ∨ R.angle = 0
  nonneg : 0 ≤ R.angle
  le : R.angle ≤ ∑ n ∈ t.nodes.toFinset.filter (fun n => lev t n = l), W n * (O n).angle

lemma second_eq (R : Rot (Vec d)) : R.getSecondVector = planeRot R.base R.angle R.base.b0 :=
  rotateDirection_eq _ _ _

lemma norm_list_sum_le {α : Type*} (l : List α) (f : α → Vec d) :
    ‖(l.map f).sum‖ ≤ (l.map (fun a => ‖f a‖)).sum := by
  induction l with
  | nil => simp
  | cons a l ih =>
    rw [List.map_cons, List.sum_cons, List.map_cons, List.sum_cons]
    exact le_trans (norm_add_le _ _) (by linarith)

lemma levelRot_spec (h : RootedTree t r) (hs : Ascending t sorted) (hW : ∀ n, 0 ≤ W n)
    (hO : ∀ n ∈ t.nodes, 0 ≤ (O n).angle)
    {l : ℤ} {q : I → Rot (Vec d)} {S : Vec d} (hi : LevelInv t W O l q S)
    (hne : idsAt t W sorted l ≠ []) :
    LevelRot t W O l S (levelRot q (idsAt t W sorted l) S) ∧ ‖S‖ = 1 := by
  have hmem := fun n => mem_idsAt (W := W) h hs (l := l) (n := n)
  obtain ⟨n0, hn0⟩ := List.exists_mem_of_ne_nil _ hne
  obtain ⟨a1, a2, a3⟩ := (hmem n0).mp hn0
  have hS := hi.norm_shared a1 a2 a3
  refine ⟨⟨rfl, ?_, norm_nonneg _, ?_⟩, hS⟩
  · by_cases h0 : ‖meanOf q (idsAt t W sorted l)‖ = 0
    · right; exact h0
    · left; exact hi.rot_on _ hS (fun n hn => (hmem n).mp hn) h0
  · change ‖meanOf q (idsAt t W sorted l)‖ ≤ _
    unfold meanOf
    refine le_trans (norm_list_sum_le _ _) ?_
    have e1 : (idsAt t W sorted l).map (fun n => ‖(q n).angle • (q n).base.b1‖)
        = (idsAt t W sorted l).map (fun n => W n * (O n).angle) := by
      apply List.map_congr_left
      intro n hn
      have hn' := ((hmem n).mp hn).1
      rw [norm_smul, (hi.on n hn').norm_snd, mul_one, hi.ang n hn', Real.norm_eq_abs,
        abs_of_nonneg (mul_nonneg (hO n hn') (hW n)), mul_comm]
    rw [e1, ← List.sum_toFinset _ (idsAt_nodup h hs l)]
    apply Finset.sum_le_sum_of_subset_of_nonneg
    · intro n hn
      rw [List.mem_toFinset, hmem] at hn
      rw [Finset.mem_filter, List.mem_toFinset]; exact ⟨hn.1, hn.2.1⟩
    · intro n hn _
      rw [Finset.mem_filter, List.mem_toFinset] at hn
      exact mul_nonneg (hW n) (hO n hn.1)

lemma LevelRot.second_bound {l : ℤ} {S : Vec d} {R : Rot (Vec d)} (hR : LevelRot t W O l S R)
    (hS : ‖S‖ = 1) : InnerProductGeometry.angle S R.getSecondVector ≤ R.angle
      ∧ ‖R.getSecondVector‖ = 1 := by
  rw [second_eq]
  rcases hR.on with e | e
  · rw [← hR.first, planeRot_norm e, e.norm_fst]
    exact ⟨angle_planeRot_le e hR.nonneg, rfl⟩
  · rw [e, planeRot_zero, hR.first, hS, InnerProductGeometry.angle_self]
    · simp
    · rintro rfl; simp at hS

lemma turned_succ (j : ℕ) : turned t W O ((j : ℤ) + 1) = turned t W O j
    + ∑ n ∈ t.nodes.toFinset.filter (fun n => lev t n = (j : ℤ)), W n * (O n).angle := by
  unfold turned
  rw [← Finset.sum_union]
  · congr 1
    ext n
    simp only [Finset.mem_filter, Finset.mem_union]
    constructor
    · rintro ⟨h1, h3⟩
      by_cases e : lev t n = (j : ℤ)
      · exact Or.inr ⟨h1, e⟩
      · exact Or.inl ⟨h1, by omega⟩
    · rintro (⟨h1, h3⟩ | ⟨h1, h3⟩)
      · exact ⟨h1, by omega⟩
      · exact ⟨h1, by omega⟩
  · rw [Finset.disjoint_left]
    intro n h1 h3
    simp only [Finset.mem_filter] at h1 h3
    omega

lemma bound_step {j : ℕ} {s : PState I d} {S : Vec d} (hi : LoopInv t r W O j s S)
    {R : Rot (Vec d)} (hR : LevelRot t W O j S R) (hS : ‖S‖ = 1) :
    InnerProductGeometry.angle (dirOf t r) R.getSecondVector ≤ turned t W O ((j : ℤ) + 1) := by
  rw [turned_succ]
  refine le_trans (InnerProductGeometry.angle_le_angle_add_angle _ S _) ?_
  have := hi.bound
  have h3 := (hR.second_bound hS).1
  have h4 := hR.le
  linarith

/-- `pureLevel` on a level with weighted nodes that share their first vector. -/
lemma pureLevel_cons (h : RootedTree t r) (hs : Ascending t sorted)
    {l : ℤ} {s : PState I d} {S : Vec d} (hi : LevelInv t W O l s.q S)
    (hne : idsAt t W sorted l ≠ []) (R : Rot (Vec d))
    (hR : R = levelRot s.q (idsAt t W sorted l) S) :
    pureLevel t W sorted s l =
      open Classical in
      if ∀ n ∈ idsAt t W sorted l, ∀ m, ¬ Descendant t n m then { s with last := some R }
      else if R.angle = 0 then ⟨levelParts t s.q (idsAt t W sorted l) R, s.seq, some R⟩
      else ⟨levelParts t s.q (idsAt t W sorted l) R, s.seq ++ [R], some R⟩ := by
  subst hR
  unfold pureLevel
  cases hl : idsAt t W sorted l with
  | nil => exact absurd hl hne
  | cons n0 rest =>
    have hn0 : n0 ∈ idsAt t W sorted l := by rw [hl]; simp
    obtain ⟨a1, a2, a3⟩ := (mem_idsAt h hs).mp hn0
    simp only [hi.shared n0 a1 a2 a3]

lemma LoopInv.next (h : RootedTree t r) (hs : Ascending t sorted) (hW : ∀ n, 0 ≤ W n)
    (hmono : ∀ p c, IsParent t p c → W c ≠ 0 → W p ≠ 0)
    (hO : ∀ n ∈ t.nodes, 0 ≤ (O n).angle) {j : ℕ} {s : PState I d} {S : Vec d}
    (hi : LoopInv t r W O j s S)
    (hnext : ∃ c ∈ t.nodes, lev t c = (j : ℤ) + 1 ∧ W c ≠ 0) :
    ∃ S', LoopInv t r W O (j + 1) (pureLevel t W sorted s (j : ℤ)) S' := by
  obtain ⟨c, hc, hcl, hWc⟩ := hnext
  have hcr : c ≠ r := by rintro rfl; rw [h.lev_root] at hcl; omega
  obtain ⟨p, hp⟩ := h.has_parent c hc hcr
  have hpi : p ∈ idsAt t W sorted (j : ℤ) := (mem_idsAt h hs).mpr
    ⟨h.edge_fst _ _ hp, by have := h.lev_child hp; omega, hmono p c hp hWc⟩
  have hne : idsAt t W sorted (j : ℤ) ≠ [] := List.ne_nil_of_mem hpi
  obtain ⟨hR, hS⟩ := levelRot_spec h hs hW hO hi.level hne
  have hnx := hi.level.next h hmono (idsAt t W sorted (j : ℤ)) (idsAt_nodup h hs _)
    (fun n => mem_idsAt h hs) hne
  set R := levelRot s.q (idsAt t W sorted (j : ℤ)) S with hRdef
  have hsec : planeRot R.base R.angle S = R.getSecondVector := by
    rw [second_eq, hR.first]
  rw [hsec] at hnx
  refine ⟨R.getSecondVector, ?_⟩
  rw [pureLevel_cons h hs hi.level hne R hRdef,
    if_neg (fun hh => hh p hpi c (.single hp))]
  have hb := bound_step hi hR hS
  split_ifs with h0
  · refine ⟨by push_cast; exact hnx, ?_, hi.on, by push_cast; exact hb⟩
    have : R.getSecondVector = S := by rw [← hsec, h0, planeRot_zero]
    rw [this]; exact hi.leads
  · refine ⟨by push_cast; exact hnx, leads_append hi.leads R hR.first, ?_, by push_cast; exact hb⟩
    intro Q hQ
    rcases List.mem_append.mp hQ with e | e
    · exact hi.on Q e
    · rw [List.mem_singleton] at e
      rw [e]
      rcases hR.on with e' | e'
      · exact e'
      · exact absurd e' h0

/-- The state before level `0`. -/
lemma LoopInv.zero (h : RootedTree t r) {q : I → Rot (Vec d)} (hq : Linked t r W O q)
    (hW : ∀ n, 0 ≤ W n) : LoopInv t r W O 0 ⟨q, [], none⟩ (dirOf t r) := by
  refine ⟨⟨hq.on, hq.ang, ?_, ?_⟩, rfl, by simp, ?_⟩
  · intro n hn hl _
    by_cases hr : n = r
    · subst hr; exact hq.root
    · have := Ascending.lev_pos h hn hr
      push_cast at hl; omega
  · intro p c hp _ hWc
    exact hq.link p c hp (lt_of_le_of_ne (hW c) (Ne.symm hWc))
  · have hn : dirOf t r ≠ 0 := by
      intro h0; have := (dir_eq h h.root_mem).2; rw [h0] at this; simp at this
    rw [InnerProductGeometry.angle_self hn]
    unfold turned
    rw [Finset.filter_false_of_mem]
    · simp
    · intro n hn
      have := Ascending.lev_nonneg h (List.mem_toFinset.mp hn)
      push_cast; omega

lemma loop_inv (h : RootedTree t r) (hs : Ascending t sorted) (hW : ∀ n, 0 ≤ W n)
    (hmono : ∀ p c, IsParent t p c → W c ≠ 0 → W p ≠ 0)
    (hO : ∀ n ∈ t.nodes, 0 ≤ (O n).angle) {q : I → Rot (Vec d)} (hq : Linked t r W O q) (K : ℕ)
    (hK : ∀ l : ℤ, (∃ n ∈ t.nodes, lev t n = l ∧ W n ≠ 0) ↔ 0 ≤ l ∧ l < K) (j : ℕ)
    (hj : j < K) : ∃ S, LoopInv t r W O j (levelsUpTo t W sorted ⟨q, [], none⟩ j) S := by
  induction j with
  | zero => exact ⟨_, LoopInv.zero h hq hW⟩
  | succ j ih =>
    obtain ⟨S, hS⟩ := ih (by omega)
    rw [levelsUpTo_succ]
    exact hS.next h hs hW hmono hO ((hK _).mpr ⟨by omega, by omega⟩)

/-- The pure state describes the model state. -/
lemma foldlM_rel (h : RootedTree t r) (hs : Ascending t sorted) {weight : I → ℝ}
    (hweight : ∀ n ∈ t.nodes, weight n = W n) (s0 : Tree.SumState I d) (p0 : PState I d)
    (hr : Rel t s0 p0) (j : ℕ)
    (hon : ∀ i < j, ∀ m ∈ t.nodes, ((levelsUpTo t W sorted p0 i).q m).base.ON) :
    ∃ s, ((List.range j).map (fun i : ℕ => (i : ℤ))).foldlM (t.sumLevel weight sorted) s0 = .ok s
      ∧ Rel t s (levelsUpTo t W sorted p0 j) := by
  induction j with
  | zero => exact ⟨s0, rfl, hr⟩
  | succ j ih =>
    obtain ⟨s, h1, h3⟩ := ih (fun i hi => hon i (by omega))
    obtain ⟨s', h4, h5⟩ := sumLevel_rel h hweight hs s _ (j : ℤ) h3 (hon j (by omega))
    refine ⟨s', ?_, by rw [levelsUpTo_succ]; exact h5⟩
    rw [List.range_succ, List.map_append, List.foldlM_append, h1]
    simp only [List.map_cons, List.map_nil, List.foldlM_cons, List.foldlM_nil, bind, Except.bind, h4]
    rfl

/-- `evaluate_graph_summing` in terms of the state before the last weighted level `L`. -/
lemma graphSumming_eq (h : RootedTree t r) (hs : Ascending t sorted) (hW : ∀ n, 0 ≤ W n)
    (hmono : ∀ p c, IsParent t p c → W c ≠ 0 → W p ≠ 0)
    (hO : ∀ n ∈ t.nodes, 0 ≤ (O n).angle) {q : I → Rot (Vec d)} (hq : Linked t r W O q)
    (st : NodeState I d) (hweight : ∀ n ∈ t.nodes, st.weight n = W n)
    (hpart : ∀ n ∈ t.nodes, st.part n = some (q n)) (L : ℕ)
    (hK : ∀ l : ℤ, (∃ n ∈ t.nodes, lev t n = l ∧ W n ≠ 0) ↔ 0 ≤ l ∧ l < (L + 1 : ℕ)) :
    ∃ S R, LoopInv t r W O L (levelsUpTo t W sorted ⟨q, [], none⟩ L) S
      ∧ R = levelRot (levelsUpTo t W sorted ⟨q, [], none⟩ L).q (idsAt t W sorted L) S
      ∧ LevelRot t W O L S R ∧ ‖S‖ = 1
      ∧ t.evaluateGraphSumming st sorted = .ok (
        open Classical in
        if (∀ n ∈ idsAt t W sorted L, ∀ m, ¬ Descendant t n m) ∨ R.angle = 0 then
          (levelsUpTo t W sorted ⟨q, [], none⟩ L).seq ++ [R]
        else (levelsUpTo t W sorted ⟨q, [], none⟩ L).seq ++ [R, R]) := by
  classical
  obtain ⟨S, hi⟩ := loop_inv h hs hW hmono hO hq (L + 1) hK L (by omega)
  have hne : idsAt t W sorted (L : ℤ) ≠ [] := by
    obtain ⟨n, h1, h3, h4⟩ := (hK L).mpr ⟨by positivity, by push_cast; omega⟩
    exact List.ne_nil_of_mem ((mem_idsAt h hs).mpr ⟨h1, h3, h4⟩)
  obtain ⟨hR, hS⟩ := levelRot_spec h hs hW hO hi.level hne
  have hnx := hi.level.next h hmono (idsAt t W sorted (L : ℤ)) (idsAt_nodup h hs _)
    (fun n => mem_idsAt h hs) hne
  set p0 : PState I d := ⟨q, [], none⟩ with hp0
  set R := levelRot (levelsUpTo t W sorted p0 L).q (idsAt t W sorted (L : ℤ)) S with hRdef
  refine ⟨S, R, hi, rfl, hR, hS, ?_⟩
  have hpl := pureLevel_cons h hs hi.level hne R hRdef
  -- all states have orthonormal parts
  have honK : ∀ m ∈ t.nodes, ((levelsUpTo t W sorted p0 (L + 1)).q m).base.ON := by
    intro m hm
    rw [levelsUpTo_succ, hpl]
    split_ifs
    · exact hi.level.on m hm
    · exact hnx.on m hm
    · exact hnx.on m hm
  have hon : ∀ i, ∀ m ∈ t.nodes, ((levelsUpTo t W sorted p0 i).q m).base.ON := by
    intro i m hm
    by_cases hiL : i < L + 1
    · obtain ⟨S', hS'⟩ := loop_inv h hs hW hmono hO hq (L + 1) hK i hiL
      exact hS'.level.on m hm
    · obtain ⟨k, rfl⟩ := Nat.exists_eq_add_of_le (not_lt.mp hiL)
      rw [levelsUpTo_const h hs p0 (L + 1) hK]
      exact honK m hm
  obtain ⟨k, hk, hkn⟩ := levelSet_eq h hs
  have hLk : L + 1 ≤ k := by
    obtain ⟨n, h1, h3, _⟩ := (hK L).mpr ⟨by positivity, by push_cast; omega⟩
    have := hkn n h1
    rw [h3] at this; omega
  obtain ⟨j, hj⟩ := Nat.exists_eq_add_of_le hLk
  obtain ⟨s, h1, h3⟩ := foldlM_rel h hs hweight
    { part := st.part, seq := RotSeq.createEmpty, last := none } p0 ⟨hpart, rfl, rfl⟩ k
    (fun i _ m hm => hon i m hm)
  have hfin : levelsUpTo t W sorted p0 k = pureLevel t W sorted (levelsUpTo t W sorted p0 L) L := by
    rw [hj, levelsUpTo_const h hs p0 (L + 1) hK, levelsUpTo_succ]
  rw [hfin, hpl] at h3
  unfold Tree.evaluateGraphSumming
  rw [hk, h1]
  simp only [bind, Except.bind]
  rw [h3.last]
  by_cases hd : ∀ n ∈ idsAt t W sorted (L : ℤ), ∀ m, ¬ Descendant t n m
  · rw [if_pos hd] at h3
    have hl : (Or (∀ n ∈ idsAt t W sorted (L : ℤ), ∀ m, ¬ Descendant t n m) (R.angle = 0)) :=
      Or.inl hd
    rw [if_pos hl]
    simp only [if_pos hd, h3.seq, RotSeq.appendFromBaseAndAngle]
  · by_cases h0 : R.angle = 0
    · rw [if_neg hd, if_pos h0] at h3
      rw [if_pos (Or.inr h0)]
      simp only [if_neg hd, if_pos h0, h3.seq, RotSeq.appendFromBaseAndAngle]
    · rw [if_neg hd, if_neg h0] at h3
      rw [if_neg (not_or.mpr ⟨hd, h0⟩)]
      simp only [if_neg hd, if_neg h0, h3.seq, RotSeq.appendFromBaseAndAngle, List.append_assoc]
      rfl

/-! ### Congruence: unweighted branches do not matter -/

lemma unrot_congr {t' : Tree I d} (hdesc : ∀ a b, Descendant t a b ↔ Descendant t' a b)
    (ids : List I) (hids : ∀ n ∈ ids, W n ≠ 0) (q q' : I → Rot (Vec d))
    (hq : ∀ m, W m ≠ 0 → q m = q' m) (m : I) (hm : W m ≠ 0) :
    unrot t ids q m = unrot t' ids q' m := by
  induction ids generalizing q q' with
  | nil => exact hq m hm
  | cons n ids ih =>
    rw [unrot_cons, unrot_cons]
    apply ih (fun x hx => hids x (List.mem_cons_of_mem _ hx))
    intro x hx
    have hn := hids n List.mem_cons_self
    simp only [unrot, List.foldl_cons, List.foldl_nil]
    by_cases hd : Descendant t n x
    · rw [if_pos hd, if_pos ((hdesc _ _).mp hd), hq x hx, hq n hn]
    · rw [if_neg hd, if_neg (fun e => hd ((hdesc _ _).mpr e)), hq x hx]

lemma pureLevel_congr {t' : Tree I d} (hdesc : ∀ a b, Descendant t a b ↔ Descendant t' a b)
    (hlev : t.level = t'.level) (s s' : PState I d) (hq : ∀ m, W m ≠ 0 → s.q m = s'.q m)
    (hseq : s.seq = s'.seq) (hlast : s.last = s'.last) (l : ℤ) :
    (∀ m, W m ≠ 0 → (pureLevel t W sorted s l).q m = (pureLevel t' W sorted s' l).q m)
    ∧ (pureLevel t W sorted s l).seq = (pureLevel t' W sorted s' l).seq
    ∧ (pureLevel t W sorted s l).last = (pureLevel t' W sorted s' l).last := by
  have hids : idsAt t W sorted l = idsAt t' W sorted l := by unfold idsAt; rw [hlev]
  have hidsW : ∀ n ∈ idsAt t W sorted l, W n ≠ 0 := by
    intro n hn
    unfold idsAt at hn
    simp only [List.mem_filter, decide_eq_true_eq] at hn
    exact hn.2.2
  unfold pureLevel
  rw [← hids]
  cases hl : idsAt t W sorted l with
  | nil => exact ⟨hq, hseq, hlast⟩
  | cons n0 rest =>
    rw [hl] at hidsW
    have hmean : meanOf s.q (n0 :: rest) = meanOf s'.q (n0 :: rest) := by
      unfold meanOf
      congr 1
      apply List.map_congr_left
      intro n hn; rw [hq n (hidsW n hn)]
    have hR : levelRot s.q (n0 :: rest) (s.q n0).base.b0
        = levelRot s'.q (n0 :: rest) (s'.q n0).base.b0 := by
      unfold levelRot
      rw [hmean, hq n0 (hidsW n0 List.mem_cons_self)]
    simp only [hR]
    have hparts : ∀ R m, W m ≠ 0 → levelParts t s.q (n0 :: rest) R m
        = levelParts t' s'.q (n0 :: rest) R m := by
      intro R m hm
      unfold levelParts
      have hu := unrot_congr hdesc (n0 :: rest) hidsW s.q s'.q hq m hm
      by_cases hd : ∃ n ∈ n0 :: rest, Descendant t n m
      · have hd' : ∃ n ∈ n0 :: rest, Descendant t' n m := by
          obtain ⟨n, h1, h3⟩ := hd; exact ⟨n, h1, (hdesc _ _).mp h3⟩
        rw [if_pos hd, if_pos hd', hu]
      · have hd' : ¬ ∃ n ∈ n0 :: rest, Descendant t' n m := by
          rintro ⟨n, h1, h3⟩; exact hd ⟨n, h1, (hdesc _ _).mpr h3⟩
        rw [if_neg hd, if_neg hd', hq m hm]
    by_cases hd : ∀ n ∈ n0 :: rest, ∀ m, ¬ Descendant t n m
    · have hd' : ∀ n ∈ n0 :: rest, ∀ m, ¬ Descendant t' n m :=
        fun n hn m hm => hd n hn m ((hdesc _ _).mpr hm)
      rw [if_pos hd, if_pos hd']; exact ⟨hq, hseq, rfl⟩
    · have hd' : ¬ ∀ n ∈ n0 :: rest, ∀ m, ¬ Descendant t' n m :=
        fun hh => hd (fun n hn m hm => hh n hn m ((hdesc _ _).mp hm))
      rw [if_neg hd, if_neg hd']
      split_ifs
      · exact ⟨fun m hm => hparts _ m hm, hseq, rfl⟩
      · exact ⟨fun m hm => hparts _ m hm, by simp only [hseq], rfl⟩

lemma levelsUpTo_congr {t' : Tree I d} (hdesc : ∀ a b, Descendant t a b ↔ Descendant t' a b)
    (hlev : t.level = t'.level) (q q' : I → Rot (Vec d)) (hq : ∀ m, W m ≠ 0 → q m = q' m) (j : ℕ) :
    (∀ m, W m ≠ 0 → (levelsUpTo t W sorted ⟨q, [], none⟩ j).q m
        = (levelsUpTo t' W sorted ⟨q', [], none⟩ j).q m)
    ∧ (levelsUpTo t W sorted ⟨q, [], none⟩ j).seq = (levelsUpTo t' W sorted ⟨q', [], none⟩ j).seq
    ∧ (levelsUpTo t W sorted ⟨q, [], none⟩ j).last
      = (levelsUpTo t' W sorted ⟨q', [], none⟩ j).last := by
  induction j with
  | zero => exact ⟨hq, rfl, rfl⟩
  | succ j ih =>
    rw [levelsUpTo_succ, levelsUpTo_succ]
    exact pureLevel_congr hdesc hlev _ _ ih.1 ih.2.1 ih.2.2 _

end Loop
end Verif
