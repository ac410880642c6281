import Verif.Props.TreeReduce

/-!
# Property theorems C24, C26 and C27: means around the root, sequences as trees,
connectedness of the reduced sequence

Model: `Verif.Model.Tree` (vector_rotation.py:504-872).
-/

open Verif.Spec
open scoped RealInnerProductSpace

set_option linter.unusedSectionVars false

namespace Verif

variable {I : Type} [DecidableEq I] {d : ℕ}

/-! ## C24 -/

/-- C24: for nodes attached to the root, the weighted mean is the root direction moved along
the weighted sum of the rotation vectors of the nodes. -/
theorem C24_tangent_mean [Fact (2 ≤ d)] (t : Tree I d) (r : I) (h : RootedTree t r)
    (hg : GoodDirections t) (argsort : List ℤ → List ℕ) (has : ArgsortSpec argsort)
    (st : NodeState I d) (ns : List I) (ws : List ℝ) (hlen : ns.length = ws.length)
    (hnd : ns.Nodup) (hch : ∀ n ∈ ns, IsParent t r n) (hw : ∀ w ∈ ws, 0 ≤ w)
    (hpos : 0 < ws.sum) (hle : ws.sum ≤ 1) :
    t.getWeightedMean argsort st ns ws = .ok (sphereExp (dirOf t r)
      ((ns.zip ws).map (fun p => p.2 • sphereLog (dirOf t r) (dirOf t p.1))).sum) :=
  star_mean h hg has st ns ws hlen hnd hch hw hpos hle

/-- The sum of the angles between every node and its parent, weighted with the weights of
the branches. -/
noncomputable def weightedAngles (t : Tree I d) (given : List (I × ℝ)) : ℝ :=
  (t.edges.map (fun e => branchWeight t given e.2
    * InnerProductGeometry.angle (dirOf t e.1) (dirOf t e.2))).sum

lemma turned_le [Fact (2 ≤ d)] {t : Tree I d} {r : I} (h : RootedTree t r) (hg : InnerDirections t)
    (given : List (I × ℝ)) (hw : ∀ p ∈ given, 0 ≤ p.2) (j : ℤ) :
    turned t (branchWeight t given) (orientOf t r) j ≤ weightedAngles t given := by
  classical
  have hO := orientOf_isOrient h (inner_defined h hg)
  have hW := branchWeight_nonneg t given hw
  unfold turned weightedAngles
  have e1 : t.edges.map (fun e => branchWeight t given e.2
      * InnerProductGeometry.angle (dirOf t e.1) (dirOf t e.2))
      = (t.edges.map Prod.snd).map (fun n => branchWeight t given n * (orientOf t r n).angle) := by
    rw [List.map_map]
    apply List.map_congr_left
    intro e he
    simp only [Function.comp]
    rw [hO.angle (p := e.1) (c := e.2) he]
  rw [e1, ← List.sum_toFinset _ h.one_parent]
  have hnn : ∀ n ∈ t.nodes, 0 ≤ branchWeight t given n * (orientOf t r n).angle := fun n hn =>
    mul_nonneg (hW n) (hO.angle_nonneg h hn)
  have e2 : ∑ n ∈ t.nodes.toFinset, branchWeight t given n * (orientOf t r n).angle
      = ∑ n ∈ (t.edges.map Prod.snd).toFinset, branchWeight t given n * (orientOf t r n).angle := by
    symm
    apply Finset.sum_subset
    · intro n hn
      obtain ⟨e, he, rfl⟩ := List.mem_map.mp (List.mem_toFinset.mp hn)
      exact List.mem_toFinset.mpr (h.edge_snd e.1 e.2 he)
    · intro n hn hnot
      have : n = r := by
        by_contra hnr
        obtain ⟨p, hp⟩ := h.has_parent n (List.mem_toFinset.mp hn) hnr
        exact hnot (List.mem_toFinset.mpr (List.mem_map.mpr ⟨(p, n), hp, rfl⟩))
      rw [this, hO.root]; simp
  rw [← e2]
  apply Finset.sum_le_sum_of_subset_of_nonneg (Finset.filter_subset _ _)
  intro n hn _
  exact hnn n (List.mem_toFinset.mp hn)

/-- C24: for every tree, the weighted mean deviates from the root direction by no more than
the sum, over all edges, of the angle of the edge times the weight of the branch below it. -/
theorem C24_deviation_bound [Fact (2 ≤ d)] (t : Tree I d) (r : I) (h : RootedTree t r)
    (hg : InnerDirections t) (argsort : List ℤ → List ℕ) (has : ArgsortSpec argsort)
    (st : NodeState I d) (ns : List I) (ws : List ℝ) (hlen : ns.length = ws.length)
    (hns : ∀ n ∈ ns, n ∈ t.nodes) (hw : ∀ w ∈ ws, 0 ≤ w)
    (hle : ∀ n ∈ t.nodes, n ≠ r → branchWeight t (ns.zip ws) n ≤ 1) (v : Vec d)
    (hv : t.getWeightedMean argsort st ns ws = .ok v) :
    InnerProductGeometry.angle (dirOf t r) v ≤ weightedAngles t (ns.zip ws) := by
  have ha : Args t r ns ws := ⟨hlen, hns, hw, hle⟩
  have hgw := ha.good h
  by_cases hr : branchWeight t (ns.zip ws) r = 0
  · exfalso
    have hz : ∀ n ∈ t.nodes, branchWeight t (ns.zip ws) n = 0 := by
      intro n hn
      have := branchWeight_le_root h (ns.zip ws) ha.zip_nonneg hn
      rw [hr] at this
      exact le_antisymm this (hgw.nonneg n)
    unfold Tree.getWeightedMean at hv
    rw [C25_all_zero_error t r h (fun p c hp => (hg p c hp).1) argsort has st ns ws hlen hns hz] at hv
    cases hv
  · obtain ⟨L, hL⟩ := exists_deepest h hgw hr
    obtain ⟨sorted, S, R, _, _, g3, _, g5, g6, g7⟩ := mean_spec h hg has st ha rfl L hL
    rw [hv] at g7
    rw [Except.ok.inj g7]
    exact le_trans (bound_step g3 g5 g6) (turned_le h hg _ ha.zip_nonneg _)

/-- C24: for nodes attached to the root the mean stays in the cone around the root that
contains all of them. -/
theorem C24_cone [Fact (2 ≤ d)] (t : Tree I d) (r : I) (h : RootedTree t r)
    (hg : GoodDirections t) (argsort : List ℤ → List ℕ) (has : ArgsortSpec argsort)
    (st : NodeState I d) (ns : List I) (ws : List ℝ) (hlen : ns.length = ws.length)
    (hnd : ns.Nodup) (hch : ∀ n ∈ ns, IsParent t r n) (hw : ∀ w ∈ ws, 0 ≤ w)
    (hpos : 0 < ws.sum) (hle : ws.sum ≤ 1) (β : ℝ) (hβ : 0 ≤ β)
    (hcone : ∀ n ∈ ns, InnerProductGeometry.angle (dirOf t r) (dirOf t n) ≤ β) :
    ∃ v, t.getWeightedMean argsort st ns ws = .ok v
      ∧ InnerProductGeometry.angle (dirOf t r) v ≤ β := by
  have hmean := star_mean h hg has st ns ws hlen hnd hch hw hpos hle
  refine ⟨_, hmean, ?_⟩
  set w := ((ns.zip ws).map (fun p => p.2 • sphereLog (dirOf t r) (dirOf t p.1))).sum with hwdef
  have hr := (dir_eq h h.root_mem).2
  have hlog : ∀ v : Vec d, ‖sphereLog (dirOf t r) v‖ ≤ InnerProductGeometry.angle (dirOf t r) v := by
    intro v
    unfold sphereLog
    rw [norm_smul, Real.norm_eq_abs, abs_of_nonneg (InnerProductGeometry.angle_nonneg _ _)]
    have : ‖unit (v - ⟪dirOf t r, v⟫ • dirOf t r)‖ ≤ 1 := by
      by_cases h0 : v - ⟪dirOf t r, v⟫ • dirOf t r = 0
      · rw [h0]; simp [unit]
      · exact le_of_eq (unit_norm h0)
    nlinarith [InnerProductGeometry.angle_nonneg (dirOf t r) v]
  have hnorm : ‖w‖ ≤ β := by
    refine le_trans (norm_list_sum_le _ _) ?_
    have h1 : ∀ p ∈ ns.zip ws, ‖p.2 • sphereLog (dirOf t r) (dirOf t p.1)‖ ≤ p.2 * β := by
      intro p hp
      obtain ⟨hp1, hp2⟩ := zip_fst_mem hp
      rw [norm_smul, Real.norm_eq_abs, abs_of_nonneg (hw _ hp2)]
      exact mul_le_mul_of_nonneg_left (le_trans (hlog _) (hcone _ hp1)) (hw _ hp2)
    refine le_trans (List.sum_le_sum h1) ?_
    have h3 : ((ns.zip ws).map (fun p => p.2 * β)).sum = ws.sum * β := by
      rw [List.sum_map_mul_right, List.map_snd_zip (by omega)]
    rw [h3]
    nlinarith
  have horth : ⟪dirOf t r, w⟫ = 0 := by
    apply inner_list_sum
    intro p _
    unfold sphereLog unit
    simp only [inner_smul_right, inner_perp hr, mul_zero]
  unfold sphereExp
  by_cases hw0 : w = 0
  · rw [hw0]
    have hn : dirOf t r ≠ 0 := by intro h0; rw [h0] at hr; simp at hr
    simp only [norm_zero, Real.cos_zero, one_smul, Real.sin_zero, zero_smul, add_zero]
    rw [InnerProductGeometry.angle_self hn]; exact hβ
  · have hon : (⟨dirOf t r, unit w⟩ : Base (Vec d)).ON :=
      ⟨hr, unit_norm hw0, by unfold unit; rw [inner_smul_right, horth, mul_zero]⟩
    have := angle_planeRot_le hon (norm_nonneg w)
    rw [planeRot_b0 hon] at this
    exact le_trans this hnorm

/-- C24 is not vacuous. -/
example : RootedTree exTree 0 ∧ GoodDirections exTree ∧ (∃ a, ArgsortSpec a)
    ∧ (∀ n ∈ [1], IsParent exTree 0 n) ∧ [1].Nodup ∧ 0 < [(0.5 : ℝ)].sum ∧ [(0.5 : ℝ)].sum ≤ 1 := by
  refine ⟨exTree_rooted, exTree_good, argsort_exists, by simp [IsParent, exTree], by simp, ?_, ?_⟩
    <;> norm_num

/-! ## C26 -/

/-- Two neighbouring directions are admissible: not opposite, and equal or further apart
than the tolerance of `np.allclose`. -/
def GoodPair (u v : Vec d) : Prop := ¬ Opposite u v ∧ (u = v ∨ ¬ allclose u v)

/-- Adding one node: everything that is needed below. -/
lemma addNode_step (t : Tree I d) (r : I) (h : RootedTree t r) (n p : I) (v : Vec d)
    (hv : ‖v‖ = 1) (hn : n ∉ t.nodes) (hp : p ∈ t.nodes) (l : ℤ) (hl : t.level p = some l)
    (hlt : l + 1 < 100) :
    ∃ t', t.addNode n v (some p) = (t', .ok ()) ∧ RootedTree t' r ∧ t'.nodes = t.nodes ++ [n]
      ∧ t'.level n = some (l + 1) ∧ t'.dir n = some v
      ∧ (∀ m ∈ t.nodes, t'.dir m = t.dir m ∧ t'.level m = t.level m)
      ∧ (GoodDirections t → GoodPair (dirOf t p) v → GoodDirections t') := by
  have hv0 : v ≠ 0 := by rintro rfl; simp at hv
  have he := addNode_parent t n p v hv0 hn hp (fun he => hn (h.edge_snd _ _ he))
    (fun c he => hn (h.edge_fst _ _ he)) l hl hlt
  have hr := addNode_rooted t r h n p v hv0 hn hp l hl hlt
  rw [he] at hr
  have hne : ∀ m ∈ t.nodes, m ≠ n := fun m hm e => hn (e ▸ hm)
  refine ⟨_, he, hr, rfl, by simp, by simp [unit_of_norm_one hv], ?_, ?_⟩
  · intro m hm
    simp [hne m hm]
  · intro hg hpair a c hac
    simp only [IsParent, List.mem_append, List.mem_singleton, Prod.mk.injEq] at hac
    have hdir : ∀ m ∈ t.nodes, ((Function.update t.dir n (some (unit v)) m).getD 0) = dirOf t m := by
      intro m hm; simp [hne m hm, dirOf]
    rcases hac with hac | ⟨rfl, rfl⟩
    · unfold dirOf
      simp only
      rw [hdir a (h.edge_fst _ _ hac), hdir c (h.edge_snd _ _ hac)]
      exact hg a c hac
    · unfold dirOf
      simp only
      rw [hdir a hp]
      simp only [Function.update_self, Option.getD_some, unit_of_norm_one hv]
      exact hpair

/-- Adding a node at or above the level limit. -/
lemma addNode_limit (t : Tree I d) (n p : I) (v : Vec d) (hv : v ≠ 0) (hn : n ∉ t.nodes) (l : ℤ)
    (hl : t.level p = some l) (hlt : 100 ≤ l + 1) :
    (t.addNode n v (some p)).2 = .error .valueError := by
  have hv' : ‖v‖ ≠ 0 := norm_ne_zero_iff.mpr hv
  have hlev : (t.addEdge p n).level p = some l := by rw [addEdge_level]; exact hl
  unfold Tree.addNode
  rw [if_neg hv']
  simp only
  rw [if_neg hn, hlev]
  simp only
  unfold Tree.addNodeFinish
  rw [if_pos (by simp [Tree.maximumLevel]; omega)]

/-- The identifiers generated for the intermediate nodes are new: they differ from each other,
from `n` and from all nodes of the tree.  (In Python they are the tuples `(n, ii)`.) -/
structure FreshIds (inter : I → ℕ → I) (nodes : List I) (n : I) : Prop where
  inj : Function.Injective (inter n)
  ne : ∀ i, inter n i ≠ n
  new : ∀ i, inter n i ∉ nodes
  end_new : n ∉ nodes

lemma loop_spec (inter : I → ℕ → I) (n : I) (hinj : Function.Injective (inter n))
    (s : RotSeq (Vec d)) (hs : ∀ q ∈ s, ‖q.base.b0‖ = 1) (ii : ℕ) (p : I) (t : Tree I d) (r : I)
    (h : RootedTree t r) (hp : p ∈ t.nodes) (hnew : ∀ k, ii ≤ k → inter n k ∉ t.nodes)
    (l : ℤ) (hl : t.level p = some l) (hlt : l + s.length < 100) :
    ∃ t' p', Tree.addSequenceLoop inter n s ii p t = (t', .ok p') ∧ RootedTree t' r
      ∧ t'.nodes = t.nodes ++ (List.range' ii s.length).map (inter n)
      ∧ p' ∈ t'.nodes ∧ t'.level p' = some (l + s.length)
      ∧ (∀ m ∈ t.nodes, t'.dir m = t.dir m ∧ t'.level m = t.level m)
      ∧ dirOf t' p' = ((s.map (fun q => q.base.b0)).getLast?).getD (dirOf t p)
      ∧ (GoodDirections t →
          (dirOf t p :: s.map (fun q => q.base.b0)).IsChain GoodPair → GoodDirections t') := by
  induction s generalizing ii p t l with
  | nil =>
    exact ⟨t, p, rfl, h, by simp, hp, by simpa using hl, fun m _ => ⟨rfl, rfl⟩, by simp,
      fun hg _ => hg⟩
  | cons q s ih =>
    have hq := hs q List.mem_cons_self
    rw [List.length_cons] at hlt
    push_cast at hlt
    obtain ⟨t1, a1, a2, a3, a4, a5, a6, a7⟩ := addNode_step t r h (inter n ii) p q.base.b0
      hq (hnew ii (le_refl _)) hp l hl (by have := s.length; omega)
    have hd1 : dirOf t1 (inter n ii) = q.base.b0 := by simp [dirOf, a5]
    obtain ⟨t2, p2, b1, b2, b3, b4, b5, b6, b7, b8⟩ := ih
      (fun x hx => hs x (List.mem_cons_of_mem _ hx)) (ii + 1) (inter n ii) t1 a2
      (by rw [a3]; simp)
      (by
        intro k hk
        rw [a3, List.mem_append, List.mem_singleton, not_or]
        exact ⟨hnew k (by omega), fun e => by have := hinj e; omega⟩)
      (l + 1) a4 (by omega)
    refine ⟨t2, p2, ?_, b2, ?_, b4, ?_, ?_, ?_, ?_⟩
    · unfold Tree.addSequenceLoop
      rw [a1]; exact b1
    · rw [b3, a3, List.append_assoc, List.length_cons, List.range'_succ, List.map_cons]
      rfl
    · rw [b5, List.length_cons]; push_cast; congr 1; ring
    · intro m hm
      have hm1 : m ∈ t1.nodes := by rw [a3]; exact List.mem_append_left _ hm
      rw [(b6 m hm1).1, (b6 m hm1).2]; exact a6 m hm
    · rw [b7, hd1, List.map_cons]
      cases s with
      | nil => simp
      | cons x s => simp [List.getLast?_cons]
    · intro hg hc
      rw [List.map_cons, List.isChain_cons_cons] at hc
      apply b8 (a7 hg hc.1)
      rw [hd1]; exact hc.2

lemma loop_limit (inter : I → ℕ → I) (n : I) (hinj : Function.Injective (inter n))
    (s : RotSeq (Vec d)) (hs : ∀ q ∈ s, ‖q.base.b0‖ = 1) (ii : ℕ) (p : I) (t : Tree I d) (r : I)
    (h : RootedTree t r) (hp : p ∈ t.nodes) (hnew : ∀ k, ii ≤ k → inter n k ∉ t.nodes)
    (l : ℤ) (hl : t.level p = some l) (hl100 : l < 100) (hlt : 100 ≤ l + s.length) :
    ∃ t', Tree.addSequenceLoop inter n s ii p t = (t', .error .valueError) := by
  induction s generalizing ii p t l with
  | nil => simp at hlt; omega
  | cons q s ih =>
    have hq := hs q List.mem_cons_self
    have hq0 : q.base.b0 ≠ 0 := by
      intro h0; have := hq; rw [h0] at this; simp at this
    by_cases hc : l + 1 < 100
    · obtain ⟨t1, a1, a2, a3, a4, a5, a6, a7⟩ := addNode_step t r h (inter n ii) p q.base.b0
        hq (hnew ii (le_refl _)) hp l hl hc
      obtain ⟨t2, b1⟩ := ih
        (fun x hx => hs x (List.mem_cons_of_mem _ hx)) (ii + 1) (inter n ii) t1 a2
        (by rw [a3]; simp)
        (by
          intro k hk
          rw [a3, List.mem_append, List.mem_singleton, not_or]
          exact ⟨hnew k (by omega), fun e => by have := hinj e; omega⟩)
        (l + 1) a4 hc (by rw [List.length_cons] at hlt; push_cast at hlt; omega)
      refine ⟨t2, ?_⟩
      unfold Tree.addSequenceLoop
      rw [a1]; exact b1
    · have := addNode_limit t (inter n ii) p q.base.b0 hq0 (hnew ii (le_refl _)) l hl (by omega)
      rcases hx : t.addNode (inter n ii) q.base.b0 (some p) with ⟨t1, e⟩
      rw [hx] at this
      simp only at this
      refine ⟨t1, ?_⟩
      unfold Tree.addSequenceLoop
      rw [hx, this]

lemma endVector_of_ne (s : RotSeq (Vec d)) (hs : s ≠ []) :
    s.getEndVector = .ok (s.getLast hs).getSecondVector := by
  unfold RotSeq.getEndVector
  rw [List.getLast?_eq_some_getLast hs]
  simp [Rot.rotate, Rot.getSecondVector]

lemma second_unit [Fact (2 ≤ d)] {R : Rot (Vec d)} (h : R.base.ON) : ‖R.getSecondVector‖ = 1 := by
  rw [second_eq, planeRot_norm h, h.norm_fst]

/-- `add_sequence` with a matching first vector. -/
lemma addSequence_unit [Fact (2 ≤ d)] (inter : I → ℕ → I) (t : Tree I d) (r : I) (h : RootedTree t r) (n p : I)
    (s : RotSeq (Vec d)) (hne : s ≠ []) (hs : UnitVectors s) (hp : p ∈ t.nodes)
    (hf : FreshIds inter t.nodes n) (l : ℤ) (hl : t.level p = some l)
    (hlt : l + s.length < 100) (hclose : allclose (s.head hne).base.b0 (dirOf t p)) :
    ∃ t', t.addSequence inter n s p true = (t', .ok ()) ∧ RootedTree t' r
      ∧ t'.nodes = t.nodes ++ (List.range' 1 (s.length - 1)).map (inter n) ++ [n]
      ∧ (∀ m ∈ t.nodes, t'.dir m = t.dir m ∧ t'.level m = t.level m)
      ∧ t'.dir n = some (s.getLast hne).getSecondVector
      ∧ t'.level n = some (l + s.length)
      ∧ (GoodDirections t →
          (dirOf t p :: (s.drop 1).map (fun q => q.base.b0)
            ++ [(s.getLast hne).getSecondVector]).IsChain GoodPair → GoodDirections t') := by
  cases s with
  | nil => exact absurd rfl hne
  | cons q s =>
    rw [List.length_cons] at hlt
    push_cast at hlt
    obtain ⟨t1, p1, b1, b2, b3, b4, b5, b6, b7, b8⟩ := loop_spec inter n hf.inj s
      (fun x hx => (hs x (List.mem_cons_of_mem _ hx)).1) 1 p t r h hp (fun k _ => hf.new k) l hl
      (by omega)
    have hend := (hs _ (List.getLast_mem hne)).2
    obtain ⟨t2, a1, a2, a3, a4, a5, a6, a7⟩ := addNode_step t1 r b2 n p1
      ((q :: s).getLast hne).getSecondVector hend
      (by
        rw [b3, List.mem_append, not_or]
        refine ⟨hf.end_new, ?_⟩
        intro hm
        obtain ⟨k, _, hk⟩ := List.mem_map.mp hm
        exact hf.ne k hk)
      b4 _ b5 (by omega)
    refine ⟨t2, ?_, a2, by rw [a3, b3]; simp, ?_, a5, ?_, ?_⟩
    · unfold Tree.addSequence
      simp only [if_true, (dir_eq h hp).1]
      rw [if_pos (by simpa using hclose)]
      simp only [List.drop_succ_cons, List.drop_zero, b1, endVector_of_ne _ hne, a1]
    · intro m hm
      have hm1 : m ∈ t1.nodes := by rw [b3]; exact List.mem_append_left _ hm
      rw [(a6 m hm1).1, (a6 m hm1).2]; exact b6 m hm
    · rw [a4, List.length_cons]; push_cast; congr 1; ring
    · intro hg hc
      simp only [List.drop_succ_cons, List.drop_zero] at hc
      rw [List.cons_append, ← List.cons_append] at hc
      have hc' := List.isChain_append.mp hc
      apply a7 (b8 hg hc'.1)
      rw [b7]
      apply hc'.2.2
      · rw [List.getLast?_cons]; simp
      · simp

lemma unitVectors_of_on [Fact (2 ≤ d)] {s : RotSeq (Vec d)} (hs : ∀ q ∈ s, q.base.ON) : UnitVectors s :=
  fun q hq => ⟨(hs q hq).norm_fst, second_unit (hs q hq)⟩

/-- The same for orthonormal bases. -/
lemma addSequence_ok [Fact (2 ≤ d)] (inter : I → ℕ → I) (t : Tree I d) (r : I) (h : RootedTree t r) (n p : I)
    (s : RotSeq (Vec d)) (hne : s ≠ []) (hs : ∀ q ∈ s, q.base.ON) (hp : p ∈ t.nodes)
    (hf : FreshIds inter t.nodes n) (l : ℤ) (hl : t.level p = some l)
    (hlt : l + s.length < 100) (hclose : allclose (s.head hne).base.b0 (dirOf t p)) :
    ∃ t', t.addSequence inter n s p true = (t', .ok ()) ∧ RootedTree t' r
      ∧ t'.nodes = t.nodes ++ (List.range' 1 (s.length - 1)).map (inter n) ++ [n]
      ∧ (∀ m ∈ t.nodes, t'.dir m = t.dir m ∧ t'.level m = t.level m)
      ∧ t'.dir n = some (s.getLast hne).getSecondVector
      ∧ t'.level n = some (l + s.length)
      ∧ (GoodDirections t →
          (dirOf t p :: (s.drop 1).map (fun q => q.base.b0)
            ++ [(s.getLast hne).getSecondVector]).IsChain GoodPair → GoodDirections t') :=
  addSequence_unit inter t r h n p s hne (unitVectors_of_on hs) hp hf l hl hlt hclose

/-- C26: with `common_parent=True` (and new identifiers, below the level limit)
`add_sequence` raises `ValueError` exactly when the first vector is not `allclose` to the
direction of the parent, and then the tree is unchanged. -/
theorem C26_add_sequence_rejects_iff [Fact (2 ≤ d)] (inter : I → ℕ → I) (t : Tree I d) (r : I)
    (h : RootedTree t r) (n p : I) (s : RotSeq (Vec d)) (hne : s ≠ [])
    (hs : ∀ q ∈ s, OrthonormalPair q.base.b0 q.base.b1) (hp : p ∈ t.nodes)
    (hf : FreshIds inter t.nodes n) (l : ℤ) (hl : t.level p = some l) (hlt : l + s.length < 100) :
    ((t.addSequence inter n s p true).2 = .error .valueError
      ↔ ¬ allclose (s.head hne).getFirstVector (dirOf t p))
    ∧ (¬ allclose (s.head hne).getFirstVector (dirOf t p) →
        (t.addSequence inter n s p true).1 = t) := by
  have hno : ¬ allclose (s.head hne).getFirstVector (dirOf t p) →
      t.addSequence inter n s p true = (t, .error .valueError) := by
    intro hc
    cases s with
    | nil => exact absurd rfl hne
    | cons q s =>
      unfold Tree.addSequence
      simp only [if_true, (dir_eq h hp).1]
      rw [if_neg (by simpa [Rot.getFirstVector] using hc)]
  refine ⟨⟨?_, fun hc => by rw [hno hc]⟩, fun hc => by rw [hno hc]⟩
  intro hv hc
  obtain ⟨t', h1, _⟩ := addSequence_ok inter t r h n p s hne hs hp hf l hl hlt hc
  rw [h1] at hv; cases hv

/-- C26: a successful `add_sequence` adds one node per rotation (the last one is `n`), keeps
the tree rooted and all existing directions and levels, and stores the end vector of the
sequence as the direction of `n`. -/
theorem C26_add_sequence_effect [Fact (2 ≤ d)] (inter : I → ℕ → I) (t : Tree I d) (r : I)
    (h : RootedTree t r) (n p : I) (s : RotSeq (Vec d)) (hne : s ≠ [])
    (hs : ∀ q ∈ s, OrthonormalPair q.base.b0 q.base.b1) (hp : p ∈ t.nodes)
    (hf : FreshIds inter t.nodes n) (l : ℤ) (hl : t.level p = some l) (hlt : l + s.length < 100)
    (hclose : allclose (s.head hne).getFirstVector (dirOf t p)) :
    ∃ t' v, t.addSequence inter n s p true = (t', .ok ()) ∧ RootedTree t' r
      ∧ t.nodes <+: t'.nodes ∧ t'.nodes.length = t.nodes.length + s.length
      ∧ (∀ m ∈ t.nodes, t'.dir m = t.dir m ∧ t'.level m = t.level m)
      ∧ s.getEndVector = .ok v ∧ t'.dir n = some v ∧ t'.level n = some (l + s.length) := by
  obtain ⟨t', h1, h3, h4, h5, h6, h7, _⟩ :=
    addSequence_ok inter t r h n p s hne hs hp hf l hl hlt hclose
  refine ⟨t', _, h1, h3, ?_, ?_, h5, endVector_of_ne s hne, h6, h7⟩
  · rw [h4, List.append_assoc]; exact List.prefix_append _ _
  · rw [h4]
    have := List.length_pos_iff.mpr hne
    simp only [List.length_append, List.length_map, List.length_range', List.length_singleton]
    omega

lemma connected_chain (s : RotSeq (Vec d)) (hne : s ≠ []) (hc : Connected s)
    (hg : ∀ q ∈ s, GoodPair q.getFirstVector q.getSecondVector) :
    (s.map (fun q => q.base.b0) ++ [(s.getLast hne).getSecondVector]).IsChain GoodPair := by
  induction s with
  | nil => exact absurd rfl hne
  | cons q s ih =>
    have hq := hg q List.mem_cons_self
    cases s with
    | nil => simpa [Rot.getFirstVector] using hq
    | cons q' s =>
      have hc' := List.isChain_cons_cons.mp hc
      have := ih (by simp) hc'.2 (fun x hx => hg x (List.mem_cons_of_mem _ hx))
      rw [List.map_cons, List.cons_append, List.map_cons, List.cons_append, List.isChain_cons_cons]
      refine ⟨?_, ?_⟩
      · have e := hc'.1
        rw [e] at hq; exact hq
      · rw [List.getLast_cons (by simp)]
        simpa using this

lemma from_sequence_root [Fact (2 ≤ d)] (rootId : I) (v : Vec d) (hv : ‖v‖ = 1) :
    ∃ t, (Tree.empty : Tree I d).setRoot rootId v = .ok t ∧ RootedTree t rootId
      ∧ t.nodes = [rootId] ∧ t.edges = [] ∧ t.dir rootId = some v := by
  have hf := fromDirections_self (d := d) hv
  have h1 : (Tree.empty : Tree I d).setRoot rootId v
      = .ok ((Tree.empty : Tree I d).setRootOrientation rootId ⟨⟨v, parallelPerp v⟩, 0⟩) := by
    unfold Tree.setRoot; rw [hf]
  refine ⟨_, h1, C17_set_root rootId v _ h1, ?_, ?_, ?_⟩
  · simp [Tree.setRootOrientation, Tree.setAttr, Tree.touch, Tree.empty]
  · simp [Tree.setRootOrientation, Tree.setAttr, Tree.touch, Tree.empty]
  · simp [Tree.setRootOrientation, Tree.setAttr, Tree.touch, Tree.empty]

/-- C26: a chained sequence of at most 99 rotations survives the trip through a tree:
`from_sequence` succeeds, and the weighted mean with weight one on the end node is the end
vector of the sequence. -/
theorem C26_round_trip [Fact (2 ≤ d)] (inter : I → ℕ → I) (rootId n : I)
    (hf : FreshIds inter [rootId] n) (s : RotSeq (Vec d)) (hne : s ≠ [])
    (hs : ∀ q ∈ s, OrthonormalPair q.base.b0 q.base.b1) (hc : Connected s)
    (hg : ∀ q ∈ s, GoodPair q.getFirstVector q.getSecondVector) (hlen : s.length < 100)
    (argsort : List ℤ → List ℕ) (has : ArgsortSpec argsort) (st : NodeState I d) :
    ∃ t v, Tree.fromSequence inter rootId n s = .ok t
      ∧ s.getEndVector = .ok v ∧ t.getWeightedMean argsort st [n] [1] = .ok v := by
  cases s with
  | nil => exact absurd rfl hne
  | cons q s =>
    have hq := (hs q List.mem_cons_self).norm_fst
    obtain ⟨t0, a1, a2, a3, a4, a5⟩ := from_sequence_root rootId q.base.b0 hq
    have hd0 : dirOf t0 rootId = q.base.b0 := by simp [dirOf, a5]
    obtain ⟨t', h1, h3, h4, h5, h6, h7, h8⟩ := addSequence_ok inter t0 rootId a2 n rootId (q :: s)
      hne hs (by rw [a3]; simp) (by rw [a3]; exact hf) 0 a2.root_level
      (by have : (q :: s).length < 100 := hlen; omega)
      (by rw [hd0]; exact allclose_refl _)
    refine ⟨t', _, ?_, endVector_of_ne _ hne, ?_⟩
    · unfold Tree.fromSequence
      simp only [a1, h1]
    · refine C21_full_weight t' rootId h3 (h8 ?_ ?_) argsort has st n _ h6
      · intro a c hac
        simp [IsParent, a4] at hac
      · rw [hd0]
        have := connected_chain (q :: s) hne hc hg
        simpa using this

/-- C26: a sequence of 100 or more rotations does not fit into a tree: `ValueError`. -/
theorem C26_too_long [Fact (2 ≤ d)] (inter : I → ℕ → I) (rootId n : I)
    (hf : FreshIds inter [rootId] n) (s : RotSeq (Vec d))
    (hs : ∀ q ∈ s, OrthonormalPair q.base.b0 q.base.b1) (hlen : 100 ≤ s.length) :
    Tree.fromSequence inter rootId n s = .error .valueError := by
  cases s with
  | nil => simp at hlen
  | cons q s =>
    have hq := (hs q List.mem_cons_self).norm_fst
    obtain ⟨t0, a1, a2, a3, a4, a5⟩ := from_sequence_root rootId q.base.b0 hq
    have hd0 : dirOf t0 rootId = q.base.b0 := by simp [dirOf, a5]
    have hnew : ∀ k, 1 ≤ k → inter n k ∉ t0.nodes := by
      intro k _; rw [a3]; exact hf.new k
    have hadd : ∃ t', t0.addSequence inter n (q :: s) rootId true = (t', .error .valueError) := by
      have hrun : allclose q.base.b0 q.base.b0 := allclose_refl _
      rw [List.length_cons] at hlen
      by_cases h100 : 100 ≤ s.length
      · obtain ⟨t1, b1⟩ := loop_limit inter n hf.inj s
          (fun x hx => (hs x (List.mem_cons_of_mem _ hx)).norm_fst) 1 rootId t0 rootId a2 a2.root_mem hnew 0
          a2.root_level (by norm_num) (by omega)
        refine ⟨t1, ?_⟩
        unfold Tree.addSequence
        simp only [if_true, a5, if_pos hrun, List.drop_succ_cons, List.drop_zero, b1]
      · obtain ⟨t1, p1, b1, b2, b3, b4, b5, b6, b7, b8⟩ := loop_spec inter n hf.inj s
          (fun x hx => (hs x (List.mem_cons_of_mem _ hx)).norm_fst) 1 rootId t0 rootId a2 a2.root_mem hnew 0
          a2.root_level (by omega)
        have hend := second_unit (hs _ (List.getLast_mem (l := q :: s) (by simp)))
        have h0 : ((q :: s).getLast (by simp)).getSecondVector ≠ 0 := by
          intro h0; rw [h0] at hend; simp at hend
        have := addNode_limit t1 n p1 ((q :: s).getLast (by simp)).getSecondVector h0
          (by
            rw [b3, List.mem_append, not_or, a3]
            refine ⟨hf.end_new, ?_⟩
            intro hm
            obtain ⟨k, _, hk⟩ := List.mem_map.mp hm
            exact hf.ne k hk) _ b5 (by omega)
        rcases hx : t1.addNode n ((q :: s).getLast (by simp)).getSecondVector (some p1) with ⟨t2, e⟩
        rw [hx] at this
        simp only at this
        refine ⟨t2, ?_⟩
        unfold Tree.addSequence
        simp only [if_true, a5, if_pos hrun, List.drop_succ_cons, List.drop_zero, b1,
          endVector_of_ne (q :: s) (by simp), hx, this]
    obtain ⟨t', hadd⟩ := hadd
    unfold Tree.fromSequence
    simp only [a1, hadd]

/-- C26 is not vacuous: a sequence of two chained quarter turns and fresh identifiers. -/
example : ∃ (inter : ℕ → ℕ → ℕ) (s : RotSeq (Vec 3)), FreshIds inter [0] 1 ∧ s.length = 2
    ∧ (∀ q ∈ s, OrthonormalPair q.base.b0 q.base.b1) ∧ Connected s
    ∧ ∀ q ∈ s, GoodPair q.getFirstVector q.getSecondVector := by
  have h1 : (⟨⟨e3 0, e3 1⟩, Real.pi / 2⟩ : Rot (Vec 3)).getSecondVector = e3 1 := by
    rw [second_eq, planeRot_b0 (e3_on (by decide))]; simp
  have h2 : (⟨⟨e3 1, e3 2⟩, Real.pi / 2⟩ : Rot (Vec 3)).getSecondVector = e3 2 := by
    rw [second_eq, planeRot_b0 (e3_on (by decide))]; simp
  refine ⟨fun n i => 2 + n + i, [⟨⟨e3 0, e3 1⟩, Real.pi / 2⟩, ⟨⟨e3 1, e3 2⟩, Real.pi / 2⟩],
    ⟨?_, ?_, ?_, by simp⟩, rfl, ?_, ?_, ?_⟩
  · intro a b hab; simp only at hab; omega
  · intro i; omega
  · intro i; simp only [List.mem_singleton]; omega
  · intro q hq
    simp only [List.mem_cons, List.not_mem_nil, or_false] at hq
    rcases hq with rfl | rfl
    · exact e3_on (by decide)
    · exact e3_on (by decide)
  · exact List.isChain_cons_cons.mpr ⟨h1, List.IsChain.singleton _⟩
  · intro q hq
    simp only [List.mem_cons, List.not_mem_nil, or_false] at hq
    rcases hq with rfl | rfl
    · rw [h1]; exact ⟨e3_not_opposite (by decide), Or.inr (e3_not_allclose (by decide))⟩
    · rw [h2]; exact ⟨e3_not_opposite (by decide), Or.inr (e3_not_allclose (by decide))⟩

/-! ## C27 -/

/-- `s` with its last rotation removed if it is repeated. -/
def SameUpToRepeatedEnd (s q : RotSeq (Vec d)) : Prop :=
  s = q ∨ ∃ q0 R, q = q0 ++ [R] ∧ s = q0 ++ [R, R]

/-- C27 (partial): the reduced sequence leads from the root direction to its end vector (every
rotation starts where the previous one ends), except that the final rotation may be
repeated.

Missing for the full property: the repetition, which does occur
(`C27_repeated_rotation`); see `C27_connected_partial` for the trees without it. -/
theorem C27_connected_up_to_repetition_partial [Fact (2 ≤ d)] (t : Tree I d) (r : I)
    (h : RootedTree t r)
    (hg : InnerDirections t) (argsort : List ℤ → List ℕ) (has : ArgsortSpec argsort)
    (st : NodeState I d) (ns : List I) (ws : List ℝ) (hlen : ns.length = ws.length)
    (hns : ∀ n ∈ ns, n ∈ t.nodes) (hw : ∀ w ∈ ws, 0 ≤ w)
    (hle : ∀ n ∈ t.nodes, n ≠ r → branchWeight t (ns.zip ws) n ≤ 1)
    (hpos : 0 < branchWeight t (ns.zip ws) r) :
    ∃ s q v, t.reduceWeightedToSequence argsort st ns ws = .ok s ∧ SameUpToRepeatedEnd s q
      ∧ Leads (dirOf t r) q v ∧ Connected q ∧ s.getEndVector = .ok v := by
  classical
  have ha : Args t r ns ws := ⟨hlen, hns, hw, hle⟩
  obtain ⟨L, hL⟩ := exists_deepest h (ha.good h) (ne_of_gt hpos)
  obtain ⟨sorted, S, R, _, _, _, g3, _, g5, g6, g7⟩ := reduce_spec h hg has st ha rfl L hL
  have hl := leads_append g3.leads R g5.first
  split_ifs at g7
  · exact ⟨_, _, _, g7, Or.inl rfl, hl, leads_connected hl, endVector_append _ _⟩
  · refine ⟨_, _, _, g7, Or.inr ⟨_, _, rfl, rfl⟩, hl, leads_connected hl, ?_⟩
    rw [show ∀ a : RotSeq (Vec d), a ++ [R, R] = (a ++ [R]) ++ [R] by intro a; simp]
    exact endVector_append _ _

/-- C27 (partial): if the deepest nodes that carry weight are leaves of the tree, the reduced
sequence is connected and starts at the root direction.

Missing: weight on inner nodes, for which the property fails (`C27_repeated_rotation`). -/
theorem C27_connected_partial [Fact (2 ≤ d)] (t : Tree I d) (r : I) (h : RootedTree t r)
    (hg : InnerDirections t) (argsort : List ℤ → List ℕ) (has : ArgsortSpec argsort)
    (st : NodeState I d) (ns : List I) (ws : List ℝ) (hlen : ns.length = ws.length)
    (hns : ∀ n ∈ ns, n ∈ t.nodes) (hw : ∀ w ∈ ws, 0 ≤ w)
    (hle : ∀ n ∈ t.nodes, n ≠ r → branchWeight t (ns.zip ws) n ≤ 1)
    (hpos : 0 < branchWeight t (ns.zip ws) r)
    (hleaf : ∀ n ∈ t.nodes, branchWeight t (ns.zip ws) n ≠ 0 →
      (∀ m ∈ t.nodes, branchWeight t (ns.zip ws) m ≠ 0 →
        ∀ lm ln, t.level m = some lm → t.level n = some ln → lm ≤ ln) →
      ∀ c, ¬ IsParent t n c) :
    ∃ s v, t.reduceWeightedToSequence argsort st ns ws = .ok s
      ∧ Leads (dirOf t r) s v ∧ Connected s := by
  classical
  have ha : Args t r ns ws := ⟨hlen, hns, hw, hle⟩
  obtain ⟨L, hL⟩ := exists_deepest h (ha.good h) (ne_of_gt hpos)
  obtain ⟨sorted, S, R, _, g1, _, g3, _, g5, g6, g7⟩ := reduce_spec h hg has st ha rfl L hL
  have hl := leads_append g3.leads R g5.first
  rw [if_pos] at g7
  · exact ⟨_, _, g7, hl, leads_connected hl⟩
  · left
    intro n hn m hm
    obtain ⟨hn1, hn2, hn3⟩ := (mem_idsAt h g1).mp hn
    obtain ⟨c, hc, _⟩ := desc_iff_child.mp hm
    refine hleaf n hn1 hn3 ?_ c hc
    intro x hx hxW lm ln hlm hln
    have h1 := ((hL (RootedTree.lev t x)).mp ⟨x, hx, rfl, hxW⟩).2
    rw [h.level_eq hx] at hlm
    rw [h.level_eq hn1] at hln
    have e1 := Option.some.inj hlm
    have e2 := Option.some.inj hln
    push_cast at h1; omega

/-- C27 fails: putting the whole weight on an inner node whose direction differs from its
parent's direction gives a sequence whose last rotation is listed twice, so that the
last rotation does not start where the previous one ends. -/
theorem C27_repeated_rotation [Fact (2 ≤ d)] (t : Tree I d) (r : I) (h : RootedTree t r)
    (hg : GoodDirections t) (argsort : List ℤ → List ℕ) (has : ArgsortSpec argsort)
    (st : NodeState I d) (p n c : I) (hp : IsParent t p n) (hc : IsParent t n c)
    (hne : dirOf t p ≠ dirOf t n) :
    ∃ s, t.reduceWeightedToSequence argsort st [n] [1] = .ok s ∧ ¬ Connected s := by
  classical
  have hn := h.edge_snd _ _ hp
  obtain ⟨seq, R, g1, g3, g4, g5, -⟩ := one_hot_core h hg has st n hn
  have hO := orientOf_isOrient h (defined_of_good h hg)
  have hang : R.angle ≠ 0 := by
    rw [g5, hO.angle hp]
    intro h0
    rw [InnerProductGeometry.angle_eq_zero_iff] at h0
    obtain ⟨_, k, hk, e⟩ := h0
    have h1 := (dir_eq h (h.edge_fst _ _ hp)).2
    have h3 := (dir_eq h hn).2
    rw [e, norm_smul, h1, mul_one, Real.norm_eq_abs, abs_of_pos hk] at h3
    rw [h3, one_smul] at e
    exact hne e.symm
  rw [if_neg] at g1
  · refine ⟨_, g1, ?_⟩
    intro hcon
    have hcon' := (List.isChain_append.mp hcon).2.1
    have := (List.isChain_cons_cons.mp hcon').1
    rw [g3] at this
    unfold Rot.getFirstVector at this
    rw [g4, hO.b0 h hp] at this
    exact hne this.symm
  · rintro (e | e)
    · exact e c (.single hc)
    · exact hang e

/-- C27 is not vacuous: the concrete tree has leaves with weight (first line), and an inner node
with the properties of the counterexample (second line). -/
example : RootedTree exTree 0 ∧ GoodDirections exTree ∧ (∃ a, ArgsortSpec a)
    ∧ (IsParent exTree 0 1 ∧ IsParent exTree 1 2 ∧ dirOf exTree 0 ≠ dirOf exTree 1)
    ∧ (∀ n ∈ exTree.nodes, branchWeight exTree ([2].zip [(1 : ℝ)]) n ≠ 0 →
      (∀ m ∈ exTree.nodes, branchWeight exTree ([2].zip [(1 : ℝ)]) m ≠ 0 →
        ∀ lm ln, exTree.level m = some lm → exTree.level n = some ln → lm ≤ ln) →
      ∀ c, ¬ IsParent exTree n c) := by
  refine ⟨exTree_rooted, exTree_good, argsort_exists, ⟨by simp [IsParent, exTree],
    by simp [IsParent, exTree], ?_⟩, ?_⟩
  · intro h
    have := congrArg (fun v : Vec 3 => v 0) h
    simp [dirOf, exTree, e3] at this
  · intro n hn hw hdeep c hc
    have h2 : branchWeight exTree ([2].zip [(1 : ℝ)]) 2 ≠ 0 := by
      rw [branchWeight_one 2 2 (by simp [exTree]), if_pos (Or.inl rfl)]; norm_num
    have hd := hdeep 2 (by simp [exTree]) h2 2
    simp only [IsParent, exTree, List.mem_cons, Prod.mk.injEq, List.not_mem_nil, or_false] at hc
    rcases hc with ⟨rfl, rfl⟩ | ⟨rfl, rfl⟩
    · have := hd 0 (by simp [exTree]) (by simp [exTree]); omega
    · have := hd 1 (by simp [exTree]) (by simp [exTree]); omega

end Verif
