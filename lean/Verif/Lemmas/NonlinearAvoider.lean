import Verif.Model.NonlinearAvoider
import Verif.Spec.NonlinearAvoider
import Verif.Props.RotationalSequence

/-! # Helper lemmas for `SingularityConvergenceDynamics` -/

open scoped RealInnerProductSpace
open Verif.Spec

set_option linter.unusedSectionVars false

namespace Verif

variable {d k : ℕ}

section Edges
variable {I : Type} [DecidableEq I]

lemma touch_edges (t : Tree I d) (n : I) : (t.touch n).edges = t.edges := by
  unfold Tree.touch; split_ifs <;> rfl

lemma addEdge_edges (t : Tree I d) (p n : I) {a b : I} (h : (a, b) ∈ (t.addEdge p n).edges) :
    (a, b) ∈ t.edges ∨ a = p := by
  unfold Tree.addEdge at h
  simp only [touch_edges] at h
  split_ifs at h with h1
  · rw [touch_edges, touch_edges] at h; exact Or.inl h
  · simp only [List.mem_append, List.mem_singleton, Prod.mk.injEq] at h
    exact h.imp id (fun h => h.1)

lemma addNodeFinish_edges (t : Tree I d) (n : I) (v : Vec d) (l : ℤ) :
    (t.addNodeFinish n v l).1.edges = t.edges := by
  unfold Tree.addNodeFinish
  split_ifs
  · rfl
  · unfold Tree.setDirection
    split_ifs
    · simp only
      split
      · simp [Tree.setAttr, touch_edges]
      · simp [Tree.setAttr, touch_edges]
    · simp [Tree.setAttr, touch_edges]

/-- A new edge starts at the given parent. -/
lemma addNode_edges (t : Tree I d) (n p : I) (v : Vec d) {a b : I}
    (h : IsParent (t.addNode n v (some p)).1 a b) : IsParent t a b ∨ a = p := by
  unfold Tree.addNode at h
  split_ifs at h with h1 h2
  · exact Or.inl h
  · exact Or.inl h
  · simp only at h
    split at h
    · exact addEdge_edges t p n h
    · simp only [IsParent, addNodeFinish_edges] at h
      exact addEdge_edges t p n h

lemma addSequenceLoop_edges (inter : I → ℕ → I) (n : I) (s : RotSeq (Vec d)) (ii : ℕ) (p : I)
    (t t' : Tree I d) (o : Except PyErr I) (h : Tree.addSequenceLoop inter n s ii p t = (t', o)) :
    (∀ a b, IsParent t' a b → IsParent t a b ∨ a = p ∨ ∃ i, a = inter n i)
      ∧ (∀ q, o = .ok q → q = p ∨ ∃ i, q = inter n i) := by
  induction s generalizing ii p t with
  | nil =>
    simp only [Tree.addSequenceLoop, Prod.mk.injEq] at h
    obtain ⟨rfl, rfl⟩ := h
    exact ⟨fun a b hab => Or.inl hab, fun q hq => Or.inl (by injection hq with hq; exact hq.symm)⟩
  | cons r s ih =>
    unfold Tree.addSequenceLoop at h
    split at h
    · rename_i t1 e he
      simp only [Prod.mk.injEq] at h
      obtain ⟨rfl, rfl⟩ := h
      refine ⟨fun a b hab => ?_, fun q hq => by cases hq⟩
      have := addNode_edges t (inter n ii) p r.base.b0 (a := a) (b := b) (by rw [he]; exact hab)
      exact this.imp id Or.inl
    · rename_i t1 he
      obtain ⟨h1, h2⟩ := ih _ _ _ h
      refine ⟨fun a b hab => ?_, fun q hq => ?_⟩
      · rcases h1 a b hab with h | h | h
        · have := addNode_edges t (inter n ii) p r.base.b0 (a := a) (b := b) (by rw [he]; exact h)
          exact this.imp id Or.inl
        · exact Or.inr (Or.inr ⟨ii, h⟩)
        · exact Or.inr (Or.inr h)
      · rcases h2 q hq with h | h
        · exact Or.inr ⟨ii, h⟩
        · exact Or.inr h

/-- The new edges of `add_sequence` start at the parent or at intermediate nodes. -/
lemma addSequence_edges (inter : I → ℕ → I) (t : Tree I d) (n : I) (s : RotSeq (Vec d)) (p : I)
    (t' : Tree I d) (o : Except PyErr Unit) (h : t.addSequence inter n s p true = (t', o)) {a b : I}
    (hab : IsParent t' a b) : IsParent t a b ∨ a = p ∨ ∃ i, a = inter n i := by
  unfold Tree.addSequence at h
  simp only [if_true] at h
  split at h
  · injection h with h _; subst h; exact Or.inl hab
  · split at h
    · injection h with h _; subst h; exact Or.inl hab
    · split_ifs at h
      · split at h
        · rename_i t1 e he
          injection h with h _; subst h
          exact (addSequenceLoop_edges _ _ _ _ _ _ _ _ he).1 a b hab
        · rename_i t1 q he
          obtain ⟨h1, h2⟩ := addSequenceLoop_edges _ _ _ _ _ _ _ _ he
          split at h
          · injection h with h _; subst h
            exact h1 a b hab
          · rename_i v hv
            have := addNode_edges t1 n q v (a := a) (b := b) (by rw [h]; exact hab)
            rcases this with h3 | h3
            · exact h1 a b h3
            · rw [h3]; exact Or.inr (h2 q rfl)
      · injection h with h _; subst h; exact Or.inl hab

end Edges

section Reduce
variable {I : Type} [DecidableEq I] [h2 : Fact (2 ≤ d)]

/-- The level of the root adds no rotation. -/
lemma level_zero {t : Tree I d} {r : I} (h : RootedTree t r) {W : I → ℝ} {sorted : List I}
    (hs : Ascending t sorted) {q : I → Rot (Vec d)} (hq : (q r).angle = 0) :
    (pureLevel t W sorted ⟨q, [], none⟩ 0).seq = [] := by
  have hr : ∀ n ∈ idsAt t W sorted 0, n = r := by
    intro n hn
    obtain ⟨h1, h3, _⟩ := (mem_idsAt h hs).mp hn
    by_contra hc
    have := Ascending.lev_pos h h1 hc
    omega
  have hm : meanOf q (idsAt t W sorted 0) = 0 := by
    unfold meanOf
    apply List.sum_eq_zero
    intro y hy
    obtain ⟨n, hn, rfl⟩ := List.mem_map.mp hy
    rw [hr n hn, hq, zero_smul]
  unfold pureLevel
  split
  · rfl
  · rename_i n0 rest hids
    have hm' : ‖meanOf q (n0 :: rest)‖ = 0 := by rw [← hids, hm, norm_zero]
    simp only
    split_ifs with h1 h3
    · rfl
    · rfl
    · exact absurd hm' h3

lemma levelsUpTo_length {t : Tree I d} {r : I} (h : RootedTree t r) {W : I → ℝ} {sorted : List I}
    (hs : Ascending t sorted) {q : I → Rot (Vec d)} (hq : (q r).angle = 0) (j : ℕ) :
    (levelsUpTo t W sorted ⟨q, [], none⟩ j).seq.length ≤ j - 1 := by
  induction j with
  | zero => simp [levelsUpTo]
  | succ j ih =>
    rw [levelsUpTo_succ]
    cases j with
    | zero =>
      have : levelsUpTo t W sorted ⟨q, [], none⟩ 0 = ⟨q, [], none⟩ := rfl
      rw [this, show ((0 : ℕ) : ℤ) = 0 from rfl, level_zero h hs hq]
      simp
    | succ j =>
      unfold pureLevel
      split
      · omega
      · simp only
        split_ifs
        · simp only; omega
        · simp only; omega
        · simp only [List.length_append, List.length_singleton]; omega

/-- The reduction with a convex weight on leaves at levels up to `M`: a connected sequence of unit vectors
that starts at the root direction. -/
lemma reduce_proper (t : Tree I d) (r : I) (h : RootedTree t r)
    (hg : InnerDirections t) (argsort : List ℤ → List ℕ) (has : ArgsortSpec argsort)
    (st : NodeState I d) (ns : List I) (ws : List ℝ) (hlen : ns.length = ws.length) (hnd : ns.Nodup)
    (hns : ∀ n ∈ ns, n ∈ t.nodes) (hw : Convex ws) (hleaf : ∀ n ∈ ns, ∀ c, ¬ IsParent t n c)
    (M : ℕ) (hM : ∀ n ∈ ns, ∃ l : ℤ, t.level n = some l ∧ l ≤ M) :
    ∃ s v, t.reduceWeightedToSequence argsort st ns ws = .ok s ∧ s ≠ []
      ∧ Leads (dirOf t r) s v ∧ Connected s ∧ UnitVectors s ∧ s.length ≤ max M 1
      ∧ s.getEndVector = .ok v ∧ ‖v‖ = 1 := by
  classical
  have hr := C20_root_total t r h ns ws hlen hnd hns
  have hle : ∀ n ∈ t.nodes, n ≠ r → branchWeight t (ns.zip ws) n ≤ 1 := by
    intro n hn _
    refine le_trans (branchWeight_le_root h _ (fun p hp => hw.1 _ (zip_fst_mem hp).2) hn) ?_
    rw [hr, hw.2]
  have hpos : branchWeight t (ns.zip ws) r ≠ 0 := by rw [hr, hw.2]; norm_num
  have ha : Args t r ns ws := ⟨hlen, hns, hw.1, hle⟩
  -- a node with weight is a listed node or an ancestor of one
  have hanc : ∀ n ∈ t.nodes, branchWeight t (ns.zip ws) n ≠ 0 →
      ∃ m ∈ ns, branchWeight t (ns.zip ws) m ≠ 0 ∧ (m = n ∨ Descendant t n m) := by
    intro n hn hne
    unfold branchWeight at hne
    obtain ⟨m, hm, hm0⟩ := Finset.exists_ne_zero_of_sum_ne_zero hne
    rw [Finset.mem_filter] at hm
    have hnn := givenWeight_nonneg (ns.zip ws) (fun p hp => hw.1 _ (zip_fst_mem hp).2)
    refine ⟨m, ?_, ?_, hm.2⟩
    · by_contra hc
      exact hm0 (givenWeight_not_mem _ _ (fun hx => hc (by
        obtain ⟨p, hp, rfl⟩ := List.mem_map.mp hx
        exact (List.of_mem_zip hp).1)))
    · have : givenWeight (ns.zip ws) m ≤ branchWeight t (ns.zip ws) m := by
        unfold branchWeight
        exact Finset.single_le_sum (f := fun m => givenWeight (ns.zip ws) m) (fun i _ => hnn i)
          (Finset.mem_filter.mpr ⟨hm.1, Or.inl rfl⟩)
      have := lt_of_le_of_ne (hnn m) (Ne.symm hm0)
      linarith
  obtain ⟨L, hL⟩ := exists_deepest h (ha.good h) hpos
  obtain ⟨sorted, S, R, _, g1, g2, g3, _, g5, g6, g7⟩ := reduce_spec h hg has st ha rfl L hL
  obtain ⟨m, hm1, hm2, hm3⟩ := (hL L).mpr ⟨by omega, by push_cast; omega⟩
  have hLM : L ≤ M := by
    obtain ⟨x, hx, _, hxm⟩ := hanc m hm1 hm3
    obtain ⟨l, hl, hlM⟩ := hM x hx
    have hx' := h.level_eq (hns x hx)
    rw [hl] at hx'
    have hx' := Option.some.inj hx'
    rcases hxm with rfl | hd
    · omega
    · have := RootedTree.lev_desc h hd; omega
  have hl := leads_append g3.leads R g5.first
  have hb := g5.second_bound g6
  rw [if_pos] at g7
  · refine ⟨_, _, g7, by simp, hl, leads_connected hl, ?_, ?_, endVector_append _ _, hb.2⟩
    · intro q hq
      rcases List.mem_append.mp hq with hq | hq
      · exact ⟨(g3.on q hq).norm_fst, second_unit (g3.on q hq)⟩
      · rw [List.mem_singleton] at hq
        subst hq
        exact ⟨by unfold Rot.getFirstVector; rw [g5.first]; exact g6, hb.2⟩
    · have := levelsUpTo_length h (W := branchWeight t (ns.zip ws)) g1 (q :=
        partOf t (branchWeight t (ns.zip ws)) (orientOf t r) sorted) (by
          rw [g2.ang r h.root_mem]
          simp [orientOf]) L
      simp only [List.length_append, List.length_singleton]
      omega
  · left
    intro n hn c hc
    obtain ⟨hn1, hn2, hn3⟩ := (mem_idsAt h g1).mp hn
    obtain ⟨x, hx, hx0, hxm⟩ := hanc n hn1 hn3
    rcases hxm with rfl | hd
    · obtain ⟨c', hc', _⟩ := desc_iff_child.mp hc
      exact hleaf _ hx c' hc'
    · have h1 := RootedTree.lev_desc h hd
      have := ((hL (RootedTree.lev t x)).mp ⟨x, hns x hx, rfl, hx0⟩).2
      push_cast at this; omega

end Reduce

end Verif

namespace Verif.Nonlinear

variable {d k : ℕ} [h2 : Fact (2 ≤ d)]

/-- Invariant of the loop of `evaluate_weighted_dynamics_sequence` before obstacle number `j`. -/
structure WInv (u : Vec d) (M : ℕ) (j : ℕ) (st : Rotational.SequenceState d) : Prop where
  rooted : RootedTree st.tree (NodeId.num (-10))
  root : dirOf st.tree (NodeId.num (-10)) = u
  fresh : ∀ i : ℕ, j ≤ i → NodeId.num i ∉ st.tree.nodes ∧ ∀ l, interId (.num i) l ∉ st.tree.nodes
  good : GoodDirections st.tree
  initial : NodeId.num (-1) ∈ st.tree.nodes ∧ ∃ l : ℤ, st.tree.level (.num (-1)) = some l ∧ l ≤ M
  listed : ∀ n ∈ st.nodes, ∃ i : ℕ, i < j ∧ n = .num i ∧ n ∈ st.tree.nodes
    ∧ ∃ l : ℤ, st.tree.level n = some l ∧ l ≤ M
  nodup : st.nodes.Nodup
  leaves : ∀ a b, IsParent st.tree a b → a = .num (-10) ∨ ∃ m i, a = interId m i

lemma head_chain {u : Vec d} {M : ℕ} {s : RotSeq (Vec d)} (hs : ProperFrom u M s) :
    (u :: (s.drop 1).map (fun q => q.base.b0) ++ [(s.getLast hs.ne).getSecondVector]).IsChain
      GoodPair := by
  obtain ⟨h1, h3, h4, h5, h6, h7⟩ := hs
  cases s with
  | nil => exact absurd rfl h1
  | cons q s =>
    have := connected_chain (q :: s) h1 h4 h5
    subst h6
    simpa [Rot.getFirstVector] using this

lemma start_spec {u : Vec d} {M : ℕ} (hM : M < 100) {s : RotSeq (Vec d)} (hs : ProperFrom u M s) :
    ∃ t v, Tree.fromSequence interId (.num (-10)) (.num (-1)) s = .ok t
      ∧ s.getEndVector = .ok v ∧ ‖v‖ = 1 ∧ t.dir (.num (-1)) = some v ∧ WInv u M 0 ⟨t, [], []⟩ := by
  have hch := head_chain hs
  obtain ⟨h1, h3, h4, h5, h6, h7⟩ := hs
  obtain ⟨q, s, rfl⟩ := List.exists_cons_of_ne_nil h1
  have hq := (h3 q List.mem_cons_self).1
  obtain ⟨t0, a1, a2, a3, a4, a5⟩ := from_sequence_root (NodeId.num (-10)) q.base.b0 hq
  have hd0 : dirOf t0 (.num (-10)) = q.base.b0 := by simp [dirOf, a5]
  have hu : q.base.b0 = u := h6
  have hil : (q :: s).length < 100 := by omega
  have hf : FreshIds interId t0.nodes (NodeId.num (-1)) := by
    rw [a3]
    exact ⟨by intro i j h; simp only [interId] at h; injection h,
      by intro i h; simp [interId] at h, by intro i h; simp [interId] at h, by simp⟩
  obtain ⟨t1, b1, b2, b3, b4, b5, b6, b7⟩ := addSequence_unit interId t0 _ a2 (.num (-1)) (.num (-10))
    (q :: s) h1 h3 (by rw [a3]; simp) hf 0 a2.root_level
    (by omega) (by rw [hd0]; exact allclose_refl _)
  refine ⟨t1, _, ?_, endVector_of_ne _ h1, (h3 _ (List.getLast_mem h1)).2, b5, ?_⟩
  · unfold Tree.fromSequence
    simp only [a1, b1]
  · refine ⟨b2, ?_, ?_, ?_, ⟨by change _ ∈ t1.nodes; rw [b3]; simp, _, b6, by omega⟩, by simp, by simp, ?_⟩
    · change dirOf t1 _ = u
      unfold dirOf
      rw [(b4 _ (by rw [a3]; simp)).1, a5]; exact hu
    · intro i _
      change _ ∉ t1.nodes ∧ ∀ l, _ ∉ t1.nodes
      rw [b3, a3]
      simp [interId]
    · apply b7
      · intro a c hac
        simp [IsParent, a4] at hac
      · rw [hd0, hu]; exact hch
    · intro a b hab
      rcases addSequence_edges interId t0 _ _ _ _ _ b1 hab with h | h | ⟨i, h⟩
      · simp [IsParent, a4] at h
      · exact Or.inl h
      · exact Or.inr ⟨_, _, h⟩

/-- Adding the sequence of obstacle `j`. -/
lemma add_spec {u : Vec d} {M j : ℕ} (hM : M < 100) {st : Rotational.SequenceState d} (inv : WInv u M j st)
    {s : RotSeq (Vec d)} (hs : ProperFrom u M s) (w : ℝ) :
    ∃ t v, orRaise (st.tree.addSequence interId (.num j) s (.num (-10))) = .ok t
      ∧ s.getEndVector = .ok v ∧ t.dir (.num j) = some v
      ∧ (∀ m ∈ st.tree.nodes, m ∈ t.nodes ∧ t.dir m = st.tree.dir m)
      ∧ WInv u M (j + 1) ⟨t, st.nodes ++ [.num j], st.weights ++ [w]⟩ := by
  have hch := head_chain hs
  obtain ⟨h1, h3, h4, h5, h6, h7⟩ := hs
  have hil : s.length < 100 := by omega
  have hf : FreshIds interId st.tree.nodes (NodeId.num j) :=
    ⟨by intro i j h; simp only [interId] at h; injection h,
      by intro i h; simp [interId] at h, (inv.fresh j (le_refl _)).2, (inv.fresh j (le_refl _)).1⟩
  have hhead : (s.head h1).base.b0 = u := h6
  obtain ⟨t1, b1, b2, b3, b4, b5, b6, b7⟩ := addSequence_unit interId st.tree _ inv.rooted (.num j) (.num (-10))
    s h1 h3 inv.rooted.root_mem hf 0 inv.rooted.root_level
    (by omega) (by rw [inv.root, hhead]; exact allclose_refl _)
  refine ⟨t1, _, by rw [b1]; rfl, endVector_of_ne _ h1, b5,
    fun m hm => ⟨by rw [b3]; simp [hm], (b4 m hm).1⟩, ?_⟩
  refine ⟨b2, ?_, ?_, b7 inv.good (by rw [inv.root]; exact hch), ?_, ?_, ?_, ?_⟩
  · change dirOf t1 _ = u
    rw [← inv.root]
    unfold dirOf
    rw [(b4 _ inv.rooted.root_mem).1]
  · intro i hi
    have := inv.fresh i (by omega)
    change _ ∉ t1.nodes ∧ ∀ l, _ ∉ t1.nodes
    rw [b3]
    constructor
    · simp only [List.mem_append, List.mem_singleton, List.mem_map, not_or]
      refine ⟨⟨this.1, ?_⟩, ?_⟩
      · rintro ⟨x, _, hx⟩; simp [interId] at hx
      · intro h; injection h with h; omega
    · intro l
      simp only [List.mem_append, List.mem_singleton, List.mem_map, not_or]
      refine ⟨⟨this.2 l, ?_⟩, by simp [interId]⟩
      rintro ⟨x, _, hx⟩
      simp only [interId] at hx
      injection hx with hx
      injection hx with hx
      omega
  · obtain ⟨c1, l, c2, c3⟩ := inv.initial
    refine ⟨by change _ ∈ t1.nodes; rw [b3]; simp [c1], l, ?_, c3⟩
    change t1.level _ = _
    rw [(b4 _ c1).2, c2]
  · intro n hn
    rcases List.mem_append.mp hn with hn | hn
    · obtain ⟨i, c1, c2, c3, l, c4, c5⟩ := inv.listed n hn
      refine ⟨i, by omega, c2, by change _ ∈ t1.nodes; rw [b3]; simp [c3], l, ?_, c5⟩
      change t1.level _ = _
      rw [(b4 _ c3).2, c4]
    · rw [List.mem_singleton] at hn
      subst hn
      exact ⟨j, by omega, rfl, by change _ ∈ t1.nodes; rw [b3]; simp, _, b6, by omega⟩
  · rw [List.nodup_append]
    refine ⟨inv.nodup, by simp, ?_⟩
    intro a ha b hb hab
    rw [List.mem_singleton] at hb
    subst hb; subst hab
    obtain ⟨i, c1, c2, _⟩ := inv.listed _ ha
    injection c2 with c2; omega
  · intro a b hab
    rcases addSequence_edges interId st.tree _ _ _ _ _ b1 hab with h | h | ⟨i, h⟩
    · exact inv.leaves a b h
    · exact Or.inl h
    · exact Or.inr ⟨_, _, h⟩

lemma loop_total {c : ObstacleConvergence d} {x u : Vec d} {initial : RotSeq (Vec d)} {M : ℕ} (hM : M < 100)
    (l : List (Obstacle d)) (hc : ProperConvergence c x initial u M l) (j : ℕ)
    (st : Rotational.SequenceState d) (inv : WInv u M j st) :
    ∃ st', (l.zipIdx j).foldlM (weightedStep c x initial) st = .ok st' ∧ WInv u M (j + l.length) st'
      ∧ st'.nodes = st.nodes ++ (activeFrom c x (l.zipIdx j)).map (fun p => NodeId.num p.2)
      ∧ st'.weights = st.weights ++ (activeFrom c x (l.zipIdx j)).map (fun p => weightOf c x p.1)
      ∧ (∀ m ∈ st.tree.nodes, st'.tree.dir m = st.tree.dir m)
      ∧ ∀ p ∈ activeFrom c x (l.zipIdx j), ∃ s v, c.sequenceAround x p.1 initial = .ok (some s)
          ∧ s.getEndVector = .ok v ∧ st'.tree.dir (.num p.2) = some v := by
  classical
  induction l generalizing j st with
  | nil => exact ⟨st, rfl, inv, by simp [activeFrom], by simp [activeFrom], fun _ _ => rfl, by simp [activeFrom]⟩
  | cons o l ih =>
    obtain ⟨w, hw, hpos⟩ := hc o List.mem_cons_self
    have hcl : ProperConvergence c x initial u M l := fun o' ho' => hc o' (List.mem_cons_of_mem _ ho')
    have hwo : weightOf c x o = w := by unfold weightOf; rw [hw]
    rw [List.zipIdx_cons, List.foldlM_cons]
    by_cases h0 : w ≤ 0
    · have hstep : weightedStep c x initial st (o, j) = .ok st := by
        unfold weightedStep
        simp only [hw, bind, Except.bind]
        rw [if_pos h0]
      have hinv : WInv u M (j + 1) st := by
        obtain ⟨i1, i2, i3, i4, i5, i6, i7, i8⟩ := inv
        refine ⟨i1, i2, fun i hi => i3 i (by omega), i4, i5, ?_, i7, i8⟩
        intro n hn
        obtain ⟨i, q1, q2⟩ := i6 n hn
        exact ⟨i, by omega, q2⟩
      obtain ⟨st', e1, e2, e3, e4, e5, e6⟩ := ih hcl (j + 1) st hinv
      have hact : activeFrom c x ((o, j) :: l.zipIdx (j + 1)) = activeFrom c x (l.zipIdx (j + 1)) := by
        unfold activeFrom
        rw [List.filter_cons_of_neg]
        simp only [hwo, decide_eq_true_eq]; linarith
      rw [hstep, hact]
      refine ⟨st', e1, by rw [List.length_cons]; convert e2 using 1; omega, e3, e4, e5, e6⟩
    · obtain ⟨s, hs1, hs2⟩ := hpos (not_le.mp h0)
      obtain ⟨t, v, a1, a2, a3, a4, a5⟩ := add_spec hM inv hs2 w
      have hstep : weightedStep c x initial st (o, j)
          = .ok ⟨t, st.nodes ++ [.num j], st.weights ++ [w]⟩ := by
        unfold weightedStep
        simp only [hw, bind, Except.bind]
        rw [if_neg h0]
        simp only [hs1, a1]
      obtain ⟨st', e1, e2, e3, e4, e5, e6⟩ := ih hcl (j + 1) _ a5
      have hact : activeFrom c x ((o, j) :: l.zipIdx (j + 1))
          = (o, j) :: activeFrom c x (l.zipIdx (j + 1)) := by
        unfold activeFrom
        rw [List.filter_cons_of_pos]
        simp only [hwo, decide_eq_true_eq]; exact not_le.mp h0
      have hjm : NodeId.num j ∈ t.nodes := by
        by_contra hcn
        rw [(a5.rooted.no_attr _ hcn).2] at a3; cases a3
      rw [hstep, hact]
      refine ⟨st', e1, by rw [List.length_cons]; convert e2 using 1; omega, ?_, ?_, ?_, ?_⟩
      · rw [e3]; simp
      · rw [e4]; simp [hwo]
      · intro m hm
        rw [e5 m (a4 m hm).1, (a4 m hm).2]
      · intro p hp
        rcases List.mem_cons.mp hp with rfl | hp
        · exact ⟨s, v, hs1, a2, by rw [e5 _ hjm]; exact a3⟩
        · exact e6 p hp

end Verif.Nonlinear
