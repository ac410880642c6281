import Verif.Props.RotationalAvoider

/-! # Helper lemmas for `avoid_sequence` -/

open scoped RealInnerProductSpace
open Verif.Spec

set_option linter.unusedSectionVars false

namespace Verif.Rotational

variable {d k : ℕ} [h2 : Fact (2 ≤ d)]

lemma pseudoTangent_ne {ext : Ext d k} (he : SaneAngles ext) {s : Avoider d} {conv ref v : Vec d}
    {b : NullBase d} (hb : b.normal ≠ 0) (hc : conv ≠ 0) (h : pseudoTangent ext s conv ref b = .ok v) :
    v ≠ 0 := by
  unfold pseudoTangent at h
  split_ifs at h with h1
  · injection h with h
    rw [← h]; exact hc
  · split at h
    · cases h
    · rename_i a _
      injection h with h
      have := he.ofAngle_unit b a hb
      rintro rfl
      rw [h] at this; simp at this

lemma continuation_le_one {n : ℕ} {g R p w : ℝ} {a b : Vec n} (hp : 0 ≤ p)
    (h : getSmoothContinuationWeight g R p a b = .ok w) : w ≤ 1 := by
  unfold getSmoothContinuationWeight at h
  by_cases h0 : g = 0
  · simp only [if_pos h0] at h
    injection h with h; linarith
  simp only [if_neg h0] at h
  by_cases h1 : 1 / g ≤ 0
  · rw [if_pos h1] at h
    injection h with h; linarith
  rw [if_neg h1] at h
  push Not at h1
  by_cases h2 : 1 / g ≥ 1
  · rw [if_pos h2] at h
    injection h with h; linarith
  rw [if_neg h2] at h
  push Not at h2
  by_cases h3 : ‖b‖ ≥ R
  · rw [if_pos h3] at h
    injection h with h; linarith
  rw [if_neg h3] at h
  split_ifs at h with h4 h5
  · injection h with h; linarith
  · injection h with h
    rw [← h]
    apply Real.rpow_le_one h1.le h2.le
    push Not at h5
    have : 0 < min (‖b - a‖ / min (R - ‖a‖) (Real.pi * 0.5)) 1 := lt_min h5 one_pos
    positivity

/-- What the neighbouring directions of the obstacle `o` have to satisfy in `avoid_sequence` with the
convergence direction `e`. -/
def AdmissibleObstacle (ext : Ext d k) (s : Avoider d) (e : Vec d) (x : Vec d) (o : Obstacle d) : Prop :=
  ∀ t, pseudoTangent ext s e (towards o x) ⟨o.normal x, !o.isBoundary⟩ = .ok t →
    (s.convergenceRadius ≤ Real.pi * 0.5 → Neighbours e (unit t))
    ∧ (s.convergenceRadius > Real.pi * 0.5 → ∀ i,
      intermediateDirection ext e (towards o x) ⟨o.normal x, !o.isBoundary⟩ = .ok i →
      Neighbours e i ∧ Neighbours i (unit t))

/-- The state of the loop of `avoid_sequence` before obstacle number `j`. -/
structure SeqInv (e : Vec d) (m : ℕ) (good : Prop) (j : ℕ) (st : SequenceState d) : Prop where
  rooted : RootedTree st.tree (.num (-10))
  conv : st.tree.level (.num (-1)) = some (m : ℤ)
  convDir : st.tree.dir (.num (-1)) = some e
  fresh : ∀ i : ℕ, j ≤ i → NodeId.num i ∉ st.tree.nodes ∧ NodeId.pair (.num 2) i ∉ st.tree.nodes
  init : NodeId.num (-2) ∈ st.tree.nodes
  nodes : ∀ n ∈ st.nodes, n ∈ st.tree.nodes ∧ ∃ i : ℕ, i < j ∧ n = .num i
  nodup : st.nodes.Nodup
  good : good → GoodDirections st.tree

lemma SeqInv.conv_mem {e : Vec d} {m : ℕ} {good : Prop} {j : ℕ} {st : SequenceState d}
    (h : SeqInv e m good j st) : NodeId.num (-1) ∈ st.tree.nodes := by
  by_contra hc
  have := (h.rooted.no_attr _ hc).1
  rw [h.conv] at this; cases this

lemma frame_eq (o : Obstacle d) (x : Vec d) :
    obstacleFrame o x = (towards o x, ⟨o.normal x, !o.isBoundary⟩) := by
  have h1 := towards_eq o x
  have h3 : (obstacleFrame o x).2 = ⟨o.normal x, !o.isBoundary⟩ := by
    unfold obstacleFrame
    cases o.isBoundary <;> simp
  rw [← h1, ← h3]

/-- One pass of the loop. -/
lemma sequenceStep_spec {ext : Ext d k} (he : SaneAngles ext) {s : Avoider d} {x e : Vec d} {m : ℕ}
    {good : Prop} {j : ℕ} {st st' : SequenceState d} {o : Obstacle d} {g imp : ℝ}
    (hp : 0 ≤ s.power) (hm : m + 2 < 100) (hu : ‖e‖ = 1) (hn : o.normal x ≠ 0)
    (hadm : good → AdmissibleObstacle ext s e x o) (inv : SeqInv e m good j st)
    (h : sequenceStep ext s x e st ((o, g, imp), j) = .ok st') :
    SeqInv e m good (j + 1) st'
      ∧ (∀ n ∈ st.tree.nodes, n ∈ st'.tree.nodes ∧ st'.tree.dir n = st.tree.dir n)
      ∧ ∃ w, continuationWeight ext s g (towards o x) e ⟨o.normal x, !o.isBoundary⟩ = .ok w ∧ w ≤ 1
        ∧ ((w ≤ 0 ∧ st'.nodes = st.nodes ∧ st'.weights = st.weights)
          ∨ (0 < w ∧ st'.nodes = st.nodes ++ [.num j] ∧ st'.weights = st.weights ++ [w * imp]
            ∧ ∃ t, pseudoTangent ext s e (towards o x) ⟨o.normal x, !o.isBoundary⟩ = .ok t
              ∧ st'.tree.dir (.num j) = some (unit t))) := by
  have he0 : e ≠ 0 := by rintro rfl; simp at hu
  have hb : (⟨o.normal x, !o.isBoundary⟩ : NullBase d).normal ≠ 0 := hn
  unfold sequenceStep at h
  simp only [frame_eq] at h
  obtain ⟨w, hw, h⟩ := bind_ok.mp h
  have hw1 : w ≤ 1 := continuation_le_one hp hw
  by_cases h0 : w ≤ 0
  · rw [if_pos h0] at h
    injection h with h
    subst h
    refine ⟨⟨inv.rooted, inv.conv, inv.convDir, fun i hi => inv.fresh i (by omega), inv.init, ?_, inv.nodup,
      inv.good⟩, fun n hn => ⟨hn, rfl⟩, w, hw, hw1, Or.inl ⟨h0, rfl, rfl⟩⟩
    intro n hn
    obtain ⟨a, i, hi, b⟩ := inv.nodes n hn
    exact ⟨a, i, by omega, b⟩
  rw [if_neg h0] at h
  obtain ⟨t, ht, h⟩ := bind_ok.mp h
  have ht0 := pseudoTangent_ne he hb he0 ht
  have hcm := inv.conv_mem
  have hdc : dirOf st.tree (.num (-1)) = e := by simp [dirOf, inv.convDir]
  have hfin : ∀ (T : Tree NodeId d), RootedTree T (.num (-10)) →
      (∀ n ∈ st.tree.nodes, n ∈ T.nodes ∧ T.dir n = st.tree.dir n ∧ T.level n = st.tree.level n) →
      (∀ n ∈ T.nodes, n ∈ st.tree.nodes ∨ n = .num j ∨ n = .pair (.num 2) j) →
      NodeId.num j ∈ T.nodes → T.dir (.num j) = some (unit t) → (good → GoodDirections T) →
      SeqInv e m good (j + 1) ⟨T, st.nodes ++ [.num j], st.weights ++ [w * imp]⟩
      ∧ (∀ n ∈ st.tree.nodes, n ∈ T.nodes ∧ T.dir n = st.tree.dir n) := by
    intro T hT hold hnew hj hdir hgood
    refine ⟨⟨hT, ?_, ?_, ?_, ?_, ?_, ?_, hgood⟩, fun n hn => ⟨(hold n hn).1, (hold n hn).2.1⟩⟩
    · rw [(hold _ hcm).2.2]; exact inv.conv
    · rw [(hold _ hcm).2.1]; exact inv.convDir
    · intro i hi
      constructor
      · intro hc
        rcases hnew _ hc with h1 | h1 | h1
        · exact (inv.fresh i (by omega)).1 h1
        · simp at h1; omega
        · cases h1
      · intro hc
        rcases hnew _ hc with h1 | h1 | h1
        · exact (inv.fresh i (by omega)).2 h1
        · cases h1
        · simp at h1; omega
    · exact (hold _ inv.init).1
    · intro n hn
      rcases List.mem_append.mp hn with hn | hn
      · obtain ⟨a, i, hi, b⟩ := inv.nodes n hn
        exact ⟨(hold n a).1, i, by omega, b⟩
      · rw [List.mem_singleton] at hn
        exact ⟨hn ▸ hj, j, by omega, hn⟩
    · change (st.nodes ++ [NodeId.num j]).Nodup
      rw [List.nodup_append]
      refine ⟨inv.nodup, by simp, ?_⟩
      intro a ha b hb hab
      rw [List.mem_singleton] at hb
      subst hb
      obtain ⟨_, i, hi, e'⟩ := inv.nodes a ha
      rw [e'] at hab
      simp at hab; omega
  by_cases hR : s.convergenceRadius > Real.pi * 0.5
  · rw [if_pos hR] at h
    obtain ⟨i, hi, h⟩ := bind_ok.mp h
    have hiu := intermediate_unit he hb hi
    have hi0 : i ≠ 0 := by rintro rfl; simp at hiu
    obtain ⟨t1, a1, a2, a3, a4, a5, a6, a7⟩ := addNode_step_ne st.tree _ inv.rooted (.pair (.num 2) j)
      (.num (-1)) i hi0 (inv.fresh j (le_refl _)).2 hcm m inv.conv (by omega)
    obtain ⟨t2, b1, b2, b3, b4, b5, b6, b7⟩ := addNode_step_ne t1 _ a2 (.num j) (.pair (.num 2) j) t ht0
      (by rw [a3, List.mem_append]; rintro (hc | hc)
          · exact (inv.fresh j (le_refl _)).1 hc
          · simp at hc)
      (by rw [a3]; simp) (m + 1) a4 (by omega)
    simp only [a1, b1, bind, Except.bind] at h
    injection h with h
    subst h
    obtain ⟨c1, c2⟩ := hfin t2 b2
      (fun n hn => by
        have hn1 : n ∈ t1.nodes := by rw [a3]; simp [hn]
        exact ⟨by rw [b3]; simp [hn1], by rw [(b6 n hn1).1, (a6 n hn).1],
          by rw [(b6 n hn1).2, (a6 n hn).2]⟩)
      (fun n hn => by
        rw [b3, List.mem_append, a3, List.mem_append] at hn
        simp only [List.mem_singleton] at hn
        tauto)
      (by rw [b3]; simp) b5
      (fun hg => by
        obtain ⟨p1, p2⟩ := (hadm hg t ht).2 hR i hi
        refine b7 (a7 (inv.good hg) ?_) ?_
        · rw [hdc, unit_of_norm_one hiu]; exact p1
        · rw [show dirOf t1 (.pair (.num 2) j) = i by simp [dirOf, a5, unit_of_norm_one hiu]]; exact p2)
    exact ⟨c1, c2, w, hw, hw1, Or.inr ⟨not_le.mp h0, rfl, rfl, t, ht, b5⟩⟩
  · rw [if_neg hR] at h
    obtain ⟨t1, a1, a2, a3, a4, a5, a6, a7⟩ := addNode_step_ne st.tree _ inv.rooted (.num j)
      (.num (-1)) t ht0 (inv.fresh j (le_refl _)).1 hcm m inv.conv (by omega)
    simp only [a1, bind, Except.bind] at h
    injection h with h
    subst h
    obtain ⟨c1, c2⟩ := hfin t1 a2
      (fun n hn => ⟨by rw [a3]; simp [hn], (a6 n hn).1, (a6 n hn).2⟩)
      (fun n hn => by
        rw [a3, List.mem_append] at hn
        simp only [List.mem_singleton] at hn
        tauto)
      (by rw [a3]; simp) a5
      (fun hg => by
        refine a7 (inv.good hg) ?_
        rw [hdc]; exact (hadm hg t ht).1 (not_lt.mp hR))
    exact ⟨c1, c2, w, hw, hw1, Or.inr ⟨not_le.mp h0, rfl, rfl, t, ht, a5⟩⟩

/-- The whole loop: non-negative weights, at most the importance weights in total. -/
lemma sequenceLoop_spec {ext : Ext d k} (he : SaneAngles ext) {s : Avoider d} {x e : Vec d} {m : ℕ}
    {good : Prop} (hp : 0 ≤ s.power) (hm : m + 2 < 100) (hu : ‖e‖ = 1)
    (l : List (Obstacle d × ℝ × ℝ)) (hn : ∀ p ∈ l, p.1.normal x ≠ 0) (himp : ∀ p ∈ l, 0 ≤ p.2.2)
    (hadm : good → ∀ p ∈ l, AdmissibleObstacle ext s e x p.1) (j : ℕ) (st st' : SequenceState d)
    (inv : SeqInv e m good j st)
    (h : (l.zipIdx j).foldlM (sequenceStep ext s x e) st = .ok st') :
    SeqInv e m good (j + l.length) st'
      ∧ (∀ n ∈ st.tree.nodes, n ∈ st'.tree.nodes ∧ st'.tree.dir n = st.tree.dir n)
      ∧ ∃ ns ws, st'.nodes = st.nodes ++ ns ∧ st'.weights = st.weights ++ ws ∧ ns.length = ws.length
        ∧ Nonneg ws ∧ ws.sum ≤ (l.map (fun p => p.2.2)).sum := by
  induction l generalizing j st with
  | nil =>
    injection h with h
    subst h
    exact ⟨by simpa using inv, fun n hn => ⟨hn, rfl⟩, [], [], by simp, by simp, rfl, (by intro w hw; cases hw),
      by simp⟩
  | cons p l ih =>
    obtain ⟨o, g, imp⟩ := p
    rw [List.zipIdx_cons, List.foldlM_cons] at h
    obtain ⟨st1, h1, h⟩ := bind_ok.mp h
    obtain ⟨i1, k1, w, hw, hw1, hcase⟩ := sequenceStep_spec he hp hm hu (hn _ List.mem_cons_self)
      (fun hg => hadm hg _ List.mem_cons_self) inv h1
    obtain ⟨i2, k2, ns, ws, e1, e2, e3, e4, e5⟩ := ih (fun p hp => hn p (List.mem_cons_of_mem _ hp))
      (fun p hp => himp p (List.mem_cons_of_mem _ hp))
      (fun hg p hp => hadm hg p (List.mem_cons_of_mem _ hp)) (j + 1) st1 i1 h
    have hi : 0 ≤ imp := himp _ List.mem_cons_self
    refine ⟨by rw [List.length_cons, show j + (l.length + 1) = j + 1 + l.length by omega]; exact i2,
      fun n hn => ⟨(k2 n (k1 n hn).1).1, by rw [(k2 n (k1 n hn).1).2, (k1 n hn).2]⟩, ?_⟩
    rcases hcase with ⟨hw0, f1, f2⟩ | ⟨hw0, f1, f2, _⟩
    · refine ⟨ns, ws, by rw [e1, f1], by rw [e2, f2], e3, e4, ?_⟩
      rw [List.map_cons, List.sum_cons]
      simp only
      linarith
    · refine ⟨.num j :: ns, w * imp :: ws, by rw [e1, f1]; simp, by rw [e2, f2]; simp, by simp [e3], ?_, ?_⟩
      · intro y hy
        rcases List.mem_cons.mp hy with rfl | hy
        · positivity
        · exact e4 y hy
      · rw [List.map_cons, List.sum_cons, List.sum_cons]
        have : w * imp ≤ imp := by nlinarith
        simp only
        linarith

/-- What is assumed about the sequence of the initial dynamics and the one of the convergence dynamics: both
are non-empty, connected, with unit vectors and admissible directions; they start with the same
vector, and fit into a tree. -/
structure ProperSequences (initial conv : RotSeq (Vec d)) : Prop where
  initial_ne : initial ≠ []
  conv_ne : conv ≠ []
  initial_unit : UnitVectors initial
  conv_unit : UnitVectors conv
  initial_connected : Connected initial
  conv_connected : Connected conv
  initial_pairs : ∀ q ∈ initial, Neighbours q.getFirstVector q.getSecondVector
  conv_pairs : ∀ q ∈ conv, Neighbours q.getFirstVector q.getSecondVector
  common : (initial.head initial_ne).getFirstVector = (conv.head conv_ne).getFirstVector
  initial_length : initial.length < 100
  conv_length : conv.length < 98

lemma freshConv (n : ℕ) : FreshIds interId
    ([NodeId.num (-10)] ++ (List.range' 1 n).map (interId (.num (-2))) ++ [NodeId.num (-2)])
    (NodeId.num (-1)) where
  inj := by intro i j h; simp only [interId] at h; injection h
  ne := by intro i h; simp [interId] at h
  new := by
    intro i h
    simp [interId] at h
  end_new := by simp [interId]

lemma freshInitial : FreshIds interId [NodeId.num (-10)] (NodeId.num (-2)) where
  inj := by intro i j h; simp only [interId] at h; injection h
  ne := by intro i h; simp [interId] at h
  new := by intro i h; simp [interId] at h
  end_new := by simp

/-- The tree before the loop. -/
lemma startTree {initial conv : RotSeq (Vec d)} (h : ProperSequences initial conv) :
    ∃ t0 t v vi, Tree.fromSequence interId (.num (-10)) (.num (-2)) initial = .ok t0
      ∧ orRaise (t0.addSequence interId (.num (-1)) conv (.num (-10))) = .ok t
      ∧ conv.getEndVector = .ok v ∧ ‖v‖ = 1 ∧ initial.getEndVector = .ok vi
      ∧ t.dir (.num (-2)) = some vi
      ∧ SeqInv v conv.length True 0 ⟨t, [], []⟩ := by
  obtain ⟨q, s, rfl⟩ := List.exists_cons_of_ne_nil h.initial_ne
  have hq := (h.initial_unit q List.mem_cons_self).1
  obtain ⟨t0, a1, a2, a3, a4, a5⟩ := from_sequence_root (NodeId.num (-10)) q.base.b0 hq
  have hd0 : dirOf t0 (.num (-10)) = q.base.b0 := by simp [dirOf, a5]
  have hil : (q :: s).length < 100 := h.initial_length
  obtain ⟨t1, b1, b2, b3, b4, b5, b6, b7⟩ := addSequence_unit interId t0 _ a2 (.num (-2)) (.num (-10)) (q :: s)
    h.initial_ne h.initial_unit (by rw [a3]; simp) (by rw [a3]; exact freshInitial) 0 a2.root_level
    (by omega) (by rw [hd0]; exact allclose_refl _)
  have hg1 : GoodDirections t1 := by
    apply b7
    · intro a c hac
      simp [IsParent, a4] at hac
    · rw [hd0]
      have := connected_chain (q :: s) h.initial_ne h.initial_connected h.initial_pairs
      simpa using this
  have hr1 : NodeId.num (-10) ∈ t1.nodes := by rw [b3, a3]; simp
  have hd1 : dirOf t1 (.num (-10)) = q.base.b0 := by
    unfold dirOf
    rw [(b4 _ (by rw [a3]; simp)).1, a5]; rfl
  obtain ⟨q', s', rfl⟩ := List.exists_cons_of_ne_nil h.conv_ne
  have hcom : q'.base.b0 = q.base.b0 := by
    have := h.common
    simp only [List.head_cons, Rot.getFirstVector] at this
    exact this.symm
  have hcl : (q' :: s').length < 98 := h.conv_length
  obtain ⟨t2, c1, c2, c3, c4, c5, c6, c7⟩ := addSequence_unit interId t1 _ b2 (.num (-1)) (.num (-10)) (q' :: s')
    h.conv_ne h.conv_unit hr1 (by rw [b3, a3]; exact freshConv _) 0 b2.root_level
    (by omega) (by rw [hd1, List.head_cons, hcom]; exact allclose_refl _)
  refine ⟨t1, t2, _, _, ?_, ?_, endVector_of_ne _ h.conv_ne, ?_, endVector_of_ne _ h.initial_ne, ?_, ?_⟩
  · unfold Tree.fromSequence
    simp only [a1, b1]
  · rw [c1]; rfl
  · exact (h.conv_unit _ (List.getLast_mem h.conv_ne)).2
  · rw [(c4 _ (by rw [b3]; simp)).1]; exact b5
  · refine ⟨c2, by rw [c6]; simp, c5, ?_, by rw [c3, b3]; simp, by simp, by simp, fun _ => ?_⟩
    · intro i _
      change _ ∉ t2.nodes ∧ _ ∉ t2.nodes
      rw [c3, b3, a3]
      simp [interId]
    · apply c7 hg1
      rw [hd1, ← hcom]
      have := connected_chain (q' :: s') h.conv_ne h.conv_connected h.conv_pairs
      simpa using this

end Verif.Rotational
