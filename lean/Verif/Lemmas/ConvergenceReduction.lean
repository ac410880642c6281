import Verif.Lemmas.Convergence

/-! # Helper lemmas: `vector_rotation_reduction` and the weights of the convergence -/

open scoped RealInnerProductSpace

namespace Verif
open Spec

variable {d k : ℕ} [Fact (2 ≤ d)]
set_option linter.unusedSectionVars false

lemma orRaise_mk {α : Type} (a : α) : orRaise (a, Except.ok ()) = .ok a := rfl

/-- The tree of a proper sequence. -/
lemma fromSequence_proper (rootId n : NodeId) (hf : FreshIds interId [rootId] n) {s : RotSeq (Vec d)}
    (hs : Proper s) :
    ∃ t, Tree.fromSequence interId rootId n s = .ok t ∧ RootedTree t rootId ∧ GoodDirections t
      ∧ t.nodes = [rootId] ++ (List.range' 1 (s.length - 1)).map (interId n) ++ [n]
      ∧ dirOf t rootId = (s.head hs.ne).getFirstVector
      ∧ t.dir n = some (s.getLast hs.ne).getSecondVector := by
  obtain ⟨hne, hon, hc, hg, hlen⟩ := hs
  cases s with
  | nil => exact absurd rfl hne
  | cons q s =>
    have hq := (hon q List.mem_cons_self).norm_fst
    obtain ⟨t0, a1, a2, a3, a4, a5⟩ := from_sequence_root rootId q.base.b0 hq
    have hd0 : dirOf t0 rootId = q.base.b0 := by simp [dirOf, a5]
    obtain ⟨t', h1, h3, h4, h5, h6, h7, h8⟩ := addSequence_ok interId t0 rootId a2 n rootId (q :: s)
      hne hon (by rw [a3]; simp) (by rw [a3]; exact hf) 0 a2.root_level
      (by have : (q :: s).length < 50 := hlen; omega)
      (by rw [hd0]; exact allclose_refl _)
    refine ⟨t', ?_, h3, ?_, ?_, ?_, h6⟩
    · unfold Tree.fromSequence
      simp only [a1, h1]
    · refine h8 ?_ ?_
      · intro a c hac
        simp [IsParent, a4] at hac
      · rw [hd0]
        have := connected_chain (q :: s) hne hc hg
        simpa using this
    · rw [h4, a3]
    · unfold dirOf
      rw [(h5 rootId (by rw [a3]; simp)).1, a5]
      rfl

/-- The tree of the reduction: the first sequence at node 1; the transformation at node -1 and the second sequence
below it at node 2. -/
lemma reduction_tree_full {s1 s2 : RotSeq (Vec d)} (h1 : Proper s1) (h2 : Proper s2) {o : Rot (Vec d)}
    (ho : OrthonormalPair o.base.b0 o.base.b1) (hg : GoodPair (s1.head h1.ne).getFirstVector o.getSecondVector)
    (hs : (s2.head h2.ne).getFirstVector = o.getSecondVector) :
    ∃ t, (∀ (argsort : List ℤ → List ℕ) (w : ℝ), 0 < w →
        vectorRotationReduction argsort s1 (some o) (some s2) w
          = t.reduceWeightedToSequence argsort NodeState.init [.num 1, .num 2] [1 - w, w])
      ∧ RootedTree t (.num 0) ∧ GoodDirections t
      ∧ NodeId.num 1 ∈ t.nodes ∧ NodeId.num 2 ∈ t.nodes
      ∧ dirOf t (.num 0) = (s1.head h1.ne).getFirstVector
      ∧ t.dir (.num 1) = some (s1.getLast h1.ne).getSecondVector
      ∧ t.dir (.num 2) = some (s2.getLast h2.ne).getSecondVector
      ∧ ∃ t1 t2, Tree.fromSequence interId (.num 0) (.num 1) s1 = .ok t1
        ∧ orRaise (t1.addNode (.num (-1)) o.getSecondVector (some (.num 0))) = .ok t2
        ∧ t2.addSequence interId (.num 2) s2 (.num (-1)) true = (t, .ok ()) := by
  obtain ⟨t1, a1, a2, a3, a4, a5, a6⟩ := fromSequence_proper (.num 0) (.num 1)
    ⟨by intro i j h; simp only [interId] at h; injection h, by intro i h; simp [interId] at h,
      by intro i h; simp [interId] at h, by simp⟩ h1
  have hsec : o.rotate o.base.b0 = o.getSecondVector := by simp [Rot.rotate, Rot.getSecondVector]
  obtain ⟨t2, b1, b2, b3, b4, b5, b6, b7⟩ := addNode_step t1 (.num 0) a2 (.num (-1)) (.num 0) o.getSecondVector
    (second_unit ho) (by rw [a4]; simp [interId]) (by rw [a4]; simp) 0 a2.root_level (by norm_num)
  have hg2 : GoodDirections t2 := b7 a3 (by rw [a5]; exact hg)
  have hd2 : dirOf t2 (.num (-1)) = (s2.head h2.ne).getFirstVector := by
    rw [hs]; unfold dirOf; rw [b5]; rfl
  have hnum : ∀ m ∈ t2.nodes, ∃ (z : ℤ), (m = .num z ∨ ∃ i, m = .pair (.num z) i) ∧ z ≠ 2 := by
    intro m hm
    rw [b3, a4] at hm
    simp only [List.cons_append, List.nil_append, List.append_assoc, List.mem_cons, List.mem_append,
      List.mem_map, List.not_mem_nil, or_false] at hm
    rcases hm with rfl | ⟨i, _, rfl⟩ | rfl | rfl
    · exact ⟨0, Or.inl rfl, by norm_num⟩
    · exact ⟨1, Or.inr ⟨i, rfl⟩, by norm_num⟩
    · exact ⟨1, Or.inl rfl, by norm_num⟩
    · exact ⟨-1, Or.inl rfl, by norm_num⟩
  have hlen2 : s2.length < 50 := h2.short
  obtain ⟨t3, c1, c2, c3, c4, c5, c6, c7⟩ := addSequence_ok interId t2 (.num 0) b2 (.num 2) (.num (-1)) s2 h2.ne h2.on
    (by rw [b3]; simp)
    ⟨by intro i j h; simp only [interId] at h; injection h, by intro i h; simp [interId] at h,
      by
        intro i h
        obtain ⟨z, hz, hz2⟩ := hnum _ h
        simp only [interId] at hz
        rcases hz with hz | ⟨j, hz⟩
        · cases hz
        · injection hz with hz _; injection hz with hz; exact hz2 hz.symm,
      by
        intro h
        obtain ⟨z, hz, hz2⟩ := hnum _ h
        rcases hz with hz | ⟨j, hz⟩
        · injection hz with hz; exact hz2 hz.symm
        · cases hz⟩
    1 (by rw [b4]; norm_num) (by omega) (by
      rw [hd2]; exact allclose_refl _)
  have hin1 : ∀ m ∈ t2.nodes, m ∈ t3.nodes := fun m hm => by
    rw [c3, List.append_assoc]; exact List.mem_append_left _ hm
  have hin0 : ∀ m ∈ t1.nodes, m ∈ t2.nodes := fun m hm => by
    rw [b3]; exact List.mem_append_left _ hm
  have h1mem : NodeId.num 1 ∈ t1.nodes := by rw [a4]; simp
  have h0mem : NodeId.num 0 ∈ t1.nodes := by rw [a4]; simp
  refine ⟨t3, ?_, c2, ?_, hin1 _ (hin0 _ h1mem), by rw [c3]; simp, ?_, ?_, c5,
    t1, t2, a1, by rw [b1]; rfl, c1⟩
  · intro argsort w hw
    unfold vectorRotationReduction
    rw [if_neg (not_le.mpr hw)]
    simp only [a1, bind, Except.bind]
    unfold Tree.addNodeOrientation
    rw [hsec, b1]
    simp only [orRaise_mk, c1]
  · refine c7 hg2 ?_
    have := connected_chain s2 h2.ne h2.connected h2.good
    rw [hd2]
    obtain ⟨q, s, rfl⟩ := List.exists_cons_of_ne_nil h2.ne
    simpa [Rot.getFirstVector] using this
  · unfold dirOf
    rw [(c4 _ (hin0 _ h0mem)).1, (b6 _ h0mem).1]
    exact a5
  · rw [(c4 _ (hin0 _ h1mem)).1, (b6 _ h1mem).1, a6]

lemma reduction_tree {s1 s2 : RotSeq (Vec d)} (h1 : Proper s1) (h2 : Proper s2) {o : Rot (Vec d)}
    (ho : OrthonormalPair o.base.b0 o.base.b1) (hg : GoodPair (s1.head h1.ne).getFirstVector o.getSecondVector)
    (hs : (s2.head h2.ne).getFirstVector = o.getSecondVector) :
    ∃ t, (∀ (argsort : List ℤ → List ℕ) (w : ℝ), 0 < w →
        vectorRotationReduction argsort s1 (some o) (some s2) w
          = t.reduceWeightedToSequence argsort NodeState.init [.num 1, .num 2] [1 - w, w])
      ∧ RootedTree t (.num 0) ∧ GoodDirections t
      ∧ NodeId.num 1 ∈ t.nodes ∧ NodeId.num 2 ∈ t.nodes
      ∧ dirOf t (.num 0) = (s1.head h1.ne).getFirstVector
      ∧ t.dir (.num 1) = some (s1.getLast h1.ne).getSecondVector
      ∧ t.dir (.num 2) = some (s2.getLast h2.ne).getSecondVector := by
  obtain ⟨t, g1, g2, g3, g4, g5, g6, g7, g8, _⟩ := reduction_tree_full h1 h2 ho hg hs
  exact ⟨t, g1, g2, g3, g4, g5, g6, g7, g8⟩

/-! ### The weights -/

lemma addToLast_append (x y : ℝ) (l : List ℝ) : addToLast x (l ++ [y]) = l ++ [y + x] := by
  induction l with
  | nil => rfl
  | cons w l ih =>
    cases l with
    | nil => rfl
    | cons w' l => change w :: addToLast x (w' :: l ++ [y]) = _; rw [ih]; rfl

lemma convergenceWeights_spec {ws : List ℝ} (h : Nonneg ws)
    (h1 : open Classical in (ws.filter (fun w => w ≥ 1)).length ≤ 1) :
    (convergenceWeights ws).length = ws.length + 1 ∧ (∀ w ∈ convergenceWeights ws, 0 ≤ w)
      ∧ (convergenceWeights ws).sum = 1 := by
  classical
  have hn : Nonneg (ws ++ [0]) := by
    intro w hw
    rw [List.mem_append, List.mem_singleton] at hw
    rcases hw with hw | rfl
    · exact h w hw
    · exact le_refl 0
  obtain ⟨c1, c2, c3⟩ := C28_in_unit (ws ++ [0]) hn
  have hs := C28_sum_partial (ws ++ [0]) hn (by
    have h1' : (ws.filter (fun w => w ≥ 1)).length ≤ 1 := by convert h1
    have : ((ws ++ [0]).filter (fun w => w ≥ 1)).length = (ws.filter (fun w => w ≥ 1)).length := by
      rw [List.filter_append, List.length_append]
      simp
    convert this.trans_le h1')
  set l := getLimitedWeightsToMaxSum (ws ++ [0]) with hl
  have hlen : l.1.length = ws.length + 1 := by
    have := c1; unfold SameLength at this
    rw [List.length_append, List.length_singleton] at this
    omega
  obtain ⟨xs, y, e⟩ : ∃ xs y, l.1 = xs ++ [y] := by
    have hne : l.1 ≠ [] := by intro h0; rw [h0] at hlen; simp at hlen
    exact ⟨_, _, (List.dropLast_append_getLast hne).symm⟩
  have hcw : convergenceWeights ws = xs ++ [y + (1 - l.2)] := by
    unfold convergenceWeights
    simp only [← hl]
    rw [e, addToLast_append]
  rw [e] at hs hlen c2
  rw [List.sum_append, List.sum_singleton] at hs
  refine ⟨?_, ?_, ?_⟩
  · rw [hcw, ← hlen]; simp
  · intro w hw
    rw [hcw, List.mem_append, List.mem_singleton] at hw
    rcases hw with hw | rfl
    · exact (c2 w (List.mem_append_left _ hw)).1
    · have := (c2 y (by simp)).1
      linarith
  · rw [hcw, List.sum_append, List.sum_singleton]
    linarith

/-- With a saturated weight the final weights are the indicator of the saturated ones. -/
lemma convergenceWeights_saturated {ws : List ℝ} (h : Nonneg ws) {w : ℝ} (hw : w ∈ ws) (hw1 : 1 ≤ w) :
    convergenceWeights ws = indicator (· ≥ 1) ws ++ [0] := by
  classical
  have hsum : ¬ (ws ++ [0]).sum < 1 := by
    have := le_sum_of_mem h hw
    rw [List.sum_append]; simp; linarith
  unfold convergenceWeights getLimitedWeightsToMaxSum
  rw [if_neg hsum, if_pos ⟨w, List.mem_append_left _ hw, hw1⟩]
  have : indicator (· ≥ 1) (ws ++ [0]) = indicator (· ≥ 1) ws ++ [0] := by
    unfold indicator
    rw [List.map_append]
    simp
  simp only [this, addToLast_append]
  norm_num

/-- Without any restriction on the contacts: the weights are non-negative, with a total of at least one. -/
lemma convergenceWeights_total {ws : List ℝ} (h : Nonneg ws) :
    (convergenceWeights ws).length = ws.length + 1 ∧ (∀ w ∈ convergenceWeights ws, 0 ≤ w)
      ∧ 1 ≤ (convergenceWeights ws).sum := by
  classical
  by_cases hs : ∃ w ∈ ws, 1 ≤ w
  · obtain ⟨w, hw, hw1⟩ := hs
    have hi : Nonneg (indicator (· ≥ 1) ws) := by
      intro x hx
      unfold indicator at hx
      obtain ⟨y, _, rfl⟩ := List.mem_map.1 hx
      split_ifs <;> norm_num
    have h1 : (1 : ℝ) ∈ indicator (· ≥ 1) ws := by
      unfold indicator
      exact List.mem_map.2 ⟨w, hw, by rw [if_pos hw1]⟩
    rw [convergenceWeights_saturated h hw hw1]
    refine ⟨by simp [indicator], ?_, ?_⟩
    · intro x hx
      rw [List.mem_append, List.mem_singleton] at hx
      rcases hx with hx | rfl
      · exact hi x hx
      · exact le_refl 0
    · rw [List.sum_append]
      have := le_sum_of_mem hi h1
      simpa using this
  · push Not at hs
    have hf : ws.filter (fun w => w ≥ 1) = [] := by
      rw [List.filter_eq_nil_iff]
      intro w hw
      simpa using hs w hw
    obtain ⟨c1, c2, c3⟩ := convergenceWeights_spec h (by rw [List.length_eq_zero_iff.2]; · norm_num
                                                         · convert hf)
    exact ⟨c1, c2, c3.ge⟩

/-- Lists of pairs with different first entries, all of which are equal. -/
lemma filter_zip_le_one {α : Type*} {ns : List α} {ws : List ℝ} (hlen : ns.length = ws.length) (hnd : ns.Nodup)
    (P : ℝ → Prop) [DecidablePred P]
    (h : ∀ q ∈ ns.zip ws, ∀ q' ∈ ns.zip ws, P q.2 → P q'.2 → q.1 = q'.1) :
    (ws.filter (fun w => P w)).length ≤ 1 := by
  have e : ws.filter (fun w => P w) = ((ns.zip ws).filter (fun q => P q.2)).map Prod.snd := by
    conv_lhs => rw [← List.map_snd_zip (l₁ := ns) (l₂ := ws) (by omega)]
    rw [List.filter_map]
    rfl
  rw [e, List.length_map]
  have hnd' : (((ns.zip ws).filter (fun q => P q.2)).map Prod.fst).Nodup := by
    have h1 : ((ns.zip ws).map Prod.fst).Nodup := by
      rw [List.map_fst_zip (by omega)]; exact hnd
    exact h1.sublist (List.filter_sublist.map Prod.fst)
  by_contra hc
  push Not at hc
  obtain ⟨a, b, l, hl⟩ : ∃ a b l, (ns.zip ws).filter (fun q => P q.2) = a :: b :: l := by
    cases h1 : (ns.zip ws).filter (fun q => P q.2) with
    | nil => rw [h1] at hc; simp at hc
    | cons a l =>
      cases l with
      | nil => rw [h1] at hc; simp at hc
      | cons b l => exact ⟨a, b, l, rfl⟩
  rw [hl] at hnd'
  have ha : a ∈ (ns.zip ws).filter (fun q => P q.2) := by rw [hl]; simp
  have hb : b ∈ (ns.zip ws).filter (fun q => P q.2) := by rw [hl]; simp
  rw [List.mem_filter, decide_eq_true_eq] at ha hb
  have := h a ha.1 b hb.1 ha.2 hb.2
  simp [this] at hnd'

end Verif
