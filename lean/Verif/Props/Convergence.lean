import Verif.Lemmas.ConvergenceBranches
import Verif.Props.ProjectedPosition
import Verif.Props.AvoiderExamples

/-!
# C112: the direction to which the avoider converges

Model: `Verif.Model.Avoider` (`compute_convergence_sequence` and `vector_rotation_reduction`,
multi_obstacle_avoider.py:502-685).
-/

open scoped RealInnerProductSpace

namespace Verif
open Spec

variable {d k : ℕ} [Fact (2 ≤ d)]
set_option linter.unusedSectionVars false

/-! ## The reduction of two sequences -/

/-- C112: without weight on the obstacle, or without a rotation towards it, the initial sequence is returned. -/
theorem C112_reduction_off (argsort : List ℤ → List ℕ) (s1 : RotSeq (Vec d)) (o : Option (Rot (Vec d)))
    (s2 : Option (RotSeq (Vec d))) (w : ℝ) (h : w ≤ 0 ∨ o = none) :
    vectorRotationReduction argsort s1 o s2 w = .ok s1 := by
  classical
  unfold vectorRotationReduction
  by_cases hw : w ≤ 0
  · rw [if_pos hw]
  · rw [if_neg hw]
    rcases h with h | rfl
    · exact absurd h hw
    · rfl

/-- C112: a missing sequence of the convergence dynamics raises `AttributeError`. -/
theorem C112_reduction_missing (argsort : List ℤ → List ℕ) (s1 : RotSeq (Vec d)) (h1 : Proper s1) (o : Rot (Vec d))
    (ho : OrthonormalPair o.base.b0 o.base.b1) (w : ℝ) (hw : 0 < w) :
    vectorRotationReduction argsort s1 (some o) none w = .error .attributeError := by
  classical
  obtain ⟨t1, a1, a2, a3, a4, a5, a6⟩ := fromSequence_proper (.num 0) (.num 1)
    ⟨by intro i j h; simp only [interId] at h; injection h, by intro i h; simp [interId] at h,
      by intro i h; simp [interId] at h, by simp⟩ h1
  have hsec : o.rotate o.base.b0 = o.getSecondVector := by simp [Rot.rotate, Rot.getSecondVector]
  obtain ⟨t2, b1, _⟩ := addNode_step t1 (.num 0) a2 (.num (-1)) (.num 0) o.getSecondVector
    (second_unit ho) (by rw [a4]; simp [interId]) (by rw [a4]; simp) 0 a2.root_level (by norm_num)
  unfold vectorRotationReduction
  rw [if_neg (not_le.mpr hw)]
  simp only [a1, bind, Except.bind]
  unfold Tree.addNodeOrientation
  rw [hsec, b1]
  rfl

/-- C112: a second sequence that does not start where the transformation ends (up to the tolerance) raises
`ValueError`. -/
theorem C112_reduction_mismatch (argsort : List ℤ → List ℕ) (s1 s2 : RotSeq (Vec d)) (h1 : Proper s1) (h2 : s2 ≠ [])
    (o : Rot (Vec d)) (ho : OrthonormalPair o.base.b0 o.base.b1)
    (hs : ¬ allclose (s2.head h2).getFirstVector o.getSecondVector) (w : ℝ) (hw : 0 < w) :
    vectorRotationReduction argsort s1 (some o) (some s2) w = .error .valueError := by
  classical
  obtain ⟨t1, a1, a2, a3, a4, a5, a6⟩ := fromSequence_proper (.num 0) (.num 1)
    ⟨by intro i j h; simp only [interId] at h; injection h, by intro i h; simp [interId] at h,
      by intro i h; simp [interId] at h, by simp⟩ h1
  have hsec : o.rotate o.base.b0 = o.getSecondVector := by simp [Rot.rotate, Rot.getSecondVector]
  obtain ⟨t2, b1, b2, b3, b4, b5, _⟩ := addNode_step t1 (.num 0) a2 (.num (-1)) (.num 0) o.getSecondVector
    (second_unit ho) (by rw [a4]; simp [interId]) (by rw [a4]; simp) 0 a2.root_level (by norm_num)
  unfold vectorRotationReduction
  rw [if_neg (not_le.mpr hw)]
  simp only [a1, bind, Except.bind]
  unfold Tree.addNodeOrientation
  rw [hsec, b1]
  simp only [orRaise_mk]
  obtain ⟨q, s, rfl⟩ := List.exists_cons_of_ne_nil h2
  unfold Tree.addSequence
  simp only [if_true, b5]
  rw [if_neg (by simpa [Rot.getFirstVector] using hs)]
  rfl

/-- C112: the reduction of two proper sequences, the second of which starts where the transformation ends, succeeds;
it starts at the first direction of the initial sequence and ends in a unit vector; with full weight it ends
where the second sequence ends. -/
theorem C112_reduction {s1 s2 : RotSeq (Vec d)} (h1 : Proper s1) (h2 : Proper s2) {o : Rot (Vec d)}
    (ho : OrthonormalPair o.base.b0 o.base.b1) (hg : GoodPair (s1.head h1.ne).getFirstVector o.getSecondVector)
    (hs : (s2.head h2.ne).getFirstVector = o.getSecondVector) (argsort : List ℤ → List ℕ)
    (has : ArgsortSpec argsort) (w : ℝ) (hw : 0 < w) (hw1 : w ≤ 1) :
    ∃ s q v, vectorRotationReduction argsort s1 (some o) (some s2) w = .ok s
      ∧ SameUpToRepeatedEnd s q ∧ Leads (s1.head h1.ne).getFirstVector q v
      ∧ s.getEndVector = .ok v ∧ ‖v‖ = 1 ∧ (w = 1 → s2.getEndVector = .ok v) := by
  classical
  obtain ⟨t, a1, a2, a3, a4, a5, a6, a7, a8⟩ := reduction_tree h1 h2 ho hg hs
  have hlen : [NodeId.num 1, NodeId.num 2].length = [1 - w, w].length := rfl
  have hnd : [NodeId.num 1, NodeId.num 2].Nodup := by simp
  have hns : ∀ n ∈ [NodeId.num 1, NodeId.num 2], n ∈ t.nodes := by
    intro n hn
    simp only [List.mem_cons, List.not_mem_nil, or_false] at hn
    rcases hn with rfl | rfl
    · exact a4
    · exact a5
  have hwn : ∀ x ∈ [1 - w, w], 0 ≤ x := by
    intro x hx
    simp only [List.mem_cons, List.not_mem_nil, or_false] at hx
    rcases hx with rfl | rfl <;> linarith
  have hsum : [1 - w, w].sum = 1 := by simp
  obtain ⟨v, hv, hvn⟩ := C22_unit_convex t (.num 0) a2 a3.inner argsort has NodeState.init _ _ hlen hnd hns hwn
    (by rw [hsum]; norm_num) (by rw [hsum])
  have hr := C20_root_total t (.num 0) a2 _ _ hlen hnd hns
  obtain ⟨s, q, v', b1, b2, b3, _, b5⟩ := C27_connected_up_to_repetition_partial t (.num 0) a2 a3.inner argsort has
    NodeState.init _ _ hlen hns hwn (by
      intro n hn _
      refine le_trans (branchWeight_le_root a2 _ (fun p hp => hwn _ (zip_fst_mem hp).2) hn) ?_
      rw [hr, hsum]) (by rw [hr, hsum]; norm_num)
  have hvv : v' = v := by
    unfold Tree.getWeightedMean at hv
    rw [b1] at hv
    simp only [bind, Except.bind] at hv
    rw [b5] at hv
    exact Except.ok.inj hv
  subst hvv
  refine ⟨s, q, v', by rw [a1 argsort w hw]; exact b1, b2, a6 ▸ b3, b5, hvn, ?_⟩
  rintro rfl
  have hhot := C21_one_hot t (.num 0) a2 a3 argsort has NodeState.init _ [1 - (1 : ℝ), 1] hlen hnd hns (.num 2)
    (by simp) (by
      intro p hp hp2
      simp only [List.zip_cons_cons, List.zip_nil_right, List.mem_cons, List.not_mem_nil, or_false] at hp
      rcases hp with rfl | rfl
      · simp
      · exact absurd rfl hp2) _ a8
  rw [hhot] at hv
  rw [endVector_of_ne s2 h2.ne, ← Except.ok.inj hv]

/-! ## The tree of convergence directions -/

/-- The contract of the convergence dynamics: the projected weights are at most one. -/
def WeightsAtMostOne (a : Avoider d) (x : Vec d) : Prop :=
  ∀ o p, a.convergence.projectedWeight x o = .ok p → p ≤ 1

lemma treeWeight_range {a : Avoider d} {t : ObstacleTree d} {g : ℝ} (h : treeWeight a t = .ok g) :
    0 ≤ g ∧ g ≤ 1 := by
  unfold treeWeight at h
  cases ha : a.initial.attractorPosition with
  | none =>
    rw [ha] at h; cases h
    exact ⟨(C31_range none 2 (by norm_num)).1, (C31_range none 2 (by norm_num)).2.1⟩
  | some c =>
    rw [ha] at h
    obtain ⟨g', _, h⟩ := bind_ok.mp h
    cases h
    exact ⟨(C31_range (some g') 2 (by norm_num)).1, (C31_range (some g') 2 (by norm_num)).2.1⟩

lemma conv_reduce {ext : Ext d k} {a : Avoider d} {x : Vec d} {s : RotSeq (Vec d)} {st : ConvState d}
    (hst : ConvergenceTree ext a x s st) {v : Vec d}
    (hv : st.tree.getWeightedMean ext.argsort NodeState.init (st.nodes ++ [.num (-1)])
      (convergenceWeights st.weights) = .ok v) :
    ∃ conv, computeConvergenceSequence ext a x s = .ok conv ∧ conv.getEndVector = .ok v := by
  obtain ⟨t, ht, hf⟩ := hst
  unfold Tree.getWeightedMean at hv
  obtain ⟨conv, h1, h2⟩ := bind_ok.mp hv
  refine ⟨conv, ?_, h2⟩
  unfold computeConvergenceSequence
  exact bind_ok.mpr ⟨t, ht, bind_ok.mpr ⟨st, hf, h1⟩⟩

/-- At most one component has the full projected weight while its obstacle has the full weight. -/
def AtMostOneSaturated (a : Avoider d) (x : Vec d) : Prop :=
  ∀ (i j : ℕ) (t t' : ObstacleTree d) (c c' : ℕ) (o o' : Obstacle d), a.trees[i]? = some t → a.trees[j]? = some t' →
    t.components[c]? = some o → t'.components[c']? = some o' →
    a.convergence.projectedWeight x o = .ok 1 → treeWeight a t = .ok 1 →
    a.convergence.projectedWeight x o' = .ok 1 → treeWeight a t' = .ok 1 → i = j ∧ c = c'

lemma saturated_weight {a : Avoider d} {x : Vec d} (hw : WeightsAtMostOne a x) {t : ObstacleTree d} {o : Obstacle d}
    {w : ℝ} (h : ConvergenceWeight a x t o w) (h1 : 1 ≤ w) :
    a.convergence.projectedWeight x o = .ok 1 ∧ treeWeight a t = .ok 1 := by
  obtain ⟨p, g, hp, hg, hp0, hg0, rfl⟩ := h
  have hp1 := hw o p hp
  have hg1 := (treeWeight_range hg).2
  have hp0 : (0 : ℝ) < p := lt_trans (by norm_num) hp0
  have hg0 : (0 : ℝ) < g := lt_trans (by norm_num) hg0
  have e1 : p = 1 := by nlinarith
  have e2 : g = 1 := by nlinarith
  rw [hp, hg, e1, e2]
  exact ⟨rfl, rfl⟩

/-- C112 (partial): the convergence direction is defined and a unit vector, for any number of obstacles and
components, wherever the position is and however many of them are in contact.

Missing: trees with opposite neighbouring directions or inner nodes with nearly (but not exactly) the direction of the
parent (that the tree is built at all: `C112_tree`). -/
theorem C112_unit_partial (ext : Ext d k) (a : Avoider d) (x : Vec d) (s : RotSeq (Vec d)) (st : ConvState d)
    (hst : ConvergenceTree ext a x s st) (hgood : InnerDirections st.tree) (has : ArgsortSpec ext.argsort) :
    ∃ conv v, computeConvergenceSequence ext a x s = .ok conv ∧ conv.getEndVector = .ok v ∧ ‖v‖ = 1 := by
  obtain ⟨hr, ha, h1⟩ := convergence_args hst
  obtain ⟨v, hv, hvn⟩ := C22_unit st.tree (.num (-10)) hr hgood ext.argsort has NodeState.init _ _ ha.len ha.known
    ha.nonneg ha.le_one (lt_of_lt_of_le one_pos h1)
  obtain ⟨conv, h1, h2⟩ := conv_reduce hst hv
  exact ⟨conv, v, h1, h2, hvn⟩

/-- C112: if no obstacle has a projected weight above the threshold, the convergence direction is that of the initial
dynamics. -/
theorem C112_far (ext : Ext d k) (a : Avoider d) (x : Vec d) (s : RotSeq (Vec d)) (st : ConvState d)
    (hst : ConvergenceTree ext a x s st) (hgood : GoodDirections st.tree) (has : ArgsortSpec ext.argsort)
    (hfar : ∀ t ∈ a.trees, ∀ o ∈ t.components, ∀ p, a.convergence.projectedWeight x o = .ok p → p ≤ 1e-6) :
    ∃ conv v, computeConvergenceSequence ext a x s = .ok conv ∧ conv.getEndVector = .ok (unit v)
      ∧ s.getEndVector = .ok v := by
  obtain ⟨t0, ht0, hf⟩ := id hst
  obtain ⟨r0, m0, v, hv, hd⟩ := fromSequence_facts ht0
  obtain ⟨inv, -⟩ := convFold r0 hf
  have hzip : st.nodes.zip st.weights = [] := by
    rw [List.eq_nil_iff_forall_not_mem]
    intro q hq
    obtain ⟨i, t, c, o, b1, b2, _, p, g, e1, _, e3, _⟩ := inv.origin q hq
    have := hfar t (List.mem_of_getElem? b1) o (List.mem_of_getElem? b2) p e1
    linarith
  have hw0 : st.weights = [] := by
    have h1 : (st.nodes.zip st.weights).length = 0 := by rw [hzip]; rfl
    rw [List.length_zip, inv.len, min_self] at h1
    exact List.length_eq_zero_iff.mp h1
  have hn0 : st.nodes = [] := List.length_eq_zero_iff.mp (by rw [inv.len, hw0]; rfl)
  have hcw : convergenceWeights st.weights = [1] := by
    rw [hw0]
    unfold convergenceWeights getLimitedWeightsToMaxSum
    simp [addToLast]
  have hm1 := inv.grows.nodes _ m0
  have hdir : st.tree.dir (.num (-1)) = some (unit v) := by
    have := (dir_eq inv.rooted hm1).1
    rw [inv.grows.dirs _ m0, hd] at this
    exact this
  obtain ⟨conv, h1, h2⟩ := conv_reduce hst (v := unit v) (by
    rw [hcw, hn0]
    exact C21_full_weight st.tree (.num (-10)) inv.rooted hgood ext.argsort has NodeState.init (.num (-1)) _ hdir)
  exact ⟨conv, v, h1, h2, hv⟩

lemma proper_single {q : Rot (Vec d)} (hon : q.base.ON) (hg : GoodPair q.getFirstVector q.getSecondVector) :
    Proper [q] :=
  ⟨by simp, by simpa using hon, List.isChain_singleton _, by simpa using hg, by simp⟩

/-- The mean over the tree when exactly one component has full weight. -/
lemma saturated_mean {ext : Ext d k} {a : Avoider d} {x : Vec d} {s : RotSeq (Vec d)} {st : ConvState d}
    (hst : ConvergenceTree ext a x s st) (hgood : GoodDirections st.tree) (has : ArgsortSpec ext.argsort)
    (hw : WeightsAtMostOne a x) (hone : AtMostOneSaturated a x)
    {i : ℕ} {t : ObstacleTree d} {c : ℕ} {o : Obstacle d} (hi : a.trees[i]? = some t)
    (hc : t.components[c]? = some o) (hp : a.convergence.projectedWeight x o = .ok 1) (hg : treeWeight a t = .ok 1)
    (hmem : (NodeId.pair (.num i) c, (1 : ℝ)) ∈ st.nodes.zip st.weights) {v : Vec d}
    (hdir : st.tree.dir (.pair (.num i) c) = some v) :
    ∃ conv, computeConvergenceSequence ext a x s = .ok conv ∧ conv.getEndVector = .ok v := by
  classical
  obtain ⟨t0, ht0, hf⟩ := id hst
  obtain ⟨r0, m0, _⟩ := fromSequence_facts ht0
  obtain ⟨inv, -⟩ := convFold r0 hf
  have hnn := conv_nonneg inv
  obtain ⟨n1, n2⟩ := conv_nodes inv m0
  have hw1 : (1 : ℝ) ∈ st.weights := (zip_fst_mem hmem).2
  have hcw := convergenceWeights_saturated hnn hw1 (le_refl 1)
  have hlen : (indicator (· ≥ 1) st.weights).length = st.weights.length := indicator_length _ _
  have hzip : (st.nodes ++ [NodeId.num (-1)]).zip (convergenceWeights st.weights)
      = (st.nodes.zip st.weights).map (fun q => (q.1, if q.2 ≥ 1 then (1 : ℝ) else 0)) ++ [(.num (-1), 0)] := by
    rw [hcw, List.zip_append (by rw [hlen, inv.len])]
    congr 1
    unfold indicator
    rw [List.zip_map_right]
    apply List.map_congr_left
    intro q _
    rfl
  refine conv_reduce hst (v := v) ?_
  refine C21_one_hot st.tree (.num (-10)) inv.rooted hgood ext.argsort has NodeState.init _ _ ?_ n1 n2
    (.pair (.num i) c) ?_ ?_ v hdir
  · rw [hcw, List.length_append, List.length_append, hlen, inv.len]; rfl
  · rw [hzip]
    apply List.mem_append_left
    exact List.mem_map.mpr ⟨_, hmem, by simp⟩
  · intro p hpz hpn
    rw [hzip, List.mem_append, List.mem_singleton] at hpz
    rcases hpz with hpz | rfl
    · obtain ⟨q, hq, rfl⟩ := List.mem_map.mp hpz
      simp only at hpn ⊢
      rw [if_neg]
      intro hq1
      obtain ⟨j, t', c', o', d1, d2, d3, d4⟩ := inv.origin q hq
      obtain ⟨e1, e2⟩ := saturated_weight hw d4 hq1
      obtain ⟨rfl, rfl⟩ := hone j i t' t c' c o' o d1 hi d2 hc e1 e2 hp hg
      exact hpn d3
    · rfl

/-- C112 (partial): where exactly one component, other than the root, has full weight and everything else less, the
avoider converges to the direction which the dynamics (the default ones, if there are any) has at the reference point
of the root of the obstacle.

Missing: as for `C112_unit_partial`, and leaves with nearly (but not exactly) the direction of the parent. -/
theorem C112_component_partial (ext : Ext d k) (a : Avoider d) (x : Vec d) (s : RotSeq (Vec d)) (st : ConvState d)
    (hst : ConvergenceTree ext a x s st) (hgood : GoodDirections st.tree) (has : ArgsortSpec ext.argsort)
    (hw : WeightsAtMostOne a x) (hone : AtMostOneSaturated a x)
    (i : ℕ) (t : ObstacleTree d) (c : ℕ) (o root : Obstacle d) (hi : a.trees[i]? = some t)
    (hroot : t.components[t.rootIdx]? = some root) (hc : t.components[c]? = some o) (hcr : c ≠ t.rootIdx)
    (hp : a.convergence.projectedWeight x o = .ok 1) (hg : treeWeight a t = .ok 1)
    (hown : (convergenceOf a).ownSequence = none)
    (hdist : Distinguishable [referenceDirection root.referencePoint (convergenceOf a) none,
      (convergenceOf a).evaluate root.referencePoint]) :
    ∃ conv, computeConvergenceSequence ext a x s = .ok conv
      ∧ conv.getEndVector = .ok (unit ((convergenceOf a).evaluate root.referencePoint)) := by
  obtain ⟨t0, ht0, hf⟩ := id hst
  obtain ⟨r0, m0, _⟩ := fromSequence_facts ht0
  obtain ⟨inv, -⟩ := convFold r0 hf
  obtain ⟨root', s2, v, b1, b2, b3, b4, b5, b6, _⟩ := convFold_component r0 hf hi hg (by norm_num) hc hcr hp (by norm_num)
  rw [hroot] at b1
  cases b1
  obtain ⟨q, rfl, hon, hgp, hsec⟩ := initial_sequence hown b2 hdist
  rw [endVector_of_ne [q] (by simp)] at b3
  have hv : v = unit ((convergenceOf a).evaluate root.referencePoint) := by
    rw [← Except.ok.inj b3, ← hsec]; rfl
  have hvn : ‖v‖ = 1 := by
    rw [← Except.ok.inj b3]; exact second_unit hon
  rw [mul_one] at b6
  rw [← hv]
  refine saturated_mean hst hgood has hw hone hi hc hp hg b6 ?_
  have := (dir_eq inv.rooted b5).1
  rw [b4, unit_of_norm_one hvn] at this
  exact this

/-- C112 (partial): where the root of exactly one obstacle has full weight and everything else less, the
avoider converges to the direction which the dynamics (the default ones, if there are any) has at the reference point
of that obstacle, if the rotation towards the obstacle ends in the reference direction of that dynamics.

Missing: as for `C112_unit_partial`, and leaves with nearly (but not exactly) the direction of the parent. -/
theorem C112_contact_partial (ext : Ext d k) (a : Avoider d) (x : Vec d) (s : RotSeq (Vec d)) (st : ConvState d)
    (hst : ConvergenceTree ext a x s st) (hgood : GoodDirections st.tree) (has : ArgsortSpec ext.argsort)
    (hs : Proper s) (hw : WeightsAtMostOne a x) (hone : AtMostOneSaturated a x)
    (i : ℕ) (t : ObstacleTree d) (root : Obstacle d) (hi : a.trees[i]? = some t)
    (hroot : t.components[t.rootIdx]? = some root)
    (hp : a.convergence.projectedWeight x root = .ok 1) (hg : treeWeight a t = .ok 1)
    (o : Rot (Vec d)) (ho : a.convergence.positionToTransform x root = .ok (some o))
    (hoon : OrthonormalPair o.base.b0 o.base.b1)
    (hopair : GoodPair (s.head hs.ne).getFirstVector o.getSecondVector)
    (hoend : o.getSecondVector = unit (referenceDirection root.referencePoint (convergenceOf a) none))
    (hown : (convergenceOf a).ownSequence = none)
    (hdist : Distinguishable [referenceDirection root.referencePoint (convergenceOf a) none,
      (convergenceOf a).evaluate root.referencePoint]) :
    ∃ conv, computeConvergenceSequence ext a x s = .ok conv
      ∧ conv.getEndVector = .ok (unit ((convergenceOf a).evaluate root.referencePoint)) := by
  classical
  obtain ⟨t0, ht0, hf⟩ := id hst
  obtain ⟨r0, m0, _⟩ := fromSequence_facts ht0
  obtain ⟨inv, hobs⟩ := convFold r0 hf
  obtain ⟨root', w, trafo, conv, cont, v, b1, b2, b3, b4, b5, b6, b7, b8, b9⟩ :=
    hobs i t hi 1 hg (by norm_num)
  rw [hroot] at b1
  cases b1
  rw [hp] at b2
  cases b2
  rw [ho] at b3
  cases b3
  have hmem := b9 (by norm_num)
  rw [mul_one] at hmem
  -- the end of the reduction
  cases conv with
  | none => rw [C112_reduction_missing ext.argsort s hs o hoon 1 one_pos] at b5; cases b5
  | some s2 =>
    obtain ⟨q, rfl, hon, hgp, hsec⟩ := initial_sequence hown b4 hdist
    have hfirst : q.getFirstVector = unit (referenceDirection root.referencePoint (convergenceOf a) none) := by
      have := (C16_rotation root.referencePoint (convergenceOf a) none hown [q] b4).2.1
      simpa using this
    have hprop := proper_single hon hgp
    obtain ⟨s', _, v', c1, _, _, c4, c5, c6⟩ := C112_reduction hs hprop hoon hopair
      (by rw [hoend]; exact hfirst) ext.argsort has 1 one_pos (le_refl 1)
    rw [b5] at c1
    cases c1
    rw [b6] at c4
    cases c4
    have hv : v = unit ((convergenceOf a).evaluate root.referencePoint) := by
      have h1 := c6 rfl
      rw [endVector_of_ne [q] (by simp)] at h1
      rw [← Except.ok.inj h1, ← hsec]
      rfl
    have hun : unit v = v := unit_of_norm_one c5
    have hdir : st.tree.dir (.pair (.num i) t.rootIdx) = some v := by
      have := (dir_eq inv.rooted b8).1
      rw [b7, hun] at this
      exact this
    obtain ⟨conv, h1, h2⟩ := saturated_mean hst hgood has hw hone hi hroot hp hg hmem hdir
    exact ⟨conv, h1, by rw [h2, hv]⟩

/-- The weight of an obstacle that keeps the attractor outside of twice its size is one. -/
lemma treeWeight_far {a : Avoider d} {t : ObstacleTree d} {A : Vec d} (hA : a.initial.attractorPosition = some A)
    (hne : t.components ≠ []) (hfar : ∀ o ∈ t.components, 2 ≤ o.gamma A) : treeWeight a t = .ok 1 := by
  have hg : ∃ g, t.gamma A = .ok g ∧ 2 ≤ g := by
    cases hm : (t.components.map (fun o => o.gamma A)).min? with
    | none =>
      rw [List.min?_eq_none_iff, List.map_eq_nil_iff] at hm
      exact absurd hm hne
    | some g =>
      refine ⟨g, by unfold ObstacleTree.gamma; rw [hm], ?_⟩
      obtain ⟨o, ho, rfl⟩ := List.mem_map.mp (List.min?_mem hm)
      exact hfar o ho
  obtain ⟨g, hg, h2⟩ := hg
  unfold treeWeight
  rw [hA]
  simp only
  rw [hg]
  change Except.ok (computeTreeWeight (some g)) = _
  rw [(C31_range (some g) 2 (by norm_num)).2.2.2.2 g h2]

/-- C112 (partial): the same for the rotation around the attractor (`ProjectedRotationDynamics`).  Where the
projected weight of the root of exactly one obstacle is one, and the attractor is far from that obstacle, the
avoider converges to the direction of the dynamics at the reference point of the obstacle.

Missing: as for `C112_component_partial`; positions and reference points seen from the attractor in opposite directions or
in directions closer than the tolerance. -/
theorem C112_attractor_partial (ext : Ext d k) (a : Avoider d) (x A : Vec d) (s : RotSeq (Vec d)) (st : ConvState d)
    (hd : d ≤ 10 ^ 15) (hseq : evaluateDynamicsSequence x a.initial = .ok (some s))
    (hst : ConvergenceTree ext a x s st) (hgood : GoodDirections st.tree) (has : ArgsortSpec ext.argsort)
    (hown : a.initial.ownSequence = none) (hA : a.initial.attractorPosition = some A)
    (hown' : (convergenceOf a).ownSequence = none) (hA' : (convergenceOf a).attractorPosition = some A)
    (hrot : a.convergence.positionToTransform = Projected.rotationPositionToTransform A)
    (hw : WeightsAtMostOne a x) (hone : AtMostOneSaturated a x)
    (i : ℕ) (t : ObstacleTree d) (root : Obstacle d) (hi : a.trees[i]? = some t)
    (hroot : t.components[t.rootIdx]? = some root)
    (hp : a.convergence.projectedWeight x root = .ok 1) (hfar : ∀ o ∈ t.components, 2 ≤ o.gamma A)
    (hxA : x ≠ A) (hrA : root.referencePoint ≠ A) (hopp : ¬ Opposite (A - x) (A - root.referencePoint))
    (h1 : Distinguishable [A - x, a.initial.evaluate x]) (h2 : Distinguishable [A - x, A - root.referencePoint])
    (h3 : Distinguishable [A - root.referencePoint, (convergenceOf a).evaluate root.referencePoint]) :
    ∃ conv, computeConvergenceSequence ext a x s = .ok conv
      ∧ conv.getEndVector = .ok (unit ((convergenceOf a).evaluate root.referencePoint)) := by
  have href : referenceDirection x a.initial none = A - x := by
    unfold referenceDirection; rw [hA]
  have href' : referenceDirection root.referencePoint (convergenceOf a) none = A - root.referencePoint := by
    unfold referenceDirection; rw [hA']
  obtain ⟨q, rfl, hon, hgp, _⟩ := initial_sequence hown hseq (by rw [href]; exact h1)
  have hfirst : q.getFirstVector = unit (A - x) := by
    have := (C16_rotation x a.initial none hown [q] hseq).2.1
    rw [href] at this
    simpa using this
  have hout := C69_outcomes hd x root.referencePoint A
  obtain ⟨o, ho⟩ : ∃ o, Projected.rotationStartToEnd x root.referencePoint A = .ok (some o) := by
    cases h : Projected.rotationStartToEnd x root.referencePoint A with
    | error e => exact absurd ((hout.2 e).mp h).2.2 hrA
    | ok v =>
      cases v with
      | none =>
        rcases hout.1.mp h with h | h
        · exact absurd h hxA
        · exact absurd h.2 hopp
      | some o => exact ⟨o, rfl⟩
  obtain ⟨c1, c2, c3, c4⟩ := C69_rotation hd _ _ _ o ho
  have hsec : o.getSecondVector = unit (A - root.referencePoint) := by
    rw [← c4 h2, ← c2]
    simp [Rot.rotate, Rot.getSecondVector, Rot.getFirstVector]
  have hxA' : A - x ≠ 0 := sub_ne_zero.mpr hxA.symm
  have hrA' : A - root.referencePoint ≠ 0 := sub_ne_zero.mpr hrA.symm
  refine C112_contact_partial ext a x [q] st hst hgood has (proper_single hon hgp) hw hone i t root hi hroot hp
    (treeWeight_far hA (by rintro h; rw [h] at hroot; simp at hroot) hfar) o (by rw [hrot]; exact ho) c1 ?_
    (by rw [href', hsec]) hown' (by rw [href']; exact h3)
  change GoodPair q.getFirstVector _
  rw [hfirst, hsec]
  exact ⟨fun h => hopp (opposite_of_unit hxA' hrA' h), (List.isChain_cons_cons.mp h2).1⟩

end Verif
