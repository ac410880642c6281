import Verif.Lemmas.TreeCongr
import Verif.Lemmas.TreeOneHot
import Verif.Lemmas.TreeResult
import Verif.Props.TreeStructure

/-!
# Property theorems C20 – C27: reducing direction trees

Model: `Verif.Model.Tree` (vector_rotation.py:504-872).
Specification vocabulary: `Verif.Spec.Tree`, `Verif.Spec.Path`, `Verif.Spec.Geometry`
(`sphereLog`, `sphereExp`).

`argsort` stands for `np.argsort`, of which only `ArgsortSpec` is used; `st` are the node
attributes left behind by earlier reductions of the same tree.
-/

open Verif.Spec
open scoped RealInnerProductSpace

set_option linter.unusedSectionVars false

namespace Verif

variable {I : Type} [DecidableEq I] {d : ℕ}

/-! ### The concrete tree meets all hypotheses -/

lemma exTree_good : GoodDirections exTree := by
  intro p c h
  simp only [IsParent, exTree, List.mem_cons, Prod.mk.injEq, List.not_mem_nil, or_false] at h
  rcases h with ⟨rfl, rfl⟩ | ⟨rfl, rfl⟩
  · have e0 : dirOf exTree 0 = e3 0 := by simp [dirOf, exTree]
    have e1 : dirOf exTree 1 = e3 1 := by simp [dirOf, exTree]
    rw [e0, e1]
    exact ⟨e3_not_opposite (by decide), Or.inr (e3_not_allclose (by decide))⟩
  · have e0 : dirOf exTree 1 = e3 1 := by simp [dirOf, exTree]
    have e1 : dirOf exTree 2 = e3 2 := by simp [dirOf, exTree]
    rw [e0, e1]
    exact ⟨e3_not_opposite (by decide), Or.inr (e3_not_allclose (by decide))⟩

/-- A sorting function with the required property exists. -/
lemma argsort_exists : ∃ argsort : List ℤ → List ℕ, ArgsortSpec argsort := by
  refine ⟨fun l => (List.range l.length).mergeSort (fun i j => decide (l.getD i 0 ≤ l.getD j 0)),
    fun l => ⟨List.mergeSort_perm _ _, ?_⟩⟩
  rw [List.pairwise_map]
  have := List.pairwise_mergeSort (le := fun i j => decide (l.getD i 0 ≤ l.getD j 0))
    (fun a b c => by simp only [decide_eq_true_eq]; omega)
    (fun a b => by simp only [Bool.or_eq_true, decide_eq_true_eq]; omega)
    (List.range l.length)
  exact this.imp (by intro a b hab; simpa using hab)

/-! ## C20 -/

/-- C20: after the weights have been distributed, the weight of every node is the sum of
the weights given to the node and to all of its descendants.  Holds for arbitrary real
weights; if a node is listed twice the last entry counts. -/
theorem C20_branch_weights [Fact (2 ≤ d)] (t : Tree I d) (r : I) (h : RootedTree t r)
    (hno : ∀ p c, IsParent t p c → ¬ Opposite (dirOf t p) (dirOf t c))
    (argsort : List ℤ → List ℕ) (has : ArgsortSpec argsort) (st : NodeState I d)
    (ns : List I) (ws : List ℝ) (hns : ∀ n ∈ ns, n ∈ t.nodes) :
    ∃ sorted st', t.getNodesAscending argsort = .ok sorted
      ∧ t.updatePartialRotations st ns ws sorted = .ok st'
      ∧ ∀ n ∈ t.nodes, st'.weight n = branchWeight t (ns.zip ws) n := by
  obtain ⟨sorted, h1, hs⟩ := getNodesAscending_spec h has
  have hd : Defined t := by
    intro p c hp
    have hpn := (dir_eq h (h.edge_fst _ _ hp)).2
    have hcn := (dir_eq h (h.edge_snd _ _ hp)).2
    have hp0 : dirOf t p ≠ 0 := by intro h0; rw [h0] at hpn; simp at hpn
    have hc0 : dirOf t c ≠ 0 := by intro h0; rw [h0] at hcn; simp at hcn
    by_cases hc : allclose (unit (dirOf t p)) (unit (dirOf t c))
    · exact ⟨_, fromDirections_close hp0 hc0 hc⟩
    · exact ⟨_, fromDirections_far hp0 hc0 hc (hno p c hp)⟩
  obtain ⟨st', u1, u2, _⟩ := updatePartialRotations_spec h hd st ns ws
    (fun p hp => hns _ (zip_fst_mem hp).1) hs
  exact ⟨sorted, st', h1, u1, u2⟩

/-- C20: the root carries the total weight. -/
theorem C20_root_total (t : Tree I d) (r : I) (h : RootedTree t r) (ns : List I) (ws : List ℝ)
    (hlen : ns.length = ws.length) (hnd : ns.Nodup) (hns : ∀ n ∈ ns, n ∈ t.nodes) :
    branchWeight t (ns.zip ws) r = ws.sum := by
  rw [branchWeight_root h, List.map_snd_zip (by omega)]
  · rw [List.map_fst_zip (by omega)]; exact hnd
  · intro p hp; exact hns _ (zip_fst_mem hp).1

/-- C20: with distinct nodes, the given weight of a node is the entry of the list. -/
theorem C20_given (ns : List I) (ws : List ℝ) (hlen : ns.length = ws.length) (hnd : ns.Nodup)
    (i : ℕ) (hi : i < ns.length) :
    givenWeight (ns.zip ws) ns[i] = ws[i]'(by omega) := by
  have hm : (ns[i], ws[i]'(by omega)) ∈ ns.zip ws := by
    have hz : i < (ns.zip ws).length := by rw [List.length_zip]; omega
    have := List.getElem_mem hz
    rwa [List.getElem_zip] at this
  exact givenWeight_of_mem (by rw [List.map_fst_zip (by omega)]; exact hnd) hm

/-- C20 is not vacuous: in `0 → 1 → 2` with weights `0.25` for `1` and `0.5` for `2`, the
branch of node `1` weighs `0.75`. -/
example : branchWeight exTree ([1, 2].zip [0.25, 0.5]) 1 = 0.75
    ∧ RootedTree exTree 0
    ∧ (∀ p c, IsParent exTree p c → ¬ Opposite (dirOf exTree p) (dirOf exTree c))
    ∧ ∃ a, ArgsortSpec a := by
  refine ⟨?_, exTree_rooted, fun p c hp => (exTree_good p c hp).1, argsort_exists⟩
  have e2 : branchWeight exTree ([1, 2].zip [0.25, 0.5]) 2 = 0.5 := by
    rw [branchWeight_eq exTree_rooted _ (by simp [exTree])]
    have : exTree.successors 2 = [] := by simp [Tree.successors, exTree]
    rw [this]; simp [givenWeight]
  rw [branchWeight_eq exTree_rooted _ (by simp [exTree])]
  have : exTree.successors 1 = [2] := by simp [Tree.successors, exTree]
  rw [this]
  simp only [List.toFinset_cons, List.toFinset_nil, insert_empty_eq, Finset.sum_singleton, e2]
  simp [givenWeight]; norm_num

/-! ## C21 -/

/-- C21: full weight on one node returns the direction stored for this node, for every
tree, every node and whatever earlier reductions left behind. -/
theorem C21_full_weight [Fact (2 ≤ d)] (t : Tree I d) (r : I) (h : RootedTree t r)
    (hg : GoodDirections t) (argsort : List ℤ → List ℕ) (has : ArgsortSpec argsort)
    (st : NodeState I d) (n : I) (v : Vec d) (hn : t.dir n = some v) :
    t.getWeightedMean argsort st [n] [1] = .ok v := by
  have hmem : n ∈ t.nodes := by
    by_contra hc
    rw [(h.no_attr n hc).2] at hn; cases hn
  rw [one_hot_mean h hg has st n hmem]
  simp [dirOf, hn]

/-- C21: the same with further nodes of weight zero. -/
theorem C21_one_hot [Fact (2 ≤ d)] (t : Tree I d) (r : I) (h : RootedTree t r)
    (hg : GoodDirections t) (argsort : List ℤ → List ℕ) (has : ArgsortSpec argsort)
    (st : NodeState I d) (ns : List I) (ws : List ℝ) (hl : ns.length = ws.length)
    (hnd : ns.Nodup) (hns : ∀ n ∈ ns, n ∈ t.nodes) (n : I) (h1 : (n, (1 : ℝ)) ∈ ns.zip ws)
    (h0 : ∀ p ∈ ns.zip ws, p.1 ≠ n → p.2 = 0) (v : Vec d) (hn : t.dir n = some v) :
    t.getWeightedMean argsort st ns ws = .ok v := by
  rw [← C21_full_weight t r h hg argsort has st n v hn]
  unfold Tree.getWeightedMean
  rw [one_hot_reduce argsort t st ns ws hl hnd hns n h1 h0]

example : RootedTree exTree 0 ∧ GoodDirections exTree ∧ (∃ a, ArgsortSpec a)
    ∧ exTree.dir 2 = some (e3 2) :=
  ⟨exTree_rooted, exTree_good, argsort_exists, by simp [exTree]⟩

/-! ## C22 -/

/-- C22: the weighted mean is a unit vector, for non-negative weights that are not all zero
and sum up to at most one on every branch below the root. -/
theorem C22_unit [Fact (2 ≤ d)] (t : Tree I d) (r : I) (h : RootedTree t r)
    (hg : InnerDirections t) (argsort : List ℤ → List ℕ) (has : ArgsortSpec argsort)
    (st : NodeState I d) (ns : List I) (ws : List ℝ) (hlen : ns.length = ws.length)
    (hns : ∀ n ∈ ns, n ∈ t.nodes) (hw : ∀ w ∈ ws, 0 ≤ w)
    (hle : ∀ n ∈ t.nodes, n ≠ r → branchWeight t (ns.zip ws) n ≤ 1)
    (hpos : 0 < branchWeight t (ns.zip ws) r) :
    ∃ v, t.getWeightedMean argsort st ns ws = .ok v ∧ ‖v‖ = 1 := by
  have ha : Args t r ns ws := ⟨hlen, hns, hw, hle⟩
  obtain ⟨L, hL⟩ := exists_deepest h (ha.good h) (ne_of_gt hpos)
  obtain ⟨sorted, S, R, _, _, _, _, g5, g6, g7⟩ := mean_spec h hg has st ha rfl L hL
  exact ⟨_, g7, (g5.second_bound g6).2⟩

/-- C22 in the usual form: distinct nodes, non-negative weights, sum one. -/
theorem C22_unit_convex [Fact (2 ≤ d)] (t : Tree I d) (r : I) (h : RootedTree t r)
    (hg : InnerDirections t) (argsort : List ℤ → List ℕ) (has : ArgsortSpec argsort)
    (st : NodeState I d) (ns : List I) (ws : List ℝ) (hlen : ns.length = ws.length)
    (hnd : ns.Nodup) (hns : ∀ n ∈ ns, n ∈ t.nodes) (hw : ∀ w ∈ ws, 0 ≤ w)
    (hpos : 0 < ws.sum) (hle : ws.sum ≤ 1) :
    ∃ v, t.getWeightedMean argsort st ns ws = .ok v ∧ ‖v‖ = 1 := by
  have hr := C20_root_total t r h ns ws hlen hnd hns
  refine C22_unit t r h hg argsort has st ns ws hlen hns hw ?_ (by rw [hr]; exact hpos)
  intro n hn _
  refine le_trans (branchWeight_le_root h _ (fun p hp => hw _ (zip_fst_mem hp).2) hn) ?_
  rw [hr]; exact hle

example : RootedTree exTree 0 ∧ InnerDirections exTree ∧ (∃ a, ArgsortSpec a)
    ∧ [1, 2].length = [(0.25 : ℝ), 0.5].length ∧ [1, 2].Nodup
    ∧ (∀ n ∈ [1, 2], n ∈ exTree.nodes) ∧ (∀ w ∈ [(0.25 : ℝ), 0.5], 0 ≤ w)
    ∧ 0 < [(0.25 : ℝ), 0.5].sum ∧ [(0.25 : ℝ), 0.5].sum ≤ 1 := by
  refine ⟨exTree_rooted, exTree_good.inner, argsort_exists, rfl, by decide, by simp [exTree], ?_, ?_, ?_⟩
  · intro w hw; simp at hw; rcases hw with rfl | rfl <;> norm_num
  · norm_num
  · norm_num

/-! ## C25 (used by C23) -/

/-- C25: different numbers of nodes and weights raise `ValueError`. -/
theorem C25_length [Fact (2 ≤ d)] (t : Tree I d) (argsort : List ℤ → List ℕ)
    (st : NodeState I d) (ns : List I) (ws : List ℝ) (h : ns.length ≠ ws.length) :
    t.reduceWeightedToSequence argsort st ns ws = .error .valueError := by
  unfold Tree.reduceWeightedToSequence; rw [if_pos h]

/-- C25: an unknown node raises `KeyError`. -/
theorem C25_unknown_node [Fact (2 ≤ d)] (t : Tree I d) (r : I) (h : RootedTree t r)
    (argsort : List ℤ → List ℕ) (has : ArgsortSpec argsort) (st : NodeState I d)
    (ns : List I) (ws : List ℝ) (hlen : ns.length = ws.length) (n : I) (hn : n ∈ ns)
    (hnot : n ∉ t.nodes) : t.reduceWeightedToSequence argsort st ns ws = .error .keyError := by
  obtain ⟨sorted, h1, hs⟩ := getNodesAscending_spec h has
  obtain ⟨i, hi, rfl⟩ := List.getElem_of_mem hn
  have hm : (ns[i], ws[i]'(by omega)) ∈ ns.zip ws := by
    have hz : i < (ns.zip ws).length := by rw [List.length_zip]; omega
    have := List.getElem_mem hz
    rwa [List.getElem_zip] at this
  unfold Tree.reduceWeightedToSequence
  rw [if_neg (by simp [hlen]), h1]
  simp only [bind, Except.bind]
  unfold Tree.updatePartialRotations Tree.assignWeights
  rw [assign_fold_error t (ns.zip ws) _ hm hnot]
  rfl

lemma assign_zero (t : Tree I d) (l : List (I × ℝ)) (hl : ∀ p ∈ l, p.2 = 0)
    (st st' : NodeState I d) (h0 : st.weight = fun _ => 0)
    (hok : l.foldlM (fun (st : NodeState I d) p =>
        if p.1 ∈ t.nodes then
          (.ok { st with weight := Function.update st.weight p.1 p.2 } : Except PyErr _)
        else .error .keyError) st = .ok st') : st'.weight = fun _ => 0 := by
  induction l generalizing st with
  | nil => simp only [List.foldlM_nil, pure, Except.pure, Except.ok.injEq] at hok; rw [← hok, h0]
  | cons p l ih =>
    rw [List.foldlM_cons] at hok
    split_ifs at hok with hp
    · simp only [bind, Except.bind] at hok
      refine ih (fun q hq => hl q (List.mem_cons_of_mem _ hq)) _ ?_ hok
      simp only [h0, hl p List.mem_cons_self]
      funext x
      by_cases hx : x = p.1
      · subst hx; simp
      · simp [hx]
    · cases hok

lemma foldlM_weight {α : Type} (f : NodeState I d → α → Except PyErr (NodeState I d))
    (hf : ∀ st a st', f st a = .ok st' → st.weight = (fun _ => 0) → st'.weight = fun _ => 0)
    (l : List α) (st st' : NodeState I d) (h0 : st.weight = fun _ => 0)
    (hok : l.foldlM f st = .ok st') : st'.weight = fun _ => 0 := by
  induction l generalizing st with
  | nil => simp only [List.foldlM_nil, pure, Except.pure, Except.ok.injEq] at hok; rw [← hok, h0]
  | cons a l ih =>
    rw [List.foldlM_cons] at hok
    cases hfa : f st a with
    | error e => rw [hfa] at hok; cases hok
    | ok s1 =>
      rw [hfa] at hok
      exact ih s1 (hf _ _ _ hfa h0) hok

lemma orientStep_weight [Fact (2 ≤ d)] (t : Tree I d) (st : NodeState I d) (e : I × I)
    (st' : NodeState I d) (h : t.orientStep st e = .ok st') : st'.weight = st.weight := by
  unfold Tree.orientStep at h
  split at h
  · split at h
    · cases h
    · rw [← Except.ok.inj h]
  · cases h

lemma partialStep_zero (t : Tree I d) (st : NodeState I d) (n : I) (st' : NodeState I d)
    (h : t.partialStep st n = .ok st') (h0 : st.weight = fun _ => 0) :
    st'.weight = fun _ => 0 := by
  have hz : (t.predecessors n).foldl (fun w p => Function.update w p (w p + w n)) st.weight
      = fun _ => (0 : ℝ) := by
    rw [h0]
    generalize t.predecessors n = l
    induction l with
    | nil => rfl
    | cons p l ih =>
      rw [List.foldl_cons]
      have : Function.update (fun _ : I => (0 : ℝ)) p (0 + 0) = fun _ => 0 := by
        funext x
        by_cases hx : x = p
        · subst hx; simp
        · simp [hx]
      rw [this]; exact ih
  unfold Tree.partialStep at h
  simp only [hz] at h
  split at h
  · cases h
  · rw [if_pos (Or.inl (le_refl _))] at h
    rw [← Except.ok.inj h]

lemma sumLevel_zero (t : Tree I d) (sorted : List I) (ls : List ℤ) (s : Tree.SumState I d) :
    ls.foldlM (t.sumLevel (fun _ => 0) sorted) s = .ok s := by
  induction ls with
  | nil => rfl
  | cons l ls ih =>
    have : t.sumLevel (fun _ => 0) sorted s l = .ok s := by
      unfold Tree.sumLevel; simp
    rw [List.foldlM_cons, this]; exact ih

/-- C25: if all weights are zero no sequence is returned, for every object (rooted or not). -/
theorem C25_all_zero [Fact (2 ≤ d)] (t : Tree I d) (argsort : List ℤ → List ℕ)
    (st : NodeState I d) (ns : List I) (ws : List ℝ) (hw : ∀ w ∈ ws, w = 0)
    (s : RotSeq (Vec d)) : t.reduceWeightedToSequence argsort st ns ws ≠ .ok s := by
  intro hok
  unfold Tree.reduceWeightedToSequence at hok
  split_ifs at hok
  cases h1 : t.getNodesAscending argsort with
  | error e => rw [h1] at hok; cases hok
  | ok sorted =>
    rw [h1] at hok
    simp only [bind, Except.bind] at hok
    cases h3 : t.updatePartialRotations st ns ws sorted with
    | error e => rw [h3] at hok; cases hok
    | ok st3 =>
      rw [h3] at hok
      simp only at hok
      have hz : st3.weight = fun _ => 0 := by
        unfold Tree.updatePartialRotations at h3
        cases h4 : t.assignWeights st ns ws with
        | error e => rw [h4] at h3; cases h3
        | ok st4 =>
          have z4 := assign_zero t (ns.zip ws) (fun p hp => hw _ (zip_fst_mem hp).2) _ st4 rfl h4
          rw [h4] at h3
          simp only [bind, Except.bind] at h3
          cases h5 : t.evaluateAllOrientations st4 sorted with
          | error e => rw [h5] at h3; cases h3
          | ok st5 =>
            rw [h5] at h3
            simp only at h3
            have z5 : st5.weight = fun _ => 0 := by
              unfold Tree.evaluateAllOrientations at h5
              split at h5
              · cases h5
              · split at h5
                · cases h5
                · split at h5
                  · cases h5
                  · refine foldlM_weight (t.orientStep) (fun a b c hh h0 => by
                      rw [orientStep_weight t a b c hh, h0]) _ _ _ ?_ h5
                    exact z4
            exact foldlM_weight _ (fun a b c hh h0 => partialStep_zero t a b c hh h0) _ _ _ z5 h3
      unfold Tree.evaluateGraphSumming at hok
      rw [hz, sumLevel_zero] at hok
      cases hok

/-- C25: on a tree without opposite neighbours the outcome for zero weights is
`UnboundLocalError`. -/
theorem C25_all_zero_error [Fact (2 ≤ d)] (t : Tree I d) (r : I) (h : RootedTree t r)
    (hg : ∀ p c, IsParent t p c → ¬ Opposite (dirOf t p) (dirOf t c)) (argsort : List ℤ → List ℕ) (has : ArgsortSpec argsort)
    (st : NodeState I d) (ns : List I) (ws : List ℝ) (hlen : ns.length = ws.length)
    (hns : ∀ n ∈ ns, n ∈ t.nodes) (hw : ∀ n ∈ t.nodes, branchWeight t (ns.zip ws) n = 0) :
    t.reduceWeightedToSequence argsort st ns ws = .error .unboundLocal := by
  obtain ⟨sorted, h1, hs⟩ := getNodesAscending_spec h has
  obtain ⟨st', u1, u2, _⟩ := updatePartialRotations_spec h (defined_of_notOpposite h hg) st ns ws
    (fun p hp => hns _ (zip_fst_mem hp).1) hs
  unfold Tree.reduceWeightedToSequence
  rw [if_neg (by simp [hlen]), h1]
  simp only [bind, Except.bind, u1]
  have hz : ∀ (ls : List ℤ) (s : Tree.SumState I d),
      ls.foldlM (t.sumLevel st'.weight sorted) s = .ok s := by
    intro ls s
    induction ls with
    | nil => rfl
    | cons l ls ih =>
      have : t.sumLevel st'.weight sorted s l = .ok s := by
        have hf : sorted.filter (fun n => t.level n = some l ∧ st'.weight n ≠ 0) = [] := by
          rw [List.filter_eq_nil_iff]
          intro n hn
          have hnn := hs.mem_iff.mp hn
          simp [u2 n hnn, hw n hnn]
        unfold Tree.sumLevel; simp only [hf]
      rw [List.foldlM_cons, this]; exact ih
  unfold Tree.evaluateGraphSumming
  rw [hz]; rfl

example : RootedTree exTree 0 ∧ (∃ a, ArgsortSpec a) ∧ 7 ∈ [1, 7] ∧ 7 ∉ exTree.nodes
    ∧ [1, 7].length = [(0 : ℝ), 1].length ∧ ∀ w ∈ [(0 : ℝ), 0], w = 0 :=
  ⟨exTree_rooted, argsort_exists, by simp, by simp [exTree], rfl, by simp⟩

/-- C25: a tree with a node exactly opposite to its parent cannot be reduced: whatever the weights (also if all weight is
elsewhere), the call stops at a `breakpoint()`. -/
theorem C25_opposite [Fact (2 ≤ d)] (hd : d ≤ 10 ^ 15) (t : Tree I d) (r : I) (h : RootedTree t r)
    (argsort : List ℤ → List ℕ) (has : ArgsortSpec argsort) (st : NodeState I d) (ns : List I) (ws : List ℝ)
    (hlen : ns.length = ws.length) (hns : ∀ n ∈ ns, n ∈ t.nodes) (p c : I) (hp : IsParent t p c)
    (ho : Opposite (dirOf t p) (dirOf t c)) :
    t.reduceWeightedToSequence argsort st ns ws = .error .breakpoint := by
  have hu : dirOf t p ≠ 0 := fun h0 => by
    have := (dir_eq h (h.edge_fst _ _ hp)).2
    rw [h0, norm_zero] at this; norm_num at this
  have hv : dirOf t c ≠ 0 := fun h0 => by
    have := (dir_eq h (h.edge_snd _ _ hp)).2
    rw [h0, norm_zero] at this; norm_num at this
  exact reduce_undefined h has st ns ws hlen hns hp
    (fromDirections_opposite hu hv (opposite_not_allclose hd hu hv ho) ho)

/-- The hypotheses of `C25_opposite` are met: a fourth node opposite to its parent. -/
example : ∃ t : Tree ℕ 3, RootedTree t 0 ∧ (∃ a, ArgsortSpec a) ∧ 3 ≤ 10 ^ 15 ∧ (∀ n ∈ [1, 2], n ∈ t.nodes)
    ∧ IsParent t 2 3 ∧ Opposite (dirOf t 2) (dirOf t 3) := by
  have hok : (exTree.addNode 3 (-e3 2) (some 2)).2 = .ok () :=
    (addNode_ok_iff exTree 0 exTree_rooted 3 2 (-e3 2)).mpr
      ⟨neg_ne_zero.mpr (e3_ne_zero 2), by simp [exTree], by simp [exTree], 2, by simp [exTree], by norm_num⟩
  obtain ⟨h1, h2, h3, h4, _⟩ := C17_add_node_effect exTree 0 exTree_rooted 3 2 (-e3 2) hok
  refine ⟨_, C17_add_node exTree 0 exTree_rooted 3 2 (-e3 2) hok, argsort_exists, by norm_num, ?_, ?_, 1, one_pos, ?_⟩
  · rw [h1]; simp [exTree]
  · unfold IsParent; rw [h2]; simp
  · have hn : ‖-e3 2‖ = 1 := by simp [e3]
    unfold dirOf
    rw [h3, (h4 2 (by norm_num)).1, unit_of_norm_one hn]
    simp [exTree]

/-! ## C23 -/

/-- C23: two trees that differ only in the directions of nodes whose branches carry no weight
give the same reduction (sequence or error) and the same mean.  The attributes left behind
by earlier reductions may differ as well. -/
theorem C23_no_influence [Fact (2 ≤ d)] (t t' : Tree I d) (r : I) (h : RootedTree t r)
    (h' : RootedTree t' r) (hg : InnerDirections t) (hg' : InnerDirections t')
    (hnodes : t'.nodes = t.nodes) (hedges : t'.edges = t.edges) (hlevel : t'.level = t.level)
    (argsort : List ℤ → List ℕ) (has : ArgsortSpec argsort)
    (st st' : NodeState I d) (ns : List I) (ws : List ℝ) (hlen : ns.length = ws.length)
    (hns : ∀ n ∈ ns, n ∈ t.nodes) (hw : ∀ w ∈ ws, 0 ≤ w)
    (hle : ∀ n ∈ t.nodes, n ≠ r → branchWeight t (ns.zip ws) n ≤ 1)
    (hdir : ∀ n ∈ t.nodes, branchWeight t (ns.zip ws) n ≠ 0 → t'.dir n = t.dir n) :
    t'.reduceWeightedToSequence argsort st' ns ws = t.reduceWeightedToSequence argsort st ns ws
    ∧ t'.getWeightedMean argsort st' ns ws = t.getWeightedMean argsort st ns ws := by
  classical
  suffices hmain : t'.reduceWeightedToSequence argsort st' ns ws
      = t.reduceWeightedToSequence argsort st ns ws by
    refine ⟨hmain, ?_⟩
    unfold Tree.getWeightedMean; rw [hmain]
  have hpar : ∀ a b, IsParent t a b ↔ IsParent t' a b := by
    intro a b; unfold IsParent; rw [hedges]
  have hdesc : ∀ a b, Descendant t a b ↔ Descendant t' a b := by
    intro a b
    unfold Descendant
    have : IsParent t = IsParent t' := by funext a b; exact propext (hpar a b)
    rw [this]
  have hW : branchWeight t' (ns.zip ws) = branchWeight t (ns.zip ws) := by
    funext n
    unfold branchWeight
    rw [hnodes]
    congr 1
    ext m
    simp only [Finset.mem_filter, hdesc]
  have hlev : ∀ n, RootedTree.lev t' n = RootedTree.lev t n := by
    intro n; unfold RootedTree.lev; rw [hlevel]
  have ha : Args t r ns ws := ⟨hlen, hns, hw, hle⟩
  have ha' : Args t' r ns ws := ⟨hlen, by rw [hnodes]; exact hns, hw, by
    rw [hnodes, hW]; exact hle⟩
  have hgw := ha.good h
  by_cases hr : branchWeight t (ns.zip ws) r = 0
  · have hz : ∀ n ∈ t.nodes, branchWeight t (ns.zip ws) n = 0 := by
      intro n hn
      have := branchWeight_le_root h (ns.zip ws) ha.zip_nonneg hn
      rw [hr] at this
      exact le_antisymm this (hgw.nonneg n)
    rw [C25_all_zero_error t r h (fun p c hp => (hg p c hp).1) argsort has st ns ws hlen hns hz,
      C25_all_zero_error t' r h' (fun p c hp => (hg' p c hp).1) argsort has st' ns ws hlen (by rw [hnodes]; exact hns)
        (by rw [hnodes, hW]; exact hz)]
  set W := branchWeight t (ns.zip ws) with hWdef
  obtain ⟨L, hL⟩ := exists_deepest h hgw hr
  have hL' : ∀ l : ℤ, (∃ n ∈ t'.nodes, RootedTree.lev t' n = l ∧ W n ≠ 0)
      ↔ 0 ≤ l ∧ l < (L + 1 : ℕ) := by
    intro l; rw [← hL l, hnodes]; simp only [hlev]
  obtain ⟨sorted, S, R, g0, g1, _, g3, g4, g5, _, g7⟩ := reduce_spec h hg has st ha hWdef.symm L hL
  obtain ⟨sorted', S', R', k0, k1, _, k3, k4, k5, _, k7⟩ :=
    reduce_spec h' hg' has st' ha' hW L hL'
  have hsort : sorted' = sorted := by
    have : t'.getNodesAscending argsort = t.getNodesAscending argsort := by
      unfold Tree.getNodesAscending; rw [hnodes, hlevel]
    rw [g0, k0] at this
    exact Except.ok.inj this
  subst hsort
  have hWr : ∀ p c, IsParent t p c → W c ≠ 0 → W p ≠ 0 := hgw.mono'
  have hWnode : ∀ n, W n ≠ 0 → n ∈ t.nodes := by
    intro n hn
    by_contra hc
    apply hn
    rw [hWdef, branchWeight]
    apply Finset.sum_eq_zero
    intro m hm
    rw [Finset.mem_filter, List.mem_toFinset] at hm
    rcases hm.2 with e | e
    · rw [e] at hm; exact absurd hm.1 hc
    · exact absurd (h.desc_mem_left e) hc
  have hdirOf : ∀ n, W n ≠ 0 → dirOf t' n = dirOf t n := by
    intro n hn; unfold dirOf; rw [hdir n (hWnode n hn) hn]
  have hO := orientOf_isOrient h (inner_defined h hg)
  have hO' := orientOf_isOrient h' (inner_defined h' hg')
  have hOeq : ∀ n, W n ≠ 0 → orientOf t r n = orientOf t' r n := by
    intro n hn
    by_cases hnr : n = r
    · subst hnr; rw [hO.root, hO'.root, hdirOf n hn]
    · obtain ⟨p, hp⟩ := h.has_parent n (hWnode n hn) hnr
      have e1 := hO.child p n hp
      have e2 := hO'.child p n ((hpar p n).mp hp)
      rw [hdirOf n hn, hdirOf p (hWr p n hp hn), e1] at e2
      exact Option.some.inj e2
  have hq : ∀ m, W m ≠ 0 → partOf t W (orientOf t r) sorted' m
      = partOf t' W (orientOf t' r) sorted' m := fun m hm =>
    partOf_congr hdesc hOeq sorted' m hm
  have hcong := levelsUpTo_congr (sorted := sorted') hdesc hlevel.symm _ _ hq L
  have hids : idsAt t' W sorted' L = idsAt t W sorted' L := by
    unfold idsAt; rw [hlevel]
  have hidsW : ∀ n ∈ idsAt t W sorted' L, W n ≠ 0 := fun n hn => ((mem_idsAt h g1).mp hn).2.2
  obtain ⟨n0, hn0, hn0l, hn0W⟩ := (hL L).mpr ⟨by positivity, by push_cast; omega⟩
  have hS : S' = S := by
    rw [← g3.level.shared n0 hn0 hn0l hn0W, hcong.1 n0 hn0W]
    exact (k3.level.shared n0 (by rw [hnodes]; exact hn0) (by rw [hlev]; exact hn0l) hn0W).symm
  have hR : R' = R := by
    rw [g4, k4, hids, hS]
    have hm : meanOf (levelsUpTo t' W sorted' ⟨partOf t' W (orientOf t' r) sorted', [], none⟩ L).q
        (idsAt t W sorted' L)
      = meanOf (levelsUpTo t W sorted' ⟨partOf t W (orientOf t r) sorted', [], none⟩ L).q
        (idsAt t W sorted' L) := by
      unfold meanOf
      congr 1
      apply List.map_congr_left
      intro n hn
      rw [hcong.1 n (hidsW n hn)]
    unfold levelRot
    rw [hm]
  rw [g7, k7, hR, hids, hcong.2.1]
  simp only [hdesc]

/-- C23 is not vacuous: the direction of node `2` of the concrete tree may be replaced when
all weight is on node `1`. -/
example : ∃ t' : Tree ℕ 3, RootedTree t' 0 ∧ GoodDirections t' ∧ t'.dir 2 ≠ exTree.dir 2
    ∧ t'.nodes = exTree.nodes ∧ t'.edges = exTree.edges ∧ t'.level = exTree.level
    ∧ ∀ n ∈ exTree.nodes, branchWeight exTree ([1].zip [(1 : ℝ)]) n ≠ 0 → t'.dir n = exTree.dir n := by
  classical
  have hr := exTree_rooted
  refine ⟨{ exTree with dir := Function.update exTree.dir 2 (some (e3 0)) },
    ⟨hr.nodup, hr.root_first, hr.root_idx, hr.edge_fst, hr.edge_snd, hr.one_parent, hr.has_parent,
      hr.root_no_parent, hr.parent_before, hr.root_level, hr.child_level, hr.level_bound, ?_, ?_⟩,
    ?_, ?_, rfl, rfl, rfl, ?_⟩
  · intro n hn
    by_cases h2 : n = 2
    · subst h2; exact ⟨e3 0, by simp, by simp [e3]⟩
    · simp only [Function.update_of_ne h2]; exact hr.unit_dir n hn
  · intro n hn
    refine ⟨(hr.no_attr n hn).1, ?_⟩
    have h2 : n ≠ 2 := by rintro rfl; exact hn (by simp [exTree])
    simp only [Function.update_of_ne h2]; exact (hr.no_attr n hn).2
  · intro p c hp
    simp only [IsParent, exTree, List.mem_cons, Prod.mk.injEq, List.not_mem_nil, or_false] at hp
    rcases hp with ⟨rfl, rfl⟩ | ⟨rfl, rfl⟩
    · simp only [dirOf, exTree]
      simp only [ne_eq, OfNat.zero_ne_ofNat, not_false_eq_true, Function.update_of_ne, if_true,
        Option.getD_some, OfNat.one_ne_ofNat, one_ne_zero, if_false]
      exact ⟨e3_not_opposite (by decide), Or.inr (e3_not_allclose (by decide))⟩
    · simp only [dirOf, exTree]
      simp only [ne_eq, not_false_eq_true, Function.update_of_ne, if_true,
        Option.getD_some, OfNat.one_ne_ofNat, one_ne_zero, if_false, Function.update_self]
      exact ⟨e3_not_opposite (by decide), Or.inr (e3_not_allclose (by decide))⟩
  · simp only [Function.update_self, exTree]
    intro hh
    simp only [OfNat.ofNat_ne_zero, OfNat.ofNat_ne_one, if_false, if_true, Option.some.injEq] at hh
    have := congrArg (fun v : Vec 3 => v 0) hh
    simp [e3] at this
  · intro n hn hw
    by_cases h2 : n = 2
    · subst h2
      exfalso; apply hw
      rw [branchWeight_one 1 2 (by simp [exTree]), if_neg]
      rintro (e | e)
      · norm_num at e
      · have := hr.lev_desc e
        simp [RootedTree.lev, exTree] at this
    · simp only [Function.update_of_ne h2]

end Verif
