import Verif.Props.TreeMean

/-!
# C139: reading and applying a tree of directions

`get_children` is modelled by `Tree.successors` (vector_rotation.py:443-445).
-/

namespace Verif
open Spec

variable {d : ℕ} {I : Type} [DecidableEq I]

lemma setRoot_edges [Fact (2 ≤ d)] {r : I} {v : Vec d} {t : Tree I d}
    (h : (Tree.empty : Tree I d).setRoot r v = .ok t) : t.edges = [] := by
  unfold Tree.setRoot at h
  cases hf : fromDirections v v with
  | none => rw [hf] at h; cases h
  | some o =>
    rw [hf] at h
    cases h
    simp [Tree.setRootOrientation, Tree.setAttr, Tree.touch, Tree.empty]

/-- The edges after a history of calls. -/
lemma history_edges {r : I} (calls : List (I × Vec d × I)) : ∀ {t0 t : Tree I d}, RootedTree t0 r →
    calls.foldlM addCall t0 = some t → t.edges = t0.edges ++ calls.map (fun c => (c.2.2, c.1)) := by
  induction calls with
  | nil => intro t0 t _ h; simp at h; subst h; simp
  | cons c calls ih =>
    intro t0 t hr h
    rw [List.foldlM_cons] at h
    cases hc : addCall t0 c with
    | none => rw [hc] at h; cases h
    | some t1 =>
      rw [hc] at h
      unfold addCall at hc
      rcases hx : t0.addNode c.1 c.2.1 (some c.2.2) with ⟨t', e | u⟩
      · rw [hx] at hc; cases hc
      · rw [hx] at hc
        have ht : t' = t1 := Option.some.inj hc
        have h1 := C17_add_node t0 r hr c.1 c.2.2 c.2.1 (by rw [hx])
        have h2 := (C17_add_node_effect t0 r hr c.1 c.2.2 c.2.1 (by rw [hx])).2.1
        rw [hx] at h1 h2
        subst ht
        rw [ih h1 h, h2, List.map_cons, List.append_assoc]
        rfl

/-- C139: after `set_root` and every history of successful `add_node` calls, `get_children` of a node lists exactly the
nodes that were added with this node as their parent, in the order of the calls. -/
theorem C139_children [Fact (2 ≤ d)] (r : I) (v : Vec d) (t0 t : Tree I d)
    (h0 : (Tree.empty : Tree I d).setRoot r v = .ok t0) (calls : List (I × Vec d × I))
    (h : calls.foldlM addCall t0 = some t) (p : I) :
    t.successors p = (calls.filter (fun c => c.2.2 = p)).map Prod.fst := by
  unfold Tree.successors
  rw [history_edges calls (C17_set_root r v t0 h0) h, setRoot_edges h0, List.nil_append, List.filter_map, List.map_map]
  rfl

/-- C139: violated by the code.  After every history `get_parent` raises `TypeError` for every node, with or without a
parent, because it subscripts an iterator. -/
theorem C139_parent_fails [Fact (2 ≤ d)] (r : I) (v : Vec d) (t0 t : Tree I d)
    (h0 : (Tree.empty : Tree I d).setRoot r v = .ok t0) (calls : List (I × Vec d × I))
    (h : calls.foldlM addCall t0 = some t) :
    t.getParent r = .error .typeError ∧ ∀ c ∈ calls, t.getParent c.1 = .error .typeError := by
  have hr := C17_history r v t0 t h0 calls h
  have hmem : ∀ n ∈ t.nodes, t.getParent n = .error .typeError := by
    intro n hn
    unfold Tree.getParent
    rw [if_pos hn]
  refine ⟨hmem _ hr.root_mem, fun c hc => hmem _ (hr.edge_snd c.2.2 c.1 ?_)⟩
  change (c.2.2, c.1) ∈ t.edges
  rw [history_edges calls (C17_set_root r v t0 h0) h, List.mem_append]
  exact Or.inr (List.mem_map.mpr ⟨c, hc, rfl⟩)

/-- C139: for a node which was never added `get_parent` raises, too (`NetworkXError`). -/
theorem C139_parent_unknown [Fact (2 ≤ d)] (r : I) (v : Vec d) (t0 t : Tree I d)
    (h0 : (Tree.empty : Tree I d).setRoot r v = .ok t0) (calls : List (I × Vec d × I))
    (h : calls.foldlM addCall t0 = some t) (n : I) (hn : n ∉ t.nodes) : t.getParent n = .error .exception := by
  unfold Tree.getParent
  rw [if_neg hn]

/-- C139: violated by the code.  `rotate` and `inverse_rotate` raise `TypeError` for every tree, vector, list of nodes and
list of weights: they call `get_weighted_mean` without arguments. -/
theorem C139_rotate_fails (t : Tree I d) (v : Vec d) (nodes : List I) (weights : List ℝ) :
    t.rotate v nodes weights = .error .typeError := rfl

/-- C26: `from_sequence` of the empty sequence raises `IndexError`. -/
theorem C26_from_empty [Fact (2 ≤ d)] (inter : I → ℕ → I) (rootId n : I) :
    (Tree.fromSequence inter rootId n [] : Except PyErr (Tree I d)) = .error .indexError := rfl

/-- C17: `set_root` succeeds exactly for directions other than zero; the direction zero gives values that are not numbers. -/
theorem C17_set_root_iff [Fact (2 ≤ d)] (r : I) (v : Vec d) :
    (v ≠ 0 ↔ ∃ t, (Tree.empty : Tree I d).setRoot r v = .ok t)
      ∧ (v = 0 → (Tree.empty : Tree I d).setRoot r v = .error .nan) := by
  have hz : v = 0 → (Tree.empty : Tree I d).setRoot r v = .error .nan := by
    rintro rfl
    unfold Tree.setRoot
    rw [fromDirections_zero (Or.inl rfl)]
  refine ⟨⟨fun hv => ?_, ?_⟩, hz⟩
  · obtain ⟨o, ho⟩ : ∃ o, fromDirections v v = some o := by
      refine ⟨_, fromDirections_close hv hv (allclose_refl _)⟩
    exact ⟨_, by unfold Tree.setRoot; rw [ho]⟩
  · rintro ⟨t, h⟩ h0
    rw [hz h0] at h
    cases h

/-- The hypotheses of `C139_children` and `C139_parent_fails` are met: the chain `0 → 1 → 2`, made by `set_root` and two
calls of `add_node`. -/
example : exTree.successors 0 = [1] ∧ exTree.successors 1 = [2] ∧ exTree.getParent 2 = .error .typeError
    ∧ exTree.getParent 7 = .error .exception := by
  obtain ⟨t0, h0, h⟩ := exTree_reached
  refine ⟨?_, ?_, ?_, C139_parent_unknown 0 _ t0 exTree h0 _ h 7 (by simp [exTree])⟩
  · rw [C139_children 0 _ t0 exTree h0 _ h]; simp
  · rw [C139_children 0 _ t0 exTree h0 _ h]; simp
  · exact (C139_parent_fails 0 _ t0 exTree h0 _ h).2 (2, e3 2, 1) (by simp)

end Verif
