import Verif.Lemmas.TreeStructure
import Verif.Props.Sequence

/-!
# Property theorems C17 – C19: building direction trees

Model: `Verif.Model.Tree` (vector_rotation.py:378-660).
Specification vocabulary: `Verif.Spec.Tree`.
-/

open Verif.Spec

namespace Verif

variable {I : Type} [DecidableEq I] {d : ℕ}

/-! ## C17 -/

lemma touch_level (t : Tree I d) (n : I) : (t.touch n).level = t.level := by
  unfold Tree.touch; split_ifs <;> rfl

lemma addEdge_level (t : Tree I d) (u v : I) : (t.addEdge u v).level = t.level := by
  unfold Tree.addEdge
  simp only
  split_ifs <;> simp [touch_level]

/-- The tree after a successful `add_node(n, v, parent_id=p)`. -/
lemma addNode_parent (t : Tree I d) (n p : I) (v : Vec d) (hv : v ≠ 0) (hn : n ∉ t.nodes)
    (hp : p ∈ t.nodes) (hedge : (p, n) ∉ t.edges) (hsucc : ∀ c, (n, c) ∉ t.edges) (l : ℤ)
    (hl : t.level p = some l) (hlt : l + 1 < 100) :
    t.addNode n v (some p) =
      ({ nodes := t.nodes ++ [n]
         edges := t.edges ++ [(p, n)]
         level := Function.update t.level n (some (l + 1))
         dir := Function.update t.dir n (some (unit v))
         root := t.root }, .ok ()) := by
  have hv' : ‖v‖ ≠ 0 := norm_ne_zero_iff.mpr hv
  have hpn : n ≠ p := fun h => hn (h ▸ hp)
  unfold Tree.addNode
  rw [if_neg hv']
  simp only
  rw [if_neg hn]
  have e1 : t.addEdge p n = { t with nodes := t.nodes ++ [n], edges := t.edges ++ [(p, n)] } := by
    simp [Tree.addEdge, Tree.touch, hp, hn, hedge]
  rw [e1]
  simp only [hl]
  unfold Tree.addNodeFinish
  rw [if_neg (by simp [Tree.maximumLevel]; omega)]
  have hs : ∀ t' : Tree I d, t'.edges = t.edges ++ [(p, n)] → t'.successors n = [] := by
    intro t' he
    apply List.eq_nil_iff_forall_not_mem.mpr
    intro c hc
    have := Tree.mem_successors.mp hc
    unfold IsParent at this
    rw [he] at this
    simp only [List.mem_append, List.mem_singleton, Prod.mk.injEq] at this
    rcases this with h | ⟨h, _⟩
    · exact hsucc c h
    · exact hpn h
  unfold Tree.setDirection
  rw [if_pos (by simp [Tree.setAttr, Tree.touch])]
  rw [hs _ (by simp [Tree.setAttr, Tree.touch])]
  simp [Tree.setAttr, Tree.touch, unit]

lemma addNode_rooted (t : Tree I d) (r : I) (h : RootedTree t r) (n p : I) (v : Vec d)
    (hv : v ≠ 0) (hn : n ∉ t.nodes) (hp : p ∈ t.nodes) (l : ℤ)
    (hl : t.level p = some l) (hlt : l + 1 < 100) :
    RootedTree (t.addNode n v (some p)).1 r := by
  rw [addNode_parent t n p v hv hn hp (fun he => hn (h.edge_snd _ _ he))
    (fun c he => hn (h.edge_fst _ _ he)) l hl hlt]
  have hpn : p ≠ n := fun e => hn (e ▸ hp)
  have hrn : r ≠ n := fun e => hn (e ▸ h.root_mem)
  have hne : ∀ m ∈ t.nodes, m ≠ n := fun m hm e => hn (e ▸ hm)
  have hl0 : 0 ≤ l := by
    obtain ⟨l', h1, h2, _⟩ := h.level_bound p hp
    rw [hl] at h1; have := Option.some.inj h1; omega
  have hed : ∀ a c, (a, c) ∈ t.edges ++ [(p, n)] ↔ (a, c) ∈ t.edges ∨ (a = p ∧ c = n) := by
    intro a c; simp
  constructor
  · simp only
    rw [List.nodup_append]
    exact ⟨h.nodup, by simp, by intro a ha b hb; simp at hb; subst hb; exact hne a ha⟩
  · simp only [List.head?_append, h.root_first]; rfl
  · exact h.root_idx
  · intro a c hac
    rcases (hed a c).mp hac with h1 | ⟨rfl, rfl⟩
    · exact List.mem_append_left _ (h.edge_fst _ _ h1)
    · exact List.mem_append_left _ hp
  · intro a c hac
    rcases (hed a c).mp hac with h1 | ⟨rfl, rfl⟩
    · exact List.mem_append_left _ (h.edge_snd _ _ h1)
    · simp
  · simp only [List.map_append, List.map_cons, List.map_nil]
    rw [List.nodup_append]
    refine ⟨h.one_parent, by simp, ?_⟩
    intro a ha b hb
    simp only [List.mem_map, Prod.exists, exists_eq_right] at ha
    obtain ⟨q, hq⟩ := ha
    simp at hb; subst hb
    exact hne a (h.edge_snd _ _ hq)
  · intro m hm hmr
    simp only [List.mem_append, List.mem_singleton] at hm
    rcases hm with hm | rfl
    · obtain ⟨q, hq⟩ := h.has_parent m hm hmr
      exact ⟨q, (hed q m).mpr (Or.inl hq)⟩
    · exact ⟨p, (hed p m).mpr (Or.inr ⟨rfl, rfl⟩)⟩
  · intro q hq
    rcases (hed q r).mp hq with h1 | ⟨_, h1⟩
    · exact h.root_no_parent q h1
    · exact hrn h1
  · intro a c hac
    simp only
    rcases (hed a c).mp hac with h1 | ⟨rfl, rfl⟩
    · rw [List.idxOf_append_of_mem (h.edge_fst _ _ h1), List.idxOf_append_of_mem (h.edge_snd _ _ h1)]
      exact h.parent_before _ _ h1
    · rw [List.idxOf_append_of_mem hp, List.idxOf_append_of_notMem hn]
      have := List.idxOf_lt_length_iff.mpr hp
      omega
  · simp [Function.update_of_ne hrn, h.root_level]
  · intro a c hac
    simp only
    rcases (hed a c).mp hac with h1 | ⟨rfl, rfl⟩
    · rw [Function.update_of_ne (hne a (h.edge_fst _ _ h1)),
        Function.update_of_ne (hne c (h.edge_snd _ _ h1))]
      exact h.child_level _ _ h1
    · exact ⟨l, by rw [Function.update_of_ne hpn]; exact hl, by simp⟩
  · intro m hm
    simp only [List.mem_append, List.mem_singleton] at hm
    simp only
    rcases hm with hm | rfl
    · rw [Function.update_of_ne (hne m hm)]; exact h.level_bound m hm
    · exact ⟨l + 1, by simp, by omega, hlt⟩
  · intro m hm
    simp only [List.mem_append, List.mem_singleton] at hm
    simp only
    rcases hm with hm | rfl
    · rw [Function.update_of_ne (hne m hm)]; exact h.unit_dir m hm
    · exact ⟨unit v, by simp, unit_norm hv⟩
  · intro m hm
    simp only [List.mem_append, List.mem_singleton, not_or] at hm
    simp only
    rw [Function.update_of_ne hm.2, Function.update_of_ne hm.2]
    exact h.no_attr m hm.1

/-- C17: `set_root` on a new object with a non-zero direction gives a rooted tree. -/
theorem C17_set_root [Fact (2 ≤ d)] (r : I) (v : Vec d) (t : Tree I d)
    (h : (Tree.empty : Tree I d).setRoot r v = .ok t) : RootedTree t r := by
  unfold Tree.setRoot at h
  cases hf : fromDirections v v with
  | none => rw [hf] at h; cases h
  | some o =>
    rw [hf] at h
    have ht := (Except.ok.inj h).symm
    obtain ⟨hv, _, _, hb, _⟩ := fromDirections_some hf
    subst ht
    constructor <;> simp +contextual [Tree.setRootOrientation, Tree.setAttr, Tree.touch, Tree.empty, IsParent,
      hb, unit_norm hv]

/-- A call of `add_node` with a parent; `none` if it raises. -/
noncomputable def addCall (t : Tree I d) (c : I × Vec d × I) : Option (Tree I d) :=
  match t.addNode c.1 c.2.1 (some c.2.2) with
  | (t', .ok ()) => some t'
  | (_, .error _) => none

/-- When `add_node` with a parent succeeds on a rooted tree. -/
lemma addNode_ok_iff (t : Tree I d) (r : I) (h : RootedTree t r) (n p : I) (v : Vec d) :
    (t.addNode n v (some p)).2 = .ok () ↔
      v ≠ 0 ∧ n ∉ t.nodes ∧ p ∈ t.nodes ∧ ∃ l, t.level p = some l ∧ l + 1 < 100 := by
  by_cases hv : v = 0
  · simp [Tree.addNode, hv]
  have hv' : ‖v‖ ≠ 0 := norm_ne_zero_iff.mpr hv
  by_cases hn : n ∈ t.nodes
  · simp [Tree.addNode, hv', hn]
  by_cases hp : p ∈ t.nodes
  · obtain ⟨l, hl, _, _⟩ := h.level_bound p hp
    by_cases hlt : l + 1 < 100
    · rw [addNode_parent t n p v hv hn hp (fun he => hn (h.edge_snd _ _ he))
        (fun c he => hn (h.edge_fst _ _ he)) l hl hlt]
      simp [hv, hn, hp, hl, hlt]
    · have hlev : (t.addEdge p n).level p = some l := by rw [addEdge_level]; exact hl
      have : (t.addNode n v (some p)).2 = .error .valueError := by
        unfold Tree.addNode
        rw [if_neg hv']
        simp only
        rw [if_neg hn, hlev]
        simp only
        unfold Tree.addNodeFinish
        rw [if_pos (by simp [Tree.maximumLevel]; omega)]
      rw [this]
      constructor
      · intro h; cases h
      · rintro ⟨_, _, _, l', h1, h2⟩
        rw [hl] at h1; have := Option.some.inj h1; omega
  · constructor
    · intro hok
      exfalso
      have hlev : (t.addEdge p n).level p = none := by
        rw [addEdge_level]; exact (h.no_attr p hp).1
      unfold Tree.addNode at hok
      rw [if_neg hv'] at hok
      simp only at hok
      rw [if_neg hn, hlev] at hok
      cases hok
    · rintro ⟨_, _, h3, _⟩; exact absurd h3 hp

/-- C17: every successful `add_node(parent_id=…)` keeps the tree rooted. -/
theorem C17_add_node (t : Tree I d) (r : I) (h : RootedTree t r) (n p : I) (v : Vec d)
    (hok : (t.addNode n v (some p)).2 = .ok ()) : RootedTree (t.addNode n v (some p)).1 r := by
  obtain ⟨h1, h2, h3, l, h4, h5⟩ := (addNode_ok_iff t r h n p v).mp hok
  exact addNode_rooted t r h n p v h1 h2 h3 l h4 h5

/-- C17: after `set_root` and any finite history of successful `add_node` calls with
arbitrary identifiers and directions the object is a rooted tree with consistent
levels below 100, unique identifiers and unit directions. -/
theorem C17_history [Fact (2 ≤ d)] (r : I) (v : Vec d) (t0 t : Tree I d)
    (h0 : (Tree.empty : Tree I d).setRoot r v = .ok t0) (calls : List (I × Vec d × I))
    (h : calls.foldlM addCall t0 = some t) : RootedTree t r := by
  have hr := C17_set_root r v t0 h0
  clear h0
  induction calls generalizing t0 with
  | nil => simp at h; subst h; exact hr
  | cons c calls ih =>
    rw [List.foldlM_cons] at h
    cases hc : addCall t0 c with
    | none => rw [hc] at h; cases h
    | some t1 =>
      rw [hc] at h
      refine ih t1 h ?_
      unfold addCall at hc
      rcases hx : t0.addNode c.1 c.2.1 (some c.2.2) with ⟨t', e | u⟩
      · rw [hx] at hc; cases hc
      · rw [hx] at hc
        have ht : t' = t1 := Option.some.inj hc
        have := C17_add_node t0 r hr c.1 c.2.2 c.2.1 (by rw [hx])
        rw [hx] at this
        rw [← ht]; exact this

/-- C17: exactly when a call succeeds. -/
theorem C17_add_node_ok_iff (t : Tree I d) (r : I) (h : RootedTree t r) (n p : I) (v : Vec d) :
    (t.addNode n v (some p)).2 = .ok () ↔
      v ≠ 0 ∧ n ∉ t.nodes ∧ p ∈ t.nodes ∧ ∃ l, t.level p = some l ∧ l + 1 < 100 :=
  addNode_ok_iff t r h n p v

/-- C17: a successful call adds exactly the node, its edge and its (normalised)
direction, and changes nothing else. -/
theorem C17_add_node_effect (t : Tree I d) (r : I) (h : RootedTree t r) (n p : I) (v : Vec d)
    (hok : (t.addNode n v (some p)).2 = .ok ()) :
    let t' := (t.addNode n v (some p)).1
    t'.nodes = t.nodes ++ [n] ∧ t'.edges = t.edges ++ [(p, n)] ∧ t'.dir n = some (unit v)
    ∧ (∀ m, m ≠ n → t'.dir m = t.dir m ∧ t'.level m = t.level m) ∧ t'.root = t.root := by
  obtain ⟨h1, h2, h3, l, h4, h5⟩ := (addNode_ok_iff t r h n p v).mp hok
  rw [addNode_parent t n p v h1 h2 h3 (fun he => h2 (h.edge_snd _ _ he))
    (fun c he => h2 (h.edge_fst _ _ he)) l h4 h5]
  refine ⟨rfl, rfl, by simp, fun m hm => ⟨by simp [hm], by simp [hm]⟩, rfl⟩

/-! ### A concrete tree, used to show that the hypotheses can be met -/

/-- Root `0` (direction `e0`) with child `1` (`e1`), which has the child `2` (`e2`). -/
noncomputable def exTree : Tree ℕ 3 :=
  { nodes := [0, 1, 2]
    edges := [(0, 1), (1, 2)]
    level := fun n => if n = 0 then some 0 else if n = 1 then some 1 else
      if n = 2 then some 2 else none
    dir := fun n => if n = 0 then some (e3 0) else if n = 1 then some (e3 1) else
      if n = 2 then some (e3 2) else none
    root := some 0 }

lemma exTree_rooted : RootedTree exTree 0 := by
  constructor
  · decide
  · rfl
  · rfl
  · intro p c h; simp only [IsParent, exTree, List.mem_cons, Prod.mk.injEq, List.not_mem_nil,
      or_false] at h ⊢; omega
  · intro p c h; simp only [IsParent, exTree, List.mem_cons, Prod.mk.injEq, List.not_mem_nil,
      or_false] at h ⊢; omega
  · decide
  · intro n hn h0
    simp only [exTree, List.mem_cons, List.not_mem_nil, or_false] at hn
    rcases hn with rfl | rfl | rfl
    · exact absurd rfl h0
    · exact ⟨0, by simp [IsParent, exTree]⟩
    · exact ⟨1, by simp [IsParent, exTree]⟩
  · intro p h; simp [IsParent, exTree] at h
  · intro p c h; simp only [IsParent, exTree, List.mem_cons, Prod.mk.injEq, List.not_mem_nil,
      or_false] at h ⊢
    rcases h with ⟨rfl, rfl⟩ | ⟨rfl, rfl⟩ <;> decide
  · simp [exTree]
  · intro p c h; simp only [IsParent, exTree, List.mem_cons, Prod.mk.injEq, List.not_mem_nil,
      or_false] at h ⊢
    rcases h with ⟨rfl, rfl⟩ | ⟨rfl, rfl⟩
    · exact ⟨0, by simp, by simp⟩
    · exact ⟨1, by simp, by simp⟩
  · intro n hn
    simp only [exTree, List.mem_cons, List.not_mem_nil, or_false] at hn ⊢
    rcases hn with rfl | rfl | rfl
    · exact ⟨0, by simp⟩
    · exact ⟨1, by simp⟩
    · exact ⟨2, by simp⟩
  · intro n hn
    simp only [exTree, List.mem_cons, List.not_mem_nil, or_false] at hn ⊢
    rcases hn with rfl | rfl | rfl
    · exact ⟨e3 0, by simp, by simp [e3]⟩
    · exact ⟨e3 1, by simp, by simp [e3]⟩
    · exact ⟨e3 2, by simp, by simp [e3]⟩
  · intro n hn
    simp only [exTree, List.mem_cons, List.not_mem_nil, or_false, not_or] at hn ⊢
    simp [hn]

/-- The concrete tree is reached by the API: `set_root` and two `add_node` calls. -/
lemma exTree_reached : ∃ t0, (Tree.empty : Tree ℕ 3).setRoot 0 (e3 0) = .ok t0
    ∧ [(1, e3 1, 0), (2, e3 2, 1)].foldlM addCall t0 = some exTree := by
  obtain ⟨o, ho⟩ := (C05_from_directions_defined_iff (d := 3) (by norm_num) (e3 0) (e3 0)).mpr
    ⟨e3_ne_zero _, e3_ne_zero _, by
      rw [opposite_iff_inner (e3_ne_zero _) (e3_ne_zero _), real_inner_self_eq_norm_sq,
        unit_norm (e3_ne_zero _)]; norm_num⟩
  have hb : o.base.b0 = e3 0 := by
    rw [← e3_unit]; exact (C05_from_directions_valid _ _ o ho).2.1
  refine ⟨(Tree.empty : Tree ℕ 3).setRootOrientation 0 o, by simp [Tree.setRoot, ho], ?_⟩
  rw [List.foldlM_cons, addCall,
    addNode_parent _ 1 0 (e3 1) (e3_ne_zero _)
      (by simp [Tree.setRootOrientation, Tree.setAttr, Tree.touch, Tree.empty])
      (by simp [Tree.setRootOrientation, Tree.setAttr, Tree.touch, Tree.empty])
      (by simp [Tree.setRootOrientation, Tree.setAttr, Tree.touch, Tree.empty])
      (by simp [Tree.setRootOrientation, Tree.setAttr, Tree.touch, Tree.empty]) 0
      (by simp [Tree.setRootOrientation, Tree.setAttr, Tree.touch, Tree.empty]) (by norm_num)]
  simp only [Option.bind_eq_bind, Option.bind_some]
  rw [List.foldlM_cons, addCall,
    addNode_parent _ 2 1 (e3 2) (e3_ne_zero _)
      (by simp [Tree.setRootOrientation, Tree.setAttr, Tree.touch, Tree.empty])
      (by simp [Tree.setRootOrientation, Tree.setAttr, Tree.touch, Tree.empty])
      (by simp [Tree.setRootOrientation, Tree.setAttr, Tree.touch, Tree.empty])
      (by simp [Tree.setRootOrientation, Tree.setAttr, Tree.touch, Tree.empty]) 1
      (by simp [Tree.setRootOrientation, Tree.setAttr, Tree.touch, Tree.empty]) (by norm_num)]
  simp only [Option.bind_eq_bind, Option.bind_some, List.foldlM_nil, pure]
  congr 1
  simp only [exTree, Tree.setRootOrientation, Tree.setAttr, Tree.touch, Tree.empty, e3_unit, hb]
  congr 1
  · funext n
    by_cases h2 : n = 2
    · subst h2; simp
    · by_cases h1 : n = 1
      · subst h1; simp
      · by_cases h0 : n = 0
        · subst h0; simp
        · simp [h0, h1, h2]
  · funext n
    by_cases h2 : n = 2
    · subst h2; simp
    · by_cases h1 : n = 1
      · subst h1; simp
      · by_cases h0 : n = 0
        · subst h0; simp
        · simp [h0, h1, h2]

/-- C17 is not vacuous. -/
example : ∃ (t0 t : Tree ℕ 3) (calls : List (ℕ × Vec 3 × ℕ)), calls.length = 2
    ∧ (Tree.empty : Tree ℕ 3).setRoot 0 (e3 0) = .ok t0 ∧ calls.foldlM addCall t0 = some t := by
  obtain ⟨t0, h1, h2⟩ := exTree_reached
  exact ⟨t0, exTree, _, rfl, h1, h2⟩

/-! ## C18 -/

/-- C18 (partial): a call rejected because of a zero direction, an existing identifier or
a missing level leaves the tree unchanged.  In particular this covers every rejected
call on a rooted tree whose parent exists and has a level below 99.

Missing for the full property: a missing parent, a parent of level 99 and the
`child_id` branch, for which it fails (`C18_missing_parent`, `C18_level_limit`,
`C18_child`). -/
theorem C18_rejected_unchanged_partial (t : Tree I d) (n : I) (v : Vec d) (parent : Option I)
    (child : Option I) (level : Option ℤ)
    (h : v = 0 ∨ n ∈ t.nodes ∨ (parent = none ∧ child = none ∧
      (level = none ∨ ∃ l, level = some l ∧ l ≥ 100))) :
    t.addNode n v parent child level = (t, .error .valueError) := by
  by_cases hv : v = 0
  · simp [Tree.addNode, hv]
  have hv' : ‖v‖ ≠ 0 := norm_ne_zero_iff.mpr hv
  by_cases hn : n ∈ t.nodes
  · simp [Tree.addNode, hv', hn]
  · rcases h with h | h | ⟨rfl, rfl, h⟩
    · exact absurd h hv
    · exact absurd h hn
    · rcases h with rfl | ⟨l, rfl, hl⟩
      · simp [Tree.addNode, hv', hn]
      · simp [Tree.addNode, hv', hn, Tree.addNodeFinish, Tree.maximumLevel, hl]

/-- C18 (partial): on a rooted tree, a rejected `add_node` whose parent exists below the
level limit leaves the tree unchanged.

Missing: a missing parent, a parent at the level limit and the `child_id` branch, for which it fails
(`C18_missing_parent`, `C18_level_limit`, `C18_child`). -/
theorem C18_existing_parent_partial (t : Tree I d) (r : I) (h : RootedTree t r) (n p : I)
    (v : Vec d) (hp : p ∈ t.nodes) (hl : ∀ l, t.level p = some l → l + 1 < 100)
    (hbad : (t.addNode n v (some p)).2 ≠ .ok ()) : (t.addNode n v (some p)).1 = t := by
  have : v = 0 ∨ n ∈ t.nodes := by
    by_contra hc
    push Not at hc
    apply hbad
    rw [addNode_ok_iff t r h]
    obtain ⟨l, h1, _⟩ := h.level_bound p hp
    exact ⟨hc.1, hc.2, hp, l, h1, hl l h1⟩
  rw [C18_rejected_unchanged_partial t n v (some p) none none (by tauto)]

/-- C18 fails: for every rooted tree, adding a node below a missing parent raises
`KeyError` *and* leaves both the missing parent and the new node behind, without
attributes, so that the object is no tree any more. -/
theorem C18_missing_parent (t : Tree I d) (r : I) (h : RootedTree t r) (n p : I) (v : Vec d)
    (hv : v ≠ 0) (hn : n ∉ t.nodes) (hp : p ∉ t.nodes) (hnp : n ≠ p) :
    (t.addNode n v (some p)).2 = .error .keyError
    ∧ (t.addNode n v (some p)).1.nodes = t.nodes ++ [p, n]
    ∧ (t.addNode n v (some p)).1.edges = t.edges ++ [(p, n)]
    ∧ ¬ RootedTree (t.addNode n v (some p)).1 r := by
  have hv' : ‖v‖ ≠ 0 := norm_ne_zero_iff.mpr hv
  have hlev : (t.addEdge p n).level p = none := by
    rw [addEdge_level]; exact (h.no_attr p hp).1
  have hedge : (p, n) ∉ t.edges := fun he => hn (h.edge_snd _ _ he)
  have hadd : t.addNode n v (some p) = (t.addEdge p n, .error .keyError) := by
    unfold Tree.addNode
    rw [if_neg hv']
    simp only
    rw [if_neg hn, hlev]
  have hnodes : (t.addEdge p n).nodes = t.nodes ++ [p, n] := by
    simp [Tree.addEdge, Tree.touch, hp, hn, hnp, hedge]
  rw [hadd]
  refine ⟨rfl, hnodes, ?_, fun hr => ?_⟩
  · simp [Tree.addEdge, Tree.touch, hp, hn, hnp, hedge]
  · obtain ⟨l, hl, _⟩ := hr.level_bound p (by simp [hnodes])
    rw [hlev] at hl; cases hl

/-- C18 fails: adding below a node of level 99 raises `ValueError` and leaves the new
node and its edge behind. -/
theorem C18_level_limit (t : Tree I d) (r : I) (h : RootedTree t r) (n p : I) (v : Vec d)
    (hv : v ≠ 0) (hn : n ∉ t.nodes) (hp : p ∈ t.nodes) (hl : t.level p = some 99) :
    (t.addNode n v (some p)).2 = .error .valueError
    ∧ (t.addNode n v (some p)).1.nodes = t.nodes ++ [n]
    ∧ ¬ RootedTree (t.addNode n v (some p)).1 r := by
  have hv' : ‖v‖ ≠ 0 := norm_ne_zero_iff.mpr hv
  have hlev : (t.addEdge p n).level p = some 99 := by rw [addEdge_level]; exact hl
  have hedge : (p, n) ∉ t.edges := fun he => hn (h.edge_snd _ _ he)
  have hadd : t.addNode n v (some p) = (t.addEdge p n, .error .valueError) := by
    unfold Tree.addNode
    rw [if_neg hv']
    simp only
    rw [if_neg hn, hlev]
    simp [Tree.addNodeFinish, Tree.maximumLevel]
  have hnodes : (t.addEdge p n).nodes = t.nodes ++ [n] := by
    simp [Tree.addEdge, Tree.touch, hp, hn, hedge]
  rw [hadd]
  refine ⟨rfl, hnodes, fun hr => ?_⟩
  obtain ⟨l, hl, _⟩ := hr.level_bound n (by simp [hnodes])
  rw [addEdge_level, (h.no_attr n hn).1] at hl; cases hl

/-- C18 fails: `add_node(child_id=…)` always raises `TypeError` and leaves an edge behind. -/
theorem C18_child (t : Tree I d) (r : I) (h : RootedTree t r) (n c : I) (v : Vec d)
    (hv : v ≠ 0) (hn : n ∉ t.nodes) (level : Option ℤ) :
    (t.addNode n v none (some c) level).2 = .error .typeError
    ∧ (n, c) ∈ (t.addNode n v none (some c) level).1.edges
    ∧ (n, c) ∉ t.edges := by
  have hv' : ‖v‖ ≠ 0 := norm_ne_zero_iff.mpr hv
  refine ⟨by simp [Tree.addNode, hv', hn], ?_, fun he => hn (h.edge_fst _ _ he)⟩
  simp only [Tree.addNode, hv', hn, if_false, Tree.addEdge]
  split_ifs with h1
  · exact h1
  · simp

/-- The hypotheses of the C18 theorems are met by a concrete tree. -/
example : RootedTree exTree 0 ∧ 7 ∉ exTree.nodes ∧ 8 ∉ exTree.nodes ∧ e3 0 ≠ 0 :=
  ⟨exTree_rooted, by simp [exTree], by simp [exTree], e3_ne_zero 0⟩

/-! ## C19 -/

/-- C19: on every rooted tree `get_all_childs_children` terminates and returns every
proper descendant exactly once and nothing else. -/
theorem C19_descendants (t : Tree I d) (r : I) (h : RootedTree t r) (n : I) :
    ∃ out, t.getAllChildsChildren n = some out ∧ out.Nodup
      ∧ ∀ m, m ∈ out ↔ Descendant t n m :=
  getAllChildsChildren_spec h n

/-- C19: the root's descendants are all other nodes. -/
theorem C19_root_descendants (t : Tree I d) (r : I) (h : RootedTree t r) :
    ∃ out, t.getAllChildsChildren r = some out ∧ out.Nodup
      ∧ ∀ m, m ∈ out ↔ m ∈ t.nodes ∧ m ≠ r := by
  obtain ⟨out, h1, h2, h3⟩ := getAllChildsChildren_spec h r
  refine ⟨out, h1, h2, fun m => (h3 m).trans ⟨fun hd => ?_, fun ⟨hm, hne⟩ => h.root_desc hm hne⟩⟩
  refine ⟨h.desc_mem_right hd, fun e => ?_⟩
  subst e; exact h.desc_irrefl _ hd

/-- C19 on the concrete tree. -/
example : exTree.getAllChildsChildren 0 = some [1, 2] := by
  simp [Tree.getAllChildsChildren, Tree.childsLoop, Tree.successors, exTree]

end Verif
