import Verif.Model.Composite
import Verif.Lemmas.GraphHandler

/-!
# C44, C63, C64: composite obstacles
-/

namespace Verif

open MultiObstacle

variable {d : ℕ}

/-- One call of `add_component`. -/
structure AddCall (d : ℕ) where
  part : Part d
  parent : ℤ
  reference : Option (Vec d)

namespace Spec

/-- A history of `add_component` calls: the final state and the results of all calls. -/
noncomputable def addAll (intersect : Part d → Part d → Option (Vec d)) :
    MultiObstacle d → List (AddCall d) → MultiObstacle d × List (Except PyErr ℤ)
  | m, [] => (m, [])
  | m, c :: cs =>
    let r := m.addComponent intersect c.part c.parent c.reference
    let rest := addAll intersect r.1 cs
    (rest.1, r.2 :: rest.2)

/-- Every call names a component that exists when the call is made, and passes a reference point. -/
def ExistingParents : ℕ → List (AddCall d) → Prop
  | _, [] => True
  | n, c :: cs => 0 ≤ c.parent ∧ c.parent < n ∧ c.reference.isSome ∧ ExistingParents (n + 1) cs

/-- Following `get_parent_idx` from component `i` ends at the root. -/
inductive ReachesRoot (m : MultiObstacle d) : ℤ → Prop
  | root {i : ℤ} : m.getParentIdx i = .ok none → ReachesRoot m i
  | step {i p : ℤ} : m.getParentIdx i = .ok (some p) → ReachesRoot m p → ReachesRoot m i

end Spec

open Spec

/-- The graph after components with the parents `ps` were added below the root. -/
structure GraphOf (m : MultiObstacle d) (ps : List ℤ) : Prop where
  parts : m.parts.length = ps.length + 1
  poses : m.localPoses.length = ps.length + 1
  nodes : m.nodes.map Prod.fst = (List.range (ps.length + 1)).map (fun i : ℕ => (i : ℤ))
  edges : m.edges = ps.zipIdx.map (fun e => (e.1, ((e.2 + 1 : ℕ) : ℤ)))
  root : m.rootIdx = 0
  children : ∀ e ∈ m.nodes, ∀ j : ℤ, j ∈ e.2 ↔ (e.1, j) ∈ m.edges
  le : ∀ (i : ℕ) (p : ℤ), ps[i]? = some p → 0 ≤ p ∧ p ≤ i

lemma GraphOf.edge_iff {m : MultiObstacle d} {ps : List ℤ} (h : GraphOf m ps) {p j : ℤ} :
    (p, j) ∈ m.edges ↔ ∃ i : ℕ, j = i + 1 ∧ ps[i]? = some p := by
  rw [h.edges, List.mem_map]
  constructor
  · rintro ⟨⟨q, i⟩, hm, he⟩
    rw [List.mem_zipIdx_iff_getElem?] at hm
    simp only [Prod.mk.injEq] at he
    exact ⟨i, by rw [← he.2]; push_cast; ring, by rw [← he.1]; exact hm⟩
  · rintro ⟨i, rfl, hp⟩
    exact ⟨(p, i), List.mem_zipIdx_iff_getElem?.mpr hp, by simp⟩

lemma GraphOf.node_iff {m : MultiObstacle d} {ps : List ℤ} (h : GraphOf m ps) {i : ℤ} :
    i ∈ m.nodes.map Prod.fst ↔ 0 ≤ i ∧ i < ps.length + 1 := by
  rw [h.nodes, List.mem_map]
  constructor
  · rintro ⟨k, hk, rfl⟩
    rw [List.mem_range] at hk
    omega
  · rintro ⟨h1, h2⟩
    exact ⟨i.toNat, by rw [List.mem_range]; omega, by omega⟩

lemma root_graph (pose : Pose d) (o : Part d) : GraphOf ((create pose).setRoot o).1 [] where
  parts := rfl
  poses := rfl
  nodes := rfl
  edges := rfl
  root := rfl
  children := by
    intro e he j
    have : e = (0, []) := by simpa [create, setRoot, addNode] using he
    subst this
    simp [create, setRoot]
  le := by intro i p h; simp at h

/-- One call with an existing parent. -/
lemma add_graph (intersect : Part d → Part d → Option (Vec d)) {m : MultiObstacle d} {ps : List ℤ}
    (h : GraphOf m ps) (c : AddCall d) (h0 : 0 ≤ c.parent) (h1 : c.parent < ps.length + 1)
    (hr : c.reference.isSome) :
    GraphOf (m.addComponent intersect c.part c.parent c.reference).1 (ps ++ [c.parent])
      ∧ (m.addComponent intersect c.part c.parent c.reference).2 = .ok ((ps.length + 1 : ℕ) : ℤ) := by
  obtain ⟨r, hr⟩ := Option.isSome_iff_exists.mp hr
  have hlen : (m.parts.length : ℤ) = ((ps.length + 1 : ℕ) : ℤ) := by rw [h.parts]
  have hnew : (m.parts.length : ℤ) ∉ m.nodes.map Prod.fst := by
    rw [h.node_iff, hlen]; push_cast; omega
  have hnodes : addNode m.nodes m.parts.length = m.nodes ++ [((m.parts.length : ℤ), [])] := by
    unfold addNode; rw [if_neg hnew]
  have hpar : c.parent ∈ (addNode m.nodes m.parts.length).map Prod.fst := by
    rw [hnodes, List.map_append]
    exact List.mem_append_left _ (h.node_iff.mpr ⟨h0, h1⟩)
  have hedge : (c.parent, (m.parts.length : ℤ)) ∉ m.edges := by
    rw [h.edge_iff]
    rintro ⟨i, hi, hp⟩
    have := (List.getElem?_eq_some_iff.mp hp).1
    omega
  have he : m.addComponent intersect c.part c.parent c.reference =
      ({ m with
          localPoses := m.localPoses ++ [c.part.pose]
          parts := m.parts ++ [{ c.part with reference := r, pose := m.pose.poseFromRelative c.part.pose }]
          nodes := (m.nodes ++ [((m.parts.length : ℤ), [])]).map
            (fun e : ℤ × List ℤ => if e.1 = c.parent then (e.1, e.2 ++ [(m.parts.length : ℤ)]) else e)
          edges := m.edges ++ [(c.parent, (m.parts.length : ℤ))] }, .ok (m.parts.length : ℤ)) := by
    unfold addComponent chooseReference insertComponent
    simp only [hr]
    rw [if_pos hpar, if_neg hedge, hnodes]
  rw [he]
  refine ⟨⟨by simp [h.parts], by simp [h.poses], ?_, ?_, h.root, ?_, ?_⟩, ?_⟩
  · have : ∀ l : List (ℤ × List ℤ), (l.map
        (fun e => if e.1 = c.parent then (e.1, e.2 ++ [(m.parts.length : ℤ)]) else e)).map Prod.fst
        = l.map Prod.fst := by
      intro l
      rw [List.map_map]
      apply List.map_congr_left
      intro e _
      simp only [Function.comp]
      split_ifs <;> rfl
    rw [this, List.map_append, h.nodes]
    simp only [List.length_append, List.length_singleton]
    rw [List.range_succ (n := ps.length + 1), List.map_append]
    simp [h.parts]
  · simp only
    rw [h.edges, List.zipIdx_append, List.map_append]
    simp [h.parts]
  · intro e he j
    simp only [List.mem_map, List.mem_append, List.mem_singleton] at he
    obtain ⟨e0, he0, rfl⟩ := he
    simp only [List.mem_append, List.mem_singleton, Prod.mk.injEq]
    rcases he0 with he0 | rfl
    · by_cases hp : e0.1 = c.parent
      · rw [if_pos hp]
        simp only [List.mem_append, List.mem_singleton, h.children e0 he0 j, hp, true_and]
      · rw [if_neg hp, h.children e0 he0 j]
        simp [hp]
    · have hp : (m.parts.length : ℤ) ≠ c.parent := by rw [hlen]; push_cast; omega
      rw [if_neg hp]
      simp only [List.not_mem_nil, hp, false_and, or_false, false_iff]
      rw [h.edge_iff]
      rintro ⟨i, _, hi⟩
      have := (List.getElem?_eq_some_iff.mp hi).1
      have := (h.le i _ hi).2
      omega
  · intro i p hp
    rcases (GraphHandler.snoc_getElem? _ _ _ _).mp hp with hp | ⟨rfl, rfl⟩
    · exact h.le i p hp
    · exact ⟨h0, by omega⟩
  · rw [hlen]

lemma addAll_graph (intersect : Part d → Part d → Option (Vec d)) (cs : List (AddCall d)) :
    ∀ (m : MultiObstacle d) (ps : List ℤ), GraphOf m ps → ExistingParents (ps.length + 1) cs →
      GraphOf (addAll intersect m cs).1 (ps ++ cs.map AddCall.parent)
        ∧ (addAll intersect m cs).2 =
          (List.range cs.length).map (fun i => .ok ((ps.length + 1 + i : ℕ) : ℤ)) := by
  induction cs with
  | nil => intro m ps h _; simpa [addAll] using h
  | cons c cs ih =>
    intro m ps h hc
    obtain ⟨h0, h1, hr, hcs⟩ := hc
    obtain ⟨g1, g2⟩ := add_graph intersect h c h0 (by exact_mod_cast h1) hr
    obtain ⟨k1, k2⟩ := ih _ _ g1 (by simpa [add_assoc] using hcs)
    refine ⟨by simpa [addAll] using k1, ?_⟩
    simp only [addAll, g2, k2, List.length_cons, List.range_succ_eq_map, List.map_cons, List.map_map,
      List.length_append, List.length_nil]
    refine congrArg₂ _ (by simp) ?_
    apply List.map_congr_left
    intro i _
    simp only [Function.comp]
    congr 2
    omega

lemma GraphOf.parent {m : MultiObstacle d} {ps : List ℤ} (h : GraphOf m ps) {i : ℕ} {p : ℤ}
    (hp : ps[i]? = some p) : m.getParentIdx (i + 1) = .ok (some p) := by
  unfold getParentIdx
  have hi := (List.getElem?_eq_some_iff.mp hp).1
  rw [if_neg (by rw [h.root]; omega), if_pos (h.node_iff.mpr ⟨by omega, by omega⟩)]
  rcases hpr : m.predecessors (i + 1) with _ | ⟨q, l⟩
  · exfalso
    have : p ∈ m.predecessors (i + 1) := by
      unfold predecessors
      rw [List.mem_map]
      exact ⟨(p, i + 1), List.mem_filter.mpr ⟨h.edge_iff.mpr ⟨i, rfl, hp⟩, by simp⟩, rfl⟩
    rw [hpr] at this; cases this
  · have : q ∈ m.predecessors (i + 1) := by rw [hpr]; exact List.mem_cons_self
    unfold predecessors at this
    rw [List.mem_map] at this
    obtain ⟨⟨q', j⟩, hm, rfl⟩ := this
    rw [List.mem_filter] at hm
    obtain ⟨hm, hj⟩ := hm
    simp only [decide_eq_true_eq] at hj
    subst hj
    obtain ⟨k, hk, hq⟩ := h.edge_iff.mp hm
    have : k = i := by omega
    subst this
    rw [hp] at hq; cases hq
    rfl

/-- C44: set a root on a new composite obstacle and add any number of components below existing
ones.  Then the calls return the consecutive numbers `1, 2, ...`; the root has no parent; the parent
of component `i + 1` is the one passed to the `i`-th call and has a smaller number; every component
reaches the root; and the recorded children of a component are exactly the components it is the
parent of. -/
theorem C44_tree (intersect : Part d → Part d → Option (Vec d)) (pose : Pose d) (root : Part d)
    (cs : List (AddCall d)) (hcs : ExistingParents 1 cs) :
    let m := (addAll intersect ((MultiObstacle.create pose).setRoot root).1 cs).1
    (addAll intersect ((MultiObstacle.create pose).setRoot root).1 cs).2 =
        (List.range cs.length).map (fun i => .ok ((i + 1 : ℕ) : ℤ))
      ∧ m.nComponents = cs.length + 1
      ∧ m.getParentIdx 0 = .ok none
      ∧ (∀ (i : ℕ) (c : AddCall d), cs[i]? = some c →
          m.getParentIdx (i + 1) = .ok (some c.parent) ∧ 0 ≤ c.parent ∧ c.parent < i + 1)
      ∧ (∀ i : ℤ, 0 ≤ i → i < m.nComponents → ReachesRoot m i)
      ∧ (∀ i : ℤ, 0 ≤ i → i < m.nComponents → ∃ l, m.childrenOf i = .ok l
          ∧ ∀ j, j ∈ l ↔ (0 ≤ j ∧ j < m.nComponents ∧ m.getParentIdx j = .ok (some i))) := by
  intro m
  obtain ⟨h, hres⟩ := addAll_graph intersect cs _ [] (root_graph pose root) (by simpa using hcs)
  rw [List.nil_append] at h
  have hm : GraphOf m (cs.map AddCall.parent) := h
  have hroot : m.getParentIdx 0 = .ok none := by unfold getParentIdx; rw [if_pos hm.root.symm]
  have hn : m.nComponents = cs.length + 1 := by unfold nComponents; rw [hm.parts]; simp
  have hpar : ∀ (i : ℕ) (c : AddCall d), cs[i]? = some c →
      m.getParentIdx (i + 1) = .ok (some c.parent) ∧ 0 ≤ c.parent ∧ c.parent < i + 1 := by
    intro i c hc
    have : (cs.map AddCall.parent)[i]? = some c.parent := by rw [List.getElem?_map, hc]; rfl
    have hle := hm.le i _ this
    exact ⟨hm.parent this, hle.1, by omega⟩
  refine ⟨?_, hn, hroot, hpar, ?_, ?_⟩
  · rw [hres]
    apply List.map_congr_left
    intro i _
    simp [add_comm]
  · have key : ∀ n : ℕ, n < m.nComponents → ReachesRoot m n := by
      intro n
      induction n using Nat.strong_induction_on with
      | _ n ih =>
        intro hlt
        cases n with
        | zero => exact .root (by exact_mod_cast hroot)
        | succ k =>
          have hk : k < cs.length := by omega
          obtain ⟨h1, h2, h3⟩ := hpar k cs[k] (List.getElem?_eq_getElem hk)
          refine .step (p := cs[k].parent) (by exact_mod_cast h1) ?_
          have := ih cs[k].parent.toNat (by omega) (by omega)
          rwa [Int.toNat_of_nonneg h2] at this
    intro i h0 h1
    have := key i.toNat (by omega)
    rwa [Int.toNat_of_nonneg h0] at this
  · intro i h0 h1
    have hi : i ∈ m.nodes.map Prod.fst := hm.node_iff.mpr ⟨h0, by simp; omega⟩
    have hsome : (m.nodes.find? (fun e => e.1 = i)).isSome := by
      rw [List.find?_isSome]
      obtain ⟨e, he, hei⟩ := List.mem_map.mp hi
      exact ⟨e, he, by simpa using hei⟩
    obtain ⟨e, he⟩ := Option.isSome_iff_exists.mp hsome
    have hei : e.1 = i := by simpa using List.find?_some he
    have hem : e ∈ m.nodes := List.mem_of_find?_eq_some he
    refine ⟨e.2, by unfold childrenOf; rw [he], ?_⟩
    intro j
    rw [hm.children e hem j, hei, hm.edge_iff]
    constructor
    · rintro ⟨k, rfl, hp⟩
      have hk := (List.getElem?_eq_some_iff.mp hp).1
      rw [List.length_map] at hk
      exact ⟨by omega, by omega, hm.parent hp⟩
    · rintro ⟨hj0, hj1, hj⟩
      by_cases hz : j = 0
      · rw [hz, hroot] at hj; cases hj
      · have hk : (j - 1).toNat < cs.length := by omega
        refine ⟨(j - 1).toNat, by omega, ?_⟩
        have := hpar _ _ (List.getElem?_eq_getElem hk)
        have hjj : (((j - 1).toNat : ℕ) : ℤ) + 1 = j := by omega
        rw [hjj, hj] at this
        have hq := this.1
        simp only [Except.ok.injEq, Option.some.injEq] at hq
        rw [List.getElem?_map, List.getElem?_eq_getElem hk, hq]
        rfl

/-- C44: with an unknown parent `add_component` raises `KeyError`; the component has been added
nevertheless and its parent cannot be found. -/
theorem C44_unknown_parent (intersect : Part d → Part d → Option (Vec d)) (pose : Pose d)
    (root : Part d) (cs : List (AddCall d)) (hcs : ExistingParents 1 cs) (o : Part d) (r : Vec d)
    (parent : ℤ) (hp : parent < 0 ∨ (cs.length : ℤ) + 1 < parent) :
    let m := (addAll intersect ((MultiObstacle.create pose).setRoot root).1 cs).1
    let res := m.addComponent intersect o parent (some r)
    res.2 = .error .keyError ∧ res.1.nComponents = m.nComponents + 1
      ∧ res.1.getParentIdx m.nComponents = .error .indexError := by
  intro m res
  obtain ⟨h, -⟩ := addAll_graph intersect cs _ [] (root_graph pose root) (by simpa using hcs)
  rw [List.nil_append] at h
  have hm : GraphOf m (cs.map AddCall.parent) := h
  have hlen : (m.parts.length : ℤ) = cs.length + 1 := by rw [hm.parts]; simp
  have hnew : (m.parts.length : ℤ) ∉ m.nodes.map Prod.fst := by
    rw [hm.node_iff, hlen]; simp
  have hnodes : addNode m.nodes m.parts.length = m.nodes ++ [((m.parts.length : ℤ), [])] := by
    unfold addNode; rw [if_neg hnew]
  have hres : res = ({ m with
      localPoses := m.localPoses ++ [o.pose]
      parts := m.parts ++ [{ o with reference := r, pose := m.pose.poseFromRelative o.pose }]
      nodes := m.nodes ++ [((m.parts.length : ℤ), [])] }, .error .keyError) := by
    simp only [res]
    unfold addComponent chooseReference insertComponent
    simp only
    rw [hnodes, if_neg]
    rw [List.map_append, List.mem_append, not_or, hm.node_iff]
    simp only [List.map_cons, List.map_nil, List.mem_singleton, List.length_map]
    omega
  rw [hres]
  refine ⟨rfl, by simp [nComponents], ?_⟩
  unfold getParentIdx nComponents
  simp only
  rw [if_neg (by rw [hm.root]; omega), if_pos (by simp)]
  have : predecessors { m with
      localPoses := m.localPoses ++ [o.pose]
      parts := m.parts ++ [{ o with reference := r, pose := m.pose.poseFromRelative o.pose }]
      nodes := m.nodes ++ [((m.parts.length : ℤ), [])] } m.parts.length = [] := by
    unfold predecessors
    rw [List.map_eq_nil_iff, List.filter_eq_nil_iff]
    rintro ⟨p, j⟩ he
    obtain ⟨i, rfl, hi⟩ := hm.edge_iff.mp he
    have := (List.getElem?_eq_some_iff.mp hi).1
    simp only [List.length_map] at this
    simp only [decide_eq_true_eq]
    omega
  rw [this]

/-- C44: with its own future number as parent `add_component` succeeds; the new component is then its
own parent and does not reach the root. -/
theorem C44_own_parent (intersect : Part d → Part d → Option (Vec d)) (pose : Pose d)
    (root : Part d) (o : Part d) (r : Vec d) :
    let m := ((MultiObstacle.create pose).setRoot root).1
    let res := m.addComponent intersect o 1 (some r)
    res.2 = .ok 1 ∧ res.1.getParentIdx 1 = .ok (some 1) ∧ ¬ ReachesRoot res.1 1 := by
  intro m res
  have h1 : res.1.getParentIdx 1 = .ok (some 1) := rfl
  refine ⟨rfl, h1, ?_⟩
  intro h
  have : ∀ i, ReachesRoot res.1 i → i ≠ 1 := by
    intro i h
    induction h with
    | root h => rintro rfl; rw [h1] at h; cases h
    | step h _ ih => rintro rfl; rw [h1] at h; cases h; exact ih rfl
  exact this 1 h rfl

/-- C44: a second `set_root` returns the number 0 although the new component has another number; it
does not become the root, and its parent cannot be found. -/
theorem C44_second_root (intersect : Part d → Part d → Option (Vec d)) (pose : Pose d)
    (root : Part d) (cs : List (AddCall d)) (hcs : ExistingParents 1 cs) (o : Part d) :
    let m := (addAll intersect ((MultiObstacle.create pose).setRoot root).1 cs).1
    (m.setRoot o).2 = 0 ∧ (m.setRoot o).1.nComponents = m.nComponents + 1
      ∧ (m.setRoot o).1.getParentIdx m.nComponents = .error .exception
      ∧ (m.setRoot o).1.childrenOf 0 = .ok [] := by
  intro m
  obtain ⟨h, -⟩ := addAll_graph intersect cs _ [] (root_graph pose root) (by simpa using hcs)
  rw [List.nil_append] at h
  have hm : GraphOf m (cs.map AddCall.parent) := h
  have h0 : (0 : ℤ) ∈ m.nodes.map Prod.fst := hm.node_iff.mpr ⟨le_refl _, by omega⟩
  have hfst : ((m.setRoot o).1.nodes).map Prod.fst = m.nodes.map Prod.fst := by
    simp only [setRoot, addNode]
    rw [if_pos h0, List.map_map]
    apply List.map_congr_left
    intro e _
    simp only [Function.comp]
    split_ifs with he
    · exact he.symm
    · rfl
  refine ⟨rfl, by simp [setRoot, nComponents], ?_, ?_⟩
  · unfold getParentIdx
    rw [if_neg, if_neg]
    · rw [hfst, hm.node_iff]
      unfold nComponents
      rw [hm.parts]; push_cast; omega
    · change (m.parts.length : ℤ) ≠ 0
      rw [hm.parts]; push_cast; omega
  · unfold childrenOf
    have hsome : ((m.setRoot o).1.nodes.find? (fun e => e.1 = 0)).isSome := by
      rw [List.find?_isSome]
      rw [← hfst] at h0
      obtain ⟨e, he, hei⟩ := List.mem_map.mp h0
      exact ⟨e, he, by simpa using hei⟩
    obtain ⟨e, he⟩ := Option.isSome_iff_exists.mp hsome
    rw [he]
    have hei : e.1 = 0 := by simpa using List.find?_some he
    have hem : e ∈ (m.setRoot o).1.nodes := List.mem_of_find?_eq_some he
    simp only [setRoot, addNode] at hem
    rw [if_pos h0] at hem
    obtain ⟨e0, _, rfl⟩ := List.mem_map.mp hem
    by_cases h : e0.1 = 0
    · simp [h]
    · rw [if_neg h] at hei; exact absurd hei h

/-- C44 is not vacuous: three components, two of them below the root. -/
example (o : Part 2) : ExistingParents 1 [⟨o, 0, some 0⟩, ⟨o, 1, some 0⟩, ⟨o, 0, some 0⟩]
    ∧ ((-1 : ℤ) < 0 ∨ ((3 : ℕ) : ℤ) + 1 < -1) := by
  refine ⟨⟨by norm_num, by norm_num, rfl, by norm_num, by norm_num, rfl, by norm_num, by norm_num,
    rfl, trivial⟩, by norm_num⟩

end Verif
