import Verif.Lemmas.TreeStructure
import Verif.Lemmas.Sequence

/-! # Helper lemmas: level order and orientations of a direction tree -/

open Verif.Spec
open scoped RealInnerProductSpace

set_option linter.unusedSectionVars false

namespace Verif

open Spec.RootedTree (lev)

variable {I : Type} [DecidableEq I] {d : ℕ} {t : Tree I d} {r : I}

/-- A level-ascending arrangement of all nodes. -/
structure Ascending (t : Tree I d) (sorted : List I) : Prop where
  perm : sorted.Perm t.nodes
  asc : sorted.Pairwise (fun a b => lev t a ≤ lev t b)

lemma filterMap_getElem?_range {α : Type*} (l : List α) :
    (List.range l.length).filterMap (fun i => l[i]?) = l := by
  induction l with
  | nil => rfl
  | cons a l ih =>
    rw [List.length_cons, List.range_succ_eq_map, List.filterMap_cons]
    simp only [List.getElem?_cons_zero, List.filterMap_map]
    congr 1

lemma filterMap_eq_map_of_lt {α : Type*} (l : List α) (a0 : α) (is : List ℕ)
    (h : ∀ i ∈ is, i < l.length) :
    is.filterMap (fun i => l[i]?) = is.map (fun i => l.getD i a0) := by
  induction is with
  | nil => rfl
  | cons i is ih =>
    have hi := h i List.mem_cons_self
    rw [List.filterMap_cons, List.getElem?_eq_getElem hi, List.map_cons,
      ih (fun j hj => h j (List.mem_cons_of_mem _ hj))]
    simp [List.getD, List.getElem?_eq_getElem hi]

lemma getNodesAscending_spec (h : RootedTree t r) {argsort : List ℤ → List ℕ}
    (ha : ArgsortSpec argsort) :
    ∃ sorted, t.getNodesAscending argsort = .ok sorted ∧ Ascending t sorted := by
  have hm : t.nodes.mapM t.level = some (t.nodes.map (lev t)) :=
    mapM_some _ _ _ (fun n hn => h.level_eq hn)
  obtain ⟨h1, h2⟩ := ha (t.nodes.map (lev t))
  refine ⟨_, by unfold Tree.getNodesAscending; rw [hm], ?_, ?_⟩
  · have := h1.filterMap (fun i => t.nodes[i]?)
    rw [List.length_map, filterMap_getElem?_range] at this
    exact this
  · have hlt : ∀ i ∈ argsort (t.nodes.map (lev t)), i < t.nodes.length := by
      intro i hi
      have := h1.mem_iff.mp hi
      rw [List.mem_range, List.length_map] at this; exact this
    rw [filterMap_eq_map_of_lt t.nodes r _ hlt, List.pairwise_map]
    rw [List.pairwise_map] at h2
    refine List.Pairwise.imp_of_mem ?_ h2
    intro a b ha hb hab
    have e : ∀ i, i < t.nodes.length → (t.nodes.map (lev t)).getD i 0 = lev t (t.nodes.getD i r) := by
      intro i hi
      simp [List.getD, List.getElem?_eq_getElem hi]
    rw [e a (hlt a ha), e b (hlt b hb)] at hab
    exact hab

namespace Ascending

lemma mem_iff (hs : Ascending t sorted) {n : I} : n ∈ sorted ↔ n ∈ t.nodes := hs.perm.mem_iff

lemma nodup (hs : Ascending t sorted) (h : RootedTree t r) : sorted.Nodup :=
  hs.perm.nodup_iff.mpr h.nodup

lemma lev_pos (h : RootedTree t r) {n : I} (hn : n ∈ t.nodes) (hne : n ≠ r) : 0 < lev t n := by
  have := h.lev_desc (h.root_desc hn hne)
  rw [h.lev_root] at this; exact this

lemma lev_nonneg (h : RootedTree t r) {n : I} (hn : n ∈ t.nodes) : 0 ≤ lev t n := by
  obtain ⟨l, h1, h2, _⟩ := h.level_bound n hn
  have := h.level_eq hn
  rw [h1] at this
  rw [← Option.some.inj this]; exact h2

lemma eq_cons (hs : Ascending t sorted) (h : RootedTree t r) : ∃ rest, sorted = r :: rest := by
  cases hl : sorted with
  | nil =>
    have := hs.mem_iff.mpr h.root_mem
    rw [hl] at this; simp at this
  | cons a rest =>
    by_cases har : a = r
    · exact ⟨rest, by rw [har]⟩
    · exfalso
      have hr : r ∈ rest := by
        have := hs.mem_iff.mpr h.root_mem
        rw [hl] at this
        rcases List.mem_cons.mp this with e | e
        · exact absurd e.symm har
        · exact e
      have hasc := hs.asc
      rw [hl, List.pairwise_cons] at hasc
      have h1 := hasc.1 r hr
      have h2 := lev_pos h (hs.mem_iff.mp (by rw [hl]; simp)) har
      rw [h.lev_root] at h1; omega

end Ascending

section Orient
variable [h2 : Fact (2 ≤ d)]

lemma fromDirections_self {v : Vec d} (hv : ‖v‖ = 1) :
    fromDirections v v = some ⟨⟨v, parallelPerp v⟩, 0⟩ := by
  have h0 : v ≠ 0 := by rintro rfl; simp at hv
  rw [fromDirections_close h0 h0 (allclose_refl _), unit_of_norm_one hv,
    InnerProductGeometry.angle_self h0]

/-- The result of `evaluate_all_orientations`. -/
structure IsOrient (t : Tree I d) (r : I) (O : I → Rot (Vec d)) : Prop where
  root : O r = ⟨⟨dirOf t r, parallelPerp (dirOf t r)⟩, 0⟩
  child : ∀ p c, IsParent t p c → fromDirections (dirOf t p) (dirOf t c) = some (O c)

/-- No two neighbouring directions for which `from_directions` is not defined. -/
def Defined (t : Tree I d) : Prop :=
  ∀ p c, IsParent t p c → ∃ o, fromDirections (dirOf t p) (dirOf t c) = some o

lemma dir_eq (h : RootedTree t r) {n : I} (hn : n ∈ t.nodes) :
    t.dir n = some (dirOf t n) ∧ ‖dirOf t n‖ = 1 := by
  obtain ⟨v, h1, h2⟩ := h.unit_dir n hn
  simp [dirOf, h1, h2]

/-- The orientations that `evaluate_all_orientations` stores. -/
noncomputable def orientOf (t : Tree I d) (r : I) (n : I) : Rot (Vec d) :=
  open Classical in
  if n = r then ⟨⟨dirOf t r, parallelPerp (dirOf t r)⟩, 0⟩
  else
    match t.predecessors n with
    | p :: _ => (fromDirections (dirOf t p) (dirOf t n)).getD ⟨⟨0, 0⟩, 0⟩
    | [] => ⟨⟨0, 0⟩, 0⟩

lemma orientOf_isOrient (h : RootedTree t r) (hd : Defined t) : IsOrient t r (orientOf t r) := by
  refine ⟨by simp [orientOf], fun p c hp => ?_⟩
  have hne : c ≠ r := by rintro rfl; exact h.root_no_parent p hp
  obtain ⟨o, ho⟩ := hd p c hp
  simp [orientOf, hne, h.predecessors_eq hp, ho]

lemma IsOrient.on (h : RootedTree t r) {O : I → Rot (Vec d)} (hO : IsOrient t r O) {n : I}
    (hn : n ∈ t.nodes) : (O n).base.ON := by
  by_cases hr : n = r
  · subst hr
    rw [hO.root]
    exact ⟨(dir_eq h hn).2, parallelPerp_norm _, parallelPerp_orth _⟩
  · obtain ⟨p, hp⟩ := h.has_parent n hn hr
    exact (fromDirections_some (hO.child p n hp)).2.2.1

lemma IsOrient.b0 (h : RootedTree t r) {O : I → Rot (Vec d)} (hO : IsOrient t r O) {p c : I}
    (hp : IsParent t p c) : (O c).base.b0 = dirOf t p := by
  rw [(fromDirections_some (hO.child p c hp)).2.2.2.1,
    unit_of_norm_one (dir_eq h (h.edge_fst _ _ hp)).2]

lemma IsOrient.angle {O : I → Rot (Vec d)} (hO : IsOrient t r O) {p c : I}
    (hp : IsParent t p c) : (O c).angle = InnerProductGeometry.angle (dirOf t p) (dirOf t c) :=
  (fromDirections_some (hO.child p c hp)).2.2.2.2

lemma IsOrient.still (h : RootedTree t r) {O : I → Rot (Vec d)} (hO : IsOrient t r O) {p c : I}
    (hp : IsParent t p c) (he : dirOf t p = dirOf t c) : (O c).angle = 0 := by
  have hc := (dir_eq h (h.edge_snd _ _ hp)).2
  rw [hO.angle hp, he, InnerProductGeometry.angle_self]
  rintro h0; rw [h0] at hc; simp at hc

lemma IsOrient.angle_nonneg (h : RootedTree t r) {O : I → Rot (Vec d)} (hO : IsOrient t r O)
    {n : I} (hn : n ∈ t.nodes) : 0 ≤ (O n).angle := by
  by_cases hr : n = r
  · subst hr; rw [hO.root]
  · obtain ⟨p, hp⟩ := h.has_parent n hn hr
    rw [hO.angle hp]; exact InnerProductGeometry.angle_nonneg _ _

/-- The list of edges in the order in which `evaluate_all_orientations` visits them. -/
def visitEdges (t : Tree I d) (ns : List I) : List (I × I) :=
  ns.flatMap (fun n => (t.successors n).map (fun c => (n, c)))

lemma orientStep_fold (h : RootedTree t r) {O : I → Rot (Vec d)} (hO : IsOrient t r O)
    (es : List (I × I)) (hes : ∀ e ∈ es, IsParent t e.1 e.2)
    (st : NodeState I d) (done : List I)
    (hdone : ∀ n ∈ done, st.partDir n = some (dirOf t n) ∧ st.orient n = some (O n))
    (hord : ∀ pre e post, es = pre ++ e :: post → e.1 ∈ done ∨ e.1 ∈ pre.map Prod.snd) :
    ∃ st', es.foldlM (Tree.orientStep t) st = .ok st' ∧ st'.weight = st.weight
      ∧ st'.part = st.part ∧
      (∀ n, n ∈ done ∨ n ∈ es.map Prod.snd → st'.partDir n = some (dirOf t n)
        ∧ st'.orient n = some (O n)) := by
  induction es generalizing st done with
  | nil => exact ⟨st, rfl, rfl, rfl, by simpa using hdone⟩
  | cons e es ih =>
    have h1 : e.1 ∈ done := by
      rcases hord [] e es rfl with h | h
      · exact h
      · simp at h
    have hp : IsParent t e.1 e.2 := hes e List.mem_cons_self
    have hstep : Tree.orientStep t st e = .ok { st with
        orient := Function.update st.orient e.2 (some (O e.2))
        partDir := Function.update st.partDir e.2 (some (dirOf t e.2)) } := by
      unfold Tree.orientStep
      rw [(hdone _ h1).1, (dir_eq h (h.edge_snd _ _ hp)).1]
      simp only [hO.child _ _ hp]
    obtain ⟨st', g1, g2, g3, g4⟩ := ih (fun e' he' => hes e' (List.mem_cons_of_mem _ he'))
      { st with
        orient := Function.update st.orient e.2 (some (O e.2))
        partDir := Function.update st.partDir e.2 (some (dirOf t e.2)) }
      (e.2 :: done)
      (by
        intro n hn
        by_cases hne : n = e.2
        · subst hne; simp
        · simp only [Function.update_of_ne hne]
          rcases List.mem_cons.mp hn with h | h
          · exact absurd h hne
          · exact hdone n h)
      (by
        intro pre e' post hl
        rcases hord (e :: pre) e' post (by rw [hl]; rfl) with h | h
        · left; exact List.mem_cons_of_mem _ h
        · rw [List.map_cons, List.mem_cons] at h
          rcases h with h | h
          · left; rw [h]; exact List.mem_cons_self
          · right; exact h)
    refine ⟨st', ?_, g2, g3, ?_⟩
    · rw [List.foldlM_cons, hstep]; exact g1
    · intro n hn
      apply g4
      rcases hn with h | h
      · left; exact List.mem_cons_of_mem _ h
      · rw [List.map_cons, List.mem_cons] at h
        rcases h with h | h
        · left; rw [h]; exact List.mem_cons_self
        · right; exact h

lemma mem_visitEdges {ns : List I} {e : I × I} :
    e ∈ visitEdges t ns ↔ e.1 ∈ ns ∧ IsParent t e.1 e.2 := by
  unfold visitEdges
  simp only [List.mem_flatMap, List.mem_map]
  constructor
  · rintro ⟨n, hn, c, hc, rfl⟩; exact ⟨hn, Tree.mem_successors.mp hc⟩
  · rintro ⟨h1, h2⟩; exact ⟨e.1, h1, e.2, Tree.mem_successors.mpr h2, rfl⟩

/-- Every edge starts at the root or at the end of an earlier edge. -/
lemma visitEdges_order (h : RootedTree t r) (pre post : List (I × I)) (e : I × I)
    (hl : visitEdges t t.nodes = pre ++ e :: post) : e.1 = r ∨ e.1 ∈ pre.map Prod.snd := by
  have he : e ∈ visitEdges t t.nodes := by rw [hl]; simp
  obtain ⟨hm, hp⟩ := mem_visitEdges.mp he
  by_cases hr : e.1 = r
  · exact Or.inl hr
  right
  obtain ⟨q, hq⟩ := h.has_parent e.1 hm hr
  have hlt := h.parent_before q e.1 hq
  -- the edge `(q, e.1)` is visited, and it comes before `e`
  have hmem : (q, e.1) ∈ visitEdges t t.nodes := mem_visitEdges.mpr ⟨h.edge_fst _ _ hq, hq⟩
  -- sources are visited in the order of the node list
  have hsorted : (visitEdges t t.nodes).Pairwise
      (fun a b => t.nodes.idxOf a.1 ≤ t.nodes.idxOf b.1) := by
    unfold visitEdges
    rw [List.pairwise_flatMap]
    constructor
    · intro n hn
      rw [List.pairwise_map]
      exact List.pairwise_of_forall (fun _ _ => le_refl _)
    · have hnod := h.nodup
      rw [List.pairwise_iff_getElem]
      intro i j hi hj hij x hx y hy
      simp only [List.mem_map] at hx hy
      obtain ⟨_, _, rfl⟩ := hx
      obtain ⟨_, _, rfl⟩ := hy
      simp only
      rw [hnod.idxOf_getElem, hnod.idxOf_getElem]; omega
  rw [hl] at hmem hsorted
  rcases List.mem_append.mp hmem with h1 | h1
  · exact List.mem_map.mpr ⟨_, h1, rfl⟩
  · exfalso
    rcases List.mem_cons.mp h1 with h1 | h1
    · have : q = e.1 := congrArg Prod.fst h1
      rw [this] at hlt; omega
    · have h3 := (List.pairwise_append.mp hsorted).2.1
      rw [List.pairwise_cons] at h3
      have := h3.1 _ h1
      simp only at this; omega

lemma evaluateAllOrientations_spec (h : RootedTree t r) (hd : Defined t) (st : NodeState I d)
    {sorted : List I} (hs : Ascending t sorted) :
    ∃ st', t.evaluateAllOrientations st sorted = .ok st' ∧ st'.weight = st.weight
      ∧ st'.part = st.part ∧ ∀ n ∈ t.nodes, st'.orient n = some (orientOf t r n) := by
  obtain ⟨rest, rfl⟩ := hs.eq_cons h
  have hO := orientOf_isOrient h hd
  have hr := dir_eq h h.root_mem
  unfold Tree.evaluateAllOrientations
  simp only [hr.1, fromDirections_self hr.2]
  obtain ⟨st', g1, g2, g3, g4⟩ := orientStep_fold h hO (visitEdges t t.nodes)
    (fun e he => (mem_visitEdges.mp he).2)
    { st with
      partDir := Function.update st.partDir r (some (dirOf t r))
      orient := Function.update st.orient r
        (some ⟨⟨dirOf t r, parallelPerp (dirOf t r)⟩, 0⟩) } [r]
    (by
      intro n hn
      rw [List.mem_singleton] at hn
      subst hn
      simp [hO.root])
    (by
      intro pre e post hl
      rcases visitEdges_order h pre post e hl with h | h
      · left; simp [h]
      · right; exact h)
  refine ⟨st', g1, g2, g3, fun n hn => ?_⟩
  by_cases hne : n = r
  · exact (g4 n (Or.inl (by simp [hne]))).2
  · obtain ⟨p, hp⟩ := h.has_parent n hn hne
    exact (g4 n (Or.inr (List.mem_map.mpr
      ⟨(p, n), mem_visitEdges.mpr ⟨h.edge_fst _ _ hp, hp⟩, rfl⟩))).2

end Orient
end Verif
