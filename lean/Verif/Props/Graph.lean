import Verif.Spec.Graph
import Verif.Lemmas.GraphHandler

/-!
# C43: the graph handler keeps parents and children consistent
-/

namespace Verif

open GraphHandler Spec

variable {α : Type} [DecidableEq α]

lemma knownOnce_step {g : GraphHandler α} (h : GraphHandler.Exact g) {c : Call α}
    (hc : KnownOnce g c) : GraphHandler.Exact (g.step c).1 ∧ (g.step c).2 = .ok () := by
  cases c with
  | setRoot v => exact ⟨setRoot_exact h hc, rfl⟩
  | add v p =>
    refine ⟨add_exact h hc.1 hc.2, ?_⟩
    obtain ⟨i, hi⟩ := List.mem_iff_getElem?.mp hc.2
    obtain ⟨_, _, he⟩ := add_eq h.toLists hc.1 hi
    change (g.addElementWithParent v p).2 = _
    rw [he]
  | setParent v p =>
    refine ⟨setParent_exact h hc.1 hc.2, ?_⟩
    obtain ⟨j, hj, _⟩ := (getParent_none_iff h.toLists).mp hc.1
    obtain ⟨i, hi⟩ := List.mem_iff_getElem?.mp hc.2
    obtain ⟨_, _, he⟩ := setParent_eq h.toLists hj hi
    change (g.setParentOfElement v p).2 = _
    rw [he]

lemma known_step {g : GraphHandler α} (h : Lists g) {c : Call α} (hc : Known g c) :
    Lists (g.step c).1 ∧ (g.step c).2 = .ok () := by
  cases c with
  | setRoot v => exact ⟨setRoot_lists h hc, rfl⟩
  | add v p =>
    refine ⟨add_lists h hc.1 hc.2, ?_⟩
    obtain ⟨i, hi⟩ := List.mem_iff_getElem?.mp hc.2
    obtain ⟨_, _, he⟩ := add_eq h hc.1 hi
    change (g.addElementWithParent v p).2 = _
    rw [he]
  | setParent v p =>
    refine ⟨setParent_lists h hc.1 hc.2, ?_⟩
    obtain ⟨j, hj⟩ := List.mem_iff_getElem?.mp hc.1
    obtain ⟨i, hi⟩ := List.mem_iff_getElem?.mp hc.2
    obtain ⟨_, _, he⟩ := setParent_eq h hj hi
    change (g.setParentOfElement v p).2 = _
    rw [he]

lemma knownOnce_run {g : GraphHandler α} (h : GraphHandler.Exact g) {cs : List (Call α)}
    (hcs : EachCall KnownOnce g cs) : GraphHandler.Exact (g.run cs) := by
  induction cs generalizing g with
  | nil => exact h
  | cons c cs ih => exact ih (knownOnce_step h hcs.1).1 hcs.2

lemma known_run {g : GraphHandler α} (h : Lists g) {cs : List (Call α)}
    (hcs : EachCall Known g cs) : Lists (g.run cs) := by
  induction cs generalizing g with
  | nil => exact h
  | cons c cs ih => exact ih (known_step h hcs.1).1 hcs.2

lemma listed_iff {g : GraphHandler α} (h : Lists g) {v w : α} {i j : ℕ}
    (hi : g.values[i]? = some v) (hj : g.values[j]? = some w) :
    ListedChild g v w ↔ ∃ c, g.children[i]? = some c ∧ j ∈ c := by
  obtain ⟨i', c, l, hi', hc, hl, hf⟩ := getChildren_total h (List.mem_of_getElem? hi)
  have : i' = i := by
    obtain ⟨h1, e1⟩ := List.getElem?_eq_some_iff.mp hi
    obtain ⟨h2, e2⟩ := List.getElem?_eq_some_iff.mp hi'
    exact (h.nodup.getElem_inj_iff (hi := h2) (hj := h1)).mp (e2.trans e1.symm)
  subst this
  unfold ListedChild
  constructor
  · rintro ⟨l', hl', hw⟩
    rw [hl] at hl'; cases hl'
    exact ⟨c, hc, (mem_forall₂ h hf hj).mp hw⟩
  · rintro ⟨c', hc', hj'⟩
    rw [hc] at hc'; cases hc'
    exact ⟨l, hl, (mem_forall₂ h hf hj).mpr hj'⟩

/-- C43 (partial): start from any list of distinct elements and make any number of `set_root`,
`add_element_with_parent` and `set_parent_of_element` calls which add new elements only, refer to
known parents and give a parent to elements without one.  Then every call succeeds, the three lists
have equal length, and `w` is listed as a child of `v` (once) exactly when `v` is the recorded parent
of `w`.

Missing for the full property: histories with an unknown parent and with a second parent for the
same element; the property is false for them (`C43_unknown_parent`, `C43_second_parent`). -/
theorem C43_consistent_partial (vals : List α) (hv : vals.Nodup) (cs : List (Call α))
    (hcs : EachCall KnownOnce (create vals) cs) :
    EachCall (fun g c => (g.step c).2 = .ok ()) (create vals) cs
      ∧ ((create vals).run cs).parent.length = ((create vals).run cs).nNodes
      ∧ ((create vals).run cs).children.length = ((create vals).run cs).nNodes
      ∧ (∀ v ∈ ((create vals).run cs).values, ∃ l, ((create vals).run cs).getChildren v = .ok l
        ∧ l.Nodup
        ∧ ∀ w, w ∈ l ↔ ((create vals).run cs).getParent w = .ok (some v)) := by
  refine ⟨?_, ?_⟩
  · have : ∀ (cs : List (Call α)) (g : GraphHandler α), GraphHandler.Exact g →
        EachCall KnownOnce g cs → EachCall (fun g c => (g.step c).2 = .ok ()) g cs := by
      intro cs
      induction cs with
      | nil => intro _ _ _; trivial
      | cons c cs ih =>
        intro g hg h
        exact ⟨(knownOnce_step hg h.1).2, ih _ (knownOnce_step hg h.1).1 h.2⟩
    exact this cs _ (create_exact hv) hcs
  · have h := knownOnce_run (create_exact hv) hcs
    set g := (create vals).run cs with hg
    refine ⟨h.lenP, h.lenC, ?_⟩
    intro v hvm
    obtain ⟨i, c, l, hi, hc, hl, hf⟩ := getChildren_total h.toLists hvm
    refine ⟨l, hl, nodup_forall₂ h.toLists hf (h.once _ _ hc), ?_⟩
    intro w
    rw [getParent_iff h.toLists]
    constructor
    · intro hw
      obtain ⟨j, hj⟩ : ∃ j : ℕ, g.values[j]? = some w := by
        clear hl hc
        induction hf with
        | nil => cases hw
        | @cons a b _ _ hab _ ih =>
          rcases List.mem_cons.mp hw with rfl | hw
          · exact ⟨a, hab⟩
          · exact ih hw
      exact ⟨i, j, hj, hi, h.exact _ _ _ hc ((mem_forall₂ h.toLists hf hj).mp hw)⟩
    · rintro ⟨i', j, hj, hi', hp⟩
      have : i' = i := by
        obtain ⟨h1, e1⟩ := List.getElem?_eq_some_iff.mp hi
        obtain ⟨h2, e2⟩ := List.getElem?_eq_some_iff.mp hi'
        exact (h.nodup.getElem_inj_iff (hi := h2) (hj := h1)).mp (e2.trans e1.symm)
      subst this
      obtain ⟨c', hc', hjc⟩ := h.listed _ _ hp
      rw [hc] at hc'; cases hc'
      exact (mem_forall₂ h.toLists hf hj).mpr hjc

/-- C43: also when elements are given a second parent, the recorded parent of an element lists it as
a child. -/
theorem C43_parent_lists_child (vals : List α) (hv : vals.Nodup) (cs : List (Call α))
    (hcs : EachCall Known (create vals) cs) (v w : α)
    (hw : ((create vals).run cs).getParent w = .ok (some v)) :
    ListedChild ((create vals).run cs) v w := by
  have h := known_run (create_exact hv).toLists hcs
  obtain ⟨i, j, hj, hi, hp⟩ := (getParent_iff h).mp hw
  exact (listed_iff h hi hj).mpr (h.listed _ _ hp)

/-- C43, negative result: giving an element a second parent leaves it in the list of children of the
first one, for every such call in every history. -/
theorem C43_second_parent (vals : List α) (hv : vals.Nodup) (cs : List (Call α))
    (hcs : EachCall Known (create vals) cs) (v w u : α)
    (hw : ((create vals).run cs).getParent w = .ok (some v))
    (hu : u ∈ ((create vals).run cs).values) :
    let g' := (((create vals).run cs).step (.setParent w u)).1
    g'.getParent w = .ok (some u) ∧ ListedChild g' v w ∧ ListedChild g' u w := by
  have h := known_run (create_exact hv).toLists hcs
  set g := (create vals).run cs with hg
  obtain ⟨i, j, hj, hi, hp⟩ := (getParent_iff h).mp hw
  obtain ⟨k, hk⟩ := List.mem_iff_getElem?.mp hu
  have h' := setParent_lists h (List.mem_of_getElem? hj) hu
  obtain ⟨c0, hc0, he⟩ := setParent_eq h hj hk
  have hjp : j < g.parent.length := (List.getElem?_eq_some_iff.mp hp).1
  change (g.setParentOfElement w u).1.getParent w = _ ∧ ListedChild (g.setParentOfElement w u).1 v w
    ∧ ListedChild (g.setParentOfElement w u).1 u w
  rw [he] at h' ⊢
  have hpar : (getParent { values := g.values, children := g.children.set k (c0 ++ [j])
                           parent := g.parent.set j (some k) } w) = .ok (some u) := by
    rw [getParent_iff h']
    exact ⟨k, j, hj, hk, (set_parent_get hjp).mpr (Or.inl ⟨rfl, rfl⟩)⟩
  refine ⟨hpar, ?_, ?_⟩
  · rw [listed_iff h' hi hj]
    obtain ⟨c, hc, hjc⟩ := h.listed _ _ hp
    by_cases hik : i = k
    · subst hik
      rw [hc0] at hc; cases hc
      exact ⟨_, (set_children hc0).mpr (Or.inl ⟨rfl, rfl⟩), List.mem_append_left _ hjc⟩
    · exact ⟨c, (set_children hc0).mpr (Or.inr ⟨hik, hc⟩), hjc⟩
  · rw [listed_iff h' hk hj]
    exact ⟨_, (set_children hc0).mpr (Or.inl ⟨rfl, rfl⟩), by simp⟩

/-- C43: `set_parent_of_element` with an unknown element or parent raises `ValueError` and changes
nothing. -/
theorem C43_unknown_in_set_parent (g : GraphHandler α) (v p : α) (h : v ∉ g.values ∨ p ∉ g.values) :
    g.step (.setParent v p) = (g, .error .valueError) := by
  change g.setParentOfElement v p = _
  unfold setParentOfElement
  by_cases hv : v ∈ g.values
  · have hp : p ∉ g.values := h.resolve_left (fun h => h hv)
    rw [pyIndex_error.mpr hp]
    rcases hx : pyIndex g.values v with e | i
    · have : e = .valueError := by
        unfold pyIndex at hx
        split at hx
        · cases hx; rfl
        · cases hx
      rw [this]
    · rfl
  · rw [pyIndex_error.mpr hv]

/-- C43, negative result: `add_element_with_parent` with an unknown parent raises `ValueError`, but
the element has been added: the lists of values and of parents have different lengths from then on,
and the parent of the new element cannot be read. -/
theorem C43_unknown_parent (vals : List α) (hv : vals.Nodup) (cs : List (Call α))
    (hcs : EachCall Known (create vals) cs) (v p : α)
    (hvn : v ∉ ((create vals).run cs).values) (hp : p ∉ ((create vals).run cs).values) (hvp : v ≠ p) :
    let r := ((create vals).run cs).step (.add v p)
    r.2 = .error .valueError ∧ v ∈ r.1.values ∧ r.1.parent.length + 1 = r.1.values.length
      ∧ r.1.getParent v = .error .indexError := by
  have h := known_run (create_exact hv).toLists hcs
  set g := (create vals).run cs with hg
  have he : g.addElementWithParent v p =
      ({ g with values := g.values ++ [v], children := g.children ++ [[]] }, .error .valueError) := by
    unfold addElementWithParent
    simp only
    rw [pyIndex_error.mpr (by rw [List.mem_append, List.mem_singleton, not_or]
                              exact ⟨hp, Ne.symm hvp⟩)]
  change (g.addElementWithParent v p).2 = _ ∧ v ∈ (g.addElementWithParent v p).1.values
    ∧ (g.addElementWithParent v p).1.parent.length + 1 = (g.addElementWithParent v p).1.values.length
    ∧ (g.addElementWithParent v p).1.getParent v = _
  rw [he]
  refine ⟨rfl, by simp, by simp [h.lenP], ?_⟩
  unfold getParent
  have hx : pyIndex (g.values ++ [v]) v = .ok g.values.length :=
    (pyIndex_iff (snoc_nodup h.nodup hvn)).mpr ((snoc_getElem? _ _ _ _).mpr (Or.inr ⟨rfl, rfl⟩))
  have hy : pyGet g.parent g.values.length = .error .indexError := by
    unfold pyGet; rw [List.getElem?_eq_none (by rw [h.lenP])]
  simp only [hx]
  change (pyGet g.parent g.values.length >>= _) = _
  rw [hy]; rfl

/-- C43: `add_element_with_parent(v, v)` with a new element is accepted and makes it its own
parent. -/
theorem C43_own_parent (vals : List α) (hv : vals.Nodup) (cs : List (Call α))
    (hcs : EachCall Known (create vals) cs) (v : α) (hvn : v ∉ ((create vals).run cs).values) :
    let r := ((create vals).run cs).step (.add v v)
    r.2 = .ok () ∧ r.1.getParent v = .ok (some v) := by
  have h := known_run (create_exact hv).toLists hcs
  set g := (create vals).run cs with hg
  have hx : pyIndex (g.values ++ [v]) v = .ok g.values.length :=
    (pyIndex_iff (snoc_nodup h.nodup hvn)).mpr ((snoc_getElem? _ _ _ _).mpr (Or.inr ⟨rfl, rfl⟩))
  have hc : (g.children ++ [[]])[g.values.length]? = some [] :=
    (snoc_getElem? _ _ _ _).mpr (Or.inr ⟨h.lenC.symm, rfl⟩)
  have he : g.addElementWithParent v v =
      ({ values := g.values ++ [v]
         children := (g.children ++ [[]]).set g.values.length ([] ++ [g.values.length])
         parent := g.parent ++ [some g.values.length] }, .ok ()) := by
    unfold addElementWithParent
    simp only [hx, hc]
    simp
  change (g.addElementWithParent v v).2 = _ ∧ (g.addElementWithParent v v).1.getParent v = _
  rw [he]
  refine ⟨rfl, ?_⟩
  unfold getParent
  refine bind_ok.mpr ⟨_, hx, bind_ok.mpr ⟨some g.values.length, pyGet_iff.mpr
    ((snoc_getElem? _ _ _ _).mpr (Or.inr ⟨h.lenP.symm, rfl⟩)), bind_ok.mpr ⟨v, pyGet_iff.mpr ?_, rfl⟩⟩⟩
  exact (snoc_getElem? _ _ _ _).mpr (Or.inr ⟨rfl, rfl⟩)

/-- C43: the roots are exactly the elements without parent. -/
theorem C43_roots (vals : List α) (hv : vals.Nodup) (cs : List (Call α))
    (hcs : EachCall Known (create vals) cs) (w : α) :
    ((create vals).run cs).getParent w = .ok none ↔
      ∃ i ∈ ((create vals).run cs).getRootIndices, ((create vals).run cs).values[i]? = some w := by
  have h := known_run (create_exact hv).toLists hcs
  rw [getParent_none_iff h]
  unfold getRootIndices
  constructor
  · rintro ⟨j, hj, hp⟩
    refine ⟨j, ?_, hj⟩
    rw [List.mem_filter, List.mem_range]
    exact ⟨(List.getElem?_eq_some_iff.mp hp).1, by simpa using hp⟩
  · rintro ⟨j, hj, hw⟩
    rw [List.mem_filter] at hj
    exact ⟨j, hw, by simpa using hj.2⟩

/-- C43: when elements are only added below known parents, the graph has no cycles: a parent comes
before its children in the list of elements. -/
theorem C43_no_cycles (vals : List α) (hv : vals.Nodup) (cs : List (Call α))
    (hcs : EachCall Known (create vals) cs) (hadd : ∀ c ∈ cs, ∀ v p, c ≠ .setParent v p) (v w : α)
    (hw : ((create vals).run cs).getParent w = .ok (some v)) :
    ∃ i j : ℕ, i < j ∧ ((create vals).run cs).values[i]? = some v
      ∧ ((create vals).run cs).values[j]? = some w := by
  have key : ∀ (cs : List (Call α)) (g : GraphHandler α), Lists g → EachCall Known g cs →
      (∀ c ∈ cs, ∀ v p, c ≠ .setParent v p) →
      (∀ i j : ℕ, g.parent[j]? = some (some i) → i < j) →
      ∀ i j : ℕ, (g.run cs).parent[j]? = some (some i) → i < j := by
    intro cs
    induction cs with
    | nil => intro g _ _ _ h; exact h
    | cons c cs ih =>
      intro g hg hc hn h
      refine ih (g.step c).1 (known_step hg hc.1).1 hc.2
        (fun c hc => hn c (List.mem_cons_of_mem _ hc)) ?_
      intro i j hp
      have hc1 := hc.1
      have hn1 := hn c List.mem_cons_self
      cases c with
      | setRoot v =>
        rcases (snoc_getElem? _ _ _ _).mp hp with hp | ⟨_, hp⟩
        · exact h i j hp
        · cases hp
      | add v p =>
        obtain ⟨k, hk⟩ := List.mem_iff_getElem?.mp hc1.2
        obtain ⟨_, _, he⟩ := add_eq hg hc1.1 hk
        change (g.addElementWithParent v p).1.parent[j]? = _ at hp
        rw [he] at hp
        rcases (snoc_getElem? _ _ _ _).mp hp with hp | ⟨hj, hp⟩
        · exact h i j hp
        · cases hp
          rw [hj, hg.lenP]
          exact (List.getElem?_eq_some_iff.mp hk).1
      | setParent v p => exact absurd rfl (hn1 v p)
  have h := known_run (create_exact hv).toLists hcs
  obtain ⟨i, j, hj, hi, hp⟩ := (getParent_iff h).mp hw
  refine ⟨i, j, key cs _ (create_exact hv).toLists hcs hadd ?_ i j hp, hi, hj⟩
  intro i j hp
  simp only [create, List.getElem?_map, Option.map_eq_some_iff] at hp
  obtain ⟨_, _, h⟩ := hp; cases h

/-- C43: deleting an element is never possible, whatever the history: the call raises `NotImplementedError`, and
the graph is as before, since the call does not return a new one. -/
theorem C43_delete (vals : List α) (cs : List (Call α)) (e : α) :
    ((create vals).run cs).deleteElement e = .error .notImplemented := rfl

/-- C43 is not vacuous: a history with all kinds of calls, and the situations of the negative
results. -/
example : EachCall KnownOnce (create ([] : List ℕ)) [.setRoot 7, .add 8 7, .setRoot 9, .setParent 9 8]
    ∧ ((create ([] : List ℕ)).run [.setRoot 7, .add 8 7, .setRoot 9, .setParent 9 8]).getParent 9
      = .ok (some 8)
    ∧ ((create ([] : List ℕ)).run [.setRoot 7, .add 8 7, .setRoot 9, .setParent 9 8]).getChildren 7
      = .ok [8] := by
  refine ⟨⟨?_, ⟨?_, ?_⟩, ?_, ⟨?_, ?_⟩, trivial⟩, rfl, rfl⟩
  · change 7 ∉ ([] : List ℕ); decide
  · change 8 ∉ [7]; decide
  · change 7 ∈ [7]; decide
  · change 9 ∉ [7, 8]; decide
  · rfl
  · change 8 ∈ [7, 8, 9]; decide

end Verif
