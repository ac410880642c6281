import Verif.Model.GraphHandler
import Verif.Lemmas.Monad
import Mathlib.Data.List.Nodup

/-!
# Helper lemmas about `GraphHandler`
-/

namespace Verif.GraphHandler

variable {α : Type} [DecidableEq α]

set_option linter.unusedSectionVars false

lemma pyIndex_iff {l : List α} (hl : l.Nodup) {v : α} {i : ℕ} :
    pyIndex l v = .ok i ↔ l[i]? = some v := by
  unfold pyIndex
  constructor
  · intro h
    split at h
    · cases h
    · rename_i j hj
      cases h
      rw [List.findIdx?_eq_some_iff_getElem] at hj
      obtain ⟨hi, hv, _⟩ := hj
      rw [List.getElem?_eq_getElem hi]
      simpa using hv
  · intro h
    obtain ⟨hi, hv⟩ := List.getElem?_eq_some_iff.mp h
    have : l.findIdx? (· = v) = some i := by
      rw [List.findIdx?_eq_some_iff_getElem]
      refine ⟨hi, by simpa using hv, ?_⟩
      intro j hji
      simp only [decide_eq_true_eq]
      intro hj
      have := (hl.getElem_inj_iff (hi := hji.trans hi) (hj := hi)).mp (hj.trans hv.symm)
      omega
    rw [this]

lemma pyIndex_error {l : List α} {v : α} : pyIndex l v = .error .valueError ↔ v ∉ l := by
  unfold pyIndex
  rcases h : l.findIdx? (· = v) with _ | i
  · rw [List.findIdx?_eq_none_iff] at h
    simp only [decide_eq_false_iff_not] at h
    constructor
    · intro _ hv; exact h v hv rfl
    · intro _; rfl
  · rw [List.findIdx?_eq_some_iff_getElem] at h
    obtain ⟨hi, hv, _⟩ := h
    simp only [decide_eq_true_eq] at hv
    constructor
    · intro h; cases h
    · intro h; exact absurd (hv ▸ List.getElem_mem hi) h

lemma pyGet_iff {β : Type} {l : List β} {i : ℕ} {x : β} : pyGet l i = .ok x ↔ l[i]? = some x := by
  unfold pyGet
  rcases l[i]? with _ | y
  · simp
  · simp

/-- The consistency of the three lists, in terms of positions. -/
structure Lists (g : GraphHandler α) : Prop where
  nodup : g.values.Nodup
  lenP : g.parent.length = g.values.length
  lenC : g.children.length = g.values.length
  bound : ∀ i j : ℕ, g.parent[j]? = some (some i) → i < g.values.length
  boundC : ∀ (i : ℕ) (c : List ℕ) (j : ℕ), g.children[i]? = some c → j ∈ c → j < g.values.length
  listed : ∀ i j : ℕ, g.parent[j]? = some (some i) → ∃ c, g.children[i]? = some c ∧ j ∈ c

/-- In addition, a listed child has the recorded parent and is listed once. -/
structure Exact (g : GraphHandler α) : Prop extends Lists g where
  exact : ∀ (i : ℕ) (c : List ℕ) (j : ℕ), g.children[i]? = some c → j ∈ c → g.parent[j]? = some (some i)
  once : ∀ (i : ℕ) (c : List ℕ), g.children[i]? = some c → c.Nodup

lemma getParent_iff {g : GraphHandler α} (h : Lists g) {w v : α} :
    g.getParent w = .ok (some v) ↔
      ∃ i j : ℕ, g.values[j]? = some w ∧ g.values[i]? = some v ∧ g.parent[j]? = some (some i) := by
  unfold getParent
  constructor
  · intro hp
    obtain ⟨j, hj, hp⟩ := bind_ok.mp hp
    obtain ⟨p, hp1, hp⟩ := bind_ok.mp hp
    rw [pyIndex_iff h.nodup] at hj
    rw [pyGet_iff] at hp1
    cases p with
    | none => cases hp
    | some i =>
      obtain ⟨x, hx, hp⟩ := bind_ok.mp hp
      rw [pyGet_iff] at hx
      cases hp
      exact ⟨i, j, hj, hx, hp1⟩
  · rintro ⟨i, j, hj, hi, hp⟩
    refine bind_ok.mpr ⟨j, (pyIndex_iff h.nodup).mpr hj, bind_ok.mpr ⟨some i, pyGet_iff.mpr hp, ?_⟩⟩
    exact bind_ok.mpr ⟨v, pyGet_iff.mpr hi, rfl⟩

lemma getParent_none_iff {g : GraphHandler α} (h : Lists g) {w : α} :
    g.getParent w = .ok none ↔ ∃ j : ℕ, g.values[j]? = some w ∧ g.parent[j]? = some none := by
  unfold getParent
  constructor
  · intro hp
    obtain ⟨j, hj, hp⟩ := bind_ok.mp hp
    obtain ⟨p, hp1, hp⟩ := bind_ok.mp hp
    rw [pyIndex_iff h.nodup] at hj
    rw [pyGet_iff] at hp1
    cases p with
    | none => exact ⟨j, hj, hp1⟩
    | some i =>
      obtain ⟨x, _, hp⟩ := bind_ok.mp hp
      cases hp
  · rintro ⟨j, hj, hp⟩
    exact bind_ok.mpr ⟨j, (pyIndex_iff h.nodup).mpr hj, bind_ok.mpr ⟨none, pyGet_iff.mpr hp, rfl⟩⟩

lemma getChildren_total {g : GraphHandler α} (h : Lists g) {v : α} (hv : v ∈ g.values) :
    ∃ (i : ℕ) (c : List ℕ) (l : List α), g.values[i]? = some v ∧ g.children[i]? = some c ∧ g.getChildren v = .ok l
      ∧ List.Forall₂ (fun (j : ℕ) (w : α) => g.values[j]? = some w) c l := by
  obtain ⟨i, hi⟩ := List.mem_iff_getElem?.mp hv
  have hil : i < g.children.length := by
    rw [h.lenC]; exact (List.getElem?_eq_some_iff.mp hi).1
  have hc : g.children[i]? = some g.children[i] := List.getElem?_eq_getElem hil
  have hall : ∀ c : List ℕ, (∀ j ∈ c, j < g.values.length) →
      ∃ l, List.Forall₂ (fun (j : ℕ) (w : α) => g.values[j]? = some w) c l := by
    intro c
    induction c with
    | nil => intro _; exact ⟨[], .nil⟩
    | cons j c ih =>
      intro hb
      obtain ⟨l, hl⟩ := ih (fun k hk => hb k (List.mem_cons_of_mem _ hk))
      have hj := hb j List.mem_cons_self
      exact ⟨g.values[j] :: l, .cons (List.getElem?_eq_getElem hj) hl⟩
  obtain ⟨l, hl⟩ := hall _ (fun j hj => h.boundC i _ j hc hj)
  refine ⟨i, _, l, hi, hc, ?_, hl⟩
  unfold getChildren
  refine bind_ok.mpr ⟨i, (pyIndex_iff h.nodup).mpr hi, bind_ok.mpr ⟨_, pyGet_iff.mpr hc, ?_⟩⟩
  rw [mapM_ok]
  exact hl.imp (fun _ _ h => pyGet_iff.mpr h)

lemma mem_forall₂ {g : GraphHandler α} (h : Lists g) {c : List ℕ} {l : List α}
    (hl : List.Forall₂ (fun (j : ℕ) (w : α) => g.values[j]? = some w) c l) {j : ℕ} {w : α}
    (hj : g.values[j]? = some w) : w ∈ l ↔ j ∈ c := by
  induction hl with
  | nil => simp
  | @cons a b c l hab _ ih =>
    rw [List.mem_cons, List.mem_cons, ih]
    have : w = b ↔ j = a := by
      constructor
      · rintro rfl
        obtain ⟨h1, e1⟩ := List.getElem?_eq_some_iff.mp hj
        obtain ⟨h2, e2⟩ := List.getElem?_eq_some_iff.mp hab
        exact (h.nodup.getElem_inj_iff (hi := h1) (hj := h2)).mp (e1.trans e2.symm)
      · rintro rfl
        rw [hj] at hab; exact Option.some.inj hab
    rw [this]

lemma nodup_forall₂ {g : GraphHandler α} (h : Lists g) {c : List ℕ} {l : List α}
    (hl : List.Forall₂ (fun (j : ℕ) (w : α) => g.values[j]? = some w) c l) (hc : c.Nodup) : l.Nodup := by
  induction hl with
  | nil => exact .nil
  | @cons a b c l hab hl ih =>
    rw [List.nodup_cons] at hc ⊢
    refine ⟨?_, ih hc.2⟩
    rw [mem_forall₂ h hl hab]
    exact hc.1

lemma create_exact {vals : List α} (hv : vals.Nodup) : Exact (create vals) where
  nodup := hv
  lenP := by simp [create]
  lenC := by simp [create]
  bound := by
    intro i j h
    simp only [create, List.getElem?_map, Option.map_eq_some_iff] at h
    obtain ⟨_, _, h⟩ := h; cases h
  boundC := by
    intro i c j h hj
    simp only [create, List.getElem?_map, Option.map_eq_some_iff] at h
    obtain ⟨_, _, rfl⟩ := h; cases hj
  listed := by
    intro i j h
    simp only [create, List.getElem?_map, Option.map_eq_some_iff] at h
    obtain ⟨_, _, h⟩ := h; cases h
  exact := by
    intro i c j h hj
    simp only [create, List.getElem?_map, Option.map_eq_some_iff] at h
    obtain ⟨_, _, rfl⟩ := h; cases hj
  once := by
    intro i c h
    simp only [create, List.getElem?_map, Option.map_eq_some_iff] at h
    obtain ⟨_, _, rfl⟩ := h; exact .nil

/-- Reading a list extended by one element. -/
lemma snoc_getElem? {β : Type} (l : List β) (x : β) (i : ℕ) (y : β) :
    (l ++ [x])[i]? = some y ↔ (l[i]? = some y) ∨ (i = l.length ∧ x = y) := by
  rcases lt_trichotomy i l.length with h | h | h
  · rw [List.getElem?_append_left h]
    constructor
    · exact Or.inl
    · rintro (h' | h')
      · exact h'
      · omega
  · subst h
    simp
  · rw [List.getElem?_eq_none (by simp; omega), List.getElem?_eq_none (by omega)]
    simp; omega

lemma snoc_nodup {l : List α} (h : l.Nodup) {v : α} (hv : v ∉ l) : (l ++ [v]).Nodup := by
  rw [List.nodup_append]
  exact ⟨h, List.nodup_singleton _, by rintro a ha b hb rfl; rw [List.mem_singleton] at hb
                                       exact hv (hb ▸ ha)⟩

lemma setRoot_lists {g : GraphHandler α} (h : Lists g) {v : α} (hv : v ∉ g.values) :
    Lists (g.setRoot v) where
  nodup := snoc_nodup h.nodup hv
  lenP := by simp [setRoot, h.lenP]
  lenC := by simp [setRoot, h.lenC]
  bound := by
    intro i j hp
    rcases (snoc_getElem? _ _ _ _).mp hp with hp | ⟨_, hp⟩
    · have := h.bound i j hp
      simp only [setRoot, List.length_append]; omega
    · cases hp
  boundC := by
    intro i c j hc hj
    rcases (snoc_getElem? _ _ _ _).mp hc with hc | ⟨_, rfl⟩
    · have := h.boundC i c j hc hj
      simp only [setRoot, List.length_append]; omega
    · cases hj
  listed := by
    intro i j hp
    rcases (snoc_getElem? _ _ _ _).mp hp with hp | ⟨_, hp⟩
    · obtain ⟨c, hc, hj⟩ := h.listed i j hp
      exact ⟨c, (snoc_getElem? _ _ _ _).mpr (Or.inl hc), hj⟩
    · cases hp

lemma setRoot_exact {g : GraphHandler α} (h : Exact g) {v : α} (hv : v ∉ g.values) :
    Exact (g.setRoot v) where
  toLists := setRoot_lists h.toLists hv
  exact := by
    intro i c j hc hj
    rcases (snoc_getElem? _ _ _ _).mp hc with hc | ⟨_, rfl⟩
    · exact (snoc_getElem? _ _ _ _).mpr (Or.inl (h.exact i c j hc hj))
    · cases hj
  once := by
    intro i c hc
    rcases (snoc_getElem? _ _ _ _).mp hc with hc | ⟨_, rfl⟩
    · exact h.once i c hc
    · exact .nil

/-- The result of `add_element_with_parent` with a known parent. -/
lemma add_eq {g : GraphHandler α} (h : Lists g) {v p : α} (hv : v ∉ g.values) {i : ℕ}
    (hi : g.values[i]? = some p) :
    ∃ c, g.children[i]? = some c ∧ g.addElementWithParent v p =
      ({ values := g.values ++ [v]
         children := (g.children ++ [[]]).set i (c ++ [g.values.length])
         parent := g.parent ++ [some i] }, .ok ()) := by
  have hil : i < g.values.length := (List.getElem?_eq_some_iff.mp hi).1
  have hic : i < g.children.length := h.lenC ▸ hil
  have hx : pyIndex (g.values ++ [v]) p = .ok i :=
    (pyIndex_iff (snoc_nodup h.nodup hv)).mpr ((snoc_getElem? _ _ _ _).mpr (Or.inl hi))
  refine ⟨g.children[i], List.getElem?_eq_getElem hic, ?_⟩
  unfold addElementWithParent
  simp only [hx]
  rw [List.getElem?_append_left hic, List.getElem?_eq_getElem hic]
  simp

/-- Reading the child lists after a child was added. -/
lemma set_children {l : List (List ℕ)} {i n : ℕ} {c0 : List ℕ} (hc0 : l[i]? = some c0)
    {k : ℕ} {c : List ℕ} : (l.set i (c0 ++ [n]))[k]? = some c ↔
      (k = i ∧ c = c0 ++ [n]) ∨ (k ≠ i ∧ l[k]? = some c) := by
  have hi := (List.getElem?_eq_some_iff.mp hc0).1
  rw [List.getElem?_set]
  by_cases hk : i = k
  · subst hk; simp [hi, eq_comm]
  · simp [hk, Ne.symm hk]

lemma add_lists {g : GraphHandler α} (h : Lists g) {v p : α} (hv : v ∉ g.values)
    (hp : p ∈ g.values) : Lists (g.addElementWithParent v p).1 := by
  obtain ⟨i, hi⟩ := List.mem_iff_getElem?.mp hp
  obtain ⟨c0, hc0, he⟩ := add_eq h hv hi
  have hil : i < g.values.length := (List.getElem?_eq_some_iff.mp hi).1
  have hc0' : (g.children ++ [[]])[i]? = some c0 := (snoc_getElem? _ _ _ _).mpr (Or.inl hc0)
  rw [he]
  refine ⟨snoc_nodup h.nodup hv, by simp [h.lenP], by simp [h.lenC], ?_, ?_, ?_⟩
  · intro k j hp
    simp only [List.length_append, List.length_singleton]
    rcases (snoc_getElem? _ _ _ _).mp hp with hp | ⟨_, hp⟩
    · have := h.bound k j hp; omega
    · cases hp; omega
  · intro k c j hc hj
    simp only [List.length_append, List.length_singleton]
    rcases (set_children hc0').mp hc with ⟨rfl, rfl⟩ | ⟨hk, hc⟩
    · rw [List.mem_append, List.mem_singleton] at hj
      rcases hj with hj | rfl
      · have := h.boundC _ _ _ hc0 hj; omega
      · omega
    · rcases (snoc_getElem? _ _ _ _).mp hc with hc | ⟨_, rfl⟩
      · have := h.boundC k c j hc hj; omega
      · cases hj
  · intro k j hp
    rcases (snoc_getElem? _ _ _ _).mp hp with hp | ⟨hj, hp⟩
    · obtain ⟨c, hc, hjc⟩ := h.listed k j hp
      by_cases hk : k = i
      · subst hk
        rw [hc0] at hc; cases hc
        exact ⟨_, (set_children hc0').mpr (Or.inl ⟨rfl, rfl⟩), List.mem_append_left _ hjc⟩
      · exact ⟨c, (set_children hc0').mpr (Or.inr ⟨hk, (snoc_getElem? _ _ _ _).mpr (Or.inl hc)⟩), hjc⟩
    · cases hp
      refine ⟨_, (set_children hc0').mpr (Or.inl ⟨rfl, rfl⟩), ?_⟩
      rw [hj, h.lenP]; simp

lemma add_exact {g : GraphHandler α} (h : Exact g) {v p : α} (hv : v ∉ g.values)
    (hp : p ∈ g.values) : Exact (g.addElementWithParent v p).1 := by
  have hl := add_lists h.toLists hv hp
  obtain ⟨i, hi⟩ := List.mem_iff_getElem?.mp hp
  obtain ⟨c0, hc0, he⟩ := add_eq h.toLists hv hi
  have hc0' : (g.children ++ [[]])[i]? = some c0 := (snoc_getElem? _ _ _ _).mpr (Or.inl hc0)
  rw [he] at hl ⊢
  refine ⟨hl, ?_, ?_⟩
  · intro k c j hc hj
    rcases (set_children hc0').mp hc with ⟨rfl, rfl⟩ | ⟨hk, hc⟩
    · rw [List.mem_append, List.mem_singleton] at hj
      rcases hj with hj | rfl
      · exact (snoc_getElem? _ _ _ _).mpr (Or.inl (h.exact _ _ _ hc0 hj))
      · exact (snoc_getElem? _ _ _ _).mpr (Or.inr ⟨h.lenP.symm, rfl⟩)
    · rcases (snoc_getElem? _ _ _ _).mp hc with hc | ⟨_, rfl⟩
      · exact (snoc_getElem? _ _ _ _).mpr (Or.inl (h.exact _ _ _ hc hj))
      · cases hj
  · intro k c hc
    rcases (set_children hc0').mp hc with ⟨rfl, rfl⟩ | ⟨hk, hc⟩
    · rw [List.nodup_append]
      refine ⟨h.once _ _ hc0, List.nodup_singleton _, ?_⟩
      rintro a ha b hb rfl
      rw [List.mem_singleton] at hb
      have := h.boundC _ _ _ hc0 ha
      omega
    · rcases (snoc_getElem? _ _ _ _).mp hc with hc | ⟨_, rfl⟩
      · exact h.once _ _ hc
      · exact .nil

/-- The result of `set_parent_of_element` for known elements. -/
lemma setParent_eq {g : GraphHandler α} (h : Lists g) {v p : α} {i j : ℕ}
    (hj : g.values[j]? = some v) (hi : g.values[i]? = some p) :
    ∃ c, g.children[i]? = some c ∧ g.setParentOfElement v p =
      ({ values := g.values
         children := g.children.set i (c ++ [j])
         parent := g.parent.set j (some i) }, .ok ()) := by
  have hil : i < g.children.length := by rw [h.lenC]; exact (List.getElem?_eq_some_iff.mp hi).1
  have hjl : j < g.parent.length := by rw [h.lenP]; exact (List.getElem?_eq_some_iff.mp hj).1
  refine ⟨g.children[i], List.getElem?_eq_getElem hil, ?_⟩
  unfold setParentOfElement
  simp only [(pyIndex_iff h.nodup).mpr hj, (pyIndex_iff h.nodup).mpr hi,
    List.getElem?_eq_getElem hil, if_pos hjl]

lemma set_parent_get {l : List (Option ℕ)} {j : ℕ} (hj : j < l.length) {x : Option ℕ} {k : ℕ}
    {y : Option ℕ} : (l.set j x)[k]? = some y ↔ (k = j ∧ y = x) ∨ (k ≠ j ∧ l[k]? = some y) := by
  rw [List.getElem?_set]
  by_cases hk : j = k
  · subst hk; simp [hj, eq_comm]
  · simp [hk, Ne.symm hk]

lemma setParent_lists {g : GraphHandler α} (h : Lists g) {v p : α} (hv : v ∈ g.values)
    (hp : p ∈ g.values) : Lists (g.setParentOfElement v p).1 := by
  obtain ⟨i, hi⟩ := List.mem_iff_getElem?.mp hp
  obtain ⟨j, hj⟩ := List.mem_iff_getElem?.mp hv
  obtain ⟨c0, hc0, he⟩ := setParent_eq h hj hi
  have hil : i < g.values.length := (List.getElem?_eq_some_iff.mp hi).1
  have hjl : j < g.values.length := (List.getElem?_eq_some_iff.mp hj).1
  have hjp : j < g.parent.length := h.lenP ▸ hjl
  rw [he]
  refine ⟨h.nodup, by simp [h.lenP], by simp [h.lenC], ?_, ?_, ?_⟩
  · intro k l hp
    rcases (set_parent_get hjp).mp hp with ⟨rfl, hp'⟩ | ⟨_, hp⟩
    · cases hp'; exact hil
    · exact h.bound _ _ hp
  · intro k c l hc hl
    rcases (set_children hc0).mp hc with ⟨rfl, rfl⟩ | ⟨hk, hc⟩
    · rw [List.mem_append, List.mem_singleton] at hl
      rcases hl with hl | rfl
      · exact h.boundC _ _ _ hc0 hl
      · exact hjl
    · exact h.boundC _ _ _ hc hl
  · intro k l hp
    rcases (set_parent_get hjp).mp hp with ⟨rfl, hp'⟩ | ⟨_, hp⟩
    · cases hp'
      exact ⟨_, (set_children hc0).mpr (Or.inl ⟨rfl, rfl⟩), by simp⟩
    · obtain ⟨c, hc, hlc⟩ := h.listed _ _ hp
      by_cases hk : k = i
      · subst hk
        rw [hc0] at hc; cases hc
        exact ⟨_, (set_children hc0).mpr (Or.inl ⟨rfl, rfl⟩), List.mem_append_left _ hlc⟩
      · exact ⟨c, (set_children hc0).mpr (Or.inr ⟨hk, hc⟩), hlc⟩

lemma setParent_exact {g : GraphHandler α} (h : Exact g) {v p : α} (hnone : g.getParent v = .ok none)
    (hp : p ∈ g.values) : Exact (g.setParentOfElement v p).1 := by
  obtain ⟨j, hj, hpn⟩ := (getParent_none_iff h.toLists).mp hnone
  have hl := setParent_lists h.toLists (List.mem_of_getElem? hj) hp
  obtain ⟨i, hi⟩ := List.mem_iff_getElem?.mp hp
  obtain ⟨c0, hc0, he⟩ := setParent_eq h.toLists hj hi
  have hjp : j < g.parent.length := (List.getElem?_eq_some_iff.mp hpn).1
  have hnot : ∀ (k : ℕ) (c : List ℕ), g.children[k]? = some c → j ∉ c := by
    intro k c hc hm
    have := h.exact k c j hc hm
    rw [hpn] at this; cases this
  rw [he] at hl ⊢
  refine ⟨hl, ?_, ?_⟩
  · intro k c l hc hlc
    rcases (set_children hc0).mp hc with ⟨rfl, rfl⟩ | ⟨hk, hc⟩
    · rw [List.mem_append, List.mem_singleton] at hlc
      rcases hlc with hlc | rfl
      · refine (set_parent_get hjp).mpr (Or.inr ⟨?_, h.exact _ _ _ hc0 hlc⟩)
        rintro rfl; exact hnot _ _ hc0 hlc
      · exact (set_parent_get hjp).mpr (Or.inl ⟨rfl, rfl⟩)
    · refine (set_parent_get hjp).mpr (Or.inr ⟨?_, h.exact _ _ _ hc hlc⟩)
      intro hlj; exact hnot _ _ hc (hlj ▸ hlc)
  · intro k c hc
    rcases (set_children hc0).mp hc with ⟨rfl, rfl⟩ | ⟨hk, hc⟩
    · rw [List.nodup_append]
      refine ⟨h.once _ _ hc0, List.nodup_singleton _, ?_⟩
      rintro a ha b hb rfl
      rw [List.mem_singleton] at hb
      exact hnot _ _ hc0 (hb ▸ ha)
    · exact h.once _ _ hc

end Verif.GraphHandler
