import Verif.Model.Containers
import Verif.Lemmas.GraphHandler

/-!
# C45, C46: collision freedom; root and parents of multi-ellipse obstacles
-/

namespace Verif

variable {d : ℕ}

/-! ## C45 -/

lemma min?_real_spec {l : List ℝ} {m : ℝ} (h : l.min? = some m) : m ∈ l ∧ ∀ x ∈ l, m ≤ x := by
  rw [List.min?_eq_some_iff] at h
  exact h

lemma treeGamma_ok {t : ObstacleTree d} (ht : t.components ≠ []) (p : Vec d) :
    ∃ g, t.gamma p = .ok g ∧ (∃ o ∈ t.components, o.gamma p = g) ∧ ∀ o ∈ t.components, g ≤ o.gamma p := by
  unfold ObstacleTree.gamma
  rcases hm : (t.components.map (fun o => o.gamma p)).min? with _ | g
  · rw [List.min?_eq_none_iff, List.map_eq_nil_iff] at hm
    exact absurd hm ht
  · obtain ⟨h1, h2⟩ := min?_real_spec hm
    obtain ⟨o, ho, e⟩ := List.mem_map.mp h1
    exact ⟨g, by rw [hm], ⟨o, ho, e⟩, fun o ho => h2 _ (List.mem_map_of_mem ho)⟩

/-- C45: for a composite obstacle with at least one component `get_gamma` is the smallest `gamma` of
the components, and the obstacle is reported collision free exactly when `gamma` is above one for
every component. -/
theorem C45_composite (t : ObstacleTree d) (ht : t.components ≠ []) (p : Vec d) :
    (∃ g, t.gamma p = .ok g ∧ (∃ o ∈ t.components, o.gamma p = g)
      ∧ ∀ o ∈ t.components, g ≤ o.gamma p)
    ∧ (t.isCollisionFree p = .ok true ∨ t.isCollisionFree p = .ok false)
    ∧ (t.isCollisionFree p = .ok true ↔ ∀ o ∈ t.components, 1 < o.gamma p) := by
  obtain ⟨g, hg, ⟨o, ho, e⟩, hmin⟩ := treeGamma_ok ht p
  refine ⟨⟨g, hg, ⟨o, ho, e⟩, hmin⟩, ?_, ?_⟩
  · unfold ObstacleTree.isCollisionFree
    rw [hg]
    by_cases h : g > 1
    · left; simp [h]
    · right; simp [h]
  · unfold ObstacleTree.isCollisionFree
    rw [hg]
    simp only [Except.ok.injEq, decide_eq_true_eq]
    constructor
    · intro h o ho; exact lt_of_lt_of_le h (hmin o ho)
    · intro h; rw [← e]; exact h o ho

/-- C45: an obstacle without components raises `ValueError`. -/
theorem C45_empty (t : ObstacleTree d) (ht : t.components = []) (p : Vec d) :
    t.gamma p = .error .valueError ∧ t.isCollisionFree p = .error .valueError := by
  have : t.gamma p = .error .valueError := by unfold ObstacleTree.gamma; rw [ht]; rfl
  refine ⟨this, ?_⟩
  unfold ObstacleTree.isCollisionFree; rw [this]

/-- C45: a container is reported collision free exactly when every component of every obstacle has
`gamma` above one, and its `get_gamma` is the smallest over all components of all obstacles. -/
theorem C45_container (c : TreeContainer d) (hc : ∀ t ∈ c, t.components ≠ []) (p : Vec d) :
    (c.isCollisionFree p = .ok true ∨ c.isCollisionFree p = .ok false)
    ∧ (c.isCollisionFree p = .ok true ↔ ∀ t ∈ c, ∀ o ∈ t.components, 1 < o.gamma p)
    ∧ (c ≠ [] → ∃ g, c.getGamma p = .ok g ∧ (∃ t ∈ c, ∃ o ∈ t.components, o.gamma p = g)
      ∧ ∀ t ∈ c, ∀ o ∈ t.components, g ≤ o.gamma p)
    ∧ (c = [] → c.getGamma p = .error .valueError) := by
  refine ⟨?_, ?_, ?_, ?_⟩
  · induction c with
    | nil => left; rfl
    | cons t c ih =>
      unfold TreeContainer.isCollisionFree
      rcases (C45_composite t (hc t List.mem_cons_self) p).2.1 with h | h
      · rw [h]; exact ih (fun t ht => hc t (List.mem_cons_of_mem _ ht))
      · rw [h]; right; rfl
  · induction c with
    | nil => simp [TreeContainer.isCollisionFree]
    | cons t c ih =>
      have ih' := ih (fun t ht => hc t (List.mem_cons_of_mem _ ht))
      have ht := C45_composite t (hc t List.mem_cons_self) p
      rw [List.forall_mem_cons, ← ih', ← ht.2.2]
      have hstep : TreeContainer.isCollisionFree p (t :: c) = (do
          let free ← t.isCollisionFree p
          if free = true then TreeContainer.isCollisionFree p c else Except.ok false) := rfl
      rw [hstep]
      rcases ht.2.1 with h | h
      · rw [h]
        change TreeContainer.isCollisionFree p c = _ ↔ _
        simp
      · rw [h]
        change Except.ok false = _ ↔ _
        simp
  · intro hne
    have hmap : ∃ gs, List.mapM (fun t : ObstacleTree d => t.gamma p) c = .ok gs
        ∧ List.Forall₂ (fun t g => t.gamma p = .ok g) c gs := by
      have : ∃ gs, List.Forall₂ (fun (t : ObstacleTree d) g => t.gamma p = .ok g) c gs := by
        clear hne
        induction c with
        | nil => exact ⟨[], .nil⟩
        | cons t c ih =>
          obtain ⟨gs, hgs⟩ := ih (fun t ht => hc t (List.mem_cons_of_mem _ ht))
          obtain ⟨g, hg, _⟩ := treeGamma_ok (hc t List.mem_cons_self) p
          exact ⟨g :: gs, .cons hg hgs⟩
      obtain ⟨gs, hgs⟩ := this
      exact ⟨gs, mapM_ok.mpr hgs, hgs⟩
    obtain ⟨gs, hrun, hf⟩ := hmap
    have hgne : gs ≠ [] := by
      rintro rfl
      cases hf
      exact hne rfl
    rcases hm : gs.min? with _ | g
    · rw [List.min?_eq_none_iff] at hm; exact absurd hm hgne
    obtain ⟨h1, h2⟩ := min?_real_spec hm
    refine ⟨g, ?_, ?_, ?_⟩
    · unfold TreeContainer.getGamma
      refine bind_ok.mpr ⟨gs, hrun, ?_⟩
      rw [hm]
    · clear h2 hm hrun hgne hne
      induction hf with
      | nil => cases h1
      | @cons t x c gs htx hf ih =>
        rcases List.mem_cons.mp h1 with rfl | h1
        · obtain ⟨g', hg', ⟨o, ho, e⟩, _⟩ := treeGamma_ok (hc t List.mem_cons_self) p
          rw [htx] at hg'; cases hg'
          exact ⟨t, List.mem_cons_self, o, ho, e⟩
        · obtain ⟨t', ht', r⟩ := ih (fun t ht => hc t (List.mem_cons_of_mem _ ht)) h1
          exact ⟨t', List.mem_cons_of_mem _ ht', r⟩
    · clear h1 hm hrun hgne hne
      induction hf with
      | nil => intro t ht; cases ht
      | @cons t x c gs htx hf ih =>
        rw [List.forall_mem_cons] at h2 ⊢
        refine ⟨?_, ih (fun t ht => hc t (List.mem_cons_of_mem _ ht)) h2.2⟩
        obtain ⟨g', hg', _, hmin⟩ := treeGamma_ok (hc t List.mem_cons_self) p
        rw [htx] at hg'; cases hg'
        intro o ho
        exact le_trans h2.1 (hmin o ho)
  · rintro rfl
    rfl

/-- C45: `get_gamma_except_components` is the smallest `gamma` of the remaining components, and raises
`ValueError` exactly when none is left. -/
theorem C45_except (t : ObstacleTree d) (p : Vec d) (ex : List ℕ) :
    ((∀ i, i < t.components.length → i ∈ ex) ↔ t.gammaExcept p ex = .error .valueError)
    ∧ ∀ g, t.gammaExcept p ex = .ok g →
      (∃ (i : ℕ) (o : Obstacle d), i ∉ ex ∧ t.components[i]? = some o ∧ o.gamma p = g)
      ∧ ∀ (i : ℕ) (o : Obstacle d), i ∉ ex → t.components[i]? = some o → g ≤ o.gamma p := by
  unfold ObstacleTree.gammaExcept
  simp only
  set L := (t.components.zipIdx.filter (fun e => e.2 ∉ ex)) with hL
  have hmem : ∀ (i : ℕ) (o : Obstacle d), (o, i) ∈ L ↔ i ∉ ex ∧ t.components[i]? = some o := by
    intro i o
    rw [hL, List.mem_filter, List.mem_zipIdx_iff_getElem?]
    simp [and_comm]
  constructor
  · rcases hm : (L.map (fun e => e.1.gamma p)).min? with _ | g
    · rw [hm]
      simp only [iff_true]
      rw [List.min?_eq_none_iff, List.map_eq_nil_iff] at hm
      intro i hi
      by_contra hne
      have := (hmem i _).mpr ⟨hne, List.getElem?_eq_getElem hi⟩
      rw [hm] at this; cases this
    · rw [hm]
      simp only [reduceCtorEq, iff_false]
      intro h
      obtain ⟨h1, _⟩ := min?_real_spec hm
      obtain ⟨⟨o, i⟩, ho, _⟩ := List.mem_map.mp h1
      obtain ⟨h2, h3⟩ := (hmem i o).mp ho
      exact h2 (h i (List.getElem?_eq_some_iff.mp h3).1)
  · intro g hg
    rcases hm : (L.map (fun e => e.1.gamma p)).min? with _ | g'
    · rw [hm] at hg; cases hg
    · rw [hm] at hg; cases hg
      obtain ⟨h1, h2⟩ := min?_real_spec hm
      obtain ⟨⟨o, i⟩, ho, e⟩ := List.mem_map.mp h1
      obtain ⟨h3, h4⟩ := (hmem i o).mp ho
      refine ⟨⟨i, o, h3, h4, e⟩, ?_⟩
      intro i o hi ho
      exact h2 _ (List.mem_map.mpr ⟨(o, i), (hmem i o).mpr ⟨hi, ho⟩, rfl⟩)

/-- C45: a boundary container is free exactly when at least one boundary contains the position. -/
theorem C45_boundaries (obstacles : List (Obstacle d)) (p : Vec d) :
    MultiBoundary.isCollisionFree obstacles p = true ↔ ∃ o ∈ obstacles, 1 < o.gamma p := by
  simp [MultiBoundary.isCollisionFree]

/-! ## C46 -/

open MultiEllipse

/-- C46 (partial): once a root other than component 0 is set, `set_root` raises
`NotImplementedError`, and the root stays the same whatever calls follow.

Missing for the full property: root 0, for which it is false (`C46_root_zero`). -/
theorem C46_root_partial (cs after : List MultiEllipse.Call) (r : ℤ) (hr : r ≠ 0)
    (h : (MultiEllipse.create.run cs).root = some r) (i : ℤ) :
    (MultiEllipse.create.run cs).step (.setRoot i)
        = (MultiEllipse.create.run cs, .error .notImplemented)
      ∧ ((MultiEllipse.create.run cs).run after).root = some r := by
  set m := MultiEllipse.create.run cs
  have ht : ∀ m : MultiEllipse, m.root = some r → truthy m.root = true := by
    intro m h; rw [h]; simp [truthy, hr]
  refine ⟨?_, ?_⟩
  · change m.setRoot i = _
    unfold MultiEllipse.setRoot
    rw [if_pos (ht m h)]
  · have : ∀ (after : List MultiEllipse.Call) (m : MultiEllipse), m.root = some r →
        (m.run after).root = some r := by
      intro after
      induction after with
      | nil => intro m h; exact h
      | cons c after ih =>
        intro m h
        refine ih _ ?_
        cases c with
        | append => exact h
        | setRoot i =>
          change (m.setRoot i).1.root = _
          unfold MultiEllipse.setRoot
          rw [if_pos (ht m h)]
          exact h
        | setParent i p =>
          change (m.setParent i p).1.root = _
          unfold MultiEllipse.setParent
          split
          · exact h
          · split_ifs
            · exact h
            · simp only
              split <;> exact h
    exact this after m h

/-- C46, negative result: once component 0 is the root, `set_root` silently replaces it. -/
theorem C46_root_zero (m : MultiEllipse) (h : m.root = some 0) (i : ℕ) (hi : i < m.parents.length) :
    (m.step (.setRoot i)).2 = .ok () ∧ (m.step (.setRoot i)).1.root = some (i : ℤ) := by
  change (m.setRoot i).2 = _ ∧ (m.setRoot i).1.root = _
  have hx : pyIdx m.parents.length i = some i := by
    unfold pyIdx
    rw [if_pos (by omega), if_pos (by omega)]
    simp
  unfold MultiEllipse.setRoot
  rw [h]
  simp [truthy, hx]

/-- C46 (partial): once a component has a parent other than component 0 (or is the root),
`set_parent` raises `NotImplementedError` and changes nothing, and the parent stays the same as long
as the component is not made the root.

Missing for the full property: parent 0, for which it is false (`C46_parent_zero`). -/
theorem C46_parent_partial (cs after : List MultiEllipse.Call) (i : ℕ) (q : ℤ) (hq : q ≠ 0)
    (h : (MultiEllipse.create.run cs).getParentIdx i = .ok (some q)) (p : ℤ)
    (hroot : ∀ j, .setRoot j ∉ after) :
    (MultiEllipse.create.run cs).step (.setParent i p)
        = (MultiEllipse.create.run cs, .error .notImplemented)
      ∧ ((MultiEllipse.create.run cs).run after).getParentIdx i = .ok (some q) := by
  set m := MultiEllipse.create.run cs
  have hget : ∀ m : MultiEllipse, m.getParentIdx i = .ok (some q) ↔ m.parents[i]? = some (some q) := by
    intro m
    unfold MultiEllipse.getParentIdx pyGetInt
    rw [if_pos (by omega)]
    simp only [Int.toNat_natCast]
    exact GraphHandler.pyGet_iff
  have hmain : ∀ m : MultiEllipse, m.parents[i]? = some (some q) → m.setParent i p =
      (m, .error .notImplemented) := by
    intro m h
    have hl := (List.getElem?_eq_some_iff.mp h).1
    have hx : pyIdx m.parents.length i = some i := by
      unfold pyIdx
      rw [if_pos (by omega), if_pos (by omega)]
      simp
    unfold MultiEllipse.setParent
    rw [hx]
    simp only
    rw [if_pos]
    rw [List.getD_eq_getElem?_getD, h]
    simp [truthy, hq]
  refine ⟨hmain m ((hget m).mp h), ?_⟩
  rw [hget] at h ⊢
  have : ∀ (after : List MultiEllipse.Call) (m : MultiEllipse), (∀ j, .setRoot j ∉ after) →
      m.parents[i]? = some (some q) → (m.run after).parents[i]? = some (some q) := by
    intro after
    induction after with
    | nil => intro m _ h; exact h
    | cons c after ih =>
      intro m hr h
      refine ih _ (fun j hj => hr j (List.mem_cons_of_mem _ hj)) ?_
      have hl := (List.getElem?_eq_some_iff.mp h).1
      cases c with
      | append =>
        change (m.parents ++ [none])[i]? = _
        rw [List.getElem?_append_left hl]; exact h
      | setRoot j => exact absurd List.mem_cons_self (hr j)
      | setParent j p =>
        change (m.setParent j p).1.parents[i]? = _
        unfold MultiEllipse.setParent
        rcases hk : pyIdx m.parents.length j with _ | k
        · exact h
        · simp only
          by_cases htr : truthy (m.parents.getD k none) = true
          · rw [if_pos htr]; exact h
          · rw [if_neg htr]
            have hki : k ≠ i := by
              rintro rfl
              apply htr
              rw [List.getD_eq_getElem?_getD, h]
              simp [truthy, hq]
            have : (m.parents.set k (some p))[i]? = some (some q) := by
              rw [List.getElem?_set_ne hki]; exact h
            split <;> exact this
  exact this after m hroot h

/-- C46, negative result: a parent 0 is silently replaced, and the component stays in the list of
children of component 0. -/
theorem C46_parent_zero (m : MultiEllipse) (i p : ℕ) (hi : m.parents[i]? = some (some 0))
    (hp : p < m.children.length) (h0 : (i : ℤ) ∈ m.children.getD 0 []) :
    (m.step (.setParent i p)).2 = .ok ()
      ∧ (m.step (.setParent i p)).1.getParentIdx i = .ok (some (p : ℤ))
      ∧ (i : ℤ) ∈ (m.step (.setParent i p)).1.children.getD 0 [] := by
  have hl := (List.getElem?_eq_some_iff.mp hi).1
  have hx : pyIdx m.parents.length i = some i := by
    unfold pyIdx
    rw [if_pos (by omega), if_pos (by omega)]
    simp
  have hy : pyIdx m.children.length p = some p := by
    unfold pyIdx
    rw [if_pos (by omega), if_pos (by omega)]
    simp
  have hres : m.setParent i p = ({ m with
      parents := m.parents.set i (some (p : ℤ))
      children := m.children.set p (m.children.getD p [] ++ [(i : ℤ)]) }, .ok ()) := by
    unfold MultiEllipse.setParent
    rw [hx]
    simp only
    rw [if_neg (by rw [List.getD_eq_getElem?_getD, hi]; simp [truthy]), hy]
  change (m.setParent i p).2 = _ ∧ (m.setParent i p).1.getParentIdx i = _ ∧ _ ∈ (m.setParent i p).1.children.getD 0 []
  rw [hres]
  refine ⟨rfl, ?_, ?_⟩
  · unfold MultiEllipse.getParentIdx pyGetInt
    rw [if_pos (by omega)]
    simp only [Int.toNat_natCast]
    rw [GraphHandler.pyGet_iff, List.getElem?_set_self hl]
  · by_cases hp0 : p = 0
    · subst hp0
      rw [List.getD_eq_getElem?_getD, List.getElem?_set_self hp]
      simp
    · rw [List.getD_eq_getElem?_getD, List.getElem?_set_ne hp0, ← List.getD_eq_getElem?_getD]
      exact h0

/-- C46: a component without parent can be given any existing one; it is then recorded on both
sides. -/
theorem C46_fresh (m : MultiEllipse) (i p : ℕ) (hi : m.parents[i]? = some none)
    (hp : p < m.children.length) :
    (m.step (.setParent i p)).2 = .ok ()
      ∧ (m.step (.setParent i p)).1.getParentIdx i = .ok (some (p : ℤ))
      ∧ (i : ℤ) ∈ (m.step (.setParent i p)).1.children.getD p [] := by
  have hl := (List.getElem?_eq_some_iff.mp hi).1
  have hx : pyIdx m.parents.length i = some i := by
    unfold pyIdx
    rw [if_pos (by omega), if_pos (by omega)]
    simp
  have hy : pyIdx m.children.length p = some p := by
    unfold pyIdx
    rw [if_pos (by omega), if_pos (by omega)]
    simp
  have hres : m.setParent i p = ({ m with
      parents := m.parents.set i (some (p : ℤ))
      children := m.children.set p (m.children.getD p [] ++ [(i : ℤ)]) }, .ok ()) := by
    unfold MultiEllipse.setParent
    rw [hx]
    simp only
    rw [if_neg (by rw [List.getD_eq_getElem?_getD, hi]; simp [truthy]), hy]
  change (m.setParent i p).2 = _ ∧ (m.setParent i p).1.getParentIdx i = _ ∧ _ ∈ (m.setParent i p).1.children.getD p []
  rw [hres]
  refine ⟨rfl, ?_, ?_⟩
  · unfold MultiEllipse.getParentIdx pyGetInt
    rw [if_pos (by omega)]
    simp only [Int.toNat_natCast]
    rw [GraphHandler.pyGet_iff, List.getElem?_set_self hl]
  · rw [List.getD_eq_getElem?_getD, List.getElem?_set_self hp]
    simp

/-- C46: whatever the history of calls, failed or not, the number of components is the number of `append` calls, and
every component has an entry in the list of parents and in the list of children. -/
theorem C46_count (cs : List MultiEllipse.Call) :
    (MultiEllipse.create.run cs).nComponents = cs.countP (fun c => match c with
        | .append => true
        | _ => false)
      ∧ (MultiEllipse.create.run cs).parents.length = (MultiEllipse.create.run cs).nComponents
      ∧ (MultiEllipse.create.run cs).children.length = (MultiEllipse.create.run cs).nComponents := by
  have key : ∀ (cs : List MultiEllipse.Call) (m : MultiEllipse), m.parents.length = m.nComponents →
      m.children.length = m.nComponents →
      (m.run cs).nComponents = m.nComponents + cs.countP (fun c => match c with
        | .append => true
        | _ => false)
      ∧ (m.run cs).parents.length = (m.run cs).nComponents ∧ (m.run cs).children.length = (m.run cs).nComponents := by
    intro cs
    induction cs with
    | nil => intro m h1 h2; exact ⟨rfl, h1, h2⟩
    | cons c cs ih =>
      intro m h1 h2
      change ((m.step c).1.run cs).nComponents = _ ∧ ((m.step c).1.run cs).parents.length = ((m.step c).1.run cs).nComponents
        ∧ ((m.step c).1.run cs).children.length = ((m.step c).1.run cs).nComponents
      cases c with
      | append =>
        obtain ⟨a1, a2, a3⟩ := ih m.append (by simp [MultiEllipse.append, h1]) (by simp [MultiEllipse.append, h2])
        refine ⟨?_, a2, a3⟩
        change (m.append.run cs).nComponents = _
        rw [a1, List.countP_cons]
        simp only [MultiEllipse.append, if_true]
        omega
      | setRoot i =>
        have e : (m.setRoot i).1.nComponents = m.nComponents ∧ (m.setRoot i).1.parents.length = m.parents.length
            ∧ (m.setRoot i).1.children.length = m.children.length := by
          unfold MultiEllipse.setRoot
          split_ifs
          · exact ⟨rfl, rfl, rfl⟩
          · simp only
            split <;> simp
        obtain ⟨a1, a2, a3⟩ := ih (m.setRoot i).1 (by rw [e.2.1, e.1, h1]) (by rw [e.2.2, e.1, h2])
        refine ⟨?_, a2, a3⟩
        change ((m.setRoot i).1.run cs).nComponents = _
        rw [a1, e.1, List.countP_cons]
        simp
      | setParent i p =>
        have e : (m.setParent i p).1.nComponents = m.nComponents ∧ (m.setParent i p).1.parents.length = m.parents.length
            ∧ (m.setParent i p).1.children.length = m.children.length := by
          unfold MultiEllipse.setParent
          split
          · exact ⟨rfl, rfl, rfl⟩
          · split_ifs
            · exact ⟨rfl, rfl, rfl⟩
            · simp only
              split <;> simp
        obtain ⟨a1, a2, a3⟩ := ih (m.setParent i p).1 (by rw [e.2.1, e.1, h1]) (by rw [e.2.2, e.1, h2])
        refine ⟨?_, a2, a3⟩
        change ((m.setParent i p).1.run cs).nComponents = _
        rw [a1, e.1, List.countP_cons]
        simp
  have := key cs MultiEllipse.create rfl rfl
  refine ⟨?_, this.2⟩
  rw [this.1]
  simp [MultiEllipse.create]

/-- `C46_count` on a history with a call that fails: two components. -/
example : (MultiEllipse.create.run [.append, .setRoot 0, .setParent 7 0, .append, .setParent 1 0]).nComponents = 2 := by
  rw [(C46_count _).1]
  rfl

/-- C46: if there is no root yet, any existing component can be made the root.  It has no parent then (`-1`), it
cannot be given one, and nothing is changed for the other components. -/
theorem C46_set_root (m : MultiEllipse) (h : m.root = none) (i : ℕ) (hi : i < m.parents.length) :
    (m.step (.setRoot i)).2 = .ok () ∧ (m.step (.setRoot i)).1.root = some (i : ℤ)
      ∧ (m.step (.setRoot i)).1.getParentIdx i = .ok (some (-1))
      ∧ (∀ p, (m.step (.setRoot i)).1.step (.setParent i p) = ((m.step (.setRoot i)).1, .error .notImplemented))
      ∧ (∀ j, j ≠ i → (m.step (.setRoot i)).1.parents[j]? = m.parents[j]?)
      ∧ (m.step (.setRoot i)).1.children = m.children
      ∧ (m.step (.setRoot i)).1.nComponents = m.nComponents := by
  have hx : pyIdx m.parents.length i = some i := by
    unfold pyIdx
    rw [if_pos (by omega), if_pos (by omega)]
    simp
  have e : m.step (.setRoot i)
      = ({ m with root := some (i : ℤ), parents := m.parents.set i (some (-1)) }, .ok ()) := by
    change m.setRoot i = _
    unfold MultiEllipse.setRoot
    rw [h]
    simp [truthy, hx]
  rw [e]
  refine ⟨rfl, rfl, ?_, ?_, ?_, rfl, rfl⟩
  · unfold MultiEllipse.getParentIdx pyGetInt
    rw [if_pos (by omega)]
    simp only [Int.toNat_natCast]
    exact GraphHandler.pyGet_iff.mpr (List.getElem?_set_self hi)
  · intro p
    change MultiEllipse.setParent _ _ _ = _
    unfold MultiEllipse.setParent
    have hy : pyIdx (m.parents.set i (some (-1))).length i = some i := by rw [List.length_set]; exact hx
    simp only [hy]
    rw [if_pos]
    rw [List.getD_eq_getElem?_getD, List.getElem?_set_self hi]
    rfl
  · intro j hj
    exact List.getElem?_set_ne (by omega)

/-- `C46_set_root` applies after three calls of `append`. -/
example : (MultiEllipse.create.run [.append, .append, .append]).root = none
    ∧ 1 < (MultiEllipse.create.run [.append, .append, .append]).parents.length := ⟨rfl, by decide +kernel⟩

/-- C46: a failing `set_root` with an unknown number leaves this number as the root. -/
theorem C46_unknown_root (m : MultiEllipse) (h : m.root = none) (i : ℕ) (hi : m.parents.length ≤ i) :
    (m.step (.setRoot i)).2 = .error .indexError ∧ (m.step (.setRoot i)).1.root = some (i : ℤ) := by
  change (m.setRoot i).2 = _ ∧ (m.setRoot i).1.root = _
  have hx : pyIdx m.parents.length i = none := by
    unfold pyIdx
    rw [if_pos (by omega), if_neg (by omega)]
  unfold MultiEllipse.setRoot
  rw [h]
  simp [truthy, hx]

/-- C46 is not vacuous: histories reaching the situations of the theorems. -/
example : (MultiEllipse.create.run [.append, .append, .append, .setRoot 1, .setParent 2 1,
      .setParent 0 1]).root = some 1
    ∧ (MultiEllipse.create.run [.append, .append, .append, .setRoot 1, .setParent 2 1,
      .setParent 0 1]).getParentIdx (2 : ℕ) = .ok (some 1)
    ∧ (MultiEllipse.create.run [.append, .append, .setRoot 0, .setParent 1 0]).root = some 0
    ∧ (MultiEllipse.create.run [.append, .append, .setRoot 0, .setParent 1 0]).parents[1]?
      = some (some 0)
    ∧ (((1 : ℕ) : ℤ) ∈
      (MultiEllipse.create.run [.append, .append, .setRoot 0, .setParent 1 0]).children.getD 0 []) :=
  ⟨rfl, rfl, rfl, rfl, by decide +kernel⟩

/-- C45 is not vacuous. -/
example (o : Obstacle 2) (t : ObstacleTree 2) (h : t.components = [o]) :
    ∀ s ∈ [t, t], s.components ≠ [] := by
  intro s hs
  have : s = t := by simpa using hs
  rw [this, h]; simp

end Verif
