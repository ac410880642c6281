import Verif.Lemmas.MultiBody

/-!
# C48, C65: multi-body obstacles
-/

namespace Verif

namespace Spec

variable {d : ℕ}

/-- The names of the components after a history, in the order of their numbers. -/
def bodyNames (root : String) (cs : List (MultiBody.Call d)) : List String :=
  root :: cs.map MultiBody.Call.name

/-- Every component is attached to one that exists already (the root or an earlier component). -/
def ParentsKnown (root : String) (cs : List (MultiBody.Call d)) : Prop :=
  ∀ (k : ℕ) (c : MultiBody.Call d), cs[k]? = some c → c.parentName ∈ bodyNames root (cs.take k)

/-- In the poses `ps` the reference point of every component coincides, in the global frame, with the
attachment point given for it in the frame of its parent (the first component of that name). -/
def LimbsConnected (root : String) (cs : List (MultiBody.Call d)) (ps : List (Pose d)) : Prop :=
  ∀ (k : ℕ) (c : MultiBody.Call d), cs[k]? = some c → ∃ parent limb : Pose d,
    ps[(bodyNames root cs).idxOf c.parentName]? = some parent ∧ ps[k + 1]? = some limb
      ∧ limb.fromRelative c.reference = parent.fromRelative c.parentReference

end Spec

namespace MultiBody

variable {d : ℕ}

/-- The joints made by a history. -/
def joints (root : String) (cs : List (Call d)) : List (Joint d) :=
  cs.map (fun c => ⟨(Spec.bodyNames root cs).idxOf c.parentName, c.reference, c.parentReference⟩)

lemma findIdx?_name {l : List (LimbNode d)} {s : String} (h : s ∈ l.map LimbNode.name) :
    l.findIdx? (fun n => n.name = s) = some ((l.map LimbNode.name).idxOf s) := by
  rw [List.findIdx?_eq_some_iff_getElem]
  have hl := List.idxOf_lt_length_of_mem h
  have hl' : (l.map LimbNode.name).idxOf s < l.length := by simpa using hl
  refine ⟨hl', ?_, ?_⟩
  · have := List.getElem_idxOf hl
    simp only [List.getElem_map] at this
    simpa using this
  · intro j hj
    simp only [decide_eq_true_eq]
    intro e
    have hjl : j < (l.map LimbNode.name).length := hj.trans hl
    have : (l.map LimbNode.name)[j] = s := by simpa using e
    have h2 := List.not_of_lt_findIdx (p := (· == s)) (xs := l.map LimbNode.name) (i := j) hj
    rw [this] at h2
    simp at h2

lemma built_step {m : MultiBody d} {names : List String} {J : List (Joint d)} (h : Built m names J)
    {c : Call d} (hc : c.parentName ∈ names) :
    Built (m.step c).1 (names ++ [c.name])
        (J ++ [⟨names.idxOf c.parentName, c.reference, c.parentReference⟩])
      ∧ (m.step c).2 = .ok () := by
  set p := names.idxOf c.parentName with hp
  set j : Joint d := ⟨p, c.reference, c.parentReference⟩ with hj
  have hnl : names.length = J.length + 1 := by rw [← h.names]; simpa using h.len
  have hpl : p < J.length + 1 := by rw [← hnl]; exact List.idxOf_lt_length_of_mem hc
  have hid : ({ m with poses := m.poses ++ [c.pose] } : MultiBody d).idFromName c.parentName = .ok p := by
    unfold idFromName
    simp only
    rw [findIdx?_name (by rw [h.names]; exact hc), h.names]
  have hres : m.step c = (⟨m.poses ++ [c.pose],
      (m.nodes ++ [(⟨c.name, c.updateId, some c.reference, [], []⟩ : LimbNode d)]).modify p (fun n => { n with
        referencesChildren := n.referencesChildren ++ [c.parentReference]
        indecesChildren := n.indecesChildren ++ [m.nodes.length] }),
      m.edges ++ [(p, m.nodes.length)], m.rootIdx⟩, .ok ()) := by
    unfold step addComponent
    simp only [hid]
  rw [hres]
  have hkids : ∀ i, MultiBody.kids (J ++ [j]) i
      = MultiBody.kids J i ++ if p = i then [(j, J.length)] else [] := by
    intro i
    unfold MultiBody.kids
    rw [List.zipIdx_append, List.filter_append]
    congr 1
    by_cases hi : p = i
    · simp [hi, hj]
    · simp [hi, hj]
  have hget : ∀ i, (m.nodes ++ [(⟨c.name, c.updateId, some c.reference, [], []⟩ : LimbNode d)])[i]?
      = if i = J.length + 1 then some ⟨c.name, c.updateId, some c.reference, [], []⟩
        else m.nodes[i]? := by
    intro i
    by_cases hi : i = J.length + 1
    · subst hi
      rw [if_pos rfl, ← h.len]
      simp
    · rw [if_neg hi]
      by_cases hlt : i < m.nodes.length
      · rw [List.getElem?_append_left hlt]
      · rw [List.getElem?_eq_none (by simp; have := h.len; omega), List.getElem?_eq_none (by omega)]
  refine ⟨⟨?_, ?_, h.root, ?_, ?_, ?_, ?_, ?_⟩, rfl⟩
  · simp [h.len]
  · simp [h.lenP]
  · rw [← h.names]
    apply List.ext_getElem?
    intro i
    simp only [List.getElem?_map, List.getElem?_modify]
    have : (m.nodes.map LimbNode.name ++ [c.name]) = (m.nodes ++
      [(⟨c.name, c.updateId, some c.reference, [], []⟩ : LimbNode d)]).map LimbNode.name := by simp
    rw [this, List.getElem?_map]
    rcases (m.nodes ++ [(⟨c.name, c.updateId, some c.reference, [], []⟩ : LimbNode d)])[i]? with _ | n
    · rfl
    · by_cases hi : p = i
      · simp [hi]
      · simp [hi]
  · simp only
    rw [List.zipIdx_append, List.map_append, h.edges, h.len]
    simp [hj]
  · intro k j' hk
    by_cases hlt : k < J.length
    · rw [List.getElem?_append_left hlt] at hk
      exact h.bound k j' hk
    · have hl := (List.getElem?_eq_some_iff.mp hk).1
      simp only [List.length_append, List.length_singleton] at hl
      have : k = J.length := by omega
      subst this
      simp at hk
      subst hk
      simp only [hj]; omega
  · intro i n hn
    simp only [List.getElem?_modify, hget] at hn
    rw [hkids]
    by_cases hi : i = J.length + 1
    · rw [if_pos hi] at hn
      have hpi : p ≠ i := by omega
      simp only [hpi, if_false] at hn ⊢
      have hk0 : MultiBody.kids J i = [] := by
        apply List.eq_nil_iff_forall_not_mem.mpr
        rintro ⟨j', k⟩ hmem
        obtain ⟨h1, h2⟩ := mem_kids.mp hmem
        have := h.bound k j' h1
        have := (List.getElem?_eq_some_iff.mp h1).1
        omega
      cases hn
      rw [hk0]
      exact ⟨rfl, rfl⟩
    · rw [if_neg hi] at hn
      rcases hni : m.nodes[i]? with _ | n0
      · rw [hni] at hn; cases hn
      · rw [hni] at hn
        obtain ⟨h1, h2⟩ := h.kids i n0 hni
        by_cases hpi : p = i
        · simp only [hpi, if_true] at hn ⊢
          cases hn
          simp only [List.map_append, h1, h2, h.len]
          exact ⟨rfl, rfl⟩
        · simp only [hpi, if_false] at hn ⊢
          cases hn
          simp only [List.append_nil]
          exact ⟨h1, h2⟩
  · intro k j' hk
    simp only [List.getElem?_modify, hget]
    by_cases hlt : k < J.length
    · rw [List.getElem?_append_left hlt] at hk
      obtain ⟨n, hn, hr⟩ := h.own k j' hk
      rw [if_neg (by omega), hn]
      by_cases hpi : p = k + 1
      · refine ⟨{ n with
          referencesChildren := n.referencesChildren ++ [c.parentReference]
          indecesChildren := n.indecesChildren ++ [m.nodes.length] }, ?_, hr⟩
        simp only [hpi, if_true]; rfl
      · exact ⟨_, by simp only [hpi, if_false]; rfl, hr⟩
    · have hl := (List.getElem?_eq_some_iff.mp hk).1
      simp only [List.length_append, List.length_singleton] at hl
      have : k = J.length := by omega
      subst this
      simp at hk
      subst hk
      rw [if_pos rfl]
      have hpi : ¬ p = J.length + 1 := by omega
      exact ⟨_, by simp only [hpi, if_false]; rfl, rfl⟩

lemma built_run (pose : Pose d) (root : String) (u : Option ℤ) :
    ∀ (cs : List (Call d)), Spec.ParentsKnown root cs →
      Built ((create.setRoot pose root u).run cs) (Spec.bodyNames root cs) (joints root cs) := by
  intro cs
  induction cs using List.reverseRecOn with
  | nil =>
    intro _
    refine ⟨rfl, rfl, rfl, rfl, rfl, ?_, ?_, ?_⟩
    · intro k j h; simp [joints] at h
    · intro i n hn
      have : n = ⟨root, u, none, [], []⟩ := by
        rcases i with _ | i
        · have : some (⟨root, u, none, [], []⟩ : LimbNode d) = some n := hn
          cases this; rfl
        · have : (none : Option (LimbNode d)) = some n := hn
          cases this
      subst this
      simp [joints, MultiBody.kids]
    · intro k j h; simp [joints] at h
  | append_singleton cs c ih =>
    intro hk
    have hk' : Spec.ParentsKnown root cs := by
      intro k c' hc'
      have hl := (List.getElem?_eq_some_iff.mp hc').1
      have := hk k c' (by rw [List.getElem?_append_left hl]; exact hc')
      rwa [List.take_append_of_le_length hl.le] at this
    have hc : c.parentName ∈ Spec.bodyNames root cs := by
      have := hk cs.length c (by simp)
      simpa using this
    have hrun : (create.setRoot pose root u).run (cs ++ [c])
        = (((create.setRoot pose root u).run cs).step c).1 := by
      unfold run; rw [List.foldl_append]; rfl
    have hnames : Spec.bodyNames root (cs ++ [c]) = Spec.bodyNames root cs ++ [c.name] := by
      simp [Spec.bodyNames]
    have hJ : joints root (cs ++ [c]) = joints root cs ++
        [⟨(Spec.bodyNames root cs).idxOf c.parentName, c.reference, c.parentReference⟩] := by
      unfold joints
      rw [List.map_append, hnames]
      congr 1
      · apply List.map_congr_left
        intro c' hc'
        obtain ⟨k, hk1⟩ := List.mem_iff_getElem?.mp hc'
        have hmem : c'.parentName ∈ Spec.bodyNames root cs := by
          have := hk' k c' hk1
          unfold Spec.bodyNames at this ⊢
          rcases List.mem_cons.mp this with h | h
          · rw [h]; exact List.mem_cons_self
          · refine List.mem_cons_of_mem _ ?_
            obtain ⟨x, hx, e⟩ := List.mem_map.mp h
            exact List.mem_map.mpr ⟨x, List.mem_of_mem_take hx, e⟩
        rw [List.idxOf_append_of_mem hmem]
      · simp only [List.map_cons, List.map_nil]
        rw [List.idxOf_append_of_mem hc]
    rw [hrun, hnames, hJ]
    exact (built_step (ih hk') hc).1

lemma closed_connected {R : ℕ → Pose d → (Vec d ≃ₗᵢ[ℝ] Vec d) → Prop} {root : String} {cs : List (Call d)}
    {ps : List (Pose d)} (h : ∀ k, k < (joints root cs).length → ClosedR R (joints root cs) ps k) :
    Spec.LimbsConnected root cs ps := by
  intro k c hc
  have hl := (List.getElem?_eq_some_iff.mp hc).1
  obtain ⟨j, p, q, hj, hp, hq, e, _⟩ := h k (by simpa [joints] using hl)
  have : j = ⟨(Spec.bodyNames root cs).idxOf c.parentName, c.reference, c.parentReference⟩ := by
    unfold joints at hj
    rw [List.getElem?_map, hc] at hj
    simpa using hj.symm
  subst this
  exact ⟨p, q, hp, hq, e⟩

end MultiBody

open MultiBody

variable {d : ℕ}

/-- C48: for every body made by `set_root` and `add_component`, whatever the current poses of its
components, `align_obstacle_tree` terminates and connects every component with its parent.  The root
is not moved and no orientation changes. -/
theorem C48_aligned (pose : Pose d) (root : String) (u : Option ℤ) (cs : List (MultiBody.Call d))
    (h : Spec.ParentsKnown root cs) (ps : List (Pose d)) (hps : ps.length = cs.length + 1) :
    let m : MultiBody d := { (create.setRoot pose root u).run cs with poses := ps }
    ∃ (N : ℕ) (m' : MultiBody d), (∀ fuel ≥ N, m.alignTree fuel = some (.ok m'))
      ∧ Spec.LimbsConnected root cs m'.poses
      ∧ m'.poses.length = ps.length ∧ m'.poses[0]? = ps[0]?
      ∧ (∀ i : ℕ, (m'.poses[i]?).map Pose.orientation = (ps[i]?).map Pose.orientation)
      ∧ m'.nodes = m.nodes ∧ m'.edges = m.edges ∧ m'.rootIdx = m.rootIdx := by
  intro m
  have hb := built_run pose root u cs h
  have hs : Skeleton m (joints root cs) := skeleton_congr hb.skeleton rfl rfl
  have hJ : (joints root cs).length = cs.length := by simp [joints]
  obtain ⟨m', hr, h1, h2, h3, h4, h5, h6⟩ := alignLoop_closed (R := fun _ _ _ => True)
    (visit := fun _ m => .ok m) (J := joints root cs)
    (fun k m _ _ _ => ⟨m, rfl, rfl, rfl, rfl, rfl, fun _ _ => rfl, fun _ _ _ _ _ _ => trivial⟩)
    (joints root cs).length (m.successors 0) [] m (by simp) hs (by rw [hJ]; exact hps)
    List.nodup_nil (hs.nodup 0) (by intro i hi; cases hi) (by intro k j hi; cases hi)
    (by
      intro i hi
      obtain ⟨k, j, e, hj, hp⟩ := (hs.succ 0 i).mp hi
      exact ⟨by simp, k, j, e, hj, .inl hp⟩)
    (by
      intro k j hj hp
      right
      rcases hp with hp | hp
      · exact (hs.succ 0 _).mpr ⟨k, j, rfl, hj, hp⟩
      · cases hp)
  have htree : ∀ fuel, m.alignTree fuel = alignLoop (fun _ m => .ok m) fuel (m.successors 0) m := by
    intro fuel
    unfold alignTree
    have : m.rootIdx = some 0 := hb.root
    rw [this]
  refine ⟨(joints root cs).length, m', ?_, closed_connected h6, h4, h5, ?_, h1, h2, h3⟩
  · intro fuel hf
    rw [htree]
    exact alignLoop_mono _ _ _ _ _ _ hf hr
  · exact alignLoop_orientation _ _ _ _ hr

/-- C48: updating from measurements connects every component with its parent as well, whatever is
measured and however `update_orientation_based_on_position` turns the measured components; components
without measurement take the orientation of their parent, the others the one given by `turn` for the
attachment point of the parent and the measured pose. -/
theorem C48_measured (pose : Pose d) (root : String) (u : Option ℤ) (cs : List (MultiBody.Call d))
    (h : Spec.ParentsKnown root cs) (ps : List (Pose d)) (hps : ps.length = cs.length + 1)
    (measured : List (Option (Pose d))) (hmeas : measured.length = cs.length + 1)
    (level : Pose d → Pose d) (turn : ℕ → Vec d → Pose d → (Vec d ≃ₗᵢ[ℝ] Vec d)) :
    let m : MultiBody d := { (create.setRoot pose root u).run cs with poses := ps }
    ∃ (N : ℕ) (m' : MultiBody d), (∀ fuel ≥ N, m.updateMeasured measured level
          (fun i m => (m.referenceParent i).bind fun ref =>
            .ok { m with poses := m.poses.modify i (fun q => { q with orientation := turn i ref q }) })
          fuel = some (.ok m'))
      ∧ Spec.LimbsConnected root cs m'.poses
      ∧ (∀ (k : ℕ) (c : MultiBody.Call d), cs[k]? = some c → ∃ parent limb : Pose d,
          m'.poses[(Spec.bodyNames root cs).idxOf c.parentName]? = some parent
            ∧ m'.poses[k + 1]? = some limb
            ∧ limb.orientation = (match measured[k + 1]? with
              | some (some x) => turn (k + 1) (parent.fromRelative c.parentReference) x
              | _ => parent.orientation))
      ∧ m'.poses.length = ps.length
      ∧ m'.poses[0]? = (match measured[0]? with
          | some (some p) => some (level p)
          | _ => ps[0]?) := by
  intro m
  have hb := built_run pose root u cs h
  have hJ : (joints root cs).length = cs.length := by simp [joints]
  have hroot : m.rootIdx = some 0 := hb.root
  have hm0 : measured[0]? = some (measured[0]'(by omega)) := List.getElem?_eq_getElem (by omega)
  set r := measured[0]'(by omega)
  set m1 : MultiBody d := m.setMeasuredRoot 0 level r with hm1
  have hn : m1.nodes = m.nodes := by rw [hm1]; unfold setMeasuredRoot; rcases r with _ | _ <;> rfl
  have he : m1.edges = m.edges := by rw [hm1]; unfold setMeasuredRoot; rcases r with _ | _ <;> rfl
  have hl : m1.poses.length = ps.length := by
    rw [hm1]
    unfold setMeasuredRoot
    rcases r with _ | x
    · rfl
    · exact List.length_set
  have hs : Skeleton m1 (joints root cs) :=
    skeleton_congr (skeleton_congr hb.skeleton rfl rfl : Skeleton m _) hn he
  set visit := visitMeasured measured
    (fun i m => (m.referenceParent i).bind fun ref =>
      .ok { m with poses := m.poses.modify i (fun q => { q with orientation := turn i ref q }) }) with hvisit
  set R : ℕ → Pose d → (Vec d ≃ₗᵢ[ℝ] Vec d) → Prop := fun k p o => ∀ j : Joint d,
    (joints root cs)[k]? = some j → o = (match measured[k + 1]? with
              | some (some x) => turn (k + 1) (p.fromRelative j.attached) x
              | _ => p.orientation) with hR
  have hlocal : LocalVisit R visit (joints root cs) := by
    intro k m hk hs hlen
    obtain ⟨hpred, hle⟩ := hs.pred k _ (List.getElem?_eq_getElem hk)
    have hmk : measured[k + 1]? = some (measured[k + 1]'(by omega)) :=
      List.getElem?_eq_getElem (by omega)
    simp only [hvisit]
    unfold visitMeasured
    rw [hmk]
    rcases hmk' : measured[k + 1]'(by omega) with _ | x <;> rw [hmk'] at hmk <;> have hmk' := hmk
    · have hp := List.getElem?_eq_getElem
        (show (joints root cs)[k].parent < m.poses.length by omega)
      simp only [hpred, hp]
      refine ⟨_, rfl, rfl, rfl, rfl, by simp, ?_, ?_⟩
      · intro i hi
        have hne : ¬ (k + 1 = i) := by omega
        simp [hne]
      · intro j p q hj hp' hq
        have ej : j = (joints root cs)[k] := by
          rw [List.getElem?_eq_getElem hk] at hj; exact (Option.some.inj hj).symm
        subst ej
        rw [hp] at hp'
        have hq1 : m.poses[k + 1]? = some (m.poses[k + 1]'(by omega)) := List.getElem?_eq_getElem (by omega)
        simp only [List.getElem?_modify, hq1, if_true] at hq
        have e := Option.some.inj hq
        intro j' _
        rw [hmk', ← e, ← Option.some.inj hp']
    · have hne2 : ¬ (k + 1 = (joints root cs)[k].parent) := by omega
      have hp := List.getElem?_eq_getElem
        (show (joints root cs)[k].parent < m.poses.length by omega)
      have href := hs.refP (m.poses.set (k + 1) x) k _ (m.poses[(joints root cs)[k].parent]'(by omega))
        (List.getElem?_eq_getElem hk) (by rw [List.getElem?_set_ne hne2]; exact hp)
      simp only
      rw [href]
      refine ⟨_, rfl, rfl, rfl, rfl, by simp, ?_, ?_⟩
      · intro i hi
        have hne : ¬ (k + 1 = i) := by omega
        simp [hne]
      · intro j p q hj hp' hq j' hj'
        have ej : j = (joints root cs)[k] := by
          rw [List.getElem?_eq_getElem hk] at hj; exact (Option.some.inj hj).symm
        have ej' : j' = (joints root cs)[k] := by
          rw [List.getElem?_eq_getElem hk] at hj'; exact (Option.some.inj hj').symm
        subst ej ej'
        rw [hp] at hp'
        rw [← Option.some.inj hp']
        have hset : (m.poses.set (k + 1) x)[k + 1]? = some x := List.getElem?_set_self (by omega)
        simp only [List.getElem?_modify, hset, if_true] at hq
        have e := Option.some.inj hq
        rw [hmk', ← e]
  obtain ⟨m', hr, h1, h2, h3, h4, h5, h6⟩ := alignLoop_closed (R := R) (visit := visit)
    (J := joints root cs) hlocal
    (joints root cs).length (m1.successors 0) [] m1 (by simp) hs (by rw [hJ, hl]; exact hps)
    List.nodup_nil (hs.nodup 0) (by intro i hi; cases hi) (by intro k j hi; cases hi)
    (by
      intro i hi
      obtain ⟨k, j, e, hj, hp⟩ := (hs.succ 0 i).mp hi
      exact ⟨by simp, k, j, e, hj, .inl hp⟩)
    (by
      intro k j hj hp
      right
      rcases hp with hp | hp
      · exact (hs.succ 0 _).mpr ⟨k, j, rfl, hj, hp⟩
      · cases hp)
  refine ⟨(joints root cs).length, m', ?_, closed_connected h6, ?_, by omega, ?_⟩
  · intro fuel hf
    unfold updateMeasured
    rw [hroot]
    simp only [hm0]
    exact alignLoop_mono _ _ _ _ _ _ hf hr
  · intro k c hc
    have hlt := (List.getElem?_eq_some_iff.mp hc).1
    obtain ⟨j, p, q, hj, hp, hq, _, e⟩ := h6 k (by omega)
    have ej : j = ⟨(Spec.bodyNames root cs).idxOf c.parentName, c.reference, c.parentReference⟩ := by
      have hj' := hj
      unfold joints at hj'
      rw [List.getElem?_map, hc] at hj'
      simpa using hj'.symm
    subst ej
    exact ⟨p, q, hp, hq, e _ hj⟩
  · rw [h5, hm0, hm1]
    unfold setMeasuredRoot
    rcases r with _ | x
    · rfl
    · exact List.getElem?_set_self (by change 0 < ps.length; omega)

/-- C48: names of parents are looked up among the components added before; every such call succeeds. -/
theorem C48_calls_succeed (pose : Pose d) (root : String) (u : Option ℤ)
    (cs : List (MultiBody.Call d)) (h : Spec.ParentsKnown root cs) (c : MultiBody.Call d)
    (hc : c.parentName ∈ Spec.bodyNames root cs) :
    (((create.setRoot pose root u).run cs).step c).2 = .ok () :=
  (built_step (built_run pose root u cs h) hc).2

/-- C48: without root an update raises `AttributeError`. -/
theorem C48_no_root (ps : List (Pose d)) (nodes : List (LimbNode d)) (edges : List (ℕ × ℕ)) (fuel : ℕ) :
    (⟨ps, nodes, edges, none⟩ : MultiBody d).alignTree fuel = some (.error .attributeError)
      ∧ (create : MultiBody d).alignTree fuel = some (.error .attributeError) := ⟨rfl, rfl⟩

/-- C48: so does an update from measurements; with a root but without any measurements it raises `IndexError`. -/
theorem C48_measured_fails (ps : List (Pose d)) (nodes : List (LimbNode d)) (edges : List (ℕ × ℕ)) (r : ℕ)
    (measured : List (Option (Pose d))) (level : Pose d → Pose d)
    (orient : ℕ → MultiBody d → Except PyErr (MultiBody d)) (fuel : ℕ) :
    updateMeasured measured level orient ⟨ps, nodes, edges, none⟩ fuel = some (.error .attributeError)
      ∧ updateMeasured [] level orient ⟨ps, nodes, edges, some r⟩ fuel = some (.error .indexError) := ⟨rfl, rfl⟩

/-- C65 (partial): `add_component` with an unknown parent raises `IndexError` and leaves the graph of
the body unchanged.

Missing for the full property: the list of components is changed (`C65_changed`). -/
theorem C65_unknown_parent_partial (pose : Pose d) (root : String) (u : Option ℤ)
    (cs : List (MultiBody.Call d)) (h : Spec.ParentsKnown root cs) (c : MultiBody.Call d)
    (hc : c.parentName ∉ Spec.bodyNames root cs) :
    let m := (create.setRoot pose root u).run cs
    (m.step c).2 = .error .indexError ∧ (m.step c).1.nodes = m.nodes ∧ (m.step c).1.edges = m.edges := by
  intro m
  have hb : Built m _ _ := built_run pose root u cs h
  have hid : ({ m with poses := m.poses ++ [c.pose] } : MultiBody d).idFromName c.parentName
      = .error .indexError := by
    unfold idFromName
    have : m.nodes.findIdx? (fun n => n.name = c.parentName) = none := by
      rw [List.findIdx?_eq_none_iff]
      intro n hn
      simp only [decide_eq_false_iff_not]
      intro e
      apply hc
      rw [← hb.names, ← e]
      exact List.mem_map_of_mem hn
    simp only [this]
  have hres : m.step c = ({ m with poses := m.poses ++ [c.pose] }, .error .indexError) := by
    unfold step addComponent
    simp only [hid]
  rw [hres]
  exact ⟨rfl, rfl, rfl⟩

/-- C65, negative result: a failing `add_component` leaves the obstacle in the list of components, so
that from then on the obstacle with number `k` is not the one of node `k`: the reference point of the
next component is taken in the frame of the rejected one. -/
theorem C65_changed (pose : Pose d) (root : String) (u : Option ℤ)
    (cs : List (MultiBody.Call d)) (h : Spec.ParentsKnown root cs) (bad good : MultiBody.Call d)
    (hb : bad.parentName ∉ Spec.bodyNames root cs) (hg : good.parentName ∈ Spec.bodyNames root cs) :
    let m := (create.setRoot pose root u).run cs
    let m2 := ((m.step bad).1.step good).1
    ((m.step bad).1.step good).2 = .ok ()
      ∧ m2.poses = m.poses ++ [bad.pose, good.pose]
      ∧ m2.referenceObstacle (cs.length + 1) = .ok (bad.pose.fromRelative good.reference) := by
  intro m
  have hB : Built m _ _ := built_run pose root u cs h
  have hid : ({ m with poses := m.poses ++ [bad.pose] } : MultiBody d).idFromName bad.parentName
      = .error .indexError := by
    unfold idFromName
    have : m.nodes.findIdx? (fun n => n.name = bad.parentName) = none := by
      rw [List.findIdx?_eq_none_iff]
      intro n hn
      simp only [decide_eq_false_iff_not]
      intro e
      apply hb
      rw [← hB.names, ← e]
      exact List.mem_map_of_mem hn
    simp only [this]
  have hres : m.step bad = ({ m with poses := m.poses ++ [bad.pose] }, .error .indexError) := by
    unfold step addComponent
    simp only [hid]
  have hlen : m.nodes.length = cs.length + 1 := by rw [hB.len]; simp [joints]
  have hlp : m.poses.length = cs.length + 1 := by rw [hB.lenP]; simp [joints]
  have hid2 : ({ m with poses := m.poses ++ [bad.pose] ++ [good.pose] } : MultiBody d).idFromName
      good.parentName = .ok ((Spec.bodyNames root cs).idxOf good.parentName) := by
    unfold idFromName
    simp only
    rw [findIdx?_name (by rw [hB.names]; exact hg), hB.names]
  have hp : (Spec.bodyNames root cs).idxOf good.parentName < cs.length + 1 := by
    have := List.idxOf_lt_length_of_mem hg
    simpa [Spec.bodyNames] using this
  intro m2
  have hres2 : (m.step bad).1.step good = (⟨m.poses ++ [bad.pose] ++ [good.pose],
      (m.nodes ++ [(⟨good.name, good.updateId, some good.reference, [], []⟩ : LimbNode d)]).modify
        ((Spec.bodyNames root cs).idxOf good.parentName) (fun n => { n with
        referencesChildren := n.referencesChildren ++ [good.parentReference]
        indecesChildren := n.indecesChildren ++ [m.nodes.length] }),
      m.edges ++ [((Spec.bodyNames root cs).idxOf good.parentName, m.nodes.length)], m.rootIdx⟩,
      .ok ()) := by
    rw [hres]
    unfold step addComponent
    simp only [hid2]
  refine ⟨by rw [hres2], ?_, ?_⟩
  · change ((m.step bad).1.step good).1.poses = _
    rw [hres2]
    simp
  · change ((m.step bad).1.step good).1.referenceObstacle _ = _
    rw [hres2]
    unfold referenceObstacle
    have e1 : (m.poses ++ [bad.pose] ++ [good.pose])[cs.length + 1]? = some bad.pose := by
      rw [← hlp]; simp
    have e2 : (m.nodes ++ [(⟨good.name, good.updateId, some good.reference, [], []⟩ :
        LimbNode d)])[cs.length + 1]? = some ⟨good.name, good.updateId, some good.reference, [], []⟩ := by
      rw [← hlen]; simp
    have hne : ¬ ((Spec.bodyNames root cs).idxOf good.parentName = cs.length + 1) := by omega
    simp only [e1, List.getElem?_modify, e2, hne, if_false]
    rfl

/-- C48, C65 are not vacuous: a body with two arms, one of them with a forearm; and an unknown
parent. -/
example : Spec.ParentsKnown "body" ([⟨.trivial, "left", !₂[0, 0, 1], "body", !₂[1, 0, 0], none⟩,
      ⟨.trivial, "right", !₂[0, 0, 1], "body", !₂[-1, 0, 0], none⟩,
      ⟨.trivial, "hand", !₂[0, 0, 1], "left", !₂[0, 0, -1], some 3⟩] : List (MultiBody.Call 3))
    ∧ "head" ∉ Spec.bodyNames "body" ([⟨.trivial, "left", !₂[0, 0, 1], "body", !₂[1, 0, 0], none⟩] :
      List (MultiBody.Call 3)) := by
  refine ⟨?_, by simp [Spec.bodyNames]⟩
  intro k c hc
  have hk := (List.getElem?_eq_some_iff.mp hc).1
  simp only [List.length_cons, List.length_nil] at hk
  interval_cases k
  · simp at hc; subst hc; simp [Spec.bodyNames]
  · simp at hc; subst hc; simp [Spec.bodyNames]
  · simp at hc; subst hc; simp [Spec.bodyNames]

end Verif
