import Verif.Model.MultiBody
import Verif.Lemmas.GraphHandler
import Mathlib.Data.List.Basic
import Mathlib.Data.Finset.Card
import Mathlib.Order.Interval.Finset.Nat

/-!
# Helper lemmas about `MultiBody`: the breadth-first alignment loop
-/

namespace Verif.MultiBody

variable {d : ℕ}

/-- The attachment points: for every component but the root the number of the parent, the point in the
frame of the component and the point in the frame of the parent. -/
structure Joint (d : ℕ) where
  parent : ℕ
  own : Vec d
  attached : Vec d

/-- The graph part of a body is described by the list of joints (of the components 1, 2, ...). -/
structure Skeleton (m : MultiBody d) (J : List (Joint d)) : Prop where
  pred : ∀ (k : ℕ) (j : Joint d), J[k]? = some j → m.predecessors (k + 1) = [j.parent] ∧ j.parent ≤ k
  succ : ∀ i c : ℕ, c ∈ m.successors i ↔ ∃ (k : ℕ) (j : Joint d), c = k + 1 ∧ J[k]? = some j ∧ j.parent = i
  nodup : ∀ i : ℕ, (m.successors i).Nodup
  refO : ∀ (ps : List (Pose d)) (k : ℕ) (j : Joint d) (p : Pose d), J[k]? = some j → ps[k + 1]? = some p →
    ({ m with poses := ps } : MultiBody d).referenceObstacle (k + 1) = .ok (p.fromRelative j.own)
  refP : ∀ (ps : List (Pose d)) (k : ℕ) (j : Joint d) (p : Pose d), J[k]? = some j →
    ps[j.parent]? = some p →
    ({ m with poses := ps } : MultiBody d).referenceParent (k + 1) = .ok (p.fromRelative j.attached)

lemma skeleton_congr {m m' : MultiBody d} {J : List (Joint d)} (h : Skeleton m J)
    (hn : m'.nodes = m.nodes) (he : m'.edges = m.edges) : Skeleton m' J := by
  have h1 : ∀ ps : List (Pose d), ∀ i, ({ m' with poses := ps } : MultiBody d).referenceObstacle i
      = ({ m with poses := ps } : MultiBody d).referenceObstacle i := by
    intro ps i; unfold referenceObstacle; simp only [hn]
  have h2 : ∀ ps : List (Pose d), ∀ i, ({ m' with poses := ps } : MultiBody d).referenceParent i
      = ({ m with poses := ps } : MultiBody d).referenceParent i := by
    intro ps i; unfold referenceParent predecessors; simp only [hn, he]
  refine ⟨?_, ?_, ?_, ?_, ?_⟩
  · unfold predecessors; rw [he]; exact h.pred
  · unfold successors; rw [he]; exact h.succ
  · unfold successors; rw [he]; exact h.nodup
  · intro ps k j p hj hp; rw [h1]; exact h.refO ps k j p hj hp
  · intro ps k j p hj hp; rw [h2]; exact h.refP ps k j p hj hp

/-- Joint `k` is closed in the poses `ps`. -/
def Closed (J : List (Joint d)) (ps : List (Pose d)) (k : ℕ) : Prop :=
  ∃ (j : Joint d) (p q : Pose d), J[k]? = some j ∧ ps[j.parent]? = some p ∧ ps[k + 1]? = some q
    ∧ q.fromRelative j.own = p.fromRelative j.attached

lemma align_eq {m : MultiBody d} {J : List (Joint d)} (h : Skeleton m J)
    (hlen : m.poses.length = J.length + 1) {k : ℕ} (hk : k < J.length) :
    ∃ m', m.alignWithParent (k + 1) = .ok m' ∧ m'.nodes = m.nodes ∧ m'.edges = m.edges
      ∧ m'.rootIdx = m.rootIdx ∧ m'.poses.length = m.poses.length ∧ Closed J m'.poses k
      ∧ (∀ i : ℕ, i ≠ k + 1 → m'.poses[i]? = m.poses[i]?)
      ∧ ∀ i : ℕ, (m'.poses[i]?).map Pose.orientation = (m.poses[i]?).map Pose.orientation := by
  set j := J[k] with hj
  have hJ : J[k]? = some j := List.getElem?_eq_getElem hk
  obtain ⟨hpred, hle⟩ := h.pred k j hJ
  have hp := List.getElem?_eq_getElem (show j.parent < m.poses.length by omega)
  have hq := List.getElem?_eq_getElem (show k + 1 < m.poses.length by omega)
  set p := m.poses[j.parent]'(by omega)
  set q := m.poses[k + 1]'(by omega)
  have h1 := h.refO m.poses k j q hJ hq
  have h2 := h.refP m.poses k j p hJ hp
  set q' : Pose d := { q with position :=
    q.position + (p.fromRelative j.attached - q.fromRelative j.own) } with hq'
  refine ⟨{ m with poses := m.poses.modify (k + 1) (fun x => { x with position := x.position +
    (p.fromRelative j.attached - q.fromRelative j.own) }) }, ?_, rfl, rfl, rfl, by simp, ?_, ?_, ?_⟩
  · unfold alignWithParent
    change m.referenceObstacle (k + 1) = _ at h1
    change m.referenceParent (k + 1) = _ at h2
    rw [h1, h2]
  · refine ⟨j, p, q', hJ, ?_, ?_, ?_⟩
    · have hne : ¬ (k + 1 = j.parent) := by omega
      simp only [List.getElem?_modify, hp, hne, if_false]; rfl
    · simp only [List.getElem?_modify, hq, if_true]; rfl
    · simp only [hq', Pose.fromRelative]
      abel
  · intro i hi
    have hne : ¬ (k + 1 = i) := by omega
    simp [hne]
  · intro i
    simp only [List.getElem?_modify]
    rcases m.poses[i]? with _ | x
    · rfl
    · by_cases hi : k + 1 = i
      · simp [hi]
      · simp [hi]

lemma alignLoop_mono (visit : ℕ → MultiBody d → Except PyErr (MultiBody d)) :
    ∀ (fuel fuel' : ℕ) (queue : List ℕ) (m : MultiBody d) (r : Except PyErr (MultiBody d)),
      fuel ≤ fuel' → alignLoop visit fuel queue m = some r → alignLoop visit fuel' queue m = some r := by
  intro fuel
  induction fuel with
  | zero =>
    intro fuel' queue m r _ h
    cases queue with
    | nil => unfold alignLoop at h ⊢; exact h
    | cons i queue => cases h
  | succ fuel ih =>
    intro fuel' queue m r hf h
    cases queue with
    | nil => unfold alignLoop at h ⊢; exact h
    | cons i queue =>
      obtain ⟨fuel', rfl⟩ : ∃ f, fuel' = f + 1 := ⟨fuel' - 1, by omega⟩
      unfold alignLoop at h ⊢
      rcases hv : visit i m with e | m1
      · rw [hv] at h; exact h
      · rw [hv] at h
        simp only at h ⊢
        rcases ha : m1.alignWithParent i with e | m2
        · rw [ha] at h; exact h
        · rw [ha] at h
          exact ih _ _ _ _ (by omega) h

/-- Joint `k` is closed and the orientation of the component is in relation `R` with the pose of the parent. -/
def ClosedR (R : ℕ → Pose d → (Vec d ≃ₗᵢ[ℝ] Vec d) → Prop) (J : List (Joint d)) (ps : List (Pose d))
    (k : ℕ) : Prop :=
  ∃ (j : Joint d) (p q : Pose d), J[k]? = some j ∧ ps[j.parent]? = some p ∧ ps[k + 1]? = some q
    ∧ q.fromRelative j.own = p.fromRelative j.attached ∧ R k p q.orientation

/-- A visit keeps the graph and every pose but the one of the visited component, whose orientation it brings
into the relation `R` with the pose of the parent. -/
def LocalVisit (R : ℕ → Pose d → (Vec d ≃ₗᵢ[ℝ] Vec d) → Prop)
    (visit : ℕ → MultiBody d → Except PyErr (MultiBody d)) (J : List (Joint d)) : Prop :=
  ∀ (k : ℕ) (m : MultiBody d), k < J.length → Skeleton m J → m.poses.length = J.length + 1 →
    ∃ m', visit (k + 1) m = .ok m' ∧ m'.nodes = m.nodes ∧ m'.edges = m.edges
      ∧ m'.rootIdx = m.rootIdx ∧ m'.poses.length = m.poses.length
      ∧ (∀ i : ℕ, i ≠ k + 1 → m'.poses[i]? = m.poses[i]?)
      ∧ ∀ (j : Joint d) (p q : Pose d), J[k]? = some j → m.poses[j.parent]? = some p →
        m'.poses[k + 1]? = some q → R k p q.orientation

/-- The loop closes every joint and establishes the relation `R` of every visit. -/
lemma alignLoop_closed {R : ℕ → Pose d → (Vec d ≃ₗᵢ[ℝ] Vec d) → Prop}
    {visit : ℕ → MultiBody d → Except PyErr (MultiBody d)} {J : List (Joint d)}
    (hvisit : LocalVisit R visit J) :
    ∀ (fuel : ℕ) (queue done : List ℕ) (m : MultiBody d), J.length ≤ fuel + done.length →
      Skeleton m J → m.poses.length = J.length + 1 → done.Nodup → queue.Nodup →
      (∀ i ∈ done, ∃ k, i = k + 1 ∧ ClosedR R J m.poses k) →
      (∀ (k : ℕ) (j : Joint d), k + 1 ∈ done → J[k]? = some j → j.parent = 0 ∨ j.parent ∈ done) →
      (∀ i ∈ queue, i ∉ done ∧ ∃ (k : ℕ) (j : Joint d), i = k + 1 ∧ J[k]? = some j
        ∧ (j.parent = 0 ∨ j.parent ∈ done)) →
      (∀ (k : ℕ) (j : Joint d), J[k]? = some j → (j.parent = 0 ∨ j.parent ∈ done) →
        k + 1 ∈ done ∨ k + 1 ∈ queue) →
      ∃ m', alignLoop visit fuel queue m = some (.ok m') ∧ m'.nodes = m.nodes ∧ m'.edges = m.edges
        ∧ m'.rootIdx = m.rootIdx ∧ m'.poses.length = m.poses.length ∧ m'.poses[0]? = m.poses[0]?
        ∧ ∀ k, k < J.length → ClosedR R J m'.poses k := by
  -- the end of the loop
  have hend : ∀ (done : List ℕ) (m : MultiBody d), Skeleton m J →
      (∀ i ∈ done, ∃ k, i = k + 1 ∧ ClosedR R J m.poses k) →
      (∀ (k : ℕ) (j : Joint d), J[k]? = some j → (j.parent = 0 ∨ j.parent ∈ done) →
        k + 1 ∈ done) → ∀ k, k < J.length → ClosedR R J m.poses k := by
    intro done m hs hd hq
    have hall : ∀ k, k < J.length → k + 1 ∈ done := by
      intro k
      induction k using Nat.strong_induction_on with
      | _ k ih =>
        intro hk
        have hJ : J[k]? = some J[k] := List.getElem?_eq_getElem hk
        refine hq k _ hJ ?_
        obtain ⟨_, hle⟩ := hs.pred k _ hJ
        rcases Nat.eq_zero_or_pos J[k].parent with h | h
        · exact .inl h
        · right
          have := ih (J[k].parent - 1) (by omega) (by omega)
          rwa [Nat.sub_add_cancel h] at this
    intro k hk
    obtain ⟨k', e, hc⟩ := hd _ (hall k hk)
    have : k' = k := by omega
    subst this
    exact hc
  intro fuel
  induction fuel with
  | zero =>
    intro queue done m hf hs hlen hdn hqn hd hdp hqd hch
    have hq0 : queue = [] := by
      apply List.eq_nil_iff_forall_not_mem.mpr
      intro i hi
      obtain ⟨hnd, k, j, rfl, hJ, _⟩ := hqd i hi
      have hsub : done.toFinset ⊆ (Finset.Ico 1 (J.length + 1)).erase (k + 1) := by
        intro x hx
        rw [List.mem_toFinset] at hx
        obtain ⟨k', rfl, j', _, _, hj', _⟩ := hd x hx
        have := (List.getElem?_eq_some_iff.mp hj').1
        rw [Finset.mem_erase, Finset.mem_Ico]
        refine ⟨?_, by omega, by omega⟩
        rintro e
        rw [e] at hx; exact hnd hx
      have hcard := Finset.card_le_card hsub
      have hkl := (List.getElem?_eq_some_iff.mp hJ).1
      rw [List.toFinset_card_of_nodup hdn, Finset.card_erase_of_mem
        (Finset.mem_Ico.mpr ⟨by omega, by omega⟩), Nat.card_Ico] at hcard
      omega
    subst hq0
    refine ⟨m, by unfold alignLoop; rfl, rfl, rfl, rfl, rfl, rfl, ?_⟩
    refine hend done m hs hd ?_
    intro k j hJ hp
    rcases hch k j hJ hp with h | h
    · exact h
    · cases h
  | succ fuel ih =>
    intro queue done m hf hs hlen hdn hqn hd hdp hqd hch
    cases queue with
    | nil =>
      refine ⟨m, by unfold alignLoop; rfl, rfl, rfl, rfl, rfl, rfl, ?_⟩
      refine hend done m hs hd ?_
      intro k j hJ hp
      rcases hch k j hJ hp with h | h
      · exact h
      · cases h
    | cons i queue =>
      obtain ⟨hnd, k, j, rfl, hJ, hpar⟩ := hqd i List.mem_cons_self
      have hk := (List.getElem?_eq_some_iff.mp hJ).1
      obtain ⟨m1, hv, hv1, hv2, hv3, hv4, hv5, hv6⟩ := hvisit k m hk hs hlen
      have hs1 : Skeleton m1 J := skeleton_congr hs hv1 hv2
      obtain ⟨m2, ha, ha1, ha2, ha3, ha4, ha5, ha6, ha7⟩ := align_eq hs1 (by omega) hk
      have hs2 : Skeleton m2 J := skeleton_congr hs1 ha1 ha2
      have hkeep : ∀ i : ℕ, i ≠ k + 1 → m2.poses[i]? = m.poses[i]? := by
        intro i hi; rw [ha6 i hi, hv5 i hi]
      have hnew : ClosedR R J m2.poses k := by
        obtain ⟨j', p, q, hj', hp, hq, hc⟩ := ha5
        refine ⟨j', p, q, hj', hp, hq, hc, ?_⟩
        have hle := (hs.pred k j' hj').2
        rw [hkeep _ (by omega)] at hp
        have e7 := ha7 (k + 1)
        rw [hq] at e7
        rcases hq1 : m1.poses[k + 1]? with _ | q1
        · rw [hq1] at e7; cases e7
        · rw [hq1] at e7
          have e8 : q.orientation = q1.orientation := by simpa using e7
          rw [e8]
          exact hv6 j' p q1 hj' hp hq1
      rw [List.nodup_cons] at hqn
      obtain ⟨m', hr, h1, h2, h3, h4, h5, h6⟩ := ih (queue ++ m.successors (k + 1)) (done ++ [k + 1])
        m2 (by simp; omega) hs2 (by omega)
        (by
          rw [List.nodup_append]
          refine ⟨hdn, List.nodup_singleton _, ?_⟩
          intro x hx y hy
          rw [List.mem_singleton] at hy
          subst hy
          rintro rfl
          exact hnd hx)
        (by
          rw [List.nodup_append]
          refine ⟨hqn.2, hs.nodup _, ?_⟩
          intro x hx y hy
          rintro rfl
          obtain ⟨k', j', rfl, hJ', hp'⟩ := (hs.succ _ _).mp hy
          obtain ⟨_, k2, j2, e, hJ2, hp2⟩ := hqd _ (List.mem_cons_of_mem _ hx)
          have : k2 = k' := by omega
          subst this
          rw [hJ'] at hJ2
          cases hJ2
          rcases hp2 with h | h
          · omega
          · rw [hp'] at h; exact hnd h)
        (by
          intro i hi
          rcases List.mem_append.mp hi with hi | hi
          · obtain ⟨k', rfl, j', p, q, hj', hp, hq, hc⟩ := hd i hi
            refine ⟨k', rfl, j', p, q, hj', ?_, ?_, hc⟩
            · rw [hkeep, hp]
              rintro e
              rcases hdp k' j' hi hj' with h | h
              · omega
              · rw [e] at h; exact hnd h
            · rw [hkeep, hq]
              rintro e
              rw [e] at hi; exact hnd hi
          · rw [List.mem_singleton] at hi
            exact ⟨k, hi, hnew⟩)
        (by
          intro k' j' hmem hj'
          rcases List.mem_append.mp hmem with hmem | hmem
          · rcases hdp k' j' hmem hj' with h | h
            · exact .inl h
            · exact .inr (List.mem_append_left _ h)
          · rw [List.mem_singleton] at hmem
            have : k' = k := by omega
            subst this
            rw [hJ] at hj'; cases hj'
            rcases hpar with h | h
            · exact .inl h
            · exact .inr (List.mem_append_left _ h))
        (by
          intro x hx
          rcases List.mem_append.mp hx with hx | hx
          · obtain ⟨h1, k', j', e, hJ', hp'⟩ := hqd x (List.mem_cons_of_mem _ hx)
            refine ⟨?_, k', j', e, hJ', ?_⟩
            · intro hmem
              rcases List.mem_append.mp hmem with h | h
              · exact h1 h
              · rw [List.mem_singleton] at h
                rw [h] at hx; exact hqn.1 hx
            · rcases hp' with h | h
              · exact .inl h
              · exact .inr (List.mem_append_left _ h)
          · obtain ⟨k', j', e, hJ', hp'⟩ := (hs.succ _ _).mp hx
            refine ⟨?_, k', j', e, hJ', .inr (by rw [hp']; simp)⟩
            intro hmem
            rcases List.mem_append.mp hmem with h | h
            · rw [e] at h
              rcases hdp k' j' h hJ' with h | h
              · omega
              · rw [hp'] at h; exact hnd h
            · rw [List.mem_singleton] at h
              have := (hs.pred k' j' hJ').2
              omega)
        (by
          intro k' j' hJ' hp'
          by_cases hc : j'.parent = k + 1
          · right
            exact List.mem_append_right _ ((hs.succ _ _).mpr ⟨k', j', rfl, hJ', hc⟩)
          · have : j'.parent = 0 ∨ j'.parent ∈ done := by
              rcases hp' with h | h
              · exact .inl h
              · rcases List.mem_append.mp h with h | h
                · exact .inr h
                · rw [List.mem_singleton] at h; exact absurd h hc
            rcases hch k' j' hJ' this with h | h
            · exact .inl (List.mem_append_left _ h)
            · rcases List.mem_cons.mp h with h | h
              · left; rw [h]; simp
              · exact .inr (List.mem_append_left _ h))
      refine ⟨m', ?_, by rw [h1, ha1, hv1], by rw [h2, ha2, hv2], by rw [h3, ha3, hv3], by omega, ?_, h6⟩
      · unfold alignLoop
        rw [hv]
        simp only
        rw [ha]
        exact hr
      · rw [h5, hkeep 0 (by omega)]

/-- Alignment alone keeps the orientations. -/
lemma alignLoop_orientation :
    ∀ (fuel : ℕ) (queue : List ℕ) (m m' : MultiBody d),
      alignLoop (fun _ m => .ok m) fuel queue m = some (.ok m') →
      ∀ i : ℕ, (m'.poses[i]?).map Pose.orientation = (m.poses[i]?).map Pose.orientation := by
  intro fuel
  induction fuel with
  | zero =>
    intro queue m m' h i
    cases queue with
    | nil => unfold alignLoop at h; cases h; rfl
    | cons _ _ => cases h
  | succ fuel ih =>
    intro queue m m' h i
    cases queue with
    | nil => unfold alignLoop at h; cases h; rfl
    | cons x queue =>
      unfold alignLoop at h
      simp only at h
      rcases ha : m.alignWithParent x with e | m2
      · rw [ha] at h; cases h
      · rw [ha] at h
        rw [ih _ _ _ h i]
        unfold alignWithParent at ha
        rcases h1 : m.referenceObstacle x with e | ro
        · rw [h1] at ha; cases ha
        · rw [h1] at ha
          rcases h2 : m.referenceParent x with e | rp
          · rw [h2] at ha; cases ha
          · rw [h2] at ha
            simp only [Except.ok.injEq] at ha
            subst ha
            simp only [List.getElem?_modify]
            rcases m.poses[i]? with _ | y
            · rfl
            · by_cases hi : x = i
              · simp [hi]
              · simp [hi]

/-! The graph built by a history of calls. -/

/-- The children of component `i` with their joints. -/
def kids (J : List (Joint d)) (i : ℕ) : List (Joint d × ℕ) := J.zipIdx.filter (fun e => e.1.parent = i)

lemma mem_kids {J : List (Joint d)} {i k : ℕ} {j : Joint d} :
    (j, k) ∈ kids J i ↔ J[k]? = some j ∧ j.parent = i := by
  unfold kids
  rw [List.mem_filter, List.mem_zipIdx_iff_getElem?]
  simp

lemma kids_nodup (J : List (Joint d)) (i : ℕ) : ((kids J i).map (fun e => e.2 + 1)).Nodup := by
  have h1 : (J.zipIdx.map (fun e => e.2 + 1)).Nodup := by
    have : J.zipIdx.map (fun e => e.2 + 1) = (List.range J.length).map (· + 1) := by
      apply List.ext_getElem?
      intro k
      simp only [List.getElem?_map, List.getElem?_zipIdx]
      by_cases hk : k < J.length
      · simp [hk]
      · simp [hk]
    rw [this]
    exact (List.nodup_range).map (fun a b h => by simpa using h)
  exact h1.sublist (List.filter_sublist.map _)

/-- The graph is the one described by the names and joints. -/
structure Built (m : MultiBody d) (names : List String) (J : List (Joint d)) : Prop where
  len : m.nodes.length = J.length + 1
  lenP : m.poses.length = J.length + 1
  root : m.rootIdx = some 0
  names : m.nodes.map LimbNode.name = names
  edges : m.edges = J.zipIdx.map (fun e => (e.1.parent, e.2 + 1))
  bound : ∀ (k : ℕ) (j : Joint d), J[k]? = some j → j.parent ≤ k
  kids : ∀ (i : ℕ) (n : LimbNode d), m.nodes[i]? = some n →
    n.indecesChildren = (kids J i).map (fun e => e.2 + 1)
    ∧ n.referencesChildren = (kids J i).map (fun e => e.1.attached)
  own : ∀ (k : ℕ) (j : Joint d), J[k]? = some j → ∃ n : LimbNode d, m.nodes[k + 1]? = some n
    ∧ n.localReference = some j.own

lemma Built.skeleton {m : MultiBody d} {names : List String} {J : List (Joint d)}
    (h : Built m names J) : Skeleton m J := by
  have hsucc : ∀ i, m.successors i = (MultiBody.kids J i).map (fun e => e.2 + 1) := by
    intro i
    unfold successors MultiBody.kids
    rw [h.edges, List.filter_map, List.map_map]
    rfl
  have hpred : ∀ (k : ℕ) (j : Joint d), J[k]? = some j → m.predecessors (k + 1) = [j.parent] := by
    intro k j hj
    unfold predecessors
    rw [h.edges, List.filter_map, List.map_map]
    have hk := (List.getElem?_eq_some_iff.mp hj).1
    have : J.zipIdx.filter ((fun e : ℕ × ℕ => decide (e.2 = k + 1)) ∘
        fun e : Joint d × ℕ => (e.1.parent, e.2 + 1)) = [(j, k)] := by
      have hfun : ((fun e : ℕ × ℕ => decide (e.2 = k + 1)) ∘
        fun e : Joint d × ℕ => (e.1.parent, e.2 + 1)) = fun e : Joint d × ℕ => decide (e.2 = k) := by
        funext e; simp
      rw [hfun]
      have hsplit : J = J.take k ++ j :: J.drop (k + 1) := by
        conv_lhs => rw [← List.take_append_drop k J]
        rw [List.drop_eq_getElem_cons hk]
        rw [(List.getElem?_eq_some_iff.mp hj).2]
      rw [hsplit, List.zipIdx_append, List.zipIdx_cons, List.filter_append, List.filter_cons]
      have hl : (J.take k).length = k := by rw [List.length_take]; omega
      rw [hl]
      have e1 : ((J.take k).zipIdx.filter fun e : Joint d × ℕ => decide (e.2 = k)) = [] := by
        rw [List.filter_eq_nil_iff]
        rintro ⟨a, i⟩ hmem
        have := (List.mem_zipIdx hmem).2.1
        simp only [decide_eq_true_eq]; omega
      have e2 : (((J.drop (k + 1)).zipIdx (0 + k + 1)).filter
          fun e : Joint d × ℕ => decide (e.2 = k)) = [] := by
        rw [List.filter_eq_nil_iff]
        rintro ⟨a, i⟩ hmem
        have := (List.mem_zipIdx hmem).1
        simp only [decide_eq_true_eq]; omega
      rw [e1, e2]
      simp
    rw [this]
    rfl
  refine ⟨fun k j hj => ⟨hpred k j hj, h.bound k j hj⟩, ?_, ?_, ?_, ?_⟩
  · intro i c
    rw [hsucc, List.mem_map]
    constructor
    · rintro ⟨⟨j, k⟩, hmem, rfl⟩
      obtain ⟨h1, h2⟩ := mem_kids.mp hmem
      exact ⟨k, j, rfl, h1, h2⟩
    · rintro ⟨k, j, rfl, h1, h2⟩
      exact ⟨(j, k), mem_kids.mpr ⟨h1, h2⟩, rfl⟩
  · intro i; rw [hsucc]; exact kids_nodup J i
  · intro ps k j p hj hp
    obtain ⟨n, hn, hr⟩ := h.own k j hj
    unfold referenceObstacle
    simp only [hp, hn, hr]
  · intro ps k j p hj hp
    have hk := (List.getElem?_eq_some_iff.mp hj).1
    have hb := h.bound k j hj
    have hpr : ({ m with poses := ps } : MultiBody d).predecessors (k + 1) = [j.parent] := hpred k j hj
    have hn := List.getElem?_eq_getElem (show j.parent < m.nodes.length by rw [h.len]; omega)
    obtain ⟨h1, h2⟩ := h.kids _ _ hn
    set n := m.nodes[j.parent]'(by rw [h.len]; omega)
    have hmem : (j, k) ∈ MultiBody.kids J j.parent := mem_kids.mpr ⟨hj, rfl⟩
    obtain ⟨t, ht⟩ := List.mem_iff_getElem?.mp hmem
    have hix : GraphHandler.pyIndex n.indecesChildren (k + 1) = .ok t := by
      rw [GraphHandler.pyIndex_iff (by rw [h1]; exact kids_nodup J _), h1, List.getElem?_map, ht]
      rfl
    have hre : n.referencesChildren[t]? = some j.attached := by
      rw [h2, List.getElem?_map, ht]; rfl
    unfold referenceParent
    rw [hpr]
    simp only [hn, hix, hre, hp]

end Verif.MultiBody
