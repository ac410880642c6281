import Verif.Spec.Tracking
import Verif.Lemmas.Monad

/-!
# C134: measurements reach the component with their number, and no other
-/

namespace Verif
open Spec Tracker

variable {d : ℕ} {F : Type}

/-- The filters fit to the parts. -/
private def Fits (t : Tracker d F) : Prop :=
  t.nComponents = t.updateIds.length ∧ t.filters.length = t.updateIds.length
    ∧ ∀ j : ℕ, ∀ u, t.updateIds[j]? = some (some u) → ∃ f, t.filters[j]? = some (some f)

private lemma build_fits (ext : FilterExt d F) (robot : Option (ℤ × Pose d)) (ids : List (Option ℤ)) :
    (build ext robot ids).updateIds = ids ∧ (build ext robot ids).robot = robot
    ∧ (build ext robot ids).nComponents = ids.length
    ∧ (build ext robot ids).filters = ids.map (fun u => if u.isSome then some ext.initial else none) := by
  induction ids using List.reverseRecOn with
  | nil => exact ⟨rfl, rfl, rfl, rfl⟩
  | append_singleton ids u ih =>
    obtain ⟨h1, h2, h3, h4⟩ := ih
    have : build ext robot (ids ++ [u]) = addPart ext (build ext robot ids) u := by
      unfold build; rw [List.foldl_append]; rfl
    rw [this]
    refine ⟨?_, ?_, ?_, ?_⟩
    · change _ ++ [u] = _; rw [h1]
    · exact h2
    · change _ + 1 = _; rw [h3]; simp
    · change createFilters _ _ _ = _
      unfold createFilters
      rw [h4]
      cases u <;> simp

/-- The numbers of the components, `-1` for those without. -/
private def marks (ids : List (Option ℤ)) : List ℤ := ids.map (fun u => u.getD (-1))

private lemma indeces_ok {t : Tracker d F} (h : t.nComponents = t.updateIds.length) :
    t.optitrackIndeces = .ok (marks t.updateIds) := by
  unfold optitrackIndeces
  refine mapM_ok.mpr ?_
  rw [List.forall₂_iff_get]
  refine ⟨by simp [marks, h], ?_⟩
  intro i h1 h2
  simp only [List.length_range] at h1
  have hi : i < t.updateIds.length := by omega
  simp only [List.get_eq_getElem, List.getElem_range]
  rw [List.getElem?_eq_getElem hi]
  have hm : (marks t.updateIds)[i]'(by simpa [marks] using hi) = (t.updateIds[i]).getD (-1) := by
    simp [marks]
  rw [hm]
  cases t.updateIds[i] <;> rfl

private lemma marks_idx {ids : List (Option ℤ)} {u : ℤ} (hu : u ≠ -1) (j : ℕ) :
    (marks ids).findIdx? (fun v => v = u) = some j ↔ FirstWith ids j u := by
  unfold FirstWith
  have key : ∀ i : ℕ, (marks ids)[i]? = some u ↔ ids[i]? = some (some u) := by
    intro i
    unfold marks
    rw [List.getElem?_map]
    cases hi : ids[i]? with
    | none => simp
    | some v =>
      cases v with
      | none => simp; exact fun h => hu h.symm
      | some v => simp
  rw [List.findIdx?_eq_some_iff_getElem]
  constructor
  · rintro ⟨hj, h1, h2⟩
    refine ⟨(key j).mp (by rw [List.getElem?_eq_getElem hj]; simpa using h1), fun i hi hcon => ?_⟩
    have := h2 i hi
    have hk := (key i).mpr hcon
    rw [List.getElem?_eq_getElem (by omega)] at hk
    simp only [Option.some.injEq] at hk
    simp [hk] at this
  · rintro ⟨h1, h2⟩
    have hk := (key j).mpr h1
    have hj : j < (marks ids).length := by
      by_contra hcon
      rw [List.getElem?_eq_none (by omega)] at hk; cases hk
    rw [List.getElem?_eq_getElem hj, Option.some.injEq] at hk
    refine ⟨hj, by simp [hk], fun i hi => ?_⟩
    have := h2 i hi
    rw [Ne, ← key, List.getElem?_eq_getElem (by omega)] at this
    simpa using this

/-- What the loop does for every component. -/
private lemma filterLoop_ok (ext : FilterExt d F) (ids : List (Option ℤ)) (frame : Pose d → Pose d)
    (ms : List (Measurement d)) : ∀ (fs : List (Option F)) (out : List (Option (Pose d))),
    (∀ m ∈ ms, m.obsId ≠ -1) → out.length = ids.length → fs.length = ids.length →
    (∀ j : ℕ, ∀ u, ids[j]? = some (some u) → ∃ f, fs[j]? = some (some f)) →
    ∃ fs' out', filterLoop ext (marks ids) frame ms fs out = (fs', .ok out')
      ∧ out'.length = ids.length ∧ fs'.length = ids.length
      ∧ (∀ j u f, FirstWith ids j u → fs[j]? = some (some f) →
          fs'[j]? = some (some ((measuredFor u ms).foldl ext.runOnce f))
          ∧ out'[j]? = (if measuredFor u ms = [] then out[j]?
              else some (some (frame (ext.pose ((measuredFor u ms).foldl ext.runOnce f))))))
      ∧ (∀ j, (∀ u, ¬ FirstWith ids j u) → fs'[j]? = fs[j]? ∧ out'[j]? = out[j]?) := by
  induction ms with
  | nil =>
    intro fs out _ ho hf _
    refine ⟨fs, out, rfl, ho, hf, ?_, ?_⟩
    · intro j u f _ hj
      exact ⟨hj, by simp [measuredFor]⟩
    · intro j _; exact ⟨rfl, rfl⟩
  | cons m ms ih =>
    intro fs out hm ho hf hsome
    have hm0 := hm m (by simp)
    have hms : ∀ m' ∈ ms, m'.obsId ≠ -1 := fun m' h => hm m' (by simp [h])
    cases hi : (marks ids).findIdx? (fun v => v = m.obsId) with
    | none =>
      obtain ⟨fs', out', h1, h2, h3, h4, h5⟩ := ih fs out hms ho hf hsome
      refine ⟨fs', out', ?_, h2, h3, ?_, h5⟩
      · unfold filterLoop; rw [hi]; exact h1
      · intro j u f hj hfj
        have hu : m.obsId ≠ u := by
          rintro rfl
          rw [(marks_idx hm0 j).mpr hj] at hi; cases hi
        have : measuredFor u (m :: ms) = measuredFor u ms := by simp [measuredFor, hu]
        rw [this]
        exact h4 j u f hj hfj
    | some i =>
      have hF := (marks_idx hm0 i).mp hi
      obtain ⟨f0, hf0⟩ := hsome i m.obsId hF.1
      have hil : i < ids.length := by
        by_contra hcon
        have := hF.1
        rw [List.getElem?_eq_none (by omega)] at this; cases this
      set f1 := ext.runOnce f0 m.pose with hf1
      obtain ⟨fs', out', h1, h2, h3, h4, h5⟩ := ih (fs.set i (some f1)) (out.set i (some (frame (ext.pose f1)))) hms
        (by simpa using ho) (by simpa using hf) (by
          intro j u hj
          by_cases hji : i = j
          · subst hji; exact ⟨f1, by rw [List.getElem?_set_self (by omega)]⟩
          · rw [List.getElem?_set_ne hji]; exact hsome j u hj)
      refine ⟨fs', out', ?_, h2, h3, ?_, ?_⟩
      · unfold filterLoop
        rw [hi]
        simp only [hf0]
        exact h1
      · intro j u f hj hfj
        by_cases hji : i = j
        · subst hji
          have hu : u = m.obsId := by
            have := hj.1.symm.trans hF.1
            simpa using this
          subst hu
          rw [hf0] at hfj
          have hff : f0 = f := by simpa using hfj
          subst hff
          obtain ⟨a1, a2⟩ := h4 i m.obsId f1 hj (by rw [List.getElem?_set_self (by omega)])
          have hcons : measuredFor m.obsId (m :: ms) = m.pose :: measuredFor m.obsId ms := by simp [measuredFor]
          rw [hcons, List.foldl_cons, if_neg (by simp)]
          refine ⟨a1, ?_⟩
          rw [a2]
          by_cases he : measuredFor m.obsId ms = []
          · rw [if_pos he, he, List.getElem?_set_self (by omega)]; rfl
          · rw [if_neg he]
        · have hu : m.obsId ≠ u := by
            rintro rfl
            have := ((marks_idx hm0 j).mpr hj).symm.trans hi
            exact hji (Option.some.inj this).symm
          have hcons : measuredFor u (m :: ms) = measuredFor u ms := by simp [measuredFor, hu]
          rw [hcons]
          have := h4 j u f hj (by rw [List.getElem?_set_ne hji]; exact hfj)
          rw [List.getElem?_set_ne hji] at this
          exact this
      · intro j hj
        have hji : i ≠ j := by rintro rfl; exact hj _ hF
        have := h5 j hj
        rw [List.getElem?_set_ne hji, List.getElem?_set_ne hji] at this
        exact this

private lemma receive_ok (ext : FilterExt d F) (transform : Bool) (t : Tracker d F) (ht : Fits t)
    (ms : List (Measurement d)) (hms : ∀ m ∈ ms, m.obsId ≠ -1) :
    ∃ t' out, t.receive ext transform ms = (t', .ok out) ∧ Fits t' ∧ t'.updateIds = t.updateIds
      ∧ t'.robot = updateRobot ms t.robot ∧ out.length = t.updateIds.length
      ∧ (∀ j u f, FirstWith t.updateIds j u → t.filters[j]? = some (some f) →
          t'.filters[j]? = some (some ((measuredFor u ms).foldl ext.runOnce f))
          ∧ out[j]? = (if measuredFor u ms = [] then some none
              else some (some (framePose (updateRobot ms t.robot) transform
                (ext.pose ((measuredFor u ms).foldl ext.runOnce f))))))
      ∧ (∀ j, (∀ u, ¬ FirstWith t.updateIds j u) → t'.filters[j]? = t.filters[j]?
          ∧ (j < t.updateIds.length → out[j]? = some none)) := by
  obtain ⟨hn, hl, hs⟩ := ht
  obtain ⟨fs', out', h1, h2, h3, h4, h5⟩ := filterLoop_ok ext t.updateIds (framePose (updateRobot ms t.robot) transform)
    ms t.filters (List.replicate t.nComponents none) hms (by simp [hn]) hl hs
  have hlt : ∀ j : ℕ, ∀ u, t.updateIds[j]? = some (some u) → j < t.nComponents := by
    intro j u hj
    by_contra hcon
    rw [List.getElem?_eq_none (by omega)] at hj; cases hj
  refine ⟨{ t with robot := updateRobot ms t.robot, filters := fs' }, out', ?_, ⟨hn, h3, ?_⟩, rfl, rfl, h2, ?_, ?_⟩
  · unfold receive
    rw [indeces_ok hn]
    simp only [h1]
  · intro j u hj
    obtain ⟨f, hf⟩ := hs j u hj
    by_cases hfirst : ∃ v, FirstWith t.updateIds j v
    · obtain ⟨v, hv⟩ := hfirst
      exact ⟨_, (h4 j v f hv hf).1⟩
    · exact ⟨f, by rw [(h5 j (by simpa using hfirst)).1]; exact hf⟩
  · intro j u f hj hf
    obtain ⟨a, b⟩ := h4 j u f hj hf
    refine ⟨a, ?_⟩
    rw [b, List.getElem?_replicate, if_pos (hlt j u hj.1)]
  · intro j hj
    obtain ⟨a, b⟩ := h5 j hj
    refine ⟨a, fun hjl => ?_⟩
    rw [b, List.getElem?_replicate, if_pos (by omega)]

/-- C134: one update.  For every body made of parts with the numbers `ids`, after any history of updates, and for every
list of measurements (the number -1 is not used), the update returns; the component which is the first with the number
`u` is given the pose of its filter, in the frame of the robot, which has run through all poses measured for `u` in the
whole history, in order, and no others; it is left without pose if nothing was measured for `u` in this update. -/
theorem C134_dispatch (ext : FilterExt d F) (transform : Bool) (robot : Option (ℤ × Pose d)) (ids : List (Option ℤ))
    (history : List (List (Measurement d))) (ms : List (Measurement d))
    (hh : ∀ past ∈ history, ∀ m ∈ past, m.obsId ≠ -1) (hm : ∀ m ∈ ms, m.obsId ≠ -1) :
    ∃ t' out, ((build ext robot ids).receiveAll ext transform history).receive ext transform ms = (t', .ok out)
      ∧ ∀ j u, FirstWith ids j u →
          out[j]? = some (if measuredFor u ms = [] then none
            else some (framePose t'.robot transform
              (ext.pose ((measuredFor u (history.flatten ++ ms)).foldl ext.runOnce ext.initial)))) := by
  have hist : ∀ hs : List (List (Measurement d)), (∀ past ∈ hs, ∀ m ∈ past, m.obsId ≠ -1) →
      Fits ((build ext robot ids).receiveAll ext transform hs)
      ∧ ((build ext robot ids).receiveAll ext transform hs).updateIds = ids
      ∧ ∀ j u, FirstWith ids j u → ((build ext robot ids).receiveAll ext transform hs).filters[j]?
          = some (some ((measuredFor u hs.flatten).foldl ext.runOnce ext.initial)) := by
    intro hs
    induction hs using List.reverseRecOn with
    | nil =>
      intro _
      change Fits (build ext robot ids) ∧ (build ext robot ids).updateIds = ids ∧ _
      obtain ⟨h1, h2, h3, h4⟩ := build_fits ext robot ids
      have hfil : ∀ (j : ℕ) (u : ℤ), ids[j]? = some (some u) →
          (build ext robot ids).filters[j]? = some (some ext.initial) := by
        intro j u hj
        rw [h4, List.getElem?_map, hj]
        simp
      refine ⟨⟨by rw [h1]; exact h3, by rw [h4, h1]; simp, fun j u hj => ?_⟩, h1, fun j u hj => ?_⟩
      · rw [h1] at hj
        exact ⟨_, hfil j u hj⟩
      · change (build ext robot ids).filters[j]? = _
        rw [hfil j u hj.1]
        simp [measuredFor]
    | append_singleton hs past ih =>
      intro hall
      obtain ⟨h1, h2, h3⟩ := ih (fun p hp => hall p (by simp [hp]))
      have hrec : (build ext robot ids).receiveAll ext transform (hs ++ [past])
          = (((build ext robot ids).receiveAll ext transform hs).receive ext transform past).1 := by
        unfold receiveAll; rw [List.foldl_append]; rfl
      obtain ⟨t', out, a1, a2, a3, _, _, a5, _⟩ := receive_ok ext transform _ h1 past (hall past (by simp))
      rw [hrec, a1]
      refine ⟨a2, by rw [a3, h2], fun j u hj => ?_⟩
      have := (a5 j u _ (by rw [h2]; exact hj) (h3 j u hj)).1
      rw [this]
      simp [measuredFor]
  obtain ⟨h1, h2, h3⟩ := hist history hh
  obtain ⟨t', out, a1, a2, a3, a4, _, a5, _⟩ := receive_ok ext transform _ h1 ms hm
  refine ⟨t', out, a1, fun j u hj => ?_⟩
  have := (a5 j u _ (by rw [h2]; exact hj) (h3 j u hj)).2
  rw [this, ← a4]
  by_cases he : measuredFor u ms = []
  · simp [he]
  · rw [if_neg he, if_neg he, ← List.foldl_append]
    simp [measuredFor]

/-- C134, negative result: a component whose number is also the one of an earlier component is never measured. -/
theorem C134_duplicate (ext : FilterExt d F) (transform : Bool) (robot : Option (ℤ × Pose d)) (ids : List (Option ℤ))
    (ms : List (Measurement d)) (hm : ∀ m ∈ ms, m.obsId ≠ -1) (i j : ℕ) (u : ℤ) (hij : i < j)
    (hi : ids[i]? = some (some u)) (hj : ids[j]? = some (some u)) :
    ∃ t' out, (build ext robot ids).receive ext transform ms = (t', .ok out) ∧ out[j]? = some none := by
  obtain ⟨h1, h2, h3, h4⟩ := build_fits ext robot ids
  have hfits : Fits (build ext robot ids) := by
    refine ⟨by rw [h1]; exact h3, by rw [h4, h1]; simp, fun j u hj => ?_⟩
    rw [h1] at hj
    exact ⟨ext.initial, by rw [h4, List.getElem?_map, hj]; simp⟩
  obtain ⟨t', out, a1, _, _, _, _, _, a6⟩ := receive_ok ext transform _ hfits ms hm
  refine ⟨t', out, a1, ?_⟩
  have hjl : j < ids.length := by
    by_contra hcon
    rw [List.getElem?_eq_none (by omega)] at hj; cases hj
  refine (a6 j ?_).2 (by rw [h1]; exact hjl)
  rintro v ⟨hv1, hv2⟩
  rw [h1] at hv1 hv2
  have : v = u := by rw [hj] at hv1; simpa using hv1.symm
  subst this
  exact hv2 i hij hi

/-- C134, negative result: if some component has no update number, and none the number -1, a measurement with the number -1 makes the update fail with AttributeError, for every further list of measurements:
this number marks components without filter. -/
theorem C134_minus_one (ext : FilterExt d F) (transform : Bool) (robot : Option (ℤ × Pose d)) (ids : List (Option ℤ))
    (hno : some (-1) ∉ ids) (hsome : none ∈ ids) (m : Measurement d) (hm : m.obsId = -1) (ms : List (Measurement d)) :
    ((build ext robot ids).receive ext transform (m :: ms)).2 = .error .attributeError := by
  obtain ⟨h1, h2, h3, h4⟩ := build_fits ext robot ids
  have hind := indeces_ok (t := build ext robot ids) (by rw [h1]; exact h3)
  unfold receive
  rw [hind, h1]
  simp only
  obtain ⟨i, hi⟩ : ∃ i, (marks ids).findIdx? (fun v => v = m.obsId) = some i := by
    cases hx : (marks ids).findIdx? (fun v => v = m.obsId) with
    | some i => exact ⟨i, rfl⟩
    | none =>
      rw [List.findIdx?_eq_none_iff] at hx
      have := hx (-1) (by unfold marks; exact List.mem_map.mpr ⟨none, hsome, rfl⟩)
      simp [hm] at this
  have hnone : ids[i]? = some none := by
    rw [List.findIdx?_eq_some_iff_getElem] at hi
    obtain ⟨hil, hv, _⟩ := hi
    have hil' : i < ids.length := by simpa [marks] using hil
    rw [List.getElem?_eq_getElem hil']
    have hv' : (ids[i]).getD (-1) = -1 := by simpa [marks, hm] using hv
    cases hx : ids[i] with
    | none => rfl
    | some v =>
      rw [hx] at hv'
      have hv'' : v = -1 := hv'
      subst hv''
      exact absurd (hx ▸ List.getElem_mem hil') hno
  unfold filterLoop
  rw [hi, h4]
  simp only [List.getElem?_map, hnone, Option.map_some]
  rfl

/-- C134, negative result: after a rejected component every update fails with KeyError. -/
theorem C134_rejected (ext : FilterExt d F) (transform : Bool) (robot : Option (ℤ × Pose d)) (ids : List (Option ℤ))
    (ms : List (Measurement d)) :
    (build ext robot ids).addRejected.receive ext transform ms
      = ((build ext robot ids).addRejected, .error .keyError) := by
  obtain ⟨h1, h2, h3, h4⟩ := build_fits ext robot ids
  unfold receive
  have : (build ext robot ids).addRejected.optitrackIndeces = .error .keyError := by
    unfold optitrackIndeces
    change (List.range ((build ext robot ids).nComponents + 1)).mapM _ = _
    rw [List.range_succ, List.mapM_append]
    have hfirst := indeces_ok (t := build ext robot ids) (by rw [h1]; exact h3)
    unfold optitrackIndeces at hfirst
    have hsame : (build ext robot ids).addRejected.updateIds = (build ext robot ids).updateIds := rfl
    rw [hsame, hfirst, List.mapM_cons, h1, h3, List.getElem?_eq_none (le_refl _)]
    rfl
  rw [this]

/-- C134, negative result: looking up a component by its number fails for every body with KeyError. -/
theorem C134_lookup (ext : FilterExt d F) (robot : Option (ℤ × Pose d)) (u : Option ℤ) (ids : List (Option ℤ)) (n : ℤ) :
    (build ext robot (u :: ids)).obstacleFromOptitrackId n = .error .keyError := by
  unfold obstacleFromOptitrackId
  rw [(build_fits ext robot (u :: ids)).1]

/-- C134: the robot is placed at the first measurement with its number, and stays where it is without one. -/
theorem C134_robot (ext : FilterExt d F) (transform : Bool) (id : ℤ) (pose : Pose d) (ids : List (Option ℤ))
    (ms : List (Measurement d)) :
    ((build ext (some (id, pose)) ids).receive ext transform ms).1.robot
      = some (id, (measuredFor id ms).head?.getD pose) := by
  obtain ⟨h1, h2, h3, h4⟩ := build_fits ext (some (id, pose)) ids
  unfold receive
  rw [indeces_ok (by rw [h1]; exact h3)]
  change updateRobot ms _ = _
  rw [h2]
  unfold updateRobot
  simp only
  have : (measuredFor id ms).head? = (ms.find? (fun m => m.obsId = id)).map (·.pose) := by
    unfold measuredFor
    rw [List.head?_map, List.head?_filter]
  rw [this]
  cases ms.find? (fun m => m.obsId = id) <;> rfl

/-- C134: the poses given to the components are the filtered ones without a robot or if they are not to be
transformed; otherwise they are those seen from the robot: placing them at the robot gives the filtered pose. -/
theorem C134_frame (robot : Option (ℤ × Pose d)) (p : Pose d) :
    framePose robot false p = p ∧ framePose none true p = p
      ∧ ∀ id r, robot = some (id, r) →
        r.position + r.orientation (framePose robot true p).position = p.position
        ∧ ∀ v, r.orientation ((framePose robot true p).orientation v) = p.orientation v := by
  refine ⟨by cases robot <;> rfl, rfl, ?_⟩
  rintro id r rfl
  refine ⟨?_, fun v => ?_⟩
  · simp [framePose, Pose.toRelative]
  · simp [framePose]

/-- The claim of `C134_frame` for a robot which is shifted and turned. -/
example : (framePose (some (3, ⟨!₂[1, 2], LinearIsometryEquiv.neg ℝ⟩)) true ⟨!₂[1, 5], .refl ℝ _⟩ : Pose 2).position
    = !₂[0, -3] := by
  ext i
  fin_cases i <;> simp [framePose, Pose.toRelative]
  norm_num

/-- A filter for the example which keeps the last measured pose. -/
private noncomputable def lastPose : FilterExt 3 (Pose 3) := ⟨Pose.trivial, fun _ p => p, fun p => p⟩

/-- `C134_dispatch` is not vacuous: a body with a root and two limbs, measured in two updates; the second update
contains a measurement of an unknown object and two of the first limb. -/
example (p q r s : Pose 3) : ∃ t' out, ((build lastPose none [some 7, some 8, none]).receiveAll lastPose true
      [[⟨8, p⟩, ⟨7, q⟩]]).receive lastPose true [⟨8, q⟩, ⟨99, r⟩, ⟨8, s⟩] = (t', .ok out)
    ∧ out[1]? = some (some (framePose t'.robot true s)) ∧ out[0]? = some none := by
  obtain ⟨t', out, h1, h2⟩ := C134_dispatch lastPose true none [some 7, some 8, none] [[⟨8, p⟩, ⟨7, q⟩]]
    [⟨8, q⟩, ⟨99, r⟩, ⟨8, s⟩] (by simp) (by simp)
  refine ⟨t', out, h1, ?_, ?_⟩
  · rw [h2 1 8 ⟨rfl, by intro i hi; interval_cases i; simp⟩]
    simp [measuredFor, lastPose]
  · rw [h2 0 7 ⟨rfl, by intro i hi; omega⟩]
    simp [measuredFor]

end Verif
