import Verif.Model.TrackingUpdate
import Verif.Props.Tracking

/-!
# C152: placing a measured part
-/

namespace Verif.Tracker

variable {d : ℕ} {F : Type}

lemma getInt_of {β : Type} {l : List β} {i : ℕ} {x : β} (h : l[i]? = some x) : pyGetInt l (i : ℤ) = .ok x := by
  unfold pyGetInt GraphHandler.pyGet
  simp [h]

/-- C152: with a robot, a part with a filter is placed such that, seen from the robot, it has the filtered position,
orientation and velocity; all other parts stay as they are. -/
theorem C152_placed (ext : FilterExt d F) (velocity : F → Vec d) (t : Tracker d F) (id : ℤ) (r : Pose d)
    (hr : t.robot = some (id, r)) (parts : List (MovingPart d)) (i : ℕ) (hi : i < parts.length) (f : F)
    (hf : t.filters[i]? = some (some f)) (m : Measurement d) :
    ∃ parts', updateDynamicObstacle ext velocity t parts i m = (parts', .ok ())
      ∧ parts'.length = parts.length
      ∧ (∀ j, j ≠ i → parts'[j]? = parts[j]?)
      ∧ ∃ q, parts'[i]? = some q ∧ r.poseFromRelative q.pose = ext.pose f ∧ r.orientation q.velocity = velocity f := by
  refine ⟨parts.set i ⟨⟨r.toRelative (ext.pose f).position, (ext.pose f).orientation.trans r.orientation.symm⟩,
    r.orientation.symm (velocity f)⟩, ?_, ?_, ?_, ?_⟩
  rotate_left
  · exact List.length_set
  · intro j hj
    exact List.getElem?_set_ne (Ne.symm hj)
  · exact ⟨_, by rw [List.getElem?_set_self hi], by
      unfold Pose.poseFromRelative Pose.fromRelative Pose.toRelative
      ext x
      · simp
      · simp, by simp⟩
  · unfold updateDynamicObstacle
    rw [hr, getInt_of hf]
    simp only
    have : pyIdx parts.length (i : ℤ) = some i := by
      unfold pyIdx
      simp [hi]
    rw [this]

/-- C152: without a robot, for a part without filter and for an unknown part the call raises an exception and changes
nothing. -/
theorem C152_refused (ext : FilterExt d F) (velocity : F → Vec d) (t : Tracker d F) (parts : List (MovingPart d))
    (i : ℕ) (m : Measurement d) :
    (t.robot = none → updateDynamicObstacle ext velocity t parts i m = (parts, .error .attributeError))
    ∧ (t.robot.isSome → t.filters[i]? = some none →
      updateDynamicObstacle ext velocity t parts i m = (parts, .error .attributeError))
    ∧ (t.robot.isSome → t.filters.length ≤ i →
      updateDynamicObstacle ext velocity t parts i m = (parts, .error .indexError)) := by
  refine ⟨?_, ?_, ?_⟩
  · intro h
    unfold updateDynamicObstacle
    rw [h]
  · intro h hf
    obtain ⟨⟨id, r⟩, hr⟩ := Option.isSome_iff_exists.mp h
    unfold updateDynamicObstacle
    rw [hr, getInt_of hf]
  · intro h hl
    obtain ⟨⟨id, r⟩, hr⟩ := Option.isSome_iff_exists.mp h
    have : pyGetInt t.filters (i : ℤ) = .error .indexError := by
      unfold pyGetInt GraphHandler.pyGet
      simp [List.getElem?_eq_none hl]
    unfold updateDynamicObstacle
    rw [hr, this]

/-- C152: parts can be counted from the end; before the first part the call raises `IndexError` and changes nothing. -/
theorem C152_from_end (ext : FilterExt d F) (velocity : F → Vec d) (t : Tracker d F) (parts : List (MovingPart d))
    (hl : t.filters.length = parts.length) (k : ℕ) (hk : 0 < k) (m : Measurement d) :
    (k ≤ parts.length → updateDynamicObstacle ext velocity t parts (-(k : ℤ)) m
      = updateDynamicObstacle ext velocity t parts ((parts.length - k : ℕ) : ℤ) m)
    ∧ (parts.length < k → t.robot.isSome →
      updateDynamicObstacle ext velocity t parts (-(k : ℤ)) m = (parts, .error .indexError)) := by
  have hneg : ¬ (0 : ℤ) ≤ -(k : ℤ) := by omega
  constructor
  · intro h
    have e1 : pyGetInt t.filters (-(k : ℤ)) = pyGetInt t.filters ((parts.length - k : ℕ) : ℤ) := by
      unfold pyGetInt
      rw [if_neg hneg, if_pos (by omega), if_pos (by omega)]
      congr 1
      omega
    have e2 : pyIdx parts.length (-(k : ℤ)) = pyIdx parts.length ((parts.length - k : ℕ) : ℤ) := by
      unfold pyIdx
      rw [if_neg hneg, if_pos (by omega), if_pos (by omega), if_pos (by omega)]
      congr 1
      omega
    unfold updateDynamicObstacle
    rw [e1, e2]
  · intro h hr
    obtain ⟨⟨id, r⟩, hr⟩ := Option.isSome_iff_exists.mp hr
    have : pyGetInt t.filters (-(k : ℤ)) = .error .indexError := by
      unfold pyGetInt
      rw [if_neg hneg, if_neg (by omega)]
    unfold updateDynamicObstacle
    rw [hr, this]

/-- A filter which returns the last measurement, at first the given pose. -/
noncomputable def lastMeasured (p : Pose 2) : FilterExt 2 (Pose 2) := ⟨p, fun _ q => q, fun q => q⟩

/-- A pose of the plane without rotation. -/
noncomputable def planePose (x : ℝ) : Pose 2 := ⟨!₂[x, 1], LinearIsometryEquiv.refl ℝ (Vec 2)⟩

/-- A body with a measured part (number 5), a part without number and a robot (number 9). -/
noncomputable def measuredBody : Tracker 2 (Pose 2) :=
  build (lastMeasured (planePose 0)) (some (9, planePose 3)) [some 5, none]

example : measuredBody.robot = some (9, planePose 3) ∧ measuredBody.filters[0]? = some (some (planePose 0))
    ∧ measuredBody.filters[1]? = some none ∧ measuredBody.filters.length ≤ 2 :=
  ⟨rfl, rfl, rfl, le_refl _⟩

example : measuredBody.filters.length = [(⟨planePose 0, 0⟩ : MovingPart 2), ⟨planePose 1, 0⟩].length := rfl

/-- C152, violated by the code: the measurement given to the call is ignored.  Whenever it differs from the pose of the
filter, the part is, seen from the robot, not where it was measured. -/
theorem C152_measured_fails (ext : FilterExt d F) (velocity : F → Vec d) (t : Tracker d F) (id : ℤ) (r : Pose d)
    (hr : t.robot = some (id, r)) (parts : List (MovingPart d)) (i : ℕ) (hi : i < parts.length) (f : F)
    (hf : t.filters[i]? = some (some f)) (m : Measurement d) (hm : m.pose ≠ ext.pose f) :
    ∃ parts' q, updateDynamicObstacle ext velocity t parts i m = (parts', .ok ()) ∧ parts'[i]? = some q
      ∧ r.poseFromRelative q.pose ≠ m.pose := by
  obtain ⟨parts', h, -, -, q, hq, hp, -⟩ := C152_placed ext velocity t id r hr parts i hi f hf m
  exact ⟨parts', q, h, hq, fun e => hm (by rw [← e, hp])⟩

lemma planePose_ne {x y : ℝ} (h : x ≠ y) : planePose x ≠ planePose y := by
  intro e
  have := congrArg (fun p : Pose 2 => p.position 0) e
  exact h (by simpa [planePose] using this)

example : ∃ parts' q, updateDynamicObstacle (lastMeasured (planePose 0)) (fun _ => 0) measuredBody
    [⟨planePose 0, 0⟩, ⟨planePose 1, 0⟩] (0 : ℕ) ⟨5, planePose 7⟩ = (parts', .ok ()) ∧ parts'[0]? = some q
      ∧ (planePose 3).poseFromRelative q.pose ≠ planePose 7 :=
  C152_measured_fails _ _ _ 9 (planePose 3) rfl _ 0 (by simp) (planePose 0) rfl _ (planePose_ne (by norm_num))

/-- C152: after a measurement through `update_using_optitrack`, the part with its number is placed where the filter sees
it after this measurement. -/
theorem C152_after_update (ext : FilterExt d F) (velocity : F → Vec d) (t : Tracker d F) (id : ℤ) (r : Pose d)
    (hr : t.robot = some (id, r)) (parts : List (MovingPart d)) (i : ℕ) (hi : i < parts.length) (f : F)
    (hf : t.filters[i]? = some (some f)) (n : t.nComponents = t.updateIds.length) (u : ℤ)
    (hu : t.updateIds[i]? = some (some u)) (hfirst : ∀ j < i, t.updateIds[j]? ≠ some (some u)
      ∧ (u = -1 → t.updateIds[j]? ≠ some none)) (hid : u ≠ id) (p : Pose d) (m : Measurement d) (transform : Bool) :
    ∃ t' out parts', t.receive ext transform [⟨u, p⟩] = (t', .ok out)
      ∧ updateDynamicObstacle ext velocity t' parts i m = (parts', .ok ())
      ∧ ∃ q, parts'[i]? = some q ∧ r.poseFromRelative q.pose = ext.pose (ext.runOnce f p)
        ∧ r.orientation q.velocity = velocity (ext.runOnce f p) := by
  have hids : t.optitrackIndeces = .ok (t.updateIds.map (fun o => o.getD (-1))) := by
    unfold optitrackIndeces
    rw [n]
    have : ∀ (l : List (Option ℤ)) (k : ℕ), (∀ j, (hj : j < l.length) → t.updateIds[k + j]? = some l[j]) →
        ((List.range' k l.length).mapM (fun i =>
          match t.updateIds[i]? with
          | none => (.error .keyError : Except PyErr ℤ)
          | some none => .ok (-1)
          | some (some u) => .ok u)) = .ok (l.map (fun o => o.getD (-1))) := by
      intro l
      induction l with
      | nil => intro k _; rfl
      | cons a l ih =>
        intro k h
        rw [List.length_cons, List.range'_succ, List.mapM_cons]
        have h0 := h 0 (by simp)
        simp only [Nat.add_zero, List.getElem_cons_zero] at h0
        rw [h0]
        have ih' := ih (k + 1) (fun j hj => by
          have := h (j + 1) (by simpa using hj)
          simpa [Nat.add_assoc, Nat.add_comm 1 j] using this)
        cases a with
        | none => simp only [ih']; rfl
        | some a => simp only [ih']; rfl
    have h := this t.updateIds 0 (fun j hj => by simp)
    rw [List.range_eq_range']
    exact h
  have hfind : (t.updateIds.map (fun o => o.getD (-1))).findIdx? (fun v => v = u) = some i := by
    rw [List.findIdx?_eq_some_iff_getElem]
    have hlt := (List.getElem?_eq_some_iff.mp hu).1
    refine ⟨by simpa using hlt, ?_, ?_⟩
    · have := (List.getElem?_eq_some_iff.mp hu).2
      simp [this]
    · intro j hj
      have hjl : j < t.updateIds.length := by omega
      obtain ⟨h1, h2⟩ := hfirst j hj
      rw [List.getElem?_eq_getElem hjl] at h1 h2
      simp only [List.getElem_map, decide_eq_true_eq]
      cases hv : t.updateIds[j] with
      | none =>
        intro h
        exact h2 (by simpa using h.symm) (by rw [hv])
      | some w =>
        intro h
        exact h1 (by rw [hv]; simpa using h)
  have hrob : updateRobot [⟨u, p⟩] t.robot = some (id, r) := by
    unfold updateRobot
    rw [hr]
    simp [hid]
  have hlf := (List.getElem?_eq_some_iff.mp hf).1
  obtain ⟨parts', e1, -, -, e2⟩ := C152_placed ext velocity
    { t with robot := some (id, r), filters := t.filters.set i (some (ext.runOnce f p)) } id r rfl parts i hi
    (ext.runOnce f p) (by simp [hlf]) m
  refine ⟨_, (List.replicate t.nComponents none).set i
      (some (framePose (some (id, r)) transform (ext.pose (ext.runOnce f p)))), parts', ?_, e1, e2⟩
  · unfold receive
    rw [hids]
    simp only
    rw [hrob]
    simp only [filterLoop]
    rw [hfind]
    simp only
    rw [hf]

example : ∃ t' out parts', measuredBody.receive (lastMeasured (planePose 0)) true [⟨5, planePose 7⟩] = (t', .ok out)
    ∧ updateDynamicObstacle (lastMeasured (planePose 0)) (fun _ => 0) t' [⟨planePose 0, 0⟩, ⟨planePose 1, 0⟩] (0 : ℕ)
      ⟨5, planePose 7⟩ = (parts', .ok ())
    ∧ ∃ q, parts'[0]? = some q ∧ (planePose 3).poseFromRelative q.pose = planePose 7
      ∧ (planePose 3).orientation q.velocity = 0 :=
  C152_after_update (lastMeasured (planePose 0)) (fun _ => 0) measuredBody 9 (planePose 3) rfl _ 0 (by simp)
    (planePose 0) rfl rfl 5 rfl (fun j hj => absurd hj (Nat.not_lt_zero j)) (by norm_num) _ _ _

end Verif.Tracker
