import Verif.Model.BodyConversion
import Verif.Props.MultiBody
import Verif.Props.Composite

/-!
# C131: converting a multi-body obstacle
-/

namespace Verif

open MultiBody

variable {d : ℕ}

lemma addComponent_parts (intersect : Part d → Part d → Option (Vec d)) (m : MultiObstacle d) (o : Part d) (p : ℤ)
    (r : Vec d) :
    (m.addComponent intersect o p (some r)).1.parts
        = m.parts ++ [{ o with reference := r, pose := m.pose.poseFromRelative o.pose }]
      ∧ (m.addComponent intersect o p (some r)).1.pose = m.pose := by
  unfold MultiObstacle.addComponent MultiObstacle.chooseReference MultiObstacle.insertComponent
  simp only
  split_ifs <;> exact ⟨rfl, rfl⟩

/-- The conversion adds the remaining components one after the other. -/
lemma convertLoop_spec (intersect : Part d → Part d → Option (Vec d)) {m : MultiBody d} {parts : List (Part d)}
    {par : ℕ → ℕ} {prt : ℕ → Part d} (n : ℕ) :
    ∀ (s : ℕ) (M : MultiObstacle d) (ps : List ℤ), GraphOf M ps → ps.length + 1 = s →
      (∀ i, s ≤ i → i < s + n → m.getParentIdx i = .ok (some (par i)) ∧ par i < i ∧ parts[i]? = some (prt i)) →
      ∃ M', convertLoop intersect m parts (List.range' s n) M = .ok M'
        ∧ GraphOf M' (ps ++ (List.range' s n).map (fun i => (par i : ℤ)))
        ∧ M'.parts = M.parts ++ (List.range' s n).map
          (fun i => { prt i with pose := M.pose.poseFromRelative (prt i).pose }) := by
  induction n with
  | zero => intro s M ps hG _ _; exact ⟨M, rfl, by simpa using hG, by simp⟩
  | succ n ih =>
    intro s M ps hG hs h
    obtain ⟨h1, h2, h3⟩ := h s le_rfl (by omega)
    have hadd := add_graph intersect hG ⟨prt s, par s, some (prt s).reference⟩ (by simp) (by simp; omega) rfl
    simp only at hadd
    have hparts := addComponent_parts intersect M (prt s) (par s) (prt s).reference
    set res := M.addComponent intersect (prt s) (par s) (some (prt s).reference) with hres
    obtain ⟨M', e1, e2, e3⟩ := ih (s + 1) res.1 (ps ++ [(par s : ℤ)]) hadd.1 (by simp; omega)
      (fun i hi hi' => h i (by omega) (by omega))
    refine ⟨M', ?_, ?_, ?_⟩
    · rw [List.range'_succ]
      unfold convertLoop
      simp only [h1, h3]
      have : M.addComponent intersect (prt s) (par s) (some (prt s).reference) = (res.1, .ok ((ps.length + 1 : ℕ) : ℤ)) :=
        Prod.ext rfl hadd.2
      rw [this]
      exact e1
    · rw [List.range'_succ, List.map_cons]
      simpa using e2
    · rw [List.range'_succ, List.map_cons, e3, hparts.1, hparts.2]
      simp

/-- The body of a history, with its current poses. -/
lemma body_parent (pose : Pose d) (root : String) (u : Option ℤ) (cs : List (MultiBody.Call d))
    (h : Spec.ParentsKnown root cs) (ps : List (Pose d)) (k : ℕ) (c : MultiBody.Call d) (hc : cs[k]? = some c) :
    ({ (create.setRoot pose root u).run cs with poses := ps } : MultiBody d).getParentIdx (k + 1)
        = .ok (some ((Spec.bodyNames root cs).idxOf c.parentName))
      ∧ (Spec.bodyNames root cs).idxOf c.parentName < k + 1 := by
  have hb := built_run pose root u cs h
  have hs : Skeleton ({ (create.setRoot pose root u).run cs with poses := ps } : MultiBody d) (joints root cs) :=
    skeleton_congr hb.skeleton rfl rfl
  have hj : (joints root cs)[k]? = some ⟨(Spec.bodyNames root cs).idxOf c.parentName, c.reference, c.parentReference⟩ := by
    unfold joints
    rw [List.getElem?_map, hc]
    rfl
  obtain ⟨h1, h2⟩ := hs.pred k _ hj
  have hk := (List.getElem?_eq_some_iff.mp hj).1
  refine ⟨?_, Nat.lt_succ_of_le h2⟩
  unfold getParentIdx
  have hr : ({ (create.setRoot pose root u).run cs with poses := ps } : MultiBody d).rootIdx = some 0 := hb.root
  have hn : ({ (create.setRoot pose root u).run cs with poses := ps } : MultiBody d).nodes.length
      = (joints root cs).length + 1 := hb.len
  rw [hr]
  simp only [h1]
  rw [if_neg (by omega), hn, if_pos (by omega)]

/-- C131: the conversion of any body made by `set_root` and `add_component`, in whatever poses its components are,
succeeds.  The composite obstacle has the same components with the same numbers and reference points, component `k + 1`
has the same parent as in the body, the root is the root, and all components are moved by the given base pose. -/
theorem C131_converts (intersect : Part d → Part d → Option (Vec d)) (pose : Pose d) (root : String) (u : Option ℤ)
    (cs : List (MultiBody.Call d)) (h : Spec.ParentsKnown root cs) (ps : List (Pose d)) (hps : ps.length = cs.length + 1)
    (shapes : List (Vec d × Vec d)) (hsh : shapes.length = cs.length + 1) (base : Pose d) :
    let m : MultiBody d := { (create.setRoot pose root u).run cs with poses := ps }
    ∃ M, m.convert intersect shapes base = .ok M ∧ M.nComponents = cs.length + 1
      ∧ M.getParentIdx 0 = .ok none
      ∧ (∀ (k : ℕ) (c : MultiBody.Call d), cs[k]? = some c →
        m.getParentIdx (k + 1) = .ok (some ((Spec.bodyNames root cs).idxOf c.parentName))
        ∧ M.getParentIdx ((k + 1 : ℕ) : ℤ) = .ok (some (((Spec.bodyNames root cs).idxOf c.parentName : ℕ) : ℤ)))
      ∧ (∀ i : ℤ, 0 ≤ i → i < M.nComponents → Spec.ReachesRoot M i)
      ∧ ∀ (i : ℕ) (p : Pose d) (s : Vec d × Vec d), ps[i]? = some p → shapes[i]? = some s →
        M.parts[i]? = some ⟨base.poseFromRelative p, s.1, s.2⟩ := by
  intro m
  have hb := built_run pose root u cs h
  have hr : m.rootIdx = some 0 := hb.root
  have hparts : ∀ (i : ℕ) (p : Pose d) (s : Vec d × Vec d), ps[i]? = some p → shapes[i]? = some s →
      (m.bodyParts shapes)[i]? = some ⟨p, s.1, s.2⟩ := by
    intro i p s hp hs
    unfold bodyParts
    have hmp : m.poses = ps := rfl
    rw [List.getElem?_zipWith, hmp, hp, hs]
  obtain ⟨p0, hp0⟩ : ∃ p, ps[0]? = some p := ⟨_, List.getElem?_eq_getElem (by omega)⟩
  obtain ⟨s0, hs0⟩ : ∃ s, shapes[0]? = some s := ⟨_, List.getElem?_eq_getElem (by omega)⟩
  have hget : ∀ i, 1 ≤ i → i < 1 + cs.length → ∃ c p s, cs[i - 1]? = some c ∧ ps[i]? = some p ∧ shapes[i]? = some s := by
    intro i h1 h2
    exact ⟨_, _, _, List.getElem?_eq_getElem (by omega), List.getElem?_eq_getElem (by omega),
      List.getElem?_eq_getElem (by omega)⟩
  set par : ℕ → ℕ := fun i => match cs[i - 1]? with
    | some c => (Spec.bodyNames root cs).idxOf c.parentName
    | none => 0 with hpar
  set prt : ℕ → Part d := fun i => match ps[i]?, shapes[i]? with
    | some p, some s => ⟨p, s.1, s.2⟩
    | _, _ => ⟨base, 0, 0⟩ with hprt
  have hloop := convertLoop_spec intersect (m := m) (parts := m.bodyParts shapes) (par := par) (prt := prt) cs.length 1
    ((MultiObstacle.create base).setRoot ⟨p0, s0.1, s0.2⟩).1 [] (root_graph _ _) rfl (by
      intro i h1 h2
      obtain ⟨c, p, s, hc, hp, hs⟩ := hget i h1 h2
      have hb := body_parent pose root u cs h ps (i - 1) c hc
      rw [Nat.sub_add_cancel h1] at hb
      simp only [hpar, hprt, hc, hp, hs]
      exact ⟨hb.1, hb.2, hparts i p s hp hs⟩)
  obtain ⟨M, e1, e2, e3⟩ := hloop
  rw [List.nil_append] at e2
  have hlenp : ((List.range' 1 cs.length).map (fun i => (par i : ℤ))).length = cs.length := by simp
  have hn : M.nComponents = cs.length + 1 := by
    unfold MultiObstacle.nComponents
    rw [e2.parts, hlenp]
  have hparK : ∀ (k : ℕ) (c : MultiBody.Call d), cs[k]? = some c →
      ((List.range' 1 cs.length).map (fun i => (par i : ℤ)))[k]?
        = some (((Spec.bodyNames root cs).idxOf c.parentName : ℕ) : ℤ) := by
    intro k c hc
    have hk := (List.getElem?_eq_some_iff.mp hc).1
    rw [List.getElem?_map, List.getElem?_range' hk]
    simp only [Option.map_some, hpar, one_mul, Nat.add_sub_cancel_left, hc]
  have hM : ∀ (k : ℕ) (c : MultiBody.Call d), cs[k]? = some c →
      M.getParentIdx ((k + 1 : ℕ) : ℤ) = .ok (some (((Spec.bodyNames root cs).idxOf c.parentName : ℕ) : ℤ)) := by
    intro k c hc
    have := e2.parent (hparK k c hc)
    rw [Nat.cast_add, Nat.cast_one]
    exact this
  have hroot : M.getParentIdx 0 = .ok none := by
    unfold MultiObstacle.getParentIdx
    rw [if_pos e2.root.symm]
  refine ⟨M, ?_, hn, hroot, ?_, ?_, ?_⟩
  · unfold convert
    simp only [hr, hparts 0 p0 s0 hp0 hs0]
    have hl : m.poses.length = cs.length + 1 := hps
    rw [hl, List.range_eq_range', List.range'_succ]
    unfold convertLoop
    have : m.getParentIdx 0 = .ok none := by
      unfold getParentIdx
      rw [hr]
      simp
    rw [this]
    exact e1
  · intro k c hc
    exact ⟨(body_parent pose root u cs h ps k c hc).1, hM k c hc⟩
  · have key : ∀ n : ℕ, n < cs.length + 1 → Spec.ReachesRoot M (n : ℤ) := by
      intro n
      induction n using Nat.strong_induction_on with
      | _ n ih =>
        intro hn'
        rcases n with _ | k
        · exact .root hroot
        · have hc : cs[k]? = some cs[k] := List.getElem?_eq_getElem (by omega)
          have hlt := (body_parent pose root u cs h ps k _ hc).2
          exact .step (hM k _ hc) (ih _ hlt (by omega))
    intro i h0 hi
    rw [hn] at hi
    have := key i.toNat (by omega)
    rwa [Int.toNat_of_nonneg h0] at this
  · intro i p s hp hs
    rw [e3]
    have hi := (List.getElem?_eq_some_iff.mp hp).1
    rcases i with _ | k
    · rw [hp0] at hp; cases hp
      rw [hs0] at hs; cases hs
      rfl
    · have hl : ((MultiObstacle.create base).setRoot ⟨p0, s0.1, s0.2⟩).1.parts.length = 1 := rfl
      rw [List.getElem?_append_right (by omega), hl, Nat.add_sub_cancel, List.getElem?_map,
        List.getElem?_range' (by omega)]
      simp only [Option.map_some, hprt, one_mul, show 1 + k = k + 1 by omega, hp, hs]
      rfl

/-- A list of components is determined by its entries. -/
lemma converted_parts (intersect : Part d → Part d → Option (Vec d)) (pose : Pose d) (root : String) (u : Option ℤ)
    (cs : List (MultiBody.Call d)) (h : Spec.ParentsKnown root cs) (ps : List (Pose d)) (hps : ps.length = cs.length + 1)
    (shapes : List (Vec d × Vec d)) (hsh : shapes.length = cs.length + 1) (base : Pose d) (M : MultiObstacle d)
    (hM : ({ (create.setRoot pose root u).run cs with poses := ps } : MultiBody d).convert intersect shapes base = .ok M) :
    M.parts = List.zipWith (fun p s => ⟨base.poseFromRelative p, s.1, s.2⟩) ps shapes := by
  obtain ⟨M', e1, e2, _, _, _, e6⟩ := C131_converts intersect pose root u cs h ps hps shapes hsh base
  rw [e1] at hM
  cases hM
  apply List.ext_getElem?
  intro i
  by_cases hi : i < cs.length + 1
  · rw [e6 i _ _ (List.getElem?_eq_getElem (by omega)) (List.getElem?_eq_getElem (by omega)), List.getElem?_zipWith,
      List.getElem?_eq_getElem (show i < ps.length by omega), List.getElem?_eq_getElem (show i < shapes.length by omega)]
  · unfold MultiObstacle.nComponents at e2
    rw [List.getElem?_eq_none (by omega), List.getElem?_eq_none (by rw [List.length_zipWith]; omega)]

lemma trivial_poseFromRelative (p : Pose d) : Pose.trivial.poseFromRelative p = p := by
  unfold Pose.poseFromRelative Pose.fromRelative Pose.trivial
  ext1
  · simp
  · rfl

/-- C131: without a base pose nothing is moved, so that the composite obstacle has the same distance function as the
body, whatever the distance functions of the components. -/
theorem C131_default (intersect : Part d → Part d → Option (Vec d)) (pose : Pose d) (root : String) (u : Option ℤ)
    (cs : List (MultiBody.Call d)) (h : Spec.ParentsKnown root cs) (ps : List (Pose d)) (hps : ps.length = cs.length + 1)
    (shapes : List (Vec d × Vec d)) (hsh : shapes.length = cs.length + 1) (gamma : Part d → Vec d → ℝ) (x : Vec d) :
    let m : MultiBody d := { (create.setRoot pose root u).run cs with poses := ps }
    ∃ M, m.convert intersect shapes Pose.trivial = .ok M ∧ M.parts = m.bodyParts shapes
      ∧ m.afterConversion M = m
      ∧ ∃ g, m.bodyGamma gamma shapes x = .ok g ∧ compositeGamma gamma M x = .ok g
        ∧ (∃ part ∈ M.parts, gamma part x = g) ∧ ∀ part ∈ M.parts, g ≤ gamma part x := by
  intro m
  obtain ⟨M, e1, e2, _⟩ := C131_converts intersect pose root u cs h ps hps shapes hsh Pose.trivial
  have hparts := converted_parts intersect pose root u cs h ps hps shapes hsh Pose.trivial M e1
  have hp : M.parts = m.bodyParts shapes := by
    rw [hparts]
    unfold bodyParts
    simp only [trivial_poseFromRelative]
    rfl
  have hne : (M.parts.map fun p => gamma p x) ≠ [] := by
    unfold MultiObstacle.nComponents at e2
    intro h0
    rw [List.map_eq_nil_iff] at h0
    rw [h0] at e2
    simp at e2
  obtain ⟨g, hg⟩ : ∃ g, (M.parts.map fun p => gamma p x).min? = some g := by
    cases hmin : (M.parts.map fun p => gamma p x).min? with
    | none => exact absurd (List.min?_eq_none_iff.mp hmin) hne
    | some g => exact ⟨g, rfl⟩
  obtain ⟨h1, h2⟩ := List.min?_eq_some_iff.mp hg
  refine ⟨M, e1, hp, ?_, g, ?_, ?_, ?_, ?_⟩
  · unfold afterConversion
    have : M.parts.map Part.pose = ps := by
      rw [hp]
      unfold bodyParts
      rw [List.map_zipWith]
      change List.zipWith (fun p (_ : Vec d × Vec d) => p) ps shapes = ps
      have : ∀ (l : List (Pose d)) (l' : List (Vec d × Vec d)), l.length = l'.length →
          List.zipWith (fun p _ => p) l l' = l := by
        intro l
        induction l with
        | nil => intro l' _; rfl
        | cons a l ih =>
          intro l' hl
          cases l' with
          | nil => simp at hl
          | cons b l' => rw [List.zipWith_cons_cons, ih l' (by simpa using hl)]
      exact this ps shapes (by omega)
    rw [this]
  · unfold bodyGamma; rw [← hp, hg]
  · unfold compositeGamma; rw [hg]
  · obtain ⟨part, hpm, e⟩ := List.mem_map.mp h1
    exact ⟨part, hpm, e⟩
  · intro part hpm
    exact h2 _ (List.mem_map.mpr ⟨part, hpm, rfl⟩)

/-- C131: the conversion moves the body rigidly: the distance of any points of any two components stays the same, and
connected limbs stay connected. -/
theorem C131_rigid (intersect : Part d → Part d → Option (Vec d)) (pose : Pose d) (root : String) (u : Option ℤ)
    (cs : List (MultiBody.Call d)) (h : Spec.ParentsKnown root cs) (ps : List (Pose d)) (hps : ps.length = cs.length + 1)
    (shapes : List (Vec d × Vec d)) (hsh : shapes.length = cs.length + 1) (base : Pose d) (M : MultiObstacle d)
    (hM : ({ (create.setRoot pose root u).run cs with poses := ps } : MultiBody d).convert intersect shapes base = .ok M) :
    (∀ (i j : ℕ) (p q : Pose d) (a b : Part d), ps[i]? = some p → ps[j]? = some q → M.parts[i]? = some a →
      M.parts[j]? = some b → ∀ x y, dist (a.pose.fromRelative x) (b.pose.fromRelative y)
        = dist (p.fromRelative x) (q.fromRelative y))
    ∧ (Spec.LimbsConnected root cs ps → Spec.LimbsConnected root cs (M.parts.map Part.pose)) := by
  obtain ⟨M', e1, e2, _, _, _, e6⟩ := C131_converts intersect pose root u cs h ps hps shapes hsh base
  rw [e1] at hM
  cases hM
  have hpart : ∀ (i : ℕ) (p : Pose d), ps[i]? = some p → ∃ a : Part d, M.parts[i]? = some a
      ∧ a.pose = base.poseFromRelative p := by
    intro i p hp
    have hi := (List.getElem?_eq_some_iff.mp hp).1
    exact ⟨_, e6 i p _ hp (List.getElem?_eq_getElem (by omega)), rfl⟩
  have hrel : ∀ (p : Pose d) (x : Vec d), (base.poseFromRelative p).fromRelative x = base.fromRelative (p.fromRelative x) := by
    intro p x
    unfold Pose.poseFromRelative Pose.fromRelative
    simp only [LinearIsometryEquiv.trans_apply, map_add]
    abel
  constructor
  · intro i j p q a b hp hq ha hb x y
    obtain ⟨a', ha', hpa⟩ := hpart i p hp
    obtain ⟨b', hb', hpb⟩ := hpart j q hq
    rw [ha'] at ha; cases ha
    rw [hb'] at hb; cases hb
    rw [hpa, hpb, hrel, hrel]
    unfold Pose.fromRelative
    rw [dist_add_right, LinearIsometryEquiv.dist_map]
  · intro hc k c hk
    obtain ⟨parent, limb, h1, h2, h3⟩ := hc k c hk
    obtain ⟨a, ha, hpa⟩ := hpart _ _ h1
    obtain ⟨b, hb, hpb⟩ := hpart _ _ h2
    refine ⟨a.pose, b.pose, by rw [List.getElem?_map, ha]; rfl, by rw [List.getElem?_map, hb]; rfl, ?_⟩
    rw [hpa, hpb, hrel, hrel, h3]

/-- C131, negative result: the obstacles are shared, so that the conversion with a base pose also moves the body; a
second conversion with the same base pose then moves the components twice. -/
theorem C131_moves_body (intersect : Part d → Part d → Option (Vec d)) (pose : Pose d) (root : String) (u : Option ℤ)
    (cs : List (MultiBody.Call d)) (h : Spec.ParentsKnown root cs) (ps : List (Pose d)) (hps : ps.length = cs.length + 1)
    (shapes : List (Vec d × Vec d)) (hsh : shapes.length = cs.length + 1) (base : Pose d) :
    let m : MultiBody d := { (create.setRoot pose root u).run cs with poses := ps }
    ∃ M M', m.convert intersect shapes base = .ok M
      ∧ (m.afterConversion M).poses = ps.map base.poseFromRelative
      ∧ (m.afterConversion M).convert intersect shapes base = .ok M'
      ∧ ∀ (i : ℕ) (p : Pose d), ps[i]? = some p → (M'.parts[i]?).map Part.pose
        = some (base.poseFromRelative (base.poseFromRelative p)) := by
  intro m
  obtain ⟨M, e1, _⟩ := C131_converts intersect pose root u cs h ps hps shapes hsh base
  have hposes : M.parts.map Part.pose = ps.map base.poseFromRelative := by
    rw [converted_parts intersect pose root u cs h ps hps shapes hsh base M e1, List.map_zipWith]
    have : ∀ (l : List (Pose d)) (l' : List (Vec d × Vec d)), l.length = l'.length →
        List.zipWith (fun p _ => base.poseFromRelative p) l l' = l.map base.poseFromRelative := by
      intro l
      induction l with
      | nil => intro l' _; rfl
      | cons a l ih =>
        intro l' hl
        cases l' with
        | nil => simp at hl
        | cons b l' => rw [List.zipWith_cons_cons, ih l' (by simpa using hl), List.map_cons]
    exact this ps shapes (by omega)
  have hm : m.afterConversion M = { (create.setRoot pose root u).run cs with poses := ps.map base.poseFromRelative } := by
    unfold afterConversion
    rw [hposes]
  obtain ⟨M', f1, _, _, _, _, f6⟩ := C131_converts intersect pose root u cs h (ps.map base.poseFromRelative)
    (by rw [List.length_map]; exact hps) shapes hsh base
  refine ⟨M, M', e1, by rw [hm], by rw [hm]; exact f1, ?_⟩
  intro i p hp
  have hi := (List.getElem?_eq_some_iff.mp hp).1
  rw [f6 i (base.poseFromRelative p) _ (by rw [List.getElem?_map, hp]; rfl) (List.getElem?_eq_getElem (by omega))]
  rfl

/-- C131, negative result: after a rejected limb (its parent does not exist) the body cannot be converted any more. -/
theorem C131_rejected_limb (intersect : Part d → Part d → Option (Vec d)) (pose : Pose d) (root : String) (u : Option ℤ)
    (cs : List (MultiBody.Call d)) (h : Spec.ParentsKnown root cs) (bad : MultiBody.Call d)
    (hbad : bad.parentName ∉ Spec.bodyNames root cs) (shapes : List (Vec d × Vec d))
    (hsh : shapes.length = cs.length + 2) (base : Pose d) :
    let m := (((create.setRoot pose root u).run cs).step bad).1
    m.poses.length = cs.length + 2 ∧ m.convert intersect shapes base = .error .exception := by
  intro m
  set m0 := (create.setRoot pose root u).run cs with hm0
  have hb : Built m0 _ _ := built_run pose root u cs h
  have hm : m = { m0 with poses := m0.poses ++ [bad.pose] } := by
    have hid : ({ m0 with poses := m0.poses ++ [bad.pose] } : MultiBody d).idFromName bad.parentName
        = .error .indexError := by
      unfold idFromName
      have : m0.nodes.findIdx? (fun n => n.name = bad.parentName) = none := by
        rw [List.findIdx?_eq_none_iff]
        intro n hn
        simp only [decide_eq_false_iff_not]
        intro e
        apply hbad
        rw [← hb.names, ← e]
        exact List.mem_map.mpr ⟨n, hn, rfl⟩
      simp only [this]
    change (m0.step bad).1 = _
    unfold step addComponent
    simp only [hid]
  have hJ : (joints root cs).length = cs.length := by unfold joints; simp
  have hlen : m0.poses.length = cs.length + 1 := by rw [hb.lenP, hJ]
  set ps := m0.poses ++ [bad.pose] with hps
  have hpl : ps.length = cs.length + 2 := by rw [hps, List.length_append, hlen]; rfl
  have hr : m.rootIdx = some 0 := by rw [hm]; exact hb.root
  have hposes : m.poses = ps := by rw [hm]
  have hparts : ∀ (i : ℕ) (p : Pose d) (s : Vec d × Vec d), ps[i]? = some p → shapes[i]? = some s →
      (m.bodyParts shapes)[i]? = some ⟨p, s.1, s.2⟩ := by
    intro i p s hp hs
    unfold bodyParts
    rw [List.getElem?_zipWith, hposes, hp, hs]
  refine ⟨by rw [hposes, hpl], ?_⟩
  obtain ⟨p0, hp0⟩ : ∃ p, ps[0]? = some p := ⟨_, List.getElem?_eq_getElem (by omega)⟩
  obtain ⟨s0, hs0⟩ : ∃ s, shapes[0]? = some s := ⟨_, List.getElem?_eq_getElem (by omega)⟩
  set par : ℕ → ℕ := fun i => match cs[i - 1]? with
    | some c => (Spec.bodyNames root cs).idxOf c.parentName
    | none => 0 with hpar
  set prt : ℕ → Part d := fun i => match ps[i]?, shapes[i]? with
    | some p, some s => ⟨p, s.1, s.2⟩
    | _, _ => ⟨base, 0, 0⟩ with hprt
  obtain ⟨M, e1, _, _⟩ := convertLoop_spec intersect (m := m) (parts := m.bodyParts shapes) (par := par) (prt := prt)
    cs.length 1 ((MultiObstacle.create base).setRoot ⟨p0, s0.1, s0.2⟩).1 [] (root_graph _ _) rfl (by
      intro i h1 h2
      have hc : cs[i - 1]? = some cs[i - 1] := List.getElem?_eq_getElem (by omega)
      have hp : ps[i]? = some ps[i] := List.getElem?_eq_getElem (by omega)
      have hs : shapes[i]? = some shapes[i] := List.getElem?_eq_getElem (by omega)
      have hb := body_parent pose root u cs h ps (i - 1) _ hc
      rw [Nat.sub_add_cancel h1] at hb
      simp only [hpar, hprt, hc, hp, hs]
      exact ⟨by rw [hm]; exact hb.1, hb.2, hparts i _ _ hp hs⟩)
  have hcat : ∀ (l : List ℕ) (l' : List ℕ) (A B : MultiObstacle d),
      convertLoop intersect m (m.bodyParts shapes) l A = .ok B →
      convertLoop intersect m (m.bodyParts shapes) (l ++ l') A = convertLoop intersect m (m.bodyParts shapes) l' B := by
    intro l
    induction l with
    | nil => intro l' A B h; cases h; rfl
    | cons i l ih =>
      intro l' A B h
      rw [List.cons_append]
      rw [convertLoop.eq_2] at h ⊢
      revert h
      cases m.getParentIdx i with
      | error e => intro h; cases h
      | ok o =>
        cases o with
        | none => intro h; exact ih l' A B h
        | some p =>
          simp only
          cases (m.bodyParts shapes)[i]? with
          | none => intro h; cases h
          | some part =>
            simp only
            rcases A.addComponent intersect part p (some part.reference) with ⟨A', r⟩
            cases r with
            | error e => intro h; cases h
            | ok _ => intro h; exact ih l' A' B h
  unfold convert
  simp only [hr, hparts 0 p0 s0 hp0 hs0]
  rw [hposes, hpl, List.range_eq_range', List.range'_succ]
  unfold convertLoop
  have h0 : m.getParentIdx 0 = .ok none := by
    unfold getParentIdx
    rw [hr]
    simp
  rw [h0]
  simp only
  have hsplit : List.range' (0 + 1) (cs.length + 1) = List.range' 1 cs.length ++ [1 + cs.length] := by
    rw [List.range'_concat]; simp
  rw [hsplit, hcat _ _ _ _ e1]
  unfold convertLoop
  have hlast : m.getParentIdx (1 + cs.length) = .error .exception := by
    unfold getParentIdx
    rw [hr]
    simp only
    have hn : m.nodes.length = cs.length + 1 := by rw [hm]; exact hb.len.trans (by rw [hJ])
    rw [if_neg (by omega), if_neg (by omega)]
  rw [hlast]

/-- The hypotheses of the theorems are met by a trunk with an arm and a hand. -/
example (p : Pose 3) (r r' : Vec 3) :
    Spec.ParentsKnown "trunk" [⟨p, "arm", r, "trunk", r', none⟩, ⟨p, "hand", r, "arm", r', none⟩]
    ∧ [p, p, p].length = [(⟨p, "arm", r, "trunk", r', none⟩ : MultiBody.Call 3), ⟨p, "hand", r, "arm", r', none⟩].length + 1
    ∧ "leg" ∉ Spec.bodyNames "trunk" [(⟨p, "arm", r, "trunk", r', none⟩ : MultiBody.Call 3), ⟨p, "hand", r, "arm", r', none⟩] := by
  refine ⟨?_, rfl, by simp [Spec.bodyNames]⟩
  intro k c hc
  rcases k with _ | _ | k
  · simp at hc; subst hc; simp [Spec.bodyNames]
  · simp at hc; subst hc; simp [Spec.bodyNames]
  · simp at hc

/-- A base pose which moves the body. -/
example : ∃ (base p : Pose 2), base.poseFromRelative p ≠ p
    ∧ base.poseFromRelative (base.poseFromRelative p) ≠ base.poseFromRelative p := by
  refine ⟨⟨!₂[1, 0], .refl ℝ _⟩, Pose.trivial, ?_, ?_⟩ <;>
  · intro h
    have := congrArg (fun q : Pose 2 => q.position 0) h
    norm_num [Pose.poseFromRelative, Pose.fromRelative, Pose.trivial] at this

end Verif
