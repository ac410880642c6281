import Verif.Spec.Human
import Verif.Props.BodyConversion

/-!
# C144: the bodies of humans
-/

namespace Verif
open Human MultiBody Spec

variable {d : ℕ}

lemma build_run (pose : Pose d) (root : String) (u : Option ℤ) : ∀ cs : List (Call d), ParentsKnown root cs →
    Human.build (MultiBody.create.setRoot pose root u) cs = .ok ((MultiBody.create.setRoot pose root u).run cs) := by
  have key : ∀ (cs pre : List (Call d)), ParentsKnown root (pre ++ cs) →
      Human.build ((MultiBody.create.setRoot pose root u).run pre) cs
        = .ok ((MultiBody.create.setRoot pose root u).run (pre ++ cs)) := by
    intro cs
    induction cs with
    | nil => intro pre _; simp [Human.build]
    | cons c cs ih =>
      intro pre h
      have hpre : ParentsKnown root pre := by
        intro k c' hc'
        have hk := (List.getElem?_eq_some_iff.mp hc').1
        have := h k c' (by rw [List.getElem?_append_left hk, hc'])
        rwa [List.take_append_of_le_length hk.le] at this
      have hc : c.parentName ∈ bodyNames root pre := by
        have := h pre.length c (by simp)
        rwa [List.take_left'  rfl] at this
      have hok := C48_calls_succeed pose root u pre hpre c hc
      have hrun : (MultiBody.create.setRoot pose root u).run (pre ++ [c])
          = (((MultiBody.create.setRoot pose root u).run pre).step c).1 := by
        unfold MultiBody.run
        rw [List.foldl_append]
        rfl
      have e : ((MultiBody.create.setRoot pose root u).run pre).step c
          = ((MultiBody.create.setRoot pose root u).run (pre ++ [c]), .ok ()) := by
        rw [hrun, ← hok]
      unfold Human.build
      rw [e]
      have := ih (pre ++ [c]) (by simpa using h)
      simpa using this
  intro cs h
  exact key cs [] h

/-- The joints are strictly inside of both parts. -/
def JointsInside (root : String) (cs : List (Call d)) (shapes : List (Shape d)) : Prop :=
  ∀ (k : ℕ) (c : Call d), cs[k]? = some c → ∃ sp sl : Shape d,
    shapes[(bodyNames root cs).idxOf c.parentName]? = some sp ∧ shapes[k + 1]? = some sl
      ∧ InsideShape sl c.reference ∧ InsideShape sp c.parentReference

lemma toRelative_fromRelative' (p : Pose d) (x : Vec d) : p.toRelative (p.fromRelative x) = x := by
  simp [Pose.toRelative, Pose.fromRelative]

lemma overlapping_of_connected {root : String} {cs : List (Call d)} {shapes : List (Shape d)} {ps : List (Pose d)}
    (hj : JointsInside root cs shapes) (hc : LimbsConnected root cs ps) : Overlapping root cs shapes ps := by
  intro k c hk
  obtain ⟨sp, sl, h1, h2, h3, h4⟩ := hj k c hk
  obtain ⟨parent, limb, g1, g2, g3⟩ := hc k c hk
  refine ⟨parent, limb, sp, sl, limb.fromRelative c.reference, g1, g2, h1, h2, rfl, g3, ?_, ?_⟩
  · rw [toRelative_fromRelative']; exact h3
  · rw [g3, toRelative_fromRelative']; exact h4

lemma turn_leaf {root : String} {cs : List (Call d)} {m : MultiBody d} (hs : Skeleton m (joints root cs))
    (hlen : m.poses.length = cs.length + 1) (hc : LimbsConnected root cs m.poses) {k : ℕ} (hk : k < cs.length)
    (o : Vec d ≃ₗᵢ[ℝ] Vec d) (hleaf : ∀ c ∈ cs, (bodyNames root cs).idxOf c.parentName ≠ k + 1) :
    ∃ m', ({ m with poses := m.poses.modify (k + 1) fun p => { p with orientation := o } } :
        MultiBody d).alignWithParent (k + 1) = .ok m'
      ∧ m'.nodes = m.nodes ∧ m'.edges = m.edges ∧ m'.rootIdx = m.rootIdx ∧ m'.poses.length = m.poses.length
      ∧ LimbsConnected root cs m'.poses ∧ (∀ i, i ≠ k + 1 → m'.poses[i]? = m.poses[i]?)
      ∧ (m'.poses[k + 1]?).map Pose.orientation = some o := by
  set m1 : MultiBody d := { m with poses := m.poses.modify (k + 1) fun p => { p with orientation := o } } with hm1
  have hJ : (joints root cs).length = cs.length := by simp [joints]
  have hs1 : Skeleton m1 (joints root cs) := skeleton_congr hs rfl rfl
  obtain ⟨m', h1, h2, h3, h4, h5, h6, h7, h8⟩ := align_eq hs1 (by rw [hJ]; simpa [hm1] using hlen) (k := k) (by omega)
  have hsame : ∀ i, i ≠ k + 1 → m'.poses[i]? = m.poses[i]? := by
    intro i hi
    rw [h7 i hi, hm1]
    have : ¬ (k + 1 = i) := fun h => hi h.symm
    simp [this]
  refine ⟨m', h1, h2, h3, h4, by rw [h5, hm1]; simp, ?_, hsame, ?_⟩
  · intro k' c hc'
    by_cases hkk : k' = k
    · subst hkk
      obtain ⟨j, p, q, hj, hp, hq, e⟩ := h6
      have : j = ⟨(bodyNames root cs).idxOf c.parentName, c.reference, c.parentReference⟩ := by
        unfold joints at hj
        rw [List.getElem?_map, hc'] at hj
        simpa using hj.symm
      subst this
      exact ⟨p, q, hp, hq, e⟩
    · obtain ⟨p, q, hp, hq, e⟩ := hc k' c hc'
      exact ⟨p, q, by rw [hsame _ (hleaf c (List.mem_of_getElem? hc'))]; exact hp, by rw [hsame _ (by omega)]; exact hq, e⟩
  · rw [h8 (k + 1), hm1]
    have : m.poses[k + 1]? = some m.poses[k + 1] := List.getElem?_eq_getElem (by omega)
    simp [this]

/-! ## The joints -/

lemma known3d (euler : String → List ℝ → Vec 3 ≃ₗᵢ[ℝ] Vec 3) : ParentsKnown "body" (calls3d euler) := by
  intro k c hc
  have hk := (List.getElem?_eq_some_iff.mp hc).1
  simp only [calls3d, List.length_cons, List.length_nil] at hk
  interval_cases k <;> (simp [calls3d] at hc; subst hc; simp [bodyNames, calls3d])

lemma inside3d (euler : String → List ℝ → Vec 3 ≃ₗᵢ[ℝ] Vec 3) : JointsInside "body" (calls3d euler) shapes3d := by
  intro k c hc
  have hk := (List.getElem?_eq_some_iff.mp hc).1
  simp only [calls3d, List.length_cons, List.length_nil] at hk
  interval_cases k <;> (simp [calls3d] at hc; subst hc; refine ⟨_, _, by simp [bodyNames, calls3d, shapes3d, List.idxOf_cons]; rfl, by simp [shapes3d]; rfl, ?_, ?_⟩ <;>
    (simp [InsideShape, Fin.forall_fin_succ, Fin.sum_univ_three]; norm_num [abs_lt]))

lemma known2d : ParentsKnown "body" calls2d := by
  intro k c hc
  have hk := (List.getElem?_eq_some_iff.mp hc).1
  simp only [calls2d, List.length_cons, List.length_nil] at hk
  interval_cases k <;> (simp [calls2d] at hc; subst hc; simp [bodyNames, calls2d])

lemma inside2d : JointsInside "body" calls2d shapes2d := by
  intro k c hc
  have hk := (List.getElem?_eq_some_iff.mp hc).1
  simp only [calls2d, List.length_cons, List.length_nil] at hk
  interval_cases k <;> (simp [calls2d] at hc; subst hc; refine ⟨_, _, by simp [bodyNames, calls2d, shapes2d, List.idxOf_cons]; rfl, by simp [shapes2d]; rfl, ?_, ?_⟩ <;>
    (simp [InsideShape, Fin.forall_fin_succ, Fin.sum_univ_two]; norm_num [abs_lt]))

lemma run_poses (cs : List (Call d)) : ∀ m : MultiBody d, (m.run cs).poses = m.poses ++ cs.map Call.pose := by
  induction cs with
  | nil => intro m; simp [MultiBody.run]
  | cons c cs ih =>
    intro m
    have hs : (m.step c).1.poses = m.poses ++ [c.pose] := by
      unfold MultiBody.step MultiBody.addComponent
      dsimp only
      split <;> simp
    have : m.run (c :: cs) = (m.step c).1.run cs := rfl
    rw [this, ih, hs]
    simp

/-- C144: the limbs are attached as in a human: the neck, the upper arms and the legs to the body, the head to the neck,
the lower arms to the upper arms. -/
theorem C144_anatomy (euler : String → List ℝ → Vec 3 ≃ₗᵢ[ℝ] Vec 3) :
    (∀ c ∈ calls3d euler, anatomy c.name = some c.parentName) ∧ ∀ c ∈ calls2d, anatomy c.name = some c.parentName := by
  constructor
  · intro c hc
    simp only [calls3d, List.mem_cons, List.not_mem_nil, or_false] at hc
    rcases hc with rfl | rfl | rfl | rfl | rfl | rfl | rfl | rfl <;> rfl
  · intro c hc
    simp only [calls2d, List.mem_cons, List.not_mem_nil, or_false] at hc
    rcases hc with rfl | rfl | rfl | rfl | rfl | rfl <;> rfl

/-- C144: the human in three dimensions is made without an exception, whatever the rotations are: nine parts, the
body at the origin, every limb in the orientation that is asked for, and every limb shares an interior point with the
part it is attached to. -/
theorem C144_3d (euler : String → List ℝ → Vec 3 ≃ₗᵢ[ℝ] Vec 3) :
    ∃ (N : ℕ) (m : MultiBody 3), (∀ fuel ≥ N, create3d euler fuel = some (.ok m)) ∧ m.poses.length = 9
      ∧ m.nodes.map LimbNode.name
        = ["body", "neck", "head", "upperarm1", "lowerarm1", "upperarm2", "lowerarm2", "leg1", "leg2"]
      ∧ m.poses[0]? = some Pose.trivial
      ∧ (∀ (k : ℕ) (c : Call 3), (calls3d euler)[k]? = some c →
        (m.poses[k + 1]?).map Pose.orientation = some c.pose.orientation)
      ∧ Overlapping "body" (calls3d euler) shapes3d m.poses := by
  have hlen : (calls3d euler).length = 8 := rfl
  have hrun := run_poses (calls3d euler) (MultiBody.create.setRoot Pose.trivial "body" none)
  have hp0 : (MultiBody.create.setRoot (Pose.trivial : Pose 3) "body" none).poses = [Pose.trivial] := rfl
  rw [hp0] at hrun
  have hb := built_run (Pose.trivial : Pose 3) "body" none _ (known3d euler)
  obtain ⟨N, m, h1, h2, h3, h4, h5, h6, _⟩ := C48_aligned (Pose.trivial : Pose 3) "body" none _ (known3d euler)
    ((MultiBody.create.setRoot Pose.trivial "body" none).run (calls3d euler)).poses (by rw [hrun]; simp)
  refine ⟨N, m, ?_, by rw [h3, hrun]; rfl, ?_, by rw [h4, hrun]; rfl, ?_, overlapping_of_connected (inside3d euler) h2⟩
  · intro fuel hf
    unfold create3d
    rw [build_run _ _ _ _ (known3d euler)]
    exact h1 fuel hf
  · rw [h6]
    exact hb.names
  · intro k c hc
    rw [h5, hrun]
    simp [hc]

/-- C144: whatever poses the parts of the human are given, an update makes every limb share an interior point with the
part it is attached to; the body stays where it is and the orientations are kept. -/
theorem C144_any_pose (euler : String → List ℝ → Vec 3 ≃ₗᵢ[ℝ] Vec 3) (ps : List (Pose 3)) (hps : ps.length = 9) :
    ∃ (N : ℕ) (m' : MultiBody 3), (∀ fuel ≥ N, Human.update { (MultiBody.create.setRoot Pose.trivial "body" none).run
        (calls3d euler) with poses := ps } fuel = some (.ok m'))
      ∧ Overlapping "body" (calls3d euler) shapes3d m'.poses ∧ m'.poses[0]? = ps[0]?
      ∧ ∀ i : ℕ, (m'.poses[i]?).map Pose.orientation = (ps[i]?).map Pose.orientation := by
  obtain ⟨N, m, h1, h2, _, h4, h5, _⟩ := C48_aligned (Pose.trivial : Pose 3) "body" none _ (known3d euler) ps
    (by rw [hps]; rfl)
  exact ⟨N, m, h1, overlapping_of_connected (inside3d euler) h2, h4, h5⟩

/-- C144: so does an update from measurements, whatever is measured. -/
theorem C144_measured (euler : String → List ℝ → Vec 3 ≃ₗᵢ[ℝ] Vec 3) (ps : List (Pose 3)) (hps : ps.length = 9)
    (measured : List (Option (Pose 3))) (hmeas : measured.length = 9) (level : Pose 3 → Pose 3)
    (turn : ℕ → Vec 3 → Pose 3 → (Vec 3 ≃ₗᵢ[ℝ] Vec 3)) :
    ∃ (N : ℕ) (m' : MultiBody 3), (∀ fuel ≥ N, ({ (MultiBody.create.setRoot Pose.trivial "body" none).run
        (calls3d euler) with poses := ps } : MultiBody 3).updateMeasured measured level
          (fun i m => (m.referenceParent i).bind fun ref =>
            .ok { m with poses := m.poses.modify i (fun q => { q with orientation := turn i ref q }) }) fuel
          = some (.ok m'))
      ∧ Overlapping "body" (calls3d euler) shapes3d m'.poses := by
  obtain ⟨N, m, h1, h2, _⟩ := C48_measured (Pose.trivial : Pose 3) "body" none _ (known3d euler) ps
    (by rw [hps]; rfl) measured (by rw [hmeas]; rfl) level turn
  exact ⟨N, m, h1, overlapping_of_connected (inside3d euler) h2⟩

lemma turnLimb_eq {m : MultiBody d} {name : String} {i : ℕ} (h : m.idFromName name = .ok i) (o : Vec d ≃ₗᵢ[ℝ] Vec d) :
    turnLimb m name o = ({ m with poses := m.poses.modify i fun p => { p with orientation := o } } :
      MultiBody d).alignWithParent i := by
  unfold turnLimb; rw [h]

lemma idFromName_nodes {m : MultiBody d} {names : List String} (h : m.nodes.map LimbNode.name = names) {s : String}
    (hs : s ∈ names) : m.idFromName s = .ok (names.idxOf s) := by
  unfold idFromName
  rw [findIdx?_name (by rw [h]; exact hs), h]

lemma create2d_eq (rot : ℝ → Vec 2 ≃ₗᵢ[ℝ] Vec 2) :
    ∃ (N : ℕ) (ps : List (Pose 2)), (∀ fuel ≥ N, create2dMultibody rot fuel = some (.ok
        { (MultiBody.create.setRoot Pose.trivial "body" none).run calls2d with poses := ps })) ∧ ps.length = 7
      ∧ ps[0]? = some Pose.trivial ∧ LimbsConnected "body" calls2d ps
      ∧ (ps[4]?).map Pose.orientation = some (rot (70 * Real.pi / 180))
      ∧ (ps[6]?).map Pose.orientation = some (rot (45 * Real.pi / 180))
      ∧ ∀ i : ℕ, i < 7 → i ≠ 4 → i ≠ 6 → (ps[i]?).map Pose.orientation = some Pose.trivial.orientation := by
  have hlen : calls2d.length = 6 := rfl
  set m0 := (MultiBody.create.setRoot (Pose.trivial : Pose 2) "body" none).run calls2d with hm0
  have hrun : m0.poses = [Pose.trivial] ++ calls2d.map Call.pose :=
    run_poses calls2d (MultiBody.create.setRoot Pose.trivial "body" none)
  have hb : Built m0 _ _ := built_run (Pose.trivial : Pose 2) "body" none _ known2d
  have h7 : m0.poses.length = 7 := by rw [hrun]; rfl
  obtain ⟨N, m1, a1, a2, a3, a4, a5, a6, a7, a8⟩ := C48_aligned (Pose.trivial : Pose 2) "body" none _ known2d
    m0.poses (by rw [hlen]; exact h7)
  have hs1 : Skeleton m1 (joints "body" calls2d) := skeleton_congr hb.skeleton a6 a7
  have hn1 : m1.nodes.map LimbNode.name = bodyNames "body" calls2d := by rw [a6]; exact hb.names
  have leaf : ∀ n ∈ [3, 5], ∀ c ∈ calls2d, (bodyNames "body" calls2d).idxOf c.parentName ≠ n + 1 := by
    intro n hn c hc
    simp [calls2d] at hc
    rcases hc with rfl | rfl | rfl | rfl | rfl | rfl <;> simp at hn <;> rcases hn with rfl | rfl <;>
      simp [bodyNames, calls2d, List.idxOf_cons]
  have i4 : (bodyNames "body" calls2d).idxOf "lowerarm1" = 4 := by simp [bodyNames, calls2d, List.idxOf_cons]
  have i6 : (bodyNames "body" calls2d).idxOf "lowerarm2" = 6 := by simp [bodyNames, calls2d, List.idxOf_cons]
  have mem4 : "lowerarm1" ∈ bodyNames "body" calls2d := by simp [bodyNames, calls2d]
  have mem6 : "lowerarm2" ∈ bodyNames "body" calls2d := by simp [bodyNames, calls2d]
  obtain ⟨m2, b1, b2, b3, b4, b5, b6, b7, b8⟩ := turn_leaf hs1 (by rw [a3, h7]; rfl) a2 (k := 3) (by rw [hlen]; omega)
    (rot (70 * Real.pi / 180)) (leaf 3 (by simp))
  have hs2 : Skeleton m2 (joints "body" calls2d) := skeleton_congr hs1 b2 b3
  have hn2 : m2.nodes.map LimbNode.name = bodyNames "body" calls2d := by rw [b2]; exact hn1
  obtain ⟨m3, c1, c2, c3, c4, c5, c6, c7, c8⟩ := turn_leaf hs2 (by rw [b5, a3, h7]; rfl) b6 (k := 5)
    (by rw [hlen]; omega) (rot (45 * Real.pi / 180)) (leaf 5 (by simp))
  have hm3 : m3 = { m0 with poses := m3.poses } := by
    cases m3
    simp only [MultiBody.mk.injEq, true_and]
    exact ⟨c2.trans (b2.trans a6), c3.trans (b3.trans a7), c4.trans (b4.trans a8)⟩
  refine ⟨N, m3.poses, ?_, by rw [c5, b5, a3, h7], ?_, c6, ?_, c8, ?_⟩
  · intro fuel hf
    unfold create2dMultibody
    rw [build_run _ _ _ _ known2d]
    have e := a1 fuel hf
    have : Human.update m0 fuel = some (.ok m1) := e
    simp only [← hm0, this, turnLimb_eq (i4 ▸ idFromName_nodes hn1 mem4), b1]
    rw [turnLimb_eq (i6 ▸ idFromName_nodes hn2 mem6), c1, ← hm3]
  · rw [c7 0 (by omega), b7 0 (by omega), a4, hrun]; rfl
  · rw [c7 4 (by omega)]; exact b8
  · intro i hi h4 h6
    rw [c7 i h6, b7 i h4, a5, hrun]
    interval_cases i <;> simp [calls2d]

/-- C144: the human in two dimensions is made without an exception: seven parts, the body at the origin, the lower arms
turned by 70 and 45 degrees, all other parts not turned, and every limb shares an interior point with the part it is
attached to. -/
theorem C144_2d (rot : ℝ → Vec 2 ≃ₗᵢ[ℝ] Vec 2) :
    ∃ (N : ℕ) (m : MultiBody 2), (∀ fuel ≥ N, create2dMultibody rot fuel = some (.ok m)) ∧ m.poses.length = 7
      ∧ m.nodes.map LimbNode.name = ["body", "neck", "head", "upperarm1", "lowerarm1", "upperarm2", "lowerarm2"]
      ∧ m.poses[0]? = some Pose.trivial
      ∧ (∀ (i : ℕ) (s : String), ["body", "neck", "head", "upperarm1", "lowerarm1", "upperarm2", "lowerarm2"][i]? = some s →
        (m.poses[i]?).map Pose.orientation = some (if s = "lowerarm1" then rot (70 * Real.pi / 180)
          else if s = "lowerarm2" then rot (45 * Real.pi / 180) else LinearIsometryEquiv.refl ℝ (Vec 2)))
      ∧ Overlapping "body" calls2d shapes2d m.poses := by
  obtain ⟨N, ps, h1, h2, h3, h4, h5, h6, h7⟩ := create2d_eq rot
  refine ⟨N, _, h1, h2, (built_run (Pose.trivial : Pose 2) "body" none _ known2d).names, h3, ?_,
    overlapping_of_connected inside2d h4⟩
  intro i s hi
  have hi7 := (List.getElem?_eq_some_iff.mp hi).1
  simp only [List.length_cons, List.length_nil] at hi7
  have h7' := h7 i hi7
  interval_cases i <;> simp at hi <;> subst hi <;> simp_all [Pose.trivial]

/-- C144: the human that the avoidance uses is made without an exception as well.  It consists of the same seven parts,
every limb has the parent it is attached to, every part reaches the root, every limb shares an interior point with its
parent, and the reference point of every limb is that point. -/
theorem C144_2d_composite (intersect : Part 2 → Part 2 → Option (Vec 2)) (rot : ℝ → Vec 2 ≃ₗᵢ[ℝ] Vec 2) :
    ∃ (N : ℕ) (M : MultiObstacle 2), (∀ fuel ≥ N, create2d intersect rot fuel = some (.ok M)) ∧ M.nComponents = 7
      ∧ M.getParentIdx 0 = .ok none
      ∧ (∀ (k : ℕ) (c : Call 2), calls2d[k]? = some c → M.getParentIdx ((k + 1 : ℕ) : ℤ)
        = .ok (some (((bodyNames "body" calls2d).idxOf c.parentName : ℕ) : ℤ)))
      ∧ (∀ i : ℤ, 0 ≤ i → i < M.nComponents → ReachesRoot M i)
      ∧ Overlapping "body" calls2d shapes2d (M.parts.map Part.pose)
      ∧ ∀ (k : ℕ) (c : Call 2), calls2d[k]? = some c → ∃ part : Part 2, M.parts[k + 1]? = some part
        ∧ part.reference = c.reference := by
  obtain ⟨N, ps, h1, h2, h3, h4, _⟩ := create2d_eq rot
  have hsh : references2d.length = calls2d.length + 1 := rfl
  have hps : ps.length = calls2d.length + 1 := h2
  obtain ⟨M, e1, e2, e3, e4, e5, e6⟩ := C131_converts intersect Pose.trivial "body" none _ known2d ps hps references2d
    hsh Pose.trivial
  have hr := (C131_rigid intersect Pose.trivial "body" none _ known2d ps hps references2d hsh Pose.trivial M e1).2 h4
  refine ⟨N, M, ?_, e2, e3, fun k c hc => (e4 k c hc).2, e5, overlapping_of_connected inside2d hr, ?_⟩
  · intro fuel hf
    unfold create2d
    rw [h1 fuel hf]
    simp only [e1]
  · intro k c hc
    have hk := (List.getElem?_eq_some_iff.mp hc).1
    have hk' : k + 1 < ps.length := by omega
    have hk2 : k + 1 < references2d.length := by omega
    refine ⟨_, e6 (k + 1) _ _ (List.getElem?_eq_getElem hk') (List.getElem?_eq_getElem hk2), ?_⟩
    have hc' : calls2d[k] = c := (List.getElem?_eq_some_iff.mp hc).2
    simp [references2d, hc']

/-- The theorems apply to actual rotations, with the body, a point of the neck and the point of the head it shares. -/
example : ∃ (N : ℕ) (m : MultiBody 3), ∀ fuel ≥ N, create3d (fun _ _ => LinearIsometryEquiv.neg ℝ) fuel = some (.ok m) := by
  obtain ⟨N, m, h, _⟩ := C144_3d (fun _ _ => LinearIsometryEquiv.neg ℝ)
  exact ⟨N, m, h⟩

/-- Other attachment points would not do: the end of the neck is not inside the head when it is attached at `-0.2`. -/
example : ¬ InsideShape (.ellipse !₂[0.2, 0.3] : Shape 2) !₂[0, -0.2] := by
  simp [InsideShape, Fin.sum_univ_two]; norm_num

/-- Nine poses to start from. -/
example : ∃ ps : List (Pose 3), ps.length = 9 ∧ ps[3]? = some ⟨!₂[1, 2, 3], LinearIsometryEquiv.neg ℝ⟩ :=
  ⟨List.replicate 9 ⟨!₂[1, 2, 3], LinearIsometryEquiv.neg ℝ⟩, by simp, by simp⟩

end Verif
