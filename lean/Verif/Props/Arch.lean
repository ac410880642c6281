import Verif.Spec.Arch
import Verif.Props.CompositeMotion
import Mathlib.Tactic.Linarith
import Mathlib.Tactic.NormNum
import Mathlib.Tactic.FinCases

/-! # C97: arch obstacles -/

open Verif.Spec

namespace Verif.Arch

/-! ## The explicit form -/

/-- The composite obstacle with wall and two legs at the pose, with the reference point `r` of the legs. -/
noncomputable def explicit (w : ℝ) (axes r : Vec 2) (pose : Pose 2) : MultiObstacle 2 where
  pose := pose
  localPoses := [(wall w axes).pose, (upperLeg w axes).pose, (lowerLeg w axes).pose]
  parts := [{ wall w axes with pose := pose.poseFromRelative (wall w axes).pose },
    { upperLeg w axes with reference := r, pose := pose.poseFromRelative (upperLeg w axes).pose },
    { lowerLeg w axes with reference := r, pose := pose.poseFromRelative (lowerLeg w axes).pose }]
  nodes := [(0, [1, 2]), (1, []), (2, [])]
  edges := [(0, 1), (0, 2)]
  rootIdx := 0

lemma built (w : ℝ) (axes r : Vec 2) (pose : Pose 2) :
    (do
      let m ← thenAdd ((MultiObstacle.create pose).setRoot (wall w axes)).1 (upperLeg w axes) r 0
      thenAdd m (lowerLeg w axes) r 0) = .ok (explicit w axes r pose) := by
  simp [thenAdd, MultiObstacle.addComponent, MultiObstacle.chooseReference, MultiObstacle.insertComponent,
    MultiObstacle.setRoot, MultiObstacle.create, MultiObstacle.addNode, bind, Except.bind, explicit]

lemma create_eq (w : ℝ) (axes : Vec 2) (pose : Pose 2) :
    create w axes pose = .ok (explicit w axes !₂[-(0.5 * axes 0 - 0.1 * w), 0] pose) := built _ _ _ _

lemma createBlock_eq (w : ℝ) (axes : Vec 2) (pose : Pose 2) :
    createBlock w axes pose = .ok (explicit w axes !₂[-(deltaPos w axes 0), 0] pose) := built _ _ _ _

lemma moved (w : ℝ) (axes r : Vec 2) (pose : Pose 2) (moves : List (Pose 2)) :
    moves.foldl MultiObstacle.updatePose (explicit w axes r pose)
      = explicit w axes r ((pose :: moves).getLast (by simp)) := by
  induction moves generalizing pose with
  | nil => rfl
  | cons p moves ih =>
    have : (explicit w axes r pose).updatePose p = explicit w axes r p := by
      simp [MultiObstacle.updatePose, explicit]
    rw [List.foldl_cons, this, ih, List.getLast_cons_cons]

lemma toRelative_local (pose : Pose 2) (c p : Vec 2) :
    (pose.poseFromRelative ⟨c, .refl ℝ _⟩).toRelative p = pose.toRelative p - c := by
  simp only [Pose.toRelative, Pose.poseFromRelative, Pose.fromRelative]
  change pose.orientation.symm (p - (pose.orientation c + pose.position)) = _
  rw [show p - (pose.orientation c + pose.position) = (p - pose.position) - pose.orientation c by abel, map_sub,
    LinearIsometryEquiv.symm_apply_apply]

/-! ## Shape -/

lemma min_le_one {l : List ℝ} {g : ℝ} (h : l.min? = some g) : g ≤ 1 ↔ ∃ y ∈ l, y ≤ 1 := by
  rw [List.min?_eq_some_iff] at h
  constructor
  · intro hg; exact ⟨g, h.1, hg⟩
  · rintro ⟨y, hy, h1⟩; exact le_trans (h.2 y hy) h1

lemma region_iff {w : ℝ} {axes : Vec 2} (h0 : 0 ≤ w) (h1 : w ≤ axes 0) (h2 : w ≤ axes 1) (q : Vec 2) :
    q ∈ archRegion w axes ↔
      (|q 0| ≤ w / 2 ∧ |q 1| ≤ axes 1 / 2)
      ∨ (|q 0 - (axes 0 - w) * 0.5| ≤ axes 0 / 2 ∧ |q 1 - (axes 1 - w) * 0.5| ≤ w / 2)
      ∨ (|q 0 - (axes 0 - w) * 0.5| ≤ axes 0 / 2 ∧ |q 1 - -((axes 1 - w) * 0.5)| ≤ w / 2) := by
  unfold archRegion
  simp only [Set.mem_setOf_eq, abs_le, not_and, abs_lt, not_lt]
  constructor
  · rintro ⟨a1, a2, ⟨a3, a4⟩, a5⟩
    by_cases hw : q 0 ≤ w / 2
    · exact Or.inl ⟨⟨a1, hw⟩, a3, a4⟩
    · have h5 := a5 (not_le.mp hw)
      right
      by_cases hy : 0 ≤ q 1
      · left
        have : axes 1 / 2 - w ≤ q 1 := by
          by_contra hc
          push Not at hc
          have := h5 (by linarith)
          linarith
        exact ⟨⟨by linarith, by linarith⟩, by linarith, by linarith⟩
      · right
        push Not at hy
        have : q 1 ≤ -(axes 1 / 2 - w) := by
          by_contra hc
          push Not at hc
          have := h5 hc
          linarith
        exact ⟨⟨by linarith, by linarith⟩, by linarith, by linarith⟩
  · rintro (⟨⟨a1, a2⟩, a3, a4⟩ | ⟨⟨a1, a2⟩, a3, a4⟩ | ⟨⟨a1, a2⟩, a3, a4⟩)
    · exact ⟨a1, by linarith, ⟨a3, a4⟩, fun h => absurd a2 (not_le.mpr h)⟩
    · exact ⟨by linarith, by linarith, ⟨by linarith, by linarith⟩, fun _ _ => by linarith⟩
    · refine ⟨by linarith, by linarith, ⟨by linarith, by linarith⟩, fun _ h => ?_⟩
      exfalso; linarith

lemma explicit_contains {gamma : Part 2 → Vec 2 → ℝ} (hg : CuboidGamma gamma) {w : ℝ} {axes : Vec 2} (h0 : 0 ≤ w)
    (h1 : w ≤ axes 0) (h2 : w ≤ axes 1) (r : Vec 2) (pose : Pose 2) (p : Vec 2) :
    (∃ o ∈ (explicit w axes r pose).parts, gamma o p ≤ 1) ↔ pose.toRelative p ∈ archRegion w axes := by
  rw [region_iff h0 h1 h2]
  simp only [explicit, List.mem_cons, List.not_mem_nil, or_false, exists_eq_or_imp, exists_eq_left, hg _ _,
    Fin.forall_fin_two]
  simp only [wall, upperLeg, lowerLeg, cuboid, toRelative_local, deltaPos]
  simp

/-- C97: `create_arch_obstacle` never fails, and at every later pose its points are exactly the points of the
arch. -/
theorem C97_shape (gamma : Part 2 → Vec 2 → ℝ) (hg : CuboidGamma gamma) (w : ℝ) (axes : Vec 2) (h0 : 0 ≤ w)
    (h1 : w ≤ axes 0) (h2 : w ≤ axes 1) (pose : Pose 2) (moves : List (Pose 2)) (p : Vec 2) :
    ∃ m g, create w axes pose = .ok m ∧ getGamma gamma (moves.foldl MultiObstacle.updatePose m) p = .ok g
      ∧ (g ≤ 1 ↔ ((pose :: moves).getLast (by simp)).toRelative p ∈ archRegion w axes) := by
  obtain ⟨g, hgm⟩ : ∃ g, ((explicit w axes !₂[-(0.5 * axes 0 - 0.1 * w), 0]
      ((pose :: moves).getLast (by simp))).parts.map (fun o => gamma o p)).min? = some g := ⟨_, rfl⟩
  refine ⟨_, g, create_eq w axes pose, ?_, ?_⟩
  · rw [moved]
    unfold getGamma
    rw [hgm]
  · rw [min_le_one hgm, ← explicit_contains hg h0 h1 h2 !₂[-(0.5 * axes 0 - 0.1 * w), 0]]
    simp

/-- C97: the same for a new `BlockArchObstacle`; `is_collision_free` agrees. -/
theorem C97_block_shape (gamma : Part 2 → Vec 2 → ℝ) (hg : CuboidGamma gamma) (w : ℝ) (axes : Vec 2) (h0 : 0 ≤ w)
    (h1 : w ≤ axes 0) (h2 : w ≤ axes 1) (pose : Pose 2) (p : Vec 2) :
    ∃ m g, createBlock w axes pose = .ok m ∧ getGamma gamma m p = .ok g
      ∧ (g ≤ 1 ↔ pose.toRelative p ∈ archRegion w axes)
      ∧ (isCollisionFree gamma m p = true ↔ pose.toRelative p ∉ archRegion w axes) := by
  obtain ⟨g, hgm⟩ : ∃ g, ((explicit w axes !₂[-(deltaPos w axes 0), 0] pose).parts.map
      (fun o => gamma o p)).min? = some g := ⟨_, rfl⟩
  refine ⟨_, g, createBlock_eq w axes pose, ?_, ?_, ?_⟩
  · unfold getGamma
    rw [hgm]
  · rw [min_le_one hgm, ← explicit_contains hg h0 h1 h2 !₂[-(deltaPos w axes 0), 0]]
    simp
  · rw [← explicit_contains hg h0 h1 h2 !₂[-(deltaPos w axes 0), 0]]
    unfold isCollisionFree
    simp

/-! ## Tree and reference points -/

/-- C97: three components; the wall is the root and the parent of both legs. -/
theorem C97_tree (w : ℝ) (axes : Vec 2) (pose : Pose 2) (block : Bool) (moves : List (Pose 2)) :
    ∃ m, (if block then createBlock w axes pose else create w axes pose) = .ok m
      ∧ (moves.foldl MultiObstacle.updatePose m).nComponents = 3
      ∧ (moves.foldl MultiObstacle.updatePose m).getParentIdx 0 = .ok none
      ∧ (moves.foldl MultiObstacle.updatePose m).getParentIdx 1 = .ok (some 0)
      ∧ (moves.foldl MultiObstacle.updatePose m).getParentIdx 2 = .ok (some 0)
      ∧ (moves.foldl MultiObstacle.updatePose m).childrenOf 0 = .ok [1, 2] := by
  have : ∃ r, (if block then createBlock w axes pose else create w axes pose) = .ok (explicit w axes r pose) := by
    cases block
    · exact ⟨_, create_eq w axes pose⟩
    · exact ⟨_, createBlock_eq w axes pose⟩
  obtain ⟨r, hr⟩ := this
  refine ⟨_, hr, ?_⟩
  rw [moved]
  refine ⟨rfl, ?_, ?_, ?_, ?_⟩ <;> simp [MultiObstacle.getParentIdx, MultiObstacle.childrenOf,
    MultiObstacle.predecessors, explicit]

lemma global_local (pose : Pose 2) (c r : Vec 2) :
    pose.toRelative ((pose.poseFromRelative ⟨c, .refl ℝ _⟩).fromRelative r) = r + c := by
  rw [poseFromRelative_point]
  simp [Pose.toRelative, Pose.fromRelative]

lemma reference_inside {w : ℝ} {axes : Vec 2} (h0 : 0 < w) (h1 : w ≤ axes 0) (h2 : w ≤ axes 1) (x : ℝ)
    (hx : |(axes 0 - w) * 0.5 - x| < w / 2) (hx' : |x| < axes 0 / 2) (pose : Pose 2) :
    ∃ root a b, (explicit w axes !₂[-x, 0] pose).parts = [root, a, b]
      ∧ InsideCuboid root a.globalReference ∧ InsideCuboid a a.globalReference
      ∧ InsideCuboid root b.globalReference ∧ InsideCuboid b b.globalReference := by
  rw [abs_lt] at hx hx'
  refine ⟨_, _, _, rfl, ?_, ?_, ?_, ?_⟩ <;>
  · unfold InsideCuboid Part.globalReference
    simp only [wall, upperLeg, lowerLeg, cuboid, toRelative_local, global_local, Fin.forall_fin_two, deltaPos, abs_lt]
    simp
    refine ⟨⟨by linarith, by linarith⟩, ?_⟩
    first
      | exact h0
      | exact ⟨by linarith, by linarith⟩

/-- C97: at every pose the reference point of each leg is in the interior of the leg and of the wall. -/
theorem C97_reference (w : ℝ) (axes : Vec 2) (h0 : 0 < w) (h1 : w ≤ axes 0) (h2 : w ≤ axes 1) (pose : Pose 2)
    (moves : List (Pose 2)) :
    ∃ m root a b, create w axes pose = .ok m
      ∧ (moves.foldl MultiObstacle.updatePose m).parts = [root, a, b]
      ∧ InsideCuboid root a.globalReference ∧ InsideCuboid a a.globalReference
      ∧ InsideCuboid root b.globalReference ∧ InsideCuboid b b.globalReference := by
  obtain ⟨root, a, b, h⟩ := reference_inside (w := w) (axes := axes) h0 h1 h2 (0.5 * axes 0 - 0.1 * w)
    (by rw [abs_lt]; constructor <;> linarith) (by rw [abs_lt]; constructor <;> linarith)
    ((pose :: moves).getLast (by simp))
  refine ⟨_, root, a, b, create_eq w axes pose, ?_⟩
  rw [moved]
  exact h

/-- C97: the same for a new `BlockArchObstacle`. -/
theorem C97_block_reference (w : ℝ) (axes : Vec 2) (h0 : 0 < w) (h1 : w ≤ axes 0) (h2 : w ≤ axes 1)
    (pose : Pose 2) :
    ∃ m root a b, createBlock w axes pose = .ok m ∧ m.parts = [root, a, b]
      ∧ InsideCuboid root a.globalReference ∧ InsideCuboid a a.globalReference
      ∧ InsideCuboid root b.globalReference ∧ InsideCuboid b b.globalReference := by
  obtain ⟨root, a, b, h⟩ := reference_inside (w := w) (axes := axes) h0 h1 h2 (deltaPos w axes 0)
    (by simp [deltaPos]; linarith) (by
      have : deltaPos w axes 0 = (axes 0 - w) * 0.5 := by simp [deltaPos]
      rw [this, abs_lt]; constructor <;> linarith) pose
  exact ⟨_, root, a, b, createBlock_eq w axes pose, h⟩

/-! ## Distance without some components -/

/-- C97: `get_gamma_except_components` is the smallest distance among the remaining components and raises
`ValueError` exactly if none remains. -/
theorem C97_except (gamma : Part 2 → Vec 2 → ℝ) (m : MultiObstacle 2) (p : Vec 2) (excluded : List ℕ) :
    (∀ g, getGammaExcept gamma m p excluded true = .ok g ↔
      (∃ i o, i ∉ excluded ∧ m.parts[i]? = some o ∧ gamma o p = g)
        ∧ ∀ i o, i ∉ excluded → m.parts[i]? = some o → g ≤ gamma o p)
      ∧ (getGammaExcept gamma m p excluded true = .error .valueError ↔
          ∀ i < m.parts.length, i ∈ excluded) := by
  have hmem : ∀ y, y ∈ (m.parts.zipIdx.filter (fun e => e.2 ∉ excluded)).map (fun e => gamma e.1 p) ↔
      ∃ i o, i ∉ excluded ∧ m.parts[i]? = some o ∧ gamma o p = y := by
    intro y
    simp only [List.mem_map, List.mem_filter, decide_eq_true_eq, Prod.exists, List.mem_zipIdx_iff_getElem?]
    constructor
    · rintro ⟨o, i, ⟨h1, h3⟩, h4⟩; exact ⟨i, o, h3, h1, h4⟩
    · rintro ⟨i, o, h3, h1, h4⟩; exact ⟨o, i, ⟨h1, h3⟩, h4⟩
  constructor
  · intro g
    have : getGammaExcept gamma m p excluded true = .ok g ↔
        ((m.parts.zipIdx.filter (fun e => e.2 ∉ excluded)).map (fun e => gamma e.1 p)).min? = some g := by
      unfold getGammaExcept
      simp only [if_true]
      cases ((m.parts.zipIdx.filter (fun e => e.2 ∉ excluded)).map (fun e => gamma e.1 p)).min? <;> simp
    rw [this, List.min?_eq_some_iff, hmem]
    refine and_congr_right (fun _ => ?_)
    constructor
    · intro h i o hi ho
      exact h _ ((hmem _).mpr ⟨i, o, hi, ho, rfl⟩)
    · intro h b hb
      obtain ⟨i, o, hi, ho, rfl⟩ := (hmem b).mp hb
      exact h i o hi ho
  · have : getGammaExcept gamma m p excluded true = .error .valueError ↔
        (m.parts.zipIdx.filter (fun e => e.2 ∉ excluded)).map (fun e => gamma e.1 p) = [] := by
      rw [← List.min?_eq_none_iff]
      unfold getGammaExcept
      simp only [if_true]
      cases ((m.parts.zipIdx.filter (fun e => e.2 ∉ excluded)).map (fun e => gamma e.1 p)).min? <;> simp
    rw [this, List.eq_nil_iff_forall_not_mem]
    constructor
    · intro h i hi
      by_contra hc
      exact h _ ((hmem _).mpr ⟨i, _, hc, List.getElem?_eq_getElem hi, rfl⟩)
    · intro h y hy
      obtain ⟨i, o, hi, ho, _⟩ := (hmem y).mp hy
      exact hi (h i (List.getElem?_eq_some_iff.mp ho).1)

/-! ## Defects of `BlockArchObstacle` -/

/-- C97, violated by `BlockArchObstacle`: after the pose has been changed, `update_obstacles` does not move the
components: the arch stays at the old pose. -/
theorem C97_block_stays (gamma : Part 2 → Vec 2 → ℝ) (hg : CuboidGamma gamma) (w : ℝ) (axes : Vec 2) (h0 : 0 ≤ w)
    (h1 : w ≤ axes 0) (h2 : w ≤ axes 1) (pose new : Pose 2) (dt : ℝ) (p : Vec 2) :
    ∃ m g, createBlock w axes pose = .ok m ∧ (updateObstacles (assignPose m new) dt).pose = new
      ∧ getGamma gamma (updateObstacles (assignPose m new) dt) p = .ok g
      ∧ (g ≤ 1 ↔ pose.toRelative p ∈ archRegion w axes) := by
  obtain ⟨m, g, a1, a2, a3, _⟩ := C97_block_shape gamma hg w axes h0 h1 h2 pose p
  exact ⟨m, g, a1, rfl, a2, a3⟩

/-- C97, a defect of `BlockArchObstacle`: `get_gamma_except_components` in the local frame raises
`AttributeError` for every arch, position and list of components. -/
theorem C97_block_local_frame (gamma : Part 2 → Vec 2 → ℝ) (w : ℝ) (axes : Vec 2) (pose : Pose 2) (p : Vec 2)
    (excluded : List ℕ) :
    ∃ m, createBlock w axes pose = .ok m
      ∧ getGammaExcept gamma m p excluded false = .error .attributeError :=
  ⟨_, createBlock_eq w axes pose, rfl⟩

/-! ## Examples -/

/-- A distance function as assumed exists. -/
lemma cuboidGamma_exists : ∃ gamma, CuboidGamma gamma := by
  classical
  refine ⟨fun o p => if ∀ i, |o.pose.toRelative p i| ≤ o.axes i / 2 then 0 else 2, ?_⟩
  intro o p
  simp only
  split_ifs with h
  · exact ⟨fun _ => h, fun _ => by norm_num⟩
  · exact ⟨fun h' => by norm_num at h', fun h' => absurd h' h⟩

/-- C97 is not vacuous: an arch of size 4 x 6 with walls of width one; the point `(2, 0)` is in the opening, the
point `(2, 5/2)` in the upper leg. -/
example : (!₂[2, 0] : Vec 2) ∉ archRegion 1 !₂[4, 6] ∧ (!₂[2, 5 / 2] : Vec 2) ∈ archRegion 1 !₂[4, 6]
    ∧ (1 : ℝ) ≤ (!₂[4, 6] : Vec 2) 0 ∧ (1 : ℝ) ≤ (!₂[4, 6] : Vec 2) 1 := by
  refine ⟨?_, ?_, by simp, by simp⟩
  · rintro ⟨_, _, _, h⟩
    apply h
    simp
    norm_num
  · refine ⟨by simp; norm_num, by simp; norm_num, by simp [abs_of_pos]; norm_num, ?_⟩
    rintro ⟨_, h⟩
    simp [abs_of_pos] at h
    norm_num at h

/-- `C97_block_stays` is a violation: the arch is moved by ten, a point of the arch at the new pose is reported as
free. -/
example (gamma : Part 2 → Vec 2 → ℝ) (hg : CuboidGamma gamma) :
    ∃ m g, createBlock 1 !₂[4, 6] Pose.trivial = .ok m
      ∧ getGamma gamma (updateObstacles (assignPose m ⟨!₂[10, 0], .refl ℝ _⟩) 1) !₂[10, 0] = .ok g ∧ ¬ g ≤ 1
      ∧ (⟨!₂[10, 0], .refl ℝ _⟩ : Pose 2).toRelative !₂[10, 0] ∈ archRegion 1 !₂[4, 6] := by
  obtain ⟨m, g, a1, _, a3, a4⟩ := C97_block_stays gamma hg 1 !₂[4, 6] (by norm_num) (by simp)
    (by simp) Pose.trivial ⟨!₂[10, 0], .refl ℝ _⟩ 1 !₂[10, 0]
  refine ⟨m, g, a1, a3, ?_, ?_⟩
  · rw [a4]
    rintro ⟨_, h, _⟩
    have e : (Pose.trivial : Pose 2).toRelative !₂[10, 0] = !₂[10, 0] := by
      simp [Pose.toRelative, Pose.trivial]
      rfl
    rw [e] at h
    simp at h
    norm_num at h
  · refine ⟨?_, ?_, ?_, ?_⟩ <;> simp [Pose.toRelative] <;> norm_num

end Verif.Arch
