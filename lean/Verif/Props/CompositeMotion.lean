import Verif.Props.Composite
import Mathlib.Analysis.Normed.Affine.AddTorsor

/-!
# C63, C64: motion and joints of composite obstacles
-/

namespace Verif

open MultiObstacle

variable {d : ℕ}

namespace Spec

/-- The mutating calls on a composite obstacle. -/
inductive CompositeCall (d : ℕ) where
  | setRoot (o : Part d)
  | add (o : Part d) (parent : ℤ) (reference : Option (Vec d))
  | move (p : Pose d)
  | deform (rate : Option ℝ) (dt : ℝ)

/-- The state after one call; an exception is caught by the caller. -/
noncomputable def compositeStep (intersect : Part d → Part d → Option (Vec d)) (m : MultiObstacle d) :
    CompositeCall d → MultiObstacle d
  | .setRoot o => (m.setRoot o).1
  | .add o p r => (m.addComponent intersect o p r).1
  | .move p => m.updatePose p
  | .deform r dt => m.updateDeformation r dt

/-- Every component stands where the pose of the obstacle carries its local pose. -/
def Placed (m : MultiObstacle d) : Prop :=
  m.parts.map Part.pose = m.localPoses.map m.pose.poseFromRelative

end Spec

open Spec

lemma poseFromRelative_point (p q : Pose d) (x : Vec d) :
    (p.poseFromRelative q).fromRelative x = p.fromRelative (q.fromRelative x) := by
  simp only [Pose.poseFromRelative, Pose.fromRelative, LinearIsometryEquiv.coe_trans,
    Function.comp_apply, map_add]
  abel

lemma fromRelative_dist (p : Pose d) (x y : Vec d) :
    dist (p.fromRelative x) (p.fromRelative y) = dist x y := by
  simp only [Pose.fromRelative, dist_add_right]
  exact p.orientation.dist_map x y

lemma placed_length {m : MultiObstacle d} (h : Placed m) : m.parts.length = m.localPoses.length := by
  have := congrArg List.length h
  simpa using this

lemma zipWith_pose {f : Pose d → Part d → Part d} (g : Pose d → Pose d)
    (hf : ∀ l o, (f l o).pose = g l) (ls : List (Pose d)) (os : List (Part d))
    (hl : os.length = ls.length) :
    (List.zipWith f ls os ++ os.drop ls.length).map Part.pose = ls.map g := by
  rw [List.drop_eq_nil_of_le (by omega), List.append_nil]
  induction ls generalizing os with
  | nil => simp
  | cons l ls ih =>
    cases os with
    | nil => simp at hl
    | cons o os =>
      simp only [List.zipWith_cons_cons, List.map_cons, hf]
      rw [ih os (by simpa using hl)]

lemma step_placed (intersect : Part d → Part d → Option (Vec d)) {m : MultiObstacle d} (h : Placed m)
    (c : CompositeCall d) : Placed (compositeStep intersect m c) := by
  cases c with
  | setRoot o =>
    unfold Placed at *
    simp [compositeStep, setRoot, h]
  | add o p r =>
    unfold Placed at *
    simp only [compositeStep]
    unfold addComponent
    split
    · exact h
    · unfold insertComponent
      simp only
      split_ifs <;> simp [h]
  | move p =>
    change (m.updatePose p).parts.map Part.pose = m.localPoses.map p.poseFromRelative
    exact zipWith_pose p.poseFromRelative (fun _ _ => rfl) _ _ (placed_length h)
  | deform rate dt =>
    cases rate with
    | none => exact h
    | some r =>
      have := zipWith_pose (f := fun l o =>
        { o with axes := (1 + r * dt) • o.axes, pose := m.pose.poseFromRelative l })
        m.pose.poseFromRelative (fun _ _ => rfl)
        (m.localPoses.map (fun l => { l with position := (1 + r * dt) • l.position })) m.parts
        (by rw [placed_length h, List.length_map])
      rw [List.length_map] at this
      exact this

/-- C63: after every history of calls (failing ones included) each component stands at its local pose
carried by the pose of the obstacle. -/
theorem C63_placed (intersect : Part d → Part d → Option (Vec d)) (pose : Pose d)
    (cs : List (CompositeCall d)) :
    Placed (cs.foldl (compositeStep intersect) (MultiObstacle.create pose)) := by
  have : ∀ (cs : List (CompositeCall d)) (m : MultiObstacle d), Placed m →
      Placed (cs.foldl (compositeStep intersect) m) := by
    intro cs
    induction cs with
    | nil => intro m h; exact h
    | cons c cs ih => intro m h; exact ih _ (step_placed intersect h c)
  exact this cs _ rfl

/-- C63: `update_pose` moves the composite obstacle rigidly: after every history, the distance between
any two points attached to any two components stays the same. -/
theorem C63_rigid (intersect : Part d → Part d → Option (Vec d)) (pose p : Pose d)
    (cs : List (CompositeCall d)) (i j : ℕ) (a b a' b' : Part d)
    (ha : (cs.foldl (compositeStep intersect) (MultiObstacle.create pose)).parts[i]? = some a)
    (hb : (cs.foldl (compositeStep intersect) (MultiObstacle.create pose)).parts[j]? = some b)
    (ha' : ((cs.foldl (compositeStep intersect) (MultiObstacle.create pose)).updatePose p).parts[i]?
      = some a')
    (hb' : ((cs.foldl (compositeStep intersect) (MultiObstacle.create pose)).updatePose p).parts[j]?
      = some b') (x y : Vec d) :
    dist (a'.pose.fromRelative x) (b'.pose.fromRelative y)
      = dist (a.pose.fromRelative x) (b.pose.fromRelative y) := by
  have h := C63_placed intersect pose cs
  set m := cs.foldl (compositeStep intersect) (MultiObstacle.create pose)
  have h' : Placed (m.updatePose p) := step_placed intersect h (.move p)
  have key : ∀ (m : MultiObstacle d), Placed m → ∀ (k : ℕ) (c : Part d), m.parts[k]? = some c →
      ∃ l, m.localPoses[k]? = some l ∧ c.pose = m.pose.poseFromRelative l := by
    intro m h k c hc
    have : (m.parts.map Part.pose)[k]? = some c.pose := by rw [List.getElem?_map, hc]; rfl
    rw [h, List.getElem?_map, Option.map_eq_some_iff] at this
    obtain ⟨l, hl, e⟩ := this
    exact ⟨l, hl, e.symm⟩
  obtain ⟨l1, hl1, e1⟩ := key _ h i a ha
  obtain ⟨l2, hl2, e2⟩ := key _ h j b hb
  obtain ⟨l1', hl1', e1'⟩ := key _ h' i a' ha'
  obtain ⟨l2', hl2', e2'⟩ := key _ h' j b' hb'
  have hlp : (m.updatePose p).localPoses = m.localPoses := rfl
  rw [hlp, hl1] at hl1'
  rw [hlp, hl2] at hl2'
  cases hl1'; cases hl2'
  rw [e1, e2, e1', e2']
  simp only [poseFromRelative_point, fromRelative_dist]

/-- C63: moving an obstacle away and back restores it. -/
theorem C63_return (intersect : Part d → Part d → Option (Vec d)) (pose p : Pose d)
    (cs : List (CompositeCall d)) :
    let m := cs.foldl (compositeStep intersect) (MultiObstacle.create pose)
    (m.updatePose p).updatePose m.pose = m := by
  intro m
  have h : Placed m := C63_placed intersect pose cs
  have hl := placed_length h
  have : List.zipWith (fun l o => { o with pose := m.pose.poseFromRelative l }) m.localPoses
      (List.zipWith (fun l o => { o with pose := p.poseFromRelative l }) m.localPoses m.parts)
      = m.parts := by
    have hp : m.parts.map Part.pose = m.localPoses.map m.pose.poseFromRelative := h
    generalize m.parts = os at *
    generalize m.localPoses = ls at *
    generalize m.pose = q at *
    clear m h
    induction ls generalizing os with
    | nil =>
      have : os = [] := List.eq_nil_of_length_eq_zero (by simpa using hl)
      rw [this]; rfl
    | cons l ls ih =>
      cases os with
      | nil => simp at hl
      | cons o os =>
        simp only [List.map_cons, List.cons.injEq] at hp
        simp only [List.zipWith_cons_cons]
        rw [ih os (by simpa using hl) hp.2, ← hp.1]
  unfold updatePose
  simp only
  rw [List.drop_eq_nil_of_le (by omega), List.append_nil, List.drop_eq_nil_of_le (by
    rw [List.length_zipWith]; omega), List.append_nil, this]

/-- C63: a deformation scales all distances between centres of components by the same factor
`1 + rate * dt`. -/
theorem C63_deformation (intersect : Part d → Part d → Option (Vec d)) (pose : Pose d)
    (cs : List (CompositeCall d)) (rate dt : ℝ) (i j : ℕ) (a b a' b' : Part d)
    (ha : (cs.foldl (compositeStep intersect) (MultiObstacle.create pose)).parts[i]? = some a)
    (hb : (cs.foldl (compositeStep intersect) (MultiObstacle.create pose)).parts[j]? = some b)
    (ha' : ((cs.foldl (compositeStep intersect) (MultiObstacle.create pose)).updateDeformation
      (some rate) dt).parts[i]? = some a')
    (hb' : ((cs.foldl (compositeStep intersect) (MultiObstacle.create pose)).updateDeformation
      (some rate) dt).parts[j]? = some b') :
    dist a'.pose.position b'.pose.position = |1 + rate * dt| * dist a.pose.position b.pose.position := by
  have h := C63_placed intersect pose cs
  set m := cs.foldl (compositeStep intersect) (MultiObstacle.create pose)
  have h' : Placed (m.updateDeformation (some rate) dt) :=
    step_placed intersect h (.deform (some rate) dt)
  have key : ∀ (m : MultiObstacle d), Placed m → ∀ (k : ℕ) (c : Part d), m.parts[k]? = some c →
      ∃ l, m.localPoses[k]? = some l ∧ c.pose = m.pose.poseFromRelative l := by
    intro m h k c hc
    have : (m.parts.map Part.pose)[k]? = some c.pose := by rw [List.getElem?_map, hc]; rfl
    rw [h, List.getElem?_map, Option.map_eq_some_iff] at this
    obtain ⟨l, hl, e⟩ := this
    exact ⟨l, hl, e.symm⟩
  obtain ⟨l1, hl1, e1⟩ := key _ h i a ha
  obtain ⟨l2, hl2, e2⟩ := key _ h j b hb
  obtain ⟨l1', hl1', e1'⟩ := key _ h' i a' ha'
  obtain ⟨l2', hl2', e2'⟩ := key _ h' j b' hb'
  have hlp : (m.updateDeformation (some rate) dt).localPoses =
      m.localPoses.map (fun l => { l with position := (1 + rate * dt) • l.position }) := rfl
  rw [hlp, List.getElem?_map, hl1] at hl1'
  rw [hlp, List.getElem?_map, hl2] at hl2'
  cases hl1'; cases hl2'
  rw [e1, e2, e1', e2']
  change dist (m.pose.fromRelative _) (m.pose.fromRelative _)
    = _ * dist (m.pose.fromRelative _) (m.pose.fromRelative _)
  rw [fromRelative_dist, fromRelative_dist, dist_smul₀, Real.norm_eq_abs]

/-- C63 is not vacuous: two components. -/
example (o : Part 2) (p : Pose 2) :
    ∃ a b, ([CompositeCall.setRoot o, .add o 0 (some 0)].foldl (compositeStep (fun _ _ => none))
      (MultiObstacle.create p)).parts = [a, b] := ⟨_, _, rfl⟩

/-! ## C64 -/

/-- C64 (partial): a component added without a reference point to an obstacle whose own pose is
trivial gets a reference point lying both in the component (where it is placed) and in its parent,
provided the external `get_intersection_of_obstacles` returns common points.

Missing for the full property: obstacles with another pose; the property is false for them
(`C64_mixed_frames`). -/
theorem C64_reference_partial (region : Part d → Set (Vec d))
    (hregion : ∀ (o : Part d) (r : Vec d), region { o with reference := r } = region o)
    (intersect : Part d → Part d → Option (Vec d))
    (hint : ∀ a b g, intersect a b = some g → g ∈ region a ∩ region b)
    (m : MultiObstacle d) (hm : m.pose = Pose.trivial) (o : Part d) (parent id : ℤ)
    (h : (m.addComponent intersect o parent none).2 = .ok id) :
    ∃ c new, pyGetInt m.parts parent = .ok c
      ∧ (m.addComponent intersect o parent none).1.parts = m.parts ++ [new]
      ∧ new.globalReference ∈ region new ∩ region c := by
  have hpose : m.pose.poseFromRelative o.pose = o.pose := by
    rw [hm]
    ext1
    · simp [Pose.trivial, Pose.poseFromRelative, Pose.fromRelative]
    · rfl
  unfold addComponent at *
  rcases hr : chooseReference intersect m o parent none with e | r
  · rw [hr] at h; cases h
  unfold chooseReference at hr
  rcases hc : pyGetInt m.parts parent with e | c
  · simp [hc] at hr
  rcases hg : intersect o c with _ | g
  · simp [hc, hg] at hr
  simp only [hc, hg, Except.ok.injEq] at hr
  subst hr
  refine ⟨c, { o with reference := o.pose.toRelative g }, rfl, ?_, ?_⟩
  · unfold insertComponent
    simp only [hpose]
    split_ifs <;> rfl
  · have hgl : Part.globalReference { o with reference := o.pose.toRelative g } = g := by
      simp [Part.globalReference, Pose.fromRelative, Pose.toRelative]
    rw [hgl, hregion]
    exact hint _ _ _ hg

/-- The unit ball around the position of a component. -/
def ballRegion (o : Part 2) : Set (Vec 2) := Metric.closedBall o.pose.position 1

/-- A correct and complete intersection of two unit balls. -/
noncomputable def ballIntersect (a b : Part 2) : Option (Vec 2) :=
  open Classical in
  if dist a.pose.position b.pose.position ≤ 2 then
    some (midpoint ℝ a.pose.position b.pose.position) else none

lemma ballIntersect_spec (a b : Part 2) :
    (∀ g, ballIntersect a b = some g → g ∈ ballRegion a ∩ ballRegion b)
      ∧ (ballIntersect a b = none → ballRegion a ∩ ballRegion b = ∅) := by
  unfold ballIntersect
  by_cases h : dist a.pose.position b.pose.position ≤ 2
  · rw [if_pos h]
    refine ⟨?_, by intro h; cases h⟩
    rintro g hg
    cases hg
    refine ⟨?_, ?_⟩
    · simp only [ballRegion, Metric.mem_closedBall, dist_midpoint_left]
      norm_num; linarith
    · simp only [ballRegion, Metric.mem_closedBall, dist_midpoint_right]
      norm_num; linarith
  · rw [if_neg h]
    refine ⟨by (intro g hg; cases hg), fun _ => ?_⟩
    rw [Set.eq_empty_iff_forall_notMem]
    rintro x ⟨h1, h2⟩
    simp only [ballRegion, Metric.mem_closedBall] at h1 h2
    have := dist_triangle_left a.pose.position b.pose.position x
    linarith

/-- C64, negative result: the intersection is computed between the new component in the local frame
and its parent in the global one.  Two balls, of which one would be placed exactly on top of the
other, are rejected with `ValueError` ("No intersection found.") because the obstacle stands away from
the origin. -/
theorem C64_mixed_frames : ∃ (pose : Pose 2) (root o : Part 2),
    let m := ((MultiObstacle.create pose).setRoot root).1
    (∀ g ∈ m.parts, ballRegion { o with pose := m.pose.poseFromRelative o.pose } ∩ ballRegion g ≠ ∅)
      ∧ (m.addComponent ballIntersect o 0 none).2 = .error .valueError := by
  let o : Part 2 := ⟨Pose.trivial, 0, 0⟩
  let pose : Pose 2 := ⟨!₂[10, 0], .refl ℝ _⟩
  have hpos : (pose.poseFromRelative o.pose).position = !₂[10, 0] := by
    simp [pose, o, Pose.poseFromRelative, Pose.fromRelative, Pose.trivial]
  refine ⟨pose, o, o, ?_, ?_⟩
  · intro g hg
    have : g = { o with pose := pose.poseFromRelative o.pose } := by
      simpa [setRoot, MultiObstacle.create] using hg
    subst this
    rw [← Set.nonempty_iff_ne_empty]
    refine ⟨(pose.poseFromRelative o.pose).position, ?_, ?_⟩ <;>
    · change _ ∈ Metric.closedBall _ _
      exact Metric.mem_closedBall_self (by norm_num)
  · have h : ballIntersect o { o with pose := pose.poseFromRelative o.pose } = none := by
      unfold ballIntersect
      rw [if_neg]
      simp only [hpos]
      have : o.pose.position = 0 := rfl
      rw [this, dist_zero_left]
      have : ‖(!₂[10, 0] : Vec 2)‖ = 10 := by
        simp [EuclideanSpace.norm_eq, Fin.sum_univ_two]
      rw [this]; norm_num
    have hr : chooseReference ballIntersect ((MultiObstacle.create pose).setRoot o).1 o 0 none
        = .error .valueError := by
      unfold chooseReference
      have hget : pyGetInt ((MultiObstacle.create pose).setRoot o).1.parts 0
        = .ok { o with pose := pose.poseFromRelative o.pose } := rfl
      simp only [hget, h]
    simp only [addComponent, hr]

/-- C64 is not vacuous: balls at the origin. -/
example : ∃ (o : Part 2) (id : ℤ), ((((MultiObstacle.create Pose.trivial).setRoot o).1).addComponent
    ballIntersect o 0 none).2 = .ok id := by
  let o : Part 2 := ⟨Pose.trivial, 0, 0⟩
  have ho : { o with pose := (Pose.trivial : Pose 2).poseFromRelative o.pose } = o := by
    ext1
    · ext1
      · simp [o, Pose.poseFromRelative, Pose.fromRelative, Pose.trivial]
      · rfl
    · rfl
    · rfl
  have h : ballIntersect o { o with pose := (Pose.trivial : Pose 2).poseFromRelative o.pose } =
      some (midpoint ℝ o.pose.position o.pose.position) := by
    rw [ho]
    unfold ballIntersect
    rw [if_pos (by rw [dist_self]; norm_num)]
  have hr : chooseReference ballIntersect ((MultiObstacle.create Pose.trivial).setRoot o).1 o 0 none
      = .ok (o.pose.toRelative (midpoint ℝ o.pose.position o.pose.position)) := by
    unfold chooseReference
    have hget : pyGetInt ((MultiObstacle.create Pose.trivial).setRoot o).1.parts 0
      = .ok { o with pose := (Pose.trivial : Pose 2).poseFromRelative o.pose } := rfl
    simp only [hget, h]
  refine ⟨o, 1, ?_⟩
  simp only [addComponent, hr]
  rfl

end Verif
