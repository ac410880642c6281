import Verif.Spec.EllipseGeometry
import Verif.Lemmas.Monad
import Verif.Props.Flows
import Mathlib.Analysis.Convex.Combination

/-!
# C101, C102: shapes of obstacles and their intersections; rays and tangents of ellipses
-/

namespace Verif.EllipseGeometry

open Verif.Spec
open scoped RealInnerProductSpace

variable {d : ℕ}

/-! ## Shapes -/

lemma mem_ellipse {half : Vec 2} {pose : Pose 2} (h0 : 0 < half 0) (h1 : 0 < half 1) (p : Vec 2) :
    p ∈ translate (ellipseAtOrigin half pose) pose.position ↔ p ∈ ellipseRegion half pose := by
  have hn : ∀ u : Vec 2, ‖u‖ ≤ 1 ↔ u 0 ^ 2 + u 1 ^ 2 ≤ 1 := by
    intro u
    rw [EuclideanSpace.norm_eq, Real.sqrt_le_one, Fin.sum_univ_two, Real.norm_eq_abs, Real.norm_eq_abs, sq_abs,
      sq_abs]
  constructor
  · rintro ⟨u, hu, e⟩
    have e' : pose.toRelative p = mulBy half u := by
      unfold Pose.toRelative
      rw [e, LinearIsometryEquiv.symm_apply_apply]
    change (pose.toRelative p 0 / half 0) ^ 2 + (pose.toRelative p 1 / half 1) ^ 2 ≤ 1
    rw [e']
    have a0 : mulBy half u 0 / half 0 = u 0 := by
      change half 0 * u 0 / half 0 = u 0
      field_simp
    have a1 : mulBy half u 1 / half 1 = u 1 := by
      change half 1 * u 1 / half 1 = u 1
      field_simp
    rw [a0, a1]
    exact (hn u).mp hu
  · intro h
    refine ⟨!₂[pose.toRelative p 0 / half 0, pose.toRelative p 1 / half 1], (hn _).mpr h, ?_⟩
    have e : mulBy half !₂[pose.toRelative p 0 / half 0, pose.toRelative p 1 / half 1] = pose.toRelative p := by
      ext i
      fin_cases i
      · change half 0 * (pose.toRelative p 0 / half 0) = _
        field_simp
        rfl
      · change half 1 * (pose.toRelative p 1 / half 1) = _
        field_simp
        rfl
    rw [e]
    unfold Pose.toRelative
    rw [LinearIsometryEquiv.apply_symm_apply]

lemma create_eq {o : Body} (h : o.kind ≠ .other) :
    createShapelyEllipse o = .ok (translate (ellipseAtOrigin (halfAxes o) o.pose) o.pose.position) := by
  unfold createShapelyEllipse halfAxes
  cases hk : o.kind with
  | ellipse =>
    simp only
    congr 3
    ext i
    fin_cases i <;> simp [constVec]
  | ellipseWithAxes =>
    simp only
    congr 3
    ext i
    fin_cases i <;> simp [constVec] <;> ring
  | other => exact absurd hk h

/-- C101: the shape that is made for an `Ellipse` or an `EllipseWithAxes` is the ellipse at the pose of the obstacle
with its half axes enlarged by the margin. -/
theorem C101_shape (o : Body) (h : o.kind ≠ .other) (h0 : 0 < halfAxes o 0) (h1 : 0 < halfAxes o 1) :
    createShapelyEllipse o = .ok (ellipseRegion (halfAxes o) o.pose) := by
  rw [create_eq h]
  congr 1
  ext p
  exact mem_ellipse h0 h1 p

lemma ellipse_convex (half : Vec 2) (pose : Pose 2) : Convex ℝ (translate (ellipseAtOrigin half pose) pose.position) := by
  rintro p ⟨u, hu, e⟩ q ⟨v, hv, e'⟩ a b ha hb hab
  refine ⟨a • u + b • v, ?_, ?_⟩
  · calc ‖a • u + b • v‖ ≤ ‖a • u‖ + ‖b • v‖ := norm_add_le _ _
      _ = a * ‖u‖ + b * ‖v‖ := by
        rw [norm_smul, norm_smul, Real.norm_of_nonneg ha, Real.norm_of_nonneg hb]
      _ ≤ a * 1 + b * 1 := by gcongr
      _ = 1 := by linarith
  · have h1 : mulBy half (a • u + b • v) = a • mulBy half u + b • mulBy half v := by
      ext i
      simp [mulBy]
      ring
    rw [h1, map_add, map_smul, map_smul, ← e, ← e', smul_sub, smul_sub]
    have : pose.position = a • pose.position + b • pose.position := by rw [← add_smul, hab, one_smul]
    nth_rewrite 1 [this]
    abel

lemma mean_mem {s : Set (Vec d)} (hs : Convex ℝ s) {ps : List (Vec d)} (hne : ps ≠ []) (h : ∀ p ∈ ps, p ∈ s) :
    mean ps ∈ s := by
  have hlen : (0 : ℝ) < ps.length := by
    exact_mod_cast List.length_pos_iff.mpr hne
  have : mean ps = ∑ i : Fin ps.length, (1 / (ps.length : ℝ)) • ps[i] := by
    unfold mean
    rw [← Finset.smul_sum]
    congr 1
    exact (Fin.sum_univ_getElem ps).symm
  rw [this]
  apply hs.sum_mem
  · intro i _; positivity
  · rw [Finset.sum_const, Finset.card_univ, Fintype.card_fin, nsmul_eq_mul]
    field_simp
  · intro i _
    exact h _ (List.getElem_mem i.2)

lemma toRelative_refl (c x : Vec d) : (⟨c, .refl ℝ _⟩ : Pose d).toRelative x = x - c := rfl

/-- Case: an ellipse with half axes 2 and 1 and a margin of 1 at the point (3, 0): (5, 0.5) is inside, (3, 2.5) is
not. -/
example : ∃ S, createShapelyEllipse ⟨.ellipse, ⟨!₂[3, 0], .refl ℝ _⟩, !₂[2, 1], 1, ∅⟩ = .ok S
    ∧ !₂[5, 0.5] ∈ S ∧ !₂[3, 2.5] ∉ S := by
  refine ⟨_, C101_shape _ (by simp) (by simp [halfAxes]; norm_num) (by simp [halfAxes]), ?_, ?_⟩
  · simp [ellipseRegion, halfAxes, toRelative_refl]
    norm_num
  · simp [ellipseRegion, halfAxes, toRelative_refl]
    norm_num

/-- Some corners of an intersection: one common point if there is one. -/
noncomputable def someCorner (s1 s2 : Set (Vec 2)) : Except PyErr (List (Vec 2)) :=
  open Classical in
  if h : (s1 ∩ s2).Nonempty then .ok [h.choose] else .ok []

lemma someCorner_spec : CornersInBoth someCorner := by
  classical
  intro s1 s2 ps h p hp
  unfold someCorner at h
  by_cases hne : (s1 ∩ s2).Nonempty
  · rw [dif_pos hne] at h
    injection h with h
    rw [← h] at hp
    rw [List.mem_singleton.mp hp]
    exact hne.choose_spec
  · rw [dif_neg hne] at h
    injection h with h
    rw [← h] at hp
    exact absurd hp List.not_mem_nil

/-- A disc. -/
noncomputable def discBody (x r : ℝ) : Body := ⟨.ellipse, ⟨!₂[x, 0], .refl ℝ _⟩, !₂[r, r], 0, ∅⟩

lemma discBody_half (x r : ℝ) (i : Fin 2) : halfAxes (discBody x r) i = r := by
  fin_cases i <;> simp [halfAxes, discBody]

lemma mem_disc (x r : ℝ) (p : Vec 2) : p ∈ ellipseRegion (halfAxes (discBody x r)) (discBody x r).pose
    ↔ ((p 0 - x) / r) ^ 2 + (p 1 / r) ^ 2 ≤ 1 := by
  unfold ellipseRegion
  rw [Set.mem_setOf_eq, discBody_half, discBody_half]
  unfold discBody
  rw [toRelative_refl]
  simp

/-- C101 (partial): the intersection point of two obstacles is in both of them: for two ellipses, and for two other
obstacles with convex shapes.  It is missing (`None`) exactly if the polygons have no common corner.

Missing: pairs of an ellipse and another obstacle (`C101_mixed`, `C101_mixed_other`). -/
theorem C101_intersection_partial (corners : Set (Vec 2) → Set (Vec 2) → Except PyErr (List (Vec 2)))
    (hc : CornersInBoth corners) (o1 o2 : Body)
    (hk : (o1.kind ≠ .other ∧ o2.kind ≠ .other ∧ (∀ i, 0 < halfAxes o1 i) ∧ ∀ i, 0 < halfAxes o2 i)
      ∨ (o1.kind = .other ∧ o2.kind = .other ∧ Convex ℝ o1.shape ∧ Convex ℝ o2.shape)) :
    ∃ s1 s2, (o1.kind ≠ .other → s1 = ellipseRegion (halfAxes o1) o1.pose)
      ∧ (o1.kind = .other → s1 = o1.shape)
      ∧ (o2.kind ≠ .other → s2 = ellipseRegion (halfAxes o2) o2.pose)
      ∧ (o2.kind = .other → s2 = o2.shape)
      ∧ (∀ q, getIntersectionOfObstacles corners o1 o2 = .ok (some q) → q ∈ s1 ∧ q ∈ s2)
      ∧ (getIntersectionOfObstacles corners o1 o2 = .ok none ↔ corners s1 s2 = .ok [])
      ∧ ∀ e, corners s1 s2 = .error e → getIntersectionOfObstacles corners o1 o2 = .error e := by
  obtain ⟨s1, s2, hs1, hs2, hv1, hv2, p1, p2, p3, p4⟩ : ∃ s1 s2, shapeFor o1.kind o1 = .ok s1
      ∧ shapeFor o1.kind o2 = .ok s2 ∧ Convex ℝ s1 ∧ Convex ℝ s2
      ∧ (o1.kind ≠ .other → s1 = ellipseRegion (halfAxes o1) o1.pose)
      ∧ (o1.kind = .other → s1 = o1.shape)
      ∧ (o2.kind ≠ .other → s2 = ellipseRegion (halfAxes o2) o2.pose)
      ∧ (o2.kind = .other → s2 = o2.shape) := by
    rcases hk with ⟨h1, h2, h3, h4⟩ | ⟨h1, h2, h3, h4⟩
    · refine ⟨translate (ellipseAtOrigin (halfAxes o1) o1.pose) o1.pose.position,
        translate (ellipseAtOrigin (halfAxes o2) o2.pose) o2.pose.position, ?_, ?_, ellipse_convex _ _,
        ellipse_convex _ _, ?_, fun h => absurd h h1, ?_, fun h => absurd h h2⟩
      · unfold shapeFor; rw [if_pos h1, create_eq h1]
      · unfold shapeFor; rw [if_pos h1, create_eq h2]
      · intro _; ext p; exact mem_ellipse (h3 0) (h3 1) p
      · intro _; ext p; exact mem_ellipse (h4 0) (h4 1) p
    · refine ⟨o1.shape, o2.shape, ?_, ?_, h3, h4, fun h => absurd h1 h, fun _ => rfl, fun h => absurd h2 h,
        fun _ => rfl⟩
      · unfold shapeFor; rw [if_neg (by simpa using h1)]
      · unfold shapeFor; rw [if_neg (by simpa using h1)]
  have e : getIntersectionOfObstacles corners o1 o2 = (corners s1 s2 >>= fun points => match points with
      | [] => .ok none
      | p :: ps => .ok (some (mean (p :: ps)))) := by
    unfold getIntersectionOfObstacles
    rw [hs1, hs2]
    rfl
  refine ⟨s1, s2, p1, p2, p3, p4, ?_, ?_, ?_⟩
  · intro q hq
    rw [e] at hq
    obtain ⟨points, h1, h2⟩ := bind_ok.mp hq
    cases points with
    | nil => simp at h2
    | cons p ps =>
      have : mean (p :: ps) = q := by simpa using h2
      rw [← this]
      exact ⟨mean_mem hv1 (by simp) (fun x hx => (hc _ _ _ h1 x hx).1),
        mean_mem hv2 (by simp) (fun x hx => (hc _ _ _ h1 x hx).2)⟩
  · rw [e]
    cases hp : corners s1 s2 with
    | error e => simp [bind, Except.bind]
    | ok points =>
      cases points with
      | nil => simp [bind, Except.bind]
      | cons p ps => simp [bind, Except.bind]
  · intro err hp
    rw [e, hp]
    rfl

/-- Case: discs of radius 2 at 0 and at 3 have an intersection point, it is in both; discs of radius 1 have none. -/
example : (∃ q, getIntersectionOfObstacles someCorner (discBody 0 2) (discBody 3 2) = .ok (some q)
      ∧ q ∈ ellipseRegion (halfAxes (discBody 0 2)) (discBody 0 2).pose
      ∧ q ∈ ellipseRegion (halfAxes (discBody 3 2)) (discBody 3 2).pose)
    ∧ getIntersectionOfObstacles someCorner (discBody 0 1) (discBody 3 1) = .ok none := by
  have hk : ∀ x r : ℝ, (discBody x r).kind ≠ .other := fun x r => by simp [discBody]
  constructor
  · obtain ⟨s1, s2, h1, -, h2, -, h3, h4, h5⟩ := C101_intersection_partial someCorner someCorner_spec
      (discBody 0 2) (discBody 3 2)
      (Or.inl ⟨hk _ _, hk _ _, fun i => by rw [discBody_half]; norm_num, fun i => by rw [discBody_half]; norm_num⟩)
    have e1 := h1 (hk _ _)
    have e2 := h2 (hk _ _)
    have hne : (s1 ∩ s2).Nonempty := by
      refine ⟨!₂[1.5, 0], ?_, ?_⟩
      · rw [e1, mem_disc]
        norm_num
      · rw [e2, mem_disc]
        norm_num
    have hok : ∃ p, someCorner s1 s2 = .ok [p] := ⟨_, by unfold someCorner; rw [dif_pos hne]⟩
    obtain ⟨p, hp⟩ := hok
    cases hr : getIntersectionOfObstacles someCorner (discBody 0 2) (discBody 3 2) with
    | error e =>
      exfalso
      unfold getIntersectionOfObstacles shapeFor at hr
      rw [if_pos (hk _ _), if_pos (hk _ _), create_eq (hk _ _), create_eq (hk _ _)] at hr
      obtain ⟨ps, hps⟩ : ∃ ps, someCorner
          (translate (ellipseAtOrigin (halfAxes (discBody 0 2)) (discBody 0 2).pose) (discBody 0 2).pose.position)
          (translate (ellipseAtOrigin (halfAxes (discBody 3 2)) (discBody 3 2).pose) (discBody 3 2).pose.position)
          = .ok ps := by
        unfold someCorner
        split_ifs
        · exact ⟨_, rfl⟩
        · exact ⟨_, rfl⟩
      simp only [bind, Except.bind] at hr
      rw [hps] at hr
      cases ps <;> simp at hr
    | ok o =>
      cases o with
      | none =>
        have := h4.mp hr
        rw [hp] at this
        simp at this
      | some q =>
        have := h3 q hr
        rw [e1, e2] at this
        exact ⟨q, rfl, this⟩
  · obtain ⟨s1, s2, h1, -, h2, -, h3, h4, h5⟩ := C101_intersection_partial someCorner someCorner_spec
      (discBody 0 1) (discBody 3 1)
      (Or.inl ⟨hk _ _, hk _ _, fun i => by rw [discBody_half]; norm_num, fun i => by rw [discBody_half]; norm_num⟩)
    have e1 := h1 (hk _ _)
    have e2 := h2 (hk _ _)
    rw [h4]
    unfold someCorner
    rw [dif_neg]
    rintro ⟨p, hp1, hp2⟩
    rw [e1, mem_disc] at hp1
    rw [e2, mem_disc] at hp2
    nlinarith [sq_nonneg (p 1)]

/-- C101, violated by the code: the intersection of an ellipse with an obstacle of another class raises
`NotImplementedError`. -/
theorem C101_mixed (corners : Set (Vec 2) → Set (Vec 2) → Except PyErr (List (Vec 2))) (o1 o2 : Body)
    (h1 : o1.kind ≠ .other) (h2 : o2.kind = .other) :
    getIntersectionOfObstacles corners o1 o2 = .error .notImplemented := by
  unfold getIntersectionOfObstacles
  have e1 : shapeFor o1.kind o1 = .ok (translate (ellipseAtOrigin (halfAxes o1) o1.pose) o1.pose.position) := by
    unfold shapeFor; rw [if_pos h1, create_eq h1]
  have e2 : shapeFor o1.kind o2 = .error .notImplemented := by
    unfold shapeFor createShapelyEllipse
    rw [if_pos h1, h2]
  rw [e1, e2]
  rfl

/-- Case: a disc and a polygon. -/
example : getIntersectionOfObstacles someCorner (discBody 0 2) { discBody 0 1 with kind := .other, shape := Set.univ }
    = .error .notImplemented := C101_mixed _ _ _ (by simp [discBody]) rfl

/-- C101, violated by the code: in the other order the result does not depend on axes, pose and margin of the
ellipse, only on its stored polygon. -/
theorem C101_mixed_other (corners : Set (Vec 2) → Set (Vec 2) → Except PyErr (List (Vec 2))) (o1 o2 : Body)
    (h1 : o1.kind = .other) (pose : Pose 2) (axes : Vec 2) (margin : ℝ) :
    getIntersectionOfObstacles corners o1 { o2 with pose := pose, axes := axes, margin := margin }
      = getIntersectionOfObstacles corners o1 o2 := by
  unfold getIntersectionOfObstacles
  have e2 : ∀ o : Body, shapeFor o1.kind o = .ok o.shape := by
    intro o
    unfold shapeFor
    rw [if_neg (by simpa using h1)]
  rw [e2, e2, e2]

/-- Case: a polygon and a disc: the radius of the disc has no effect. -/
example (s : Set (Vec 2)) : getIntersectionOfObstacles someCorner ⟨.other, ⟨0, .refl ℝ _⟩, 0, 0, s⟩ (discBody 0 1)
    = getIntersectionOfObstacles someCorner ⟨.other, ⟨0, .refl ℝ _⟩, 0, 0, s⟩ (discBody 7 3) :=
  C101_mixed_other someCorner ⟨.other, ⟨0, .refl ℝ _⟩, 0, 0, s⟩ (discBody 7 3) rfl (discBody 0 1).pose !₂[1, 1] 0

/-- C101, violated by `MultiBoundaryContainer`: the intersection point of two ellipses does not depend on where they
are. -/
theorem C101_container_position (corners : Set (Vec 2) → Set (Vec 2) → Except PyErr (List (Vec 2))) (o1 o2 : Body)
    (h1 : o1.kind = .ellipse) (h2 : o2.kind = .ellipse) (a b : Vec 2) :
    containerIntersection corners { o1 with pose := ⟨a, o1.pose.orientation⟩ }
        { o2 with pose := ⟨b, o2.pose.orientation⟩ }
      = containerIntersection corners o1 o2 := by
  have e : ∀ (o : Body) (c : Vec 2), o.kind = .ellipse →
      containerShape { o with pose := ⟨c, o.pose.orientation⟩ } = containerShape o := by
    intro o c h
    unfold containerShape
    rw [if_pos h, if_pos h]
    rfl
  unfold containerIntersection
  rw [e o1 a h1, e o2 b h2]

/-- C101, `MultiBoundaryContainer`: the result is not a number exactly when the borders have no common point, and the
only other outcomes are the error of the intersection and the average of the common points. -/
theorem C101_container_nan (corners : Set (Vec 2) → Set (Vec 2) → Except PyErr (List (Vec 2))) (o1 o2 : Body) :
    (corners (containerShape o1) (containerShape o2) = .ok [] → containerIntersection corners o1 o2 = .error .nan)
    ∧ (∀ e, corners (containerShape o1) (containerShape o2) = .error e → containerIntersection corners o1 o2 = .error e)
    ∧ ∀ ps, ps ≠ [] → corners (containerShape o1) (containerShape o2) = .ok ps →
      containerIntersection corners o1 o2 = .ok ((1 / (ps.length : ℝ)) • ps.sum) := by
  refine ⟨fun h => ?_, fun e h => ?_, fun ps hne h => ?_⟩
  · unfold containerIntersection; rw [h]; rfl
  · unfold containerIntersection; rw [h]; rfl
  · unfold containerIntersection; rw [h]
    cases ps with
    | nil => exact absurd rfl hne
    | cons p ps => rfl

/-- Case: shapes without common points. -/
example : containerIntersection (fun _ _ => .ok []) (discBody 10 1) (discBody 20 1) = .error .nan :=
  (C101_container_nan _ _ _).1 rfl

/-- C101, violated by `MultiBoundaryContainer`: the intersection point of two ellipses that do not contain the origin
is in none of them. -/
theorem C101_container_outside (corners : Set (Vec 2) → Set (Vec 2) → Except PyErr (List (Vec 2)))
    (hc : CornersInBoth corners) (o1 o2 : Body) (h1 : o1.kind = .ellipse)
    (hp1 : ∀ i, 0 < halfAxes o1 i) (r : ℝ) (hr : ∀ i, halfAxes o1 i ≤ r) (hr2 : ∀ i, halfAxes o2 i ≤ r)
    (hp2 : ∀ i, 0 < halfAxes o2 i)
    (hd1 : 2 * r < ‖o1.pose.position‖) (hd2 : 2 * r < ‖o2.pose.position‖) (q : Vec 2)
    (hq : containerIntersection corners o1 o2 = .ok q) :
    q ∉ ellipseRegion (halfAxes o1) o1.pose ∧ q ∉ ellipseRegion (halfAxes o2) o2.pose := by
  have hr0 : 0 < r := lt_of_lt_of_le (hp1 0) (hr 0)
  have hmul : ∀ (half u : Vec 2), (∀ i, 0 < half i) → (∀ i, half i ≤ r) → ‖u‖ ≤ 1 → ‖mulBy half u‖ ≤ r := by
    intro half u h0 h1 hu
    have hsq : ‖mulBy half u‖ ^ 2 ≤ r ^ 2 * ‖u‖ ^ 2 := by
      rw [EuclideanSpace.norm_sq_eq, EuclideanSpace.norm_sq_eq, Finset.mul_sum]
      apply Finset.sum_le_sum
      intro i _
      change ‖half i * u i‖ ^ 2 ≤ _
      rw [norm_mul, mul_pow]
      gcongr
      rw [Real.norm_of_nonneg (h0 i).le]
      exact h1 i
    have : ‖mulBy half u‖ ^ 2 ≤ r ^ 2 := by
      refine hsq.trans ?_
      have : ‖u‖ ^ 2 ≤ 1 := by nlinarith [norm_nonneg u]
      nlinarith [sq_nonneg r]
    exact (sq_le_sq₀ (norm_nonneg _) hr0.le).mp this
  have hin : ∀ (half : Vec 2) (pose : Pose 2) (x : Vec 2), (∀ i, 0 < half i) → (∀ i, half i ≤ r) →
      x ∈ ellipseAtOrigin half pose → ‖x‖ ≤ r := by
    rintro half pose x h0 h1 ⟨u, hu, rfl⟩
    rw [LinearIsometryEquiv.norm_map]
    exact hmul half u h0 h1 hu
  have hshape : ∀ o : Body, o.kind = .ellipse → containerShape o = ellipseAtOrigin (halfAxes o) o.pose := by
    intro o h
    unfold containerShape containerEllipse halfAxes
    rw [if_pos h, h]
    simp only
    congr 1
    ext i
    fin_cases i <;> simp [constVec]
  have hqn : ‖q‖ ≤ r := by
    unfold containerIntersection at hq
    obtain ⟨points, h3, h4⟩ := bind_ok.mp hq
    cases points with
    | nil => simp at h4
    | cons p ps =>
      have : mean (p :: ps) = q := by simpa using h4
      rw [← this]
      have hb : mean (p :: ps) ∈ Metric.closedBall (0 : Vec 2) r := by
        apply mean_mem (convex_closedBall _ _) (by simp)
        intro x hx
        rw [mem_closedBall_zero_iff]
        have := (hc _ _ _ h3 x hx).1
        rw [hshape o1 h1] at this
        exact hin _ _ x hp1 hr this
      exact mem_closedBall_zero_iff.mp hb
  have hout : ∀ (half : Vec 2) (pose : Pose 2), (∀ i, 0 < half i) → (∀ i, half i ≤ r) → 2 * r < ‖pose.position‖ →
      q ∉ ellipseRegion half pose := by
    intro half pose h0 h3 hd hmem
    have := hin half pose _ h0 h3 ((mem_ellipse (h0 0) (h0 1) q).mpr hmem)
    have h5 : ‖pose.position‖ ≤ ‖q‖ + ‖q - pose.position‖ := by
      have := norm_sub_le q (q - pose.position)
      simpa using this
    linarith
  exact ⟨hout _ _ hp1 hr hd1, hout _ _ hp2 hr2 hd2⟩

/-- Case: unit discs at 10 and at 20 "intersect", and the point is in none of them. -/
example : ∃ q, containerIntersection someCorner (discBody 10 1) (discBody 20 1) = .ok q
    ∧ q ∉ ellipseRegion (halfAxes (discBody 10 1)) (discBody 10 1).pose
    ∧ q ∉ ellipseRegion (halfAxes (discBody 20 1)) (discBody 20 1).pose := by
  have hne : (containerShape (discBody 10 1) ∩ containerShape (discBody 20 1)).Nonempty := by
    refine ⟨0, ?_, ?_⟩
    · exact ⟨0, by simp, by ext i; fin_cases i <;> simp [discBody, mulBy]⟩
    · exact ⟨0, by simp, by ext i; fin_cases i <;> simp [discBody, mulBy]⟩
  have hok : containerIntersection someCorner (discBody 10 1) (discBody 20 1) = .ok (mean [hne.choose]) := by
    unfold containerIntersection someCorner
    rw [dif_pos hne]
    rfl
  have hnorm : ∀ x : ℝ, 2 < x → 2 * (1 : ℝ) < ‖(discBody x 1).pose.position‖ := by
    intro x hx
    change 2 * (1 : ℝ) < ‖(!₂[x, 0] : Vec 2)‖
    rw [EuclideanSpace.norm_eq]
    simp [Fin.sum_univ_two, Real.sqrt_sq_eq_abs]
    exact lt_of_lt_of_le hx (le_abs_self x)
  exact ⟨_, hok, C101_container_outside someCorner someCorner_spec _ _ rfl
    (fun i => by rw [discBody_half]; norm_num) 1 (fun i => (discBody_half _ _ i).le)
    (fun i => (discBody_half _ _ i).le) (fun i => by rw [discBody_half]; norm_num)
    (hnorm 10 (by norm_num)) (hnorm 20 (by norm_num)) _ hok⟩

/-! ## Rays -/

lemma divBy_line {axes p v : Vec d} (t : ℝ) : divBy axes p + t • divBy axes v = divBy axes (p + t • v) := by
  ext i
  simp [divBy]
  ring

lemma mulBy_divBy {axes x : Vec d} (h : ∀ i, axes i ≠ 0) : mulBy axes (divBy axes x) = x := by
  ext i
  change axes i * (x i / axes i) = x i
  have := h i
  field_simp

lemma onEllipsoid_iff {axes x : Vec d} : onEllipsoid axes x ↔ ‖divBy axes x‖ = 0.5 := by
  have hsq : ‖divBy axes x‖ = 0.5 ↔ ‖divBy axes x‖ ^ 2 = 1 / 4 := by
    constructor
    · intro h; rw [h]; norm_num
    · intro h
      have : ‖divBy axes x‖ ^ 2 = (0.5 : ℝ) ^ 2 := by rw [h]; norm_num
      exact (sq_eq_sq₀ (norm_nonneg _) (by norm_num)).mp this
  rw [hsq, EuclideanSpace.norm_sq_eq]
  have : ∑ i, (2 * x i / axes i) ^ 2 = 4 * ∑ i, ‖divBy axes x i‖ ^ 2 := by
    rw [Finset.mul_sum]
    apply Finset.sum_congr rfl
    intro i _
    rw [Real.norm_eq_abs, sq_abs]
    change _ = 4 * (x i / axes i) ^ 2
    ring
  unfold onEllipsoid
  rw [this]
  constructor <;> intro h <;> linarith

/-- C102: the intersection of a line with an ellipse is a point of the line on the surface of the ellipse, in the
frame of the input; `None` is returned exactly if the line misses the surface. -/
theorem C102_ray (circle : Vec d → Vec d → ℝ → Option (Vec d)) (hc : CircleSpec circle) (pose : Pose d)
    (axes : Vec d) (ha : ∀ i, axes i ≠ 0) (position direction : Vec d) (global : Bool) :
    (∀ q, getIntersectionWithEllipse circle pose axes position direction global = some q →
      (∃ t : ℝ, q = position + t • direction) ∧ onEllipsoid axes (if global then pose.toRelative q else q))
    ∧ (getIntersectionWithEllipse circle pose axes position direction global = none ↔
      ∀ t : ℝ, ¬ onEllipsoid axes (if global then pose.toRelative (position + t • direction)
        else position + t • direction)) := by
  have hrel : ∀ t : ℝ, pose.toRelative (position + t • direction)
      = pose.toRelative position + t • pose.orientation.symm direction := by
    intro t
    unfold Pose.toRelative
    rw [← map_smul, ← map_add]
    congr 1
    abel
  have hback : ∀ x, pose.toRelative (pose.fromRelative x) = x := by
    intro x
    unfold Pose.toRelative Pose.fromRelative
    simp
  have hforth : ∀ x, pose.fromRelative (pose.toRelative x) = x := by
    intro x
    unfold Pose.toRelative Pose.fromRelative
    simp
  cases global with
  | false =>
    unfold getIntersectionWithEllipse
    simp only [Bool.false_eq_true, if_false]
    cases hq : circle (divBy axes position) (divBy axes direction) 0.5 with
    | none =>
      simp only
      refine ⟨fun q h => (by cases h), fun _ t h => ?_, fun _ => trivial⟩
      rw [onEllipsoid_iff, ← divBy_line] at h
      exact hc.misses _ _ _ hq t h
    | some s =>
      obtain ⟨h1, t, h2⟩ := hc.on _ _ _ _ hq
      have e : mulBy axes s = position + t • direction := by rw [h2, divBy_line, mulBy_divBy ha]
      have hon : onEllipsoid axes (position + t • direction) := by
        rw [onEllipsoid_iff, ← divBy_line, ← h2]; exact h1
      simp only
      refine ⟨?_, fun h => (by cases h), fun h => absurd hon (h t)⟩
      intro q h
      injection h with h
      rw [← h, e]
      exact ⟨⟨t, rfl⟩, hon⟩
  | true =>
    unfold getIntersectionWithEllipse
    simp only [if_true]
    cases hq : circle (divBy axes (pose.toRelative position)) (divBy axes (pose.orientation.symm direction)) 0.5 with
    | none =>
      simp only
      refine ⟨fun q h => (by cases h), fun _ t h => ?_, fun _ => trivial⟩
      rw [hrel, onEllipsoid_iff, ← divBy_line] at h
      exact hc.misses _ _ _ hq t h
    | some s =>
      obtain ⟨h1, t, h2⟩ := hc.on _ _ _ _ hq
      have e : mulBy axes s = pose.toRelative (position + t • direction) := by
        rw [h2, divBy_line, mulBy_divBy ha, hrel]
      have hon : onEllipsoid axes (pose.toRelative (position + t • direction)) := by
        rw [hrel, onEllipsoid_iff, ← divBy_line, ← h2]; exact h1
      simp only
      refine ⟨?_, fun h => (by cases h), fun h => absurd hon (h t)⟩
      intro q h
      injection h with h
      rw [← h, e, hforth]
      exact ⟨⟨t, rfl⟩, hon⟩

/-- Some intersection of a line with a circle. -/
noncomputable def someCircle (s v : Vec d) (r : ℝ) : Option (Vec d) :=
  open Classical in
  if h : ∃ t : ℝ, ‖s + t • v‖ = r then some (s + h.choose • v) else none

lemma someCircle_spec : CircleSpec (someCircle (d := d)) where
  on := by
    classical
    intro s v r q h
    unfold someCircle at h
    by_cases hne : ∃ t : ℝ, ‖s + t • v‖ = r
    · rw [dif_pos hne] at h
      injection h with h
      rw [← h]
      exact ⟨hne.choose_spec, _, rfl⟩
    · rw [dif_neg hne] at h; cases h
  misses := by
    classical
    intro s v r h t ht
    unfold someCircle at h
    rw [dif_pos ⟨t, ht⟩] at h
    cases h

/-- Case: the x axis meets the ellipse with axes 4 and 2 at the origin at a point with |x| = 2; the parallel through
(0, 3) misses it. -/
example : (∃ q, getIntersectionWithEllipse someCircle ⟨0, .refl ℝ _⟩ (!₂[4, 2] : Vec 2) !₂[5, 0] !₂[1, 0] true = some q
      ∧ |q 0| = 2 ∧ q 1 = 0)
    ∧ getIntersectionWithEllipse someCircle ⟨0, .refl ℝ _⟩ (!₂[4, 2] : Vec 2) !₂[0, 3] !₂[1, 0] true = none := by
  have ha : ∀ i, (!₂[4, 2] : Vec 2) i ≠ 0 := by intro i; fin_cases i <;> simp
  constructor
  · have h := C102_ray someCircle someCircle_spec ⟨0, .refl ℝ _⟩ (!₂[4, 2] : Vec 2) ha !₂[5, 0] !₂[1, 0] true
    cases hq : getIntersectionWithEllipse someCircle ⟨0, .refl ℝ _⟩ (!₂[4, 2] : Vec 2) !₂[5, 0] !₂[1, 0] true with
    | none =>
      exfalso
      have := h.2.mp hq (-3)
      apply this
      simp [onEllipsoid, toRelative_refl, Fin.sum_univ_two]
      norm_num
    | some q =>
      obtain ⟨⟨t, ht⟩, h2⟩ := h.1 q hq
      refine ⟨q, rfl, ?_, ?_⟩
      · rw [ht] at h2 ⊢
        simp [onEllipsoid, toRelative_refl, Fin.sum_univ_two] at h2 ⊢
        have : (5 + t) ^ 2 = 2 ^ 2 := by
          rcases h2 with h2 | h2
          · have h3 : 5 + t = 2 := by linarith
            rw [h3]
          · have h3 : 5 + t = -2 := by linarith
            rw [h3]; norm_num
        have := (sq_eq_sq_iff_abs_eq_abs _ _).mp this
        rw [this]; norm_num
      · rw [ht]; simp
  · rw [(C102_ray someCircle someCircle_spec ⟨0, .refl ℝ _⟩ (!₂[4, 2] : Vec 2) ha !₂[0, 3] !₂[1, 0] true).2]
    intro t
    simp [onEllipsoid, toRelative_refl, Fin.sum_univ_two]
    nlinarith [sq_nonneg t]

/-! ## Tangents -/

/-- C102: the tangent component: if the reference direction is not tangent itself, the result is a unit vector
orthogonal to the normal and differs from a positive multiple of the vector by a multiple of the reference
direction; an exception is raised exactly if vector and reference direction are parallel. -/
theorem C102_tangent {k : ℕ} (ext : LinAlg k) (he : LinAlgSpec ext) (v n r : Vec (k + 1)) (hn : n ≠ 0)
    (hr : ⟪r, n⟫ ≠ 0) :
    (∀ t, getNormalizedTangentComponent ext v n r = .ok t →
      ‖t‖ = 1 ∧ ⟪t, n⟫ = 0 ∧ ∃ s a : ℝ, 0 < s ∧ t = s • v + a • r)
    ∧ ((∃ t, getNormalizedTangentComponent ext v n r = .ok t) ∨
      getNormalizedTangentComponent ext v n r = .error .exception)
    ∧ (getNormalizedTangentComponent ext v n r = .error .exception ↔ ∃ a : ℝ, v = a • r) := by
  classical
  set e := ext.basis n with hedef
  have ho := he.orthonormal n hn
  have hnn : ‖n‖ ≠ 0 := norm_ne_zero_iff.mpr hn
  have hen : ∀ i : Fin (k + 1), i ≠ 0 → ⟪e i, n⟫ = 0 := by
    intro i hi
    have h1 : ⟪e i, e 0⟫ = 0 := ho.2 hi
    rw [hedef, he.first n hn, real_inner_smul_right] at h1
    exact (mul_eq_zero.mp h1).resolve_left (inv_ne_zero hnn)
  set b := Function.update e 0 r with hb
  have hb0 : b 0 = r := Function.update_self _ _ _
  have hbi : ∀ i : Fin (k + 1), i ≠ 0 → b i = e i := fun i hi => Function.update_of_ne hi _ _
  -- a combination without the first column is orthogonal to the normal
  have horth : ∀ c : Fin (k + 1) → ℝ, c 0 = 0 → ⟪∑ i, c i • b i, n⟫ = 0 := by
    intro c hc
    rw [sum_inner]
    apply Finset.sum_eq_zero
    intro i _
    by_cases hi : i = 0
    · rw [hi, hc, zero_smul, inner_zero_left]
    · rw [real_inner_smul_left, hbi i hi, hen i hi, mul_zero]
  have hsplit : ∀ c : Fin (k + 1) → ℝ, ∑ i, c i • b i = c 0 • r + ∑ i, Function.update c 0 0 i • b i := by
    intro c
    rw [Fin.sum_univ_succ, Fin.sum_univ_succ (fun i => Function.update c 0 0 i • b i), hb0,
      Function.update_self, zero_smul, zero_add]
    congr 1
  have hli : LinearIndependent ℝ b := by
    rw [Fintype.linearIndependent_iff]
    intro c hc
    have h0 : c 0 = 0 := by
      have h1 := congrArg (fun x => ⟪x, n⟫) hc
      simp only [inner_zero_left] at h1
      rw [hsplit, inner_add_left, horth _ (Function.update_self _ _ _), add_zero, real_inner_smul_left] at h1
      exact (mul_eq_zero.mp h1).resolve_right hr
    have h2 : ∑ i, c i • e i = 0 := by
      rw [← hc]
      apply Finset.sum_congr rfl
      intro i _
      by_cases hi : i = 0
      · rw [hi, h0, zero_smul, zero_smul]
      · rw [hbi i hi]
    exact Fintype.linearIndependent_iff.mp ho.linearIndependent c h2
  have hsol := he.solve b v hli
  set c := ext.solve b v
  set T := ∑ i, Function.update c 0 0 i • b i with hT
  have hTv : T = v - c 0 • r := by
    rw [hT, ← hsol, hsplit c]; abel
  have hTn : ⟪T, n⟫ = 0 := horth _ (Function.update_self _ _ _)
  have hrun : getNormalizedTangentComponent ext v n r
      = if ‖T‖ = 0 then .error .exception else .ok (‖T‖⁻¹ • T) := rfl
  have hT0 : ‖T‖ = 0 ↔ ∃ a : ℝ, v = a • r := by
    rw [norm_eq_zero]
    constructor
    · intro h; exact ⟨c 0, by rw [hTv, sub_eq_zero] at h; exact h⟩
    · rintro ⟨a, ha⟩
      have h1 : T = (a - c 0) • r := by rw [hTv, ha, sub_smul]
      rw [h1, real_inner_smul_left] at hTn
      have := (mul_eq_zero.mp hTn).resolve_right hr
      rw [h1, this, zero_smul]
  rw [hrun]
  by_cases h : ‖T‖ = 0
  · rw [if_pos h]
    exact ⟨fun t ht => (by cases ht), Or.inr rfl, fun _ => hT0.mp h, fun _ => rfl⟩
  · rw [if_neg h]
    refine ⟨?_, Or.inl ⟨_, rfl⟩, fun h' => (by cases h'), fun h' => absurd (hT0.mpr h') h⟩
    intro t ht
    injection ht with ht
    have hpos : 0 < ‖T‖ := lt_of_le_of_ne (norm_nonneg _) (Ne.symm h)
    refine ⟨?_, ?_, ‖T‖⁻¹, -(‖T‖⁻¹ * c 0), inv_pos.mpr hpos, ?_⟩
    · rw [← ht, norm_smul, norm_inv, norm_norm, inv_mul_cancel₀ h]
    · rw [← ht, real_inner_smul_left, hTn, mul_zero]
    · rw [← ht, hTv, smul_sub, neg_smul, smul_smul]
      abel

/-- Linear algebra in the plane. -/
noncomputable def planeAlg : LinAlg 1 where
  basis n := ![‖n‖⁻¹ • n, ‖n‖⁻¹ • !₂[-n 1, n 0]]
  solve b v := open Classical in if h : ∃ c : Fin 2 → ℝ, ∑ i, c i • b i = v then h.choose else 0

lemma planeAlg_spec : LinAlgSpec planeAlg where
  orthonormal := by
    intro n hn
    have hnn : ‖n‖ ≠ 0 := norm_ne_zero_iff.mpr hn
    have hp : ‖(!₂[-n 1, n 0] : Vec 2)‖ = ‖n‖ := by
      rw [EuclideanSpace.norm_eq, EuclideanSpace.norm_eq]
      simp [Fin.sum_univ_two, add_comm]
    have hz : ⟪n, (!₂[-n 1, n 0] : Vec 2)⟫ = 0 := by
      rw [vec2_inner]
      simp
      ring
    refine ⟨?_, ?_⟩
    · intro i
      fin_cases i
      · change ‖‖n‖⁻¹ • n‖ = 1
        rw [norm_smul, norm_inv, norm_norm, inv_mul_cancel₀ hnn]
      · change ‖‖n‖⁻¹ • (!₂[-n 1, n 0] : Vec 2)‖ = 1
        rw [norm_smul, norm_inv, norm_norm, hp, inv_mul_cancel₀ hnn]
    · intro i j hij
      fin_cases i <;> fin_cases j
      · exact absurd rfl hij
      · change ⟪‖n‖⁻¹ • n, ‖n‖⁻¹ • (!₂[-n 1, n 0] : Vec 2)⟫ = 0
        rw [real_inner_smul_left, real_inner_smul_right, hz, mul_zero, mul_zero]
      · change ⟪‖n‖⁻¹ • (!₂[-n 1, n 0] : Vec 2), ‖n‖⁻¹ • n⟫ = 0
        rw [real_inner_smul_left, real_inner_smul_right, real_inner_comm, hz, mul_zero, mul_zero]
      · exact absurd rfl hij
  first := fun n _ => rfl
  solve := by
    classical
    intro b v hb
    have hspan : ⊤ ≤ Submodule.span ℝ (Set.range b) := by
      rw [hb.span_eq_top_of_card_eq_finrank (by simp)]
    have hex : ∃ c : Fin 2 → ℝ, ∑ i, c i • b i = v :=
      (Submodule.mem_span_range_iff_exists_fun ℝ).mp (hspan trivial)
    unfold planeAlg
    simp only
    rw [dif_pos hex]
    exact hex.choose_spec

/-- Case: normal (0, 1), reference direction (1, 1): the vector (0, 1) has the tangent (-1, 0), the vector (2, 2) has
none. -/
example : getNormalizedTangentComponent planeAlg !₂[0, 1] !₂[0, 1] !₂[1, 1] = .ok !₂[-1, 0]
    ∧ getNormalizedTangentComponent planeAlg !₂[2, 2] !₂[0, 1] !₂[1, 1] = .error .exception := by
  have hn : (!₂[0, 1] : Vec 2) ≠ 0 := by
    intro h
    have := congrFun (congrArg (fun x : Vec 2 => x.ofLp) h) 1
    simp at this
  have hr : ⟪(!₂[1, 1] : Vec 2), !₂[0, 1]⟫ ≠ 0 := by rw [vec2_inner]; simp
  constructor
  · obtain ⟨h1, h2, h3⟩ := C102_tangent planeAlg planeAlg_spec !₂[0, 1] !₂[0, 1] !₂[1, 1] hn hr
    rcases h2 with ⟨t, ht⟩ | h2
    · obtain ⟨hu, ho, s, a, hs, e⟩ := h1 t ht
      rw [ht]
      congr 1
      have e0 : t 0 = a := by rw [e]; simp
      have e1 : t 1 = s + a := by rw [e]; simp
      rw [vec2_inner] at ho
      simp at ho
      have hsq : t 0 ^ 2 + t 1 ^ 2 = 1 := by rw [← vec2_norm_sq, hu]; norm_num
      have hneg : t 0 = -1 := by
        rw [ho] at hsq e1
        have h5 : t 0 = -s := by rw [e0]; linarith
        have h6 : (t 0 - 1) * (t 0 + 1) = 0 := by nlinarith
        rcases mul_eq_zero.mp h6 with h | h
        · linarith
        · linarith
      ext i
      fin_cases i
      · exact hneg
      · exact ho
    · exfalso
      obtain ⟨a, ha⟩ := h3.mp h2
      have g0 := congrFun (congrArg (fun x : Vec 2 => x.ofLp) ha) 0
      have g1 := congrFun (congrArg (fun x : Vec 2 => x.ofLp) ha) 1
      simp at g0 g1
      linarith
  · rw [(C102_tangent planeAlg planeAlg_spec !₂[2, 2] !₂[0, 1] !₂[1, 1] hn hr).2.2]
    exact ⟨2, by ext i; fin_cases i <;> simp⟩

end Verif.EllipseGeometry
