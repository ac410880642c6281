import Verif.Model.LocalDynamics
import Verif.Lemmas.FromDirections
import Verif.Props.Rotation

/-!
# C89: `LocallyRotatedFromObtacle`
-/

open scoped RealInnerProductSpace
open Verif.Spec

namespace Verif.LocalDynamics

section Plane
variable {V : Type*} [NormedAddCommGroup V] [InnerProductSpace ℝ V]

/-- Turning the base within its own plane does not change the rotation. -/
lemma planeRot_map_self {B : Base V} (h : B.ON) (θ φ : ℝ) (v : V) :
    planeRot (B.map (planeRot B θ)) φ v = planeRot B φ v := by
  have h1 : (B.map (planeRot B θ)).b0 = Real.cos θ • B.b0 + Real.sin θ • B.b1 := planeRot_b0 h θ
  have h2 : (B.map (planeRot B θ)).b1 = (-Real.sin θ) • B.b0 + Real.cos θ • B.b1 := planeRot_b1 h θ
  have hc : Real.sin θ ^ 2 = 1 - Real.cos θ ^ 2 := by linarith [Real.sin_sq_add_cos_sq θ]
  generalize B.map (planeRot B θ) = C at h1 h2 ⊢
  unfold planeRot
  rw [h1, h2]
  simp only [inner_add_left, inner_smul_left, RCLike.conj_to_real]
  match_scalars
  · ring
  · ring_nf; rw [hc]; ring
  · ring_nf; rw [hc]; ring

lemma bessel_pair {B : Base V} (h : B.ON) (v : V) : ⟪B.b0, v⟫ ^ 2 + ⟪B.b1, v⟫ ^ 2 ≤ ‖v‖ ^ 2 := by
  have h0 : 0 ≤ ‖v - (⟪B.b0, v⟫ • B.b0 + ⟪B.b1, v⟫ • B.b1)‖ ^ 2 := sq_nonneg _
  rw [← real_inner_self_eq_norm_sq] at h0
  simp only [inner_sub_left, inner_sub_right, inner_add_left, inner_add_right, inner_smul_left,
    inner_smul_right, RCLike.conj_to_real, h.i00, h.i11, h.i01, h.i10,
    real_inner_self_eq_norm_sq] at h0
  rw [real_inner_comm B.b0 v, real_inner_comm B.b1 v] at h0
  linarith

/-- A rotation by `θ` in a plane turns no vector by more than `θ`. -/
lemma planeRot_angle_le {B : Base V} (h : B.ON) {θ : ℝ} (h0 : 0 ≤ θ) (hpi : θ ≤ Real.pi) {v : V}
    (hv : v ≠ 0) : InnerProductGeometry.angle v (planeRot B θ v) ≤ θ := by
  have hn : 0 < ‖v‖ := norm_pos_iff.mpr hv
  have hin : Real.cos θ * ‖v‖ ^ 2 ≤ ⟪v, planeRot B θ v⟫ := by
    have hb := bessel_pair h v
    have hc := Real.cos_le_one θ
    unfold planeRot
    simp only [inner_add_right, inner_smul_right, real_inner_self_eq_norm_sq]
    rw [real_inner_comm B.b0 v, real_inner_comm B.b1 v]
    nlinarith
  unfold InnerProductGeometry.angle
  rw [planeRot_norm h]
  conv_rhs => rw [← Real.arccos_cos h0 hpi]
  apply Real.arccos_le_arccos
  rw [le_div_iff₀ (by positivity)]
  nlinarith

end Plane

variable {d : ℕ} [h2 : Fact (2 ≤ d)]

lemma create_ok {center attractor reference : Vec d} {minGamma maxGamma : ℝ} {l : Local d}
    (h : create center attractor reference minGamma maxGamma = .ok l) (hc : center ≠ attractor) :
    reference ≠ 0 ∧ l = ⟨attractor, ‖reference‖, some (unit (attractor - center),
      fromDirections (unit (attractor - center)) (unit reference), minGamma, maxGamma)⟩ := by
  classical
  unfold create at h
  by_cases h0 : ‖reference‖ = 0
  · rw [if_pos h0] at h; cases h
  have h1 : ‖attractor - center‖ ≠ 0 := by
    rw [norm_ne_zero_iff, sub_ne_zero]; exact hc.symm
  rw [if_neg h0, if_neg h1] at h
  simp only [Except.ok.injEq] at h
  exact ⟨norm_ne_zero_iff.mp h0, h.symm⟩

omit h2 in
lemma rotateVectorRotation_self (r : Rot (Vec d)) (h : r.base.ON) (θ : ℝ) :
    ∃ q, (Rot.mk r.base θ).rotateVectorRotation r = some q
      ∧ ∀ v f, q.rotate v f = r.rotate v f := by
  have h0 : r.base.b0 ≠ 0 := by
    intro h0; have := h.norm_fst; rw [h0, norm_zero] at this; norm_num at this
  have h1 : r.base.b1 ≠ 0 := by
    intro h0; have := h.norm_snd; rw [h0, norm_zero] at this; norm_num at this
  refine ⟨⟨r.base.map (planeRot r.base θ), r.angle⟩, ?_, ?_⟩
  · unfold Rot.rotateVectorRotation Rot.rotateBase
    rw [rotateColumn_eq _ h0, rotateColumn_eq _ h1, h.norm_fst, h.norm_snd]
    simp [Base.map]
  · intro v f
    unfold Rot.rotate
    rw [rotateDirection_eq, rotateDirection_eq]
    exact planeRot_map_self h _ _ _

omit h2 in
/-- The value of `evaluate` for a configured object. -/
lemma evaluate_eq {base0 : Vec d} {r : Rot (Vec d)} (hr : r.base.ON) (attractor : Vec d)
    (maxVel minGamma maxGamma : ℝ) (gamma : Vec d → ℝ) (position : Vec d) (hp : position ≠ attractor)
    (hdot : ⟪unit (attractor - position), base0⟫ ≠ 0)
    (hw : gammaWeight minGamma maxGamma (gamma position) ≠ 0) :
    evaluate ⟨attractor, maxVel, some (base0, some r, minGamma, maxGamma)⟩ gamma position
      = .ok (min ‖attractor - position‖ maxVel • r.rotate (unit (attractor - position))
        (powerWeight (gammaWeight minGamma maxGamma (gamma position))
            ⟪unit (attractor - position), base0⟫
          * attractorWeight (gammaWeight minGamma maxGamma (gamma position))
            ‖attractor - position‖)) := by
  classical
  have hn : ‖attractor - position‖ ≠ 0 := by
    rw [norm_ne_zero_iff, sub_ne_zero]; exact hp.symm
  have hcond : ¬ (⟪(1 / ‖attractor - position‖) • (attractor - position), base0⟫ = 0
      ∨ gammaWeight minGamma maxGamma (gamma position) = 0) := not_or.mpr ⟨hdot, hw⟩
  unfold evaluate
  simp only
  rw [if_neg hn, if_neg hcond]
  obtain ⟨q, hq, hrot⟩ := rotateVectorRotation_self r hr
    (Real.arccos (min (max ⟪base0, (1 / ‖attractor - position‖) • (attractor - position)⟫ (-1)) 1))
  rw [hq]
  simp only
  rw [hrot]
  rfl

omit h2 in
lemma evaluate_straight (attractor base0 : Vec d) (rot : Option (Rot (Vec d)))
    (maxVel minGamma maxGamma : ℝ) (gamma : Vec d → ℝ) (position : Vec d)
    (h : ⟪unit (attractor - position), base0⟫ = 0 ∨ gammaWeight minGamma maxGamma (gamma position) = 0) :
    evaluate ⟨attractor, maxVel, some (base0, rot, minGamma, maxGamma)⟩ gamma position
      = .ok (min ‖attractor - position‖ maxVel • unit (attractor - position)) := by
  classical
  unfold evaluate
  simp only
  by_cases hn : ‖attractor - position‖ = 0
  · rw [if_pos hn]
    rw [norm_eq_zero] at hn
    rw [hn]
    simp [unit]
  · have hcond : ⟪(1 / ‖attractor - position‖) • (attractor - position), base0⟫ = 0
      ∨ gammaWeight minGamma maxGamma (gamma position) = 0 := h
    rw [if_neg hn, if_pos hcond]
    rfl

lemma gammaWeight_mem (minGamma maxGamma gamma : ℝ) :
    0 ≤ gammaWeight minGamma maxGamma gamma ∧ gammaWeight minGamma maxGamma gamma ≤ 1 := by
  unfold gammaWeight
  split_ifs with h1 h2
  · exact ⟨zero_le_one, le_rfl⟩
  · exact ⟨le_rfl, zero_le_one⟩
  · push Not at h1 h2
    have hpos : 0 < maxGamma - minGamma := by linarith
    refine ⟨div_nonneg (by linarith) hpos.le, ?_⟩
    rw [div_le_one hpos]
    linarith

lemma powerWeight_mem {w dot : ℝ} (h0 : 0 ≤ w) (h1 : w ≤ 1) (hd : -1 ≤ dot) :
    0 ≤ powerWeight w dot ∧ powerWeight w dot ≤ 1 := by
  unfold powerWeight
  split_ifs
  · exact ⟨zero_le_one, le_rfl⟩
  · exact ⟨le_rfl, zero_le_one⟩
  · refine ⟨Real.rpow_nonneg h0 _, Real.rpow_le_one h0 h1 ?_⟩
    apply div_nonneg zero_le_two
    linarith

lemma attractorWeight_mem {w dist : ℝ} :
    0 ≤ attractorWeight w dist ∧ attractorWeight w dist ≤ 1 := by
  unfold attractorWeight
  split_ifs with h
  · have hp : 0 < 1 / (1 - w) := by apply div_pos one_pos; linarith
    have hm : 0 ≤ max (3 / dist) 0 := le_max_right _ _
    refine ⟨by positivity, ?_⟩
    rw [div_le_one (by positivity)]
    linarith
  · exact ⟨zero_le_one, le_rfl⟩

/-- **C89** The reference velocity must not be zero. -/
theorem C89_zero_reference (center attractor : Vec d) (minGamma maxGamma : ℝ) :
    create center attractor 0 minGamma maxGamma = .error .valueError := by
  classical
  unfold create
  rw [if_pos norm_zero]

/-- **C89** Wherever a velocity is returned, its speed is the distance to the attractor, but at most the
speed of the reference velocity; so the attractor is the only point at rest. -/
theorem C89_speed (center attractor reference : Vec d) (minGamma maxGamma : ℝ)
    (l : Local d) (h : create center attractor reference minGamma maxGamma = .ok l)
    (gamma : Vec d → ℝ) (position v : Vec d) (hv : evaluate l gamma position = .ok v) :
    ‖v‖ = min ‖attractor - position‖ ‖reference‖ ∧ (v = 0 ↔ position = attractor) := by
  classical
  have hc : center ≠ attractor := by
    rintro rfl
    unfold create at h
    split_ifs at h with h0 h1
    · simp only [Except.ok.injEq] at h
      subst h
      cases hv
    · exact h1 (by simp)
  obtain ⟨href, rfl⟩ := create_ok h hc
  have hrefp : 0 < ‖reference‖ := norm_pos_iff.mpr href
  have key : ‖v‖ = min ‖attractor - position‖ ‖reference‖ := by
    by_cases hp : position = attractor
    · subst hp
      have h0 : ⟪unit (position - position), unit (position - center)⟫ = 0 := by simp [unit]
      rw [evaluate_straight _ _ _ _ _ _ _ _ (Or.inl h0), Except.ok.injEq] at hv
      rw [← hv, sub_self, norm_zero, min_eq_left hrefp.le, zero_smul, norm_zero]
    · have hn : attractor - position ≠ 0 := sub_ne_zero.mpr (Ne.symm hp)
      have hmin : 0 ≤ min ‖attractor - position‖ ‖reference‖ := le_min (norm_nonneg _) hrefp.le
      by_cases hd : ⟪unit (attractor - position), unit (attractor - center)⟫ = 0
          ∨ gammaWeight minGamma maxGamma (gamma position) = 0
      · rw [evaluate_straight _ _ _ _ _ _ _ _ hd, Except.ok.injEq] at hv
        rw [← hv, norm_smul, unit_norm hn, mul_one, Real.norm_of_nonneg hmin]
      · cases hr : fromDirections (unit (attractor - center)) (unit reference) with
        | none =>
          rw [hr] at hv
          unfold evaluate at hv
          simp only at hv
          have hcond : ¬ (⟪(1 / ‖attractor - position‖) • (attractor - position),
              unit (attractor - center)⟫ = 0
            ∨ gammaWeight minGamma maxGamma (gamma position) = 0) := hd
          rw [if_neg (norm_ne_zero_iff.mpr hn), if_neg hcond] at hv
          cases hv
        | some r =>
          obtain ⟨-, -, hon, -, -⟩ := fromDirections_some hr
          rw [hr, evaluate_eq hon _ _ _ _ _ _ hp (not_or.mp hd).1 (not_or.mp hd).2,
            Except.ok.injEq] at hv
          rw [← hv, norm_smul, C01_rotate_norm _ hon, unit_norm hn, mul_one,
            Real.norm_of_nonneg hmin]
  refine ⟨key, ?_⟩
  rw [← norm_eq_zero, key]
  constructor
  · intro h0
    by_contra hp
    have : 0 < ‖attractor - position‖ := norm_pos_iff.mpr (sub_ne_zero.mpr (Ne.symm hp))
    have := lt_min this hrefp
    linarith
  · rintro rfl
    rw [sub_self, norm_zero, min_eq_left hrefp.le]

/-- **C89** Beyond `max_gamma` the velocity points straight to the attractor. -/
theorem C89_far (center attractor reference : Vec d) (hc : center ≠ attractor)
    (minGamma maxGamma : ℝ) (l : Local d)
    (h : create center attractor reference minGamma maxGamma = .ok l)
    (gamma : Vec d → ℝ) (position : Vec d) (h1 : minGamma < gamma position)
    (h2 : maxGamma ≤ gamma position) :
    evaluate l gamma position
      = .ok (min ‖attractor - position‖ ‖reference‖ • unit (attractor - position)) := by
  obtain ⟨-, rfl⟩ := create_ok h hc
  apply evaluate_straight
  right
  unfold gammaWeight
  rw [if_neg (not_le.mpr h1)]
  rcases h2.lt_or_eq with h3 | h3
  · rw [if_pos h3]
  · rw [if_neg (by rw [h3]; exact lt_irrefl _), h3, sub_self, zero_div]

/-- **C89** Unless the reference velocity points exactly away from the attractor, a velocity is returned
everywhere; it deviates from the direction of the attractor by no more than the reference velocity does
at the obstacle centre.

Missing: opposite reference velocities (`C89_opposite`) and an obstacle at the attractor
(`C89_obstacle_at_attractor`), for which it fails. -/
theorem C89_deviation_partial (hd : d ≤ 10 ^ 15) (center attractor reference : Vec d)
    (hc : center ≠ attractor) (minGamma maxGamma : ℝ) (l : Local d)
    (h : create center attractor reference minGamma maxGamma = .ok l)
    (ho : ¬ Opposite (attractor - center) reference) (gamma : Vec d → ℝ) (position : Vec d) :
    ∃ v, evaluate l gamma position = .ok v ∧ (position ≠ attractor →
      InnerProductGeometry.angle (attractor - position) v
        ≤ InnerProductGeometry.angle (attractor - center) reference) := by
  obtain ⟨href, rfl⟩ := create_ok h hc
  have hac : attractor - center ≠ 0 := sub_ne_zero.mpr hc.symm
  have hrefp : 0 < ‖reference‖ := norm_pos_iff.mpr href
  obtain ⟨r, hr⟩ := (C05_from_directions_defined_iff hd (unit (attractor - center))
    (unit reference)).mpr ⟨unit_ne_zero hac, unit_ne_zero href, by rwa [opposite_unit_iff hac href]⟩
  obtain ⟨-, -, hon, -, hang⟩ := fromDirections_some hr
  have hang' : r.angle = InnerProductGeometry.angle (attractor - center) reference := by
    rw [hang]
    unfold unit
    rw [InnerProductGeometry.angle_smul_left_of_pos, InnerProductGeometry.angle_smul_right_of_pos]
    · exact one_div_pos.mpr hrefp
    · exact one_div_pos.mpr (norm_pos_iff.mpr hac)
  have ha0 : 0 ≤ r.angle := hang' ▸ InnerProductGeometry.angle_nonneg _ _
  have hapi : r.angle ≤ Real.pi := hang' ▸ InnerProductGeometry.angle_le_pi _ _
  rw [hr]
  by_cases hs : ⟪unit (attractor - position), unit (attractor - center)⟫ = 0
      ∨ gammaWeight minGamma maxGamma (gamma position) = 0
  · refine ⟨_, evaluate_straight _ _ _ _ _ _ _ _ hs, ?_⟩
    intro hp
    have hn : attractor - position ≠ 0 := sub_ne_zero.mpr (Ne.symm hp)
    have hnp : 0 < ‖attractor - position‖ := norm_pos_iff.mpr hn
    have : min ‖attractor - position‖ ‖reference‖ • unit (attractor - position)
        = (min ‖attractor - position‖ ‖reference‖ * (1 / ‖attractor - position‖))
          • (attractor - position) := by
      unfold unit; rw [smul_smul]
    rw [this, InnerProductGeometry.angle_smul_right_of_pos _ _ (by positivity),
      InnerProductGeometry.angle_self hn]
    exact InnerProductGeometry.angle_nonneg _ _
  · by_cases hp : position = attractor
    · subst hp
      exact absurd (Or.inl (by simp [unit])) hs
    have hn : attractor - position ≠ 0 := sub_ne_zero.mpr (Ne.symm hp)
    have hnp : 0 < ‖attractor - position‖ := norm_pos_iff.mpr hn
    refine ⟨_, evaluate_eq hon _ _ _ _ _ _ hp (not_or.mp hs).1 (not_or.mp hs).2, fun _ => ?_⟩
    obtain ⟨g0, g1⟩ := gammaWeight_mem minGamma maxGamma (gamma position)
    obtain ⟨p0, p1⟩ := powerWeight_mem g0 g1
      (inner_unit_bounds (attractor - position) (attractor - center)).1
    obtain ⟨a0, a1⟩ := attractorWeight_mem
      (w := gammaWeight minGamma maxGamma (gamma position)) (dist := ‖attractor - position‖)
    set f := powerWeight (gammaWeight minGamma maxGamma (gamma position))
            ⟪unit (attractor - position), unit (attractor - center)⟫
          * attractorWeight (gammaWeight minGamma maxGamma (gamma position))
            ‖attractor - position‖ with hf
    have f0 : 0 ≤ f := mul_nonneg p0 a0
    have f1 : f ≤ 1 := mul_le_one₀ p1 a0 a1
    rw [InnerProductGeometry.angle_smul_right_of_pos _ _ (by positivity)]
    have h1 : InnerProductGeometry.angle (attractor - position)
        (r.rotate (unit (attractor - position)) f)
        = InnerProductGeometry.angle (unit (attractor - position))
          (planeRot r.base (f * r.angle) (unit (attractor - position))) := by
      rw [Rot.rotate, rotateDirection_eq]
      conv_rhs => rw [unit, InnerProductGeometry.angle_smul_left_of_pos _ _ (by positivity)]
      rfl
    rw [h1]
    refine (planeRot_angle_le hon (mul_nonneg f0 ha0) ?_ (unit_ne_zero hn)).trans ?_
    · calc f * r.angle ≤ 1 * r.angle := by gcongr
        _ ≤ Real.pi := by rw [one_mul]; exact hapi
    · rw [← hang']
      calc f * r.angle ≤ 1 * r.angle := by gcongr
        _ = r.angle := one_mul _

/-- **C89** In the obstacle (gamma at most `min_gamma`) the direction of the attractor is turned by the
rotation which takes the direction from the centre to the attractor to the reference velocity, except
where the two directions are exactly perpendicular.

Missing: what is missing in `C89_deviation_partial`, perpendicular positions (`C89_perpendicular`), and reference
velocities within the tolerance of `np.allclose`. -/
theorem C89_inside_partial (hd : d ≤ 10 ^ 15) (center attractor reference : Vec d)
    (hc : center ≠ attractor) (minGamma maxGamma : ℝ) (l : Local d)
    (h : create center attractor reference minGamma maxGamma = .ok l)
    (ho : ¬ Opposite (attractor - center) reference)
    (hclose : ¬ allclose (unit (attractor - center)) (unit reference)
      ∨ unit (attractor - center) = unit reference) :
    ∃ (a b : Vec d) (f : Vec d → Vec d), OrthonormalPair a b ∧ a = unit (attractor - center)
      ∧ IsPlaneRotation a b (InnerProductGeometry.angle (attractor - center) reference) f
      ∧ f (unit (attractor - center)) = unit reference
      ∧ ∀ (gamma : Vec d → ℝ) (position : Vec d), position ≠ attractor → gamma position ≤ minGamma →
        ⟪attractor - position, attractor - center⟫ ≠ 0 →
        evaluate l gamma position
          = .ok (min ‖attractor - position‖ ‖reference‖ • f (unit (attractor - position))) := by
  obtain ⟨href, rfl⟩ := create_ok h hc
  have hac : attractor - center ≠ 0 := sub_ne_zero.mpr hc.symm
  have hrefp : 0 < ‖reference‖ := norm_pos_iff.mpr href
  obtain ⟨r, hr⟩ := (C05_from_directions_defined_iff hd (unit (attractor - center))
    (unit reference)).mpr ⟨unit_ne_zero hac, unit_ne_zero href, by rwa [opposite_unit_iff hac href]⟩
  obtain ⟨-, -, hon, hb0, hang⟩ := fromDirections_some hr
  rw [unit_unit hac] at hb0
  have hang' : r.angle = InnerProductGeometry.angle (attractor - center) reference := by
    rw [hang]
    unfold unit
    rw [InnerProductGeometry.angle_smul_left_of_pos, InnerProductGeometry.angle_smul_right_of_pos]
    · exact one_div_pos.mpr hrefp
    · exact one_div_pos.mpr (norm_pos_iff.mpr hac)
  have hmap := (C06_maps_first_to_second _ _ r hr (by rwa [unit_unit hac, unit_unit href])).1
  rw [unit_unit hac, unit_unit href] at hmap
  refine ⟨r.base.b0, r.base.b1, fun v => r.rotate v 1, hon, hb0, ?_, hmap, ?_⟩
  · have := C04_rotate_isPlaneRotation r hon 1
    rwa [one_mul, hang'] at this
  · intro gamma position hp hg hdot
    have hw : gammaWeight minGamma maxGamma (gamma position) = 1 := by
      unfold gammaWeight; rw [if_pos hg]
    have hn : attractor - position ≠ 0 := sub_ne_zero.mpr (Ne.symm hp)
    have hdot' : ⟪unit (attractor - position), unit (attractor - center)⟫ ≠ 0 := by
      unfold unit
      rw [inner_smul_left, inner_smul_right]
      simp only [conj_trivial]
      have h1 : (1 / ‖attractor - position‖) ≠ 0 := by
        apply one_div_ne_zero; exact norm_ne_zero_iff.mpr hn
      have h2 : (1 / ‖attractor - center‖) ≠ 0 := by
        apply one_div_ne_zero; exact norm_ne_zero_iff.mpr hac
      exact mul_ne_zero h1 (mul_ne_zero h2 hdot)
    rw [hr, evaluate_eq hon _ _ _ _ _ _ hp hdot' (by rw [hw]; exact one_ne_zero), hw]
    have hpw : powerWeight 1 ⟪unit (attractor - position), unit (attractor - center)⟫ = 1 := by
      unfold powerWeight
      by_cases h1 : 1 + ⟪unit (attractor - position), unit (attractor - center)⟫ = 0
      · rw [if_pos h1, if_pos rfl]
      · rw [if_neg h1, Real.one_rpow]
    have haw : attractorWeight 1 ‖attractor - position‖ = 1 := by
      unfold attractorWeight; rw [if_neg (lt_irrefl _)]
    rw [hpw, haw, one_mul]

/-- **C89** At the centre of the obstacle the velocity has the direction of the reference velocity, and it
is the reference velocity itself if the attractor is not too close. -/
theorem C89_center (hd : d ≤ 10 ^ 15) (center attractor reference : Vec d)
    (hc : center ≠ attractor) (minGamma maxGamma : ℝ) (l : Local d)
    (h : create center attractor reference minGamma maxGamma = .ok l)
    (ho : ¬ Opposite (attractor - center) reference)
    (hclose : ¬ allclose (unit (attractor - center)) (unit reference)
      ∨ unit (attractor - center) = unit reference)
    (gamma : Vec d → ℝ) (hg : gamma center ≤ minGamma) :
    evaluate l gamma center = .ok (min ‖attractor - center‖ ‖reference‖ • unit reference)
      ∧ (‖reference‖ ≤ ‖attractor - center‖ → evaluate l gamma center = .ok reference) := by
  obtain ⟨a, b, f, -, -, -, hf, hall⟩ := C89_inside_partial hd center attractor reference hc minGamma
    maxGamma l h ho hclose
  have hac : attractor - center ≠ 0 := sub_ne_zero.mpr hc.symm
  have key := hall gamma center hc hg (by
    rw [real_inner_self_eq_norm_sq]
    exact pow_ne_zero 2 (norm_ne_zero_iff.mpr hac))
  rw [hf] at key
  refine ⟨key, fun hle => ?_⟩
  rw [key, min_eq_right hle, norm_smul_unit]

/-- The hypotheses of the theorems above can be met: obstacle at the origin, attractor to the right,
reference velocity upwards. -/
example : ∃ (l : Local 2), create (0 : Vec 2) !₂[2, 0] !₂[0, 1] 1 10 = .ok l
    ∧ ¬ Opposite (!₂[2, 0] - (0 : Vec 2)) !₂[0, 1]
    ∧ ¬ allclose (unit (!₂[2, 0] - (0 : Vec 2))) (unit (!₂[0, 1] : Vec 2)) := by
  classical
  have h2 : ‖(!₂[2, 0] : Vec 2)‖ = 2 := by
    rw [EuclideanSpace.norm_eq]; simp [Fin.sum_univ_two]
  have h1 : ‖(!₂[0, 1] : Vec 2)‖ = 1 := by
    rw [EuclideanSpace.norm_eq]; simp [Fin.sum_univ_two]
  refine ⟨_, by
    unfold create
    rw [if_neg (by rw [h1]; norm_num), if_neg (by rw [sub_zero, h2]; norm_num)], ?_, ?_⟩
  · rintro ⟨c, -, hh⟩
    have := congrArg (fun v : Vec 2 => v 1) hh
    simp at this
  · intro hh
    have := hh 1
    unfold isclose unit at this
    rw [sub_zero, h1, h2] at this
    norm_num at this

/-- **C89 (violated)** In the obstacle the rotation is switched off at positions seen from the attractor at
a right angle to the obstacle centre, although it is complete (`C89_inside_partial`) at all positions
next to them. -/
theorem C89_perpendicular (center attractor reference : Vec d) (hc : center ≠ attractor)
    (minGamma maxGamma : ℝ) (l : Local d)
    (h : create center attractor reference minGamma maxGamma = .ok l)
    (gamma : Vec d → ℝ) (position : Vec d) (hdot : ⟪attractor - position, attractor - center⟫ = 0) :
    evaluate l gamma position
      = .ok (min ‖attractor - position‖ ‖reference‖ • unit (attractor - position)) := by
  obtain ⟨-, rfl⟩ := create_ok h hc
  apply evaluate_straight
  left
  unfold unit
  rw [inner_smul_left, inner_smul_right, hdot, mul_zero, mul_zero]

/-- **C89 (violated)** With the obstacle centre at the attractor the object can be created, but every
evaluation fails, also at the attractor. -/
theorem C89_obstacle_at_attractor (attractor reference : Vec d) (href : reference ≠ 0)
    (minGamma maxGamma : ℝ) :
    ∃ l, create attractor attractor reference minGamma maxGamma = .ok l
      ∧ ∀ gamma position, evaluate l gamma position = .error .attributeError := by
  classical
  refine ⟨⟨attractor, ‖reference‖, none⟩, ?_, fun _ _ => rfl⟩
  unfold create
  rw [if_neg (norm_ne_zero_iff.mpr href), if_pos (by simp)]

/-- **C89 (violated)** If the reference velocity points exactly away from the attractor, the velocity is
`nan` at all positions in the obstacle that are not exactly perpendicular. -/
theorem C89_opposite (hd : d ≤ 10 ^ 15) (center attractor reference : Vec d) (hc : center ≠ attractor)
    (minGamma maxGamma : ℝ) (l : Local d)
    (h : create center attractor reference minGamma maxGamma = .ok l)
    (ho : Opposite (attractor - center) reference) (gamma : Vec d → ℝ) (position : Vec d)
    (hp : position ≠ attractor) (hg : gamma position ≤ minGamma)
    (hdot : ⟪attractor - position, attractor - center⟫ ≠ 0) :
    evaluate l gamma position = .error .nan := by
  classical
  obtain ⟨href, rfl⟩ := create_ok h hc
  have hac : attractor - center ≠ 0 := sub_ne_zero.mpr hc.symm
  have hn : attractor - position ≠ 0 := sub_ne_zero.mpr (Ne.symm hp)
  have hnone : fromDirections (unit (attractor - center)) (unit reference) = none := by
    apply fromDirections_opposite (unit_ne_zero hac) (unit_ne_zero href)
    · rw [unit_unit hac, unit_unit href]
      exact opposite_not_allclose hd hac href ho
    · rwa [opposite_unit_iff hac href]
  rw [hnone]
  unfold evaluate
  simp only
  rw [if_neg (norm_ne_zero_iff.mpr hn), if_neg]
  rw [not_or]
  constructor
  · rw [inner_smul_left]
    simp only [conj_trivial]
    have h1 : (1 / ‖attractor - position‖) ≠ 0 :=
      one_div_ne_zero (norm_ne_zero_iff.mpr hn)
    have h2 : (1 / ‖attractor - center‖) ≠ 0 := one_div_ne_zero (norm_ne_zero_iff.mpr hac)
    unfold unit
    rw [inner_smul_right]
    exact mul_ne_zero h1 (mul_ne_zero h2 hdot)
  · unfold gammaWeight
    rw [if_pos hg]
    exact one_ne_zero

end Verif.LocalDynamics
