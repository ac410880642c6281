import Verif.Lemmas.Balls
import Verif.Spec.StarRegion

/-! # Helper lemmas: the velocity of the avoider near a star-shaped region -/

open scoped RealInnerProductSpace

namespace Verif
open Spec

variable {d k : ℕ} [Fact (2 ≤ d)]
set_option linter.unusedSectionVars false

section
variable {o : Obstacle d} {c : Vec d} {gauge : Vec d → ℝ} {grad : Vec d → Vec d} {κ M : ℝ}

lemma region_ne (h : StarRegion o c gauge grad κ M) {x : Vec d} (hx : 1 < gauge x) : x ≠ c := by
  rintro rfl
  have h2 := h.homogeneous 2 0 two_pos
  rw [smul_zero, add_zero] at h2
  linarith

/-- Euler's relation: the gauge grows linearly along the rays. -/
lemma region_euler (h : StarRegion o c gauge grad κ M) {p : Vec d} (hp : p ≠ c) : ⟪grad p, p - c⟫ = gauge p := by
  have h1 : HasDerivAt (fun s : ℝ => c + s • (p - c)) (p - c) 1 := by
    have := ((hasDerivAt_id (1 : ℝ)).smul_const (p - c)).const_add c
    simpa using this
  have h2 : HasFDerivAt gauge (InnerProductSpace.toDual ℝ (Vec d) (grad p)) (c + (1 : ℝ) • (p - c)) := by
    rw [one_smul, add_sub_cancel]
    exact (h.gradient p hp).hasFDerivAt
  have h3 := h2.comp_hasDerivAt (1 : ℝ) h1
  have h4 : HasDerivAt (fun s : ℝ => s * gauge p) (gauge p) 1 := by
    simpa using (hasDerivAt_id (1 : ℝ)).mul_const (gauge p)
  have h5 : (gauge ∘ fun s : ℝ => c + s • (p - c)) =ᶠ[nhds 1] fun s => s * gauge p := by
    filter_upwards [lt_mem_nhds (zero_lt_one' ℝ)] with s hs
    have := h.homogeneous s (p - c) hs
    rw [add_sub_cancel] at this
    exact this
  have h6 := h3.unique (h4.congr_of_eventuallyEq h5)
  simpa using h6

/-- The gradient is constant along the rays. -/
lemma region_grad (h : StarRegion o c gauge grad κ M) {p : Vec d} (hp : p ≠ c) {s : ℝ} (hs : 0 < s) :
    grad (c + s • (p - c)) = grad p := by
  have hq : c + s • (p - c) ≠ c := by
    intro h0
    rw [add_eq_left, smul_eq_zero] at h0
    rcases h0 with h0 | h0
    · exact hs.ne' h0
    · exact hp (sub_eq_zero.mp h0)
  have h1 : HasFDerivAt (fun y : Vec d => c + s • (y - c)) (s • ContinuousLinearMap.id ℝ (Vec d)) p :=
    (((hasFDerivAt_id p).sub_const c).const_smul s).const_add c
  have h2 := ((h.gradient _ hq).hasFDerivAt).comp p h1
  have h3 := ((h.gradient p hp).hasFDerivAt).const_mul s
  have h4 : (gauge ∘ fun y : Vec d => c + s • (y - c)) = fun y => s * gauge y := by
    funext y
    have := h.homogeneous s (y - c) hs
    rw [add_sub_cancel] at this
    exact this
  rw [h4] at h2
  have h5 := h2.unique h3
  apply (InnerProductSpace.toDual ℝ (Vec d)).injective
  ext v
  have h6 := DFunLike.congr_fun h5 v
  simp only [ContinuousLinearMap.comp_apply, ContinuousLinearMap.smul_apply, ContinuousLinearMap.id_apply, map_smul,
    smul_eq_mul] at h6
  exact mul_left_cancel₀ hs.ne' h6

lemma region_facts (h : StarRegion o c gauge grad κ M) {x : Vec d} (hx : x ≠ c) :
    grad x ≠ 0 ∧ ‖unit (grad x)‖ = 1 ∧ ‖-unit (x - c)‖ = 1 ∧ ⟪unit (grad x), -unit (x - c)⟫ < 0
      ∧ InnerProductGeometry.angle (-unit (grad x)) (-unit (x - c)) < Real.pi / 2 := by
  have hxc : x - c ≠ 0 := sub_ne_zero.mpr hx
  have he := region_euler h hx
  have hp := h.positive x hx
  have hg : grad x ≠ 0 := by rintro h0; rw [h0, inner_zero_left] at he; linarith
  have hin : 0 < ⟪unit (grad x), unit (x - c)⟫ := by
    unfold unit
    rw [real_inner_smul_left, real_inner_smul_right, he]
    have h1 := norm_pos_iff.mpr hg
    have h2 := norm_pos_iff.mpr hxc
    positivity
  have hn := unit_norm hg
  have hr := unit_norm hxc
  refine ⟨hg, hn, by rwa [norm_neg], by rw [inner_neg_right]; linarith, ?_⟩
  exact angle_neg_lt hn (by rwa [norm_neg]) (by rw [inner_neg_right]; linarith)

end

/-- The bound of the exponent of the weight. -/
noncomputable def regionPower (power φ : ℝ) : ℝ := (Real.pi ^ 2 / 4 / φ) ^ power

lemma coordinate_distance {ext : Ext d k} (hE : DirectionSpace ext) {m u v : Vec d} (hm : ‖m‖ = 1) (hu : ‖u‖ = 1)
    (hv : ‖v‖ = 1) (hmu : ¬ Opposite m u) (hmv : ¬ Opposite m v) :
    2 / Real.pi * InnerProductGeometry.angle u v ≤ ‖ext.angleOf m u - ext.angleOf m v‖ := by
  obtain ⟨E, _, hE2, _⟩ := hE.chart m hm
  have hpp := Real.pi_pos
  rw [← E.norm_map, map_sub, hE2 u hu hmu, hE2 v hv hmv]
  have h1 := exp_contracts hm (star_log_facts hm u).1 (star_log_facts hm v).1
  rw [star_exp_log hm hu hmu, star_exp_log hm hv hmv] at h1
  refine le_trans ?_ h1
  have h2 := angle_le_norm_sub hu hv
  rw [div_mul_eq_mul_div, div_le_iff₀ hpp]
  linarith

lemma not_opposite_of_nonneg {m v : Vec d} (hm : ‖m‖ = 1) (h : 0 ≤ ⟪m, v⟫) : ¬ Opposite m v := by
  rintro ⟨s, s0, e⟩
  rw [e, real_inner_smul_right, real_inner_self_eq_norm_sq, hm] at h
  linarith

/-- The weight of a region for a motion which is neither straight towards the reference point nor, if it points
away from the surface, straight away from it. -/
lemma region_weight {ext : Ext d k} (hE : DirectionSpace ext) {n ρ v : Vec d} (hn : ‖n‖ = 1) (hρ : ‖ρ‖ = 1)
    (hnρ : ⟪n, ρ⟫ < 0) (hv : ‖v‖ = 1) {φ : ℝ} (hφ : 0 < φ) (hφ2 : φ ≤ Real.pi / 2)
    (h1 : ⟪n, v⟫ ≤ 0 → φ ≤ InnerProductGeometry.angle ρ v)
    (h2 : 0 < ⟪n, v⟫ → φ ≤ InnerProductGeometry.angle (-ρ) v) {g power w : ℝ} (hg : 1 < g) (hp : 0 ≤ power)
    (h : getRotationWeight ext.angleOf n ρ v g (power := power) = .ok w) :
    0 < w ∧ 1 - w ≤ regionPower power φ * (g - 1) := by
  classical
  have hpp := Real.pi_pos
  have hg0 : 0 < g := by linarith
  have hcos : Real.cos (Real.pi * 0.5) = 0 := by
    rw [show Real.pi * 0.5 = Real.pi / 2 by ring, Real.cos_pi_div_two]
  have h3 : 1 - 1 / g ≤ g - 1 := by
    rw [sub_le_iff_le_add, show g - 1 + 1 / g = (g ^ 2 - g + 1) / g by field_simp, le_div_iff₀ hg0]
    nlinarith
  have h30 : 0 ≤ 1 - 1 / g := by
    rw [sub_nonneg, div_le_one hg0]; exact hg.le
  have hPφ : 1 ≤ regionPower power φ := by
    unfold regionPower
    refine Real.one_le_rpow ?_ hp
    rw [le_div_iff₀ hφ]
    nlinarith [Real.pi_gt_three]
  have core : ∀ m u : Vec d, ‖m‖ = 1 → ‖u‖ = 1 → 0 ≤ ⟪m, u⟫ → 0 ≤ ⟪m, v⟫ → φ ≤ InnerProductGeometry.angle u v →
      (let angles := (ext.angleOf m u, ext.angleOf m v)
       let deltaAngle := ‖angles.1 - angles.2‖
       let refRadius := min (Real.pi * 0.5) (Real.pi * 0.5) - ‖angles.1‖
       if refRadius ≤ deltaAngle then (.ok (1 / g) : Except PyErr ℝ)
       else if deltaAngle = 0 then
         if power > 0 then .ok 0
         else if power = 0 then .ok ((1 / g) ^ (1 : ℝ))
         else .error .breakpoint
       else
         let rotationPower := (refRadius / deltaAngle) ^ power
         if rotationPower < 1 then .error .breakpoint
         else .ok ((1 / g) ^ rotationPower)) = .ok w → 0 < w ∧ 1 - w ≤ regionPower power φ * (g - 1) := by
    intro m u hm hu hmu hmv hang h
    have hdist := coordinate_distance hE hm hu hv (not_opposite_of_nonneg hm hmu) (not_opposite_of_nonneg hm hmv)
    simp only [min_self] at h
    set δ := ‖ext.angleOf m u - ext.angleOf m v‖ with hδ
    set R := Real.pi * 0.5 - ‖ext.angleOf m u‖ with hR
    have hRle : R ≤ Real.pi / 2 := by
      rw [hR]
      have := norm_nonneg (ext.angleOf m u)
      linarith
    have hδφ : 2 / Real.pi * φ ≤ δ := le_trans (mul_le_mul_of_nonneg_left hang (by positivity)) hdist
    have hδ0 : 0 < δ := lt_of_lt_of_le (by positivity) hδφ
    by_cases hb : R ≤ δ
    · rw [if_pos hb] at h
      injection h with h
      rw [← h]
      exact ⟨by positivity, by nlinarith⟩
    · rw [if_neg hb, if_neg hδ0.ne'] at h
      push Not at hb
      have hR0 : 0 < R := hδ0.trans hb
      have hb1 : 1 ≤ (R / δ) ^ power := Real.one_le_rpow (by rw [le_div_iff₀ hδ0]; linarith) hp
      rw [if_neg (not_lt.mpr hb1)] at h
      have hw : w = (1 / g) ^ ((R / δ) ^ power) := by injection h with h; exact h.symm
      have hgi : -1 ≤ 1 / g - 1 := by
        have : 0 < 1 / g := by positivity
        linarith
      have hbern := one_add_mul_self_le_rpow_one_add (s := 1 / g - 1) hgi hb1
      rw [show 1 + (1 / g - 1) = 1 / g by ring, ← hw] at hbern
      have hmono : (R / δ) ^ power ≤ regionPower power φ := by
        unfold regionPower
        refine Real.rpow_le_rpow (by positivity) ?_ hp
        calc R / δ ≤ (Real.pi / 2) / (2 / Real.pi * φ) := div_le_div₀ (by positivity) hRle (by positivity) hδφ
          _ = Real.pi ^ 2 / 4 / φ := by field_simp; ring
      exact ⟨by rw [hw]; positivity, by nlinarith⟩
  unfold getRotationWeight at h
  rw [if_neg (not_le.mpr hg)] at h
  by_cases hcond : ⟪v, n⟫ > Real.cos (Real.pi * 0.5)
  · simp only [if_pos hcond, neg_one_smul] at h
    rw [hcos, real_inner_comm] at hcond
    exact core n (-ρ) hn (by rwa [norm_neg]) (by rw [inner_neg_right]; linarith) hcond.le (h2 hcond) h
  · simp only [if_neg hcond, neg_one_smul] at h
    rw [hcos, real_inner_comm] at hcond
    exact core (-n) ρ (by rwa [norm_neg]) hρ (by rw [inner_neg_left]; linarith) (by rw [inner_neg_left]; linarith)
      (h1 (not_lt.mp hcond)) h

section
variable {o : Obstacle d} {c : Vec d} {gauge : Vec d → ℝ} {grad : Vec d → Vec d} {κ M : ℝ}

lemma region_surface (h : StarRegion o c gauge grad κ M) {x : Vec d} (hx : 1 < gauge x) :
    ∃ s, o.intersection (open Classical in if 1 < o.gamma x then o.referencePoint else x) (-o.reference x) = some s
      ∧ o.normal s = unit (grad x) := by
  classical
  have hne := region_ne h hx
  have hxc : x - c ≠ 0 := sub_ne_zero.mpr hne
  refine ⟨c + (1 / gauge (c + unit (x - c))) • unit (x - c), ?_, ?_⟩
  · rw [if_pos (h.outside x hx).1, h.center, h.reference, neg_neg]
    exact h.surface _ (unit_ne_zero hxc)
  · have hpos : 0 < gauge (c + unit (x - c)) := h.positive _ (by simpa using unit_ne_zero hxc)
    have hn := norm_pos_iff.mpr hxc
    have e : c + (1 / gauge (c + unit (x - c))) • unit (x - c)
        = c + (1 / gauge (c + unit (x - c)) * (1 / ‖x - c‖)) • (x - c) := by
      rw [mul_smul]; rfl
    have hs : 0 < 1 / gauge (c + unit (x - c)) * (1 / ‖x - c‖) := by positivity
    rw [e, h.normal, region_grad h hne hs]
    intro h0
    rw [add_eq_left, smul_eq_zero] at h0
    rcases h0 with h0 | h0
    · exact hs.ne' h0
    · exact hxc h0

lemma region_surfaceNormal (h : StarRegion o c gauge grad κ M) {x m : Vec d} (hx : 1 < gauge x)
    (hm : SurfaceNormal o x m) : m = unit (grad x) := by
  obtain ⟨s, h1, h2⟩ := region_surface h hx
  obtain ⟨s', h3, h4, _⟩ := hm
  rw [h1] at h3
  cases h3
  rw [h4 h.smooth, h2]

/-- The tangents of a region. -/
lemma region_tangents {ext : Ext d k} (hE : DirectionSpace ext) {R : ℝ} (hR : R = Real.pi * 0.5)
    (h : StarRegion o c gauge grad κ M) {x v τ : Vec d} (hx : 1 < gauge x) (hv : ‖v‖ = 1)
    (hτ : TangentOf ext R o x v τ) :
    ‖τ‖ = 1 ∧ ¬ Opposite v τ ∧ (τ = v ∧ (0 ≤ ⟪unit (grad x), v⟫ ∨ v = -unit (x - c)) ∨ ⟪unit (grad x), τ⟫ = 0) := by
  have hne := region_ne h hx
  obtain ⟨hg, hn, hρ, hnρ, hang⟩ := region_facts h hne
  set n := unit (grad x) with hnd
  set ρ := -unit (x - c) with hρd
  have hpp := Real.pi_pos
  have hR' : R = Real.pi / 2 := by rw [hR]; ring
  obtain ⟨m, τ', h1, h2, h3, h4⟩ := hτ
  have hm := region_surfaceNormal h hx h1
  rw [← hnd] at hm
  rw [hm] at h2 h3
  rw [h.reference, ← hρd] at h2
  have self : τ' = v → ‖τ‖ = 1 ∧ ¬ Opposite v τ ∧ τ = v := by
    intro e
    rw [h4, e, unit_of_norm_one hv]
    exact ⟨hv, not_opposite_self hv, rfl⟩
  by_cases hc : o.tailEffect = true ∨ ⟪n, v⟫ < 0
  · have h5 := h2 hc
    obtain ⟨hh1, hh2⟩ := C114_head_on ext n ρ R hn hρ (by rw [hR']; positivity) (by rw [hR']; linarith)
    by_cases hvρ : v = ρ
    · rw [hvρ, hh1 (by rw [hR']; exact hang)] at h5
      cases h5
      obtain ⟨e1, e2, e3⟩ := self hvρ.symm
      exact ⟨e1, e2, Or.inl ⟨e3, Or.inr hvρ⟩⟩
    by_cases hvρ' : v = -ρ
    · have hnv : InnerProductGeometry.angle n ρ = Real.pi - InnerProductGeometry.angle (-n) ρ := by
        rw [InnerProductGeometry.angle_neg_left]; ring
      rw [hvρ', hh2 (by rw [hR', hnv]; linarith)] at h5
      cases h5
      obtain ⟨e1, e2, e3⟩ := self hvρ'.symm
      refine ⟨e1, e2, Or.inl ⟨e3, Or.inl ?_⟩⟩
      rw [hvρ', inner_neg_right]; linarith
    obtain ⟨t1, _, t3⟩ := C114_angle ext hE n ρ v τ' R hn hρ hv (by rw [hR']; positivity) (by rw [hR']; linarith)
      (by linarith) hvρ hvρ' h5
    rw [hR', Real.cos_pi_div_two, neg_zero] at t3
    have hττ : τ = τ' := by rw [h4, unit_of_norm_one t1]
    rw [hττ]
    refine ⟨t1, ?_, Or.inr t3⟩
    by_cases hq : ⟪n, v⟫ = 0
    · have heq : InnerProductGeometry.angle (-n) v = R := by
        rw [hR', ← InnerProductGeometry.inner_eq_zero_iff_angle_eq_pi_div_two, inner_neg_left, hq, neg_zero]
      have := (C114_switch ext hE n ρ v τ' R hn hρ hv (by rw [hR']; linarith) (by rw [hR']; exact hang)
        (by rw [hR']; linarith) hvρ hvρ' h5).2.2 heq
      rw [this]
      exact not_opposite_self hv
    · rintro ⟨s, s0, e⟩
      rw [e, real_inner_smul_right] at t3
      rcases mul_eq_zero.mp t3 with h6 | h6
      · linarith
      · exact hq h6
  · obtain ⟨e1, e2, e3⟩ := self (h3 hc)
    refine ⟨e1, e2, Or.inl ⟨e3, Or.inl ?_⟩⟩
    by_contra h5
    exact hc (Or.inr (not_le.mp h5))

lemma region_hasTangent {ext : Ext d k} (hE : DirectionSpace ext) {R : ℝ} (hR : R = Real.pi * 0.5)
    (h : StarRegion o c gauge grad κ M) {x v : Vec d} (hx : 1 < gauge x) (hv : ‖v‖ = 1) :
    HasTangent ext R o x v := by
  have hne := region_ne h hx
  obtain ⟨hg, hn, hρ, hnρ, hang⟩ := region_facts h hne
  have hpp := Real.pi_pos
  have hR' : R = Real.pi / 2 := by rw [hR]; ring
  obtain ⟨s, h1, h2⟩ := region_surface h hx
  refine ⟨h.smooth, s, h1, fun _ => ?_⟩
  rw [h2, h.reference]
  have hv0 : v ≠ 0 := by rintro rfl; simp at hv
  obtain ⟨hh1, hh2⟩ := C114_head_on ext _ _ R hn hρ (by rw [hR']; positivity) (by rw [hR']; linarith)
  by_cases hvρ : v = -unit (x - c)
  · refine ⟨_, ?_, hv0⟩
    nth_rewrite 1 [hvρ]
    rw [hh1 (by rw [hR']; exact hang), ← hvρ]
  by_cases hvρ' : v = - -unit (x - c)
  · have hnv : InnerProductGeometry.angle (unit (grad x)) (-unit (x - c))
        = Real.pi - InnerProductGeometry.angle (-unit (grad x)) (-unit (x - c)) := by
      rw [InnerProductGeometry.angle_neg_left (unit (grad x))]; ring
    refine ⟨_, ?_, hv0⟩
    nth_rewrite 1 [hvρ']
    rw [hh2 (by rw [hR', hnv]; linarith), ← hvρ']
  obtain ⟨τ, h3, _⟩ := C114_tangent ext hE _ _ v R hn hρ hv (by rw [hR']; positivity) (by rw [hR']; linarith)
    (by linarith) hvρ hvρ'
  refine ⟨τ, h3, ?_⟩
  have h4 := (C114_angle ext hE _ _ v τ R hn hρ hv (by rw [hR']; positivity) (by rw [hR']; linarith)
    (by linarith) hvρ hvρ' h3).1
  intro h5; rw [h5] at h4; simp at h4

lemma region_sane (h : StarRegion o c gauge grad κ M) : SaneObstacle o where
  gamma_nonneg := fun y => (h.inside y).1
  normal_le := by
    intro y
    by_cases hy : y = c
    · rw [hy]; exact h.normal_center
    · rw [h.normal y hy]; exact (region_facts h hy).2.1.le
  reference_le := by
    intro y
    rw [h.reference, norm_neg]
    by_cases hy : y - c = 0
    · rw [hy]; simp [unit]
    · exact (unit_norm hy).le

end

/-- The velocity of an avoider is a multiple of the averaged direction, if this is a unit vector. -/
lemma avoider_velocity {ext : Ext d k} {a : Avoider d} {x vel : Vec d} (hpow : 0 ≤ a.power) (hs : SaneTrees a.trees)
    (hstatic : ∀ t ∈ a.trees, Static t) (hne : a.trees ≠ []) (hone : AtMostOneContact x a.trees)
    (hunit : ∀ v pr D, ConvergenceDirection ext a x v → prepareAvoidance ext a x v = .ok pr →
      avoidanceDirection ext pr = .ok D → ‖D‖ = 1)
    (hmag : 0 ≤ a.magnitude x) (h : a.evaluate ext x = .ok vel) :
    vel = 0 ∨ ∃ v pr D l, ConvergenceDirection ext a x v ∧ prepareAvoidance ext a x v = .ok pr
      ∧ avoidanceDirection ext pr = .ok D ∧ ‖D‖ = 1 ∧ 0 ≤ l ∧ l ≤ max 1 (a.magnitude x) ∧ vel = l • D := by
  classical
  rcases evaluate_run hne h with ⟨rfl, _⟩ | ⟨pr, rel, final, hpr, hrel, hf, hsl⟩
  · exact Or.inl rfl
  right
  obtain ⟨s, conv, u, h1, h2, h3, hprep⟩ := hpr
  have hu1 : ‖final‖ = 1 := hunit u pr final ⟨s, conv, h1, h2, h3⟩ hprep hf
  have hr0 := relative_static hstatic hrel
  suffices hl : ∃ l, 0 ≤ l ∧ l ≤ max 1 (a.magnitude x) ∧ vel = l • final by
    obtain ⟨l, l0, l1, e⟩ := hl
    exact ⟨u, pr, final, l, ⟨s, conv, h1, h2, h3⟩, hprep, hf, hu1, l0, l1, e⟩
  obtain ⟨Ds, hD, _, hnorm, hslow, _, _, hin, _, _, hpos, _⟩ := prepared_facts hpow hs hprep
  have hle := cluster_le_one hpow hs hone hprep
  unfold slowDown at hsl
  split at hsl
  · cases hsl
    exact ⟨1, zero_le_one, le_max_left _ _, by rw [hr0, add_zero, one_smul]⟩
  · rename_i m hm
    obtain ⟨prox, h4, hsl⟩ := bind_ok.mp hsl
    obtain ⟨cf, h5, hsl⟩ := bind_ok.mp hsl
    rw [if_neg (by rw [hu1]; norm_num)] at hsl
    cases hsl
    obtain ⟨p', hp', p0, p1⟩ := C35_scaling_range final
      (List.zipWith (fun (n : Vec d) w => w • n) pr.normals pr.cluster).sum (1 / m) 0.8 3 (le_of_eq hu1)
      ((averaged_le (by rw [hnorm]; exact normals_le hs hD) (fun w hw => (hin w hw).1)).trans hle)
      (by norm_num) (by norm_num)
    rw [h4] at hp'
    injection hp' with hp'
    subst hp'
    have hsne : pr.slow ≠ [] := by
      rw [hslow]
      intro h0
      have := hD.length_eq
      rw [List.map_eq_nil_iff.mp h0, List.length_zipIdx] at this
      exact hne (List.length_eq_zero_iff.mp this)
    obtain ⟨c', hc', c0, c1, _⟩ := C36_slowfactor pr.slow 0.2 hsne (by norm_num)
      (by rw [hslow]; exact slow_le hpow hs hD)
    rw [h5] at hc'
    injection hc' with hc'
    subst hc'
    refine ⟨a.magnitude x * min cf prox, mul_nonneg hmag (le_min c0 p0), ?_, ?_⟩
    · refine le_max_of_le_right ?_
      calc a.magnitude x * min cf prox ≤ a.magnitude x * 1 :=
            mul_le_mul_of_nonneg_left (min_le_of_left_le c1) hmag
        _ = a.magnitude x := mul_one _
    · rw [hr0, add_zero, hu1, div_one]

/-- The velocity of an avoider is defined if the averaged direction is a unit vector. -/
lemma avoider_defined {ext : Ext d k} {a : Avoider d} {x v : Vec d} (hpow : 0 ≤ a.power) (hs : SaneTrees a.trees)
    (hstatic : ∀ t ∈ a.trees, Static t) (hnil : ∀ t ∈ a.trees, t.components ≠ []) (hne : a.trees ≠ [])
    (hone : AtMostOneContact x a.trees) (hc : ConvergenceDirection ext a x v) {pr : Prepared d} {D : Vec d}
    (hpr : prepareAvoidance ext a x v = .ok pr) (hD : avoidanceDirection ext pr = .ok D) (hu1 : ‖D‖ = 1) :
    ∃ vel, a.evaluate ext x = .ok vel := by
  classical
  obtain ⟨s, conv, h1, h2, h3⟩ := hc
  have hrel := C60_static x a.trees hstatic hnil
  obtain ⟨Ds, hDs, _, hnorm, hslow, _, _, hin, _, _, hpos, _⟩ := prepared_facts hpow hs hpr
  have hle := cluster_le_one hpow hs hone hpr
  suffices hw : ∃ w, slowDown (a.magnitude x) 0 D pr = .ok w by
    obtain ⟨w, hw⟩ := hw
    refine ⟨w, ?_⟩
    unfold Avoider.evaluate evaluateSequence
    refine bind_ok.mpr ⟨_, h1, ?_⟩
    simp only
    rw [if_neg hne]
    exact bind_ok.mpr ⟨0, hrel, bind_ok.mpr ⟨conv, h2, bind_ok.mpr ⟨_, h3,
      bind_ok.mpr ⟨pr, hpr, bind_ok.mpr ⟨D, hD, hw⟩⟩⟩⟩⟩
  unfold slowDown
  cases hm : pr.cluster.max? with
  | none => exact ⟨_, rfl⟩
  | some m =>
    obtain ⟨p', hp', _⟩ := C35_scaling_range D
      (List.zipWith (fun (n : Vec d) w => w • n) pr.normals pr.cluster).sum (1 / m) 0.8 3
      (le_of_eq hu1)
      ((averaged_le (by rw [hnorm]; exact normals_le hs hDs) (fun w hw => (hin w hw).1)).trans hle)
      (by norm_num) (by norm_num)
    have hsne : pr.slow ≠ [] := by
      rw [hslow]
      intro h0
      have := hDs.length_eq
      rw [List.map_eq_nil_iff.mp h0, List.length_zipIdx] at this
      exact hne (List.length_eq_zero_iff.mp this)
    obtain ⟨c', hc', _⟩ := C36_slowfactor pr.slow 0.2 hsne (by norm_num)
      (by rw [hslow]; exact slow_le hpow hs hDs)
    exact ⟨_, bind_ok.mpr ⟨p', hp', bind_ok.mpr ⟨c', hc', if_neg (by rw [hu1]; norm_num)⟩⟩⟩

section
variable {a : Avoider d} {regions : List (Region d)}

lemma regions_of_tree (ha : RegionsAvoider a regions) {t : ObstacleTree d} (ht : t ∈ a.trees) :
    t.rootIdx = 0 ∧ Static t ∧ ∃ r ∈ regions, t.components = [r.obstacle]
      ∧ StarRegion r.obstacle r.center r.gauge r.grad r.scale r.slope := by
  obtain ⟨i, hi⟩ := List.mem_iff_getElem?.mp ht
  obtain ⟨hil, rfl⟩ := List.getElem?_eq_some_iff.mp hi
  have hir : i < regions.length := by rw [← ha.obstacles.length_eq]; exact hil
  obtain ⟨h1, h2, h3, h4⟩ := (List.forall₂_iff_get.mp ha.obstacles).2 i hil hir
  exact ⟨h1, h2, regions[i], List.getElem_mem hir, h3, h4⟩

lemma regions_index (ha : RegionsAvoider a regions) {i : ℕ} {r : Region d} (hi : regions[i]? = some r) :
    ∃ t, a.trees[i]? = some t ∧ t.components = [r.obstacle]
      ∧ StarRegion r.obstacle r.center r.gauge r.grad r.scale r.slope := by
  obtain ⟨hir, rfl⟩ := List.getElem?_eq_some_iff.mp hi
  have hil : i < a.trees.length := by rw [ha.obstacles.length_eq]; exact hir
  obtain ⟨h1, h2, h3, h4⟩ := (List.forall₂_iff_get.mp ha.obstacles).2 i hil hir
  exact ⟨_, List.getElem?_eq_getElem hil, h3, h4⟩

lemma regions_single (ha : RegionsAvoider a regions) {x : Vec d} (hx : OutsideAll regions x) :
    SingleOutside x a.trees := by
  intro t ht
  obtain ⟨h1, _, r, hr, h2, h3⟩ := regions_of_tree ha ht
  exact ⟨h1, _, h2, (h3.outside x (hx r hr)).1.le⟩

lemma regions_not_opposite {ext : Ext d k} (hE : DirectionSpace ext) (ha : RegionsAvoider a regions) {x v : Vec d}
    (hx : OutsideAll regions x) (hv : ‖v‖ = 1) :
    ∀ t ∈ a.trees, ∀ o, t.components = [o] → ∀ τ, TangentOf ext a.convergenceRadius o x v τ →
      ¬ Opposite (unit v) τ := by
  intro t ht o ho τ hτ
  obtain ⟨_, _, r, hr, h2, h3⟩ := regions_of_tree ha ht
  rw [ho] at h2
  cases h2
  rw [unit_of_norm_one hv]
  exact (region_tangents hE ha.radius h3 (hx r hr) hv hτ).2.1

lemma regions_facts (ha : RegionsAvoider a regions) {x : Vec d} (hx : OutsideAll regions x) :
    SaneTrees a.trees ∧ (∀ t ∈ a.trees, Static t) ∧ (∀ t ∈ a.trees, t.components ≠ []) ∧ a.trees ≠ []
      ∧ AtMostOneContact x a.trees := by
  refine ⟨?_, fun t ht => (regions_of_tree ha ht).2.1, ?_, ?_, ?_⟩
  · intro t ht o ho
    obtain ⟨_, _, r, hr, h2, h3⟩ := regions_of_tree ha ht
    rw [h2, List.mem_singleton] at ho
    subst ho
    exact region_sane h3
  · intro t ht
    obtain ⟨_, _, r, hr, h2, _⟩ := regions_of_tree ha ht
    rw [h2]; simp
  · intro h
    have h1 := ha.obstacles.length_eq
    rw [h, List.length_nil] at h1
    exact ha.some_region (List.length_eq_zero_iff.mp h1.symm)
  · refine List.Pairwise.imp_of_mem (R := fun _ _ => True) ?_ (List.pairwise_of_forall (fun _ _ => trivial))
    rintro t t' ht _ _ ⟨⟨o, ho, h⟩, _⟩
    obtain ⟨_, _, r, hr, h2, h3⟩ := regions_of_tree ha ht
    rw [h2, List.mem_singleton] at ho
    subst ho
    have := (h3.outside x (hx r hr)).1
    linarith

/-- The preparation outside of the regions never fails, and leads to a unit vector. -/
lemma regions_prepare {ext : Ext d k} (hE : DirectionSpace ext) (has : ArgsortSpec ext.argsort)
    (ha : RegionsAvoider a regions) {x v : Vec d} (hx : OutsideAll regions x) (hv : ‖v‖ = 1) :
    ∃ pr D, prepareAvoidance ext a x v = .ok pr ∧ avoidanceDirection ext pr = .ok D ∧ ‖D‖ = 1 := by
  have hs := regions_single ha hx
  have huv : unit v = v := unit_of_norm_one hv
  obtain ⟨pr, hpr⟩ := total_prepare ha.power ha.radius.le hv hs (by
    intro t ht o ho
    obtain ⟨_, _, r, hr, h2, h3⟩ := regions_of_tree ha ht
    rw [ho] at h2
    cases h2
    exact region_hasTangent (ext := ext) hE ha.radius h3 (hx r hr) hv)
  obtain ⟨ws, τs, l1, l2, hd, hm⟩ := single_mean ext a x v pr ha.power has ha.radius.le hs
    (regions_not_opposite hE ha hx hv) hpr
  rw [huv] at hm
  refine ⟨pr, _, hpr, hm, star_exp_unit hv (zip_orth _ _ ?_)⟩
  intro τ hτ
  obtain ⟨j, hj⟩ := List.mem_iff_getElem?.mp hτ
  have hjl : j < a.trees.length := by rw [← l2]; exact (List.getElem?_eq_some_iff.mp hj).choose
  have ht : a.trees[j]? = some a.trees[j] := List.getElem?_eq_getElem hjl
  have hwl : j < ws.length := by rw [l1]; exact hjl
  obtain ⟨_, _, r, hr, h2, h3⟩ := regions_of_tree ha (List.getElem_mem hjl)
  obtain ⟨_, _, w2, w3⟩ := hd j _ _ ws[j] τ ht h2 (List.getElem?_eq_getElem hwl) hj
  by_cases hw : 0 < ws[j]
  · obtain ⟨t1, t2, _⟩ := region_tangents hE ha.radius h3 (hx r hr) hv (w2 hw)
    exact (codeLog_facts hv t1 t2).1
  · rw [w3 (not_lt.mp hw), huv, codeLog_self hv, inner_zero_right]

/-- What the tangent of a region contributes, for the region itself. -/
structure RegionTangent (n v τ : Vec d) : Prop where
  unit : ‖τ‖ = 1
  not_opposite : ¬ Opposite v τ
  target : ⟪n, τ⟫ = 0 ∨ (τ = v ∧ 0 ≤ ⟪n, v⟫)

/-- The end of the rotation of the code towards the tangent. -/
lemma region_target {n v τ : Vec d} (hn : ‖n‖ = 1) (hv : ‖v‖ = 1) (h : RegionTangent n v τ) :
    0 ≤ ⟪n, sphereExp v (codeLog v τ)⟫
      ∨ (|⟪n, v⟫| ≤ closeness d ∧ -((1 + Real.pi / 2) * closeness d) ≤ ⟪n, sphereExp v (codeLog v τ)⟫) := by
  rcases h.target with horth | ⟨rfl, hq⟩
  · obtain ⟨f1, f2, f3⟩ := codeLog_facts hv h.unit h.not_opposite
    by_cases hcl : v = τ ∨ ¬ allclose v τ
    · left
      rw [f3 hcl, star_exp_log hv h.unit h.not_opposite, horth]
    · right
      push Not at hcl
      have hcn := allclose_norm h.unit hcl.2
      have hq1 : |⟪n, v⟫| ≤ closeness d := by
        have : ⟪n, v⟫ = ⟪n, v - τ⟫ := by rw [inner_sub_right, horth, sub_zero]
        rw [this]
        refine (abs_real_inner_le_norm _ _).trans ?_
        rw [hn, one_mul]; exact hcn
      refine ⟨hq1, ?_⟩
      have hDn := star_exp_unit hv f1
      have h6 : ‖sphereExp v (codeLog v τ) - v‖ ≤ Real.pi / 2 * closeness d := by
        rw [norm_sub_rev]
        refine (norm_sub_le_angle hv hDn).trans ((star_exp_angle hv f1).trans ?_)
        rw [f2]
        exact (angle_le_norm_sub hv h.unit).trans (mul_le_mul_of_nonneg_left hcn (by positivity))
      have h7 := abs_real_inner_le_norm n (sphereExp v (codeLog v τ) - v)
      rw [hn, one_mul, inner_sub_right] at h7
      have h8 := neg_abs_le ⟪n, v⟫
      have h9 := neg_abs_le (⟪n, sphereExp v (codeLog v τ)⟫ - ⟪n, v⟫)
      linarith
  · left
    rw [codeLog_self hv, star_exp_zero]; exact hq

/-- The direction near one of the regions. -/
lemma near_region {v n : Vec d} (hv : ‖v‖ = 1) (hn : ‖n‖ = 1) {m N w P y : ℝ}
    (hm : 0 < m) (l r : List ℝ) (τl τr : List (Vec d)) (τ : Vec d) (hll : l.length = τl.length)
    (hw0 : 0 ≤ w) (hw1 : w < 1) (hl : ∀ y ∈ l, 0 ≤ y ∧ y ≤ 1 / (1 + m)) (hr : ∀ y ∈ r, 0 ≤ y ∧ y ≤ 1 / (1 + m))
    (hN : ((l.length + r.length : ℕ) : ℝ) ≤ N) (hP : 0 ≤ P) (hy : 0 ≤ y)
    (hτ : RegionTangent n v τ) (hτs : ∀ τ' ∈ τl ++ τr, ‖τ'‖ = 1 ∧ ¬ Opposite v τ')
    (hcase : 1 - w ≤ P * y) :
    ∀ D, D = sphereExp v (List.zipWith (fun w τ => w • codeLog v τ) (getLimitedWeightsToMaxSum (l ++ w :: r)).1
      (τl ++ τ :: τr)).sum →
    -(4 * Real.pi * P * max 1 (N / m) * y) ≤ ⟪n, D⟫
      ∨ (|⟪n, v⟫| ≤ closeness d ∧ -(4 * Real.pi * P * max 1 (N / m) * y) - (1 + Real.pi / 2) * closeness d ≤ ⟪n, D⟫) := by
  intro D hD
  have hpp := Real.pi_pos
  obtain ⟨l', w', r', e, e1, e2, e3, e4, e5, e6, e7, e8⟩ := limited_split l r w m N hm hw0 hw1 hl hr hN
  have hlogs : ∀ τ' ∈ τl ++ τr, ⟪v, codeLog v τ'⟫ = 0 ∧ ‖codeLog v τ'‖ ≤ Real.pi := by
    intro τ' h
    obtain ⟨h1, h2⟩ := hτs τ' h
    obtain ⟨f1, f2, _⟩ := codeLog_facts hv h1 h2
    exact ⟨f1, f2.trans_le (InnerProductGeometry.angle_le_pi _ _)⟩
  obtain ⟨f1, f2, _⟩ := codeLog_facts hv hτ.unit hτ.not_opposite
  have f2' := f2.trans_le (InnerProductGeometry.angle_le_pi _ _)
  obtain ⟨a1, a2⟩ := zip_logs hv hpp.le l' τl e3 (fun τ' h => hlogs τ' (List.mem_append_left _ h))
  obtain ⟨b1, b2⟩ := zip_logs hv hpp.le r' τr e4 (fun τ' h => hlogs τ' (List.mem_append_right _ h))
  set A := (List.zipWith (fun w τ => w • codeLog v τ) l' τl).sum with hA
  set B := (List.zipWith (fun w τ => w • codeLog v τ) r' τr).sum with hB
  have hsum : (List.zipWith (fun w τ => w • codeLog v τ) (getLimitedWeightsToMaxSum (l ++ w :: r)).1
      (τl ++ τ :: τr)).sum = A + (w' • codeLog v τ + B) := by
    rw [e, List.zipWith_append (by rw [e1, hll]), List.sum_append, List.zipWith_cons_cons, List.sum_cons]
  have horth : ⟪v, A + (w' • codeLog v τ + B)⟫ = 0 := by
    rw [inner_add_right, inner_add_right, a1, b1, real_inner_smul_right, f1]; simp
  have hDe : D = sphereExp v (A + (w' • codeLog v τ + B)) := by rw [hD, ← hsum]
  clear_value A B
  have hl0 : 0 ≤ l'.sum := List.sum_nonneg e3
  have hr0 : 0 ≤ r'.sum := List.sum_nonneg e4
  have hM : (1 : ℝ) ≤ max 1 (N / m) := le_max_left _ _
  have hd : ‖A + (w' • codeLog v τ + B) - codeLog v τ‖ ≤ 4 * Real.pi * P * max 1 (N / m) * y := by
    have h1 : A + (w' • codeLog v τ + B) - codeLog v τ = A + B - (1 - w') • codeLog v τ := by
      rw [sub_smul, one_smul]; abel
    rw [h1]
    have h2 : ‖(1 - w') • codeLog v τ‖ ≤ (1 - w') * Real.pi := by
      have : 0 ≤ 1 - w' := by linarith
      rw [norm_smul, Real.norm_of_nonneg this]
      exact mul_le_mul_of_nonneg_left f2' this
    have h3 : ‖A + B - (1 - w') • codeLog v τ‖ ≤ (l'.sum + r'.sum + (1 - w')) * Real.pi := by
      refine (norm_sub_le _ _).trans ?_
      have := norm_add_le A B
      nlinarith
    refine h3.trans ?_
    have h4 : l'.sum + r'.sum + (1 - w') ≤ 4 * (P * y) * max 1 (N / m) := by
      have : 2 * (1 - w) * max 1 (N / m) ≤ 2 * (P * y) * max 1 (N / m) := by
        have : 0 ≤ max 1 (N / m) := by linarith
        nlinarith
      linarith
    calc (l'.sum + r'.sum + (1 - w')) * Real.pi ≤ (4 * (P * y) * max 1 (N / m)) * Real.pi :=
          mul_le_mul_of_nonneg_right h4 hpp.le
      _ = _ := by ring
  have hdist : ‖D - sphereExp v (codeLog v τ)‖ ≤ 4 * Real.pi * P * max 1 (N / m) * y := by
    rw [hDe]; exact (exp_contracts hv horth f1).trans hd
  have h7 := abs_real_inner_le_norm n (D - sphereExp v (codeLog v τ))
  rw [hn, one_mul, inner_sub_right] at h7
  have h8 := neg_abs_le (⟪n, D⟫ - ⟪n, sphereExp v (codeLog v τ)⟫)
  rcases region_target hn hv hτ with h9 | ⟨h9, h10⟩
  · left; linarith
  · right; exact ⟨h9, by linarith⟩

/-- The direction near the only region, for a motion away from its surface. -/
lemma away_region {v n τ : Vec d} (hv : ‖v‖ = 1) (hn : ‖n‖ = 1) {w : ℝ} (hw0 : 0 ≤ w) (hw1 : w < 1)
    (hτ : RegionTangent n v τ) (hq : 0 < ⟪n, v⟫) :
    ∀ D, D = sphereExp v (List.zipWith (fun w τ => w • codeLog v τ) (getLimitedWeightsToMaxSum [w]).1 [τ]).sum →
    0 ≤ ⟪n, D⟫ ∨ (|⟪n, v⟫| ≤ closeness d ∧ -((1 + Real.pi / 2) * closeness d) ≤ ⟪n, D⟫) := by
  intro D hD
  have hpp := Real.pi_pos
  have hlim : (getLimitedWeightsToMaxSum [w]).1 = [w] := by
    unfold getLimitedWeightsToMaxSum
    rw [if_pos (by simpa using hw1)]
  have hDe : D = sphereExp v (w • codeLog v τ) := by
    rw [hD, hlim]; simp
  obtain ⟨f1, f2, f3⟩ := codeLog_facts hv hτ.unit hτ.not_opposite
  have hwl : ⟪v, w • codeLog v τ⟫ = 0 := by rw [real_inner_smul_right, f1, mul_zero]
  rcases hτ.target with horth | ⟨e, _⟩
  · have hv0 : v ≠ 0 := by rintro rfl; simp at hv
    have hτ0 : τ ≠ 0 := by intro h0; have := hτ.unit; rw [h0] at this; simp at this
    by_cases hcl : v = τ ∨ ¬ allclose v τ
    · left
      rw [hDe, f3 hcl]
      rcases (InnerProductGeometry.angle_nonneg v τ).eq_or_lt with h0 | h0
      · have : sphereLog v τ = 0 := by unfold sphereLog; rw [← h0, zero_smul]
        rw [this, smul_zero, star_exp_zero]; exact hq.le
      · have hpi : InnerProductGeometry.angle v τ < Real.pi := by
          rcases (InnerProductGeometry.angle_le_pi v τ).lt_or_eq with h | h
          · exact h
          · exfalso
            rw [InnerProductGeometry.angle_eq_pi_iff] at h
            obtain ⟨_, s, hs, e⟩ := h
            exact hτ.not_opposite ⟨-s, by linarith, by rw [neg_neg]; exact e⟩
        rw [slerp_eq hv hτ.unit w hw0 h0 hpi, inner_add_right, real_inner_smul_right, real_inner_smul_right, horth,
          mul_zero, add_zero]
        refine mul_nonneg (div_nonneg ?_ (Real.sin_nonneg_of_nonneg_of_le_pi h0.le hpi.le)) hq.le
        refine Real.sin_nonneg_of_nonneg_of_le_pi (mul_nonneg (by linarith) h0.le) ?_
        nlinarith
    · right
      push Not at hcl
      have hcn := allclose_norm hτ.unit hcl.2
      have hDn : ‖D‖ = 1 := by rw [hDe]; exact star_exp_unit hv hwl
      have hq1 : |⟪n, v⟫| ≤ closeness d := by
        have : ⟪n, v⟫ = ⟪n, v - τ⟫ := by rw [inner_sub_right, horth, sub_zero]
        rw [this]
        refine (abs_real_inner_le_norm _ _).trans ?_
        rw [hn, one_mul]; exact hcn
      refine ⟨hq1, ?_⟩
      have h6 : ‖D - v‖ ≤ Real.pi / 2 * closeness d := by
        rw [norm_sub_rev]
        refine (norm_sub_le_angle hv hDn).trans ?_
        rw [hDe]
        refine (star_exp_angle hv hwl).trans ?_
        rw [norm_smul, f2, Real.norm_of_nonneg hw0]
        calc w * InnerProductGeometry.angle v τ ≤ 1 * InnerProductGeometry.angle v τ :=
              mul_le_mul_of_nonneg_right hw1.le (InnerProductGeometry.angle_nonneg _ _)
          _ ≤ Real.pi / 2 * ‖v - τ‖ := by rw [one_mul]; exact angle_le_norm_sub hv hτ.unit
          _ ≤ _ := mul_le_mul_of_nonneg_left hcn (by positivity)
      have h7 := abs_real_inner_le_norm n (D - v)
      rw [hn, one_mul, inner_sub_right] at h7
      have h8 := neg_abs_le ⟪n, v⟫
      have h9 := neg_abs_le (⟪n, D⟫ - ⟪n, v⟫)
      linarith
  · left
    rw [hDe, e, codeLog_self hv, smul_zero, star_exp_zero]
    exact hq.le

lemma slanted_angles {φ : ℝ} {x v : Vec d} (hob : Slanted φ regions x v) {r : Region d} (hr : r ∈ regions)
    (hxc : x - r.center ≠ 0) : φ ≤ InnerProductGeometry.angle (-unit (x - r.center)) v
      ∧ (1 < regions.length → φ ≤ InnerProductGeometry.angle (- -unit (x - r.center)) v) := by
  obtain ⟨h1, h2⟩ := hob r hr
  have hp : 0 < 1 / ‖x - r.center‖ := one_div_pos.mpr (norm_pos_iff.mpr hxc)
  unfold unit
  constructor
  · rw [← smul_neg, InnerProductGeometry.angle_smul_left_of_pos _ _ hp, neg_sub]; exact h1
  · rw [neg_neg, InnerProductGeometry.angle_smul_left_of_pos _ _ hp]; exact h2

/-- The direction of the avoider among several regions. -/
lemma regions_direction {ext : Ext d k} (hE : DirectionSpace ext) (has : ArgsortSpec ext.argsort)
    (ha : RegionsAvoider a regions) {x v D : Vec d} (hx : OutsideAll regions x) (hv : ‖v‖ = 1) {φ m : ℝ}
    (hφ : 0 < φ) (hφ2 : φ ≤ Real.pi / 2) (hob : Slanted φ regions x v) {pr : Prepared d}
    (hpr : prepareAvoidance ext a x v = .ok pr) (hD : avoidanceDirection ext pr = .ok D) {i : ℕ} {r : Region d}
    (hi : regions[i]? = some r) (hm : 0 < m)
    (hother : ∀ (j : ℕ) (r' : Region d), j ≠ i → regions[j]? = some r' → 1 + m ≤ r'.obstacle.gamma x) :
    -(4 * Real.pi * regionPower a.power φ * max 1 (regions.length / m) * (r.obstacle.gamma x - 1))
        ≤ ⟪unit (r.grad x), D⟫
      ∨ (|⟪unit (r.grad x), v⟫| ≤ closeness d
        ∧ -(4 * Real.pi * regionPower a.power φ * max 1 (regions.length / m) * (r.obstacle.gamma x - 1))
          - (1 + Real.pi / 2) * closeness d ≤ ⟪unit (r.grad x), D⟫) := by
  have hpp := Real.pi_pos
  have hs := regions_single ha hx
  have huv : unit v = v := unit_of_norm_one hv
  have hv0 : v ≠ 0 := by rintro rfl; simp at hv
  obtain ⟨ws, τs, l1, l2, hd, hmean⟩ := single_mean ext a x v pr ha.power has ha.radius.le hs
    (regions_not_opposite hE ha hx hv) hpr
  rw [huv, hD] at hmean
  have hlen : a.trees.length = regions.length := ha.obstacles.length_eq
  have hP : 0 ≤ regionPower a.power φ := by unfold regionPower; positivity
  -- every index
  have hall : ∀ (j : ℕ) (r' : Region d) (w : ℝ) (τ : Vec d), regions[j]? = some r' → ws[j]? = some w →
      τs[j]? = some τ →
      0 ≤ w ∧ w ≤ 1 / r'.obstacle.gamma x ∧ RegionTangent (unit (r'.grad x)) v τ
      ∧ 1 < r'.obstacle.gamma x ∧ ‖unit (r'.grad x)‖ = 1
      ∧ (⟪unit (r'.grad x), v⟫ ≤ 0 ∨ 1 < regions.length →
        1 - w ≤ regionPower a.power φ * (r'.obstacle.gamma x - 1)) := by
    intro j r' w τ hr' hw hτ
    have hmem : r' ∈ regions := List.mem_iff_getElem?.mpr ⟨j, hr'⟩
    obtain ⟨t, ht, ho, hreg⟩ := regions_index ha hr'
    obtain ⟨w0, w1, w2, w3⟩ := hd j t _ w τ ht ho hw hτ
    have hxb := hx r' hmem
    have hne := region_ne hreg hxb
    have hxc : x - r'.center ≠ 0 := sub_ne_zero.mpr hne
    obtain ⟨_, hn, hρ, hnρ, _⟩ := region_facts hreg hne
    have hg1 := (hreg.outside x hxb).1
    obtain ⟨o1, o2⟩ := slanted_angles hob hmem hxc
    obtain ⟨w', e1, _, _, _, e4⟩ := C32_range_partial ext.angleOf (r'.obstacle.normal x) (r'.obstacle.reference x) v
      (r'.obstacle.gamma x) (Real.pi * 0.5) a.power (Real.pi * 0.5) ha.power
    rw [w1] at e1
    cases e1
    have hle := e4 hg1
    rw [hreg.normal x hne, hreg.reference] at w1
    have hvne : v ≠ -unit (x - r'.center) := by
      rintro rfl
      rw [InnerProductGeometry.angle_self hv0] at o1
      linarith
    have hwt : (⟪unit (r'.grad x), v⟫ ≤ 0 ∨ 1 < regions.length) →
        0 < w ∧ 1 - w ≤ regionPower a.power φ * (r'.obstacle.gamma x - 1) := by
      intro h
      refine region_weight hE hn hρ hnρ hv hφ hφ2 (fun _ => o1) (fun h' => ?_) hg1 ha.power w1
      rcases h with h | h
      · exact absurd h' (not_lt.mpr h)
      · exact o2 h
    have hT : RegionTangent (unit (r'.grad x)) v τ := by
      by_cases hw' : 0 < w
      · obtain ⟨t1, t2, t3⟩ := region_tangents hE ha.radius hreg hxb hv (w2 hw')
        refine ⟨t1, t2, ?_⟩
        rcases t3 with ⟨t3, t4 | t4⟩ | t3
        · exact Or.inr ⟨t3, t4⟩
        · exact absurd t4 hvne
        · exact Or.inl t3
      · rw [w3 (not_lt.mp hw'), huv]
        refine ⟨hv, not_opposite_self hv, Or.inr ⟨rfl, ?_⟩⟩
        by_contra hc
        exact hw' (hwt (Or.inl (not_le.mp hc).le)).1
    exact ⟨w0, hle, hT, hg1, hn, fun h => (hwt h).2⟩
  have hil : i < regions.length := (List.getElem?_eq_some_iff.mp hi).choose
  have hiw : i < ws.length := by rw [l1, hlen]; exact hil
  have hiτ : i < τs.length := by rw [l2, hlen]; exact hil
  obtain ⟨q1, q2, q3, q4, q5, q6⟩ := hall i r ws[i] τs[i] hi (List.getElem?_eq_getElem hiw)
    (List.getElem?_eq_getElem hiτ)
  have hw1 : ws[i] < 1 := q2.trans_lt (by rw [div_lt_one (by linarith)]; exact q4)
  have hy : 0 ≤ r.obstacle.gamma x - 1 := by linarith
  have hM : (1 : ℝ) ≤ max 1 (regions.length / m) := le_max_left _ _
  have hK : 0 ≤ 4 * Real.pi * regionPower a.power φ * max 1 (regions.length / m) * (r.obstacle.gamma x - 1) := by
    positivity
  have hDeq : D = sphereExp v (List.zipWith (fun w τ => w • codeLog v τ) (getLimitedWeightsToMaxSum ws).1 τs).sum := by
    injection hmean
  by_cases hcase : ⟪unit (r.grad x), v⟫ ≤ 0 ∨ 1 < regions.length
  · have hws : ws = ws.take i ++ ws[i] :: ws.drop (i + 1) := by
      rw [← List.drop_eq_getElem_cons hiw, List.take_append_drop]
    have hτs : τs = τs.take i ++ τs[i] :: τs.drop (i + 1) := by
      rw [← List.drop_eq_getElem_cons hiτ, List.take_append_drop]
    have hwj : ∀ (j : ℕ) (y : ℝ), j ≠ i → ws[j]? = some y → 0 ≤ y ∧ y ≤ 1 / (1 + m) := by
      intro j y hj hy
      have hjl : j < regions.length := by rw [← hlen, ← l1]; exact (List.getElem?_eq_some_iff.mp hy).choose
      have hjτ : j < τs.length := by rw [l2, hlen]; exact hjl
      obtain ⟨p1, p2, _⟩ := hall j regions[j] y τs[j] (List.getElem?_eq_getElem hjl) hy (List.getElem?_eq_getElem hjτ)
      refine ⟨p1, p2.trans ?_⟩
      have := hother j regions[j] hj (List.getElem?_eq_getElem hjl)
      exact one_div_le_one_div_of_le (by linarith) this
    have hτj : ∀ τ' ∈ τs.take i ++ τs.drop (i + 1), ‖τ'‖ = 1 ∧ ¬ Opposite v τ' := by
      intro τ' hτ'
      have hmem : τ' ∈ τs := by
        rcases List.mem_append.mp hτ' with h | h
        · exact List.mem_of_mem_take h
        · exact List.mem_of_mem_drop h
      obtain ⟨j, hj⟩ := List.mem_iff_getElem?.mp hmem
      have hjl : j < regions.length := by rw [← hlen, ← l2]; exact (List.getElem?_eq_some_iff.mp hj).choose
      have hjw : j < ws.length := by rw [l1, hlen]; exact hjl
      obtain ⟨_, _, p3, _⟩ := hall j regions[j] ws[j] τ' (List.getElem?_eq_getElem hjl) (List.getElem?_eq_getElem hjw) hj
      exact ⟨p3.unit, p3.not_opposite⟩
    refine near_region hv q5 hm (ws.take i) (ws.drop (i + 1)) (τs.take i) (τs.drop (i + 1)) τs[i] ?_ q1 hw1 ?_ ?_ ?_ hP hy
      q3 hτj (q6 hcase) D ?_
    · rw [List.length_take, List.length_take, l1, l2]
    · intro y hy
      obtain ⟨j, hj⟩ := List.mem_iff_getElem?.mp hy
      rw [List.getElem?_take] at hj
      split at hj
      · exact hwj j y (by omega) hj
      · cases hj
    · intro y hy
      obtain ⟨j, hj⟩ := List.mem_iff_getElem?.mp hy
      rw [List.getElem?_drop] at hj
      exact hwj (i + 1 + j) y (by omega) hj
    · have : (ws.take i).length + (ws.drop (i + 1)).length ≤ regions.length := by
        rw [List.length_take, List.length_drop, l1, hlen]; omega
      exact_mod_cast this
    · rw [← hws, ← hτs]; exact hDeq
  · push Not at hcase
    obtain ⟨hq, hlen1⟩ := hcase
    have hws1 : ws.length = 1 := by
      have : ws.length = regions.length := by rw [l1, hlen]
      omega
    have hτs1 : τs.length = 1 := by
      have : τs.length = regions.length := by rw [l2, hlen]
      omega
    obtain ⟨w, rfl⟩ := List.length_eq_one_iff.mp hws1
    obtain ⟨τ, rfl⟩ := List.length_eq_one_iff.mp hτs1
    have hi0 : i = 0 := by simpa using hiw
    subst hi0
    simp only [List.getElem_cons_zero] at q1 q2 q3 hw1
    rcases away_region hv q5 q1 hw1 q3 hq D hDeq with h | ⟨h1, h2⟩
    · left; linarith
    · right; exact ⟨h1, by linarith⟩

end

/-- A motion along the normals of all regions which is parallel to their reference directions is not changed. -/
lemma regions_axis_evaluate {ext : Ext d k} (hE : DirectionSpace ext) (has : ArgsortSpec ext.argsort) {a : Avoider d}
    {regions : List (Region d)} (ha : RegionsAvoider a regions) (hp : 0 < a.power) {x v : Vec d}
    (hx : OutsideAll regions x) (hc : ConvergenceDirection ext a x v)
    (hv : ∀ r ∈ regions, unit (r.grad x) = unit (x - r.center)
      ∧ (v = unit (x - r.center) ∨ v = -unit (x - r.center))) :
    a.evaluate ext x = .ok v := by
  classical
  obtain ⟨hs, hstatic, hnil, hne, hone⟩ := regions_facts ha hx
  have hv1 : ‖v‖ = 1 := by
    obtain ⟨t, ht⟩ := List.exists_mem_of_ne_nil _ hne
    obtain ⟨_, _, r, hr, _, h3⟩ := regions_of_tree ha ht
    have hn := unit_norm (sub_ne_zero.mpr (region_ne h3 (hx r hr)))
    rcases (hv r hr).2 with h | h
    · rw [h]; exact hn
    · rw [h, norm_neg]; exact hn
  have huv : unit v = v := unit_of_norm_one hv1
  obtain ⟨s, conv, h1, h2, h3⟩ := hc
  obtain ⟨pr, D, hpr, hD, _⟩ := regions_prepare hE has ha hx hv1
  have hrel := C60_static x a.trees hstatic hnil
  have hs' := regions_single ha hx
  have hzero : ∀ t ∈ a.trees, ∀ o, t.components = [o] →
      getRotationWeight ext.angleOf (o.normal x) (o.reference x) v (o.gamma x) (power := a.power) = .ok 0 := by
    intro t ht o ho
    obtain ⟨_, _, r, hr, h2, h3⟩ := regions_of_tree ha ht
    rw [ho] at h2
    cases h2
    have hxc := region_ne h3 (hx r hr)
    rw [h3.normal x hxc, h3.reference, (hv r hr).1]
    exact ball_axis_weight hE (unit_norm (sub_ne_zero.mpr hxc)) (hv r hr).2 (h3.outside x (hx r hr)).1 hp
  obtain ⟨ws, τs, l1, l2, hd, hm⟩ := single_mean ext a x v pr ha.power has ha.radius.le hs'
    (regions_not_opposite hE ha hx hv1) hpr
  rw [hD, huv] at hm
  have hτ : ∀ τ ∈ τs, τ = v := by
    intro τ hτ
    obtain ⟨j, hj⟩ := List.mem_iff_getElem?.mp hτ
    have hjl : j < a.trees.length := by rw [← l2]; exact (List.getElem?_eq_some_iff.mp hj).choose
    have hwl : j < ws.length := by rw [l1]; exact hjl
    obtain ⟨_, _, r, hr, h2, h3⟩ := regions_of_tree ha (List.getElem_mem hjl)
    obtain ⟨_, w1, w2, w3⟩ := hd j _ r.obstacle ws[j] τ (List.getElem?_eq_getElem hjl) h2 (List.getElem?_eq_getElem hwl) hj
    rw [hzero _ (List.getElem_mem hjl) r.obstacle h2] at w1
    injection w1 with w1
    rw [w3 w1.symm.le, huv]
  have hDv : D = v := by
    injection hm with hm
    rw [hm]
    have : ∀ (W : List ℝ) (τs : List (Vec d)), (∀ τ ∈ τs, τ = v) →
        (List.zipWith (fun w τ => w • codeLog v τ) W τs).sum = 0 := by
      intro W
      induction W with
      | nil => simp
      | cons w W ih =>
        intro τs hτ
        cases τs with
        | nil => simp
        | cons τ τs =>
          rw [List.zipWith_cons_cons, List.sum_cons, hτ τ List.mem_cons_self, codeLog_self hv1, smul_zero, zero_add]
          exact ih τs (fun y hy => hτ y (List.mem_cons_of_mem _ hy))
    rw [this _ _ hτ, star_exp_zero]
  obtain ⟨Ds, g1, _, _, _, _, _, g2, _, _⟩ := single_prepare ha.power hs' ha.radius.le hpr
  have hDs : ∀ E ∈ Ds, E.1 = 0 := by
    have key : ∀ (l : List (ObstacleTree d × ℕ)) (Ds : List (ℝ × Vec d)), List.Forall₂ (SingleData ext a x v) l Ds →
        (∀ p ∈ l, p.1 ∈ a.trees) → ∀ E ∈ Ds, E.1 = 0 := by
      intro l Ds h
      induction h with
      | nil => intro _ E hE; cases hE
      | cons h _ ih =>
        intro hl E hEm
        rcases List.mem_cons.mp hEm with rfl | hEm
        · obtain ⟨o, f1, f2, _⟩ := h
          rw [hzero _ (hl _ List.mem_cons_self) o f1] at f2
          injection f2 with f2
          exact f2.symm
        · exact ih (fun p hp => hl p (List.mem_cons_of_mem _ hp)) E hEm
    refine key _ _ g1 ?_
    intro p hp
    have := List.mem_zipIdx' hp
    rw [this.2]
    exact List.getElem_mem _
  have hcl : pr.cluster = [] := by
    rw [g2]
    have : Ds.map (fun D => if 0 < D.1 then [(1 : ℝ)] else []) = Ds.map (fun _ => []) := by
      refine List.map_congr_left ?_
      intro E hE'
      rw [hDs E hE', if_neg (lt_irrefl _)]
    rw [this]
    unfold clusterWeights
    generalize (getLimitedWeightsToMaxSum (Ds.map Prod.fst)).1 = W
    clear * -
    induction Ds generalizing W with
    | nil => simp
    | cons E Ds ih =>
      cases W with
      | nil => simp
      | cons w W =>
        rw [List.map_cons, List.zipWith_cons_cons, List.flatten_cons, List.map_nil, List.nil_append]
        exact ih W
  unfold Avoider.evaluate evaluateSequence
  refine bind_ok.mpr ⟨_, h1, ?_⟩
  simp only
  rw [if_neg hne]
  refine bind_ok.mpr ⟨0, hrel, bind_ok.mpr ⟨conv, h2, bind_ok.mpr ⟨_, h3,
    bind_ok.mpr ⟨pr, hpr, bind_ok.mpr ⟨D, hD, ?_⟩⟩⟩⟩⟩
  unfold slowDown
  rw [hcl, hDv]
  simp

end Verif
