import Verif.Lemmas.Slerp
import Verif.Lemmas.AvoiderMean
import Verif.Lemmas.AvoiderStarTotal
import Verif.Props.Avoider
import Verif.Props.Tangent
import Verif.Spec.Trajectory

/-! # Helper lemmas: the velocity of the avoider near a ball -/

open scoped RealInnerProductSpace

namespace Verif
open Spec

variable {d k : ℕ} [Fact (2 ≤ d)]
set_option linter.unusedSectionVars false

/-- Vectors within the tolerance are close. -/
lemma allclose_norm {u τ : Vec d} (hτ : ‖τ‖ = 1) (h : allclose u τ) : ‖u - τ‖ ≤ closeness d := by
  have h1 : ‖u - τ‖ ≤ ‖(WithLp.toLp 2 (fun i => (1e-8 : ℝ) + 1e-5 * |τ i|) : Vec d)‖ := by
    rw [EuclideanSpace.norm_eq, EuclideanSpace.norm_eq]
    apply Real.sqrt_le_sqrt
    apply Finset.sum_le_sum
    intro i _
    have := h i
    unfold isclose at this
    rw [Real.norm_eq_abs, Real.norm_eq_abs]
    have h3 : (0 : ℝ) ≤ 1e-8 + 1e-5 * |τ i| := by positivity
    rw [abs_of_nonneg h3]
    exact pow_le_pow_left₀ (abs_nonneg _) (by simpa using this) 2
  have h2 : (WithLp.toLp 2 (fun i => (1e-8 : ℝ) + 1e-5 * |τ i|) : Vec d)
      = (1e-8 : ℝ) • (WithLp.toLp 2 (fun _ => (1 : ℝ)) : Vec d) + (1e-5 : ℝ) • (WithLp.toLp 2 (fun i => |τ i|) : Vec d) := by
    ext i; simp
  refine h1.trans ?_
  rw [h2]
  refine (norm_add_le _ _).trans ?_
  rw [norm_smul, norm_smul]
  have e1 : ‖(WithLp.toLp 2 (fun _ => (1 : ℝ)) : Vec d)‖ = √d := by
    rw [EuclideanSpace.norm_eq]; simp
  have e2 : ‖(WithLp.toLp 2 (fun i => |τ i|) : Vec d)‖ = 1 := by
    rw [← hτ, EuclideanSpace.norm_eq, EuclideanSpace.norm_eq]; simp
  rw [e1, e2]
  unfold closeness
  rw [Real.norm_of_nonneg (by norm_num), Real.norm_of_nonneg (by norm_num)]
  linarith

lemma closeness_pos : 0 < closeness d := by unfold closeness; positivity

/-- The angle of close unit vectors. -/
lemma angle_le_norm_sub {u τ : Vec d} (hu : ‖u‖ = 1) (hτ : ‖τ‖ = 1) :
    InnerProductGeometry.angle u τ ≤ Real.pi / 2 * ‖u - τ‖ := by
  set θ := InnerProductGeometry.angle u τ with hθ
  have hcos : Real.cos θ = ⟪u, τ⟫ := by rw [hθ, InnerProductGeometry.cos_angle, hu, hτ]; simp
  have h0 : 0 ≤ θ := InnerProductGeometry.angle_nonneg _ _
  have hpi : θ ≤ Real.pi := InnerProductGeometry.angle_le_pi _ _
  have h1 : ‖u - τ‖ ^ 2 = (2 * Real.sin (θ / 2)) ^ 2 := by
    rw [norm_sub_sq_real, hu, hτ, ← hcos]
    have := Real.cos_sq' (θ / 2)
    have h3 : Real.cos θ = 2 * Real.cos (θ / 2) ^ 2 - 1 := by
      rw [← Real.cos_two_mul]; congr 1; ring
    rw [h3, this]; ring
  have h2 : 0 ≤ Real.sin (θ / 2) := Real.sin_nonneg_of_nonneg_of_le_pi (by linarith) (by linarith)
  have h3 : ‖u - τ‖ = 2 * Real.sin (θ / 2) :=
    (sq_eq_sq₀ (norm_nonneg _) (by linarith)).mp h1
  have h4 := Real.mul_le_sin (x := θ / 2) (by linarith) (by linarith)
  rw [h3]
  have hpp := Real.pi_pos
  have h5 : Real.pi / 2 * (2 * (2 / Real.pi * (θ / 2))) = θ := by field_simp
  calc θ = Real.pi / 2 * (2 * (2 / Real.pi * (θ / 2))) := h5.symm
    _ ≤ _ := by
      apply mul_le_mul_of_nonneg_left _ (by positivity)
      linarith

/-- The tangent of a ball: the tangential part of the velocity. -/
lemma ball_tangent {ext : Ext d k} (hE : DirectionSpace ext) {n v τ : Vec d} {R : ℝ} (hR : R = Real.pi * 0.5)
    (hn : ‖n‖ = 1) (hv : ‖v‖ = 1) (hq : ⟪n, v⟫ ^ 2 < 1) (h : projectedTangent ext v n (-n) R = .ok τ) :
    τ = unit (v - ⟪n, v⟫ • n) := by
  have hR' : R = Real.pi / 2 := by rw [hR]; ring
  have hpp := Real.pi_pos
  have hne : v ≠ -n := by
    rintro rfl
    rw [inner_neg_right, real_inner_self_eq_norm_sq, hn] at hq; norm_num at hq
  have hne' : v ≠ -(-n) := by
    rw [neg_neg]; rintro rfl
    rw [real_inner_self_eq_norm_sq, hn] at hq; norm_num at hq
  have hn0 : n ≠ 0 := by rintro rfl; simp at hn
  have hm0 : -n ≠ 0 := neg_ne_zero.mpr hn0
  obtain ⟨τ', h1, h2, h3⟩ := C114_tangent ext hE n (-n) v R hn (by rwa [norm_neg]) hv (by rw [hR']; positivity)
    (by rw [hR']; linarith) (by rw [InnerProductGeometry.angle_self hm0]; exact hpp) hne hne'
  rw [h] at h1
  cases h1
  have key : ∀ m : Vec d, ‖m‖ = 1 → (m = n ∨ m = -n) → TangentAt m m v τ (Real.pi / 2) →
      τ = unit (v - ⟪n, v⟫ • n) := by
    intro m hm hmn ⟨t1, t2, t, t3, t4⟩
    have hperp : v - ⟪m, v⟫ • m = v - ⟪n, v⟫ • n := by
      rcases hmn with rfl | rfl
      · rfl
      · simp
    have hqm : ⟪m, v⟫ ^ 2 < 1 := by
      rcases hmn with rfl | rfl
      · exact hq
      · rw [inner_neg_left, neg_sq]; exact hq
    have hg : v - ⟪m, v⟫ • m ≠ 0 := by
      intro h0
      have hvm := sub_eq_zero.mp h0
      have : ‖v‖ ^ 2 = ⟪m, v⟫ ^ 2 * ‖m‖ ^ 2 := by
        nth_rewrite 1 [hvm]; rw [norm_smul, mul_pow, Real.norm_eq_abs, sq_abs]
      rw [hv, hm] at this
      linarith
    rw [star_log_self, sub_zero, zero_add] at t4
    have hlv : sphereLog m v = InnerProductGeometry.angle m v • unit (v - ⟪m, v⟫ • m) := rfl
    have hop : ¬ Opposite m τ := by
      rintro ⟨s, s0, e⟩
      have e2 : InnerProductGeometry.angle m τ = Real.pi := by
        rw [e, InnerProductGeometry.angle_smul_right_of_neg _ _ (by linarith),
          InnerProductGeometry.angle_neg_right, InnerProductGeometry.angle_self]
        · simp
        · rintro rfl; simp at hm
      rw [t2] at e2; linarith
    have hexp := star_exp_log hm t1 hop
    rw [t4, hlv, smul_smul] at hexp
    have hnl : ‖sphereLog m τ‖ = Real.pi / 2 := by
      have hz : τ - ⟪m, τ⟫ • m ≠ 0 := by
        have h0 : ⟪m, τ⟫ = 0 := by
          have := InnerProductGeometry.inner_eq_zero_iff_angle_eq_pi_div_two m τ
          exact this.mpr t2
        rw [h0, zero_smul, sub_zero]
        rintro rfl; simp at t1
      unfold sphereLog
      rw [norm_smul, unit_norm hz, mul_one, t2, Real.norm_of_nonneg (by positivity)]
    rw [t4, hlv, smul_smul, norm_smul, unit_norm hg, mul_one, Real.norm_of_nonneg
      (mul_nonneg (by linarith) (InnerProductGeometry.angle_nonneg _ _))] at hnl
    rw [hnl] at hexp
    unfold sphereExp at hexp
    rw [norm_smul, unit_norm hg, mul_one, Real.norm_of_nonneg (by positivity), Real.cos_pi_div_two,
      Real.sin_pi_div_two, zero_smul, zero_add, one_smul] at hexp
    rw [← hperp, ← hexp]
    have hug : ‖unit (v - ⟪m, v⟫ • m)‖ = 1 := unit_norm hg
    have : unit ((Real.pi / 2) • unit (v - ⟪m, v⟫ • m))
        = (1 / ‖(Real.pi / 2) • unit (v - ⟪m, v⟫ • m)‖) • ((Real.pi / 2) • unit (v - ⟪m, v⟫ • m)) := rfl
    rw [this, norm_smul, hug, mul_one, Real.norm_of_nonneg (by positivity), smul_smul, one_div,
      inv_mul_cancel₀ (by positivity), one_smul]
  rw [hR'] at h2 h3
  by_cases hc : InnerProductGeometry.angle (-n) v < Real.pi / 2
  · exact key (-n) (by rwa [norm_neg]) (Or.inr rfl) (h2 hc)
  · have := h3 (not_lt.mp hc)
    rw [neg_neg, show Real.pi - Real.pi / 2 = Real.pi / 2 by ring] at this
    exact key n hn (Or.inl rfl) this

/-- The chord is at most the arc. -/
lemma norm_sub_le_angle {u τ : Vec d} (hu : ‖u‖ = 1) (hτ : ‖τ‖ = 1) :
    ‖u - τ‖ ≤ InnerProductGeometry.angle u τ := by
  set θ := InnerProductGeometry.angle u τ with hθ
  have hcos : Real.cos θ = ⟪u, τ⟫ := by rw [hθ, InnerProductGeometry.cos_angle, hu, hτ]; simp
  have h0 : 0 ≤ θ := InnerProductGeometry.angle_nonneg _ _
  refine (sq_le_sq₀ (norm_nonneg _) h0).mp ?_
  rw [norm_sub_sq_real, hu, hτ, ← hcos]
  have := Real.one_sub_sq_div_two_le_cos (x := θ)
  linarith

/-- The exponent of the weight of a ball. -/
noncomputable def ballPower (power φ : ℝ) : ℝ := (Real.pi / 2 / φ) ^ power

lemma angle_neg_lt {n v : Vec d} (hn : ‖n‖ = 1) (hv : ‖v‖ = 1) (hq : ⟪n, v⟫ < 0) :
    InnerProductGeometry.angle (-n) v < Real.pi / 2 := by
  by_contra hc
  push Not at hc
  have h1 := Real.cos_nonpos_of_pi_div_two_le_of_le hc ((InnerProductGeometry.angle_le_pi _ _).trans
    (by linarith [Real.pi_pos]))
  rw [InnerProductGeometry.cos_angle, norm_neg, hn, hv, inner_neg_left] at h1
  linarith

/-- The weight of a ball in front. -/
lemma ball_weight {ext : Ext d k} (hE : DirectionSpace ext) {n v : Vec d} (hn : ‖n‖ = 1) (hv : ‖v‖ = 1)
    (hq : ⟪n, v⟫ < 0) (hne : v ≠ -n) {g power w : ℝ} (hg : 1 < g) (hp : 0 ≤ power)
    (h : getRotationWeight ext.angleOf n (-n) v g (power := power) = .ok w) :
    0 < w ∧ 1 - w ≤ ballPower power (InnerProductGeometry.angle (-n) v) * (g - 1) := by
  classical
  have hm : ‖-n‖ = 1 := by rwa [norm_neg]
  have hm0 : -n ≠ 0 := by rintro h0; rw [h0] at hm; simp at hm
  have hv0 : v ≠ 0 := by rintro rfl; simp at hv
  have hφ1 := angle_neg_lt hn hv hq
  have hpp := Real.pi_pos
  set φ := InnerProductGeometry.angle (-n) v with hφ
  have hφ0 : 0 < φ := by
    rcases (InnerProductGeometry.angle_nonneg (-n) v).lt_or_eq with h0 | h0
    · exact h0
    · exfalso
      apply hne
      rw [eq_comm, InnerProductGeometry.angle_eq_zero_iff] at h0
      obtain ⟨_, c, hc, e⟩ := h0
      have : c = 1 := by
        have h2 := congrArg norm e
        rw [norm_smul, hv, hm, Real.norm_of_nonneg hc.le] at h2; linarith
      rw [e, this, one_smul]
  obtain ⟨E, _, hE2, _⟩ := hE.chart (-n) hm
  have hop : ¬ Opposite (-n) v := by
    rintro ⟨s, s0, e⟩
    rw [e, real_inner_smul_right, inner_neg_right, real_inner_self_eq_norm_sq, hn] at hq
    nlinarith
  have a1 : ext.angleOf (-n) (-n) = 0 := by
    have := hE2 (-n) hm (not_opposite_self hm)
    rw [star_log_self] at this
    exact E.injective (by rw [this, map_zero])
  have a2 : ‖ext.angleOf (-n) v‖ = φ := by
    rw [← E.norm_map, hE2 v hv hop]
    have := codeLog_facts hm hv hop
    unfold sphereLog
    have hz : v - ⟪-n, v⟫ • -n ≠ 0 := by
      intro h0
      have e := sub_eq_zero.mp h0
      apply hne
      have h2 := congrArg norm e
      rw [norm_smul, hv, hm, mul_one, inner_neg_left, Real.norm_of_nonneg (by linarith)] at h2
      rw [e, inner_neg_left, ← h2, one_smul]
    rw [norm_smul, unit_norm hz, mul_one, Real.norm_of_nonneg hφ0.le]
  unfold getRotationWeight at h
  have hcos : Real.cos (Real.pi * 0.5) = 0 := by
    rw [show Real.pi * 0.5 = Real.pi / 2 by ring, Real.cos_pi_div_two]
  rw [if_neg (not_le.mpr hg)] at h
  have hcond : ¬ ⟪v, n⟫ > Real.cos (Real.pi * 0.5) := by rw [hcos, real_inner_comm]; linarith
  simp only [neg_one_smul, if_neg hcond] at h
  simp only [a1, zero_sub, norm_neg, a2, norm_zero, sub_zero, min_self] at h
  rw [if_neg (by linarith), if_neg hφ0.ne'] at h
  have hb : 1 ≤ ballPower power φ := by
    unfold ballPower
    exact Real.one_le_rpow (by rw [le_div_iff₀ hφ0]; linarith) hp
  have hbe : (Real.pi * 0.5 / φ) ^ power = ballPower power φ := by
    unfold ballPower; congr 2; ring
  rw [hbe, if_neg (not_lt.mpr hb)] at h
  have hw : w = (1 / g) ^ ballPower power φ := by injection h with h; exact h.symm
  have hg0 : 0 < g := by linarith
  refine ⟨by rw [hw]; positivity, ?_⟩
  have hgi : -1 ≤ 1 / g - 1 := by
    have : 0 < 1 / g := by positivity
    linarith
  have hbern := one_add_mul_self_le_rpow_one_add (s := 1 / g - 1) hgi hb
  rw [show 1 + (1 / g - 1) = 1 / g by ring, ← hw] at hbern
  have h3 : 1 - 1 / g ≤ g - 1 := by
    rw [sub_le_iff_le_add, show g - 1 + 1 / g = (g ^ 2 - g + 1) / g by field_simp, le_div_iff₀ hg0]
    nlinarith
  nlinarith

/-- What is known about the direction `D` of the avoider at a position with outward direction `n` from a ball, whose
distance value is `1 + y`. -/
structure BallDirection (power : ℝ) (n v D : Vec d) (y : ℝ) : Prop where
  unit : ‖D‖ = 1
  cases : (∃ w, 0 ≤ w ∧ w ≤ 1 ∧ BallStep n v D w
      ∧ (⟪n, v⟫ < 0 → 1 - w ≤ ballPower power (InnerProductGeometry.angle (-n) v) * y))
    ∨ (|⟪n, v⟫| ≤ closeness d ∧ ‖D - v‖ ≤ Real.pi / 2 * closeness d)

lemma ball_gamma {o : Obstacle d} {c : Vec d} {r κ : ℝ} (hb : IsBall o c r κ) {x : Vec d} (hx : r < ‖x - c‖) :
    o.gamma x = 1 + κ * (‖x - c‖ - r) ∧ 1 < o.gamma x := by
  have h := hb.outside x hx.le
  refine ⟨h, ?_⟩
  rw [h]
  have := mul_pos hb.scale_pos (sub_pos.mpr hx)
  linarith

lemma ball_surfaceNormal {o : Obstacle d} {c : Vec d} {r κ : ℝ} (hb : IsBall o c r κ) {x m : Vec d}
    (hx : r < ‖x - c‖) (h : SurfaceNormal o x m) : m = unit (x - c) := by
  have hr := hb.radius_pos
  have hxc : x - c ≠ 0 := by rintro h0; rw [h0, norm_zero] at hx; linarith
  obtain ⟨s, h1, h2, _⟩ := h
  rw [if_pos (ball_gamma hb hx).2, hb.center, hb.reference, neg_neg, hb.surface _ (unit_ne_zero hxc)] at h1
  cases h1
  rw [h2 hb.smooth, hb.normal, unit_of_norm_one (unit_norm hxc), add_sub_cancel_left]
  have : unit (r • unit (x - c)) = (1 / ‖r • unit (x - c)‖) • (r • unit (x - c)) := rfl
  rw [this, norm_smul, unit_norm hxc, mul_one, Real.norm_of_nonneg hr.le, smul_smul, one_div,
    inv_mul_cancel₀ hr.ne', one_smul]

lemma ballStep_away {n v : Vec d} (hv : ‖v‖ = 1) (hq : 0 ≤ ⟪n, v⟫) (w : ℝ) : BallStep n v v w := by
  refine ⟨hv, ⟨1, 0, by simp, fun _ => le_rfl⟩, id, fun h => ⟨h, ?_⟩, ?_⟩
  · rw [le_antisymm h hq]; simp
  · rw [real_inner_self_eq_norm_sq, hv]; nlinarith

lemma ball_perp {n v : Vec d} (hn : ‖n‖ = 1) (hv : ‖v‖ = 1) (hq : ⟪n, v⟫ ^ 2 < 1) :
    v - ⟪n, v⟫ • n ≠ 0 ∧ 0 < ⟪v, unit (v - ⟪n, v⟫ • n)⟫ ∧ ⟪n, unit (v - ⟪n, v⟫ • n)⟫ = 0 := by
  have hz : v - ⟪n, v⟫ • n ≠ 0 := by
    intro h0
    have hvm := sub_eq_zero.mp h0
    have : ‖v‖ ^ 2 = ⟪n, v⟫ ^ 2 * ‖n‖ ^ 2 := by
      nth_rewrite 1 [hvm]; rw [norm_smul, mul_pow, Real.norm_eq_abs, sq_abs]
    rw [hv, hn] at this
    linarith
  refine ⟨hz, ?_, ?_⟩
  · unfold unit
    rw [real_inner_smul_right, inner_sub_right, real_inner_smul_right, real_inner_self_eq_norm_sq, hv,
      real_inner_comm n v]
    exact mul_pos (one_div_pos.mpr (norm_pos_iff.mpr hz)) (by nlinarith)
  · unfold unit
    rw [real_inner_smul_right, inner_sub_right, real_inner_smul_right, real_inner_self_eq_norm_sq, hn]
    ring

/-- Directions which are not strictly between the two normals. -/
lemma ball_axis {n v : Vec d} (hn : ‖n‖ = 1) (hv : ‖v‖ = 1) (hq : ¬ ⟪n, v⟫ ^ 2 < 1) : v = n ∨ v = -n := by
  have hq1 : ⟪n, v⟫ ^ 2 ≤ 1 := by
    have := abs_real_inner_le_norm n v
    rw [hn, hv, mul_one] at this
    rw [← sq_abs]; nlinarith [abs_nonneg ⟪n, v⟫]
  rcases sq_eq_one_iff.mp (le_antisymm hq1 (not_lt.mp hq)) with h6 | h6
  · exact Or.inl ((inner_eq_one_iff_of_norm_eq_one hn hv).mp h6).symm
  · right
    have h7 : ⟪-n, v⟫ = 1 := by rw [inner_neg_left, h6]; norm_num
    exact ((inner_eq_one_iff_of_norm_eq_one (by rwa [norm_neg]) hv).mp h7).symm

/-- The tangent along the normals of a ball. -/
lemma ball_axis_tangent (ext : Ext d k) {n : Vec d} {R : ℝ} (hR : R = Real.pi * 0.5) (hn : ‖n‖ = 1) :
    projectedTangent ext n n (-n) R = .ok n ∧ projectedTangent ext (-n) n (-n) R = .ok (-n) := by
  have hpp := Real.pi_pos
  have hn0 : n ≠ 0 := by rintro rfl; simp at hn
  obtain ⟨h1, h2⟩ := C114_head_on ext n (-n) R hn (by rwa [norm_neg]) (by rw [hR]; positivity)
    (by rw [hR]; linarith)
  rw [neg_neg] at h2
  refine ⟨h2 ?_, h1 ?_⟩
  · rw [InnerProductGeometry.angle_neg_right, InnerProductGeometry.angle_self hn0, hR]
    linarith
  · rw [InnerProductGeometry.angle_self (neg_ne_zero.mpr hn0), hR]
    positivity

/-- The tangents of a ball. -/
lemma ball_tangents {ext : Ext d k} (hE : DirectionSpace ext) {R : ℝ} (hR : R = Real.pi * 0.5) {o : Obstacle d}
    {c : Vec d} {r κ : ℝ} (hb : IsBall o c r κ) {x v τ : Vec d} (hx : r < ‖x - c‖) (hv : ‖v‖ = 1)
    (h : TangentOf ext R o x v τ) :
    ((0 ≤ ⟪unit (x - c), v⟫ ∨ v = -unit (x - c)) ∧ τ = v)
    ∨ (⟪unit (x - c), v⟫ ^ 2 < 1 ∧ τ = unit (v - ⟪unit (x - c), v⟫ • unit (x - c))) := by
  have hxc : x - c ≠ 0 := by rintro h0; rw [h0, norm_zero] at hx; linarith [hb.radius_pos]
  set n := unit (x - c) with hnd
  have hn : ‖n‖ = 1 := unit_norm hxc
  obtain ⟨m, τ', h1, h2, h3, h4⟩ := h
  have hm := ball_surfaceNormal hb hx h1
  rw [← hnd] at hm
  rw [hm] at h2 h3
  rw [hb.reference, ← hnd] at h2
  by_cases hc : o.tailEffect = true ∨ ⟪n, v⟫ < 0
  · have h5 := h2 hc
    by_cases hq : ⟪n, v⟫ ^ 2 < 1
    · right
      refine ⟨hq, ?_⟩
      rw [h4, ball_tangent hE hR hn hv hq h5]
      exact unit_of_norm_one (unit_norm (ball_perp hn hv hq).1)
    · left
      rcases ball_axis hn hv hq with rfl | hvn
      · rw [(ball_axis_tangent ext hR hn).1] at h5
        cases h5
        refine ⟨Or.inl (by rw [real_inner_self_eq_norm_sq, hn]; norm_num), ?_⟩
        rw [h4, unit_of_norm_one hn]
      · rw [hvn, (ball_axis_tangent ext hR hn).2] at h5
        cases h5
        refine ⟨Or.inr hvn, ?_⟩
        rw [h4, ← hvn, unit_of_norm_one hv]
  · left
    refine ⟨Or.inl ?_, by rw [h4, h3 hc, unit_of_norm_one hv]⟩
    by_contra h5
    exact hc (Or.inr (not_le.mp h5))

lemma ball_not_opposite {ext : Ext d k} (hE : DirectionSpace ext) {R : ℝ} (hR : R = Real.pi * 0.5) {o : Obstacle d}
    {c : Vec d} {r κ : ℝ} (hb : IsBall o c r κ) {x v τ : Vec d} (hx : r < ‖x - c‖) (hv : ‖v‖ = 1)
    (h : TangentOf ext R o x v τ) : ¬ Opposite v τ := by
  have hxc : x - c ≠ 0 := by rintro h0; rw [h0, norm_zero] at hx; linarith [hb.radius_pos]
  rcases ball_tangents hE hR hb hx hv h with ⟨_, rfl⟩ | ⟨hq, rfl⟩
  · exact not_opposite_self hv
  · rintro ⟨s, s0, e⟩
    have h5 := (ball_perp (unit_norm hxc) hv hq).2.1
    rw [e, real_inner_smul_right, real_inner_self_eq_norm_sq, hv] at h5
    linarith

lemma ball_single {a : Avoider d} {c : Vec d} {r κ : ℝ} {t : ObstacleTree d} {o : Obstacle d} (ht : a.trees = [t])
    (hroot : t.rootIdx = 0) (ho : t.components = [o]) (hb : IsBall o c r κ) {x : Vec d} (hx : r < ‖x - c‖) :
    SingleOutside x a.trees := by
  intro t' ht'
  rw [ht, List.mem_singleton] at ht'
  subst ht'
  exact ⟨hroot, o, ho, (ball_gamma hb hx).2.le⟩

/-- The preparation outside of a ball never fails. -/
lemma ball_prepare {ext : Ext d k} (hE : DirectionSpace ext) (has : ArgsortSpec ext.argsort) {a : Avoider d}
    {c : Vec d} {r κ : ℝ} (ha : BallAvoider a c r κ) {x v : Vec d} (hx : r < ‖x - c‖) (hv : ‖v‖ = 1) :
    ∃ pr D, prepareAvoidance ext a x v = .ok pr ∧ avoidanceDirection ext pr = .ok D := by
  classical
  obtain ⟨t, o, ht, hroot, ho, hstat, hb⟩ := ha.obstacle
  have hr := hb.radius_pos
  have hpp := Real.pi_pos
  have hxc : x - c ≠ 0 := by rintro h0; rw [h0, norm_zero] at hx; linarith
  have hn := unit_norm hxc
  have hs := ball_single ht hroot ho hb hx
  have huv : unit v = v := unit_of_norm_one hv
  have hnorm : o.normal (c + r • unit (x - c)) = unit (x - c) := by
    rw [hb.normal, add_sub_cancel_left]
    have : unit (r • unit (x - c)) = (1 / ‖r • unit (x - c)‖) • (r • unit (x - c)) := rfl
    rw [this, norm_smul, hn, mul_one, Real.norm_of_nonneg hr.le, smul_smul, one_div,
      inv_mul_cancel₀ hr.ne', one_smul]
  have hsurf : o.intersection (if 1 < o.gamma x then o.referencePoint else x) (-o.reference x)
      = some (c + r • unit (x - c)) := by
    rw [if_pos (ball_gamma hb hx).2, hb.center, hb.reference, neg_neg, hb.surface _ (unit_ne_zero hxc),
      unit_of_norm_one hn]
  have hn0 : -unit (x - c) ≠ 0 := neg_ne_zero.mpr (unit_ne_zero hxc)
  have hT : HasTangent ext a.convergenceRadius o x v := by
    by_cases hq : ⟪unit (x - c), v⟫ ^ 2 < 1
    · refine C114_has_tangent ext hE o x v _ _ hv (by rw [ha.radius]; positivity) (by rw [ha.radius]; linarith)
        hb.smooth hsurf (by rw [hnorm]; exact hn) (by rw [hb.reference, norm_neg]; exact hn) ?_ ?_ ?_
      · rw [hnorm, hb.reference, InnerProductGeometry.angle_self hn0]; exact hpp
      · rw [hb.reference]; rintro rfl
        rw [inner_neg_right, real_inner_self_eq_norm_sq, hn] at hq; norm_num at hq
      · rw [hb.reference, neg_neg]; rintro rfl
        rw [real_inner_self_eq_norm_sq, hn] at hq; norm_num at hq
    · refine ⟨hb.smooth, _, hsurf, fun _ => ?_⟩
      rw [hnorm, hb.reference]
      rcases ball_axis hn hv hq with rfl | rfl
      · exact ⟨_, (ball_axis_tangent ext ha.radius hn).1, unit_ne_zero hxc⟩
      · exact ⟨_, (ball_axis_tangent ext ha.radius hn).2, hn0⟩
  obtain ⟨pr, hpr⟩ := total_prepare ha.power ha.radius.le hv hs (by
    intro t' ht' o' ho'
    rw [ht, List.mem_singleton] at ht'
    subst ht'
    rw [ho] at ho'
    cases ho'
    exact hT)
  obtain ⟨ws, τs, _, _, _, hm⟩ := single_mean ext a x v pr ha.power has ha.radius.le hs
    (by
      intro t' ht' o' ho' τ hτ
      rw [ht, List.mem_singleton] at ht'
      subst ht'
      rw [ho] at ho'
      cases ho'
      rw [huv]
      exact ball_not_opposite hE ha.radius hb hx hv hτ) hpr
  exact ⟨pr, _, hpr, hm⟩

lemma ball_direction {ext : Ext d k} (hE : DirectionSpace ext) (has : ArgsortSpec ext.argsort) {a : Avoider d}
    {c : Vec d} {r κ : ℝ} (ha : BallAvoider a c r κ) {x v D : Vec d} (hx : r < ‖x - c‖) (hv : ‖v‖ = 1)
    (hne : v ≠ -unit (x - c)) {pr : Prepared d} (hpr : prepareAvoidance ext a x v = .ok pr)
    (hD : avoidanceDirection ext pr = .ok D) :
    BallDirection a.power (unit (x - c)) v D (κ * (‖x - c‖ - r)) := by
  classical
  obtain ⟨t, o, ht, hroot, ho, hstat, hb⟩ := ha.obstacle
  have hr := hb.radius_pos
  have hxc : x - c ≠ 0 := by rintro h0; rw [h0, norm_zero] at hx; linarith
  set n := unit (x - c) with hnd
  have hn : ‖n‖ = 1 := unit_norm hxc
  obtain ⟨hg, hg1⟩ := ball_gamma hb hx
  have hpp := Real.pi_pos
  have huv : unit v = v := unit_of_norm_one hv
  have hrad : a.convergenceRadius ≤ Real.pi * 0.5 := ha.radius.le
  have hs := ball_single ht hroot ho hb hx
  have htan : ∀ τ, TangentOf ext a.convergenceRadius o x v τ →
      (0 ≤ ⟪n, v⟫ ∧ τ = v) ∨ (⟪n, v⟫ ^ 2 < 1 ∧ τ = unit (v - ⟪n, v⟫ • n)) := by
    intro τ hτ
    rcases ball_tangents hE ha.radius hb hx hv hτ with ⟨h1 | h1, h2⟩ | h
    · exact Or.inl ⟨h1, h2⟩
    · exact absurd h1 hne
    · exact Or.inr h
  obtain ⟨ws, τs, l1, l2, hd, hm⟩ := single_mean ext a x v pr ha.power has hrad hs
    (by
      intro t' ht' o' ho' τ hτ
      rw [ht, List.mem_singleton] at ht'
      subst ht'
      rw [ho] at ho'
      cases ho'
      rw [huv]
      exact ball_not_opposite hE ha.radius hb hx hv hτ) hpr
  rw [hD] at hm
  rw [ht] at l1 l2
  obtain ⟨w, rfl⟩ := List.length_eq_one_iff.mp l1
  obtain ⟨τ, rfl⟩ := List.length_eq_one_iff.mp l2
  obtain ⟨w0, w1, w2, w3⟩ := hd 0 t o w τ (by rw [ht]; rfl) ho rfl rfl
  obtain ⟨w', e1, e2, e3, _, e4⟩ := C32_range_partial ext.angleOf (o.normal x) (o.reference x) v (o.gamma x)
    (Real.pi * 0.5) a.power (Real.pi * 0.5) ha.power
  rw [w1] at e1
  cases e1
  have hwlt : w < 1 := lt_of_le_of_lt (e4 hg1) (by rw [div_lt_one (by linarith)]; exact hg1)
  have hlim : (getLimitedWeightsToMaxSum [w]).1 = [w] := by
    unfold getLimitedWeightsToMaxSum
    rw [if_pos (by simpa using hwlt)]
  rw [hlim] at hm
  simp only [List.zipWith_cons_cons, List.zipWith_nil_left, List.sum_cons, List.sum_nil, add_zero, huv] at hm
  cases hm
  rw [hb.normal, hb.reference, ← hnd, hg] at w1
  have hwneg : ⟪n, v⟫ < 0 → 0 < w ∧ 1 - w
      ≤ ballPower a.power (InnerProductGeometry.angle (-n) v) * (κ * (‖x - c‖ - r)) := by
    intro hq
    have := ball_weight hE hn hv hq hne (by rw [← hg]; exact hg1) ha.power w1
    rw [add_sub_cancel_left] at this
    exact this
  have hcase : (0 ≤ ⟪n, v⟫ ∧ τ = v) ∨ (⟪n, v⟫ ^ 2 < 1 ∧ τ = unit (v - ⟪n, v⟫ • n)) := by
    by_cases hw : 0 < w
    · exact htan τ (w2 hw)
    · left
      refine ⟨?_, by rw [w3 (not_lt.mp hw), huv]⟩
      by_contra hc
      exact hw (hwneg (not_le.mp hc)).1
  rcases hcase with ⟨hq, rfl⟩ | ⟨hq, hτ⟩
  · rw [codeLog_self hv, smul_zero, star_exp_zero]
    exact ⟨hv, Or.inl ⟨w, w0, hwlt.le, ballStep_away hv hq w, fun h => (hwneg h).2⟩⟩
  · obtain ⟨hz, hpos, horth⟩ := ball_perp hn hv hq
    rw [← hτ] at hpos horth
    have hτn : ‖τ‖ = 1 := by rw [hτ]; exact unit_norm hz
    have hop' : ¬ Opposite v τ := by
      rintro ⟨s, s0, e⟩
      rw [e, real_inner_smul_right, real_inner_self_eq_norm_sq, hv] at hpos
      linarith
    obtain ⟨f1, f2, f3⟩ := codeLog_facts hv hτn hop'
    have hwl : ⟪v, w • codeLog v τ⟫ = 0 := by rw [real_inner_smul_right, f1, mul_zero]
    have hDn := star_exp_unit hv hwl
    by_cases hcl : v = τ ∨ ¬ allclose v τ
    · have hst := ball_step hn hv hq w0 hwlt.le
      rw [← hτ, ← f3 hcl] at hst
      exact ⟨hDn, Or.inl ⟨w, w0, hwlt.le, hst, fun h => (hwneg h).2⟩⟩
    · push Not at hcl
      have hcn := allclose_norm hτn hcl.2
      refine ⟨hDn, Or.inr ⟨?_, ?_⟩⟩
      · have : ⟪n, v⟫ = ⟪n, v - τ⟫ := by rw [inner_sub_right, horth, sub_zero]
        rw [this]
        refine (abs_real_inner_le_norm _ _).trans ?_
        rw [hn, one_mul]; exact hcn
      · rw [norm_sub_rev]
        refine (norm_sub_le_angle hv hDn).trans ((star_exp_angle hv hwl).trans ?_)
        rw [norm_smul, f2, Real.norm_of_nonneg w0]
        calc w * InnerProductGeometry.angle v τ ≤ 1 * InnerProductGeometry.angle v τ :=
              mul_le_mul_of_nonneg_right hwlt.le (InnerProductGeometry.angle_nonneg _ _)
          _ ≤ Real.pi / 2 * ‖v - τ‖ := by rw [one_mul]; exact angle_le_norm_sub hv hτn
          _ ≤ _ := mul_le_mul_of_nonneg_left hcn (by positivity)

lemma ball_sane {o : Obstacle d} {c : Vec d} {r κ : ℝ} (hb : IsBall o c r κ) : SaneObstacle o where
  gamma_nonneg := by
    intro y
    rcases le_or_gt r ‖y - c‖ with h | h
    · rw [hb.outside y h]
      have := mul_nonneg hb.scale_pos.le (sub_nonneg.mpr h)
      linarith
    · exact (hb.inside y h).1
  normal_le := by
    intro y
    rw [hb.normal]
    by_cases h : y - c = 0
    · rw [h]; simp [unit]
    · exact (unit_norm h).le
  reference_le := by
    intro y
    rw [hb.reference, norm_neg]
    by_cases h : y - c = 0
    · rw [h]; simp [unit]
    · exact (unit_norm h).le

/-- The velocity outside of a ball: no motion, or a multiple of the avoidance direction. -/
lemma ball_velocity {ext : Ext d k} (hE : DirectionSpace ext) (has : ArgsortSpec ext.argsort) {a : Avoider d}
    {c : Vec d} {r κ : ℝ} (ha : BallAvoider a c r κ) {x vel : Vec d} (hx : r < ‖x - c‖)
    (hdir : ∀ v, ConvergenceDirection ext a x v → ‖v‖ = 1 ∧ v ≠ -unit (x - c))
    (hmag : 0 ≤ a.magnitude x) (h : a.evaluate ext x = .ok vel) :
    vel = 0 ∨ ∃ v D l, ConvergenceDirection ext a x v ∧ 0 ≤ l ∧ l ≤ max 1 (a.magnitude x) ∧ vel = l • D
      ∧ BallDirection a.power (unit (x - c)) v D (κ * (‖x - c‖ - r)) := by
  classical
  obtain ⟨t, o, ht, hroot, ho, hstat, hb⟩ := ha.obstacle
  have hne : a.trees ≠ [] := by rw [ht]; simp
  have hs : SaneTrees a.trees := by
    intro t' ht' o' ho'
    rw [ht, List.mem_singleton] at ht'
    subst ht'
    rw [ho, List.mem_singleton] at ho'
    subst ho'
    exact ball_sane hb
  have hstatic : ∀ t ∈ a.trees, Static t := by
    intro t' ht'
    rw [ht, List.mem_singleton] at ht'
    subst ht'
    exact hstat
  have hone : AtMostOneContact x a.trees := by
    rw [ht]; exact List.pairwise_singleton _ _
  rcases evaluate_run hne h with ⟨rfl, _⟩ | ⟨pr, rel, final, hpr, hrel, hf, hsl⟩
  · exact Or.inl rfl
  right
  obtain ⟨s, conv, u, h1, h2, h3, hprep⟩ := hpr
  obtain ⟨hu, hun⟩ := hdir u ⟨s, conv, h1, h2, h3⟩
  have hB := ball_direction hE has ha hx hu hun hprep hf
  have hr0 := relative_static hstatic hrel
  suffices hl : ∃ l, 0 ≤ l ∧ l ≤ max 1 (a.magnitude x) ∧ vel = l • final by
    obtain ⟨l, l0, l1, e⟩ := hl
    exact ⟨u, final, l, ⟨s, conv, h1, h2, h3⟩, l0, l1, e, hB⟩
  have hu1 := hB.unit
  obtain ⟨Ds, hD, _, hnorm, hslow, _, _, hin, _, _, hpos, _⟩ := prepared_facts ha.power hs hprep
  have hle := cluster_le_one ha.power hs hone hprep
  unfold slowDown at hsl
  split at hsl
  · cases hsl
    exact ⟨1, zero_le_one, le_max_left _ _, by rw [hr0, add_zero, one_smul]⟩
  · rename_i m hm
    obtain ⟨prox, h4, hsl⟩ := bind_ok.mp hsl
    obtain ⟨cf, h5, hsl⟩ := bind_ok.mp hsl
    rw [if_neg (by rw [hu1]; norm_num)] at hsl
    cases hsl
    obtain ⟨p', hp', p0, p1⟩ := C35_scaling_range final
      (List.zipWith (fun (n : Vec d) w => w • n) pr.normals pr.cluster).sum (1 / m) 0.8 3 (le_of_eq hu1)
      ((averaged_le (by rw [hnorm]; exact normals_le hs hD) (fun w hw => (hin w hw).1)).trans hle)
      (by norm_num) (by norm_num)
    rw [h4] at hp'
    injection hp' with hp'
    subst hp'
    have hsne : pr.slow ≠ [] := by
      rw [hslow]
      intro h0
      have := hD.length_eq
      rw [List.map_eq_nil_iff.mp h0, List.length_zipIdx] at this
      exact hne (List.length_eq_zero_iff.mp this)
    obtain ⟨c', hc', c0, c1, _⟩ := C36_slowfactor pr.slow 0.2 hsne (by norm_num)
      (by rw [hslow]; exact slow_le ha.power hs hD)
    rw [h5] at hc'
    injection hc' with hc'
    subst hc'
    refine ⟨a.magnitude x * min cf prox, mul_nonneg hmag (le_min c0 p0), ?_, ?_⟩
    · refine le_max_of_le_right ?_
      calc a.magnitude x * min cf prox ≤ a.magnitude x * 1 :=
            mul_le_mul_of_nonneg_left (min_le_of_left_le c1) hmag
        _ = a.magnitude x := mul_one _
    · rw [hr0, add_zero, hu1, div_one]

lemma ball_trees {a : Avoider d} {c : Vec d} {r κ : ℝ} {t : ObstacleTree d} {o : Obstacle d} (ht : a.trees = [t])
    (ho : t.components = [o]) (hstat : Static t) (hb : IsBall o c r κ) :
    SaneTrees a.trees ∧ (∀ t ∈ a.trees, Static t) ∧ ∀ t ∈ a.trees, t.components ≠ [] := by
  refine ⟨?_, ?_, ?_⟩
  · intro t' ht' o' ho'
    rw [ht, List.mem_singleton] at ht'
    subst ht'
    rw [ho, List.mem_singleton] at ho'
    subst ho'
    exact ball_sane hb
  · intro t' ht'
    rw [ht, List.mem_singleton] at ht'
    subst ht'
    exact hstat
  · intro t' ht'
    rw [ht, List.mem_singleton] at ht'
    subst ht'
    rw [ho]; simp

/-- The velocity outside of a ball is defined whenever the convergence direction is. -/
lemma ball_defined {ext : Ext d k} (hE : DirectionSpace ext) (has : ArgsortSpec ext.argsort) {a : Avoider d}
    {c : Vec d} {r κ : ℝ} (ha : BallAvoider a c r κ) {x v : Vec d} (hx : r < ‖x - c‖)
    (hc : ConvergenceDirection ext a x v) (hv : ‖v‖ = 1) :
    ∃ vel, a.evaluate ext x = .ok vel := by
  classical
  obtain ⟨t, o, ht, hroot, ho, hstat, hb⟩ := ha.obstacle
  obtain ⟨hs, hstatic, hnil⟩ := ball_trees ht ho hstat hb
  have hne : a.trees ≠ [] := by rw [ht]; simp
  have hxc : x - c ≠ 0 := by rintro h0; rw [h0, norm_zero] at hx; linarith [hb.radius_pos]
  have hone : AtMostOneContact x a.trees := by
    rw [ht]; exact List.pairwise_singleton _ _
  obtain ⟨s, conv, h1, h2, h3⟩ := hc
  obtain ⟨pr, D, hpr, hD⟩ := ball_prepare hE has ha hx hv
  have hrel := C60_static x a.trees hstatic hnil
  obtain ⟨Ds, hDs, _, hnorm, hslow, _, _, hin, _, _, hpos, _⟩ := prepared_facts ha.power hs hpr
  have hle := cluster_le_one ha.power hs hone hpr
  suffices hw : ∃ w, slowDown (a.magnitude x) 0 D pr = .ok w by
    obtain ⟨w, hw⟩ := hw
    refine ⟨w, ?_⟩
    unfold Avoider.evaluate evaluateSequence
    refine bind_ok.mpr ⟨_, h1, ?_⟩
    simp only
    rw [if_neg hne]
    exact bind_ok.mpr ⟨0, hrel, bind_ok.mpr ⟨conv, h2, bind_ok.mpr ⟨_, h3,
      bind_ok.mpr ⟨pr, hpr, bind_ok.mpr ⟨D, hD, hw⟩⟩⟩⟩⟩
  have hu1 : ‖D‖ = 1 := by
    have hs' := ball_single ht hroot ho hb hx
    have huv : unit v = v := unit_of_norm_one hv
    obtain ⟨ws, τs, l1, l2, hd, hm⟩ := single_mean ext a x v pr ha.power has ha.radius.le hs'
      (by
        intro t' ht' o' ho' τ hτ
        rw [ht, List.mem_singleton] at ht'
        subst ht'
        rw [ho] at ho'
        cases ho'
        rw [huv]
        exact ball_not_opposite hE ha.radius hb hx hv hτ) hpr
    rw [hD] at hm
    rw [ht] at l1 l2
    obtain ⟨w, rfl⟩ := List.length_eq_one_iff.mp l1
    obtain ⟨τ, rfl⟩ := List.length_eq_one_iff.mp l2
    obtain ⟨w0, w1, w2, w3⟩ := hd 0 t o w τ (by rw [ht]; rfl) ho rfl rfl
    have hlog : ∀ l : List ℝ, ⟪v, (List.zipWith (fun w τ => w • codeLog v τ) l [τ]).sum⟫ = 0 := by
      intro l
      cases l with
      | nil => simp
      | cons b bs =>
        rw [List.zipWith_cons_cons, List.zipWith_nil_right, List.sum_singleton, real_inner_smul_right]
        by_cases hw : 0 < w
        · have hτ := w2 hw
          have hτ1 : ‖τ‖ = 1 := by
            rcases ball_tangents hE ha.radius hb hx hv hτ with ⟨_, rfl⟩ | ⟨hq, rfl⟩
            · exact hv
            · exact unit_norm (ball_perp (unit_norm hxc) hv hq).1
          rw [(codeLog_facts hv hτ1 (ball_not_opposite hE ha.radius hb hx hv hτ)).1, mul_zero]
        · rw [w3 (not_lt.mp hw), huv, codeLog_self hv, inner_zero_right, mul_zero]
    simp only [huv] at hm
    cases hm
    exact star_exp_unit hv (hlog _)
  unfold slowDown
  cases hm : pr.cluster.max? with
  | none => exact ⟨_, rfl⟩
  | some m =>
    obtain ⟨p', hp', _⟩ := C35_scaling_range D
      (List.zipWith (fun (n : Vec d) w => w • n) pr.normals pr.cluster).sum (1 / m) 0.8 3
      (le_of_eq hu1)
      ((averaged_le (by rw [hnorm]; exact normals_le hs hDs) (fun w hw => (hin w hw).1)).trans hle)
      (by norm_num) (by norm_num)
    have hsne : pr.slow ≠ [] := by
      rw [hslow]
      intro h0
      have := hDs.length_eq
      rw [List.map_eq_nil_iff.mp h0, List.length_zipIdx] at this
      exact hne (List.length_eq_zero_iff.mp this)
    obtain ⟨c', hc', _⟩ := C36_slowfactor pr.slow 0.2 hsne (by norm_num)
      (by rw [hslow]; exact slow_le ha.power hs hDs)
    exact ⟨_, bind_ok.mpr ⟨p', hp', bind_ok.mpr ⟨c', hc', if_neg (by rw [hu1]; norm_num)⟩⟩⟩

/-- The weight of a ball vanishes straight ahead and straight behind. -/
lemma ball_axis_weight {ext : Ext d k} (hE : DirectionSpace ext) {n v : Vec d} (hn : ‖n‖ = 1)
    (hv : v = n ∨ v = -n) {g power : ℝ} (hg : 1 < g) (hp : 0 < power) :
    getRotationWeight ext.angleOf n (-n) v g (power := power) = .ok 0 := by
  have hpp := Real.pi_pos
  have hself : ∀ m : Vec d, ‖m‖ = 1 → ‖ext.angleOf m m‖ = 0 := by
    intro m hm
    obtain ⟨E, _, e2, _⟩ := hE.chart m hm
    rw [← E.norm_map, e2 m hm (not_opposite_self hm), star_log_self, norm_zero]
  have hcos : Real.cos (Real.pi * 0.5) = 0 := by
    rw [show Real.pi * 0.5 = Real.pi / 2 by ring, Real.cos_pi_div_two]
  unfold getRotationWeight
  rw [if_neg (not_le.mpr hg)]
  rcases hv with rfl | rfl
  · have h1 : ⟪v, v⟫ > Real.cos (Real.pi * 0.5) := by
      rw [hcos, real_inner_self_eq_norm_sq, hn]; norm_num
    simp only [if_pos h1, neg_one_smul, neg_neg, sub_self, norm_zero, hself v hn, sub_zero, min_self]
    rw [if_neg (by push Not; positivity), if_pos trivial, if_pos hp]
  · have h1 : ¬ ⟪-n, n⟫ > Real.cos (Real.pi * 0.5) := by
      rw [hcos, inner_neg_left, real_inner_self_eq_norm_sq, hn]; norm_num
    simp only [if_neg h1, neg_one_smul, sub_self, norm_zero, hself (-n) (by rwa [norm_neg]), sub_zero, min_self]
    rw [if_neg (by push Not; positivity), if_pos trivial, if_pos hp]

/-- Straight ahead and straight behind a ball the avoider moves with unit speed in the convergence direction. -/
lemma ball_axis_evaluate {ext : Ext d k} (hE : DirectionSpace ext) (has : ArgsortSpec ext.argsort) {a : Avoider d}
    {c : Vec d} {r κ : ℝ} (ha : BallAvoider a c r κ) (hp : 0 < a.power) {x v : Vec d} (hx : r < ‖x - c‖)
    (hc : ConvergenceDirection ext a x v) (hv : v = unit (x - c) ∨ v = -unit (x - c)) :
    a.evaluate ext x = .ok v := by
  classical
  obtain ⟨t, o, ht, hroot, ho, hstat, hb⟩ := ha.obstacle
  obtain ⟨hs, hstatic, hnil⟩ := ball_trees ht ho hstat hb
  have hne : a.trees ≠ [] := by rw [ht]; simp
  have hxc : x - c ≠ 0 := by rintro h0; rw [h0, norm_zero] at hx; linarith [hb.radius_pos]
  have hn := unit_norm hxc
  have hv1 : ‖v‖ = 1 := by
    rcases hv with rfl | rfl
    · exact hn
    · rw [norm_neg]; exact hn
  have huv : unit v = v := unit_of_norm_one hv1
  obtain ⟨s, conv, h1, h2, h3⟩ := hc
  obtain ⟨pr, D, hpr, hD⟩ := ball_prepare hE has ha hx hv1
  have hrel := C60_static x a.trees hstatic hnil
  have hs' := ball_single ht hroot ho hb hx
  obtain ⟨ws, τs, l1, l2, hd, hm⟩ := single_mean ext a x v pr ha.power has ha.radius.le hs'
    (by
      intro t' ht' o' ho' τ hτ
      rw [ht, List.mem_singleton] at ht'
      subst ht'
      rw [ho] at ho'
      cases ho'
      rw [huv]
      exact ball_not_opposite hE ha.radius hb hx hv1 hτ) hpr
  rw [hD] at hm
  rw [ht] at l1 l2
  obtain ⟨w, rfl⟩ := List.length_eq_one_iff.mp l1
  obtain ⟨τ, rfl⟩ := List.length_eq_one_iff.mp l2
  obtain ⟨w0, w1, w2, w3⟩ := hd 0 t o w τ (by rw [ht]; rfl) ho rfl rfl
  have hzero := ball_axis_weight hE hn hv (ball_gamma hb hx).2 hp
  have hzero' : getRotationWeight ext.angleOf (o.normal x) (o.reference x) v (o.gamma x) (power := a.power)
      = .ok 0 := by rw [hb.normal, hb.reference]; exact hzero
  rw [hzero'] at w1
  cases w1
  have hτ := w3 le_rfl
  rw [huv] at hτ
  have hDv : D = v := by
    simp only [huv] at hm
    cases hm
    have : (List.zipWith (fun w τ => w • codeLog v τ) (getLimitedWeightsToMaxSum [0]).1 [τ]).sum = 0 := by
      rw [hτ]
      cases (getLimitedWeightsToMaxSum [0]).1 with
      | nil => simp
      | cons b bs =>
        rw [List.zipWith_cons_cons, List.zipWith_nil_right, List.sum_singleton, codeLog_self hv1, smul_zero]
    rw [this, star_exp_zero]
  obtain ⟨Ds, g1, _, _, _, _, _, g2, _, _⟩ := single_prepare ha.power hs' ha.radius.le hpr
  have hcl : pr.cluster = [] := by
    rw [ht] at g1
    simp only [List.zipIdx_cons, List.zipIdx_nil] at g1
    cases g1 with
    | cons e1 e2 =>
      cases e2
      obtain ⟨o', f1, f2, _⟩ := e1
      simp only at f1
      rw [ho] at f1
      cases f1
      rw [hzero'] at f2
      injection f2 with f2
      rw [g2]
      simp only [List.map_cons, List.map_nil, ← f2, lt_irrefl, if_false]
      unfold clusterWeights
      cases (getLimitedWeightsToMaxSum [0]).1 <;> simp
  unfold Avoider.evaluate evaluateSequence
  refine bind_ok.mpr ⟨_, h1, ?_⟩
  simp only
  rw [if_neg hne]
  refine bind_ok.mpr ⟨0, hrel, bind_ok.mpr ⟨conv, h2, bind_ok.mpr ⟨_, h3,
    bind_ok.mpr ⟨pr, hpr, bind_ok.mpr ⟨D, hD, ?_⟩⟩⟩⟩⟩
  unfold slowDown
  rw [hcl, hDv]
  simp

end Verif
