import Verif.Model.Limb

/-!
# C66: orientation of a measured limb
-/

set_option linter.unusedSimpArgs false

namespace Verif

open MultiBody

lemma norm_vec3 (v : Vec 3) : ‖v‖ ^ 2 = v 0 ^ 2 + v 1 ^ 2 + v 2 ^ 2 := by
  rw [EuclideanSpace.norm_sq_eq]
  simp [Fin.sum_univ_three]

lemma limbQuat_apply (a : Vec 3) (ha : ‖a‖ = 1) (hs : ¬ (a 0 = 0 ∧ a 1 = 0)) :
    (limbQuat a).apply !₂[0, 0, 1] = !₂[a 0, a 1, -|a 2|] := by
  set r : Vec 3 := !₂[-(a 1), a 0, 0] with hr
  have hr0 : r 0 = -(a 1) := rfl
  have hr1 : r 1 = a 0 := rfl
  have hr2 : r 2 = 0 := rfl
  have hn := norm_vec3 a
  rw [ha] at hn
  have hrn : ‖r‖ ^ 2 = a 0 ^ 2 + a 1 ^ 2 := by rw [norm_vec3, hr0, hr1, hr2]; ring
  have hne : ‖r‖ ≠ 0 := by
    intro h
    rw [h] at hrn
    apply hs
    constructor <;> nlinarith [sq_nonneg (a 0), sq_nonneg (a 1)]
  have hle : ‖r‖ ≤ 1 := by
    have : ‖r‖ ^ 2 ≤ 1 := by nlinarith [sq_nonneg (a 2)]
    nlinarith [norm_nonneg r]
  set th := Real.arcsin ‖r‖ with hth
  have hsin : Real.sin th = ‖r‖ := Real.sin_arcsin (by linarith [norm_nonneg r]) hle
  have hcos : Real.cos th = |a 2| := by
    rw [hth, Real.cos_arcsin, hrn]
    rw [show 1 - (a 0 ^ 2 + a 1 ^ 2) = a 2 ^ 2 by linarith]
    exact Real.sqrt_sq_eq_abs _
  have h2s : 2 * Real.sin (th / 2) * Real.cos (th / 2) = ‖r‖ := by
    rw [← Real.sin_two_mul, mul_div_cancel₀ _ (two_ne_zero), hsin]
  have h2c : 2 * Real.cos (th / 2) ^ 2 - 1 = |a 2| := by
    rw [← Real.cos_two_mul, mul_div_cancel₀ _ (two_ne_zero), hcos]
  have hq : limbQuat a = ⟨(1 / ‖r‖) * -(a 1) * Real.cos (th / 2), (1 / ‖r‖) * a 0 * Real.cos (th / 2),
      (1 / ‖r‖) * 0 * Real.cos (th / 2), Real.sin (th / 2)⟩ := by
    unfold limbQuat
    simp only
    rw [if_pos hne]
    rfl
  rw [hq]
  unfold Quat.apply
  simp only [PiLp.toLp_apply, Matrix.cons_val_zero, Matrix.cons_val_one, Matrix.cons_val_two,
    Matrix.head_cons, Matrix.tail_cons, Matrix.cons_val]
  ext i
  fin_cases i
  · simp only [Fin.zero_eta, PiLp.toLp_apply, Matrix.cons_val_zero]
    field_simp
    linear_combination (‖r‖ * a 0) * h2s
  · simp only [Fin.mk_one, PiLp.toLp_apply, Matrix.cons_val_one, Matrix.cons_val_zero]
    field_simp
    linear_combination (‖r‖ * a 1) * h2s
  · simp only [Fin.reduceFinMk, PiLp.toLp_apply, Matrix.cons_val]
    have h1 : (1 / ‖r‖) ^ 2 * (a 0 ^ 2 + a 1 ^ 2) = 1 := by
      rw [← hrn]; field_simp
    linear_combination (-2 * Real.cos (th / 2) ^ 2) * h1 - h2c

/-- C66 (partial): if a limb is measured below (or level with) the attachment point, but not exactly
below, its own vertical axis is turned into the direction from the attachment point to the measured
position.

Missing for the full property: limbs measured above the attachment point (`C66_above`) or exactly
below it (`C66_exactly_below`), for which it is false. -/
theorem C66_below_partial (position attachment : Vec 3)
    (h : ¬ ((position - attachment) 0 = 0 ∧ (position - attachment) 1 = 0))
    (hz : (position - attachment) 2 ≤ 0) :
    ∃ q, limbOrientation position attachment = some q
      ∧ ‖position - attachment‖ • q.apply !₂[0, 0, 1] = position - attachment := by
  set v := position - attachment with hv
  have hvn : ‖v‖ ≠ 0 := by
    intro e
    rw [norm_eq_zero] at e
    apply h; rw [e]; exact ⟨rfl, rfl⟩
  have hpos : 0 < ‖v‖ := lt_of_le_of_ne (norm_nonneg _) (Ne.symm hvn)
  refine ⟨limbQuat ((1 / ‖v‖) • v), ?_, ?_⟩
  · unfold limbOrientation
    rw [← hv, if_neg hvn]
  · have hun : ‖(1 / ‖v‖) • v‖ = 1 := by
      rw [norm_smul, Real.norm_of_nonneg (by positivity)]; field_simp
    have hget : ∀ i, ((1 / ‖v‖) • v) i = 1 / ‖v‖ * v i := fun i => rfl
    rw [limbQuat_apply _ hun]
    · ext i
      fin_cases i
      · simp only [Fin.zero_eta, PiLp.smul_apply, PiLp.toLp_apply, Matrix.cons_val_zero, smul_eq_mul]
        field_simp
      · simp only [Fin.mk_one, PiLp.smul_apply, PiLp.toLp_apply, Matrix.cons_val_one,
          Matrix.cons_val_zero, smul_eq_mul]
        field_simp
      · simp only [Fin.reduceFinMk, PiLp.smul_apply, PiLp.toLp_apply, Matrix.cons_val, smul_eq_mul]
        rw [abs_mul, abs_of_nonneg (show (0 : ℝ) ≤ 1 / ‖v‖ by positivity), abs_of_nonpos hz]
        field_simp
    · rintro ⟨h0, h1⟩
      apply h
      rw [hget] at h0 h1
      have : 1 / ‖v‖ ≠ 0 := by positivity
      exact ⟨(mul_eq_zero.mp h0).resolve_left this, (mul_eq_zero.mp h1).resolve_left this⟩

/-- C66: a limb measured exactly above the attachment point is upright, and without any offset the
orientation is left as it is. -/
theorem C66_special (position attachment : Vec 3) :
    (position = attachment → limbOrientation position attachment = none)
    ∧ ((position - attachment) 0 = 0 → (position - attachment) 1 = 0 →
      0 < (position - attachment) 2 → ∃ q, limbOrientation position attachment = some q
        ∧ ‖position - attachment‖ • q.apply !₂[0, 0, 1] = position - attachment) := by
  constructor
  · rintro rfl
    unfold limbOrientation
    simp
  · intro h0 h1 h2
    set v := position - attachment with hv
    have hn : ‖v‖ = v 2 := by
      have := norm_vec3 v
      rw [h0, h1] at this
      nlinarith [norm_nonneg v]
    have hvn : ‖v‖ ≠ 0 := by rw [hn]; exact h2.ne'
    refine ⟨⟨0, 0, 0, 1⟩, ?_, ?_⟩
    · unfold limbOrientation
      rw [← hv, if_neg hvn]
      congr 1
      unfold limbQuat
      simp only
      have hz : (!₂[-(((1 / ‖v‖) • v) 1), ((1 / ‖v‖) • v) 0, 0] : Vec 3) = 0 := by
        ext i
        fin_cases i <;> simp [h0, h1]
      rw [if_neg (by rw [hz]; simp)]
    · ext i
      fin_cases i
      · simp [Quat.apply, h0]
      · simp [Quat.apply, h1]
      · simp [Quat.apply, hn]

/-- C66, negative result: a limb measured above the attachment point (but not exactly above) is
mirrored: its axis points downwards. -/
theorem C66_above (position attachment : Vec 3)
    (h : ¬ ((position - attachment) 0 = 0 ∧ (position - attachment) 1 = 0))
    (hz : 0 < (position - attachment) 2) :
    ∃ q, limbOrientation position attachment = some q
      ∧ (‖position - attachment‖ • q.apply !₂[0, 0, 1]) 2 = -((position - attachment) 2)
      ∧ ‖position - attachment‖ • q.apply !₂[0, 0, 1] ≠ position - attachment := by
  set v := position - attachment with hv
  have hvn : ‖v‖ ≠ 0 := by
    intro e
    rw [norm_eq_zero] at e
    apply h; rw [e]; exact ⟨rfl, rfl⟩
  have hpos : 0 < ‖v‖ := lt_of_le_of_ne (norm_nonneg _) (Ne.symm hvn)
  have hget : ∀ i, ((1 / ‖v‖) • v) i = 1 / ‖v‖ * v i := fun i => rfl
  have key : (‖v‖ • (limbQuat ((1 / ‖v‖) • v)).apply !₂[0, 0, 1]) 2 = -(v 2) := by
    have hun : ‖(1 / ‖v‖) • v‖ = 1 := by
      rw [norm_smul, Real.norm_of_nonneg (by positivity)]; field_simp
    rw [limbQuat_apply _ hun]
    · simp only [PiLp.smul_apply, PiLp.toLp_apply, Matrix.cons_val, smul_eq_mul]
      rw [abs_mul, abs_of_nonneg (show (0 : ℝ) ≤ 1 / ‖v‖ by positivity), abs_of_pos hz]
      field_simp
    · rintro ⟨h0, h1⟩
      apply h
      rw [hget] at h0 h1
      have : 1 / ‖v‖ ≠ 0 := by positivity
      exact ⟨(mul_eq_zero.mp h0).resolve_left this, (mul_eq_zero.mp h1).resolve_left this⟩
  refine ⟨limbQuat ((1 / ‖v‖) • v), ?_, key, ?_⟩
  · unfold limbOrientation
    rw [← hv, if_neg hvn]
  · intro e
    rw [e] at key
    linarith

/-- C66, negative result: a limb measured exactly below the attachment point points upwards. -/
theorem C66_exactly_below (position attachment : Vec 3) (h0 : (position - attachment) 0 = 0)
    (h1 : (position - attachment) 1 = 0) (hz : (position - attachment) 2 < 0) :
    ∃ q, limbOrientation position attachment = some q
      ∧ ‖position - attachment‖ • q.apply !₂[0, 0, 1] = -(position - attachment) := by
  set v := position - attachment with hv
  have hn : ‖v‖ = -(v 2) := by
    have := norm_vec3 v
    rw [h0, h1] at this
    nlinarith [norm_nonneg v]
  have hvn : ‖v‖ ≠ 0 := by rw [hn]; linarith
  refine ⟨⟨0, 0, 0, 1⟩, ?_, ?_⟩
  · unfold limbOrientation
    rw [← hv, if_neg hvn]
    congr 1
    unfold limbQuat
    simp only
    have hz : (!₂[-(((1 / ‖v‖) • v) 1), ((1 / ‖v‖) • v) 0, 0] : Vec 3) = 0 := by
      ext i
      fin_cases i <;> simp [h0, h1]
    rw [if_neg (by rw [hz]; simp)]
  · ext i
    fin_cases i
    · simp [Quat.apply, h0]
    · simp [Quat.apply, h1]
    · simp [Quat.apply, hn]

/-- The quaternion has length one. -/
lemma limbQuat_unit (a : Vec 3) : (limbQuat a).x ^ 2 + (limbQuat a).y ^ 2 + (limbQuat a).z ^ 2 + (limbQuat a).w ^ 2 = 1 := by
  unfold limbQuat
  simp only
  split_ifs with h
  · set r : Vec 3 := !₂[-(a 1), a 0, 0] with hr
    have hrn := norm_vec3 r
    have hu : ∀ i, ((1 / ‖r‖) • r) i = 1 / ‖r‖ * r i := fun i => rfl
    simp only [hu]
    have h1 : (1 / ‖r‖) ^ 2 * (r 0 ^ 2 + r 1 ^ 2 + r 2 ^ 2) = 1 := by
      rw [← hrn]; field_simp
    linear_combination (Real.cos (Real.arcsin ‖r‖ / 2)) ^ 2 * h1 + Real.sin_sq_add_cos_sq (Real.arcsin ‖r‖ / 2)
  · norm_num

/-- C66: the new orientation is always a rotation: it keeps all lengths and angles, so that the limb is not deformed,
wherever it is measured. -/
theorem C66_rigid (position attachment : Vec 3) (q : Quat) (h : limbOrientation position attachment = some q)
    (v w : Vec 3) : inner ℝ (q.apply v) (q.apply w) = inner ℝ v w := by
  have hq : q.x ^ 2 + q.y ^ 2 + q.z ^ 2 + q.w ^ 2 = 1 := by
    unfold limbOrientation at h
    split_ifs at h
    cases h
    exact limbQuat_unit _
  simp only [Quat.apply, EuclideanSpace.inner_eq_star_dotProduct, dotProduct, Fin.sum_univ_three, star_trivial,
    Matrix.cons_val_zero, Matrix.cons_val_one, Matrix.cons_val]
  linear_combination 4 * ((q.y * v 2 - q.z * v 1) * (q.y * w 2 - q.z * w 1) + (q.z * v 0 - q.x * v 2) * (q.z * w 0 - q.x * w 2)
    + (q.x * v 1 - q.y * v 0) * (q.x * w 1 - q.y * w 0)) * hq

/-- C66 is not vacuous. -/
example : ¬ ((!₂[3, 0, -4] - 0 : Vec 3) 0 = 0 ∧ (!₂[3, 0, -4] - 0 : Vec 3) 1 = 0)
    ∧ (!₂[3, 0, -4] - 0 : Vec 3) 2 ≤ 0 ∧ 0 < (!₂[3, 0, 4] - 0 : Vec 3) 2
    ∧ (!₂[0, 0, -4] - 0 : Vec 3) 2 < 0 := by
  simp

end Verif
