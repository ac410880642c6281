import Verif.Model.LyapunovDirection
import Mathlib.Analysis.InnerProductSpace.PiL2
import Mathlib.Tactic.Linarith
import Mathlib.Tactic.FieldSimp

/-! # C154: the Lyapunov directions of the local dynamics -/

open scoped RealInnerProductSpace

namespace Verif.LyapunovDirection

variable {d : ℕ}

lemma ofLinear_away {a x : Vec d} (h : x ≠ a) : ofLinear a x = (1 / ‖a - x‖) • (a - x) := by
  unfold ofLinear
  rw [if_neg (norm_ne_zero_iff.mpr (sub_ne_zero.mpr h.symm))]

/-- C154: away from the attractor the direction has length one; at the attractor it is zero. -/
theorem C154_unit (a x : Vec d) : (x ≠ a → ‖ofLinear a x‖ = 1) ∧ ofLinear a a = 0 := by
  constructor
  · intro h
    have h0 : ‖a - x‖ ≠ 0 := norm_ne_zero_iff.mpr (sub_ne_zero.mpr h.symm)
    rw [ofLinear_away h, norm_smul, Real.norm_of_nonneg (by positivity)]
    field_simp
  · unfold ofLinear
    rw [if_pos (by simp)]

/-- C154: a step along the direction, not beyond the attractor, reduces the distance to the attractor by the length of
the step. -/
theorem C154_descent (a x : Vec d) (t : ℝ) (ht0 : 0 ≤ t) (ht : t ≤ ‖a - x‖) :
    ‖a - (x + t • ofLinear a x)‖ = ‖a - x‖ - t := by
  by_cases h : x = a
  · subst h
    have : t = 0 := le_antisymm (by simpa using ht) ht0
    simp [this]
  · have h0 : 0 < ‖a - x‖ := norm_pos_iff.mpr (sub_ne_zero.mpr (Ne.symm h))
    have e : a - (x + t • ofLinear a x) = (1 - t / ‖a - x‖) • (a - x) := by
      rw [ofLinear_away h, sub_smul, one_smul, smul_smul, mul_one_div]
      abel
    have h1 : t / ‖a - x‖ ≤ 1 := (div_le_one h0).mpr ht
    rw [e, norm_smul, Real.norm_of_nonneg (by linarith)]
    field_simp

/-- C154: no step of the same length in any other direction comes as close to the attractor. -/
theorem C154_steepest (a x v : Vec d) (hx : x ≠ a) (hv : ‖v‖ = 1) (t : ℝ) (ht0 : 0 < t) (ht : t ≤ ‖a - x‖)
    (hne : v ≠ ofLinear a x) : ‖a - (x + t • ofLinear a x)‖ < ‖a - (x + t • v)‖ := by
  rw [C154_descent a x t ht0.le ht]
  have h0 : 0 < ‖a - x‖ := norm_pos_iff.mpr (sub_ne_zero.mpr hx.symm)
  have e : a - (x + t • v) = (a - x) - t • v := by abel
  have hsq : ‖a - (x + t • v)‖ ^ 2 = ‖a - x‖ ^ 2 - 2 * (t * ⟪a - x, v⟫) + t ^ 2 := by
    rw [e, norm_sub_sq_real, inner_smul_right, norm_smul, hv, Real.norm_of_nonneg ht0.le, mul_one]
  have hlt : ⟪a - x, v⟫ < ‖a - x‖ := by
    have hle : ⟪a - x, v⟫ ≤ ‖a - x‖ * ‖v‖ := real_inner_le_norm _ _
    rw [hv, mul_one] at hle
    refine lt_of_le_of_ne hle ?_
    intro heq
    apply hne
    have : ⟪a - x, v⟫ = ‖a - x‖ * ‖v‖ := by rw [hv, mul_one, heq]
    have h3 := inner_eq_norm_mul_iff_real.mp this
    rw [hv, one_smul] at h3
    rw [ofLinear_away hx]
    conv_rhs => rw [h3]
    rw [norm_smul, hv, smul_smul, Real.norm_of_nonneg h0.le]
    have : 1 / (‖a - x‖ * 1) * ‖a - x‖ = 1 := by field_simp
    rw [this, one_smul]
  have : (‖a - x‖ - t) ^ 2 < ‖a - (x + t • v)‖ ^ 2 := by
    rw [hsq]
    have := mul_lt_mul_of_pos_left hlt ht0
    nlinarith
  exact lt_of_pow_lt_pow_left₀ 2 (norm_nonneg _) this

/-- C154: the direction of a constant flow is the same everywhere, and every step along it makes progress along the
flow. -/
theorem C154_constant (r x : Vec d) (hr : r ≠ 0) (t : ℝ) (ht : 0 < t) :
    (∀ y, ofConstantFlow r y = ofConstantFlow r x) ∧ ⟪r, x⟫ < ⟪r, x + t • ofConstantFlow r x⟫ := by
  refine ⟨fun _ => rfl, ?_⟩
  have : 0 < ‖r‖ := norm_pos_iff.mpr hr
  unfold ofConstantFlow
  rw [inner_add_right, inner_smul_right, real_inner_self_eq_norm_sq]
  have : 0 < t * ‖r‖ ^ 2 := by positivity
  linarith

/-- C154, violated by the code: the direction of a constant flow is documented as normalised, but it has length one only
for reference velocities with length one. -/
theorem C154_normalised_fails (r x : Vec d) (hr : ‖r‖ ≠ 1) : ‖ofConstantFlow r x‖ ≠ 1 := hr

example : ‖ofConstantFlow !₂[(3 : ℝ), 4] !₂[0, 0]‖ ≠ 1 :=
  C154_normalised_fails _ _ (by
    rw [EuclideanSpace.norm_eq]
    intro h
    rw [Real.sqrt_eq_one] at h
    simp [Fin.sum_univ_two] at h
    norm_num at h)

/-- The claims are not vacuous: towards the origin from `(2, 0)`, compared with a step to the side. -/
example : ‖(0 : Vec 2) - (!₂[2, 0] + (1 : ℝ) • ofLinear 0 !₂[2, 0])‖ < ‖(0 : Vec 2) - (!₂[2, 0] + (1 : ℝ) • !₂[0, 1])‖ := by
  have hn : ‖(0 : Vec 2) - !₂[2, 0]‖ = 2 := by
    rw [EuclideanSpace.norm_eq, Real.sqrt_eq_iff_mul_self_eq_of_pos (by norm_num)]
    simp [Fin.sum_univ_two]
    norm_num
  have hx : (!₂[2, 0] : Vec 2) ≠ 0 := by
    intro h
    have := congrArg (fun v : Vec 2 => v 0) h
    simp at this
  refine C154_steepest 0 _ _ hx ?_ 1 one_pos (by rw [hn]; norm_num) ?_
  · rw [EuclideanSpace.norm_eq]
    simp [Fin.sum_univ_two]
  · rw [ofLinear_away hx, hn]
    intro h
    have := congrArg (fun v : Vec 2 => v 1) h
    simp at this

end Verif.LyapunovDirection
