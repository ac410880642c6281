import Verif.Props.DirectionPull
import Mathlib.Analysis.Real.Pi.Bounds

/-!
# Examples for C125 and C126

The intersection of a ray with a circle by the quadratic formula, and the inversion of the normal, in every
dimension; and directions of an obstacle in space (`k = 2`).
-/

open scoped RealInnerProductSpace
open Verif.Spec

namespace Verif.Pull

variable {k : ℕ}

/-- The larger root of the quadratic equation for the parameter. -/
noncomputable def leaveParam (s v : Vec k) (r : ℝ) : ℝ :=
  (-⟪s, v⟫ + Real.sqrt (⟪s, v⟫ ^ 2 + ‖v‖ ^ 2 * (r ^ 2 - ‖s‖ ^ 2))) / ‖v‖ ^ 2

/-- External functions with the expected behaviour (the second point of `circleBoth` is the smaller root). -/
noncomputable def roundExt (k : ℕ) (hk : 0 < k) : Ext k where
  circle s v r := some (s + leaveParam s v r • v)
  circleBoth s v r := some (s + leaveParam s v r • v, s - leaveParam s (-v) r • v)
  invert a := open Classical in
    if a = 0 then EuclideanSpace.single ⟨0, hk⟩ Real.pi else (-((Real.pi - ‖a‖) / ‖a‖)) • a

lemma round_leaves (hk : 0 < k) : LeavesCircle (roundExt k hk).circle := by
  intro s v r hs hv
  have hvn : 0 < ‖v‖ := norm_pos_iff.mpr hv
  have hv2 : 0 < ‖v‖ ^ 2 := by positivity
  have hgap : 0 < r ^ 2 - ‖s‖ ^ 2 := by
    have := pow_lt_pow_left₀ hs (norm_nonneg _) (two_ne_zero)
    linarith
  have hdisc : 0 < ‖v‖ ^ 2 * (r ^ 2 - ‖s‖ ^ 2) := mul_pos hv2 hgap
  set q := ⟪s, v⟫ with hq
  set D := q ^ 2 + ‖v‖ ^ 2 * (r ^ 2 - ‖s‖ ^ 2) with hD
  have hD0 : 0 ≤ D := by positivity
  have hsq : Real.sqrt D ^ 2 = D := Real.sq_sqrt hD0
  have hgt : q < Real.sqrt D := by
    apply lt_of_le_of_lt (le_abs_self q)
    rw [← Real.sqrt_sq_eq_abs]
    exact Real.sqrt_lt_sqrt (sq_nonneg _) (by linarith)
  refine ⟨leaveParam s v r, div_pos (by linarith) hv2, rfl, ?_⟩
  have ht : leaveParam s v r * ‖v‖ ^ 2 = -q + Real.sqrt D := by
    unfold leaveParam
    rw [div_mul_cancel₀ _ hv2.ne']
  set t := leaveParam s v r
  have hn : ‖s + t • v‖ ^ 2 = r ^ 2 := by
    rw [norm_add_sq_real, inner_smul_right, norm_smul, mul_pow, Real.norm_eq_abs, sq_abs, ← hq]
    have h1 : (t * ‖v‖ ^ 2 + q) ^ 2 = D := by rw [ht, neg_add_eq_sub, sub_add_cancel, hsq]
    have h2 : ‖v‖ ^ 2 * (‖s‖ ^ 2 + 2 * (t * q) + t ^ 2 * ‖v‖ ^ 2) = ‖v‖ ^ 2 * r ^ 2 := by
      have : (t * ‖v‖ ^ 2 + q) ^ 2 = ‖v‖ ^ 2 * (2 * (t * q) + t ^ 2 * ‖v‖ ^ 2) + q ^ 2 := by ring
      rw [this, hD] at h1
      linarith
    exact mul_left_cancel₀ hv2.ne' h2
  have hr : 0 ≤ r := (norm_nonneg s).trans hs.le
  exact (pow_left_inj₀ (norm_nonneg _) hr two_ne_zero).mp hn

lemma round_inverts (hk : 0 < k) : InvertsAngle (roundExt k hk).invert := by
  intro a ha
  show ‖(if a = 0 then _ else _ : Vec k)‖ = _
  by_cases h : a = 0
  · rw [if_pos h, EuclideanSpace.norm_single, Real.norm_of_nonneg Real.pi_pos.le, h, norm_zero, sub_zero]
  · have hn : 0 < ‖a‖ := norm_pos_iff.mpr h
    rw [if_neg h, norm_smul, norm_neg, Real.norm_of_nonneg (div_nonneg (by linarith) hn.le),
      div_mul_cancel₀ _ hn.ne']

/-- A reference direction `(1/2, 0)` and a convergence direction `(1/2, 1)` in the direction space of an obstacle in
space, with the circle of the radius `π / 2`: the hypotheses of `C125_rotated`, `C125_inside`, `C125_monotone` and
`C125_turns_away_partial`. -/
example :
    (∃ t : ℝ, 1 < t ∧ ‖(!₂[1 / 2, 0] : Vec 2) + t • ((!₂[1 / 2, 1] : Vec 2) - (!₂[1 / 2, 0] : Vec 2))‖ = Real.pi / 2
      ∧ rotatedConvergence (roundExt 2 two_pos) (1 / 2) (Real.pi / 2) (!₂[1 / 2, 1] : Vec 2) (!₂[1 / 2, 0] : Vec 2)
        = .ok (some ((!₂[1 / 2, 0] : Vec 2) + (1 + (min (1 / 2) 1) ^ (t / 3) * (t - 1))
          • ((!₂[1 / 2, 1] : Vec 2) - (!₂[1 / 2, 0] : Vec 2)))))
    ∧ (∃ out : Vec 2, rotatedConvergence (roundExt 2 two_pos) (1 / 2) (Real.pi / 2) (!₂[1 / 2, 1] : Vec 2)
        (!₂[1 / 2, 0] : Vec 2) = .ok (some out) ∧ ‖(!₂[1 / 2, 1] : Vec 2)‖ < ‖out‖) := by
  have hpi := Real.pi_gt_three
  have hr : ‖(!₂[1 / 2, 0] : Vec 2)‖ < Real.pi / 2 := by
    rw [EuclideanSpace.norm_eq, Fin.sum_univ_two, Real.sqrt_lt' (by positivity)]
    norm_num
    nlinarith
  have hc : ‖(!₂[1 / 2, 1] : Vec 2)‖ < Real.pi / 2 := by
    rw [EuclideanSpace.norm_eq, Fin.sum_univ_two, Real.sqrt_lt' (by positivity)]
    norm_num
    nlinarith
  have hne : (!₂[1 / 2, 1] : Vec 2) ≠ !₂[1 / 2, 0] := by
    intro h
    have := congrArg (fun v : Vec 2 => v 1) h
    norm_num at this
  refine ⟨C125_rotated _ (round_leaves two_pos) _ _ (by norm_num) _ _ hc hr hne,
    C125_turns_away_partial _ (round_leaves two_pos) _ _ (by norm_num) _ _ hc hr hne ?_⟩
  rw [EuclideanSpace.inner_eq_star_dotProduct]
  simp [dotProduct, Fin.sum_univ_two]

/-- A direction between the reference `1` and the normal: some weight turns it exactly against the normal. -/
example : ∃ weight : ℝ, 0 < weight ∧ weight < 1
    ∧ rotatedConvergence (roundExt 1 one_pos) weight (Real.pi / 2) ((1 / 2 : ℝ) • EuclideanSpace.single 0 1)
      (EuclideanSpace.single 0 1) = .ok (some 0) := by
  have hpi := Real.pi_gt_three
  refine C125_shrinks _ (round_leaves one_pos) _ _ ?_ ?_ _ (by norm_num) (by norm_num)
  · rw [EuclideanSpace.norm_single, norm_one]; linarith
  · intro h
    have := congrArg (fun v : Vec 1 => v 0) h
    simp at this

/-- The tangent direction `(0, 2)` and the initial direction `(1, 0)`: `C125_projected` and `C125_towards`; a
direction three times as far as the tangent: `C125_weight_accepted`. -/
example :
    (∃ out : Vec 2, projectedVelocity (EuclideanSpace.single 1 2) (EuclideanSpace.single 0 1) (1 / 2) (Real.pi / 2)
      = .ok out ∧ out = (1 / 2 : ℝ) • ((Real.pi / 2 / 2) • (EuclideanSpace.single 1 2 : Vec 2))
        + (1 - 1 / 2 : ℝ) • EuclideanSpace.single 0 1)
    ∧ projectedVelocity (EuclideanSpace.single 1 2 : Vec 2) ((3 : ℝ) • ((Real.pi / 2 / 2)
        • (EuclideanSpace.single 1 2 : Vec 2))) 7 (Real.pi / 2)
      = .ok ((3 : ℝ) • ((Real.pi / 2 / 2) • (EuclideanSpace.single 1 2 : Vec 2))) := by
  have hpi := Real.pi_gt_three
  have hn : ‖(EuclideanSpace.single 1 2 : Vec 2)‖ = 2 := by
    rw [EuclideanSpace.norm_single]; norm_num
  have ht : (EuclideanSpace.single 1 2 : Vec 2) ≠ 0 := by
    intro h
    rw [h, norm_zero] at hn
    norm_num at hn
  constructor
  · obtain ⟨out, h1, _, _, h4, _⟩ := C125_towards (EuclideanSpace.single 1 2 : Vec 2) (EuclideanSpace.single 0 1)
      (1 / 2) (Real.pi / 2) (by norm_num) (by norm_num) (by positivity) ht
      ((Real.pi / 2 / 2) • (EuclideanSpace.single 1 2 : Vec 2)) (by rw [hn])
    refine ⟨out, h1, h4 ?_⟩
    rw [EuclideanSpace.norm_single, norm_one]; linarith
  · exact C125_weight_accepted _ _ _ 3 (by positivity) ht (by norm_num) _ (by rw [hn])

/-- A weight above one is rejected for a direction inside the circle. -/
example : projectedVelocity (EuclideanSpace.single 1 2 : Vec 2) 0 2 (Real.pi / 2) = .error .breakpoint := by
  have hpi := Real.pi_gt_three
  have hn : ‖(EuclideanSpace.single 1 2 : Vec 2)‖ = 2 := by
    rw [EuclideanSpace.norm_single]; norm_num
  have ht : (EuclideanSpace.single 1 2 : Vec 2) ≠ 0 := by
    intro h
    rw [h, norm_zero] at hn
    norm_num at hn
  refine C125_weight_rejected_partial _ _ _ _ (Or.inr (by norm_num)) (by positivity) ht ?_ ?_
  · rw [norm_zero]; positivity
  · exact (smul_ne_zero (by positivity) ht).symm

/-- The nonlinear direction `1/2` (towards the obstacle) and the convergence direction `2` (away from it): the
hypotheses of `C126_pulled` and `C126_overshoots`. -/
example :
    ∃ q : Vec 1, projectedNonlinear (roundExt 1 one_pos) (EuclideanSpace.single 0 2) (EuclideanSpace.single 0 (1 / 2)) 1
        (Real.pi / 2) = .ok ((roundExt 1 one_pos).invert q)
      ∧ ‖q‖ = Real.pi - Real.pi / 2
      ∧ ‖(roundExt 1 one_pos).invert (EuclideanSpace.single 0 2)
          - (roundExt 1 one_pos).invert (EuclideanSpace.single 0 (1 / 2))‖
        < ‖q - (roundExt 1 one_pos).invert (EuclideanSpace.single 0 (1 / 2))‖ := by
  have hpi := Real.pi_gt_three
  have hpi' := Real.pi_lt_four
  refine C126_overshoots _ (round_inverts one_pos) (round_leaves one_pos) _ _ _ ?_ ?_ ?_ (by linarith) <;>
  rw [EuclideanSpace.norm_single] <;> norm_num <;> linarith

/-- A nonlinear direction away from the obstacle is kept. -/
example : projectedNonlinear (roundExt 1 one_pos) 0 (EuclideanSpace.single 0 2) (1 / 2) (Real.pi / 2)
    = .ok (EuclideanSpace.single 0 2) := by
  have hpi := Real.pi_gt_three
  have hpi' := Real.pi_lt_four
  refine C126_unchanged _ (round_inverts one_pos) _ _ _ _ ?_ ?_ <;>
  rw [EuclideanSpace.norm_single] <;> norm_num <;> linarith

/-- Inverted directions `2` and `3` on the line, the circle of the radius one: the points `-1` and `1` in this order
give the closer one, and `1` and `-1` stop the call. -/
example :
    projectionOfInverted (k := 1) ⟨fun _ _ _ => none, fun _ _ r => some (EuclideanSpace.single 0 (-r),
        EuclideanSpace.single 0 r), id⟩ (EuclideanSpace.single 0 2) (EuclideanSpace.single 0 3) 1
      = .ok (EuclideanSpace.single 0 1)
    ∧ projectionOfInverted (k := 1) ⟨fun _ _ _ => none, fun _ _ r => some (EuclideanSpace.single 0 r,
        EuclideanSpace.single 0 (-r)), id⟩ (EuclideanSpace.single 0 2) (EuclideanSpace.single 0 3) 1
      = .error .breakpoint := by
  have hpi := Real.pi_gt_three
  have hs : ∀ a b : ℝ, (EuclideanSpace.single 0 a : Vec 1) - EuclideanSpace.single 0 b
      = EuclideanSpace.single 0 (a - b) := by
    intro a b; ext i; fin_cases i; simp
  have hn : ∀ a : ℝ, ‖(EuclideanSpace.single 0 a : Vec 1)‖ = |a| := fun a => by
    rw [EuclideanSpace.norm_single, Real.norm_eq_abs]
  have hne : ∀ a b : ℝ, a ≠ b → (EuclideanSpace.single 0 a : Vec 1) ≠ EuclideanSpace.single 0 b := by
    intro a b hab h
    have := congrArg (fun v : Vec 1 => v 0) h
    simp at this
    exact hab this
  constructor
  · refine C126_secant_partial _ _ _ 1 (by linarith) ?_ ?_ _ _ rfl ?_ (2 / 3) (by norm_num) (by norm_num) ?_
      (hne _ _ (by norm_num))
    · rw [hn]; norm_num
    · rw [hn]; norm_num
    · rw [hn]; norm_num
    · rw [hs]; ext i; fin_cases i; simp; norm_num
  · refine C126_secant_stops _ _ _ 1 ?_ ?_ _ _ rfl ?_ (hne _ _ (by norm_num))
    · rw [hn]; norm_num
    · rw [hn]; norm_num
    · rw [hs, hs, hn, hn]; norm_num

end Verif.Pull
