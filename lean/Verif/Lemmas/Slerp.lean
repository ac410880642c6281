import Verif.Lemmas.Sphere
import Mathlib.Analysis.Real.Pi.Bounds
import Mathlib.Analysis.SpecialFunctions.Trigonometric.Bounds

/-! # Helper lemmas: walking along a great circle towards the tangent plane of a ball -/

open scoped RealInnerProductSpace

namespace Verif
open Spec

section
variable {V : Type*} [NormedAddCommGroup V] [InnerProductSpace ℝ V]

/-- A part of the way along the great circle. -/
lemma slerp_eq {u τ : V} (hu : ‖u‖ = 1) (hτ : ‖τ‖ = 1) (w : ℝ) (hw : 0 ≤ w)
    (h0 : 0 < InnerProductGeometry.angle u τ) (hpi : InnerProductGeometry.angle u τ < Real.pi) :
    sphereExp u (w • sphereLog u τ)
      = (Real.sin ((1 - w) * InnerProductGeometry.angle u τ) / Real.sin (InnerProductGeometry.angle u τ)) • u
        + (Real.sin (w * InnerProductGeometry.angle u τ) / Real.sin (InnerProductGeometry.angle u τ)) • τ := by
  set θ := InnerProductGeometry.angle u τ with hθ
  have hcos : Real.cos θ = ⟪u, τ⟫ := by
    rw [hθ, InnerProductGeometry.cos_angle, hu, hτ]; simp
  have hs : 0 < Real.sin θ := Real.sin_pos_of_pos_of_lt_pi h0 hpi
  have hsin : ‖τ - ⟪u, τ⟫ • u‖ = Real.sin θ := by
    refine (sq_eq_sq₀ (norm_nonneg _) hs.le).mp ?_
    rw [← real_inner_self_eq_norm_sq, inner_sub_left, inner_sub_right, inner_sub_right,
      real_inner_smul_left, real_inner_smul_left, real_inner_smul_right, real_inner_smul_right,
      real_inner_self_eq_norm_sq, real_inner_self_eq_norm_sq, hu, hτ, real_inner_comm u τ,
      Real.sin_sq, hcos]
    ring
  have hz : τ - ⟪u, τ⟫ • u ≠ 0 := by
    intro h; rw [h, norm_zero] at hsin; linarith
  by_cases hw0 : w = 0
  · subst hw0
    simp [star_exp_zero, div_self hs.ne']
  have hwp : 0 < w := lt_of_le_of_ne hw (Ne.symm hw0)
  have hlog : w • sphereLog u τ = (w * θ) • unit (τ - ⟪u, τ⟫ • u) := by
    unfold sphereLog; rw [smul_smul]
  have hn : ‖w • sphereLog u τ‖ = w * θ := by
    rw [hlog, norm_smul, unit_norm hz, mul_one, Real.norm_eq_abs, abs_of_nonneg (by positivity)]
  have hun : unit (w • sphereLog u τ) = unit (τ - ⟪u, τ⟫ • u) := by
    have : unit (w • sphereLog u τ) = (1 / ‖w • sphereLog u τ‖) • (w • sphereLog u τ) := rfl
    rw [this, hn, hlog, smul_smul, one_div, inv_mul_cancel₀ (by positivity), one_smul]
  unfold sphereExp
  rw [hn, hun]
  unfold unit
  rw [hsin, ← hcos]
  have e : Real.sin ((1 - w) * θ) = Real.sin θ * Real.cos (w * θ) - Real.cos θ * Real.sin (w * θ) := by
    rw [show (1 - w) * θ = θ - w * θ by ring, Real.sin_sub]
  rw [e]
  match_scalars <;> field_simp <;> ring

/-- The direction between the motion `v` and its tangential part at a ball with normal `n`. -/
structure BallStep (n v D : V) (w : ℝ) : Prop where
  unit : ‖D‖ = 1
  plane : ∃ α β : ℝ, D = α • v + β • n ∧ (⟪n, v⟫ ≤ 0 → 0 ≤ β)
  away : 0 ≤ ⟪n, v⟫ → 0 ≤ ⟪n, D⟫
  towards : ⟪n, v⟫ ≤ 0 → ⟪n, D⟫ ≤ 0 ∧ (1 - w) * (Real.pi / 2 * ⟪n, v⟫) ≤ ⟪n, D⟫
  turns : 1 - ⟪n, v⟫ ^ 2 ≤ ⟪v, D⟫ - ⟪n, D⟫ * ⟪n, v⟫

lemma ballStep_self {n v : V} (hv : ‖v‖ = 1) : BallStep n v v 0 := by
  refine ⟨hv, ⟨1, 0, by simp, fun _ => le_rfl⟩, id, fun h => ⟨h, ?_⟩, ?_⟩
  · have := Real.pi_gt_three
    nlinarith
  · rw [real_inner_self_eq_norm_sq, hv]; nlinarith

lemma ball_step {n v : V} (hn : ‖n‖ = 1) (hv : ‖v‖ = 1) (hq : ⟪n, v⟫ ^ 2 < 1) {w : ℝ} (h0 : 0 ≤ w) (h1 : w ≤ 1) :
    BallStep n v (sphereExp v (w • sphereLog v (unit (v - ⟪n, v⟫ • n)))) w := by
  set q := ⟪n, v⟫ with hqd
  set s := √(1 - q ^ 2) with hs
  have hs2 : s ^ 2 = 1 - q ^ 2 := Real.sq_sqrt (by linarith)
  have hsp : 0 < s := Real.sqrt_pos.mpr (by linarith)
  have hg : ‖v - q • n‖ = s := by
    refine (sq_eq_sq₀ (norm_nonneg _) hsp.le).mp ?_
    rw [← real_inner_self_eq_norm_sq, inner_sub_left, inner_sub_right, inner_sub_right,
      real_inner_smul_left, real_inner_smul_left, real_inner_smul_right, real_inner_smul_right,
      real_inner_self_eq_norm_sq, real_inner_self_eq_norm_sq, hn, hv, real_inner_comm n v, ← hqd, hs2]
    ring
  have hg0 : v - q • n ≠ 0 := by intro h; rw [h, norm_zero] at hg; linarith
  set e := unit (v - q • n) with he
  have hee : e = (1 / s) • (v - q • n) := by rw [he, ← hg]; rfl
  have hen : ‖e‖ = 1 := unit_norm hg0
  have hne : ⟪n, e⟫ = 0 := by
    rw [hee, real_inner_smul_right, inner_sub_right, real_inner_smul_right, real_inner_self_eq_norm_sq, hn, ← hqd]
    ring
  have hve : ⟪v, e⟫ = s := by
    rw [hee, real_inner_smul_right, inner_sub_right, real_inner_smul_right, real_inner_self_eq_norm_sq, hv,
      real_inner_comm, ← hqd]
    field_simp
    linarith
  have hvs : v = s • e + q • n := by
    rw [hee, smul_smul, mul_one_div, div_self hsp.ne', one_smul, sub_add_cancel]
  set θ := InnerProductGeometry.angle v e with hθ
  have hcos : Real.cos θ = s := by rw [hθ, InnerProductGeometry.cos_angle, hv, hen, hve]; simp
  have hθ0 : 0 ≤ θ := InnerProductGeometry.angle_nonneg _ _
  have hθ1 : θ < Real.pi / 2 := by
    by_contra hc
    push Not at hc
    have := Real.cos_nonpos_of_pi_div_two_le_of_le hc ((InnerProductGeometry.angle_le_pi v e).trans
      (by linarith [Real.pi_pos]))
    linarith
  have hsin : Real.sin θ = |q| := by
    have h2 : 0 ≤ Real.sin θ := InnerProductGeometry.sin_angle_nonneg _ _
    have := Real.sin_sq_add_cos_sq θ
    rw [hcos, hs2] at this
    rw [← abs_of_nonneg h2, ← sq_eq_sq_iff_abs_eq_abs]
    linarith
  have hwl : ⟪v, w • sphereLog v e⟫ = 0 := by
    rw [real_inner_smul_right, (star_log_facts hv e).1, mul_zero]
  have hunit := star_exp_unit hv hwl
  by_cases hq0 : q = 0
  · have hs1 : s = 1 := by rw [hs, hq0]; simp
    have hev : e = v := by rw [hee, hs1, hq0]; simp
    rw [hev, star_log_self, smul_zero, star_exp_zero]
    refine ⟨hv, ⟨1, 0, by simp, fun _ => le_rfl⟩, id, fun h => ⟨h, ?_⟩, ?_⟩
    · rw [← hqd, hq0]; simp
    · rw [← hqd, hq0, real_inner_self_eq_norm_sq, hv]; norm_num
  have hθp : 0 < θ := by
    rcases hθ0.lt_or_eq with h | h
    · exact h
    · exfalso
      rw [← h, Real.sin_zero] at hsin
      exact hq0 (abs_eq_zero.mp hsin.symm)
  have hslerp := slerp_eq hv hen w h0 hθp (by linarith [Real.pi_pos])
  rw [← hθ] at hslerp
  set D := sphereExp v (w • sphereLog v e) with hD
  set A := Real.sin ((1 - w) * θ) / Real.sin θ with hA
  set B := Real.sin (w * θ) / Real.sin θ with hB
  have hqp : 0 < |q| := abs_pos.mpr hq0
  have hpp := Real.pi_pos
  have hA0 : 0 ≤ Real.sin ((1 - w) * θ) :=
    Real.sin_nonneg_of_nonneg_of_le_pi (mul_nonneg (by linarith) hθ0) (by nlinarith)
  have hB0 : 0 ≤ Real.sin (w * θ) :=
    Real.sin_nonneg_of_nonneg_of_le_pi (mul_nonneg (by linarith) hθ0) (by nlinarith)
  have hA0' : 0 ≤ A := by rw [hA, hsin]; positivity
  have hB0' : 0 ≤ B := by rw [hB, hsin]; positivity
  have hnD : ⟪n, D⟫ = A * q := by
    rw [hslerp, inner_add_right, real_inner_smul_right, real_inner_smul_right, hne, ← hqd]; ring
  have hvD : ⟪v, D⟫ = A + B * s := by
    rw [hslerp, inner_add_right, real_inner_smul_right, real_inner_smul_right, hve, real_inner_self_eq_norm_sq, hv]
    ring
  have hjordan : θ ≤ Real.pi / 2 * |q| := by
    have := Real.mul_le_sin hθ0 hθ1.le
    rw [hsin] at this
    have h3 : Real.pi / 2 * (2 / Real.pi * θ) = θ := by field_simp
    rw [← h3]
    exact mul_le_mul_of_nonneg_left this (by positivity)
  refine ⟨hunit, ⟨A + B / s, -(B * q / s), ?_, ?_⟩, ?_, ?_, ?_⟩
  · rw [hslerp, hee]
    match_scalars <;> field_simp
  · intro h
    have : B * q / s ≤ 0 := div_nonpos_of_nonpos_of_nonneg (mul_nonpos_of_nonneg_of_nonpos hB0' h) hsp.le
    linarith
  · intro h
    rw [hnD]; exact mul_nonneg hA0' h
  · intro h
    rw [hnD]
    refine ⟨mul_nonpos_of_nonneg_of_nonpos hA0' h, ?_⟩
    have hqa : q = -|q| := by rw [abs_of_nonpos h]; ring
    have e1 : A * q = -Real.sin ((1 - w) * θ) := by
      rw [hA, hsin, hqa, abs_neg, abs_abs]
      field_simp
    have e2 : Real.sin ((1 - w) * θ) ≤ (1 - w) * θ := Real.sin_le (mul_nonneg (by linarith) hθ0)
    have e3 : (1 - w) * θ ≤ (1 - w) * (Real.pi / 2 * |q|) := mul_le_mul_of_nonneg_left hjordan (by linarith)
    have e4 : (1 - w) * (Real.pi / 2 * q) = -((1 - w) * (Real.pi / 2 * |q|)) := by rw [abs_of_nonpos h]; ring
    rw [e1, e4]; linarith
  · rw [hnD, hvD]
    have e1 : A + B * s - A * q * q = s * (A * s + B) := by
      have : q * q = 1 - s ^ 2 := by rw [hs2]; ring
      rw [mul_assoc, this]; ring
    rw [e1, ← hs2, sq]
    refine mul_le_mul_of_nonneg_left ?_ hsp.le
    have e2 : A * s + B = Real.cos ((1 - w) * θ) := by
      have h3 : Real.sin (w * θ) = Real.sin θ * Real.cos ((1 - w) * θ) - Real.cos θ * Real.sin ((1 - w) * θ) := by
        rw [show w * θ = θ - (1 - w) * θ by ring, Real.sin_sub]
      rw [hA, hB, h3, hcos]
      have : Real.sin θ ≠ 0 := by rw [hsin]; exact hqp.ne'
      field_simp
      ring
    rw [e2, ← hcos]
    exact Real.cos_le_cos_of_nonneg_of_le_pi (mul_nonneg (by linarith) hθ0) (by linarith) (by nlinarith)

end
end Verif
