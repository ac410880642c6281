import Verif.Lemmas.FromDirections

/-! # Helper lemmas: exponential and logarithm of the sphere -/

open scoped RealInnerProductSpace

namespace Verif
open Spec

/-! ### Exponential and logarithm of the sphere -/

section sphere
variable {V : Type*} [NormedAddCommGroup V] [InnerProductSpace ℝ V]

lemma star_exp_zero (u : V) : sphereExp u 0 = u := by simp [sphereExp, unit]

lemma star_log_self (u : V) : sphereLog u u = 0 := by
  unfold sphereLog
  by_cases hu : u = 0
  · subst hu; simp [unit]
  · rw [InnerProductGeometry.angle_self hu, zero_smul]

/-- The exponential map inverts the logarithm away from the opposite direction. -/
lemma star_exp_log {u τ : V} (hu : ‖u‖ = 1) (hτ : ‖τ‖ = 1) (hop : ¬ Opposite u τ) :
    sphereExp u (sphereLog u τ) = τ := by
  set θ := InnerProductGeometry.angle u τ with hθ
  have hcos : Real.cos θ = ⟪u, τ⟫ := by
    rw [hθ, InnerProductGeometry.cos_angle, hu, hτ]; simp
  have hθ0 : 0 ≤ θ := InnerProductGeometry.angle_nonneg _ _
  have hsin : ‖τ - ⟪u, τ⟫ • u‖ = Real.sin θ := by
    have h0 : 0 ≤ Real.sin θ := InnerProductGeometry.sin_angle_nonneg _ _
    refine (sq_eq_sq₀ (norm_nonneg _) h0).mp ?_
    rw [← real_inner_self_eq_norm_sq, inner_sub_left, inner_sub_right, inner_sub_right,
      real_inner_smul_left, real_inner_smul_left, real_inner_smul_right, real_inner_smul_right,
      real_inner_self_eq_norm_sq, real_inner_self_eq_norm_sq, hu, hτ, real_inner_comm u τ,
      Real.sin_sq, hcos]
    ring
  by_cases hz : τ - ⟪u, τ⟫ • u = 0
  · have hτu : τ = ⟪u, τ⟫ • u := sub_eq_zero.mp hz
    have hs0 : Real.sin θ = 0 := by rw [← hsin, hz, norm_zero]
    have hc2 : ⟪u, τ⟫ ^ 2 = 1 := by
      rw [← hcos]; have := Real.sin_sq_add_cos_sq θ; rw [hs0] at this; linarith
    rcases sq_eq_one_iff.mp hc2 with h1 | h1
    · rw [h1, one_smul] at hτu
      rw [hτu, star_log_self, star_exp_zero]
    · exact absurd ⟨1, one_pos, by rw [hτu, h1]⟩ hop
  · have hn : ‖sphereLog u τ‖ = θ := by
      unfold sphereLog
      rw [norm_smul, unit_norm hz, mul_one, Real.norm_eq_abs, abs_of_nonneg hθ0]
    have hθp : 0 < θ := by
      rcases hθ0.lt_or_eq with h | h
      · exact h
      · exfalso; apply hz; rw [← norm_eq_zero, hsin, ← h, Real.sin_zero]
    have hun : unit (sphereLog u τ) = unit (τ - ⟪u, τ⟫ • u) := by
      have : unit (sphereLog u τ) = (1 / ‖sphereLog u τ‖) • sphereLog u τ := rfl
      rw [this, hn]
      unfold sphereLog
      rw [smul_smul, ← hθ, one_div, inv_mul_cancel₀ (ne_of_gt hθp), one_smul]
    unfold sphereExp
    rw [hn, hun, hcos]
    unfold unit
    rw [hsin, smul_smul, mul_one_div, div_self (by rw [← hsin]; exact norm_ne_zero_iff.mpr hz),
      one_smul]
    abel

/-- The logarithm is perpendicular to the base point; its length is at most the angle. -/
lemma star_log_facts {u : V} (hu : ‖u‖ = 1) (τ : V) :
    ⟪u, sphereLog u τ⟫ = 0 ∧ ‖sphereLog u τ‖ ≤ InnerProductGeometry.angle u τ := by
  constructor
  · unfold sphereLog unit
    rw [real_inner_smul_right, real_inner_smul_right, inner_sub_right, real_inner_smul_right,
      real_inner_self_eq_norm_sq, hu]
    ring
  · unfold sphereLog
    rw [norm_smul, Real.norm_eq_abs, abs_of_nonneg (InnerProductGeometry.angle_nonneg _ _)]
    have h1 : ‖unit (τ - ⟪u, τ⟫ • u)‖ ≤ 1 := by
      by_cases hz : τ - ⟪u, τ⟫ • u = 0
      · rw [hz]; simp [unit]
      · rw [unit_norm hz]
    calc _ ≤ InnerProductGeometry.angle u τ * 1 :=
          mul_le_mul_of_nonneg_left h1 (InnerProductGeometry.angle_nonneg _ _)
      _ = _ := mul_one _

lemma star_exp_unit {u w : V} (hu : ‖u‖ = 1) (hw : ⟪u, w⟫ = 0) : ‖sphereExp u w‖ = 1 := by
  by_cases hw0 : w = 0
  · rw [hw0, star_exp_zero, hu]
  refine (sq_eq_sq₀ (norm_nonneg _) zero_le_one).mp ?_
  rw [← real_inner_self_eq_norm_sq]
  have h2 : ⟪u, unit w⟫ = 0 := by unfold unit; rw [real_inner_smul_right, hw, mul_zero]
  unfold sphereExp
  rw [inner_add_left, inner_add_right, inner_add_right, real_inner_smul_left,
    real_inner_smul_left, real_inner_smul_left, real_inner_smul_left, real_inner_smul_right,
    real_inner_smul_right, real_inner_smul_right, real_inner_smul_right,
    real_inner_self_eq_norm_sq, real_inner_self_eq_norm_sq, hu, unit_norm hw0,
    real_inner_comm u (unit w), h2]
  have := Real.sin_sq_add_cos_sq ‖w‖
  nlinarith

lemma star_exp_inner {u w : V} (hu : ‖u‖ = 1) (hw : ⟪u, w⟫ = 0) :
    ⟪u, sphereExp u w⟫ = Real.cos ‖w‖ := by
  unfold sphereExp unit
  rw [inner_add_right, real_inner_smul_right, real_inner_smul_right, real_inner_smul_right,
    real_inner_self_eq_norm_sq, hu, hw]
  ring

/-- Walking along a great circle for the length `‖w‖` turns by at most that angle. -/
lemma star_exp_angle {u w : V} (hu : ‖u‖ = 1) (hw : ⟪u, w⟫ = 0) :
    InnerProductGeometry.angle u (sphereExp u w) ≤ ‖w‖ := by
  by_cases hbig : Real.pi ≤ ‖w‖
  · exact (InnerProductGeometry.angle_le_pi _ _).trans hbig
  · push Not at hbig
    have hin : ⟪u, sphereExp u w⟫ = Real.cos ‖w‖ := by
      unfold sphereExp unit
      rw [inner_add_right, real_inner_smul_right, real_inner_smul_right, real_inner_smul_right,
        real_inner_self_eq_norm_sq, hu, hw]
      ring
    by_cases hw0 : w = 0
    · subst hw0
      rw [star_exp_zero, InnerProductGeometry.angle_self (by intro h; rw [h] at hu; simp at hu)]
      simp
    have hnorm : ‖sphereExp u w‖ = 1 := by
      refine (sq_eq_sq₀ (norm_nonneg _) zero_le_one).mp ?_
      rw [← real_inner_self_eq_norm_sq]
      have h2 : ⟪u, unit w⟫ = 0 := by unfold unit; rw [real_inner_smul_right, hw, mul_zero]
      unfold sphereExp
      rw [inner_add_left, inner_add_right, inner_add_right, real_inner_smul_left,
        real_inner_smul_left, real_inner_smul_left, real_inner_smul_left, real_inner_smul_right,
        real_inner_smul_right, real_inner_smul_right, real_inner_smul_right,
        real_inner_self_eq_norm_sq, real_inner_self_eq_norm_sq, hu, unit_norm hw0,
        real_inner_comm u (unit w), h2]
      have := Real.sin_sq_add_cos_sq ‖w‖
      nlinarith
    unfold InnerProductGeometry.angle
    rw [hin, hu, hnorm, mul_one, div_one, Real.arccos_cos (norm_nonneg _) hbig.le]

end sphere


end Verif
