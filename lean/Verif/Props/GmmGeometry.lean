import Verif.Model.GmmObstacle
import Mathlib.Data.Matrix.Mul
import Mathlib.Tactic.FinCases

/-!
# C85: distance, surface and directions of one Gaussian of a `GmmObstacle`
-/

open scoped RealInnerProductSpace

namespace Verif.Gmm

variable {d : ℕ}

lemma apply_smul (m : Matrix (Fin d) (Fin d) ℝ) (a : ℝ) (v : Vec d) :
    apply m (a • v) = a • apply m v := by
  unfold apply
  ext i
  simp [Matrix.mulVec_smul]

lemma quad_scaled (g : Gauss d) (p q : Vec d) (a : ℝ) (h : q - g.mean = a • (p - g.mean)) :
    quad g q = a ^ 2 * quad g p := by
  unfold quad
  rw [h, apply_smul, inner_smul_left, inner_smul_right]
  simp only [conj_trivial]
  ring

lemma gamma_some {factor γ : ℝ} {g : Gauss d} {p : Vec d} :
    gammaProportional factor g p = some γ ↔
      0 ≤ quad g p ∧ γ = Real.sqrt (quad g p) / factor := by
  classical
  unfold gammaProportional
  by_cases h : quad g p < 0
  · rw [if_pos h]
    constructor
    · intro h'; cases h'
    · rintro ⟨h1, -⟩; linarith
  · rw [if_neg h, Option.some.injEq]
    exact ⟨fun h' => ⟨not_lt.mp h, h'.symm⟩, fun h' => h'.2.symm⟩

/-- **C85** The proportional gamma is positively homogeneous along every ray from the mean: a point `a`
times as far from the mean has `a` times the value. -/
theorem C85_homogeneous (factor γ : ℝ) (g : Gauss d) (p : Vec d) (a : ℝ) (ha : 0 ≤ a)
    (h : gammaProportional factor g p = some γ) :
    gammaProportional factor g (g.mean + a • (p - g.mean)) = some (a * γ) := by
  obtain ⟨h0, rfl⟩ := gamma_some.mp h
  have hq := quad_scaled g p (g.mean + a • (p - g.mean)) a (by rw [add_sub_cancel_left])
  rw [gamma_some, hq]
  refine ⟨by positivity, ?_⟩
  rw [Real.sqrt_mul (by positivity), Real.sqrt_sq ha]
  ring

/-- **C85** `project_point_on_surface` gives the only point of the ray from the mean through the position
where gamma is one, whenever gamma of the position is positive.

Missing: positions where gamma is zero or not a number (`C85_nan`). -/
theorem C85_project_partial (factor γ : ℝ) (g : Gauss d) (p : Vec d)
    (h : gammaProportional factor g p = some γ) (hγ : 0 < γ) :
    ∃ q, projectOnSurface factor g p = some q
      ∧ gammaProportional factor g q = some 1
      ∧ (∃ a : ℝ, 0 < a ∧ q = g.mean + a • (p - g.mean))
      ∧ ∀ b : ℝ, 0 ≤ b → gammaProportional factor g (g.mean + b • (p - g.mean)) = some 1 →
        g.mean + b • (p - g.mean) = q := by
  classical
  refine ⟨g.mean + γ⁻¹ • (p - g.mean), ?_, ?_, ⟨γ⁻¹, by positivity, rfl⟩, ?_⟩
  · unfold projectOnSurface
    rw [h, Option.bind_some, if_neg hγ.ne', add_comm]
  · rw [C85_homogeneous factor γ g p γ⁻¹ (by positivity) h, inv_mul_cancel₀ hγ.ne']
  · intro b hb h1
    rw [C85_homogeneous factor γ g p b hb h, Option.some.injEq] at h1
    rw [eq_inv_of_mul_eq_one_left h1]

/-- **C85** `get_gamma` is on the same side of one as the proportional gamma (away from the mean, with a
positive value), and on the surface it is one. -/
theorem C85_gamma_side (factor γ : ℝ) (g : Gauss d) (p : Vec d)
    (h : gammaProportional factor g p = some γ) (hγ : 0 < γ) :
    ∃ Γ, getGamma factor g p = some Γ ∧ (1 < Γ ↔ 1 < γ) ∧ (Γ = 1 ↔ γ = 1) ∧ (Γ < 1 ↔ γ < 1) := by
  classical
  have hne : 0 < ‖p - g.mean‖ := by
    rw [norm_pos_iff]
    intro h0
    obtain ⟨-, rfl⟩ := gamma_some.mp h
    unfold quad at hγ
    rw [h0, inner_zero_left, Real.sqrt_zero, zero_div] at hγ
    exact lt_irrefl _ hγ
  refine ⟨‖p - g.mean‖ * (1 - 1 / γ) + 1, ?_, ?_, ?_, ?_⟩
  · unfold getGamma
    rw [h, Option.map_some, if_neg hγ.ne']
  · rw [lt_add_iff_pos_left, mul_pos_iff_of_pos_left hne, sub_pos, div_lt_one hγ]
  · rw [add_eq_right, mul_eq_zero, or_iff_right hne.ne', sub_eq_zero, eq_comm, div_eq_one_iff_eq hγ.ne',
      eq_comm]
  · constructor
    · intro h1
      by_contra hc
      have : 0 ≤ 1 - 1 / γ := by rw [sub_nonneg, div_le_one hγ]; exact not_lt.mp hc
      have := mul_nonneg hne.le this
      linarith
    · intro h1
      have : 1 - 1 / γ < 0 := by rw [sub_neg, lt_div_iff₀ hγ]; linarith
      have := mul_neg_of_pos_of_neg hne this
      linarith

/-- **C85** The transformations to and from the frame of the unit circle are inverse to each other, if
the directions are orthonormal and no length is zero. -/
theorem C85_frames (g : Gauss d) (ho : g.directions * g.directions.transpose = 1)
    (hl : ∀ i, g.lengths i ≠ 0) (p : Vec d) :
    fromUnit g (toUnit g p) = p ∧ toUnit g (fromUnit g p) = p := by
  have ho' : g.directions.transpose * g.directions = 1 := mul_eq_one_comm.mp ho
  have hcomp : ∀ (a b : Matrix (Fin d) (Fin d) ℝ) (v : Vec d), a * b = 1 → apply a (apply b v) = v := by
    intro a b v hab
    unfold apply
    simp only [Matrix.mulVec_mulVec, hab, Matrix.one_mulVec]
  constructor
  · unfold fromUnit toUnit
    have : (WithLp.toLp 2 (fun i => (WithLp.toLp 2 (fun i =>
        (apply g.directions.transpose (p - g.mean)) i / g.lengths i) : Vec d) i * g.lengths i) : Vec d)
        = apply g.directions.transpose (p - g.mean) := by
      ext i
      simp [div_mul_cancel₀ _ (hl i)]
    rw [this, hcomp _ _ _ ho, sub_add_cancel]
  · unfold toUnit fromUnit
    rw [add_sub_cancel_right, hcomp _ _ _ ho']
    ext i
    simp [mul_div_cancel_right₀ _ (hl i)]

/-- **C85** The frame of the unit circle deserves its name: the distance from the origin there is the
Mahalanobis distance with the semi-axes `lengths` along `directions`. -/
theorem C85_unit_norm (g : Gauss d) (p : Vec d) :
    ‖toUnit g p‖ ^ 2
      = ∑ i, (⟪WithLp.toLp 2 (fun k => g.directions k i), p - g.mean⟫ / g.lengths i) ^ 2 := by
  rw [EuclideanSpace.norm_sq_eq]
  apply Finset.sum_congr rfl
  intro i _
  rw [Real.norm_eq_abs, sq_abs]
  unfold toUnit apply
  simp [Matrix.mulVec, dotProduct, PiLp.inner_apply, mul_comm]

/-- **C85** The reference direction is a unit vector everywhere, and away from the mean it points from the
mean to the position. -/
theorem C85_reference {n : ℕ} (g : Gauss (n + 1)) (p : Vec (n + 1)) :
    ‖referenceDirection g p‖ = 1
      ∧ (p ≠ g.mean → ‖p - g.mean‖ • referenceDirection g p = p - g.mean) := by
  classical
  unfold referenceDirection
  by_cases h : ‖p - g.mean‖ = 0
  · rw [if_neg (by simpa using h)]
    refine ⟨by simp, fun hne => ?_⟩
    rw [norm_eq_zero, sub_eq_zero] at h
    exact absurd h hne
  · rw [if_pos h]
    refine ⟨by rw [norm_smul, norm_inv, norm_norm, inv_mul_cancel₀ h], fun _ => ?_⟩
    rw [smul_smul, mul_inv_cancel₀ h, one_smul]

/-- **C85** Where gamma is positive the normal direction is a unit vector and points outwards.

Missing: the centre (`C85_center`) and positions where gamma is not a number (`C85_nan`). -/
theorem C85_normal_partial {n : ℕ} (factor γ : ℝ) (hf : 0 < factor) (g : Gauss (n + 1))
    (p : Vec (n + 1)) (h : gammaProportional factor g p = some γ) (hγ : 0 < γ) :
    ∃ v, normalDirection factor g p = some v ∧ ‖v‖ = 1 ∧ 0 < ⟪v, referenceDirection g p⟫ := by
  classical
  obtain ⟨h0, rfl⟩ := gamma_some.mp h
  have hq : 0 < quad g p := by
    rcases h0.lt_or_eq with h1 | h1
    · exact h1
    · rw [← h1] at hγ; simp at hγ
  have hne : p ≠ g.mean := by
    rintro rfl
    unfold quad at hq
    rw [sub_self, inner_zero_left] at hq
    exact lt_irrefl _ hq
  have hn : 0 < ‖p - g.mean‖ := by rw [norm_pos_iff, sub_ne_zero]; exact hne
  set c := (quad g p ^ (-(1 / 2) : ℝ)) * factor⁻¹ with hc
  have hcpos : 0 < c := mul_pos (Real.rpow_pos_of_pos hq _) (inv_pos.mpr hf)
  have hw : apply g.cholesky (p - g.mean) ≠ 0 := by
    intro h0
    unfold quad at hq
    rw [h0, inner_zero_right] at hq
    exact lt_irrefl _ hq
  have hN : 0 < ‖c • apply g.cholesky (p - g.mean)‖ := by
    rw [norm_pos_iff]; exact smul_ne_zero hcpos.ne' hw
  refine ⟨(‖c • apply g.cholesky (p - g.mean)‖)⁻¹ • (c • apply g.cholesky (p - g.mean)), ?_, ?_, ?_⟩
  · unfold normalDirection
    rw [if_neg (not_le.mpr hq), if_pos hN.ne']
  · rw [norm_smul, norm_inv, norm_norm, inv_mul_cancel₀ hN.ne']
  · unfold referenceDirection
    rw [if_pos hn.ne', inner_smul_left, inner_smul_left, inner_smul_right, real_inner_comm]
    simp only [conj_trivial]
    have : 0 < ⟪p - g.mean, apply g.cholesky (p - g.mean)⟫ := hq
    positivity

/-- A circle of variance one: the hypotheses of the theorems above can be met. -/
noncomputable def unitGauss (n : ℕ) : Gauss (n + 1) := ⟨0, 1, 1, fun _ => 1⟩

lemma unitGauss_quad (n : ℕ) (p : Vec (n + 1)) : quad (unitGauss n) p = ‖p‖ ^ 2 := by
  unfold quad unitGauss apply
  simp

example : gammaProportional 2 (unitGauss 1) (EuclideanSpace.single 0 6 : Vec 2) = some 3 := by
  rw [gamma_some, unitGauss_quad]
  refine ⟨by positivity, ?_⟩
  rw [Real.sqrt_sq (norm_nonneg _)]
  norm_num

example : (unitGauss 1).directions * (unitGauss 1).directions.transpose = 1
    ∧ ∀ i, (unitGauss 1).lengths i ≠ 0 := by
  simp [unitGauss]

/-- **C85 (violated)** The surface of the obstacle is not the ellipse of the covariance: the factor of the
precision is used as if it were the precision.  For variance 4 (precision `1/4 = (1/2)²`) and a variance
factor of 2, the point two standard deviations from the mean has gamma `√2`. -/
theorem C85_not_covariance :
    ∃ g : Gauss 1, (g.cholesky * g.cholesky.transpose) * (Matrix.diagonal fun _ => (4 : ℝ)) = 1
      ∧ g.mean = 0
      ∧ gammaProportional 2 g (EuclideanSpace.single 0 (2 * Real.sqrt 4)) = some (Real.sqrt 2) := by
  have h4 : Real.sqrt 4 = 2 := by
    rw [show (4 : ℝ) = 2 ^ 2 by norm_num]; exact Real.sqrt_sq (by norm_num)
  refine ⟨⟨0, Matrix.diagonal fun _ => 1 / 2, 1, fun _ => 2⟩, ?_, rfl, ?_⟩
  · simp only [Matrix.diagonal_transpose, Matrix.diagonal_mul_diagonal]
    norm_num
  · rw [gamma_some]
    have hq : quad (⟨0, Matrix.diagonal fun _ => 1 / 2, 1, fun _ => 2⟩ : Gauss 1)
        (EuclideanSpace.single 0 (2 * Real.sqrt 4)) = 8 := by
      unfold quad apply
      rw [h4]
      simp [PiLp.inner_apply]
      norm_num
    rw [hq]
    refine ⟨by norm_num, ?_⟩
    rw [show (8 : ℝ) = 2 ^ 2 * 2 by norm_num, Real.sqrt_mul (by norm_num), Real.sqrt_sq (by norm_num)]
    ring

/-- **C85 (violated)** With correlated coordinates gamma is `nan` at some points: the factor of the
precision is not symmetric positive definite. -/
theorem C85_nan :
    ∃ (g : Gauss 2) (p : Vec 2), g.cholesky.det = 1 ∧ g.cholesky 1 0 = 0
      ∧ (∀ factor, gammaProportional factor g p = none)
      ∧ (∀ factor, getGamma factor g p = none)
      ∧ (∀ factor, projectOnSurface factor g p = none)
      ∧ ∀ factor, normalDirection (n := 1) factor g p = none := by
  classical
  have hq : quad (⟨0, !![1, -4; 0, 1], 1, fun _ => 1⟩ : Gauss 2) !₂[1, 1] < 0 := by
    unfold quad apply
    simp [PiLp.inner_apply, Fin.sum_univ_two]
    norm_num
  have hg : ∀ factor, gammaProportional factor
      (⟨0, !![1, -4; 0, 1], 1, fun _ => 1⟩ : Gauss 2) !₂[1, 1] = none := by
    intro factor
    unfold gammaProportional
    rw [if_pos hq]
  refine ⟨⟨0, !![1, -4; 0, 1], 1, fun _ => 1⟩, !₂[1, 1], by simp [Matrix.det_fin_two], by simp,
    hg, ?_, ?_, ?_⟩
  · intro factor; unfold getGamma; rw [hg]; rfl
  · intro factor; unfold projectOnSurface; rw [hg]; rfl
  · intro factor; unfold normalDirection; rw [if_pos hq.le]

/-- **C85 (violated)** At the mean there is no normal direction, in spite of the default in the code. -/
theorem C85_center {n : ℕ} (factor : ℝ) (g : Gauss (n + 1)) :
    normalDirection factor g g.mean = none ∧ projectOnSurface factor g g.mean = none := by
  classical
  have hq : quad g g.mean = 0 := by unfold quad; rw [sub_self, inner_zero_left]
  constructor
  · unfold normalDirection; rw [if_pos hq.le]
  · unfold projectOnSurface gammaProportional
    rw [hq, if_neg (lt_irrefl _), Option.bind_some, Real.sqrt_zero, zero_div, if_pos rfl]

end Verif.Gmm
