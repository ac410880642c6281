import Verif.Model.GmmGradient
import Verif.Spec.GmmGradient
import Verif.Props.GmmGeometry
import Mathlib.Analysis.Calculus.Gradient.Basic
import Mathlib.Analysis.InnerProductSpace.Calculus
import Mathlib.Analysis.SpecialFunctions.Pow.Deriv
import Mathlib.Analysis.SpecialFunctions.Sqrt
import Mathlib.Analysis.SpecialFunctions.ExpDeriv

/-!
# C128: derivatives and shared points of the Gaussians of an obstacle
-/

open scoped RealInnerProductSpace

namespace Verif.Gmm

variable {d : ℕ}

/-! ## Gradients -/

lemma apply_add (m : Matrix (Fin d) (Fin d) ℝ) (v w : Vec d) :
    apply m (v + w) = apply m v + apply m w := by
  unfold apply
  ext i
  simp [Matrix.mulVec_add]

/-- The matrix as a continuous linear map. -/
noncomputable def applyL (m : Matrix (Fin d) (Fin d) ℝ) : Vec d →L[ℝ] Vec d :=
  LinearMap.toContinuousLinearMap
    { toFun := apply m
      map_add' := apply_add m
      map_smul' := fun a v => apply_smul m a v }

lemma applyL_apply (m : Matrix (Fin d) (Fin d) ℝ) (v : Vec d) : applyL m v = apply m v := rfl

lemma inner_apply_transpose (m : Matrix (Fin d) (Fin d) ℝ) (v w : Vec d) :
    ⟪v, apply m w⟫ = ⟪apply m.transpose v, w⟫ := by
  unfold apply
  simp only [PiLp.inner_apply, RCLike.inner_apply, conj_trivial, Matrix.mulVec, dotProduct,
    Matrix.transpose_apply]
  simp only [Finset.sum_mul, Finset.mul_sum]
  rw [Finset.sum_comm]
  refine Finset.sum_congr rfl fun i _ => Finset.sum_congr rfl fun j _ => ?_
  ring

lemma quadForm_gradient (m : Matrix (Fin d) (Fin d) ℝ) (c x : Vec d) :
    HasGradientAt (fun y => ⟪y - c, apply m (y - c)⟫)
      (apply m (x - c) + apply m.transpose (x - c)) x := by
  rw [hasGradientAt_iff_hasFDerivAt]
  have h1 : HasFDerivAt (fun y : Vec d => y - c) (ContinuousLinearMap.id ℝ (Vec d)) x :=
    (hasFDerivAt_id x).sub_const c
  have h2 : HasFDerivAt (fun y : Vec d => applyL m (y - c)) (applyL m) x := by
    have := (applyL m).hasFDerivAt (x := x - c)
    exact this.comp x h1
  have h3 := h1.inner ℝ h2
  refine h3.congr_fderiv ?_
  ext w
  simp only [ContinuousLinearMap.comp_apply, ContinuousLinearMap.prod_apply, fderivInnerCLM_apply,
    ContinuousLinearMap.id_apply, applyL_apply, InnerProductSpace.toDual_apply_apply]
  rw [inner_add_left, real_inner_comm (apply m (x - c)) w, inner_apply_transpose]
  ring

/-- **C128** The gradient of the proportional gamma raised to a power, wherever gamma is positive: it is the
sum of what `get_gamma_derivative` returns for the stored matrix and for its transpose. -/
theorem C128_gradient (factor : ℝ) (hf : 0 < factor) (g : Gauss d) (x v w : Vec d) (p γ : ℝ)
    (hγ : gammaProportional factor g x = some γ) (h0 : 0 < γ)
    (hv : gammaDerivative factor g x p = some v)
    (hw : gammaDerivative factor { g with cholesky := g.cholesky.transpose } x p = some w) :
    HasGradientAt (fun y => ((gammaProportional factor g y).getD 0) ^ p) (v + w) x := by
  classical
  obtain ⟨hq0, rfl⟩ := gamma_some.mp hγ
  have hq : 0 < quad g x := by
    rcases hq0.lt_or_eq with h1 | h1
    · exact h1
    · rw [← h1] at h0; simp at h0
  have hT : quad { g with cholesky := g.cholesky.transpose } x = quad g x := by
    unfold quad
    rw [inner_apply_transpose, Matrix.transpose_transpose, real_inner_comm]
  have hpow : npPow (quad g x) (p / 2 - 1) = some (quad g x ^ (p / 2 - 1)) := by
    unfold npPow
    rw [if_neg (by rintro ⟨h, -⟩; linarith), if_neg (by rintro ⟨h, -⟩; linarith)]
  unfold gammaDerivative at hv hw
  rw [hpow, Option.map_some, Option.some.injEq] at hv
  rw [hT, hpow, Option.map_some, Option.some.injEq] at hw
  subst hv hw
  have hgrad := quadForm_gradient g.cholesky g.mean x
  have hcont : ContinuousAt (fun y => quad g y) x := hgrad.continuousAt
  have hev : ∀ᶠ y in nhds x, 0 < quad g y := hcont.eventually (lt_mem_nhds hq)
  have heq : (fun y => ((gammaProportional factor g y).getD 0) ^ p)
      =ᶠ[nhds x] (fun y => factor ^ (-1 * p) * (quad g y) ^ (p / 2)) := by
    filter_upwards [hev] with y hy
    have : gammaProportional factor g y = some (Real.sqrt (quad g y) / factor) :=
      gamma_some.mpr ⟨hy.le, rfl⟩
    rw [this, Option.getD_some, Real.div_rpow (Real.sqrt_nonneg _) hf.le, Real.sqrt_eq_rpow,
      ← Real.rpow_mul hy.le, neg_one_mul, Real.rpow_neg hf.le]
    rw [show (1 / 2 : ℝ) * p = p / 2 by ring]
    field_simp
  rw [hasGradientAt_iff_hasFDerivAt] at hgrad ⊢
  have h1 := (hgrad.rpow_const (p := p / 2) (Or.inl hq.ne')).const_mul (factor ^ (-1 * p))
  have h2 : HasFDerivAt (fun y => ((gammaProportional factor g y).getD 0) ^ p) _ x :=
    h1.congr_of_eventuallyEq heq
  refine h2.congr_fderiv ?_
  ext u
  simp only [ContinuousLinearMap.smul_apply, InnerProductSpace.toDual_apply_apply, smul_eq_mul,
    inner_add_left, inner_smul_left, conj_trivial]
  change factor ^ (-1 * p) * (p / 2 * quad g x ^ (p / 2 - 1) * _) = _
  ring

/-- **C128** `get_gamma_derivative` is violated by a factor of two: with a symmetric matrix the result is
half of the gradient of the powered gamma, so it is the gradient only where it vanishes. -/
theorem C128_half (factor : ℝ) (hf : 0 < factor) (g : Gauss d) (hs : g.cholesky.transpose = g.cholesky)
    (x : Vec d) (p γ : ℝ) (hγ : gammaProportional factor g x = some γ) (h0 : 0 < γ) :
    ∃ v, gammaDerivative factor g x p = some v
      ∧ HasGradientAt (fun y => ((gammaProportional factor g y).getD 0) ^ p) ((2 : ℝ) • v) x
      ∧ (HasGradientAt (fun y => ((gammaProportional factor g y).getD 0) ^ p) v x ↔ p = 0) := by
  classical
  obtain ⟨hq0, hγe⟩ := gamma_some.mp hγ
  have hq : 0 < quad g x := by
    rcases hq0.lt_or_eq with h1 | h1
    · exact h1
    · rw [← h1] at hγe; simp at hγe; linarith
  have hpow : npPow (quad g x) (p / 2 - 1) = some (quad g x ^ (p / 2 - 1)) := by
    unfold npPow
    rw [if_neg (by rintro ⟨h, -⟩; linarith), if_neg (by rintro ⟨h, -⟩; linarith)]
  have hv : gammaDerivative factor g x p = some ((p / 2 * quad g x ^ (p / 2 - 1) * factor ^ (-1 * p))
      • apply g.cholesky (x - g.mean)) := by
    unfold gammaDerivative
    rw [hpow, Option.map_some]
  have hg := C128_gradient factor hf g x _ _ p γ hγ h0 hv (by rw [hs]; exact hv)
  rw [← two_smul ℝ] at hg
  refine ⟨_, hv, hg, ?_⟩
  constructor
  · intro h
    have he := HasGradientAt.unique h hg
    by_contra hp
    have hz : (p / 2 * quad g x ^ (p / 2 - 1) * factor ^ (-1 * p)) • apply g.cholesky (x - g.mean)
        = (0 : Vec d) := by
      have : ∀ a : Vec d, a = (2 : ℝ) • a → a = 0 := by
        intro a ha
        rw [two_smul] at ha
        exact left_eq_add.mp ha
      exact this _ he
    rw [smul_eq_zero] at hz
    rcases hz with hz | hz
    · have h1 : 0 < quad g x ^ (p / 2 - 1) := Real.rpow_pos_of_pos hq _
      have h2 : 0 < factor ^ (-1 * p) := Real.rpow_pos_of_pos hf _
      have : p / 2 * (quad g x ^ (p / 2 - 1) * factor ^ (-1 * p)) = 0 := by rw [← mul_assoc]; exact hz
      rcases mul_eq_zero.mp this with h3 | h3
      · exact hp (by linarith)
      · exact absurd h3 (mul_pos h1 h2).ne'
    · unfold quad at hq
      rw [hz, inner_zero_right] at hq
      exact lt_irrefl _ hq
  · rintro rfl
    convert hg using 1
    simp

/-- **C128** The sign is right: for a positive power the returned vector points outwards, so a step against
it lowers gamma to first order. -/
theorem C128_outwards (factor : ℝ) (hf : 0 < factor) (g : Gauss d) (x : Vec d) (p γ : ℝ) (hp : 0 < p)
    (hγ : gammaProportional factor g x = some γ) (h0 : 0 < γ) :
    ∃ v, gammaDerivative factor g x p = some v ∧ ⟪v, x - g.mean⟫ = p / 2 * γ ^ p := by
  classical
  obtain ⟨hq0, rfl⟩ := gamma_some.mp hγ
  have hq : 0 < quad g x := by
    rcases hq0.lt_or_eq with h1 | h1
    · exact h1
    · rw [← h1] at h0; simp at h0
  have hpow : npPow (quad g x) (p / 2 - 1) = some (quad g x ^ (p / 2 - 1)) := by
    unfold npPow
    rw [if_neg (by rintro ⟨h, -⟩; linarith), if_neg (by rintro ⟨h, -⟩; linarith)]
  refine ⟨_, by unfold gammaDerivative; rw [hpow, Option.map_some], ?_⟩
  rw [inner_smul_left, real_inner_comm]
  simp only [conj_trivial]
  change _ * quad g x = _
  rw [Real.div_rpow (Real.sqrt_nonneg _) hf.le, Real.sqrt_eq_rpow, ← Real.rpow_mul hq.le, neg_one_mul,
    Real.rpow_neg hf.le, show (1 / 2 : ℝ) * p = p / 2 by ring]
  have : quad g x ^ (p / 2) = quad g x ^ (p / 2 - 1) * quad g x := by
    rw [← Real.rpow_add_one hq.ne']
    congr 1
    ring
  rw [this]
  field_simp

/-- **C128** Defect: `_get_gauss_derivative` raises for every input. -/
theorem C128_gauss_fails (g : Gauss d) (x : Vec d) (p : ℝ) :
    gaussDerivative g x p = .error .indexError := rfl

/-- **C128** Defect: a `MultiVariantGaussian` can not be evaluated after it was created, whatever the
arguments: the constructor stores the mean under another name. -/
theorem C128_fresh_fails (pinv : Matrix (Fin d) (Fin d) ℝ → Matrix (Fin d) (Fin d) ℝ) (mean : Vec d)
    (cov : Matrix (Fin d) (Fin d) ℝ) (prec : Option (Matrix (Fin d) (Fin d) ℝ)) (x : Vec d) :
    (Normal.create pinv mean cov prec).evaluate x = .error .attributeError
      ∧ (Normal.create pinv mean cov prec).evaluateDerivative x = .error .attributeError := ⟨rfl, rfl⟩

/-- **C128** With the attribute `mean` assigned by hand, a covariance with positive determinant and the
inverse of the covariance as precision, `evaluate` is the density of the normal distribution.

Missing: the freshly created object, which has no such attribute (`C128_fresh_fails`). -/
theorem C128_density_partial (pinv : Matrix (Fin d) (Fin d) ℝ → Matrix (Fin d) (Fin d) ℝ) (mean : Vec d)
    (cov : Matrix (Fin d) (Fin d) ℝ) (prec : Option (Matrix (Fin d) (Fin d) ℝ)) (x y : Vec d)
    (hdet : 0 < cov.det) (hinv : ∀ m, pinv m * m = 1 ∨ m.det = 0) (hprec : ∀ m, prec = some m → m * cov = 1)
    (hy : cov.mulVec y.ofLp = (x - mean).ofLp) :
    ({ Normal.create pinv mean cov prec with assigned := some mean } : Normal d).evaluate x
      = .ok (Real.exp (-(⟪x - mean, y⟫ / 2)) / Real.sqrt ((2 * Real.pi) ^ d * cov.det)) := by
  classical
  have hpos : 0 < (2 * Real.pi) ^ d * cov.det := mul_pos (pow_pos Real.two_pi_pos d) hdet
  have hP : (Normal.create pinv mean cov prec).precision * cov = 1 := by
    unfold Normal.create
    cases prec with
    | none => exact (hinv cov).resolve_right hdet.ne'
    | some m => exact hprec m rfl
  have happ : apply (Normal.create pinv mean cov prec).precision (x - mean) = y := by
    unfold apply
    rw [← hy, Matrix.mulVec_mulVec, hP, Matrix.one_mulVec]
  have hfr : (Normal.create pinv mean cov prec).fraction
      = some (1 / Real.sqrt ((2 * Real.pi) ^ d * cov.det)) := by
    unfold Normal.create
    simp only [if_neg (not_le.mpr hpos)]
  unfold Normal.evaluate
  simp only [hfr, happ]
  congr 1
  rw [show (-0.5 : ℝ) * ⟪x - mean, y⟫ = -(⟪x - mean, y⟫ / 2) by ring]
  ring

/-- **C128** The derivative is violated in the same way: with a symmetric precision `evaluate_derivative` is
half of the gradient of `evaluate`, and the gradient only where it vanishes. -/
theorem C128_density_half (n : Normal d) (mean : Vec d) (f : ℝ) (hm : n.assigned = some mean)
    (hf : n.fraction = some f) (hs : n.precision.transpose = n.precision) (x : Vec d) :
    ∃ (φ : Vec d → ℝ) (v : Vec d), (∀ y, n.evaluate y = .ok (φ y)) ∧ n.evaluateDerivative x = .ok v
      ∧ HasGradientAt φ ((2 : ℝ) • v) x ∧ (HasGradientAt φ v x ↔ v = 0) := by
  refine ⟨fun y => f * Real.exp ((-0.5) * ⟪y - mean, apply n.precision (y - mean)⟫),
    (f * Real.exp ((-0.5) * ⟪x - mean, apply n.precision (x - mean)⟫))
        • ((-0.5 : ℝ) • apply n.precision (x - mean)), ?_, ?_, ?_⟩
  · intro y; unfold Normal.evaluate; simp only [hm, hf]
  · unfold Normal.evaluateDerivative; simp only [hm, hf]
  have hgrad := quadForm_gradient n.precision mean x
  rw [hs] at hgrad
  have hG : HasGradientAt (fun y => f * Real.exp ((-0.5) * ⟪y - mean, apply n.precision (y - mean)⟫))
      ((2 : ℝ) • (f * Real.exp ((-0.5) * ⟪x - mean, apply n.precision (x - mean)⟫))
        • ((-0.5 : ℝ) • apply n.precision (x - mean))) x := by
    rw [hasGradientAt_iff_hasFDerivAt] at hgrad ⊢
    have h1 := ((hgrad.const_mul (-0.5)).exp).const_mul f
    refine h1.congr_fderiv ?_
    ext u
    simp only [ContinuousLinearMap.smul_apply, InnerProductSpace.toDual_apply_apply, smul_eq_mul,
      inner_add_left, inner_smul_left, conj_trivial]
    ring
  refine ⟨hG, ?_, ?_⟩
  · intro h
    have he := HasGradientAt.unique h hG
    rw [two_smul] at he
    exact left_eq_add.mp he
  · intro h
    rw [h, smul_zero] at hG
    rw [h]
    exact hG

/-! ## Shared point -/

/-- **C128** Two Gaussians with the same mean share it. -/
theorem C128_same_mean (factor : ℝ) (g₁ g₂ : Gauss d) (h : g₁.mean = g₂.mean) (p : ℝ) (n : ℕ) (rtol s : ℝ) :
    intersectionOfEllipses factor g₁ g₂ p n rtol s = some g₁.mean := by
  classical
  unfold intersectionOfEllipses
  rw [if_pos (by rw [h, sub_self, norm_zero, mul_zero])]

lemma gradientSum_pair (factor p : ℝ) (x : Vec d) (g₁ g₂ : Gauss d) :
    gradientSum factor p x [g₁, g₂] = gradientSum factor p x [g₂, g₁] := by
  simp only [gradientSum]
  cases gammaDerivative factor g₁ x p <;> cases gammaDerivative factor g₂ x p <;> simp [add_comm]

/-- **C128** The shared point does not depend on the order of the two Gaussians. -/
theorem C128_order (factor : ℝ) (g₁ g₂ : Gauss d) (p : ℝ) (n : ℕ) (rtol s : ℝ) (hr : rtol ≠ 0) :
    intersectionOfEllipses factor g₁ g₂ p n rtol s = intersectionOfEllipses factor g₂ g₁ p n rtol s := by
  classical
  unfold intersectionOfEllipses
  rw [norm_sub_rev g₂.mean g₁.mean, add_comm g₂.mean]
  by_cases h : rtol * ‖g₁.mean - g₂.mean‖ = 0
  · rw [if_pos h, if_pos h]
    rcases mul_eq_zero.mp h with h1 | h1
    · exact absurd h1 hr
    · rw [sub_eq_zero.mp (norm_eq_zero.mp h1)]
  · rw [if_neg h, if_neg h]
    generalize (1 / 2 : ℝ) • (g₁.mean + g₂.mean) = x
    induction n generalizing x with
    | zero => rfl
    | succ n ih =>
      unfold intersectLoop
      rw [gradientSum_pair]
      cases gradientSum factor p x [g₂, g₁] with
      | none => rfl
      | some grad => simp only [ih]

/-- **C128** Two Gaussians with the same matrix (of which the quadratic form is not negative) share the
midpoint of their means. -/
theorem C128_midpoint (factor : ℝ) (g₁ g₂ : Gauss d) (h : g₁.cholesky = g₂.cholesky) (p : ℝ) (n : ℕ)
    (rtol s : ℝ) (hr : 0 < rtol) (hp : 2 ≤ p)
    (hpos : 0 ≤ ⟪g₁.mean - g₂.mean, apply g₁.cholesky (g₁.mean - g₂.mean)⟫) (hne : g₁.mean ≠ g₂.mean) :
    intersectionOfEllipses factor g₁ g₂ p n rtol s = some ((1 / 2 : ℝ) • (g₁.mean + g₂.mean)) := by
  classical
  have habs : 0 < rtol * ‖g₁.mean - g₂.mean‖ := mul_pos hr (by rw [norm_pos_iff, sub_ne_zero]; exact hne)
  unfold intersectionOfEllipses
  rw [if_neg habs.ne']
  cases n with
  | zero => rfl
  | succ n =>
    set x := (1 / 2 : ℝ) • (g₁.mean + g₂.mean) with hx
    have h1 : x - g₁.mean = (-(1 / 2) : ℝ) • (g₁.mean - g₂.mean) := by rw [hx]; module
    have h2 : x - g₂.mean = (1 / 2 : ℝ) • (g₁.mean - g₂.mean) := by rw [hx]; module
    have hq1 : quad g₁ x = 1 / 4 * ⟪g₁.mean - g₂.mean, apply g₁.cholesky (g₁.mean - g₂.mean)⟫ := by
      unfold quad
      rw [h1, apply_smul, inner_smul_left, inner_smul_right]
      simp only [conj_trivial]
      ring
    have hq2 : quad g₂ x = quad g₁ x := by
      rw [hq1]
      unfold quad
      rw [h2, ← h, apply_smul, inner_smul_left, inner_smul_right]
      simp only [conj_trivial]
      ring
    have hpow : npPow (quad g₁ x) (p / 2 - 1) = some (quad g₁ x ^ (p / 2 - 1)) := by
      unfold npPow
      rw [if_neg (by rintro ⟨h, -⟩; rw [hq1] at h; linarith), if_neg (by rintro ⟨-, h⟩; linarith)]
    have hgs : gradientSum factor p x [g₁, g₂] = some 0 := by
      simp only [gradientSum, gammaDerivative, hq2, hpow, Option.map_some, h1, h2, ← h, apply_smul]
      congr 1
      module
    unfold intersectLoop
    rw [hgs]
    simp only [norm_zero]
    rw [if_pos]
    rw [Real.zero_rpow (by positivity)]
    exact habs

lemma isotropic_derivative {factor p a : ℝ} {g : Gauss d} (hg : g.cholesky = a • 1) {x v : Vec d}
    (h : gammaDerivative factor g x p = some v) : ∃ c : ℝ, v = c • (x - g.mean) := by
  unfold gammaDerivative at h
  cases hq : npPow (quad g x) (p / 2 - 1) with
  | none => rw [hq] at h; simp at h
  | some q =>
    rw [hq, Option.map_some, Option.some.injEq] at h
    refine ⟨p / 2 * q * factor ^ (-1 * p) * a, ?_⟩
    have : apply g.cholesky (x - g.mean) = a • (x - g.mean) := by
      rw [hg]
      unfold apply
      ext i
      simp [Matrix.smul_mulVec]
    rw [← h, this, smul_smul]

/-- **C128** For two circular Gaussians every shared point that is found lies on the line through their means,
after any number of rounds, with any powers, tolerances and step sizes.

Missing: Gaussians that are not circular. -/
theorem C128_line_partial (factor : ℝ) (g₁ g₂ : Gauss d) (a₁ a₂ : ℝ) (h₁ : g₁.cholesky = a₁ • 1)
    (h₂ : g₂.cholesky = a₂ • 1) (p : ℝ) (n : ℕ) (rtol s : ℝ) (x : Vec d)
    (h : intersectionOfEllipses factor g₁ g₂ p n rtol s = some x) :
    ∃ t : ℝ, x = g₁.mean + t • (g₂.mean - g₁.mean) := by
  classical
  unfold intersectionOfEllipses at h
  by_cases h0 : rtol * ‖g₁.mean - g₂.mean‖ = 0
  · rw [if_pos h0, Option.some.injEq] at h
    exact ⟨0, by rw [← h]; module⟩
  · rw [if_neg h0] at h
    have key : ∀ (n : ℕ) (y : Vec d) (t : ℝ), y = g₁.mean + t • (g₂.mean - g₁.mean) →
        intersectLoop factor p (rtol * ‖g₁.mean - g₂.mean‖) s [g₁, g₂] n y = some x →
        ∃ t : ℝ, x = g₁.mean + t • (g₂.mean - g₁.mean) := by
      intro n
      induction n with
      | zero =>
        intro y t hy h
        unfold intersectLoop at h
        rw [Option.some.injEq] at h
        exact ⟨t, by rw [← h, hy]⟩
      | succ n ih =>
        intro y t hy h
        unfold intersectLoop at h
        cases hs : gradientSum factor p y [g₁, g₂] with
        | none => rw [hs] at h; simp at h
        | some grad =>
          simp only [hs] at h
          have hgrad : ∃ c : ℝ, grad = c • (g₂.mean - g₁.mean) := by
            simp only [gradientSum] at hs
            cases hd1 : gammaDerivative factor g₁ y p with
            | none => rw [hd1] at hs; simp at hs
            | some v₁ =>
              cases hd2 : gammaDerivative factor g₂ y p with
              | none => rw [hd1, hd2] at hs; simp at hs
              | some v₂ =>
                rw [hd1, hd2] at hs
                simp only [add_zero, Option.some.injEq] at hs
                obtain ⟨c₁, e₁⟩ := isotropic_derivative h₁ hd1
                obtain ⟨c₂, e₂⟩ := isotropic_derivative h₂ hd2
                refine ⟨c₁ * t + c₂ * (t - 1), ?_⟩
                rw [← hs, e₁, e₂, hy]
                module
          obtain ⟨c, hc⟩ := hgrad
          split_ifs at h with c1 c2
          · rw [Option.some.injEq] at h
            exact ⟨t, by rw [← h, hy]⟩
          · refine ih _ (t - s * (‖grad‖ ^ (1 / p) * (1 / ‖grad‖ * c))) ?_ h
            rw [hy]
            generalize ‖grad‖ ^ (1 / p) = r
            generalize 1 / ‖grad‖ = q
            rw [hc]
            module
    exact key n _ (1 / 2) (by module) h

/-- **C128** The shared point moves with the obstacle. -/
theorem C128_translation (factor : ℝ) (g₁ g₂ : Gauss d) (p : ℝ) (n : ℕ) (rtol s : ℝ) (w : Vec d) :
    intersectionOfEllipses factor { g₁ with mean := g₁.mean + w } { g₂ with mean := g₂.mean + w } p n rtol s
      = (intersectionOfEllipses factor g₁ g₂ p n rtol s).map (· + w) := by
  classical
  have hder : ∀ (g : Gauss d) (x : Vec d), gammaDerivative factor { g with mean := g.mean + w } (x + w) p
      = gammaDerivative factor g x p := by
    intro g x
    unfold gammaDerivative quad
    simp only [add_sub_add_right_eq_sub]
  have hsum : ∀ x : Vec d, gradientSum factor p (x + w)
      [{ g₁ with mean := g₁.mean + w }, { g₂ with mean := g₂.mean + w }]
      = gradientSum factor p x [g₁, g₂] := by
    intro x
    simp only [gradientSum, hder]
  unfold intersectionOfEllipses
  simp only [add_sub_add_right_eq_sub]
  by_cases h : rtol * ‖g₁.mean - g₂.mean‖ = 0
  · rw [if_pos h, if_pos h, Option.map_some]
  · rw [if_neg h, if_neg h]
    have hm : (1 / 2 : ℝ) • (g₁.mean + w + (g₂.mean + w)) = (1 / 2 : ℝ) • (g₁.mean + g₂.mean) + w := by module
    rw [hm]
    generalize (1 / 2 : ℝ) • (g₁.mean + g₂.mean) = x
    induction n generalizing x with
    | zero => rfl
    | succ n ih =>
      unfold intersectLoop
      rw [hsum]
      cases gradientSum factor p x [g₁, g₂] with
      | none => rfl
      | some grad =>
        simp only
        by_cases c1 : ‖grad‖ ^ (1 / p) < rtol * ‖g₁.mean - g₂.mean‖
        · rw [if_pos c1, if_pos c1, Option.map_some]
        · rw [if_neg c1, if_neg c1]
          by_cases c2 : ‖grad‖ = 0
          · rw [if_pos c2, if_pos c2, Option.map_none]
          · rw [if_neg c2, if_neg c2, ← ih]
            congr 1
            module

end Verif.Gmm
