import Verif.Props.GmmGradient

/-!
# C128: shared points inside and outside of the ellipses, and examples
-/

open scoped RealInnerProductSpace

namespace Verif.Gmm

variable {d : ℕ}

/-- **C128** If two Gaussians have the same matrix and their ellipses intersect, then the shared point is in
both ellipses.  Missing: Gaussians with different matrices, for which it fails (`C128_outside`). -/
theorem C128_inside_partial (factor : ℝ) (hf : 0 < factor) (g₁ g₂ : Gauss d) (h : g₁.cholesky = g₂.cholesky)
    (hpos : ∀ v : Vec d, 0 ≤ ⟪v, apply g₁.cholesky v⟫) (p : ℝ) (hp : 2 ≤ p) (n : ℕ) (rtol s : ℝ)
    (hr : 0 < rtol) (z : Vec d) (γ₁ γ₂ : ℝ) (hz₁ : gammaProportional factor g₁ z = some γ₁)
    (hz₂ : gammaProportional factor g₂ z = some γ₂) (h₁ : γ₁ ≤ 1) (h₂ : γ₂ ≤ 1) :
    ∃ x η₁ η₂, intersectionOfEllipses factor g₁ g₂ p n rtol s = some x
      ∧ gammaProportional factor g₁ x = some η₁ ∧ gammaProportional factor g₂ x = some η₂
      ∧ η₁ ≤ 1 ∧ η₂ ≤ 1 := by
  classical
  have hsq : ∀ (g : Gauss d) (y : Vec d) (γ : ℝ), gammaProportional factor g y = some γ → γ ≤ 1 →
      quad g y ≤ factor ^ 2 := by
    intro g y γ hy hle
    obtain ⟨h0, rfl⟩ := gamma_some.mp hy
    rw [div_le_one hf] at hle
    exact (Real.sqrt_le_left hf.le).mp hle
  have hback : ∀ (g : Gauss d) (y : Vec d), 0 ≤ quad g y → quad g y ≤ factor ^ 2 →
      ∃ η, gammaProportional factor g y = some η ∧ η ≤ 1 := by
    intro g y h0 hle
    refine ⟨_, gamma_some.mpr ⟨h0, rfl⟩, ?_⟩
    rw [div_le_one hf]
    exact (Real.sqrt_le_left hf.le).mpr hle
  by_cases hne : g₁.mean = g₂.mean
  · have hx := C128_same_mean factor g₁ g₂ hne p n rtol s
    obtain ⟨η₁, e₁, l₁⟩ := hback g₁ g₁.mean (by unfold quad; simp) (by unfold quad; simp; positivity)
    obtain ⟨η₂, e₂, l₂⟩ := hback g₂ g₁.mean (by unfold quad; rw [hne]; simp)
      (by unfold quad; rw [hne]; simp; positivity)
    exact ⟨_, η₁, η₂, hx, e₁, e₂, l₁, l₂⟩
  · have hx := C128_midpoint factor g₁ g₂ h p n rtol s hr hp (hpos _) hne
    have q1 := hsq g₁ z γ₁ hz₁ h₁
    have q2 := hsq g₂ z γ₂ hz₂ h₂
    unfold quad at q1 q2
    rw [← h] at q2
    have hpar : ⟪g₁.mean - g₂.mean, apply g₁.cholesky (g₁.mean - g₂.mean)⟫ ≤ 4 * factor ^ 2 := by
      have h3 := hpos ((z - g₁.mean) + (z - g₂.mean))
      have e : g₁.mean - g₂.mean = (z - g₂.mean) + (-1 : ℝ) • (z - g₁.mean) := by module
      rw [e, apply_add, apply_smul]
      rw [apply_add] at h3
      simp only [inner_add_left, inner_add_right, inner_smul_left, inner_smul_right, conj_trivial] at h3 ⊢
      linarith
    have m1 : quad g₁ ((1 / 2 : ℝ) • (g₁.mean + g₂.mean))
        = 1 / 4 * ⟪g₁.mean - g₂.mean, apply g₁.cholesky (g₁.mean - g₂.mean)⟫ := by
      unfold quad
      rw [show (1 / 2 : ℝ) • (g₁.mean + g₂.mean) - g₁.mean = (-(1 / 2) : ℝ) • (g₁.mean - g₂.mean) by module,
        apply_smul, inner_smul_left, inner_smul_right]
      simp only [conj_trivial]
      ring
    have m2 : quad g₂ ((1 / 2 : ℝ) • (g₁.mean + g₂.mean))
        = 1 / 4 * ⟪g₁.mean - g₂.mean, apply g₁.cholesky (g₁.mean - g₂.mean)⟫ := by
      unfold quad
      rw [show (1 / 2 : ℝ) • (g₁.mean + g₂.mean) - g₂.mean = (1 / 2 : ℝ) • (g₁.mean - g₂.mean) by module,
        ← h, apply_smul, inner_smul_left, inner_smul_right]
      simp only [conj_trivial]
      ring
    have hp0 := hpos (g₁.mean - g₂.mean)
    obtain ⟨η₁, e₁, l₁⟩ := hback g₁ _ (by rw [m1]; linarith) (by rw [m1]; linarith)
    obtain ⟨η₂, e₂, l₂⟩ := hback g₂ _ (by rw [m2]; linarith) (by rw [m2]; linarith)
    exact ⟨_, η₁, η₂, hx, e₁, e₂, l₁, l₂⟩

/-- A circle around `(x, 0)` with the given matrix entry. -/
noncomputable def circleAt (x a : ℝ) : Gauss 2 := ⟨EuclideanSpace.single 0 x, a • 1, 1, fun _ => 1⟩

lemma circleAt_apply (x a : ℝ) (v : Vec 2) : apply (circleAt x a).cholesky v = a • v := by
  unfold apply circleAt
  ext i
  simp [Matrix.smul_mulVec]

lemma single_diff (x y : ℝ) : (EuclideanSpace.single 0 y : Vec 2) - EuclideanSpace.single 0 x
    = EuclideanSpace.single 0 (y - x) := by
  ext i
  fin_cases i <;> simp

lemma circleAt_quad (x a y : ℝ) : quad (circleAt x a) (EuclideanSpace.single 0 y) = a * (y - x) ^ 2 := by
  unfold quad
  rw [circleAt_apply, inner_smul_right]
  unfold circleAt
  simp only [real_inner_self_eq_norm_sq, single_diff, EuclideanSpace.norm_single,
    Real.norm_eq_abs, sq_abs]

/-- **C128** The shared point fails to be shared: with the default parameters, two circles of radius 100 and 25
whose centres are 100 apart intersect (a point with gamma below one for both exists), but the returned point
has gamma two for the smaller one. -/
theorem C128_outside :
    ∃ (g₁ g₂ : Gauss 2) (z x : Vec 2),
      gammaProportional 2 g₁ z = some (9 / 10) ∧ gammaProportional 2 g₂ z = some (2 / 5)
      ∧ intersectionOfEllipses 2 g₁ g₂ = some x
      ∧ gammaProportional 2 g₂ x = some 2 := by
  classical
  refine ⟨circleAt 0 (1 / 2500), circleAt 100 (4 / 625), EuclideanSpace.single 0 90,
    EuclideanSpace.single 0 50, ?_, ?_, ?_, ?_⟩
  · rw [gamma_some, circleAt_quad]
    refine ⟨by norm_num, ?_⟩
    rw [show (1 / 2500 : ℝ) * (90 - 0) ^ 2 = (9 / 5) ^ 2 by norm_num, Real.sqrt_sq (by norm_num)]
    norm_num
  · rw [gamma_some, circleAt_quad]
    refine ⟨by norm_num, ?_⟩
    rw [show (4 / 625 : ℝ) * (90 - 100) ^ 2 = (4 / 5) ^ 2 by norm_num, Real.sqrt_sq (by norm_num)]
    norm_num
  · have hm1 : (circleAt 0 (1 / 2500)).mean = EuclideanSpace.single 0 (0 : ℝ) := rfl
    have hm2 : (circleAt 100 (4 / 625)).mean = EuclideanSpace.single 0 (100 : ℝ) := rfl
    have hdist : ‖(circleAt 0 (1 / 2500)).mean - (circleAt 100 (4 / 625)).mean‖ = 100 := by
      rw [hm1, hm2, single_diff, EuclideanSpace.norm_single]
      norm_num
    have hmid : (1 / 2 : ℝ) • ((circleAt 0 (1 / 2500)).mean + (circleAt 100 (4 / 625)).mean)
        = EuclideanSpace.single 0 (50 : ℝ) := by
      rw [hm1, hm2]
      ext i
      fin_cases i <;> simp <;> norm_num
    unfold intersectionOfEllipses
    rw [hdist, hmid, if_neg (by norm_num)]
    have h4 : (2 : ℝ) ^ (-1 * 5 : ℝ) = 1 / 32 := by
      rw [show (-1 * 5 : ℝ) = ((-5 : ℤ) : ℝ) by norm_num, Real.rpow_intCast]
      norm_num
    have p1 : npPow (quad (circleAt 0 (1 / 2500)) (EuclideanSpace.single 0 50)) (5 / 2 - 1) = some 1 := by
      rw [circleAt_quad]
      unfold npPow
      rw [if_neg (by rintro ⟨h, -⟩; norm_num at h), if_neg (by rintro ⟨h, -⟩; norm_num at h)]
      norm_num
    have p2 : npPow (quad (circleAt 100 (4 / 625)) (EuclideanSpace.single 0 50)) (5 / 2 - 1) = some 64 := by
      rw [circleAt_quad]
      unfold npPow
      rw [if_neg (by rintro ⟨h, -⟩; norm_num at h), if_neg (by rintro ⟨h, -⟩; norm_num at h)]
      congr 1
      rw [show (4 / 625 : ℝ) * (50 - 100) ^ 2 = 4 ^ (2 : ℝ) by norm_num, ← Real.rpow_mul (by norm_num)]
      norm_num
    have hg : gradientSum 2 5 (EuclideanSpace.single 0 50 : Vec 2)
        [circleAt 0 (1 / 2500), circleAt 100 (4 / 625)]
        = some (EuclideanSpace.single 0 (1 / 640 - 8 / 5 : ℝ)) := by
      simp only [gradientSum, gammaDerivative, p1, p2, Option.map_some, circleAt_apply, hm1, hm2, h4]
      congr 1
      ext i
      fin_cases i <;> simp <;> norm_num
    unfold intersectLoop
    rw [hg]
    simp only
    rw [if_pos]
    rw [EuclideanSpace.norm_single, Real.norm_eq_abs, abs_of_neg (by norm_num)]
    calc (-(1 / 640 - 8 / 5) : ℝ) ^ (1 / 5 : ℝ) ≤ (-(1 / 640 - 8 / 5) : ℝ) ^ (1 : ℝ) :=
          Real.rpow_le_rpow_of_exponent_le (by norm_num) (by norm_num)
      _ < 1e-1 * 100 := by rw [Real.rpow_one]; norm_num
  · rw [gamma_some, circleAt_quad]
    refine ⟨by norm_num, ?_⟩
    rw [show (4 / 625 : ℝ) * (50 - 100) ^ 2 = 4 ^ 2 by norm_num, Real.sqrt_sq (by norm_num)]
    norm_num

/-- Two equal circles that intersect: the hypotheses of `C128_inside_partial` and `C128_midpoint` hold. -/
example (n : ℕ) : ∃ x η₁ η₂, intersectionOfEllipses 2 (circleAt 0 1) (circleAt 2 1) 5 n (1 / 10) (1 / 20) = some x
    ∧ gammaProportional 2 (circleAt 0 1) x = some η₁ ∧ gammaProportional 2 (circleAt 2 1) x = some η₂
    ∧ η₁ ≤ 1 ∧ η₂ ≤ 1 := by
  refine C128_inside_partial 2 (by norm_num) (circleAt 0 1) (circleAt 2 1)
    (by unfold circleAt; rfl) ?_ 5 (by norm_num) n (1 / 10) (1 / 20) (by norm_num)
    (EuclideanSpace.single 0 1) (1 / 2) (1 / 2) ?_ ?_ (by norm_num) (by norm_num)
  · intro v
    rw [circleAt_apply, inner_smul_right, real_inner_self_eq_norm_sq]
    positivity
  · rw [gamma_some, circleAt_quad]
    norm_num
  · rw [gamma_some, circleAt_quad]
    norm_num

/-- The derivative of gamma squared at distance two from a unit circle: half of the gradient. -/
example : ∃ v, gammaDerivative 2 (circleAt 0 1) (EuclideanSpace.single 0 2) 2 = some v
    ∧ HasGradientAt (fun y => ((gammaProportional 2 (circleAt 0 1) y).getD 0) ^ (2 : ℝ)) ((2 : ℝ) • v)
      (EuclideanSpace.single 0 2)
    ∧ ¬ HasGradientAt (fun y => ((gammaProportional 2 (circleAt 0 1) y).getD 0) ^ (2 : ℝ)) v
      (EuclideanSpace.single 0 2) := by
  obtain ⟨v, h1, h2, h3⟩ := C128_half 2 (by norm_num) (circleAt 0 1)
    (by unfold circleAt; simp) (EuclideanSpace.single 0 2) 2 1
    (by rw [gamma_some, circleAt_quad]
        refine ⟨by norm_num, ?_⟩
        rw [show (1 : ℝ) * (2 - 0) ^ 2 = 2 ^ 2 by norm_num, Real.sqrt_sq (by norm_num)]
        norm_num) one_pos
  exact ⟨v, h1, h2, fun h => absurd (h3.mp h) (by norm_num)⟩

/-- A standard normal distribution in the plane, with the mean assigned by hand. -/
example : ({ Normal.create (d := 2) (fun m => m⁻¹) 0 1 none with assigned := some 0 } : Normal 2).evaluate
      (EuclideanSpace.single 0 1)
    = .ok (Real.exp (-(1 / 2)) / Real.sqrt ((2 * Real.pi) ^ 2)) := by
  have := C128_density_partial (d := 2) (fun m => m⁻¹) 0 1 none (EuclideanSpace.single 0 1)
    (EuclideanSpace.single 0 1) (by simp)
    (fun m => by
      by_cases h : m.det = 0
      · exact Or.inr h
      · exact Or.inl (Matrix.nonsing_inv_mul m (isUnit_iff_ne_zero.mpr h)))
    (fun m h => by cases h) (by rw [Matrix.one_mulVec, sub_zero])
  rw [this]
  simp

end Verif.Gmm
