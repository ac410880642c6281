import Verif.Spec.Learner
import Verif.Lemmas.Monad
import Verif.Props.Flows
import Mathlib.Analysis.Complex.Exponential
import Mathlib.Analysis.Matrix.PosDef
import Mathlib.Data.Real.StarOrdered
import Mathlib.Analysis.SpecificLimits.Basic

/-!
# C103 - C107: mixtures, regression, normalisation, integration and learned dynamics
-/

namespace Verif.Learner

open Verif.Spec
open scoped Matrix

variable {d D n m k N : ℕ}

/-! ## C103: probabilities and mixing weights -/

lemma probability_eq (pinv : Pinv) (hp : PinvSpec pinv) (g : Mixture D n) (featIn : Fin m → Fin D) (x : Fin m → ℝ)
    (i : Fin n) (hdet : 0 < ((g.covariances i).submatrix featIn featIn).det) :
    gaussianProbability pinv g featIn x i
      = .ok (normalDensity (fun a => g.means i (featIn a)) ((g.covariances i).submatrix featIn featIn) x
        * Real.exp (-(mahalanobis (fun a => g.means i (featIn a))
          ((g.covariances i).submatrix featIn featIn) x) / 2)) := by
  unfold gaussianProbability
  simp only
  rw [if_pos hdet, hp _ _ hdet.ne']
  congr 1
  unfold normalDensity mahalanobis
  rw [mul_assoc, ← Real.exp_add]
  have e1 : (m : ℝ) * 0.5 = (m : ℝ) / 2 := by ring
  have e2 : ∀ y : ℝ, y ^ (0.5 : ℝ) = Real.sqrt y := by
    intro y; rw [Real.sqrt_eq_rpow]; norm_num
  rw [e1, e2]
  congr 2
  have e3 : (x - fun a => g.means i (featIn a)) = fun a => x a - g.means i (featIn a) := rfl
  rw [e3]
  ring

/-- C103: for covariances with positive determinant the probability is positive, and at the mean it is the value of
the normal density.

Missing: other positions (`C103_not_density`). -/
theorem C103_probability_partial (pinv : Pinv) (hp : PinvSpec pinv) (g : Mixture D n) (featIn : Fin m → Fin D)
    (i : Fin n) (hdet : 0 < ((g.covariances i).submatrix featIn featIn).det) :
    (∀ x, ∃ p, gaussianProbability pinv g featIn x i = .ok p ∧ 0 < p)
    ∧ gaussianProbability pinv g featIn (fun a => g.means i (featIn a)) i
      = .ok (normalDensity (fun a => g.means i (featIn a)) ((g.covariances i).submatrix featIn featIn)
        (fun a => g.means i (featIn a))) := by
  constructor
  · intro x
    refine ⟨_, probability_eq pinv hp g featIn x i hdet, ?_⟩
    unfold normalDensity
    have := Real.pi_pos
    have h2 := Real.sqrt_pos.mpr hdet
    positivity
  · rw [probability_eq pinv hp g featIn _ i hdet]
    have : mahalanobis (fun a => g.means i (featIn a)) ((g.covariances i).submatrix featIn featIn)
        (fun a => g.means i (featIn a)) = 0 := by
      unfold mahalanobis
      rw [sub_self, zero_dotProduct]
    rw [this]
    norm_num

/-- C103, violated by the code: the probability is the normal density only at the mean; everywhere else it is too
small (the exponent has no factor one half). -/
theorem C103_not_density (pinv : Pinv) (hp : PinvSpec pinv) (g : Mixture D n) (featIn : Fin m → Fin D) (i : Fin n)
    (hpos : ((g.covariances i).submatrix featIn featIn).PosDef) (x : Fin m → ℝ)
    (hx : x ≠ fun a => g.means i (featIn a)) :
    ∃ p, gaussianProbability pinv g featIn x i = .ok p
      ∧ p < normalDensity (fun a => g.means i (featIn a)) ((g.covariances i).submatrix featIn featIn) x := by
  refine ⟨_, probability_eq pinv hp g featIn x i (Matrix.PosDef.det_pos hpos), ?_⟩
  set c := (g.covariances i).submatrix featIn featIn
  set mu := fun a => g.means i (featIn a)
  have hm : 0 < mahalanobis mu c x := by
    have := hpos.inv.dotProduct_mulVec_pos (sub_ne_zero.mpr hx)
    simpa [mahalanobis] using this
  have hd : 0 < normalDensity mu c x := by
    unfold normalDensity
    have := Real.pi_pos
    have h2 := Real.sqrt_pos.mpr (Matrix.PosDef.det_pos hpos)
    positivity
  have he : Real.exp (-(mahalanobis mu c x) / 2) < 1 := by
    rw [Real.exp_lt_one_iff]
    linarith
  nlinarith

/-- C103: the mixing weights are non-negative and in the ratio of prior times probability.  With
`normalize_probability` they sum to one, otherwise at most to one; nan is possible only if all products are zero. -/
theorem C103_weights (weights prob : Fin n → ℝ) (maxWeight : ℝ) (dimIn : ℕ) (normalize : Bool) (factor : ℝ)
    (hw : ∀ i, 0 ≤ weights i) (hp : ∀ i, 0 ≤ prob i) (hm : 0 < maxWeight) (hf : 0 < factor) :
    (∀ beta, mixingWeights weights prob maxWeight dimIn normalize factor = .ok beta →
      (∀ i, 0 ≤ beta i) ∧ ∑ i, beta i ≤ 1 ∧ (normalize = true → ∑ i, beta i = 1)
      ∧ (∀ i j, beta i * (weights j * prob j) = beta j * (weights i * prob i))
      ∧ ∀ i, 0 < weights i * prob i → 0 < beta i)
    ∧ ((∃ beta, mixingWeights weights prob maxWeight dimIn normalize factor = .ok beta)
      ↔ (normalize = true → ∃ i, weights i * prob i ≠ 0)) := by
  have hnn : ∀ i, 0 ≤ weights i * prob i := fun i => mul_nonneg (hw i) (hp i)
  have hsum : ∑ i, weights i * prob i = 0 ↔ ∀ i, weights i * prob i = 0 := by
    rw [Finset.sum_eq_zero_iff_of_nonneg (fun i _ => hnn i)]
    simp
  unfold mixingWeights
  cases normalize with
  | true =>
    simp only [if_true, forall_true_left]
    by_cases h : ∑ i, weights i * prob i = 0
    · rw [if_pos h]
      refine ⟨fun beta hb => (by cases hb), ?_⟩
      constructor
      · rintro ⟨b, hb⟩; cases hb
      · rintro ⟨i, hi⟩; exact absurd (hsum.mp h i) hi
    · rw [if_neg h]
      have hpos : 0 < ∑ i, weights i * prob i :=
        lt_of_le_of_ne (Finset.sum_nonneg fun i _ => hnn i) (Ne.symm h)
      have hone : ∑ i, weights i * prob i / ∑ j, weights j * prob j = 1 := by
        rw [← Finset.sum_div, div_self h]
      refine ⟨?_, fun _ => ?_, fun _ => ⟨_, rfl⟩⟩
      · intro beta hb
        injection hb with hb
        rw [← hb]
        refine ⟨fun i => div_nonneg (hnn i) hpos.le, hone.le, hone, fun i j => by ring,
          fun i hi => div_pos hi hpos⟩
      · by_contra hc
        push Not at hc
        exact h (hsum.mpr hc)
  | false =>
    have hpow : 0 < factor ^ dimIn := pow_pos hf _
    have hb0 : ∀ i, 0 ≤ weights i * prob i / maxWeight * factor ^ dimIn := fun i =>
      mul_nonneg (div_nonneg (hnn i) hm.le) hpow.le
    have hbp : ∀ i, 0 < weights i * prob i → 0 < weights i * prob i / maxWeight * factor ^ dimIn := fun i hi =>
      mul_pos (div_pos hi hm) hpow
    simp only [Bool.false_eq_true, if_false]
    by_cases h : ∑ i, weights i * prob i / maxWeight * factor ^ dimIn > 1
    · rw [if_pos h]
      have hpos : 0 < ∑ i, weights i * prob i / maxWeight * factor ^ dimIn := by linarith
      refine ⟨?_, fun _ h' => (by cases h'), fun _ => ⟨_, rfl⟩⟩
      intro beta hb
      injection hb with hb
      rw [← hb]
      refine ⟨fun i => div_nonneg (hb0 i) hpos.le, ?_, fun h' => (by cases h'), fun i j => by ring,
        fun i hi => div_pos (hbp i hi) hpos⟩
      rw [← Finset.sum_div, div_self hpos.ne']
    · rw [if_neg h]
      refine ⟨?_, fun _ h' => (by cases h'), fun _ => ⟨_, rfl⟩⟩
      intro beta hb
      injection hb with hb
      rw [← hb]
      exact ⟨hb0, not_lt.mp h, fun h' => (by cases h'), fun i j => by ring, hbp⟩

/-! ## C104: regression -/

/-- C104: the conditional mean is affine in the input with the best linear predictor as matrix: it gives the mean of
the outputs at the mean of the inputs, and the covariance of its error is `get_covariance_out`, which is positive
semidefinite and not larger than that of any other linear predictor. -/
theorem C104_conditional (pinv : Pinv) (hp : PinvSpec pinv) (g : Mixture D n) (featIn : Fin m → Fin D)
    (featOut : Fin k → Fin D) (i : Fin n) (hpsd : (g.covariances i).PosSemidef)
    (hdet : ((g.covariances i).submatrix featIn featIn).det ≠ 0) :
    ∃ A : Matrix (Fin k) (Fin m) ℝ,
      (∀ x, meanYX pinv g featIn featOut x i
        = (fun b => g.means i (featOut b)) + A *ᵥ (x - fun a => g.means i (featIn a)))
      ∧ errorCovariance (g.covariances i) featIn featOut A = covarianceOut pinv g featIn featOut i
      ∧ (covarianceOut pinv g featIn featOut i).PosSemidef
      ∧ ∀ B, (errorCovariance (g.covariances i) featIn featOut B - covarianceOut pinv g featIn featOut i).PosSemidef := by
  set S := g.covariances i with hS
  have hsym : Sᵀ = S := by
    have := hpsd.isHermitian.eq
    rwa [Matrix.conjTranspose_eq_transpose_of_trivial] at this
  set Sii := S.submatrix featIn featIn with hSii
  set Soi := S.submatrix featOut featIn with hSoi
  set Sio := S.submatrix featIn featOut with hSio
  set Soo := S.submatrix featOut featOut with hSoo
  have hii : Siiᵀ = Sii := by rw [hSii, Matrix.transpose_submatrix, hsym]
  have hio : Sio = Soiᵀ := by rw [hSoi, Matrix.transpose_submatrix, hsym]
  have hunit : IsUnit Sii.det := isUnit_iff_ne_zero.mpr hdet
  set A := Soi * Sii⁻¹ with hA
  have hAS : A * Sii = Soi := by rw [hA, Matrix.mul_assoc, Matrix.nonsing_inv_mul _ hunit, Matrix.mul_one]
  have hSA : Sii * Aᵀ = Sio := by
    have := congrArg Matrix.transpose hAS
    rw [Matrix.transpose_mul, hii] at this
    rw [this, hio]
  have hcov : covarianceOut pinv g featIn featOut i = Soo - A * Sio := by
    unfold covarianceOut
    rw [hp _ _ hdet]
  have hdiff : ∀ B : Matrix (Fin k) (Fin m) ℝ, errorCovariance S featIn featOut B - (Soo - A * Sio)
      = (B - A) * Sii * (B - A)ᵀ := by
    intro B
    have h1 : (B - A) * Sii * (B - A)ᵀ = B * Sii * Bᵀ - B * (Sii * Aᵀ) - (A * Sii) * Bᵀ + A * (Sii * Aᵀ) := by
      rw [Matrix.transpose_sub]
      simp only [Matrix.sub_mul, Matrix.mul_sub, Matrix.mul_assoc]
      abel
    rw [h1, hSA, hAS]
    unfold errorCovariance
    rw [← hSii, ← hSoi, ← hSio, ← hSoo]
    abel
  have hpi : Sii.PosSemidef := hpsd.submatrix featIn
  -- the error covariance is L S Lᵀ
  have herr : errorCovariance S featIn featOut A
      = ((1 : Matrix (Fin D) (Fin D) ℝ).submatrix featOut id - A * (1 : Matrix (Fin D) (Fin D) ℝ).submatrix featIn id)
        * S * ((1 : Matrix (Fin D) (Fin D) ℝ).submatrix featOut id
          - A * (1 : Matrix (Fin D) (Fin D) ℝ).submatrix featIn id)ᵀ := by
    have hsel : ∀ {p q : ℕ} (f : Fin p → Fin D) (h : Fin q → Fin D),
        (1 : Matrix (Fin D) (Fin D) ℝ).submatrix f id * S * ((1 : Matrix (Fin D) (Fin D) ℝ).submatrix h id)ᵀ
          = S.submatrix f h := by
      intro p q f h
      ext a b
      simp [Matrix.mul_apply, Matrix.one_apply]
    rw [Matrix.transpose_sub, Matrix.transpose_mul]
    have h1 : ∀ (P : Matrix (Fin k) (Fin D) ℝ) (Q : Matrix (Fin m) (Fin D) ℝ),
        (P - A * Q) * S * (Pᵀ - Qᵀ * Aᵀ)
          = P * S * Pᵀ - A * (Q * S * Pᵀ) - (P * S * Qᵀ) * Aᵀ + A * (Q * S * Qᵀ) * Aᵀ := by
      intro P Q
      simp only [Matrix.sub_mul, Matrix.mul_sub, Matrix.mul_assoc]
      abel
    rw [h1, hsel, hsel, hsel, hsel]
    rfl
  have hbest : errorCovariance S featIn featOut A = covarianceOut pinv g featIn featOut i := by
    have := hdiff A
    rw [sub_self, Matrix.zero_mul, Matrix.zero_mul, sub_eq_zero] at this
    rw [this, hcov]
  refine ⟨A, ?_, hbest, ?_, ?_⟩
  · intro x
    unfold meanYX
    simp only
    rw [hp _ _ hdet]
    rfl
  · rw [← hbest, herr]
    have := hpsd.mul_mul_conjTranspose_same
      ((1 : Matrix (Fin D) (Fin D) ℝ).submatrix featOut id - A * (1 : Matrix (Fin D) (Fin D) ℝ).submatrix featIn id)
    rwa [Matrix.conjTranspose_eq_transpose_of_trivial] at this
  · intro B
    rw [hcov, hdiff B]
    have := hpi.mul_mul_conjTranspose_same (B - A)
    rwa [Matrix.conjTranspose_eq_transpose_of_trivial] at this

/-- C104 (partial): for a single sample the regression is the mean of the conditional means with weights in the ratio
of the mixing weights, times a power of the sum of the mixing weights: it is between the smallest and the largest
conditional mean if the weights sum to one.

Missing: batches of samples (`C104_batch`). -/
theorem C104_single_partial (beta : Fin n → ℝ) (mu : Fin n → Fin k → ℝ) (p : ℝ) (hb : ∀ i, 0 ≤ beta i)
    (hs : 0 < ∑ i, beta i) :
    ∃ w : Fin n → ℝ, (∀ i, 0 ≤ w i) ∧ ∑ i, w i = 1 ∧ (∀ i j, w i * beta j = w j * beta i)
      ∧ regression (N := 1) (fun _ => beta) (fun _ => mu) p
        = .ok fun _ b => (∑ i, beta i) ^ p * ∑ i, w i * mu i b := by
  refine ⟨fun i => beta i / ∑ j, beta j, fun i => div_nonneg (hb i) hs.le, ?_, fun i j => by ring, ?_⟩
  · rw [← Finset.sum_div, div_self hs.ne']
  · unfold regression
    simp only [Fin.sum_univ_one]
    rw [if_neg hs.ne']
    congr 1
    funext _ b
    rw [Finset.mul_sum]
    apply Finset.sum_congr rfl
    intro i _
    ring

/-- C104, violated by the code: in a batch the regression for a sample is multiplied by a power of the ratio between
the weights of all samples and its own weights, so that it depends on the other samples. -/
theorem C104_batch (beta : Fin N → Fin n → ℝ) (mu : Fin N → Fin n → Fin k → ℝ) (p : ℝ) (hb : ∀ s i, 0 ≤ beta s i)
    (s : Fin N) (hs : 0 < ∑ i, beta s i) :
    ∃ alone batch, regression (N := 1) (fun _ => beta s) (fun _ => mu s) p = .ok alone
      ∧ regression beta mu p = .ok batch
      ∧ ∀ b, batch s b = ((∑ t, ∑ i, beta t i) / ∑ i, beta s i) ^ (p - 1) * alone 0 b := by
  have htot : 0 < ∑ t, ∑ i, beta t i :=
    lt_of_lt_of_le hs (Finset.single_le_sum (f := fun t => ∑ i, beta t i)
      (fun t _ => Finset.sum_nonneg fun i _ => hb t i) (Finset.mem_univ s))
  unfold regression
  simp only [Fin.sum_univ_one]
  rw [if_neg hs.ne', if_neg htot.ne']
  refine ⟨_, _, rfl, rfl, ?_⟩
  intro b
  rw [Finset.mul_sum]
  apply Finset.sum_congr rfl
  intro i _
  rw [Real.div_rpow htot.le hs.le, Real.rpow_sub_one htot.ne', Real.rpow_sub_one hs.ne']
  have : 0 < (∑ i, beta s i) ^ p := Real.rpow_pos_of_pos hs p
  field_simp

/-- C104: with convergence to the attractor, the regression of a single sample at the attractor is zero: the direction
is that of the convergence dynamics; everywhere else the weights are non-negative with square sum one, and the weight
of the attractor is positive. -/
theorem C104_attractor (beta : Fin n → ℝ) (mu : Fin n → Fin k → ℝ) (pBeta betaMin betaR power dist : ℝ)
    (hb : ∀ i, 0 ≤ beta i) (hmin : 0 ≤ betaMin) (hr : 0 < betaR) (hd : 0 ≤ dist) :
    (dist = 0 → predictRegression (N := 1) (fun _ => beta) (fun _ => mu) (some fun _ => dist) pBeta betaMin betaR power
      = .ok fun _ _ => 0)
    ∧ (∀ i, 0 ≤ attractorWeights beta dist pBeta betaMin betaR i)
    ∧ ∑ i, attractorWeights beta dist pBeta betaMin betaR i ^ 2 = 1
    ∧ 0 < attractorWeights beta dist pBeta betaMin betaR (Fin.last n) := by
  have hlast : dist ≠ 0 → 0 < (dist / betaR) ^ (-pBeta) + betaMin := by
    intro h
    have : 0 < dist / betaR := div_pos (lt_of_le_of_ne hd (Ne.symm h)) hr
    have := Real.rpow_pos_of_pos this (-pBeta)
    linarith
  refine ⟨?_, ?_⟩
  · intro h
    unfold predictRegression regression attractorWeights
    simp only [if_pos h, Fin.sum_univ_castSucc, Fin.snoc_castSucc, Fin.snoc_last,
      Finset.sum_const_zero, zero_add, zero_div, zero_mul, mul_zero]
    rw [if_neg (by simp)]
  · unfold attractorWeights
    by_cases h : dist = 0
    · rw [if_pos h]
      refine ⟨?_, ?_, ?_⟩
      · intro i
        refine Fin.lastCases ?_ (fun j => ?_) i
        · rw [Fin.snoc_last]; norm_num
        · rw [Fin.snoc_castSucc]
      · rw [Fin.sum_univ_castSucc]
        simp
      · rw [Fin.snoc_last]; norm_num
    · rw [if_neg h]
      set raw : Fin (n + 1) → ℝ := Fin.snoc beta ((dist / betaR) ^ (-pBeta) + betaMin) with hraw
      have hl : 0 < raw (Fin.last n) := by rw [hraw, Fin.snoc_last]; exact hlast h
      have hsq : 0 < ∑ j, raw j ^ 2 := by
        refine lt_of_lt_of_le (pow_pos hl 2) (Finset.single_le_sum (f := fun j => raw j ^ 2)
          (fun j _ => sq_nonneg _) (Finset.mem_univ (Fin.last n)))
      have hrt := Real.sqrt_pos.mpr hsq
      refine ⟨?_, ?_, div_pos hl hrt⟩
      · intro i
        apply div_nonneg _ hrt.le
        refine Fin.lastCases hl.le (fun j => ?_) i
        rw [hraw, Fin.snoc_castSucc]
        exact hb j
      · simp only [div_pow, Real.sq_sqrt hsq.le]
        rw [← Finset.sum_div, div_self hsq.ne']

/-- C104, violated by the code: the attribute `convergence_attractor` has no effect on a call without this argument:
after every history of calls, whatever was set, such a call does not converge to the attractor, and it switches the
attribute off for a later call with an explicit `None`. -/
theorem C104_flag (stored : Bool) (beta : Fin N → Fin n → ℝ) (mu : Fin N → Fin n → Fin k → ℝ)
    (dist : Fin N → ℝ) (pBeta betaMin betaR power : ℝ) :
    (predictCall stored .leftOut beta mu dist pBeta betaMin betaR power).1 = regression beta mu power
    ∧ (predictCall (predictCall stored .leftOut beta mu dist pBeta betaMin betaR power).2 .isNone beta mu dist pBeta
        betaMin betaR power).1 = regression beta mu power
    ∧ (predictCall true .isNone beta mu dist pBeta betaMin betaR power).1
      = predictRegression beta mu (some dist) pBeta betaMin betaR power := ⟨rfl, rfl, rfl⟩

/-- C104, violated by the code from three dimensions on: the default outputs are the last features in *descending*
order, while the angles are stored in ascending order. -/
theorem C104_reversed (D s : ℕ) (h : s ≤ D) (i : Fin s) :
    (defaultFeatOut D s h i).1 = D - s + (s - 1 - i.1)
    ∧ ((∀ i : Fin s, (defaultFeatOut D s h i).1 = D - s + i.1) ↔ s ≤ 1) := by
  have hi := i.2
  constructor
  · change D - 1 - i.1 = _
    omega
  · constructor
    · intro h'
      have := h' ⟨0, by omega⟩
      change D - 1 - 0 = D - s + 0 at this
      omega
    · intro hs j
      have := j.2
      change D - 1 - j.1 = _
      omega

/-! ## C105: normalisation -/

/-- C105 (partial): both normalisations are inverse to each other as long as nothing is limited.

Missing: samples with large values at certain places of the batch (`C105_rows`). -/
theorem C105_round_trip_partial (s : Normal m) (values : Fin N → Fin m → ℝ)
    (hscale : ∀ c, s.scale = some c → ∀ j, c j ≠ 0)
    (hcrop : s.crop = none ∨ N ≤ s.dimSpace
      ∨ ∃ c, s.crop = some c ∧ ∀ i, rowNorm (shiftScale s values i) ≤ c) :
    transformNormalizedToInitial s (transformInitialToNormalized s values).1 = values := by
  have hrow : ∀ i : Fin N, cropRow s i.1 (shiftScale s values i) = shiftScale s values i := by
    intro i
    unfold cropRow
    rcases hcrop with h | h | ⟨c, h, h'⟩
    · rw [h]
    · cases s.crop with
      | none => rfl
      | some c =>
        simp only
        rw [if_neg]
        rintro ⟨h1, -⟩
        have := i.2
        omega
    · rw [h]
      simp only
      rw [if_neg]
      rintro ⟨-, -, h3⟩
      exact absurd (h' i) (not_le.mpr h3)
  funext i j
  unfold transformNormalizedToInitial transformInitialToNormalized
  simp only
  rw [hrow]
  unfold shiftScale
  cases hm : s.mean <;> cases hc : s.scale
  · rfl
  · simp only
    have := hscale _ hc j
    field_simp
  · simp
  · simp only
    have := hscale _ hc j
    field_simp
    ring

/-- C105, violated by the code: the limitation acts on the samples at certain places of the batch, and on all of their
features: the sample at place `i` is replaced by a vector of length one if `dim_space ≤ i < 2 dim_space` and its
length exceeds the limit, and it is not limited elsewhere. -/
theorem C105_rows (s : Normal m) (c : ℝ) (hc : s.crop = some c) (h0 : 0 ≤ c) (values : Fin N → Fin m → ℝ) (i : Fin N) :
    (s.dimSpace ≤ i.1 → i.1 < 2 * s.dimSpace → c < rowNorm (shiftScale s values i) →
      rowNorm ((transformInitialToNormalized s values).1 i) = 1)
    ∧ ((i.1 < s.dimSpace ∨ 2 * s.dimSpace ≤ i.1) →
      (transformInitialToNormalized s values).1 i = shiftScale s values i) := by
  constructor
  · intro h1 h2 h3
    change rowNorm (cropRow s i.1 (shiftScale s values i)) = 1
    unfold cropRow
    rw [hc]
    simp only
    rw [if_pos ⟨h1, h2, h3⟩]
    set v := shiftScale s values i
    have hpos : 0 < rowNorm v := lt_of_le_of_lt h0 h3
    have hsq : rowNorm v ^ 2 = ∑ j, v j ^ 2 := Real.sq_sqrt (Finset.sum_nonneg fun j _ => sq_nonneg _)
    unfold rowNorm
    have : ∑ j, (v j / rowNorm v) ^ 2 = 1 := by
      simp only [div_pow]
      rw [← Finset.sum_div, hsq, div_self]
      rw [← hsq]
      positivity
    change Real.sqrt (∑ j, (v j / rowNorm v) ^ 2) = 1
    rw [this, Real.sqrt_one]
  · intro h
    change cropRow s i.1 (shiftScale s values i) = _
    unfold cropRow
    rw [hc]
    simp only
    rw [if_neg]
    rintro ⟨h1, h2, -⟩
    omega

/-- C105, violated by the code: without mean and scale the array of the caller is overwritten with the result. -/
theorem C105_argument_overwritten (s : Normal m) (hm : s.mean = none) (hs : s.scale = none)
    (values : Fin N → Fin m → ℝ) :
    (transformInitialToNormalized s values).2 = (transformInitialToNormalized s values).1 := by
  unfold transformInitialToNormalized
  simp [hm, hs]

/-- C105: `normalize_velocity` keeps the directions of the velocities and all other features, and returns speeds of at
most one: the velocities up to the mean speed (times the argument) are divided by it, the others by their own speed.
It returns nan exactly if the divisor of some sample is zero, which with the limit needs a sample at rest and a mean
speed of zero. -/
theorem C105_velocity (vel : Finset (Fin D)) (cropVel : ℝ) (X : Fin N → Fin D → ℝ)
    (Y : Fin N → Fin D → ℝ) (hY : normalizeVelocity vel true cropVel X = .ok Y) (i : Fin N) :
    (∀ j, j ∉ vel → Y i j = X i j)
    ∧ (∃ c : ℝ, 0 < c ∧ ∀ j ∈ vel, Y i j = c * X i j)
    ∧ speed vel (Y i) ≤ 1
    ∧ (((∑ t, speed vel (X t)) / N) * cropVel ≤ speed vel (X i) → speed vel (Y i) = 1)
    ∧ (speed vel (X i) ≤ ((∑ t, speed vel (X t)) / N) * cropVel →
      ∀ j ∈ vel, Y i j = X i j / (((∑ t, speed vel (X t)) / N) * cropVel)) := by
  classical
  unfold normalizeVelocity at hY
  simp only [if_true] at hY
  set mag : Fin N → ℝ := fun i => max (((∑ t, speed vel (X t)) / N) * cropVel) (speed vel (X i)) with hmag
  by_cases h : ∃ i, mag i = 0
  · rw [if_pos h] at hY; cases hY
  · rw [if_neg h] at hY
    injection hY with hY
    have hne : mag i ≠ 0 := fun h' => h ⟨i, h'⟩
    have hs0 : 0 ≤ speed vel (X i) := Real.sqrt_nonneg _
    have hpos : 0 < mag i := lt_of_le_of_ne (hs0.trans (le_max_right _ _)) (Ne.symm hne)
    have hval : ∀ j ∈ vel, Y i j = X i j / mag i := by
      intro j hj
      rw [← hY]
      simp only
      rw [if_pos hj]
    have hspeed : speed vel (Y i) = speed vel (X i) / mag i := by
      unfold speed
      have : ∑ j ∈ vel, Y i j ^ 2 = (∑ j ∈ vel, X i j ^ 2) / mag i ^ 2 := by
        rw [Finset.sum_div]
        apply Finset.sum_congr rfl
        intro j hj
        rw [hval j hj, div_pow]
      rw [this, Real.sqrt_div' _ (sq_nonneg _), Real.sqrt_sq hpos.le]
    refine ⟨?_, ⟨(mag i)⁻¹, inv_pos.mpr hpos, fun j hj => by rw [hval j hj]; ring⟩, ?_, ?_, ?_⟩
    · intro j hj
      rw [← hY]
      simp only
      rw [if_neg hj]
    · rw [hspeed, div_le_one hpos]
      exact le_max_right _ _
    · intro h'
      have : mag i = speed vel (X i) := max_eq_right h'
      rw [hspeed, ← this, div_self hne]
    · intro h' j hj
      rw [hval j hj]
      have : mag i = ((∑ t, speed vel (X t)) / N) * cropVel := max_eq_left h'
      rw [this]

/-- C105: with the limit, `normalize_velocity` succeeds for a positive argument as soon as some sample moves. -/
theorem C105_velocity_exists (vel : Finset (Fin D)) (cropVel : ℝ) (hc : 0 < cropVel) (X : Fin N → Fin D → ℝ)
    (t : Fin N) (ht : 0 < speed vel (X t)) : ∃ Y, normalizeVelocity vel true cropVel X = .ok Y := by
  classical
  unfold normalizeVelocity
  simp only [if_true]
  rw [if_neg]
  · exact ⟨_, rfl⟩
  · rintro ⟨i, hi⟩
    have hN : (0 : ℝ) < N := by
      have := t.2
      exact_mod_cast (by omega : 0 < N)
    have hsum : 0 < ∑ t, speed vel (X t) :=
      lt_of_lt_of_le ht (Finset.single_le_sum (f := fun t => speed vel (X t)) (fun t _ => Real.sqrt_nonneg _)
        (Finset.mem_univ t))
    have : 0 < ((∑ t, speed vel (X t)) / N) * cropVel := mul_pos (div_pos hsum hN) hc
    have h2 := le_max_left (((∑ t, speed vel (X t)) / N) * cropVel) (speed vel (X i))
    linarith

/-! ## Cases -/

/-- The inverse as a pseudo inverse. -/
noncomputable def inv (m : ℕ) (M : Matrix (Fin m) (Fin m) ℝ) : Matrix (Fin m) (Fin m) ℝ := M⁻¹

lemma inv_spec : PinvSpec inv := fun _ _ _ => rfl

/-- A mixture of one component with two features of variance 1 and 2 and covariance 1. -/
def pair : Mixture 2 1 where
  weights := fun _ => 1
  means := fun _ => ![0, 5]
  covariances := fun _ => !![1, 1; 1, 2]

lemma pair_psd : (pair.covariances 0).PosSemidef := by
  have : pair.covariances 0 = !![1, 0; 1, 1] * (!![1, 0; 1, 1] : Matrix (Fin 2) (Fin 2) ℝ).conjTranspose := by
    ext i j
    fin_cases i <;> fin_cases j <;> simp [pair, Matrix.mul_apply, Fin.sum_univ_two] <;> norm_num
  rw [this]
  exact Matrix.posSemidef_self_mul_conjTranspose _

lemma pair_in : (pair.covariances 0).submatrix (![0] : Fin 1 → Fin 2) (![0] : Fin 1 → Fin 2) = 1 := by
  ext i j
  fin_cases i; fin_cases j
  simp [pair]

lemma pair_cross : (pair.covariances 0).submatrix (![1] : Fin 1 → Fin 2) (![0] : Fin 1 → Fin 2) = 1
    ∧ (pair.covariances 0).submatrix (![0] : Fin 1 → Fin 2) (![1] : Fin 1 → Fin 2) = 1
    ∧ (pair.covariances 0).submatrix (![1] : Fin 1 → Fin 2) (![1] : Fin 1 → Fin 2) = 1 + 1 := by
  refine ⟨?_, ?_, ?_⟩
  · ext i j
    fin_cases i; fin_cases j
    simp [pair]
  · ext i j
    fin_cases i; fin_cases j
    simp [pair]
  · ext i j
    fin_cases i; fin_cases j
    simp [pair]
    norm_num

/-- Case: the probability of the first feature at two standard deviations is too small. -/
example : ∃ p, gaussianProbability inv pair (![0] : Fin 1 → Fin 2) (fun _ => 2) 0 = .ok p
    ∧ p < normalDensity (fun _ => 0) (1 : Matrix (Fin 1) (Fin 1) ℝ) (fun _ => 2) := by
  have := C103_not_density inv inv_spec pair (![0] : Fin 1 → Fin 2) 0
    (by rw [pair_in]; exact Matrix.PosDef.one) (fun _ => 2)
    (by intro h; have := congrFun h 0; simp [pair] at this)
  rw [pair_in] at this
  obtain ⟨p, h1, h2⟩ := this
  refine ⟨p, h1, ?_⟩
  have e : (fun a : Fin 1 => pair.means 0 ((![0] : Fin 1 → Fin 2) a)) = fun _ => 0 := by
    funext a; fin_cases a; simp [pair]
  rwa [e] at h2

/-- Case: at its mean the probability is the density. -/
example : ∃ p, gaussianProbability inv pair (![0] : Fin 1 → Fin 2) (fun _ => 0) 0 = .ok p ∧ 0 < p :=
  (C103_probability_partial inv inv_spec pair (![0] : Fin 1 → Fin 2) 0 (by rw [pair_in]; simp)).1 _

/-- Case: two components, the weights are 1/4 and 3/4. -/
example : ∃ beta, mixingWeights ![0.5, 0.5] ![1, 3] 0.5 2 true 4 = .ok beta ∧ beta 0 = 1 / 4 ∧ beta 1 = 3 / 4 := by
  have h : ∀ i : Fin 2, (0 : ℝ) ≤ (![0.5, 0.5] : Fin 2 → ℝ) i := by intro i; fin_cases i <;> simp <;> norm_num
  have h' : ∀ i : Fin 2, (0 : ℝ) ≤ (![1, 3] : Fin 2 → ℝ) i := by intro i; fin_cases i <;> simp
  obtain ⟨h1, h2⟩ := C103_weights ![0.5, 0.5] ![1, 3] 0.5 2 true 4 h h' (by norm_num) (by norm_num)
  obtain ⟨beta, hb⟩ := h2.mpr fun _ => ⟨0, by norm_num⟩
  obtain ⟨-, -, g1, g2, -⟩ := h1 beta hb
  have g1 := g1 rfl
  have g2 := g2 0 1
  rw [Fin.sum_univ_two] at g1
  norm_num at g2
  exact ⟨beta, hb, by linarith, by linarith⟩

/-- Case: without normalisation small probabilities are only scaled. -/
example : mixingWeights ![0.5, 0.5] ![0.01, 0.02] 0.5 1 false 4 = .ok ![0.04, 0.08] := by
  unfold mixingWeights
  simp only [Fin.sum_univ_two]
  norm_num
  funext i
  fin_cases i <;> norm_num

/-- Case: the conditional mean of the second feature for the value 3 of the first one is 8, with error variance 1. -/
example : meanYX inv pair (![0] : Fin 1 → Fin 2) (![1] : Fin 1 → Fin 2) (fun _ => 3) 0 = (fun _ => 8)
    ∧ covarianceOut inv pair (![0] : Fin 1 → Fin 2) (![1] : Fin 1 → Fin 2) 0 = 1 := by
  constructor
  · unfold meanYX
    simp only
    rw [pair_in, pair_cross.1]
    funext b
    fin_cases b
    simp [inv, pair, Matrix.mulVec, dotProduct]
    norm_num
  · unfold covarianceOut
    rw [pair_in, pair_cross.1, pair_cross.2.1, pair_cross.2.2]
    simp [inv]

/-- Case: it meets the hypotheses of C104_conditional. -/
example : (covarianceOut inv pair (![0] : Fin 1 → Fin 2) (![1] : Fin 1 → Fin 2) 0).PosSemidef := by
  obtain ⟨A, -, -, h, -⟩ := C104_conditional inv inv_spec pair (![0] : Fin 1 → Fin 2) (![1] : Fin 1 → Fin 2) 0 pair_psd
    (by rw [pair_in]; simp)
  exact h

/-- Case: one component with the conditional mean 1.  Alone the regression is 1; in a batch of two equal samples with
the power 0 (all weights normalised) it is one half. -/
example : regression (N := 1) (fun _ _ => 1) (fun _ (_ : Fin 1) (_ : Fin 1) => (1 : ℝ)) 0 = .ok (fun _ _ => 1)
    ∧ regression (N := 2) (fun _ _ => 1) (fun _ (_ : Fin 1) (_ : Fin 1) => (1 : ℝ)) 0 = .ok (fun _ _ => 1 / 2) := by
  constructor
  · unfold regression
    simp
  · unfold regression
    simp

/-- Case: the default power: the factor of a sample in a batch of two equal ones is `2 ^ (0.05 - 1)`. -/
example : ∃ alone batch, regression (N := 1) (fun _ _ => 1) (fun _ (_ : Fin 1) (_ : Fin 1) => (1 : ℝ)) 0.05 = .ok alone
    ∧ regression (N := 2) (fun _ _ => 1) (fun _ (_ : Fin 1) (_ : Fin 1) => (1 : ℝ)) 0.05 = .ok batch
    ∧ batch 0 0 = (2 : ℝ) ^ (0.05 - 1 : ℝ) * alone 0 0 := by
  obtain ⟨alone, batch, h1, h2, h3⟩ := C104_batch (N := 2) (fun _ _ => 1) (fun _ (_ : Fin 1) (_ : Fin 1) => (1 : ℝ)) 0.05
    (fun _ _ => by norm_num) 0 (by simp)
  refine ⟨alone, batch, h1, h2, ?_⟩
  have := h3 0
  simpa using this

/-- Case: one component of weight one at the distance 0.3 from the attractor: the weight of the attractor is larger. -/
example : attractorWeights (fun _ : Fin 1 => 1) 0.3 2 0.5 0.3 (Fin.last 1)
    = 1.5 / Real.sqrt (1 + 1.5 ^ 2) := by
  unfold attractorWeights
  rw [if_neg (by norm_num), Fin.sum_univ_castSucc, Fin.sum_univ_one]
  have e0 : (Fin.snoc (fun _ : Fin 1 => (1 : ℝ)) ((0.3 / 0.3 : ℝ) ^ (-2 : ℝ) + 0.5) : Fin 2 → ℝ) (Fin.castSucc 0) = 1 :=
    Fin.snoc_castSucc (α := fun _ => ℝ) ..
  have e1 : (Fin.snoc (fun _ : Fin 1 => (1 : ℝ)) ((0.3 / 0.3 : ℝ) ^ (-2 : ℝ) + 0.5) : Fin 2 → ℝ) (Fin.last 1) = 1.5 := by
    rw [Fin.snoc_last, div_self (by norm_num), Real.one_rpow]; norm_num
  rw [e0, e1]
  norm_num

/-- Case: a sample is normalised differently at place 0 and at place 2. -/
example : (transformInitialToNormalized ⟨none, none, some 1, 2⟩ (fun (_ : Fin 3) (_ : Fin 1) => (5 : ℝ))).1 0 0 = 5
    ∧ (transformInitialToNormalized ⟨none, none, some 1, 2⟩ (fun (_ : Fin 3) (_ : Fin 1) => (5 : ℝ))).1 2 0 = 1 := by
  have e : rowNorm (fun _ : Fin 1 => (5 : ℝ)) = 5 := by
    unfold rowNorm
    rw [Fin.sum_univ_one, Real.sqrt_sq (by norm_num)]
  constructor
  · have := (C105_rows (N := 3) ⟨none, none, some 1, 2⟩ 1 rfl (by norm_num) (fun _ (_ : Fin 1) => (5 : ℝ)) 0).2
      (Or.inl (by simp))
    rw [this]
    rfl
  · change cropRow ⟨none, none, some 1, 2⟩ 2 (fun _ : Fin 1 => (5 : ℝ)) 0 = 1
    unfold cropRow
    simp only
    rw [if_pos ⟨by norm_num, by norm_num, by rw [e]; norm_num⟩, e]
    norm_num

/-- Case: the round trip for two samples with mean and scale. -/
example : transformNormalizedToInitial ⟨some fun _ => 1, some fun _ => 2, some 1, 2⟩
    (transformInitialToNormalized ⟨some fun _ => 1, some fun _ => 2, some 1, 2⟩ (fun (_ : Fin 2) (_ : Fin 1) => (7 : ℝ))).1
    = fun _ _ => 7 :=
  C105_round_trip_partial _ _ (fun c hc j => by injection hc with hc; rw [← hc]; norm_num) (Or.inr (Or.inl le_rfl))

/-- Case: speeds 1 and 3 (mean 2) become 1/2 and 1. -/
example : ∃ Y, normalizeVelocity (D := 1) (N := 2) Finset.univ true 1 (![![1], ![-3]]) = .ok Y
    ∧ Y 0 0 = 1 / 2 ∧ speed Finset.univ (Y 1) = 1 := by
  have s0 : speed (D := 1) Finset.univ ((![![1], ![-3]] : Fin 2 → Fin 1 → ℝ) 0) = 1 := by
    unfold speed; simp
  have s1 : speed (D := 1) Finset.univ ((![![1], ![-3]] : Fin 2 → Fin 1 → ℝ) 1) = 3 := by
    unfold speed
    rw [Fin.sum_univ_one]
    have : ((![![1], ![-3]] : Fin 2 → Fin 1 → ℝ) 1 0) ^ 2 = 3 ^ 2 := by simp
    rw [this, Real.sqrt_sq (by norm_num)]
  obtain ⟨Y, hY⟩ := C105_velocity_exists (D := 1) (N := 2) Finset.univ 1 (by norm_num) (![![1], ![-3]]) 0
    (by rw [s0]; norm_num)
  have h0 := (C105_velocity _ _ _ Y hY 0).2.2.2.2
  have h1 := (C105_velocity _ _ _ Y hY 1).2.2.2.1
  rw [Fin.sum_univ_two, s0, s1] at h0
  rw [Fin.sum_univ_two, s0, s1] at h1
  refine ⟨Y, hY, ?_, h1 (by norm_num)⟩
  rw [h0 (by norm_num) 0 (Finset.mem_univ _)]
  simp
  norm_num

end Verif.Learner
