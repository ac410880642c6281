import Verif.Spec.MixtureRegression
import Verif.Props.Learner

/-!
# C142: regression with a mixture (direction_space.py)
-/

namespace Verif.MixtureRegression
open Verif.Spec Verif.Learner
open scoped Matrix

variable {D n m : ℕ}

/-- C142: the outputs are the features which are not inputs, in increasing order. -/
theorem C142_outputs (featIn : Fin m → Fin D) :
    (∀ b, b ∈ dimsOutput featIn ↔ ∀ a, featIn a ≠ b) ∧ (dimsOutput featIn).Pairwise (· < ·) := by
  unfold dimsOutput
  refine ⟨fun b => by simp, ?_⟩
  exact List.Pairwise.filter _ (List.sortedLT_finRange D).pairwise

lemma mean_is_conditional (pinv : Pinv) (hp : PinvSpec pinv) (g : Mixture D n) (featIn : Fin m → Fin D)
    (hg : ProperMixture g featIn) (x : Fin m → ℝ) (i : Fin n) (b : Fin (dimsOutput featIn).length) :
    getMeanYX pinv g featIn x i b = conditionalMean g featIn x i ((dimsOutput featIn).get b) := by
  unfold getMeanYX meanYX conditionalMean
  rw [hp _ _ (hg.det i).ne']
  change _ + (_ *ᵥ _) b = _
  rw [← Matrix.mulVec_mulVec]
  rfl

lemma probabilities_ok (pinv : Pinv) (hp : PinvSpec pinv) (g : Mixture D n) (featIn : Fin m → Fin D)
    (hg : ProperMixture g featIn) (x : Fin m → ℝ) :
    ∃ prob, probabilities pinv g featIn x = .ok prob
      ∧ ∀ i, gaussianProbability pinv g featIn x i = .ok (prob i) ∧ 0 < prob i := by
  have h : ∀ i, ∃ p, getGaussianProbability pinv g featIn x i = .ok p := by
    intro i
    obtain ⟨p, h1, -⟩ := (C103_probability_partial pinv hp g featIn i (hg.det i)).1 x
    exact ⟨p, h1⟩
  refine ⟨fun i => (h i).choose, ?_, fun i => ⟨(h i).choose_spec, ?_⟩⟩
  · unfold probabilities
    rw [dif_pos h]
  · obtain ⟨p, h1, h2⟩ := (C103_probability_partial pinv hp g featIn i (hg.det i)).1 x
    have h3 : (h i).choose = p := Except.ok.inj ((h i).choose_spec.symm.trans h1)
    change 0 < (h i).choose
    rw [h3]
    exact h2

/-- C142: the mixing weights are positive, sum to one, and are in the ratio of prior times probability. -/
theorem C142_weights (pinv : Pinv) (hp : PinvSpec pinv) (g : Mixture D n) (featIn : Fin m → Fin D)
    (hg : ProperMixture g featIn) (hn : 0 < n) (x : Fin m → ℝ) :
    ∃ beta, getMixingWeights pinv g featIn x = .ok beta ∧ (∀ i, 0 < beta i) ∧ ∑ i, beta i = 1
      ∧ ∀ i j p q, gaussianProbability pinv g featIn x i = .ok p → gaussianProbability pinv g featIn x j = .ok q →
        beta i * (g.weights j * q) = beta j * (g.weights i * p) := by
  obtain ⟨prob, h1, h2⟩ := probabilities_ok pinv hp g featIn hg x
  have hpos : ∀ i, 0 < g.weights i * prob i := fun i => mul_pos (hg.weights i) (h2 i).2
  have hsum : 0 < ∑ i, g.weights i * prob i :=
    Finset.sum_pos (fun i _ => hpos i) ⟨⟨0, hn⟩, Finset.mem_univ _⟩
  refine ⟨fun i => g.weights i * prob i / ∑ j, g.weights j * prob j, ?_, fun i => div_pos (hpos i) hsum, ?_, ?_⟩
  · unfold getMixingWeights
    rw [h1]
    exact if_neg hsum.ne'
  · rw [← Finset.sum_div, div_self hsum.ne']
  · intro i j p q hi hj
    rw [(h2 i).1] at hi
    rw [(h2 j).1] at hj
    injection hi with hi
    injection hj with hj
    rw [← hi, ← hj]
    ring

lemma normalise_ok (featIn : Fin m → Fin D) (mu var : Option (Fin D → ℝ)) (x : Fin m → ℝ)
    (hv : ∀ a, widthOf var (featIn a) ≠ 0) : normalise featIn mu var x = .ok (scaledInput mu var featIn x) := by
  unfold normalise
  cases var with
  | none => cases mu <;> simp [scaledInput, widthOf, centreOf, funext_iff]
  | some v =>
    simp only
    rw [if_neg (by push Not; exact hv)]
    cases mu <;> simp [scaledInput, widthOf, centreOf, funext_iff]

lemma denormalise_eq (featIn : Fin m → Fin D) (mu var : Option (Fin D → ℝ)) (value : Fin (dimsOutput featIn).length → ℝ) :
    denormalise featIn mu var value
      = fun b => value b * widthOf var ((dimsOutput featIn).get b) + centreOf mu ((dimsOutput featIn).get b) := by
  unfold denormalise
  cases mu <;> cases var <;> simp [widthOf, centreOf]

/-- C142: without the attractor the regression is the mean of the conditional means of the components, with the mixing
weights of the (normalised) sample; the result is in the coordinates of the data. -/
theorem C142_regression (pinv : Pinv) (hp : PinvSpec pinv) (g : Mixture D n) (featIn : Fin m → Fin D)
    (hg : ProperMixture g featIn) (hn : 0 < n) (x : Fin m → ℝ) (mu var : Option (Fin D → ℝ))
    (hv : ∀ a, widthOf var (featIn a) ≠ 0) (attractor : Option (Fin m → ℝ)) (pBeta betaMin betaR : ℝ) :
    ∃ beta, getMixingWeights pinv g featIn (scaledInput mu var featIn x) = .ok beta
      ∧ regressGmm pinv g featIn x mu var false attractor pBeta betaMin betaR
        = .ok fun b => (∑ i, beta i * conditionalMean g featIn (scaledInput mu var featIn x) i ((dimsOutput featIn).get b))
          * widthOf var ((dimsOutput featIn).get b) + centreOf mu ((dimsOutput featIn).get b) := by
  obtain ⟨beta, hb, -⟩ := C142_weights pinv hp g featIn hg hn (scaledInput mu var featIn x)
  refine ⟨beta, hb, ?_⟩
  unfold regressGmm
  simp only [normalise_ok featIn mu var x hv, bind, Except.bind, hb, if_false, Bool.false_eq_true, denormalise_eq,
    mean_is_conditional pinv hp g featIn hg]
  rfl

lemma distAttr_eq (attractor : Option (Fin m → ℝ)) (x : Fin m → ℝ) :
    distAttr attractor x = ‖(WithLp.toLp 2 x : Vec m) - WithLp.toLp 2 (attractor.getD fun _ => 0)‖ := by
  cases attractor with
  | none =>
    have : (WithLp.toLp 2 (fun _ => 0) : Vec m) = 0 := rfl
    simp [distAttr, this]
  | some z => rfl

lemma regress_attractor (pinv : Pinv) (hp : PinvSpec pinv) (g : Mixture D n) (featIn : Fin m → Fin D)
    (hg : ProperMixture g featIn) (x : Fin m → ℝ) (mu var : Option (Fin D → ℝ))
    (hv : ∀ a, widthOf var (featIn a) ≠ 0) (attractor : Option (Fin m → ℝ)) (pBeta betaMin betaR : ℝ) (beta : Fin n → ℝ)
    (hb : getMixingWeights pinv g featIn (scaledInput mu var featIn x) = .ok beta) (w : Fin (n + 1) → ℝ)
    (hw : addAttractor beta (distAttr attractor (scaledInput mu var featIn x)) pBeta betaMin betaR = .ok w) :
    regressGmm pinv g featIn x mu var true attractor pBeta betaMin betaR
      = .ok fun b => (∑ i : Fin n, w i.castSucc
          * conditionalMean g featIn (scaledInput mu var featIn x) i ((dimsOutput featIn).get b))
        * widthOf var ((dimsOutput featIn).get b) + centreOf mu ((dimsOutput featIn).get b) := by
  unfold regressGmm
  simp only [normalise_ok featIn mu var x hv, bind, Except.bind, hb, if_true, hw, Fin.sum_univ_castSucc, Fin.snoc_castSucc,
    Fin.snoc_last, mul_zero, add_zero, denormalise_eq, mean_is_conditional pinv hp g featIn hg]
  rfl

/-- C142: without the attractor the result lies between the smallest and the largest conditional mean, for every mixture,
sample and normalisation.

Missing: the call with attractor, which is the default (violated, `C142_outside`). -/
theorem C142_hull_partial (pinv : Pinv) (hp : PinvSpec pinv) (g : Mixture D n) (featIn : Fin m → Fin D)
    (hg : ProperMixture g featIn) (hn : 0 < n) (x : Fin m → ℝ) (mu var : Option (Fin D → ℝ))
    (hv : ∀ a, widthOf var (featIn a) ≠ 0) (attractor : Option (Fin m → ℝ)) (pBeta betaMin betaR : ℝ) :
    ∃ y, regressGmm pinv g featIn x mu var false attractor pBeta betaMin betaR = .ok y
      ∧ ∀ b lo hi, 0 ≤ widthOf var ((dimsOutput featIn).get b) →
        (∀ i, lo ≤ conditionalMean g featIn (scaledInput mu var featIn x) i ((dimsOutput featIn).get b)
          ∧ conditionalMean g featIn (scaledInput mu var featIn x) i ((dimsOutput featIn).get b) ≤ hi) →
        lo * widthOf var ((dimsOutput featIn).get b) + centreOf mu ((dimsOutput featIn).get b) ≤ y b
        ∧ y b ≤ hi * widthOf var ((dimsOutput featIn).get b) + centreOf mu ((dimsOutput featIn).get b) := by
  obtain ⟨beta, hb, hr⟩ := C142_regression pinv hp g featIn hg hn x mu var hv attractor pBeta betaMin betaR
  obtain ⟨beta', hb', hpos, hsum, -⟩ := C142_weights pinv hp g featIn hg hn (scaledInput mu var featIn x)
  rw [hb] at hb'
  injection hb' with hb'
  subst hb'
  refine ⟨_, hr, ?_⟩
  intro b lo hi hw h
  have h1 : lo ≤ ∑ i, beta i * conditionalMean g featIn (scaledInput mu var featIn x) i ((dimsOutput featIn).get b) := by
    calc lo = ∑ i, beta i * lo := by rw [← Finset.sum_mul, hsum, one_mul]
      _ ≤ _ := Finset.sum_le_sum fun i _ => mul_le_mul_of_nonneg_left (h i).1 (hpos i).le
  have h2 : ∑ i, beta i * conditionalMean g featIn (scaledInput mu var featIn x) i ((dimsOutput featIn).get b) ≤ hi := by
    calc _ ≤ ∑ i, beta i * hi := Finset.sum_le_sum fun i _ => mul_le_mul_of_nonneg_left (h i).2 (hpos i).le
      _ = hi := by rw [← Finset.sum_mul, hsum, one_mul]
  constructor
  · have := mul_le_mul_of_nonneg_right h1 hw
    simpa using this
  · have := mul_le_mul_of_nonneg_right h2 hw
    simpa using this

lemma raw_positive {beta : Fin n → ℝ} {dist pBeta betaMin betaR : ℝ} (hd : 0 < dist) (hr : 0 < betaR) (hm : 0 ≤ betaMin) :
    0 < (dist / betaR) ^ (-pBeta) + betaMin
    ∧ 0 < ∑ j, (Fin.snoc beta ((dist / betaR) ^ (-pBeta) + betaMin) : Fin (n + 1) → ℝ) j ^ 2 := by
  have h1 : 0 < (dist / betaR) ^ (-pBeta) + betaMin := by
    have := Real.rpow_pos_of_pos (div_pos hd hr) (-pBeta)
    linarith
  refine ⟨h1, ?_⟩
  rw [Fin.sum_univ_castSucc]
  simp only [Fin.snoc_castSucc, Fin.snoc_last]
  have : 0 ≤ ∑ i, beta i ^ 2 := Finset.sum_nonneg fun i _ => sq_nonneg _
  positivity

/-- C142: with the attractor, the result of a sample which is at the attractor in normalised coordinates is the mean of
the data (zero without normalisation).  Elsewhere every component has the mixing weight, divided by a common factor. -/
theorem C142_attractor (pinv : Pinv) (hp : PinvSpec pinv) (g : Mixture D n) (featIn : Fin m → Fin D)
    (hg : ProperMixture g featIn) (hn : 0 < n) (x : Fin m → ℝ) (mu var : Option (Fin D → ℝ))
    (hv : ∀ a, widthOf var (featIn a) ≠ 0) (z : Fin m → ℝ) (pBeta betaMin betaR : ℝ) (hr : 0 < betaR) (hm : 0 ≤ betaMin) :
    (scaledInput mu var featIn x = z → regressGmm pinv g featIn x mu var true (some z) pBeta betaMin betaR
      = .ok fun b => centreOf mu ((dimsOutput featIn).get b))
    ∧ (scaledInput mu var featIn x ≠ z → ∃ beta s, 0 < s
      ∧ getMixingWeights pinv g featIn (scaledInput mu var featIn x) = .ok beta
      ∧ s ^ 2 = ∑ i, beta i ^ 2
          + ((‖(WithLp.toLp 2 (scaledInput mu var featIn x) : Vec m) - WithLp.toLp 2 z‖ / betaR) ^ (-pBeta) + betaMin) ^ 2
      ∧ regressGmm pinv g featIn x mu var true (some z) pBeta betaMin betaR
        = .ok fun b => (∑ i, beta i / s * conditionalMean g featIn (scaledInput mu var featIn x) i ((dimsOutput featIn).get b))
          * widthOf var ((dimsOutput featIn).get b) + centreOf mu ((dimsOutput featIn).get b)) := by
  obtain ⟨beta, hb, hpos, hsum, -⟩ := C142_weights pinv hp g featIn hg hn (scaledInput mu var featIn x)
  constructor
  · intro h
    have hd : distAttr (some z) (scaledInput mu var featIn x) = 0 := by
      unfold distAttr; rw [h]; simp
    have hw : addAttractor beta (distAttr (some z) (scaledInput mu var featIn x)) pBeta betaMin betaR
        = .ok (Fin.snoc (fun _ => 0) 1) := by
      unfold addAttractor; rw [if_pos hd]
    rw [regress_attractor pinv hp g featIn hg x mu var hv _ pBeta betaMin betaR beta hb _ hw]
    simp
  · intro h
    set dist := ‖(WithLp.toLp 2 (scaledInput mu var featIn x) : Vec m) - WithLp.toLp 2 z‖ with hdist
    have hd : 0 < dist := by
      rw [hdist, norm_pos_iff, sub_ne_zero]
      intro h'
      exact h (WithLp.toLp_injective 2 h')
    obtain ⟨h1, h2⟩ := raw_positive (beta := beta) (pBeta := pBeta) hd hr hm
    have hw : addAttractor beta (distAttr (some z) (scaledInput mu var featIn x)) pBeta betaMin betaR
        = .ok fun i => (Fin.snoc beta ((dist / betaR) ^ (-pBeta) + betaMin) : Fin (n + 1) → ℝ) i
          / Real.sqrt (∑ j, (Fin.snoc beta ((dist / betaR) ^ (-pBeta) + betaMin) : Fin (n + 1) → ℝ) j ^ 2) := by
      unfold addAttractor
      have : distAttr (some z) (scaledInput mu var featIn x) = dist := rfl
      rw [this, if_neg hd.ne']
      exact if_neg h2.ne'
    refine ⟨beta, _, Real.sqrt_pos.mpr h2, hb, ?_, ?_⟩
    · rw [Real.sq_sqrt h2.le, Fin.sum_univ_castSucc]
      simp only [Fin.snoc_castSucc, Fin.snoc_last]
    · rw [regress_attractor pinv hp g featIn hg x mu var hv _ pBeta betaMin betaR beta hb _ hw]
      simp only [Fin.snoc_castSucc]

/-- C142: with the attractor the distance of the result from the mean of the data is at most the Euclidean norm of the
conditional means (times the width of the normalisation), at every sample. -/
theorem C142_bounded (pinv : Pinv) (hp : PinvSpec pinv) (g : Mixture D n) (featIn : Fin m → Fin D)
    (hg : ProperMixture g featIn) (hn : 0 < n) (x : Fin m → ℝ) (mu var : Option (Fin D → ℝ))
    (hv : ∀ a, widthOf var (featIn a) ≠ 0) (z : Fin m → ℝ) (pBeta betaMin betaR : ℝ) (hr : 0 < betaR) (hm : 0 ≤ betaMin) :
    ∃ y, regressGmm pinv g featIn x mu var true (some z) pBeta betaMin betaR = .ok y
      ∧ ∀ b, |y b - centreOf mu ((dimsOutput featIn).get b)|
        ≤ Real.sqrt (∑ i, conditionalMean g featIn (scaledInput mu var featIn x) i ((dimsOutput featIn).get b) ^ 2)
          * |widthOf var ((dimsOutput featIn).get b)| := by
  obtain ⟨h1, h2⟩ := C142_attractor pinv hp g featIn hg hn x mu var hv z pBeta betaMin betaR hr hm
  by_cases h : scaledInput mu var featIn x = z
  · refine ⟨_, h1 h, fun b => ?_⟩
    simp only [sub_self, abs_zero]
    positivity
  · obtain ⟨beta, s, hs, -, hs2, hy⟩ := h2 h
    refine ⟨_, hy, fun b => ?_⟩
    simp only [add_sub_cancel_right, abs_mul]
    refine mul_le_mul_of_nonneg_right ?_ (abs_nonneg _)
    refine Real.abs_le_sqrt ?_
    refine (Finset.sum_mul_sq_le_sq_mul_sq _ _ _).trans ?_
    refine mul_le_of_le_one_left (Finset.sum_nonneg fun i _ => sq_nonneg _) ?_
    simp only [div_pow]
    rw [← Finset.sum_div, div_le_one (by positivity), hs2]
    exact le_add_of_nonneg_right (sq_nonneg _)

/-- C142, negative result: with the attractor (the default) the result does not lie between the conditional means and
zero.  The property is violated for every mixture of two or more equal components with a positive conditional mean, at
every sample with distance one or more from the attractor, for the default parameters: the result is larger than the
conditional mean of all components.  The defect: the weights are normalised with the Euclidean norm, not with their sum. -/
theorem C142_outside (pinv : Pinv) (hp : PinvSpec pinv) (g : Mixture D n) (featIn : Fin m → Fin D)
    (hg : ProperMixture g featIn) (hn : 2 ≤ n)
    (hequal : ∀ i j, g.weights i = g.weights j ∧ g.means i = g.means j ∧ g.covariances i = g.covariances j)
    (x z : Fin m → ℝ) (hfar : 1 ≤ ‖(WithLp.toLp 2 x : Vec m) - WithLp.toLp 2 z‖)
    (b : Fin (dimsOutput featIn).length) (hpos : ∀ i, 0 < conditionalMean g featIn x i ((dimsOutput featIn).get b)) :
    ∃ y, regressGmm pinv g featIn x (attractor := some z) = .ok y
      ∧ ∀ i, conditionalMean g featIn x i ((dimsOutput featIn).get b) < y b := by
  have hid : scaledInput none none featIn x = x := by
    funext a; simp [scaledInput, widthOf, centreOf]
  have hne : scaledInput none none featIn x ≠ z := by
    rw [hid]
    intro h
    rw [h, sub_self, norm_zero] at hfar
    linarith
  obtain ⟨beta, s, hs, hb, hs2, hy⟩ := (C142_attractor pinv hp g featIn hg (by omega) x none none
    (by intro a; simp [widthOf]) z 2 0.5 0.3 (by norm_num) (by norm_num)).2 hne
  rw [hid] at hb hs2 hy
  obtain ⟨beta', hb', -, hsum, hratio⟩ := C142_weights pinv hp g featIn hg (by omega) x
  rw [hb] at hb'
  injection hb' with hb'
  subst hb'
  obtain ⟨prob, -, hprob⟩ := probabilities_ok pinv hp g featIn hg x
  have hpe : ∀ i j, prob i = prob j := by
    intro i j
    have e : gaussianProbability pinv g featIn x i = gaussianProbability pinv g featIn x j := by
      unfold gaussianProbability
      rw [(hequal i j).2.1, (hequal i j).2.2]
    rw [(hprob i).1, (hprob j).1] at e
    injection e
  have hbe : ∀ i j, beta i = beta j := by
    intro i j
    have := hratio i j _ _ (hprob i).1 (hprob j).1
    rw [(hequal i j).1, hpe i j] at this
    exact mul_right_cancel₀ (mul_pos (hg.weights j) (hprob j).2).ne' this
  have hn2 : (2 : ℝ) ≤ n := by exact_mod_cast hn
  have hbn : ∀ i, beta i = 1 / n := by
    intro i
    have : ∑ j, beta j = n * beta i := by
      rw [Finset.sum_congr rfl fun j _ => hbe j i]; simp
    rw [hsum] at this
    field_simp
    linarith
  have hsq : ∑ i, beta i ^ 2 = 1 / n := by
    simp only [hbn]
    simp
    field_simp
  have hs1 : s < 1 := by
    have h0 : (‖(WithLp.toLp 2 x : Vec m) - WithLp.toLp 2 z‖ / 0.3) ^ (-2 : ℝ) ≤ 0.09 := by
      rw [Real.rpow_neg (by positivity), Real.rpow_two, inv_le_comm₀ (by positivity) (by norm_num)]
      have : (1 / 0.3 : ℝ) ≤ ‖(WithLp.toLp 2 x : Vec m) - WithLp.toLp 2 z‖ / 0.3 :=
        div_le_div_of_nonneg_right hfar (by norm_num)
      nlinarith
    have h1 : 0 ≤ (‖(WithLp.toLp 2 x : Vec m) - WithLp.toLp 2 z‖ / 0.3) ^ (-2 : ℝ) := by positivity
    have h2 : (1 : ℝ) / n ≤ 1 / 2 := one_div_le_one_div_of_le (by norm_num) hn2
    rw [hsq] at hs2
    nlinarith
  refine ⟨_, hy, ?_⟩
  intro i
  have hce : ∀ j, conditionalMean g featIn x j ((dimsOutput featIn).get b)
      = conditionalMean g featIn x i ((dimsOutput featIn).get b) := by
    intro j
    unfold conditionalMean
    rw [(hequal j i).2.1, (hequal j i).2.2]
  simp only [hce, widthOf, centreOf, Option.getD_none, mul_one, add_zero]
  rw [← Finset.sum_mul, ← Finset.sum_div, hsum]
  have := hpos i
  have h1 : 1 < 1 / s := by rw [lt_div_iff₀ hs]; linarith
  nlinarith

/-- C142, negative result: with a normalisation the sample at the given attractor does not give the mean of the data.
The property is violated for every attractor which the normalisation moves, if the conditional means are positive.  The
defect: the sample is normalised before it is compared with the attractor, and the attractor is not. -/
theorem C142_attractor_not_normalised (pinv : Pinv) (hp : PinvSpec pinv) (g : Mixture D n) (featIn : Fin m → Fin D)
    (hg : ProperMixture g featIn) (hn : 0 < n) (z : Fin m → ℝ) (mu var : Option (Fin D → ℝ))
    (hv : ∀ a, widthOf var (featIn a) ≠ 0) (hmoved : scaledInput mu var featIn z ≠ z)
    (pBeta betaMin betaR : ℝ) (hr : 0 < betaR) (hm : 0 ≤ betaMin) (b : Fin (dimsOutput featIn).length)
    (hw : 0 < widthOf var ((dimsOutput featIn).get b))
    (hpos : ∀ i, 0 < conditionalMean g featIn (scaledInput mu var featIn z) i ((dimsOutput featIn).get b)) :
    ∃ y, regressGmm pinv g featIn z mu var true (some z) pBeta betaMin betaR = .ok y
      ∧ centreOf mu ((dimsOutput featIn).get b) < y b := by
  obtain ⟨beta, s, hs, hb, -, hy⟩ := (C142_attractor pinv hp g featIn hg hn z mu var hv z pBeta betaMin betaR hr hm).2 hmoved
  obtain ⟨beta', hb', hbpos, -⟩ := C142_weights pinv hp g featIn hg hn (scaledInput mu var featIn z)
  rw [hb] at hb'
  injection hb' with hb'
  subst hb'
  refine ⟨_, hy, ?_⟩
  have : 0 < ∑ i, beta i / s * conditionalMean g featIn (scaledInput mu var featIn z) i ((dimsOutput featIn).get b) :=
    Finset.sum_pos (fun i _ => mul_pos (div_pos (hbpos i) hs) (hpos i)) ⟨⟨0, hn⟩, Finset.mem_univ _⟩
  have := mul_pos this hw
  linarith

/-! ## Cases -/

/-- Two equal components: input feature 0 with mean 0, output feature 1 with mean 1, unit covariances. -/
noncomputable def twins : Mixture 2 2 where
  weights := fun _ => 1 / 2
  means := fun _ => ![0, 1]
  covariances := fun _ => 1

lemma twins_in (i : Fin 2) : (twins.covariances i).submatrix (![0] : Fin 1 → Fin 2) ![0] = 1 := by
  ext a c
  fin_cases a; fin_cases c
  simp [twins]

lemma twins_proper : ProperMixture twins (![0] : Fin 1 → Fin 2) where
  weights := fun _ => by simp [twins]
  det := fun i => by rw [twins_in]; simp

lemma twins_out : dimsOutput (![0] : Fin 1 → Fin 2) = [1] := by
  unfold dimsOutput
  rw [show List.finRange 2 = [0, 1] from rfl]
  simp [List.filter]

lemma twins_mean (x : Fin 1 → ℝ) (i : Fin 2) : conditionalMean twins (![0] : Fin 1 → Fin 2) x i 1 = 1 := by
  unfold conditionalMean
  rw [twins_in]
  simp [twins, dotProduct]

lemma twins_get (b : Fin (dimsOutput (![0] : Fin 1 → Fin 2)).length) : (dimsOutput (![0] : Fin 1 → Fin 2)).get b = 1 := by
  have h : ∀ c ∈ dimsOutput (![0] : Fin 1 → Fin 2), c = 1 := by rw [twins_out]; simp
  exact h _ (List.get_mem _ b)

/-- Case: without attractor the result is one, whatever the sample. -/
example (x : Fin 1 → ℝ) : ∃ y, regressGmm inv twins (![0] : Fin 1 → Fin 2) x (convergenceAttractor := false) = .ok y
    ∧ ∀ b, y b = 1 := by
  obtain ⟨y, h1, h2⟩ := C142_hull_partial inv inv_spec twins (![0] : Fin 1 → Fin 2) twins_proper (by norm_num) x none none
    (by intro a; simp [widthOf]) none 2 0.5 0.3
  refine ⟨y, h1, fun b => ?_⟩
  have := h2 b 1 1 (by simp [widthOf]) (by intro i; rw [twins_get, twins_mean]; simp)
  simp only [widthOf, centreOf, Option.getD_none] at this
  linarith [this.1, this.2]

/-- Case: the mixing weights are one half. -/
example (x : Fin 1 → ℝ) : ∃ beta, getMixingWeights inv twins (![0] : Fin 1 → Fin 2) x = .ok beta ∧ beta 0 + beta 1 = 1 := by
  obtain ⟨beta, h1, -, h2, -⟩ := C142_weights inv inv_spec twins (![0] : Fin 1 → Fin 2) twins_proper (by norm_num) x
  rw [Fin.sum_univ_two] at h2
  exact ⟨beta, h1, h2⟩

/-- Case: with the attractor at 0 the result at 1 is larger than one, and it is at most `sqrt 2`. -/
example : ∃ y, regressGmm inv twins (![0] : Fin 1 → Fin 2) (fun _ => 1) (attractor := some fun _ => 0) = .ok y
    ∧ ∀ b, 1 < y b ∧ |y b| ≤ Real.sqrt 2 := by
  have hb : 0 < (dimsOutput (![0] : Fin 1 → Fin 2)).length := by rw [twins_out]; simp
  obtain ⟨y', h1', h2'⟩ := C142_bounded inv inv_spec twins (![0] : Fin 1 → Fin 2) twins_proper (by norm_num) (fun _ => 1)
    none none (by intro a; simp [widthOf]) (fun _ => 0) 2 0.5 0.3 (by norm_num) (by norm_num)
  refine ⟨y', h1', fun b => ⟨?_, ?_⟩⟩
  · obtain ⟨y, h1, h2⟩ := C142_outside inv inv_spec twins (![0] : Fin 1 → Fin 2) twins_proper (by norm_num)
      (fun _ _ => ⟨rfl, rfl, rfl⟩) (fun _ => 1) (fun _ => 0)
      (by rw [EuclideanSpace.norm_eq]; simp) b (by intro i; rw [twins_get, twins_mean]; norm_num)
    have e : y = y' := Except.ok.inj (h1.symm.trans h1')
    have := h2 0
    rw [twins_get, twins_mean, e] at this
    exact this
  · have := h2' b
    simp only [twins_get, twins_mean, widthOf, centreOf, Option.getD_none] at this
    simpa using this

/-- Case: at the attractor the result is zero. -/
example : regressGmm inv twins (![0] : Fin 1 → Fin 2) (fun _ => 3) (attractor := some fun _ => 3) = .ok fun _ => 0 := by
  have := (C142_attractor inv inv_spec twins (![0] : Fin 1 → Fin 2) twins_proper (by norm_num) (fun _ => 3) none none
    (by intro a; simp [widthOf]) (fun _ => 3) 2 0.5 0.3 (by norm_num) (by norm_num)).1
    (by funext a; simp [scaledInput, widthOf, centreOf])
  simpa [centreOf] using this

/-- Case: with the mean 1 of the inputs, the sample at the attractor 3 gives a positive result. -/
example : ∃ y, regressGmm inv twins (![0] : Fin 1 → Fin 2) (fun _ => 3) (some ![1, 0]) none true (some fun _ => 3) = .ok y
    ∧ ∀ b, 0 < y b := by
  have hb : ∀ b : Fin (dimsOutput (![0] : Fin 1 → Fin 2)).length, ∃ y, regressGmm inv twins (![0] : Fin 1 → Fin 2) (fun _ => 3)
      (some ![1, 0]) none true (some fun _ => 3) = .ok y ∧ 0 < y b := by
    intro b
    obtain ⟨y, h1, h2⟩ := C142_attractor_not_normalised inv inv_spec twins (![0] : Fin 1 → Fin 2) twins_proper (by norm_num)
      (fun _ => 3) (some ![1, 0]) none (by intro a; simp [widthOf])
      (by intro h; have := congrFun h 0; simp [scaledInput, widthOf, centreOf] at this)
      2 0.5 0.3 (by norm_num) (by norm_num) b (by simp [widthOf]) (by intro i; rw [twins_get, twins_mean]; norm_num)
    refine ⟨y, h1, ?_⟩
    rw [twins_get] at h2
    simpa [centreOf] using h2
  have h0 : 0 < (dimsOutput (![0] : Fin 1 → Fin 2)).length := by rw [twins_out]; simp
  obtain ⟨y, h1, -⟩ := hb ⟨0, h0⟩
  refine ⟨y, h1, fun b => ?_⟩
  obtain ⟨y', h1', h2'⟩ := hb b
  rw [Except.ok.inj (h1.symm.trans h1')]
  exact h2'

/-- Case: with the first feature as input the second one is the output. -/
example : (1 : Fin 2) ∈ dimsOutput (![0] : Fin 1 → Fin 2) ∧ (0 : Fin 2) ∉ dimsOutput (![0] : Fin 1 → Fin 2) := by
  constructor
  · rw [(C142_outputs _).1]; intro a; fin_cases a; simp
  · rw [(C142_outputs _).1]; push Not; exact ⟨0, rfl⟩

end Verif.MixtureRegression
