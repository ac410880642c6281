import Verif.Model.RotationalAvoider
import Verif.Props.Weights3

/-!
# C92: the weights of the rotational avoider
-/

open scoped RealInnerProductSpace
open Verif.Spec

namespace Verif

/-! ## `_get_directional_deviation_weight` -/

/-- C92: for a non-negative weight the directional deviation weight is defined, between zero and one,
zero without deviation, one for a full deviation or a full weight, and it grows with both arguments. -/
theorem C92_deviation (p : ℝ) (hp : 0 < p) (w δ : ℝ) (hw : 0 ≤ w) :
    ∃ out, getDirectionalDeviationWeight w δ p = some out ∧ 0 ≤ out ∧ out ≤ 1
      ∧ (δ ≤ 0 → out = 0) ∧ (0 < δ → (1 ≤ δ ∨ 1 ≤ w) → out = 1)
      ∧ (0 < δ → δ < 1 → w < 1 → out = w ^ (1 / (δ * p)))
      ∧ (∀ w' δ', w ≤ w' → δ ≤ δ' →
        ∃ out', getDirectionalDeviationWeight w' δ' p = some out' ∧ out ≤ out') := by
  have key : ∀ w δ : ℝ, 0 ≤ w → ∃ out, getDirectionalDeviationWeight w δ p = some out ∧ 0 ≤ out ∧ out ≤ 1
      ∧ (δ ≤ 0 → out = 0) ∧ (0 < δ → (1 ≤ δ ∨ 1 ≤ w) → out = 1)
      ∧ (0 < δ → δ < 1 → w < 1 → out = w ^ (1 / (δ * p))) := by
    intro w δ hw
    unfold getDirectionalDeviationWeight
    by_cases h1 : δ ≤ 0
    · rw [if_pos h1]
      exact ⟨0, rfl, le_refl _, zero_le_one, fun _ => rfl, fun h => absurd h1 (not_le.mpr h),
        fun h => absurd h1 (not_le.mpr h)⟩
    · rw [if_neg h1]
      push Not at h1
      by_cases h2 : δ ≥ 1 ∨ w ≥ 1
      · rw [if_pos h2]
        exact ⟨1, rfl, zero_le_one, le_refl _, fun h => absurd h (not_le.mpr h1), fun _ _ => rfl,
          fun _ h3 h4 => by rcases h2 with h2 | h2 <;> linarith⟩
      · rw [if_neg h2]
        push Not at h2
        have he : 0 < 1 / (δ * p) := by positivity
        refine ⟨w ^ (1 / (δ * p)), ?_, Real.rpow_nonneg hw _, Real.rpow_le_one hw h2.2.le he.le,
          fun h => absurd h (not_le.mpr h1), fun _ h => ?_, fun _ _ _ => rfl⟩
        · unfold npPow
          rw [if_neg (by intro h; linarith [h.1]), if_neg (by intro h; linarith [h.2])]
        · rcases h with h | h <;> linarith [h2.1, h2.2]
  obtain ⟨out, h1, h2, h3, h4, h5, h6⟩ := key w δ hw
  refine ⟨out, h1, h2, h3, h4, h5, h6, ?_⟩
  intro w' δ' hww hdd
  obtain ⟨out', g1, g2, g3, g4, g5, g6⟩ := key w' δ' (hw.trans hww)
  refine ⟨out', g1, ?_⟩
  by_cases hd : δ ≤ 0
  · rw [h4 hd]; exact g2
  push Not at hd
  by_cases hf : 1 ≤ δ' ∨ 1 ≤ w'
  · rw [g5 (by linarith) hf]; exact h3
  push Not at hf
  rw [h6 hd (by linarith) (by linarith), g6 (by linarith) hf.1 hf.2]
  have e : 1 / (δ' * p) ≤ 1 / (δ * p) :=
    one_div_le_one_div_of_le (by positivity) (mul_le_mul_of_nonneg_right hdd hp.le)
  rcases hw.eq_or_lt with h0 | h0
  · rw [← h0, Real.zero_rpow (by positivity)]
    exact Real.rpow_nonneg (hw.trans hww) _
  · calc w ^ (1 / (δ * p)) ≤ w ^ (1 / (δ' * p)) :=
          Real.rpow_le_rpow_of_exponent_ge h0 (by linarith) e
      _ ≤ w' ^ (1 / (δ' * p)) := Real.rpow_le_rpow hw hww
          (by have : 0 < δ' := by linarith
              positivity)

/-- C92, a defect: the weight jumps at the full deviation.  With weight `1 / 8` it stays below `1 / 2` for
every smaller deviation. -/
theorem C92_deviation_jump :
    (∀ δ : ℝ, δ < 1 → ∀ out, getDirectionalDeviationWeight (1 / 8) δ = some out → out ≤ 1 / 2)
      ∧ getDirectionalDeviationWeight (1 / 8) 1 = some 1 := by
  constructor
  · intro δ hδ out ho
    obtain ⟨o, h1, _, _, _, _, _, h7⟩ := C92_deviation 3 (by norm_num) (1 / 8) δ (by norm_num)
    rw [h1] at ho
    injection ho with ho
    subst ho
    by_cases hd : δ ≤ 0
    · obtain ⟨o', g1, _, _, g4, _⟩ := C92_deviation 3 (by norm_num) (1 / 8) δ (by norm_num)
      rw [h1] at g1
      injection g1 with g1
      rw [g1, g4 hd]; norm_num
    · push Not at hd
      obtain ⟨o', g1, _, _, _, _, g6, _⟩ := C92_deviation 3 (by norm_num) (1 / 8) δ (by norm_num)
      rw [h1] at g1
      injection g1 with g1
      rw [g1, g6 hd hδ (by norm_num)]
      have e : (1 : ℝ) / 3 ≤ 1 / (δ * 3) := one_div_le_one_div_of_le (by positivity) (by linarith)
      calc ((1 : ℝ) / 8) ^ (1 / (δ * 3)) ≤ (1 / 8) ^ ((1 : ℝ) / 3) :=
            Real.rpow_le_rpow_of_exponent_ge (by norm_num) (by norm_num) e
        _ = 1 / 2 := by
            rw [show ((1 : ℝ) / 8) = (1 / 2) ^ (3 : ℝ) by norm_num, ← Real.rpow_mul (by norm_num)]
            norm_num
  · unfold getDirectionalDeviationWeight
    rw [if_neg (by norm_num), if_pos (by norm_num)]

/-! ## `_get_nonlinear_inverted_weight` -/

/-- C92: the weight of the inverted nonlinear direction is between zero and the given weight: zero if the
nonlinear direction is inside the radius, the full weight if only the convergence direction is; it grows
with the excess of the nonlinear direction and falls with the one of the convergence direction. -/
theorem C92_inverted (c n r w : ℝ) (hw : 0 ≤ w) :
    0 ≤ getNonlinearInvertedWeight c n r w ∧ getNonlinearInvertedWeight c n r w ≤ w
      ∧ (n ≤ r → getNonlinearInvertedWeight c n r w = 0)
      ∧ (r < n → c ≤ r → getNonlinearInvertedWeight c n r w = w)
      ∧ (r < n → r < c → getNonlinearInvertedWeight c n r w * ((n - r) + (c - r)) = w * (n - r))
      ∧ (∀ n', n ≤ n' → getNonlinearInvertedWeight c n r w ≤ getNonlinearInvertedWeight c n' r w)
      ∧ (∀ c', c ≤ c' → getNonlinearInvertedWeight c' n r w ≤ getNonlinearInvertedWeight c n r w) := by
  have z : ∀ c n : ℝ, n ≤ r → getNonlinearInvertedWeight c n r w = 0 := by
    intro c n h; unfold getNonlinearInvertedWeight; rw [if_pos h]
  have f : ∀ c n : ℝ, r < n → c ≤ r → getNonlinearInvertedWeight c n r w = w := by
    intro c n h h'; unfold getNonlinearInvertedWeight; rw [if_neg (not_le.mpr h), if_pos h']
  have g : ∀ c n : ℝ, r < n → r < c →
      getNonlinearInvertedWeight c n r w = w * (n - r) / ((n - r) + (c - r)) := by
    intro c n h h'; unfold getNonlinearInvertedWeight
    rw [if_neg (not_le.mpr h), if_neg (not_le.mpr h')]
  have pos : ∀ c n : ℝ, 0 ≤ getNonlinearInvertedWeight c n r w := by
    intro c n
    rcases le_or_gt n r with h | h
    · rw [z c n h]
    · rcases le_or_gt c r with h' | h'
      · rw [f c n h h']; exact hw
      · rw [g c n h h']
        exact div_nonneg (mul_nonneg hw (by linarith)) (by linarith)
  have le : ∀ c n : ℝ, getNonlinearInvertedWeight c n r w ≤ w := by
    intro c n
    rcases le_or_gt n r with h | h
    · rw [z c n h]; exact hw
    · rcases le_or_gt c r with h' | h'
      · rw [f c n h h']
      · rw [g c n h h', div_le_iff₀ (by linarith)]
        exact mul_le_mul_of_nonneg_left (by linarith) hw
  refine ⟨pos c n, le c n, z c n, f c n, ?_, ?_, ?_⟩
  · intro h h'
    rw [g c n h h']
    have : (n - r) + (c - r) ≠ 0 := by linarith
    field_simp
  · intro n' hn
    rcases le_or_gt n r with h | h
    · rw [z c n h]; exact pos _ _
    · rcases le_or_gt c r with h' | h'
      · rw [f c n h h', f c n' (by linarith) h']
      · rw [g c n h h', g c n' (by linarith) h', div_le_div_iff₀ (by linarith) (by linarith)]
        have : 0 ≤ w * ((n' - n) * (c - r)) :=
          mul_nonneg hw (mul_nonneg (by linarith) (by linarith))
        nlinarith
  · intro c' hc
    rcases le_or_gt n r with h | h
    · rw [z c' n h]; exact pos _ _
    · rcases le_or_gt c r with h' | h'
      · rw [f c n h h']; exact le _ _
      · rw [g c n h h', g c' n h (by linarith)]
        exact div_le_div_of_nonneg_left (mul_nonneg hw (by linarith)) (by linarith) (by linarith)

/-! ## `get_smooth_continuation_weight` -/

/-- C92: for a non-negative gamma, a reference direction inside the radius and a non-negative power the
smooth continuation weight is defined and between zero and one; it is one on and inside the obstacle, at
most `1 / gamma` outside, equal to `1 / gamma` for a convergence direction outside of the radius, and zero
(outside the obstacle) only for a convergence direction along the reference direction. -/
theorem C92_continuation {k : ℕ} (gamma R power : ℝ) (ref conv : Vec k) (hg : 0 ≤ gamma)
    (hr : ‖ref‖ < R) (hp : 0 ≤ power) :
    ∃ w, getSmoothContinuationWeight gamma R power ref conv = .ok w ∧ 0 ≤ w ∧ w ≤ 1
      ∧ (gamma ≤ 1 → w = 1) ∧ (1 < gamma → w ≤ 1 / gamma)
      ∧ (1 < gamma → R ≤ ‖conv‖ → w = 1 / gamma)
      ∧ (1 < gamma → (w = 0 ↔ conv = ref ∧ ‖conv‖ < R)) := by
  unfold getSmoothContinuationWeight
  by_cases h0 : gamma = 0
  · simp only [if_pos h0]
    exact ⟨1, rfl, by norm_num, le_refl _, fun _ => rfl, fun h => by linarith, fun h => by linarith,
      fun h => by linarith⟩
  have hpos : 0 < gamma := lt_of_le_of_ne hg (Ne.symm h0)
  have hw : 0 < 1 / gamma := by positivity
  simp only [if_neg h0, if_neg (not_le.mpr hw)]
  by_cases h1 : gamma ≤ 1
  · have : 1 / gamma ≥ 1 := by rw [ge_iff_le, le_div_iff₀ hpos]; linarith
    simp only [if_pos this]
    exact ⟨1, rfl, by norm_num, le_refl _, fun _ => rfl, fun h => by linarith, fun h => by linarith,
      fun h => by linarith⟩
  push Not at h1
  have hw1 : 1 / gamma < 1 := by rw [div_lt_one hpos]; exact h1
  simp only [if_neg (not_le.mpr hw1)]
  by_cases h2 : ‖conv‖ ≥ R
  · rw [if_pos h2]
    refine ⟨1 / gamma, rfl, hw.le, hw1.le, fun h => by linarith, fun _ => le_refl _, fun _ _ => rfl,
      fun _ => ⟨fun h => absurd h hw.ne', fun h => ?_⟩⟩
    linarith [h.2]
  rw [if_neg h2]
  have hrf : 0 < min (R - ‖ref‖) (Real.pi * 0.5) := lt_min (by linarith) (by positivity)
  rw [if_neg hrf.ne']
  push Not at h2
  by_cases h3 : conv = ref
  · have : ‖conv - ref‖ / min (R - ‖ref‖) (Real.pi * 0.5) ≤ 0 := by rw [h3]; simp
    rw [if_pos this]
    exact ⟨0, rfl, le_refl _, by norm_num, fun h => by linarith, fun _ => hw.le,
      fun _ h => by linarith, fun _ => ⟨fun _ => ⟨h3, h2⟩, fun _ => rfl⟩⟩
  have hc : 0 < ‖conv - ref‖ / min (R - ‖ref‖) (Real.pi * 0.5) :=
    div_pos (norm_pos_iff.mpr (sub_ne_zero.mpr h3)) hrf
  rw [if_neg (not_le.mpr hc)]
  set c := ‖conv - ref‖ / min (R - ‖ref‖) (Real.pi * 0.5)
  have hm0 : 0 < min c 1 := lt_min hc (by norm_num)
  have hm : 0 < (min c 1) ^ power := Real.rpow_pos_of_pos hm0 _
  have hm1 : (min c 1) ^ power ≤ 1 := Real.rpow_le_one hm0.le (min_le_right _ _) hp
  have he : 1 ≤ 1 / (min c 1) ^ power := by rw [le_div_iff₀ hm]; linarith
  have hle : (1 / gamma) ^ (1 / (min c 1) ^ power) ≤ 1 / gamma := by
    calc (1 / gamma) ^ (1 / (min c 1) ^ power) ≤ (1 / gamma) ^ (1 : ℝ) :=
          Real.rpow_le_rpow_of_exponent_ge hw hw1.le he
      _ = 1 / gamma := Real.rpow_one _
  exact ⟨_, rfl, (Real.rpow_pos_of_pos hw _).le, hle.trans hw1.le, fun h => by linarith, fun _ => hle,
    fun _ h => by linarith,
    fun _ => ⟨fun h => absurd h (Real.rpow_pos_of_pos hw _).ne', fun h => absurd h.1 h3⟩⟩

/-- C92: the smooth continuation weight does not grow with the distance to the obstacle. -/
theorem C92_continuation_decreases {k : ℕ} (g g' R power : ℝ) (ref conv : Vec k) (hg : 0 ≤ g)
    (hgg : g ≤ g') (hr : ‖ref‖ < R) (hp : 0 ≤ power) (w w' : ℝ)
    (hw : getSmoothContinuationWeight g R power ref conv = .ok w)
    (hw' : getSmoothContinuationWeight g' R power ref conv = .ok w') : w' ≤ w := by
  obtain ⟨a, h1, _, _, h4, _⟩ := C92_continuation g R power ref conv hg hr hp
  obtain ⟨b, g1, g2, g3, g4, _⟩ := C92_continuation g' R power ref conv (hg.trans hgg) hr hp
  rw [h1] at hw
  rw [g1] at hw'
  injection hw with hw
  injection hw' with hw'
  subst hw hw'
  rcases le_or_gt g 1 with h | h
  · rw [h4 h]; exact g3
  have e0 : ∀ x : ℝ, 1 < x → x ≠ 0 ∧ ¬ 1 / x ≤ 0 ∧ ¬ 1 / x ≥ 1 := by
    intro x hx
    have hx0 : 0 < x := by linarith
    refine ⟨hx0.ne', not_le.mpr (by positivity), not_le.mpr ?_⟩
    rw [div_lt_one hx0]; exact hx
  obtain ⟨a1, a2, a3⟩ := e0 g h
  obtain ⟨b1, b2, b3⟩ := e0 g' (by linarith)
  have hi : 1 / g' ≤ 1 / g := one_div_le_one_div_of_le (by linarith) hgg
  unfold getSmoothContinuationWeight at h1 g1
  simp only [if_neg a1, if_neg a2, if_neg a3] at h1
  simp only [if_neg b1, if_neg b2, if_neg b3] at g1
  by_cases h2 : ‖conv‖ ≥ R
  · rw [if_pos h2] at h1 g1
    injection h1 with h1
    injection g1 with g1
    rw [← h1, ← g1]; exact hi
  rw [if_neg h2] at h1 g1
  have hrf : 0 < min (R - ‖ref‖) (Real.pi * 0.5) := lt_min (by linarith) (by positivity)
  rw [if_neg hrf.ne'] at h1 g1
  by_cases h3 : ‖conv - ref‖ / min (R - ‖ref‖) (Real.pi * 0.5) ≤ 0
  · rw [if_pos h3] at h1 g1
    injection h1 with h1
    injection g1 with g1
    rw [← h1, ← g1]
  rw [if_neg h3] at h1 g1
  injection h1 with h1
  injection g1 with g1
  rw [← h1, ← g1]
  have hm0 : 0 < min (‖conv - ref‖ / min (R - ‖ref‖) (Real.pi * 0.5)) 1 :=
    lt_min (not_le.mp h3) (by norm_num)
  have : (0 : ℝ) ≤ 1 / g' := by have : 0 < g' := by linarith
                                positivity
  exact Real.rpow_le_rpow this hi (by have := Real.rpow_pos_of_pos hm0 power; positivity)

/-! ## `compute_obstacle_gamma` and `get_convergence_weight` -/

/-- C92: the gammas used for avoiding: one entry per obstacle, at least one for every obstacle that is not
a boundary, and unchanged outside of obstacles and for boundaries. -/
theorem C92_gamma {d : ℕ} (x : Vec d) (os : List (Obstacle d)) :
    SameLength os (computeObstacleGamma x os)
      ∧ ∀ (i : ℕ) (o : Obstacle d), os[i]? = some o → ∃ g, (computeObstacleGamma x os)[i]? = some g
        ∧ (o.isBoundary = false → 1 ≤ g) ∧ (1 ≤ o.gamma x ∨ o.isBoundary = true → g = o.gamma x)
        ∧ (o.gamma x ≤ 1 → o.isBoundary = false → g = 1) := by
  refine ⟨by simp [SameLength, computeObstacleGamma], ?_⟩
  intro i o ho
  refine ⟨if o.gamma x < 1 ∧ o.isBoundary = false then 1 else o.gamma x, ?_, ?_, ?_, ?_⟩
  · simp only [computeObstacleGamma, List.getElem?_map, ho, Option.map_some]
  · intro hb
    split_ifs with h
    · exact le_refl _
    · push Not at h
      by_contra hc
      exact h (not_le.mp hc) hb
  · intro h
    rw [if_neg]
    rintro ⟨h1, h2⟩
    rcases h with h | h
    · linarith
    · rw [h2] at h; cases h
  · intro h hb
    split_ifs with h'
    · rfl
    · push Not at h'
      by_contra hc
      exact h' (lt_of_le_of_ne h hc) hb

/-- C92: for a non-negative gamma the convergence weight is between zero (excluded) and one, one on and
inside the obstacle, and it does not grow with gamma. -/
theorem C92_convergence (g : ℝ) (hg : 0 ≤ g) :
    0 < getConvergenceWeight g ∧ getConvergenceWeight g ≤ 1 ∧ (g ≤ 1 → getConvergenceWeight g = 1)
      ∧ (1 ≤ g → getConvergenceWeight g = 1 / g)
      ∧ (∀ g', g ≤ g' → getConvergenceWeight g' ≤ getConvergenceWeight g) := by
  have key : ∀ g : ℝ, 0 ≤ g → 0 < getConvergenceWeight g ∧ getConvergenceWeight g ≤ 1
      ∧ (g ≤ 1 → getConvergenceWeight g = 1) ∧ (1 ≤ g → getConvergenceWeight g = 1 / g) := by
    intro g hg
    unfold getConvergenceWeight
    by_cases h : g = 0
    · rw [if_pos h]
      exact ⟨by norm_num, le_refl _, fun _ => rfl, fun h' => by linarith⟩
    · rw [if_neg h]
      have hp : 0 < g := lt_of_le_of_ne hg (Ne.symm h)
      refine ⟨lt_min (by positivity) (by norm_num), min_le_right _ _, fun h1 => min_eq_right ?_,
        fun h1 => min_eq_left ?_⟩
      · rw [le_div_iff₀ hp]; linarith
      · rw [div_le_one hp]; exact h1
  obtain ⟨h1, h2, h3, h4⟩ := key g hg
  refine ⟨h1, h2, h3, h4, ?_⟩
  intro g' hgg
  obtain ⟨k1, k2, k3, k4⟩ := key g' (hg.trans hgg)
  rcases le_or_gt g 1 with h | h
  · rw [h3 h]; exact k2
  · rw [h4 h.le, k4 (by linarith)]
    exact one_div_le_one_div_of_le (by linarith) hgg

/-- Outside of the domain of C92 the range fails: for a negative gamma the convergence weight is negative as
well. -/
theorem C92_convergence_negative (g : ℝ) (hg : g < 0) : getConvergenceWeight g < 0 := by
  unfold getConvergenceWeight
  rw [if_neg hg.ne]
  exact lt_of_le_of_lt (min_le_left _ _) (by rw [one_div, inv_lt_zero]; exact hg)

/-- C92 is not vacuous: weights strictly between zero and one. -/
example : getDirectionalDeviationWeight (1 / 8) (1 / 3) = some (1 / 8)
    ∧ getNonlinearInvertedWeight 2 3 1 1 = 2 / 3
    ∧ getSmoothContinuationWeight 2 2 0.3 (!₂[1] : Vec 1) (!₂[3] : Vec 1) = .ok (1 / 2)
    ∧ getConvergenceWeight 2 = 1 / 2 := by
  refine ⟨?_, ?_, ?_, ?_⟩
  · unfold getDirectionalDeviationWeight npPow
    rw [if_neg (by norm_num), if_neg (by norm_num), if_neg (by norm_num), if_neg (by norm_num)]
    norm_num
  · unfold getNonlinearInvertedWeight; norm_num
  · unfold getSmoothContinuationWeight
    have : ‖(!₂[3] : Vec 1)‖ = 3 := by simp [EuclideanSpace.norm_eq]
    simp only [this]
    norm_num
  · unfold getConvergenceWeight; norm_num

end Verif
