import Verif.Lemmas.Weights
import Mathlib.Topology.Order.Real
import Mathlib.Analysis.SpecialFunctions.Pow.Continuity
import Mathlib.Analysis.Real.Pi.Bounds

/-!
# Property theorems C28–C31: limiting and distance weights

Model: `Verif.Model.Weights` (multi_obstacle_avoider.py:57-102, 478-500, 815-830).
-/

open Verif.Spec

namespace Verif

/-! ## C28 -/

/-- C28 (first part): the result has one weight in `[0, 1]` for every input weight, and the
returned total is at most one. -/
theorem C28_in_unit (ws : List ℝ) (h : Nonneg ws) :
    SameLength ws (getLimitedWeightsToMaxSum ws).1 ∧ InUnit (getLimitedWeightsToMaxSum ws).1
      ∧ (getLimitedWeightsToMaxSum ws).2 ≤ 1 := by
  unfold getLimitedWeightsToMaxSum
  split_ifs with h1 h2
  · exact ⟨rfl, fun w hw => ⟨h w hw, le_trans (le_sum_of_mem h hw) (le_of_lt h1)⟩, le_of_lt h1⟩
  · exact ⟨indicator_length _ _, indicator_inUnit _ _, le_refl _⟩
  · refine ⟨by simp [SameLength, normalised], normalised_inUnit ?_, le_refl _⟩
    intro w hw
    obtain ⟨x, hx, rfl⟩ := List.mem_map.mp hw
    push Not at h2
    have h3 := h2 x hx
    have h4 := h x hx
    rw [sub_nonneg, le_div_iff₀ (by linarith)]
    linarith

/-- C28: weights with a sum below one are returned unchanged. -/
theorem C28_unchanged (ws : List ℝ) (h : ws.sum < 1) :
    getLimitedWeightsToMaxSum ws = (ws, ws.sum) := by
  unfold getLimitedWeightsToMaxSum
  rw [if_pos h]

/-- C28 (partial): the returned weights sum up to the returned total, if at most one of the
given weights is one or more.

Missing for the full property: the case of two or more such weights, in which the statement is
false (`C28_sum_saturated`, `C28_sum_exceeds_total`). -/
theorem C28_sum_partial (ws : List ℝ) (h : Nonneg ws)
    (h1 : open Classical in (ws.filter (fun w => w ≥ 1)).length ≤ 1) :
    (getLimitedWeightsToMaxSum ws).1.sum = (getLimitedWeightsToMaxSum ws).2 := by
  classical
  unfold getLimitedWeightsToMaxSum
  split_ifs with h2 h3
  · rfl
  · simp only
    rw [indicator_sum]
    obtain ⟨w, hw, hw1⟩ := h3
    have : 0 < (ws.filter (fun w => w ≥ 1)).length :=
      List.length_pos_of_mem (a := w) (by simp [hw, hw1])
    have e : (ws.filter (fun w => w ≥ 1)).length = 1 := by
      have h1' : (ws.filter (fun w => w ≥ 1)).length ≤ 1 := by convert h1
      omega
    norm_cast
  · apply sum_normalised
    push Not at h3
    have hnn : Nonneg (ws.map (fun w => 1 / (1 - w) - 1)) := by
      intro w hw
      obtain ⟨x, hx, rfl⟩ := List.mem_map.mp hw
      have := h3 x hx; have := h x hx
      rw [sub_nonneg, le_div_iff₀ (by linarith)]; linarith
    obtain ⟨x, hx, hx0⟩ : ∃ x ∈ ws, 0 < x := by
      by_contra hc
      push Not at hc
      have : ws.sum ≤ 0 := by
        have := List.sum_le_card_nsmul ws 0 hc
        simpa using this
      linarith
    refine ne_of_gt (sum_pos_of_mem hnn (List.mem_map.mpr ⟨x, hx, rfl⟩) ?_)
    have := h3 x hx
    rw [sub_pos, lt_div_iff₀ (by linarith)]; linarith

/-- C28 fails: with weights at or above one, the returned weights sum up to the number of such
weights, while the returned total is one. -/
theorem C28_sum_saturated (ws : List ℝ) (h : Nonneg ws)
    (h1 : open Classical in 1 ≤ (ws.filter (fun w => w ≥ 1)).length) :
    open Classical in
    (getLimitedWeightsToMaxSum ws).1.sum = (ws.filter (fun w => w ≥ 1)).length
      ∧ (getLimitedWeightsToMaxSum ws).2 = 1 := by
  classical
  obtain ⟨w, hw⟩ : ∃ w, w ∈ ws.filter (fun w => w ≥ 1) := List.exists_mem_of_length_pos (by
    have h1' : 1 ≤ (ws.filter (fun w => w ≥ 1)).length := by convert h1
    omega)
  rw [List.mem_filter] at hw
  have hw1 : 1 ≤ w := by simpa using hw.2
  have hsum : ¬ ws.sum < 1 := by
    have := le_sum_of_mem h hw.1
    linarith
  unfold getLimitedWeightsToMaxSum
  rw [if_neg hsum, if_pos ⟨w, hw.1, hw1⟩]
  refine ⟨?_, rfl⟩
  simp only
  rw [indicator_sum]

/-- C28 fails: two saturated weights. -/
theorem C28_sum_exceeds_total :
    (getLimitedWeightsToMaxSum [1, 1]).1.sum = 2 ∧ (getLimitedWeightsToMaxSum [1, 1]).2 = 1 := by
  have := C28_sum_saturated [1, 1] (by intro w hw; simp at hw; rw [hw]; norm_num) (by simp)
  refine ⟨?_, this.2⟩
  rw [this.1]; simp

/-- C28: zero weights stay zero. -/
theorem C28_zero (ws : List ℝ) (i : ℕ) (hi : i < ws.length) (h0 : ws.getD i 0 = 0) :
    (getLimitedWeightsToMaxSum ws).1.getD i 0 = 0 := by
  unfold getLimitedWeightsToMaxSum
  rw [getD_eq _ _ hi] at h0
  split_ifs
  · simp only; rw [getD_eq _ _ hi, h0]
  · simp only; unfold indicator
    rw [getD_map _ _ _ hi, h0]; simp
  · simp only; unfold normalised
    rw [getD_map _ _ _ (by simpa using hi)]; simp [h0]

/-- C28: the order of the weights is kept. -/
theorem C28_order (ws : List ℝ) (h : Nonneg ws) :
    OrderPreserving ws (getLimitedWeightsToMaxSum ws).1 := by
  intro i j hi hj hij
  unfold getLimitedWeightsToMaxSum
  split_ifs with h1 h2
  · exact hij
  · simp only; unfold indicator
    rw [getD_eq _ _ hi, getD_eq _ _ hj] at hij
    rw [getD_map _ _ _ hi, getD_map _ _ _ hj]
    split_ifs <;> linarith
  · simp only; unfold normalised
    rw [getD_eq _ _ hi, getD_eq _ _ hj] at hij
    rw [getD_map _ _ _ (by simpa using hi), getD_map _ _ _ (by simpa using hj)]
    push Not at h2
    have hi1 := h2 _ (List.getElem_mem hi)
    have hj1 := h2 _ (List.getElem_mem hj)
    have hnn : Nonneg (ws.map (fun w => 1 / (1 - w) - 1)) := by
      intro w hw
      obtain ⟨x, hx, rfl⟩ := List.mem_map.mp hw
      have := h2 x hx; have := h x hx
      rw [sub_nonneg, le_div_iff₀ (by linarith)]; linarith
    apply div_le_div_of_nonneg_right _ (sum_nonneg' hnn)
    simp only [List.getElem_map]
    have := one_div_le_one_div_of_le (a := 1 - ws[j]) (b := 1 - ws[i]) (by linarith) (by linarith)
    linarith

/-- C28 is not vacuous: three weights in the scaling branch, one of them saturated in the second
list. -/
example : Nonneg [0.5, 0.7, 0] ∧ ¬ [(0.5 : ℝ), 0.7, 0].sum < 1
    ∧ (getLimitedWeightsToMaxSum [0.5, 0.5]).1.sum = 1
    ∧ (getLimitedWeightsToMaxSum [1.5, 0.5]).1 = [1, 0] := by
  refine ⟨?_, by norm_num, ?_, ?_⟩
  · intro w hw; simp at hw; rcases hw with h | h | h <;> rw [h] <;> norm_num
  · have := C28_sum_partial [0.5, 0.5] (by intro w hw; simp at hw; rw [hw]; norm_num) (by norm_num)
    rw [this]
    unfold getLimitedWeightsToMaxSum
    norm_num
  · unfold getLimitedWeightsToMaxSum
    norm_num [indicator]

/-! ## C29 -/

lemma inverse_nonneg {ds : List ℝ} {m p : ℝ} (h : ∀ x ∈ ds, m < x) :
    Nonneg ((ds.map (· - m)).map (fun x => (1 / x) ^ p)) := by
  intro w hw
  simp only [List.mem_map, exists_exists_and_eq_and] at hw
  obtain ⟨x, hx, rfl⟩ := hw
  have := h x hx
  exact Real.rpow_nonneg (one_div_nonneg.mpr (by linarith)) _

/-- C29: one non-negative weight for every distance, with sum at most one. -/
theorem C29_sub_probability (ds : List ℝ) (m p : ℝ) :
    SameLength ds (computeGammaWeights ds m p) ∧ Nonneg (computeGammaWeights ds m p)
      ∧ (computeGammaWeights ds m p).sum ≤ 1 := by
  unfold computeGammaWeights
  simp only
  split_ifs with h1 h2 h3
  · refine ⟨by simp [SameLength, indicator], ?_, ?_⟩
    · intro w hw
      obtain ⟨x, hx, rfl⟩ := List.mem_map.mp hw
      have := indicator_nonneg _ _ x hx
      have := sum_nonneg' (indicator_nonneg (· ≤ m) ds)
      positivity
    · simp only [mul_one]
      rw [sum_map_div, div_self h1]
  · refine ⟨indicator_length _ _, indicator_nonneg _ _, ?_⟩
    classical
    rw [indicator_sum] at h2 ⊢
    push Not at h2
    have : (ds.filter (fun x => x ≤ m)).length < 2 := by exact_mod_cast h2
    have : (ds.filter (fun x => x ≤ m)).length ≤ 1 := by omega
    exact_mod_cast this
  · rw [not_ne_iff, ← not_ne_iff, indicator_sum_ne] at h1
    push Not at h1
    exact ⟨by simp [SameLength], inverse_nonneg h1, h3⟩
  · rw [not_ne_iff, ← not_ne_iff, indicator_sum_ne] at h1
    push Not at h1 h3
    refine ⟨by simp [SameLength, normalised], fun w hw => (normalised_inUnit (inverse_nonneg h1) w hw).1,
      le_of_eq (sum_normalised ?_)⟩
    linarith

/-- C29: if some distance is at or below the minimum, exactly those distances share the weight
equally. -/
theorem C29_critical (ds : List ℝ) (m p : ℝ) (h : ∃ x ∈ ds, x ≤ m) :
    (computeGammaWeights ds m p).sum = 1
      ∧ ∀ i, i < ds.length → (computeGammaWeights ds m p).getD i 0 =
        open Classical in
        if ds.getD i 0 ≤ m then 1 / ((ds.filter (fun x => x ≤ m)).length : ℝ) else 0 := by
  classical
  have hne := indicator_sum_ne.mpr h
  have hlen : 1 ≤ (ds.filter (fun x => x ≤ m)).length := by
    obtain ⟨x, hx, hxm⟩ := h
    exact List.length_pos_of_mem (a := x) (by simp [hx, hxm])
  unfold computeGammaWeights
  simp only
  rw [if_pos hne]
  split_ifs with h2
  · refine ⟨by simp only [mul_one]; rw [sum_map_div, div_self hne], ?_⟩
    intro i hi
    rw [getD_map _ _ _ (by simpa [indicator] using hi), indicator_sum, getD_eq _ _ hi]
    simp only [indicator, List.getElem_map, mul_one]
    split_ifs
    · rfl
    · simp
  · rw [indicator_sum] at h2
    push Not at h2
    have h3 : (ds.filter (fun x => x ≤ m)).length < 2 := by exact_mod_cast h2
    have h4 : (ds.filter (fun x => x ≤ m)).length = 1 := by omega
    refine ⟨?_, ?_⟩
    · rw [indicator_sum]; exact_mod_cast h4
    · intro i hi
      unfold indicator
      rw [getD_map _ _ _ hi, getD_eq _ _ hi, h4]
      simp

/-- C29: otherwise a smaller distance never gets a smaller weight. -/
theorem C29_order (ds : List ℝ) (m p : ℝ) (hp : 0 ≤ p) (h : ∀ x ∈ ds, m < x) :
    OrderReversing ds (computeGammaWeights ds m p) := by
  intro i j hi hj hij
  have hne : ¬ (indicator (· ≤ m) ds).sum ≠ 0 := by
    rw [indicator_sum_ne]; push Not; exact h
  rw [getD_eq _ _ hi, getD_eq _ _ hj] at hij
  have h1 := h _ (List.getElem_mem hi)
  have h2 := h _ (List.getElem_mem hj)
  have key : (1 / (ds[j] - m)) ^ p ≤ (1 / (ds[i] - m)) ^ p := by
    apply Real.rpow_le_rpow (one_div_nonneg.mpr (by linarith)) _ hp
    exact one_div_le_one_div_of_le (by linarith) (by linarith)
  unfold computeGammaWeights
  simp only
  rw [if_neg hne]
  split_ifs with h3
  · rw [getD_map _ _ _ (by simpa using hj), getD_map _ _ _ (by simpa using hi)]
    simpa using key
  · unfold normalised
    rw [getD_map _ _ _ (by simpa using hj), getD_map _ _ _ (by simpa using hi)]
    apply div_le_div_of_nonneg_right _ (sum_nonneg' (inverse_nonneg h))
    simpa using key

/-- C29 is not vacuous: both branches occur. -/
example : (∃ x ∈ [(0.5 : ℝ), 3, 1], x ≤ 1) ∧ (∀ x ∈ [(1.5 : ℝ), 3], 1 < x)
    ∧ computeGammaWeights [0.5, 3, 1] 1 1 = [1 / 2, 0, 1 / 2] := by
  refine ⟨⟨0.5, by simp, by norm_num⟩, by intro x hx; simp at hx; rcases hx with h | h <;> rw [h] <;> norm_num, ?_⟩
  unfold computeGammaWeights
  norm_num [indicator]

/-! ## C30 -/

/-- C30: normalised weights are non-negative with sum at most one. -/
theorem C30_sub_probability (ds : List ℝ) (m : ℝ) :
    SameLength ds (computeWeightsFromDistances ds m true)
      ∧ Nonneg (computeWeightsFromDistances ds m true)
      ∧ (computeWeightsFromDistances ds m true).sum ≤ 1 := by
  unfold computeWeightsFromDistances
  simp only [true_and]
  split_ifs with h1 h2
  · exact ⟨by simp [SameLength, normalised, indicator],
      fun w hw => (normalised_inUnit (indicator_nonneg _ _) w hw).1, le_of_eq (sum_normalised h1)⟩
  all_goals
    rw [not_ne_iff, ← not_ne_iff, indicator_sum_ne] at h1
    push Not at h1
    have hnn : Nonneg (ds.map (fun x => 1 / (x - m))) := by
      intro w hw
      obtain ⟨x, hx, rfl⟩ := List.mem_map.mp hw
      exact one_div_nonneg.mpr (by linarith [h1 x hx])
  · exact ⟨by simp [SameLength, normalised], fun w hw => (normalised_inUnit hnn w hw).1,
      le_of_eq (sum_normalised (by linarith))⟩
  · exact ⟨by simp [SameLength], hnn, by linarith⟩

/-- C30: distances at or below the minimum share the weight equally (with and without
normalisation). -/
theorem C30_critical (ds : List ℝ) (m : ℝ) (b : Bool) (h : ∃ x ∈ ds, x ≤ m) :
    (computeWeightsFromDistances ds m b).sum = 1
      ∧ ∀ i, i < ds.length → (computeWeightsFromDistances ds m b).getD i 0 =
        open Classical in
        if ds.getD i 0 ≤ m then 1 / ((ds.filter (fun x => x ≤ m)).length : ℝ) else 0 := by
  classical
  have hne := indicator_sum_ne.mpr h
  unfold computeWeightsFromDistances
  simp only
  rw [if_pos hne]
  refine ⟨sum_normalised hne, ?_⟩
  intro i hi
  unfold normalised
  rw [getD_map _ _ _ (by simpa [indicator] using hi), indicator_sum, getD_eq _ _ hi]
  simp only [indicator, List.getElem_map]
  split_ifs
  · rfl
  · simp

/-- C30: otherwise a strictly smaller distance gets a strictly larger weight. -/
theorem C30_order (ds : List ℝ) (m : ℝ) (b : Bool) (h : ∀ x ∈ ds, m < x) (i j : ℕ)
    (hi : i < ds.length) (hj : j < ds.length) (hij : ds.getD i 0 < ds.getD j 0) :
    (computeWeightsFromDistances ds m b).getD j 0 < (computeWeightsFromDistances ds m b).getD i 0 := by
  have hne : ¬ (indicator (· ≤ m) ds).sum ≠ 0 := by
    rw [indicator_sum_ne]; push Not; exact h
  rw [getD_eq _ _ hi, getD_eq _ _ hj] at hij
  have h1 := h _ (List.getElem_mem hi)
  have h2 := h _ (List.getElem_mem hj)
  have key : 1 / (ds[j] - m) < 1 / (ds[i] - m) :=
    one_div_lt_one_div_of_lt (by linarith) (by linarith)
  unfold computeWeightsFromDistances
  simp only
  rw [if_neg hne]
  split_ifs with h3
  · unfold normalised
    rw [getD_map _ _ _ (by simpa using hj), getD_map _ _ _ (by simpa using hi)]
    apply div_lt_div_of_pos_right _ (by linarith [h3.2])
    simpa using key
  · rw [getD_map _ _ _ hi, getD_map _ _ _ hj]
    exact key

/-- C30: without normalisation the weights are not bounded. -/
theorem C30_unbounded (B : ℝ) : ∃ ds, ∃ w ∈ computeWeightsFromDistances ds 1 false, B < w := by
  refine ⟨[1 + 1 / (|B| + 1)], 1 / (1 + 1 / (|B| + 1) - 1), ?_, ?_⟩
  · unfold computeWeightsFromDistances
    have hp : 0 < |B| + 1 := by positivity
    have h0 : ¬ (indicator (· ≤ 1) [1 + 1 / (|B| + 1)]).sum ≠ 0 := by
      rw [indicator_sum_ne]; push Not
      intro x hx
      rw [List.mem_singleton.mp hx]
      have : 0 < 1 / (|B| + 1) := by positivity
      linarith
    simp only
    rw [if_neg h0, if_neg (by simp)]
    simp
  · have hp : 0 < |B| + 1 := by positivity
    have : 1 / (1 + 1 / (|B| + 1) - 1) = |B| + 1 := by
      rw [add_sub_cancel_left, one_div_one_div]
    rw [this]
    linarith [le_abs_self B]

/-- C30 is not vacuous. -/
example : (∃ x ∈ [(0.5 : ℝ), 3], x ≤ 1) ∧ (∀ x ∈ [(1.5 : ℝ), 3], 1 < x)
    ∧ [(1.5 : ℝ), 3].getD 0 0 < [(1.5 : ℝ), 3].getD 1 0 := by
  refine ⟨⟨0.5, by simp, by norm_num⟩, by intro x hx; simp at hx; rcases hx with h | h <;> rw [h] <;> norm_num, by norm_num⟩

/-! ## C31 -/

/-- C31: the tree weight is in `[0, 1]`; one without attractor and zero if the attractor is
inside the obstacle. -/
theorem C31_range (g : Option ℝ) (l : ℝ) (hl : 1 < l) :
    0 ≤ computeTreeWeight g l ∧ computeTreeWeight g l ≤ 1
      ∧ computeTreeWeight none l = 1 ∧ (∀ x ≤ 1, computeTreeWeight (some x) l = 0)
      ∧ (∀ x ≥ l, computeTreeWeight (some x) l = 1) := by
  have h0 : 0 ≤ computeTreeWeight g l ∧ computeTreeWeight g l ≤ 1 := by
    unfold computeTreeWeight
    cases g with
    | none => norm_num
    | some g =>
      simp only
      split_ifs with h1 h2
      · norm_num
      · norm_num
      · push Not at h1 h2
        exact ⟨div_nonneg (by linarith) (by linarith), div_le_one_of_le₀ (by linarith) (by linarith)⟩
  refine ⟨h0.1, h0.2, rfl, ?_, ?_⟩
  · intro x hx; simp [computeTreeWeight, hx]
  · intro x hx
    have : ¬ x ≤ 1 := by linarith
    simp [computeTreeWeight, hx, this]

lemma treeWeight_eq (l : ℝ) (hl : 1 < l) (x : ℝ) :
    computeTreeWeight (some x) l = max 0 (min 1 ((x - 1) / (l - 1))) := by
  have hl' : 0 < l - 1 := by linarith
  unfold computeTreeWeight
  simp only
  split_ifs with h1 h2
  · rw [max_eq_left]
    exact le_trans (min_le_right _ _) (div_nonpos_of_nonpos_of_nonneg (by linarith) hl'.le)
  · rw [min_eq_left, max_eq_right (by norm_num)]
    rw [le_div_iff₀ hl']; linarith
  · push Not at h1 h2
    rw [min_eq_right, max_eq_right]
    · exact div_nonneg (by linarith) hl'.le
    · rw [div_le_one hl']; linarith

/-- C31: the tree weight is continuous and non-decreasing in the gamma at the attractor. -/
theorem C31_continuous_monotone (l : ℝ) (hl : 1 < l) :
    Continuous (fun x => computeTreeWeight (some x) l)
      ∧ Monotone (fun x => computeTreeWeight (some x) l) := by
  have hl' : 0 < l - 1 := by linarith
  have e : (fun x => computeTreeWeight (some x) l) = fun x => max 0 (min 1 ((x - 1) / (l - 1))) :=
    funext (treeWeight_eq l hl)
  rw [e]
  refine ⟨by fun_prop, ?_⟩
  intro x y hxy
  apply max_le_max_left
  apply min_le_min_left
  exact div_le_div_of_nonneg_right (by linarith) hl'.le

/-- C31 is not vacuous: between the two limits the weight is strictly between zero and one. -/
example : computeTreeWeight (some 1.5) 2 = 0.5 := by
  unfold computeTreeWeight; norm_num

end Verif
