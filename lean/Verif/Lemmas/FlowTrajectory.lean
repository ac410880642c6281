import Verif.Spec.FlowTrajectory
import Verif.Props.Flows
import Mathlib.Analysis.Calculus.MeanValue
import Mathlib.Analysis.InnerProductSpace.Calculus
import Mathlib.Analysis.SpecialFunctions.ExpDeriv
import Mathlib.Analysis.SpecialFunctions.Sqrt
import Mathlib.Analysis.Calculus.Deriv.Abs

/-! # Helper lemmas: trajectories of the dynamical systems -/

open scoped RealInnerProductSpace
open Set Filter Topology

namespace Verif
open Spec Flows

section generic
variable {f f' : ℝ → ℝ}

lemma flow_antitone (hf : ∀ t, 0 ≤ t → HasDerivWithinAt f (f' t) (Ici 0) t) (h : ∀ t, 0 ≤ t → f' t ≤ 0) :
    AntitoneOn f (Ici 0) := by
  refine antitoneOn_of_hasDerivWithinAt_nonpos (f' := f') (convex_Ici 0) ?_ ?_ ?_
  · intro t ht; exact (hf t ht).continuousWithinAt
  · intro t ht
    exact (hf t (interior_subset ht)).mono interior_subset
  · intro t ht; exact h t (interior_subset ht)

/-- A derivative at most `m` on `[a, b]`. -/
lemma flow_linear_le {a b m : ℝ} (ha : 0 ≤ a) (hab : a ≤ b)
    (hf : ∀ t ∈ Icc a b, HasDerivWithinAt f (f' t) (Ici 0) t)
    (h : ∀ t ∈ Icc a b, f' t ≤ m) : f b ≤ f a + m * (b - a) := by
  have hsub : Icc a b ⊆ Ici 0 := fun t ht => ha.trans ht.1
  have hm : AntitoneOn (fun t => f t - m * t) (Icc a b) := by
    refine antitoneOn_of_hasDerivWithinAt_nonpos (f' := fun t => f' t - m) (convex_Icc a b) ?_ ?_ ?_
    · intro t ht
      exact (((hf t ht).mono hsub).continuousWithinAt).sub (by fun_prop)
    · intro t ht
      have h1 := (hf t (interior_subset ht)).mono (interior_subset.trans hsub)
      have h2 := h1.sub ((hasDerivWithinAt_id t (interior (Icc a b))).const_mul m)
      refine h2.congr_deriv ?_
      simp
    · intro t ht
      have := h t (interior_subset ht)
      linarith
  have := hm (left_mem_Icc.mpr hab) (right_mem_Icc.mpr hab) hab
  simp only at this
  linarith

lemma flow_decay {k : ℝ} (hf : ∀ t, 0 ≤ t → HasDerivWithinAt f (f' t) (Ici 0) t)
    (h : ∀ t, 0 ≤ t → f' t ≤ -(k * f t)) : ∀ t, 0 ≤ t → f t ≤ f 0 * Real.exp (-(k * t)) := by
  have hd : ∀ t, 0 ≤ t → HasDerivWithinAt (fun t => f t * Real.exp (k * t))
      (f' t * Real.exp (k * t) + f t * (Real.exp (k * t) * k)) (Ici 0) t := by
    intro t ht
    have h1 : HasDerivWithinAt (fun s => Real.exp (k * s)) (Real.exp (k * t) * k) (Ici 0) t := by
      have := ((hasDerivAt_id t).const_mul k).exp
      simpa using this.hasDerivWithinAt
    exact (hf t ht).mul h1
  have ha := flow_antitone hd (by
    intro t ht
    have h1 := h t ht
    have h2 := Real.exp_pos (k * t)
    nlinarith)
  intro t ht
  have h1 := ha (mem_Ici.mpr le_rfl) ht ht
  simp only [mul_zero, Real.exp_zero, mul_one] at h1
  have he : Real.exp (k * t) * Real.exp (-(k * t)) = 1 := by rw [← Real.exp_add]; simp
  have h2 := mul_le_mul_of_nonneg_right h1 (Real.exp_pos (-(k * t))).le
  rwa [mul_assoc, he, mul_one] at h2

lemma flow_growth {k : ℝ} (hf : ∀ t, 0 ≤ t → HasDerivWithinAt f (f' t) (Ici 0) t)
    (h : ∀ t, 0 ≤ t → -(k * f t) ≤ f' t) : ∀ t, 0 ≤ t → f 0 * Real.exp (-(k * t)) ≤ f t := by
  intro t ht
  have := flow_decay (f := fun t => -f t) (f' := fun t => -f' t) (k := k) (fun t ht => (hf t ht).neg)
    (fun t ht => by have := h t ht; linarith) t ht
  simp only [neg_mul] at this
  linarith

/-- A function which decreases, with a positive rate as long as it is not small, tends to zero. -/
lemma flow_arrives (h0 : ∀ t, 0 ≤ t → 0 ≤ f t) (hf : ∀ t, 0 ≤ t → HasDerivWithinAt f (f' t) (Ici 0) t)
    (ha : ∀ t, 0 ≤ t → f' t ≤ 0)
    (h : ∀ ε > 0, ∃ δ > 0, ∀ t, 0 ≤ t → ε ≤ f t → f' t ≤ -δ) : Tendsto f atTop (𝓝 0) := by
  have hanti := flow_antitone hf ha
  rw [Metric.tendsto_atTop]
  intro ε hε
  obtain ⟨δ, hδ, hd⟩ := h ε hε
  obtain ⟨T, hT, hTε⟩ : ∃ T, 0 ≤ T ∧ f T < ε := by
    by_contra hc
    push Not at hc
    have hb : 0 ≤ f 0 / δ + 1 := by have := h0 0 le_rfl; positivity
    have := flow_linear_le (a := 0) (b := f 0 / δ + 1) (m := -δ) le_rfl hb (fun t ht => hf t ht.1)
      (fun t ht => hd t ht.1 (hc t ht.1))
    have h1 := h0 _ hb
    have h2 : -δ * (f 0 / δ + 1 - 0) = -f 0 - δ := by field_simp; ring
    rw [h2] at this
    linarith
  refine ⟨T, fun t ht => ?_⟩
  have h0t : 0 ≤ t := hT.trans ht
  rw [Real.dist_eq, sub_zero, abs_of_nonneg (h0 t h0t)]
  exact (hanti hT h0t ht).trans_lt hTε

/-- Constant functions. -/
lemma flow_const {V : Type*} [NormedAddCommGroup V] [NormedSpace ℝ V] {g : ℝ → V} {a b : ℝ} (ha : 0 ≤ a)
    (hab : a ≤ b) (hg : ∀ t ∈ Icc a b, HasDerivWithinAt g 0 (Ici 0) t) : g b = g a := by
  have hsub : Icc a b ⊆ Ici 0 := fun t ht => ha.trans ht.1
  refine constant_of_has_deriv_right_zero (a := a) (b := b) ?_ ?_ b (right_mem_Icc.mpr hab)
  · intro t ht; exact ((hg t ht).mono hsub).continuousWithinAt
  · intro t ht
    exact (hg t (Ico_subset_Icc_self ht)).mono (fun s hs => (ha.trans ht.1).trans hs)

end generic

section circle
variable {d : ℕ} [Fact (2 ≤ d)]
open SimpleCircular

/-- The factor between `direction` and the velocity. -/
noncomputable def circleRate (c : SimpleCircular d) (y : Vec d) : ℝ :=
  open Classical in if y = 0 then 0 else circularSpeed c ‖y‖ / ‖c.direction y‖

lemma circle_velocity (c : SimpleCircular d) (hr : 0 < c.radius) (y : Vec d) :
    c.localVelocity y = circleRate c y • c.direction y := by
  unfold circleRate
  by_cases h : y = 0
  · rw [if_pos h, zero_smul]
    unfold localVelocity; simp [h]
  · rw [if_neg h, localVelocity_eq c hr h]

lemma circleRate_nonneg (c : SimpleCircular d) (hr : 0 < c.radius) (hm : 0 < c.maximumVelocity) (y : Vec d) :
    0 ≤ circleRate c y := by
  unfold circleRate
  split_ifs with h
  · exact le_rfl
  · exact div_nonneg (circularSpeed_pos c hr hm (norm_pos_iff.mpr h)).le (norm_nonneg _)

/-- The excess of the squared distance from the axis. -/
noncomputable def excess (c : SimpleCircular d) (y : Vec d) : ℝ := y i0 ^ 2 + y i1 ^ 2 - c.radius ^ 2

lemma phi_mul (c : SimpleCircular d) (y : Vec d) : 0 ≤ excess c y * c.phi y := by
  unfold phi
  change 0 ≤ excess c y * (if 0 ≤ excess c y then √|excess c y| else -√|excess c y|)
  split_ifs with h
  · exact mul_nonneg h (Real.sqrt_nonneg _)
  · have := Real.sqrt_nonneg |excess c y|
    nlinarith [not_le.mp h]

lemma phi_sq (c : SimpleCircular d) (y : Vec d) : c.phi y ^ 2 = |excess c y| := by
  unfold phi
  change (if 0 ≤ excess c y then √|excess c y| else -√|excess c y|) ^ 2 = _
  split_ifs with h
  · rw [Real.sq_sqrt (abs_nonneg _)]
  · rw [neg_sq, Real.sq_sqrt (abs_nonneg _)]

lemma phi_sign (c : SimpleCircular d) (y : Vec d) (h : excess c y ≠ 0) :
    c.phi y = (SignType.sign (excess c y) : ℝ) * √|excess c y| := by
  unfold phi
  change (if 0 ≤ excess c y then √|excess c y| else -√|excess c y|) = _
  rcases h.lt_or_gt with h | h
  · rw [if_neg (not_le.mpr h), sign_neg h]; simp
  · rw [if_pos h.le, sign_pos h]; simp

lemma coord_deriv {x : ℝ → Vec d} {v : Vec d} {S : Set ℝ} {t : ℝ} (h : HasDerivWithinAt x v S t) (i : Fin d) :
    HasDerivWithinAt (fun s => x s i) (v i) S t :=
  (EuclideanSpace.proj (𝕜 := ℝ) i).hasFDerivAt.comp_hasDerivWithinAt t h

/-- The velocity in the frame of the dynamics. -/
lemma circle_local (c : SimpleCircular d) {x : ℝ → Vec d} (hx : Follows (fun p => .ok (c.evaluate p)) x) {t : ℝ}
    (ht : 0 ≤ t) : HasDerivWithinAt (fun s => c.pose.toRelative (x s)) (c.localVelocity (c.pose.toRelative (x t)))
      (Ici 0) t := by
  obtain ⟨v, hv, hd⟩ := hx t ht
  cases hv
  have h1 := (c.pose.orientation.symm.toContinuousLinearEquiv.toContinuousLinearMap).hasFDerivAt.comp_hasDerivWithinAt
    t (hd.sub_const c.pose.position)
  refine h1.congr_deriv ?_
  simp [SimpleCircular.evaluate]

lemma excess_deriv (c : SimpleCircular d) (hr : 0 < c.radius) {y : ℝ → Vec d} {t : ℝ}
    (hy : HasDerivWithinAt y (c.localVelocity (y t)) (Ici 0) t) :
    HasDerivWithinAt (fun s => excess c (y s))
      (-(2 * circleRate c (y t) * (1 / c.radius * c.phi (y t) * planarNorm (y t)))) (Ici 0) t := by
  have h0 := (coord_deriv hy i0).pow 2
  have h1 := (coord_deriv hy i1).pow 2
  refine ((h0.add h1).sub_const (c.radius ^ 2)).congr_deriv ?_
  rw [circle_velocity c hr]
  simp only [PiLp.smul_apply, smul_eq_mul]
  have := direction_radial c (y t)
  norm_num
  linear_combination 2 * circleRate c (y t) * this

lemma other_deriv (c : SimpleCircular d) (hr : 0 < c.radius) {y : ℝ → Vec d} {t : ℝ}
    (hy : HasDerivWithinAt y (c.localVelocity (y t)) (Ici 0) t) {i : Fin d} (h0 : i ≠ i0) (h1 : i ≠ i1) :
    HasDerivWithinAt (fun s => y s i ^ 2) (-(2 * (circleRate c (y t) / c.radius) * y t i ^ 2)) (Ici 0) t := by
  refine ((coord_deriv hy i).pow 2).congr_deriv ?_
  rw [circle_velocity c hr]
  simp only [PiLp.smul_apply, smul_eq_mul]
  rw [direction_other c _ i h0 h1]
  norm_num
  ring

/-- The squared height. -/
noncomputable def rise (y : Vec d) : ℝ := ∑ i with i ≠ i0 ∧ i ≠ i1, y i ^ 2

lemma rise_nonneg (y : Vec d) : 0 ≤ rise y := Finset.sum_nonneg fun _ _ => sq_nonneg _

lemma sum_planar (f : Fin d → ℝ) : ∑ i, f i = f i0 + f i1 + ∑ i with i ≠ i0 ∧ i ≠ i1, f i := by
  classical
  rw [← Finset.sum_filter_add_sum_filter_not Finset.univ (fun i : Fin d => i ≠ i0 ∧ i ≠ i1), add_comm]
  congr 1
  have : Finset.univ.filter (fun i : Fin d => ¬(i ≠ i0 ∧ i ≠ i1)) = {i0, i1} := by
    ext i; simp; tauto
  rw [this, Finset.sum_pair i0_ne_i1]

lemma norm_sq_rise (y : Vec d) : ‖y‖ ^ 2 = planarNorm y ^ 2 + rise y := by
  rw [EuclideanSpace.norm_sq_eq, planarNorm_sq, sum_planar]
  simp [rise]

lemma direction_norm_sq (c : SimpleCircular d) (hr : 0 < c.radius) {y : Vec d} (hy : planarNorm y ≠ 0) :
    (‖c.direction y‖ * c.radius) ^ 2 = c.radius ^ 2 + |excess c y| + rise y := by
  rw [mul_pow, EuclideanSpace.norm_sq_eq, sum_planar, direction_i0, direction_i1, ← phi_sq]
  have h1 : ∑ i with i ≠ i0 ∧ i ≠ i1, ‖c.direction y i‖ ^ 2 = rise y / c.radius ^ 2 := by
    unfold rise
    rw [Finset.sum_div]
    refine Finset.sum_congr rfl fun i hi => ?_
    simp only [Finset.mem_filter, Finset.mem_univ, true_and] at hi
    rw [direction_other c y i hi.1 hi.2, Real.norm_eq_abs, sq_abs]
    ring
  rw [h1]
  simp only [Real.norm_eq_abs, sq_abs]
  have h2 := planarNorm_sq y
  have h3 : (y i1 / planarNorm y) ^ 2 + (y i0 / planarNorm y) ^ 2 = 1 := by
    field_simp; linarith
  field_simp
  field_simp at h3
  linear_combination (c.radius ^ 2 + c.phi y ^ 2) * h3

lemma rise_deriv (c : SimpleCircular d) (hr : 0 < c.radius) {y : ℝ → Vec d} {t : ℝ}
    (hy : HasDerivWithinAt y (c.localVelocity (y t)) (Ici 0) t) :
    HasDerivWithinAt (fun s => rise (y s)) (-(2 * (circleRate c (y t) / c.radius) * rise (y t))) (Ici 0) t := by
  unfold rise
  have h := HasDerivWithinAt.fun_sum (u := Finset.univ.filter (fun i : Fin d => i ≠ i0 ∧ i ≠ i1))
    (A := fun i s => y s i ^ 2) (A' := fun i => -(2 * (circleRate c (y t) / c.radius) * y t i ^ 2)) (s := Ici 0) (x := t)
    (fun i hi => other_deriv c hr hy (Finset.mem_filter.mp hi).2.1 (Finset.mem_filter.mp hi).2.2)
  refine h.congr_deriv ?_
  rw [Finset.mul_sum, ← Finset.sum_neg_distrib]

end circle
end Verif
