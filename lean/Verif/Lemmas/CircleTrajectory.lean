import Verif.Lemmas.FlowTrajectory
import Verif.Lemmas.Barrier

/-! # Helper lemmas: the trajectories of `SimpleCircularDynamics` in its own frame -/

open scoped RealInnerProductSpace
open Set Filter Topology

namespace Verif
open Spec Flows SimpleCircular

variable {d : ℕ} [Fact (2 ≤ d)]

/-- A trajectory in the frame of the dynamics. -/
def LocalTrajectory (c : SimpleCircular d) (y : ℝ → Vec d) : Prop :=
  ∀ t, 0 ≤ t → HasDerivWithinAt y (c.localVelocity (y t)) (Ici 0) t

variable {c : SimpleCircular d} (hr : 0 < c.radius) (hm : 0 < c.maximumVelocity) {y : ℝ → Vec d}
  (hy : LocalTrajectory c y)
include hr hm hy

lemma circle_excess_anti : AntitoneOn (fun t => |excess c (y t)|) (Ici 0) := by
  have h := flow_antitone (f := fun t => excess c (y t) ^ 2) (fun t ht => (excess_deriv c hr (hy t ht)).pow 2) (by
    intro t _
    have h1 := phi_mul c (y t)
    have h2 := circleRate_nonneg c hr hm (y t)
    have h3 := planarNorm_nonneg (y t)
    have h4 : 0 ≤ circleRate c (y t) * (1 / c.radius) * planarNorm (y t) * (excess c (y t) * c.phi (y t)) := by positivity
    norm_num
    norm_num at h4
    linarith)
  intro s hs t ht hst
  exact sq_le_sq.mp (h hs ht hst)

lemma circle_rise_anti : AntitoneOn (fun t => rise (y t)) (Ici 0) :=
  flow_antitone (fun t ht => rise_deriv c hr (hy t ht)) (by
    intro t _
    have h1 := rise_nonneg (y t)
    have h2 := circleRate_nonneg c hr hm (y t)
    have : 0 ≤ 2 * (circleRate c (y t) / c.radius) * rise (y t) := by positivity
    linarith)

omit hm in
lemma excess_cont : ContinuousOn (fun t => excess c (y t)) (Ici 0) := fun t ht =>
  (excess_deriv c hr (hy t ht)).continuousWithinAt

lemma circle_zero {s t : ℝ} (hs : 0 ≤ s) (hst : s ≤ t) (h : excess c (y s) = 0) : excess c (y t) = 0 := by
  have := circle_excess_anti hr hm hy (mem_Ici.mpr hs) (mem_Ici.mpr (hs.trans hst)) hst
  simp only [h, abs_zero] at this
  exact abs_eq_zero.mp (le_antisymm this (abs_nonneg _))

lemma circle_outside {s t : ℝ} (hs : 0 ≤ s) (hst : s ≤ t) (h : 0 ≤ excess c (y s)) : 0 ≤ excess c (y t) := by
  by_contra hc
  push Not at hc
  obtain ⟨u, hu, h0⟩ := intermediate_value_Icc' hst ((excess_cont hr hy).mono fun u hu => hs.trans hu.1)
    (show (0 : ℝ) ∈ Icc _ _ from ⟨hc.le, h⟩)
  have := circle_zero hr hm hy (hs.trans hu.1) hu.2 h0
  linarith

lemma circle_inside {s t : ℝ} (hs : 0 ≤ s) (hst : s ≤ t) (h : excess c (y s) ≤ 0) : excess c (y t) ≤ 0 := by
  by_contra hc
  push Not at hc
  obtain ⟨u, hu, h0⟩ := intermediate_value_Icc hst ((excess_cont hr hy).mono fun u hu => hs.trans hu.1)
    (show (0 : ℝ) ∈ Icc _ _ from ⟨h, hc.le⟩)
  have := circle_zero hr hm hy (hs.trans hu.1) hu.2 h0
  linarith

lemma circle_axis {t : ℝ} (ht : 0 ≤ t) : min (planarNorm (y 0)) c.radius ≤ planarNorm (y t) := by
  have e : ∀ s, planarNorm (y s) ^ 2 = excess c (y s) + c.radius ^ 2 := by
    intro s; rw [planarNorm_sq]; unfold excess; ring
  rcases le_total 0 (excess c (y 0)) with h | h
  · have h1 := circle_outside hr hm hy le_rfl ht h
    refine (min_le_right _ _).trans (abs_le_of_sq_le_sq' (by rw [e]; linarith) (planarNorm_nonneg _)).2
  · have h1 := circle_inside hr hm hy le_rfl ht h
    have h2 := circle_excess_anti hr hm hy (mem_Ici.mpr le_rfl) (mem_Ici.mpr ht) ht
    simp only [abs_of_nonpos h, abs_of_nonpos h1] at h2
    refine (min_le_left _ _).trans (abs_le_of_sq_le_sq' (by rw [e, e]; linarith) (planarNorm_nonneg _)).2

/-- The slowest rate at which the trajectory approaches the circle. -/
noncomputable def circleK (c : SimpleCircular d) (y : Vec d) : ℝ :=
  min 1 (min (planarNorm y) c.radius / (c.radius / 3) * c.maximumVelocity)
    / √(c.radius ^ 2 + |excess c y| + rise y)

omit hy in
lemma circleK_pos (h0 : 0 < planarNorm (y 0)) : 0 < circleK c (y 0) := by
  have := rise_nonneg (y 0)
  have : 0 < min (planarNorm (y 0)) c.radius := lt_min h0 hr
  unfold circleK
  have : 0 < min 1 (min (planarNorm (y 0)) c.radius / (c.radius / 3) * c.maximumVelocity) :=
    lt_min one_pos (by positivity)
  positivity

lemma circle_rate_lower (h0 : 0 < planarNorm (y 0)) {t : ℝ} (ht : 0 ≤ t) :
    circleK c (y 0) ≤ circleRate c (y t) / c.radius := by
  have hρ := circle_axis hr hm hy ht
  have hmin : 0 < min (planarNorm (y 0)) c.radius := lt_min h0 hr
  have hρ0 : 0 < planarNorm (y t) := hmin.trans_le hρ
  have hne : y t ≠ 0 := by
    intro h
    rw [h] at hρ0
    simp [planarNorm] at hρ0
  have hn : planarNorm (y t) ≤ ‖y t‖ := by
    refine (abs_le_of_sq_le_sq' ?_ (norm_nonneg _)).2
    rw [norm_sq_rise]; linarith [rise_nonneg (y t)]
  unfold circleK circleRate
  rw [if_neg hne, div_div]
  have hsp : min 1 (min (planarNorm (y 0)) c.radius / (c.radius / 3) * c.maximumVelocity) ≤ circularSpeed c ‖y t‖ := by
    unfold circularSpeed
    split_ifs
    · refine (min_le_right _ _).trans ?_
      gcongr
      exact hρ.trans hn
    · exact min_le_left _ _
  have hD : ‖c.direction (y t)‖ * c.radius = √(c.radius ^ 2 + |excess c (y t)| + rise (y t)) := by
    rw [← direction_norm_sq c hr hρ0.ne', Real.sqrt_sq (by positivity)]
  rw [hD]
  have h1 := circle_excess_anti hr hm hy (mem_Ici.mpr le_rfl) (mem_Ici.mpr ht) ht
  have h2 := circle_rise_anti hr hm hy (mem_Ici.mpr le_rfl) (mem_Ici.mpr ht) ht
  simp only at h1 h2
  have h3 := rise_nonneg (y t)
  have h4 : 0 < c.radius ^ 2 + |excess c (y t)| + rise (y t) := by positivity
  have h5 := Real.sqrt_pos.mpr h4
  have h6 := (circularSpeed_pos c hr hm (norm_pos_iff.mpr hne)).le
  gcongr

omit hm in
/-- The derivative of the tangent length `√|ρ² - r²|`. -/
lemma circle_tangent_deriv {t : ℝ} (ht : 0 ≤ t) (hq : excess c (y t) ≠ 0) :
    HasDerivWithinAt (fun s => √|excess c (y s)|) (-(circleRate c (y t) / c.radius * planarNorm (y t))) (Ici 0) t := by
  have h1 := excess_deriv c hr (hy t ht)
  have h2 := (hasDerivAt_abs hq).comp_hasDerivWithinAt t h1
  have h3 := h2.sqrt (by simpa using hq)
  refine h3.congr_deriv ?_
  rw [phi_sign c _ hq]
  have hs : √|excess c (y t)| ≠ 0 := Real.sqrt_ne_zero'.mpr (abs_pos.mpr hq)
  have hsg : (SignType.sign (excess c (y t)) : ℝ) * (SignType.sign (excess c (y t)) : ℝ) = 1 := by
    rcases hq.lt_or_gt with h | h
    · rw [sign_neg h]; norm_num
    · rw [sign_pos h]; norm_num
  simp only [Function.comp_def]
  field_simp
  linear_combination (-(circleRate c (y t) * planarNorm (y t))) * hsg

lemma circle_reached (h0 : 0 < planarNorm (y 0)) {t : ℝ}
    (ht : √|excess c (y 0)| / (circleK c (y 0) * min (planarNorm (y 0)) c.radius) ≤ t) : excess c (y t) = 0 := by
  by_contra hc
  have hk := circleK_pos hr hm h0
  have hmin : 0 < min (planarNorm (y 0)) c.radius := lt_min h0 hr
  have ht0 : 0 ≤ t := (div_nonneg (Real.sqrt_nonneg _) (by positivity)).trans ht
  have hne : ∀ s ∈ Icc 0 t, excess c (y s) ≠ 0 := fun s hs h => hc (circle_zero hr hm hy hs.1 hs.2 h)
  have := flow_linear_le (m := -(circleK c (y 0) * min (planarNorm (y 0)) c.radius)) le_rfl ht0
    (fun s hs => circle_tangent_deriv hr hy hs.1 (hne s hs)) (fun s hs => by
      have h1 := circle_rate_lower hr hm hy h0 hs.1
      have h2 := circle_axis hr hm hy hs.1
      have := mul_le_mul h1 h2 hmin.le (hk.le.trans h1)
      linarith)
  simp only [sub_zero] at this
  rw [div_le_iff₀ (by positivity)] at ht
  have h1 : 0 < √|excess c (y t)| := Real.sqrt_pos.mpr (abs_pos.mpr hc)
  linarith

lemma circle_height (h0 : 0 < planarNorm (y 0)) {t : ℝ} (ht : 0 ≤ t) :
    rise (y t) ≤ rise (y 0) * Real.exp (-(2 * circleK c (y 0) * t)) :=
  flow_decay (f := fun t => rise (y t)) (fun t ht => rise_deriv c hr (hy t ht)) (by
    intro t ht
    have h1 := circle_rate_lower hr hm hy h0 ht
    have h2 := rise_nonneg (y t)
    nlinarith) t ht

end Verif
