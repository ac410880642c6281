import Verif.Props.FlowTrajectory
import Mathlib.MeasureTheory.Integral.IntervalIntegral.FundThmCalculus
import Mathlib.Analysis.SpecialFunctions.Trigonometric.Deriv

/-! # Examples for C117: trajectories in closed form -/

open scoped RealInnerProductSpace
open Set Filter Topology

namespace Verif
open Spec Flows SimpleCircular

lemma plane_deriv {f g : ℝ → ℝ} {f' g' t : ℝ} {S : Set ℝ} (hf : HasDerivWithinAt f f' S t) (hg : HasDerivWithinAt g g' S t) :
    HasDerivWithinAt (fun s => (!₂[f s, g s] : Vec 2)) !₂[f', g'] S t := by
  have h := (hf.smul_const (EuclideanSpace.single (0 : Fin 2) (1 : ℝ))).add
    (hg.smul_const (EuclideanSpace.single (1 : Fin 2) (1 : ℝ)))
  have e : ∀ a b : ℝ, (!₂[a, b] : Vec 2) = a • EuclideanSpace.single (0 : Fin 2) (1 : ℝ)
      + b • EuclideanSpace.single (1 : Fin 2) (1 : ℝ) := by
    intro a b; ext i; fin_cases i <;> simp
  simp only [e]
  exact h

/-- Two functions which meet with the same value and the same derivative. -/
lemma glue_deriv {f g f' g' : ℝ → ℝ} {a : ℝ} (hf : ∀ t, HasDerivAt f (f' t) t) (hg : ∀ t, HasDerivAt g (g' t) t)
    (h0 : f a = g a) (h1 : f' a = g' a) (t : ℝ) :
    HasDerivAt (fun s => if s ≤ a then f s else g s) (if t ≤ a then f' t else g' t) t := by
  rcases lt_trichotomy t a with h | h | h
  · rw [if_pos h.le]
    exact (hf t).congr_of_eventuallyEq (by
      filter_upwards [Iio_mem_nhds h] with s hs
      rw [if_pos hs.le])
  · subst h
    rw [if_pos le_rfl, ← hasDerivWithinAt_univ, ← Iic_union_Ici (a := t)]
    refine HasDerivWithinAt.union ?_ ?_
    · exact (hf t).hasDerivWithinAt.congr (fun s hs => if_pos hs) (if_pos le_rfl)
    · rw [h1]
      refine (hg t).hasDerivWithinAt.congr (fun s hs => ?_) ?_
      · rcases (mem_Ici.mp hs).eq_or_lt with h | h
        · subst h; rw [if_pos le_rfl, h0]
        · rw [if_neg (not_le.mpr h)]
      · rw [if_pos le_rfl, h0]
  · rw [if_neg (not_le.mpr h)]
    exact (hg t).congr_of_eventuallyEq (by
      filter_upwards [Ioi_mem_nhds h] with s hs
      rw [if_neg (not_le.mpr hs)])

/-- The unit circle. -/
noncomputable def unitCircle : SimpleCircular 2 := { pose := .trivial }

/-- The trajectory which arrives from `(1, -1)` on a tangent. -/
noncomputable def arriving (t : ℝ) : Vec 2 :=
  !₂[if t ≤ 1 then 1 else Real.cos (t - 1), if t ≤ 1 then t - 1 else Real.sin (t - 1)]

lemma rise_plane (y : Vec 2) : rise y = 0 := by
  unfold rise
  refine Finset.sum_eq_zero fun i hi => ?_
  exfalso
  simp only [Finset.mem_filter, Finset.mem_univ, true_and] at hi
  obtain ⟨h0, h1⟩ := hi
  fin_cases i
  · exact h0 rfl
  · exact h1 rfl

lemma arriving_follows : Follows (fun p => .ok (unitCircle.evaluate p)) arriving := by
  intro t ht
  refine ⟨_, rfl, ?_⟩
  have hloc : unitCircle.evaluate (arriving t) = unitCircle.localVelocity (arriving t) := by
    unfold SimpleCircular.evaluate unitCircle Pose.toRelative Pose.trivial
    rw [sub_zero]
    rfl
  have e0 : (i0 : Fin 2) = 0 := rfl
  have e1 : (i1 : Fin 2) = 1 := rfl
  have hex : excess unitCircle (arriving t) = (if t ≤ 1 then 1 - t else 0) ^ 2 := by
    unfold excess arriving unitCircle
    rw [e0, e1]
    split_ifs
    · simp; ring
    · have := Real.sin_sq_add_cos_sq (t - 1)
      simp
  have hnn : 0 ≤ if t ≤ 1 then 1 - t else 0 := by split_ifs with h <;> linarith
  obtain ⟨h0, h1, _⟩ := plane_velocity (c := unitCircle) one_pos (rise_plane (arriving t)) (by rw [hex]; positivity)
  have hv : unitCircle.localVelocity (arriving t)
      = !₂[if t ≤ 1 then 0 else -Real.sin (t - 1), if t ≤ 1 then 1 else Real.cos (t - 1)] := by
    rw [hex, Real.sqrt_sq hnn, planarNorm_sq, e0, e1] at h0 h1
    have hr : unitCircle.radius = 1 := rfl
    ext i
    fin_cases i
    · refine h0.trans ?_
      simp only [hr, arriving]
      split_ifs
      · simp
      · have := Real.sin_sq_add_cos_sq (t - 1)
        have e : Real.cos (t - 1) ^ 2 + Real.sin (t - 1) ^ 2 = 1 := by linarith
        simp [e]
    · refine h1.trans ?_
      simp only [hr, arriving]
      split_ifs
      · have : (1 : ℝ) ^ 2 + (t - 1) ^ 2 ≠ 0 := by positivity
        simp
        field_simp
        ring
      · have := Real.sin_sq_add_cos_sq (t - 1)
        have e : Real.cos (t - 1) ^ 2 + Real.sin (t - 1) ^ 2 = 1 := by linarith
        simp [e]
  rw [hloc, hv]
  refine plane_deriv (HasDerivAt.hasDerivWithinAt ?_) (HasDerivAt.hasDerivWithinAt ?_)
  · refine glue_deriv (f := fun _ => 1) (g := fun s => Real.cos (s - 1)) (f' := fun _ => 0)
      (g' := fun s => -Real.sin (s - 1)) (fun s => hasDerivAt_const s 1) (fun s => ?_) (by simp) (by simp) t
    simpa using ((hasDerivAt_id s).sub_const 1).cos
  · refine glue_deriv (f := fun s => s - 1) (g := fun s => Real.sin (s - 1)) (f' := fun _ => 1)
      (g' := fun s => Real.cos (s - 1)) (fun s => (hasDerivAt_id s).sub_const 1) (fun s => ?_) (by simp) (by simp) t
    simpa using ((hasDerivAt_id s).sub_const 1).sin

/-- `C117_monotone`, `C117_reached` and `C117_tangent` are not vacuous: a trajectory from outside of the unit circle, which
touches it at the time `1` and then follows it. -/
example : ∃ (c : SimpleCircular 2) (x : ℝ → Vec 2), 0 < c.radius ∧ 0 < c.maximumVelocity
    ∧ Follows (fun p => .ok (c.evaluate p)) x ∧ c.radius < axisDistance c.pose (x 0) ∧ height c.pose (x 0) = 0
    ∧ axisDistance c.pose (x 1) = c.radius ∧ height c.pose (x 1) = 0 := by
  have hh : ∀ p, height unitCircle.pose p = 0 := fun p => by rw [height_eq, rise_plane, Real.sqrt_zero]
  refine ⟨unitCircle, arriving, one_pos, one_pos, arriving_follows, ?_, hh _, ?_, hh _⟩
  · change 1 < √(_)
    refine Real.lt_sqrt_of_sq_lt ?_
    have e0 : (i0 : Fin 2) = 0 := rfl
    have e1 : (i1 : Fin 2) = 1 := rfl
    simp only [coordinate, unitCircle, Pose.trivial, e0, e1, arriving]
    norm_num
    change (1 : ℝ) < 1 ^ 2 + (-1) ^ 2
    norm_num
  · change √(_) = 1
    have e0 : (i0 : Fin 2) = 0 := rfl
    have e1 : (i1 : Fin 2) = 1 := rfl
    simp only [coordinate, unitCircle, Pose.trivial, e0, e1, arriving]
    norm_num
    change (1 : ℝ) ^ 2 + 0 ^ 2 = 1
    norm_num

/-! ## `CircularRotationDynamics` -/

/-- `C117_rotation` is not vacuous: the motion on the circle itself. -/
example : ∃ (c : CircularRotation) (x : ℝ → Vec 2), 0 < c.radius ∧ 0 < c.insideFactor ∧ 0 < c.outsideFactor
    ∧ 0 < c.constantVelocity ∧ Follows c.evaluate x ∧ x 0 ≠ 0 := by
  refine ⟨{}, fun t => !₂[Real.cos t, Real.sin t], one_pos, one_pos, one_pos, one_pos, ?_, ?_⟩
  · intro t _
    have hn : ‖(!₂[Real.cos t, Real.sin t] : Vec 2)‖ = 1 := by
      rw [← sq_eq_sq₀ (norm_nonneg _) one_pos.le, vec2_norm_sq]
      have := Real.sin_sq_add_cos_sq t
      simp
    have h0 : (!₂[Real.cos t, Real.sin t] : Vec 2) ≠ 0 := norm_ne_zero_iff.mp (by rw [hn]; norm_num)
    have he := circular_evaluate_eq {} !₂[Real.cos t, Real.sin t] h0 1 (by simp)
    refine ⟨_, he, ?_⟩
    have hw : ({} : CircularRotation).rotationWeight (({} : CircularRotation).base.symm !₂[Real.cos t, Real.sin t]) = 1 := by
      refine ((C51_weight {} one_pos one_pos one_pos).2.1 _ ?_).mpr ?_
      · intro h; exact h0 (by simpa using h)
      · rw [LinearIsometryEquiv.norm_map]; exact hn
    rw [hw]
    refine (plane_deriv (Real.hasDerivAt_cos t).hasDerivWithinAt (Real.hasDerivAt_sin t).hasDerivWithinAt).congr_deriv ?_
    change _ = (1 : ℝ) • rotate2 (1 * (1 * (Real.pi / 2))) (unit (!₂[Real.cos t, Real.sin t] : Vec 2))
    rw [rotate2_unit, hn]
    ext i
    fin_cases i <;> simp [rotate2]
  · intro h
    simpa using congrArg (fun v : Vec 2 => v 0) h

/-! ## Wavy dynamics -/

/-- The deviation at a distance from the attractor. -/
noncomputable def wavyDeviation (e : ℝ) : ℝ := Real.sin (e * 1) * (Real.pi * 0.3)

lemma wavyDeviation_cos (e : ℝ) : 0 < Real.cos (wavyDeviation e) := by
  have hpi := Real.pi_pos
  have h1 := Real.neg_one_le_sin (e * 1)
  have h2 := Real.sin_le_one (e * 1)
  unfold wavyDeviation
  refine Real.cos_pos_of_mem_Ioo ⟨?_, ?_⟩ <;> nlinarith

/-- Wavy dynamics around dynamics towards the origin, with the gain which makes up for the detour. -/
noncomputable def wavyFlow : Wavy where
  attractor := 0
  linear p := (1 / Real.cos (wavyDeviation ‖p‖)) • (0 - p)

/-- The angle of the trajectory. -/
noncomputable def wavyAngle (t : ℝ) : ℝ := ∫ s in (0 : ℝ)..t, -Real.tan (wavyDeviation (Real.exp (-s)))

lemma wavyAngle_deriv (t : ℝ) : HasDerivAt wavyAngle (-Real.tan (wavyDeviation (Real.exp (-t)))) t := by
  have hc : Continuous fun s : ℝ => -Real.tan (wavyDeviation (Real.exp (-s))) := by
    have h1 : Continuous fun s : ℝ => wavyDeviation (Real.exp (-s)) := by unfold wavyDeviation; fun_prop
    have h2 : Continuous fun s : ℝ => Real.sin (wavyDeviation (Real.exp (-s))) / Real.cos (wavyDeviation (Real.exp (-s))) :=
      (Real.continuous_sin.comp h1).div (Real.continuous_cos.comp h1) fun s => (wavyDeviation_cos _).ne'
    simp only [Real.tan_eq_sin_div_cos]
    exact h2.neg
  exact intervalIntegral.integral_hasDerivAt_right (hc.intervalIntegrable _ _)
    hc.aestronglyMeasurable.stronglyMeasurableAtFilter hc.continuousAt

/-- A trajectory which winds around the attractor. -/
noncomputable def wavyPath (t : ℝ) : Vec 2 :=
  !₂[Real.exp (-t) * Real.cos (wavyAngle t), Real.exp (-t) * Real.sin (wavyAngle t)]

lemma wavyPath_norm (t : ℝ) : ‖wavyPath t‖ = Real.exp (-t) := by
  rw [← sq_eq_sq₀ (norm_nonneg _) (Real.exp_pos _).le, vec2_norm_sq]
  have := Real.sin_sq_add_cos_sq (wavyAngle t)
  simp only [wavyPath]
  change (Real.exp (-t) * Real.cos (wavyAngle t)) ^ 2 + (Real.exp (-t) * Real.sin (wavyAngle t)) ^ 2 = _
  linear_combination Real.exp (-t) ^ 2 * this

lemma wavyPath_follows : Follows (fun p => .ok (wavyFlow.evaluate p)) wavyPath := by
  intro t _
  refine ⟨_, rfl, ?_⟩
  have hexp : HasDerivAt (fun s : ℝ => Real.exp (-s)) (-Real.exp (-t)) t := by
    simpa using (hasDerivAt_neg t).exp
  have hd := plane_deriv (S := Ici 0) (hexp.mul (wavyAngle_deriv t).cos).hasDerivWithinAt
    (hexp.mul (wavyAngle_deriv t).sin).hasDerivWithinAt
  refine HasDerivWithinAt.congr_deriv (f' := _) hd ?_
  have hdev : Real.sin (‖wavyPath t - wavyFlow.attractor‖ * wavyFlow.stretch) * wavyFlow.maximumDeviation
      = wavyDeviation (Real.exp (-t)) := by
    change Real.sin (‖wavyPath t - 0‖ * 1) * (Real.pi * 0.3) = _
    rw [sub_zero, wavyPath_norm]; rfl
  have hev : wavyFlow.evaluate (wavyPath t) = rotate2 (wavyDeviation (Real.exp (-t))) (wavyFlow.linear (wavyPath t)) := by
    rw [← hdev]; rfl
  rw [hev]
  have hl : wavyFlow.linear (wavyPath t) = (1 / Real.cos (wavyDeviation (Real.exp (-t)))) • (0 - wavyPath t) := by
    rw [← wavyPath_norm]; rfl
  rw [hl, Real.tan_eq_sin_div_cos]
  have hc := (wavyDeviation_cos (Real.exp (-t))).ne'
  ext i
  fin_cases i
  · simp [rotate2, wavyPath]
    field_simp
  · simp [rotate2, wavyPath]
    field_simp
    ring

/-- `C117_wavy` is not vacuous: a trajectory which winds around the attractor. -/
example : ∃ (w : Wavy) (gain : Vec 2 → ℝ) (x : ℝ → Vec 2), |w.maximumDeviation| < Real.pi / 2 ∧ (∀ p, 0 < gain p)
    ∧ (∀ p, w.linear p = gain p • (w.attractor - p)) ∧ Follows (fun p => .ok (w.evaluate p)) x ∧ x 0 ≠ w.attractor
    ∧ (∀ p, 1 ≤ gain p) ∧ 0 < w.maximumDeviation := by
  have hpi := Real.pi_pos
  refine ⟨wavyFlow, fun p => 1 / Real.cos (wavyDeviation ‖p‖), wavyPath, C50_wavy_default _ _,
    fun p => one_div_pos.mpr (wavyDeviation_cos _), fun p => rfl, wavyPath_follows, ?_, ?_, ?_⟩
  · change wavyPath 0 ≠ 0
    rw [← norm_ne_zero_iff, wavyPath_norm]
    exact (Real.exp_pos _).ne'
  · intro p
    rw [le_div_iff₀ (wavyDeviation_cos _), one_mul]
    exact Real.cos_le_one _
  · change 0 < Real.pi * 0.3
    positivity

/-- `C117_wavy_limited` is not vacuous: a straight trajectory. -/
example : ∃ (w : Wavy) (limit : ℝ) (x : ℝ → Vec 2), |w.maximumDeviation| < Real.pi / 2 ∧ 0 < limit
    ∧ (∀ p, w.linear p = (if ‖p - w.attractor‖ ≤ limit then (1 : ℝ) else limit / ‖p - w.attractor‖) • (w.attractor - p))
    ∧ Follows (fun p => .ok (w.evaluate p)) x ∧ x 0 ≠ w.attractor := by
  refine ⟨{ attractor := 0, stretch := 0, linear := fun p => (if ‖p - 0‖ ≤ 1 then (1 : ℝ) else 1 / ‖p - 0‖) • (0 - p) }, 1,
    fun t => !₂[Real.exp (-t), 0], ?_, one_pos, fun p => rfl, ?_, ?_⟩
  · have hpi := Real.pi_pos
    change |Real.pi * 0.3| < _
    rw [abs_of_pos (by positivity)]; nlinarith
  · intro t ht
    refine ⟨_, rfl, ?_⟩
    have hexp : HasDerivAt (fun s : ℝ => Real.exp (-s)) (-Real.exp (-t)) t := by
      simpa using (hasDerivAt_neg t).exp
    refine (plane_deriv hexp.hasDerivWithinAt (hasDerivWithinAt_const t _ 0)).congr_deriv ?_
    have hn : ‖(!₂[Real.exp (-t), 0] : Vec 2) - 0‖ ≤ 1 := by
      rw [sub_zero, ← sq_le_sq₀ (norm_nonneg _) one_pos.le, vec2_norm_sq]
      have : Real.exp (-t) ≤ 1 := Real.exp_le_one_iff.mpr (by linarith)
      have := Real.exp_pos (-t)
      simp only [Matrix.cons_val_zero, Matrix.cons_val_one]
      nlinarith
    unfold Wavy.evaluate
    simp only
    rw [if_pos hn]
    ext i
    fin_cases i <;> simp [rotate2]
  · intro h
    have := congrArg (fun v : Vec 2 => v 0) h
    simp at this

end Verif
