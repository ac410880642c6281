import Verif.Lemmas.TangentLine

/-!
# C117: trajectories of the circular and wavy dynamics
-/

open scoped RealInnerProductSpace
open Set Filter Topology

namespace Verif
open Spec Flows SimpleCircular

section simple
variable {d : ℕ} [Fact (2 ≤ d)]

lemma local_trajectory {c : SimpleCircular d} {x : ℝ → Vec d} (hx : Follows (fun p => .ok (c.evaluate p)) x) :
    LocalTrajectory c (fun t => c.pose.toRelative (x t)) := fun _ ht => circle_local c hx ht

lemma axisDistance_eq (c : SimpleCircular d) (p : Vec d) : axisDistance c.pose p = planarNorm (c.pose.toRelative p) :=
  rfl

lemma axisDistance_excess (c : SimpleCircular d) (p : Vec d) :
    axisDistance c.pose p ^ 2 - c.radius ^ 2 = excess c (c.pose.toRelative p) := by
  rw [axisDistance_eq, planarNorm_sq]; rfl

lemma height_sq (c : SimpleCircular d) (p : Vec d) : height c.pose p ^ 2 = rise (c.pose.toRelative p) :=
  Real.sq_sqrt (Finset.sum_nonneg fun _ _ => sq_nonneg _)

lemma height_eq (c : SimpleCircular d) (p : Vec d) : height c.pose p = √(rise (c.pose.toRelative p)) := rfl

/-- C117: along every trajectory of `SimpleCircularDynamics` the difference of the squared distance from the axis to the
squared radius never grows, neither does the height above the plane; a trajectory which starts inside of the cylinder of the
circle never leaves it, and one which starts outside never enters it. -/
theorem C117_monotone (c : SimpleCircular d) (hr : 0 < c.radius) (hm : 0 < c.maximumVelocity) {x : ℝ → Vec d}
    (hx : Follows (fun p => .ok (c.evaluate p)) x) :
    AntitoneOn (fun t => |axisDistance c.pose (x t) ^ 2 - c.radius ^ 2|) (Ici 0)
    ∧ AntitoneOn (fun t => height c.pose (x t)) (Ici 0)
    ∧ (c.radius ≤ axisDistance c.pose (x 0) → ∀ t, 0 ≤ t → c.radius ≤ axisDistance c.pose (x t))
    ∧ (axisDistance c.pose (x 0) ≤ c.radius → ∀ t, 0 ≤ t → axisDistance c.pose (x t) ≤ c.radius) := by
  have hy := local_trajectory hx
  have hn : ∀ t, 0 ≤ axisDistance c.pose (x t) := fun t => Real.sqrt_nonneg _
  refine ⟨?_, ?_, ?_, ?_⟩
  · simpa only [axisDistance_excess] using circle_excess_anti hr hm hy
  · intro s hs t ht hst
    simp only [height_eq]
    exact Real.sqrt_le_sqrt (circle_rise_anti hr hm hy hs ht hst)
  · intro h t ht
    have h1 := circle_outside hr hm hy le_rfl ht (by
      rw [← axisDistance_excess]; nlinarith [hn 0])
    rw [← axisDistance_excess] at h1
    exact (abs_le_of_sq_le_sq' (by linarith) (hn t)).2
  · intro h t ht
    have h1 := circle_inside hr hm hy le_rfl ht (by
      rw [← axisDistance_excess]; nlinarith [hn 0])
    rw [← axisDistance_excess] at h1
    exact (abs_le_of_sq_le_sq' (by linarith) hr.le).2

/-- C117: every trajectory of `SimpleCircularDynamics` which does not start on the axis reaches the cylinder of the circle
after a finite time and stays on it, and approaches the plane exponentially.  The time and the rate are explicit: `nearest` is
the smallest distance from the axis, `speed` the lowest speed, `reach` the largest distance. -/
theorem C117_reached (c : SimpleCircular d) (hr : 0 < c.radius) (hm : 0 < c.maximumVelocity) {x : ℝ → Vec d}
    (hx : Follows (fun p => .ok (c.evaluate p)) x) (h0 : 0 < axisDistance c.pose (x 0)) :
    let nearest := min (axisDistance c.pose (x 0)) c.radius
    let speed := min 1 (nearest / (c.radius / 3) * c.maximumVelocity)
    let reach := √(c.radius ^ 2 + |axisDistance c.pose (x 0) ^ 2 - c.radius ^ 2| + height c.pose (x 0) ^ 2)
    0 < speed / reach
    ∧ (∀ t, √|axisDistance c.pose (x 0) ^ 2 - c.radius ^ 2| / (speed / reach * nearest) ≤ t →
        axisDistance c.pose (x t) = c.radius)
    ∧ ∀ t, 0 ≤ t → height c.pose (x t) ≤ height c.pose (x 0) * Real.exp (-(speed / reach * t)) := by
  intro nearest speed reach
  have hy := local_trajectory hx
  have hk : speed / reach = circleK c (c.pose.toRelative (x 0)) := by
    simp only [speed, reach, nearest, circleK, axisDistance_excess, height_sq]
    rfl
  rw [hk]
  refine ⟨circleK_pos (y := fun t => c.pose.toRelative (x t)) hr hm h0, ?_, ?_⟩
  · intro t ht
    rw [axisDistance_excess] at ht
    have h1 := circle_reached hr hm hy h0 ht
    rw [← axisDistance_excess] at h1
    exact (sq_eq_sq₀ (a := axisDistance c.pose (x t)) (Real.sqrt_nonneg _) hr.le).mp (by linarith)
  · intro t ht
    have h1 := circle_height hr hm hy h0 ht
    have h2 := Real.sqrt_le_sqrt h1
    rw [Real.sqrt_mul (rise_nonneg _)] at h2
    have h3 : √(Real.exp (-(2 * circleK c (c.pose.toRelative (x 0)) * t)))
        = Real.exp (-(circleK c (c.pose.toRelative (x 0)) * t)) := by
      rw [show -(2 * circleK c (c.pose.toRelative (x 0)) * t) = -(circleK c (c.pose.toRelative (x 0)) * t)
        + -(circleK c (c.pose.toRelative (x 0)) * t) by ring, Real.exp_add, Real.sqrt_mul_self (Real.exp_pos _).le]
    rw [h3] at h2
    exact h2

/-- C117: from outside, in the plane of the circle, the trajectory of `SimpleCircularDynamics` is the straight line, run
through with the velocity at the start, up to the point where it touches the circle: exactly after the time
`√(distance² - radius²)`, the length of the tangent. -/
theorem C117_tangent (c : SimpleCircular d) (hr : 0 < c.radius) (hm : 0 < c.maximumVelocity) {x : ℝ → Vec d}
    (hx : Follows (fun p => .ok (c.evaluate p)) x) (hplane : height c.pose (x 0) = 0)
    (h0 : c.radius ≤ axisDistance c.pose (x 0)) :
    (∀ t, 0 ≤ t → t ≤ √(axisDistance c.pose (x 0) ^ 2 - c.radius ^ 2) → x t = x 0 + t • c.evaluate (x 0))
    ∧ ∀ t, 0 ≤ t →
      (axisDistance c.pose (x t) = c.radius ↔ √(axisDistance c.pose (x 0) ^ 2 - c.radius ^ 2) ≤ t) := by
  have hy := local_trajectory hx
  have hrise : rise (c.pose.toRelative (x 0)) = 0 := by rw [← height_sq, hplane]; norm_num
  have hq : 0 ≤ excess c (c.pose.toRelative (x 0)) := by rw [← axisDistance_excess]; nlinarith
  rw [axisDistance_excess]
  constructor
  · intro t ht htL
    have h1 := tangent_line hr hm hy hrise hq ht htL
    have h2 := congrArg c.pose.orientation h1
    simp only [map_add, map_smul] at h2
    unfold Pose.toRelative at h2
    simp only [LinearIsometryEquiv.apply_symm_apply] at h2
    have h3 : c.evaluate (x 0) = c.pose.orientation (c.localVelocity (c.pose.orientation.symm (x 0 - c.pose.position))) := rfl
    rw [h3]
    have h4 : x t = (x t - c.pose.position) + c.pose.position := by abel
    rw [h4, h2]; abel
  · intro t ht
    have hiff : axisDistance c.pose (x t) = c.radius ↔ excess c (c.pose.toRelative (x t)) = 0 := by
      rw [← axisDistance_excess]
      constructor
      · intro h; rw [h]; ring
      · intro h; exact (sq_eq_sq₀ (a := axisDistance c.pose (x t)) (Real.sqrt_nonneg _) hr.le).mp (by linarith)
    rw [hiff]
    constructor
    · intro h
      by_contra hc
      push Not at hc
      have h1 := tangent_length hr hm hy hrise hq ht hc.le
      simp only [h, Real.sqrt_zero] at h1
      linarith
    · intro h
      have h1 := tangent_length hr hm hy hrise hq (Real.sqrt_nonneg _) le_rfl
      rw [sub_self, Real.sqrt_eq_zero (circle_outside hr hm hy le_rfl (Real.sqrt_nonneg _) hq)] at h1
      exact circle_zero hr hm hy (Real.sqrt_nonneg _) h h1

/-- C117: on the circle the trajectory of `SimpleCircularDynamics` turns around the centre with angular speed `1 / radius`,
and comes back after `2 π radius`. -/
theorem C117_turns (c : SimpleCircular d) (hr : 0 < c.radius) (hm : 0 < c.maximumVelocity) {x : ℝ → Vec d}
    (hx : Follows (fun p => .ok (c.evaluate p)) x) {s : ℝ} (hs : 0 ≤ s) (hplane : height c.pose (x s) = 0)
    (h0 : axisDistance c.pose (x s) = c.radius) :
    (∀ t, s ≤ t →
      coordinate c.pose (x t) i0 = Real.cos ((t - s) / c.radius) * coordinate c.pose (x s) i0
        - Real.sin ((t - s) / c.radius) * coordinate c.pose (x s) i1
      ∧ coordinate c.pose (x t) i1 = Real.sin ((t - s) / c.radius) * coordinate c.pose (x s) i0
        + Real.cos ((t - s) / c.radius) * coordinate c.pose (x s) i1
      ∧ height c.pose (x t) = 0)
    ∧ x (s + 2 * Real.pi * c.radius) = x s := by
  have hy := local_trajectory hx
  have hrise : rise (c.pose.toRelative (x s)) = 0 := by rw [← height_sq, hplane]; norm_num
  have hq : excess c (c.pose.toRelative (x s)) = 0 := by rw [← axisDistance_excess, h0]; ring
  have key : ∀ t, s ≤ t → _ := fun t ht => circle_turns hr hm hy hs ht hrise hq
  have hflat : ∀ t, s ≤ t → rise (c.pose.toRelative (x t)) = 0 := fun t ht => plane_stays hr hm hy hs ht hrise
  refine ⟨fun t ht => ⟨(key t ht).1, (key t ht).2, ?_⟩, ?_⟩
  · rw [height_eq, hflat t ht, Real.sqrt_zero]
  · have hle : s ≤ s + 2 * Real.pi * c.radius := by have := Real.pi_pos; nlinarith [mul_pos Real.pi_pos hr]
    obtain ⟨h1, h2⟩ := key _ hle
    have e : (s + 2 * Real.pi * c.radius - s) / c.radius = 2 * Real.pi := by field_simp; ring
    rw [e, Real.cos_two_pi, Real.sin_two_pi] at h1 h2
    have hz : ∀ t, s ≤ t → ∀ i : Fin d, i ≠ i0 → i ≠ i1 → c.pose.toRelative (x t) i = 0 := by
      intro t ht i hi0 hi1
      have h := hflat t ht
      unfold rise at h
      rw [Finset.sum_eq_zero_iff_of_nonneg (fun _ _ => sq_nonneg _)] at h
      exact pow_eq_zero_iff (two_ne_zero) |>.mp (h i (by simp [hi0, hi1]))
    have h3 : c.pose.toRelative (x (s + 2 * Real.pi * c.radius)) = c.pose.toRelative (x s) := by
      ext i
      by_cases hi0 : i = i0
      · subst hi0; rw [h1]; ring
      by_cases hi1 : i = i1
      · subst hi1; rw [h2]; ring
      rw [hz _ hle i hi0 hi1, hz s le_rfl i hi0 hi1]
    unfold Pose.toRelative at h3
    have h4 := c.pose.orientation.symm.injective h3
    exact sub_left_injective h4

end simple

/-! ## The wavy dynamics -/

lemma wavy_angle (w : Wavy) (p : Vec 2) (hm : |w.maximumDeviation| < Real.pi / 2) :
    Real.cos w.maximumDeviation ≤ Real.cos (Real.sin (‖p - w.attractor‖ * w.stretch) * w.maximumDeviation) := by
  have hpi := Real.pi_pos
  have hb : |Real.sin (‖p - w.attractor‖ * w.stretch) * w.maximumDeviation| ≤ |w.maximumDeviation| := by
    rw [abs_mul]
    calc _ ≤ 1 * |w.maximumDeviation| :=
          mul_le_mul_of_nonneg_right (Real.abs_sin_le_one _) (abs_nonneg _)
      _ = _ := one_mul _
  rw [← Real.cos_abs w.maximumDeviation, ← Real.cos_abs (_ * w.maximumDeviation)]
  exact Real.cos_le_cos_of_nonneg_of_le_pi (abs_nonneg _) (by linarith) hb

lemma wavy_inner (w : Wavy) (p : Vec 2) {g : ℝ} (hg : 0 < g) (hlin : w.linear p = g • (w.attractor - p)) :
    ⟪w.evaluate p, w.attractor - p⟫
      = Real.cos (Real.sin (‖p - w.attractor‖ * w.stretch) * w.maximumDeviation) * g * ‖p - w.attractor‖ ^ 2 := by
  have h := rotate2_inner (Real.sin (‖p - w.attractor‖ * w.stretch) * w.maximumDeviation) (w.linear p)
  change ⟪w.evaluate p, w.linear p⟫ = _ at h
  rw [hlin, inner_smul_right, norm_smul, norm_sub_rev w.attractor, Real.norm_eq_abs, abs_of_pos hg] at h
  have : g * (⟪w.evaluate p, w.attractor - p⟫
      - Real.cos (Real.sin (‖p - w.attractor‖ * w.stretch) * w.maximumDeviation) * g * ‖p - w.attractor‖ ^ 2) = 0 := by
    linear_combination h
  rcases mul_eq_zero.mp this with h0 | h0
  · exact absurd h0 hg.ne'
  · linarith

lemma sqDist_deriv {x : ℝ → Vec 2} {v a : Vec 2} {t : ℝ} (h : HasDerivWithinAt x v (Ici 0) t) :
    HasDerivWithinAt (fun s => ‖x s - a‖ ^ 2) (-(2 * ⟪v, a - x t⟫)) (Ici 0) t := by
  refine (h.sub_const a).norm_sq.congr_deriv ?_
  rw [real_inner_comm, ← neg_sub a (x t), inner_neg_right]
  ring

/-- C117: a trajectory of `WavyLinearDynamics` around linear dynamics `gain(p) (attractor - p)`, with a maximum deviation
below a right angle, comes closer to the attractor all the time, exponentially at the rate of the smallest gain on the
way times the cosine of the maximum deviation; and if the gain is bounded it never arrives. -/
theorem C117_wavy (w : Wavy) (hm : |w.maximumDeviation| < Real.pi / 2) {gain : Vec 2 → ℝ} (hgain : ∀ p, 0 < gain p)
    (hlin : ∀ p, w.linear p = gain p • (w.attractor - p)) {x : ℝ → Vec 2}
    (hx : Follows (fun p => .ok (w.evaluate p)) x) :
    AntitoneOn (fun t => ‖x t - w.attractor‖) (Ici 0)
    ∧ (∀ low, (∀ p, ‖p - w.attractor‖ ≤ ‖x 0 - w.attractor‖ → low ≤ gain p) → 0 ≤ low → ∀ t, 0 ≤ t →
        ‖x t - w.attractor‖ ≤ ‖x 0 - w.attractor‖ * Real.exp (-(low * Real.cos w.maximumDeviation * t)))
    ∧ ∀ high, (∀ p, gain p ≤ high) → ∀ t, 0 ≤ t →
        ‖x 0 - w.attractor‖ * Real.exp (-(high * t)) ≤ ‖x t - w.attractor‖ := by
  have hcos : 0 < Real.cos w.maximumDeviation := by
    rw [← Real.cos_abs]
    exact Real.cos_pos_of_mem_Ioo ⟨by have := abs_nonneg w.maximumDeviation; have := Real.pi_pos; linarith, hm⟩
  have hder : ∀ t, 0 ≤ t → HasDerivWithinAt (fun s => ‖x s - w.attractor‖ ^ 2)
      (-(2 * (Real.cos (Real.sin (‖x t - w.attractor‖ * w.stretch) * w.maximumDeviation) * gain (x t)
        * ‖x t - w.attractor‖ ^ 2))) (Ici 0) t := by
    intro t ht
    obtain ⟨v, hv, hd⟩ := hx t ht
    cases hv
    exact (sqDist_deriv hd).congr_deriv (by rw [wavy_inner w _ (hgain _) (hlin _)])
  have hrate : ∀ t, Real.cos w.maximumDeviation * gain (x t)
      ≤ Real.cos (Real.sin (‖x t - w.attractor‖ * w.stretch) * w.maximumDeviation) * gain (x t) := fun t =>
    mul_le_mul_of_nonneg_right (wavy_angle w (x t) hm) (hgain _).le
  have hanti2 := flow_antitone hder (by
    intro t _
    have h1 := hrate t
    have h2 := mul_pos hcos (hgain (x t))
    have := mul_nonneg (h2.le.trans h1) (sq_nonneg ‖x t - w.attractor‖)
    linarith)
  have hanti : AntitoneOn (fun t => ‖x t - w.attractor‖) (Ici 0) := fun s hs t ht hst =>
    (abs_le_of_sq_le_sq' (hanti2 hs ht hst) (norm_nonneg _)).2
  have hexp : ∀ k t : ℝ, Real.exp (-(2 * k * t)) = Real.exp (-(k * t)) ^ 2 := fun k t => by
    rw [← Real.exp_nat_mul]; congr 1; push_cast; ring
  refine ⟨hanti, ?_, ?_⟩
  · intro low hlow h0 t ht
    have h1 := flow_decay (k := 2 * (low * Real.cos w.maximumDeviation)) hder (by
      intro t ht
      have h1 := hrate t
      have h2 := hlow (x t) (hanti (mem_Ici.mpr le_rfl) (mem_Ici.mpr ht) ht)
      have h3 : low * Real.cos w.maximumDeviation
          ≤ Real.cos (Real.sin (‖x t - w.attractor‖ * w.stretch) * w.maximumDeviation) * gain (x t) :=
        (by rw [mul_comm]; exact mul_le_mul_of_nonneg_left h2 hcos.le : _ ≤ Real.cos w.maximumDeviation * gain (x t)).trans h1
      have := mul_le_mul_of_nonneg_right h3 (sq_nonneg ‖x t - w.attractor‖)
      linarith) t ht
    rw [hexp, ← mul_pow] at h1
    exact (abs_le_of_sq_le_sq' h1 (by positivity)).2
  · intro high hhigh t ht
    have h1 := flow_growth (k := 2 * high) hder (by
      intro t ht
      have h1 : Real.cos (Real.sin (‖x t - w.attractor‖ * w.stretch) * w.maximumDeviation) * gain (x t) ≤ high := by
        have := hgain (x t)
        have := Real.cos_le_one (Real.sin (‖x t - w.attractor‖ * w.stretch) * w.maximumDeviation)
        nlinarith [hhigh (x t)]
      have := mul_le_mul_of_nonneg_right h1 (sq_nonneg ‖x t - w.attractor‖)
      linarith) t ht
    rw [hexp, ← mul_pow] at h1
    exact (abs_le_of_sq_le_sq' h1 (norm_nonneg _)).2

/-- C117: in particular around linear dynamics of unit gain with a speed limit, the trajectory converges to the attractor
from everywhere. -/
theorem C117_wavy_limited (w : Wavy) (hm : |w.maximumDeviation| < Real.pi / 2) {limit : ℝ} (hl : 0 < limit)
    (hlin : ∀ p, w.linear p = (if ‖p - w.attractor‖ ≤ limit then (1 : ℝ) else limit / ‖p - w.attractor‖) • (w.attractor - p))
    {x : ℝ → Vec 2} (hx : Follows (fun p => .ok (w.evaluate p)) x) :
    Tendsto x atTop (𝓝 w.attractor) := by
  have hcos : 0 < Real.cos w.maximumDeviation := by
    rw [← Real.cos_abs]
    exact Real.cos_pos_of_mem_Ioo ⟨by have := abs_nonneg w.maximumDeviation; have := Real.pi_pos; linarith, hm⟩
  have hpos : ∀ p : Vec 2, 0 < if ‖p - w.attractor‖ ≤ limit then (1 : ℝ) else limit / ‖p - w.attractor‖ := by
    intro p
    split_ifs with h
    · exact one_pos
    · have : 0 < ‖p - w.attractor‖ := hl.trans (not_le.mp h)
      positivity
  obtain ⟨_, h2, _⟩ := C117_wavy w hm hpos hlin hx
  set low := min 1 (limit / (‖x 0 - w.attractor‖ + 1)) with hlow
  have hlow0 : 0 < low := lt_min one_pos (by positivity)
  have h3 := h2 low (by
    intro p hp
    split_ifs with h
    · exact min_le_left _ _
    · refine (min_le_right _ _).trans ?_
      have : 0 < ‖p - w.attractor‖ := hl.trans (not_le.mp h)
      gcongr
      linarith) hlow0.le
  rw [tendsto_iff_norm_sub_tendsto_zero]
  refine squeeze_zero' (Eventually.of_forall fun t => norm_nonneg _)
    (eventually_atTop.mpr ⟨0, fun t ht => h3 t ht⟩) ?_
  have hk : 0 < low * Real.cos w.maximumDeviation := mul_pos hlow0 hcos
  have h4 : Tendsto (fun t : ℝ => Real.exp (-(low * Real.cos w.maximumDeviation * t))) atTop (𝓝 0) :=
    Real.tendsto_exp_neg_atTop_nhds_zero.comp (tendsto_id.const_mul_atTop hk)
  simpa using h4.const_mul ‖x 0 - w.attractor‖

/-! ## `CircularRotationDynamics` -/

lemma rotation_inner (c : CircularRotation) (p v : Vec 2) (h : c.evaluate p = .ok v) :
    ⟪v, p⟫ = c.constantVelocity * ‖p‖ * Real.cos (c.rotationWeight (c.base.symm p) * (Real.pi / 2)) := by
  by_cases hp : p = 0
  · subst hp; simp
  obtain ⟨s, hs⟩ : ∃ s : ℝ, s = if 0 ≤ c.direction then 1 else -1 := ⟨_, rfl⟩
  have he := circular_evaluate_eq c p hp s hs
  rw [h] at he
  cases he
  have hl : c.base.symm p ≠ 0 := by
    intro h; exact hp (by simpa using h)
  have hln : ‖c.base.symm p‖ = ‖p‖ := LinearIsometryEquiv.norm_map _ _
  set x := c.base.symm p with hx
  set w := c.rotationWeight x with hw
  have hcos : Real.cos (s * (w * (Real.pi / 2))) = Real.cos (w * (Real.pi / 2)) := by
    rw [hs]; split_ifs
    · rw [one_mul]
    · rw [neg_one_mul, Real.cos_neg]
  have hpx : p = c.base x := by rw [hx, LinearIsometryEquiv.apply_symm_apply]
  conv_lhs => rw [hpx]
  rw [← hln, LinearIsometryEquiv.inner_map_map, real_inner_smul_left]
  rw [rotate2_unit, real_inner_smul_left, rotate2_inner, hcos]
  have : ‖x‖ ≠ 0 := norm_ne_zero_iff.mpr hl
  field_simp

lemma rotation_weight_norm (c : CircularRotation) (p q : Vec 2) (h : ‖p‖ = ‖q‖) : c.rotationWeight p = c.rotationWeight q := by
  unfold CircularRotation.rotationWeight; rw [h]

/-- Away from the circle the radial part of the velocity is bounded away from zero. -/
lemma rotation_pull (c : CircularRotation) (hr : 0 < c.radius) (hi : 0 < c.insideFactor) (ho : 0 < c.outsideFactor)
    {η : ℝ} (hη : 0 < η) : ∃ δ > 0,
      (∀ p : Vec 2, c.radius ^ 2 + η ≤ ‖p‖ ^ 2 → Real.cos (c.rotationWeight p * (Real.pi / 2)) ≤ -δ)
      ∧ ∀ p : Vec 2, p ≠ 0 → ‖p‖ ^ 2 ≤ c.radius ^ 2 - η → δ ≤ Real.cos (c.rotationWeight p * (Real.pi / 2)) := by
  have hpi := Real.pi_pos
  obtain ⟨w1, w2, w3, w4⟩ := C51_weight c hr hi ho
  have hnorm : ∀ s : ℝ, 0 ≤ s → ‖EuclideanSpace.single (0 : Fin 2) s‖ = s := fun s hs => by
    rw [EuclideanSpace.norm_single, Real.norm_eq_abs, abs_of_nonneg hs]
  -- outside
  set a : Vec 2 := EuclideanSpace.single 0 √(c.radius ^ 2 + η) with ha
  have han : ‖a‖ = √(c.radius ^ 2 + η) := hnorm _ (Real.sqrt_nonneg _)
  have hra : c.radius < ‖a‖ := by
    rw [han]; exact Real.lt_sqrt_of_sq_lt (by linarith)
  have ha0 : a ≠ 0 := norm_ne_zero_iff.mp (hr.trans hra).ne'
  have hwa : 1 < c.rotationWeight a := by
    refine lt_of_le_of_ne (not_lt.mp fun h => ?_) fun h => ?_
    · have := (w3 a ha0).mp h; linarith
    · have := (w2 a ha0).mp h.symm; linarith
  have hca : Real.cos (c.rotationWeight a * (Real.pi / 2)) < 0 :=
    Real.cos_neg_of_pi_div_two_lt_of_lt (by nlinarith) (by nlinarith [(w1 a).2])
  have hout : ∀ p : Vec 2, c.radius ^ 2 + η ≤ ‖p‖ ^ 2 →
      Real.cos (c.rotationWeight p * (Real.pi / 2)) ≤ Real.cos (c.rotationWeight a * (Real.pi / 2)) := by
    intro p hp
    have h1 := w4 a p ha0 (by rw [han]; exact (Real.sqrt_le_left (norm_nonneg _)).mpr hp)
    refine Real.cos_le_cos_of_nonneg_of_le_pi (by nlinarith [(w1 a).1]) (by nlinarith [(w1 p).2]) (by nlinarith)
  by_cases hη2 : 0 < c.radius ^ 2 - η
  · set b : Vec 2 := EuclideanSpace.single 0 √(c.radius ^ 2 - η) with hb
    have hbn : ‖b‖ = √(c.radius ^ 2 - η) := hnorm _ (Real.sqrt_nonneg _)
    have hrb : ‖b‖ < c.radius := by
      rw [hbn]; exact (Real.sqrt_lt' hr).mpr (by linarith)
    have hb0 : b ≠ 0 := norm_ne_zero_iff.mp (by rw [hbn]; exact (Real.sqrt_pos.mpr hη2).ne')
    have hwb : c.rotationWeight b < 1 := (w3 b hb0).mpr hrb
    have hcb : 0 < Real.cos (c.rotationWeight b * (Real.pi / 2)) :=
      Real.cos_pos_of_mem_Ioo ⟨by nlinarith [(w1 b).1], by nlinarith⟩
    refine ⟨min (-Real.cos (c.rotationWeight a * (Real.pi / 2))) (Real.cos (c.rotationWeight b * (Real.pi / 2))),
      lt_min (by linarith) hcb, ?_, ?_⟩
    · intro p hp
      have := hout p hp
      have := min_le_left (-Real.cos (c.rotationWeight a * (Real.pi / 2))) (Real.cos (c.rotationWeight b * (Real.pi / 2)))
      linarith
    · intro p hp0 hp
      refine (min_le_right _ _).trans ?_
      have h1 := w4 p b hp0 (by rw [hbn]; exact Real.le_sqrt_of_sq_le hp)
      exact Real.cos_le_cos_of_nonneg_of_le_pi (by nlinarith [(w1 p).1]) (by nlinarith [(w1 b).2]) (by nlinarith)
  · refine ⟨-Real.cos (c.rotationWeight a * (Real.pi / 2)), by linarith, ?_, ?_⟩
    · intro p hp
      have := hout p hp
      linarith
    · intro p hp0 hp
      have := norm_pos_iff.mpr hp0
      nlinarith

/-- C117: along every trajectory of `CircularRotationDynamics` which does not start at the origin the distance to the circle
never grows, the trajectory stays on its side of the circle, and it converges to the circle. -/
theorem C117_rotation (c : CircularRotation) (hr : 0 < c.radius) (hi : 0 < c.insideFactor) (ho : 0 < c.outsideFactor)
    (hv : 0 < c.constantVelocity) {x : ℝ → Vec 2} (hx : Follows c.evaluate x) (h0 : x 0 ≠ 0) :
    AntitoneOn (fun t => |‖x t‖ ^ 2 - c.radius ^ 2|) (Ici 0)
    ∧ (c.radius ≤ ‖x 0‖ → ∀ t, 0 ≤ t → c.radius ≤ ‖x t‖)
    ∧ (‖x 0‖ ≤ c.radius → ∀ t, 0 ≤ t → ‖x t‖ ≤ c.radius)
    ∧ Tendsto (fun t => ‖x t‖) atTop (𝓝 c.radius) := by
  have hpi := Real.pi_pos
  obtain ⟨w1, w2, w3, w4⟩ := C51_weight c hr hi ho
  have hln : ∀ p : Vec 2, ‖c.base.symm p‖ = ‖p‖ := fun p => LinearIsometryEquiv.norm_map _ _
  set q : ℝ → ℝ := fun t => ‖x t‖ ^ 2 - c.radius ^ 2 with hq
  set q' : ℝ → ℝ := fun t =>
    2 * (c.constantVelocity * ‖x t‖ * Real.cos (c.rotationWeight (c.base.symm (x t)) * (Real.pi / 2))) with hq'
  have hder : ∀ t, 0 ≤ t → HasDerivWithinAt q (q' t) (Ici 0) t := by
    intro t ht
    obtain ⟨v, hv, hd⟩ := hx t ht
    refine (hd.norm_sq.sub_const (c.radius ^ 2)).congr_deriv ?_
    rw [real_inner_comm, rotation_inner c _ _ hv]
  have hder2 : ∀ t, 0 ≤ t → HasDerivWithinAt (fun t => q t ^ 2) (2 * q t * q' t) (Ici 0) t := fun t ht =>
    ((hder t ht).pow 2).congr_deriv (by norm_num)
  have hsign : ∀ t, 2 * q t * q' t ≤ 0 := by
    intro t
    by_cases hz : x t = 0
    · simp [hq', hz]
    have hz' : c.base.symm (x t) ≠ 0 := by intro h; exact hz (by simpa using h)
    have hn : 0 < ‖x t‖ := norm_pos_iff.mpr hz
    obtain ⟨hw0, hw2⟩ := w1 (c.base.symm (x t))
    have hA : 0 < c.constantVelocity * ‖x t‖ := mul_pos hv hn
    rcases lt_or_ge ‖x t‖ c.radius with h | h
    · have hw : c.rotationWeight (c.base.symm (x t)) < 1 := (w3 _ hz').mpr (by rw [hln]; exact h)
      have hc : 0 ≤ Real.cos (c.rotationWeight (c.base.symm (x t)) * (Real.pi / 2)) :=
        Real.cos_nonneg_of_neg_pi_div_two_le_of_le (by nlinarith) (by nlinarith)
      have h1 : q t ≤ 0 := by simp only [hq]; nlinarith
      have h2 : 0 ≤ q' t := by simp only [hq']; positivity
      nlinarith
    · have hw : 1 ≤ c.rotationWeight (c.base.symm (x t)) := by
        by_contra hc
        have := (w3 _ hz').mp (not_le.mp hc)
        rw [hln] at this; linarith
      have hc : Real.cos (c.rotationWeight (c.base.symm (x t)) * (Real.pi / 2)) ≤ 0 :=
        Real.cos_nonpos_of_pi_div_two_le_of_le (by nlinarith) (by nlinarith)
      have h1 : 0 ≤ q t := by simp only [hq]; nlinarith
      have h2 : q' t ≤ 0 := by
        simp only [hq']
        have := mul_nonpos_of_nonneg_of_nonpos hA.le hc
        linarith
      nlinarith
  have hanti2 := flow_antitone hder2 (fun t _ => hsign t)
  have hanti : AntitoneOn (fun t => |q t|) (Ici 0) := fun s hs t ht hst => sq_le_sq.mp (hanti2 hs ht hst)
  have hzero : ∀ s t, 0 ≤ s → s ≤ t → q s = 0 → q t = 0 := by
    intro s t hs hst h
    have := hanti (mem_Ici.mpr hs) (mem_Ici.mpr (hs.trans hst)) hst
    simp only [h, abs_zero] at this
    exact abs_eq_zero.mp (le_antisymm this (abs_nonneg _))
  have hcont : ContinuousOn q (Ici 0) := fun t ht => (hder t ht).continuousWithinAt
  have hout : 0 ≤ q 0 → ∀ t, 0 ≤ t → 0 ≤ q t := by
    intro h t ht
    by_contra hc
    push Not at hc
    obtain ⟨u, hu, h0⟩ := intermediate_value_Icc' ht (hcont.mono fun u hu => hu.1)
      (show (0 : ℝ) ∈ Icc _ _ from ⟨hc.le, h⟩)
    have := hzero u t hu.1 hu.2 h0
    linarith
  have hin : q 0 ≤ 0 → ∀ t, 0 ≤ t → q t ≤ 0 := by
    intro h t ht
    by_contra hc
    push Not at hc
    obtain ⟨u, hu, h0⟩ := intermediate_value_Icc ht (hcont.mono fun u hu => hu.1)
      (show (0 : ℝ) ∈ Icc _ _ from ⟨h, hc.le⟩)
    have := hzero u t hu.1 hu.2 h0
    linarith
  have hx0 : 0 < ‖x 0‖ := norm_pos_iff.mpr h0
  -- the distance from the origin is bounded below
  obtain ⟨m, hm, hmin⟩ : ∃ m > 0, ∀ t, 0 ≤ t → m ≤ ‖x t‖ := by
    rcases le_total 0 (q 0) with h | h
    · refine ⟨c.radius, hr, fun t ht => ?_⟩
      have := hout h t ht
      simp only [hq] at this
      exact (abs_le_of_sq_le_sq' (by linarith) (norm_nonneg _)).2
    · refine ⟨‖x 0‖, hx0, fun t ht => ?_⟩
      have h1 := hin h t ht
      have h2 := hanti (mem_Ici.mpr le_rfl) (mem_Ici.mpr ht) ht
      simp only [abs_of_nonpos h, abs_of_nonpos h1] at h2
      simp only [hq] at h2
      exact (abs_le_of_sq_le_sq' (by linarith) (norm_nonneg _)).2
  refine ⟨hanti, ?_, ?_, ?_⟩
  · intro h t ht
    have := hout (by simp only [hq]; nlinarith) t ht
    simp only [hq] at this
    exact (abs_le_of_sq_le_sq' (by linarith) (norm_nonneg _)).2
  · intro h t ht
    have := hin (by simp only [hq]; nlinarith) t ht
    simp only [hq] at this
    exact (abs_le_of_sq_le_sq' (by linarith) hr.le).2
  · have hlim := flow_arrives (f := fun t => q t ^ 2) (fun t _ => sq_nonneg _) hder2 (fun t _ => hsign t) (by
      intro ε hε
      obtain ⟨δ, hδ, hδo, hδi⟩ := rotation_pull c hr hi ho (Real.sqrt_pos.mpr hε)
      refine ⟨4 * √ε * (c.constantVelocity * m * δ), by positivity, fun t ht h => ?_⟩
      have hη : √ε ≤ |q t| := by
        rw [← Real.sqrt_sq_eq_abs]; exact Real.sqrt_le_sqrt h
      have hz : x t ≠ 0 := norm_pos_iff.mp (hm.trans_le (hmin t ht))
      have hz' : c.base.symm (x t) ≠ 0 := by intro h; exact hz (by simpa using h)
      have hA : c.constantVelocity * m ≤ c.constantVelocity * ‖x t‖ := mul_le_mul_of_nonneg_left (hmin t ht) hv.le
      have hA0 : 0 < c.constantVelocity * m := mul_pos hv hm
      have hs : 0 < √ε := Real.sqrt_pos.mpr hε
      rcases le_or_gt 0 (q t) with hs0 | hs0
      · rw [abs_of_nonneg hs0] at hη
        have h1 := hδo (c.base.symm (x t)) (by rw [hln]; simp only [hq] at hη; linarith)
        have h2 : q' t ≤ -(2 * (c.constantVelocity * m * δ)) := by
          simp only [hq']
          have h3 : c.constantVelocity * ‖x t‖ * Real.cos (c.rotationWeight (c.base.symm (x t)) * (Real.pi / 2))
              ≤ c.constantVelocity * ‖x t‖ * -δ := mul_le_mul_of_nonneg_left h1 (hA0.le.trans hA)
          nlinarith
        have h4 : 0 < c.constantVelocity * m * δ := by positivity
        nlinarith
      · rw [abs_of_neg hs0] at hη
        have h1 := hδi (c.base.symm (x t)) hz' (by rw [hln]; simp only [hq] at hη; linarith)
        have h2 : 2 * (c.constantVelocity * m * δ) ≤ q' t := by
          simp only [hq']
          have h3 := mul_le_mul hA h1 hδ.le (hA0.le.trans hA)
          linarith
        have h4 : 0 < c.constantVelocity * m * δ := by positivity
        nlinarith)
    have h1 : Tendsto (fun t => √(√(q t ^ 2) * 0 + (q t + c.radius ^ 2))) atTop (𝓝 √(√0 * 0 + (0 + c.radius ^ 2))) := by
      have h2 : Tendsto q atTop (𝓝 0) := by
        have := hlim.sqrt
        simp only [Real.sqrt_sq_eq_abs, Real.sqrt_zero] at this
        exact (tendsto_zero_iff_abs_tendsto_zero q).mpr this
      exact ((hlim.sqrt.mul_const 0).add (h2.add_const _)).sqrt
    simp only [mul_zero, zero_add, hq, sub_add_cancel, Real.sqrt_sq (norm_nonneg _), Real.sqrt_sq hr.le] at h1
    exact h1

end Verif
