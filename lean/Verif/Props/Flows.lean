import Verif.Model.Flows
import Verif.Props.Rotation

/-!
# C50, C51, C71, C72: wavy, circular and spiraling dynamics
-/

open scoped RealInnerProductSpace
open Verif.Spec

set_option linter.unusedSectionVars false

namespace Verif
open Flows

/-! ## Helpers: rotations of the plane -/

lemma rotate2_norm (t : ℝ) (v : Vec 2) : ‖rotate2 t v‖ = ‖v‖ := by
  rw [EuclideanSpace.norm_eq, EuclideanSpace.norm_eq]
  congr 1
  simp only [Fin.sum_univ_two, Real.norm_eq_abs, sq_abs, rotate2]
  have := Real.sin_sq_add_cos_sq t
  simp
  linear_combination (v 0 ^ 2 + v 1 ^ 2) * this

lemma vec2_inner (v w : Vec 2) : ⟪v, w⟫ = v 0 * w 0 + v 1 * w 1 := by
  rw [PiLp.inner_apply, Fin.sum_univ_two]
  simp [mul_comm]

lemma vec2_norm_sq (v : Vec 2) : ‖v‖ ^ 2 = v 0 ^ 2 + v 1 ^ 2 := by
  rw [← real_inner_self_eq_norm_sq, vec2_inner]; ring

lemma rotate2_inner (t : ℝ) (v : Vec 2) : ⟪rotate2 t v, v⟫ = Real.cos t * ‖v‖ ^ 2 := by
  rw [vec2_inner, vec2_norm_sq]; simp [rotate2]; ring

lemma rotate2_cross (t : ℝ) (v : Vec 2) :
    v 0 * rotate2 t v 1 - v 1 * rotate2 t v 0 = Real.sin t * ‖v‖ ^ 2 := by
  rw [vec2_norm_sq]; simp [rotate2]; ring

lemma rotate2_unit (t : ℝ) (v : Vec 2) : rotate2 t (unit v) = (1 / ‖v‖) • rotate2 t v := by
  unfold rotate2 unit
  ext i
  fin_cases i <;> simp <;> ring

/-! ## C50 -/

/-- C50: `WavyLinearDynamics.evaluate` has exactly the speed of the linear dynamics it bends; in
particular it is stationary exactly where these are, and respects their speed limit. -/
theorem C50_wavy_speed (w : Wavy) (p : Vec 2) :
    ‖w.evaluate p‖ = ‖w.linear p‖ ∧ (w.evaluate p = 0 ↔ w.linear p = 0) := by
  have h : ‖w.evaluate p‖ = ‖w.linear p‖ := rotate2_norm _ _
  exact ⟨h, by rw [← norm_eq_zero, h, norm_eq_zero]⟩

/-- C50: it never deviates from the linear dynamics by more than the maximum deviation. -/
theorem C50_wavy_deviation (w : Wavy) (hm : |w.maximumDeviation| ≤ Real.pi) (p : Vec 2)
    (hv : w.linear p ≠ 0) :
    InnerProductGeometry.angle (w.linear p) (w.evaluate p) ≤ |w.maximumDeviation| := by
  have hn : ‖w.linear p‖ ≠ 0 := norm_ne_zero_iff.mpr hv
  set t := Real.sin (‖p - w.attractor‖ * w.stretch) * w.maximumDeviation with ht
  have hb : |t| ≤ |w.maximumDeviation| := by
    rw [ht, abs_mul]
    calc _ ≤ 1 * |w.maximumDeviation| :=
          mul_le_mul_of_nonneg_right (Real.abs_sin_le_one _) (abs_nonneg _)
      _ = _ := one_mul _
  have he : w.evaluate p = rotate2 t (w.linear p) := rfl
  have hang : InnerProductGeometry.angle (w.linear p) (w.evaluate p) = |t| := by
    unfold InnerProductGeometry.angle
    rw [he, rotate2_norm, real_inner_comm, rotate2_inner,
      show Real.cos t * ‖w.linear p‖ ^ 2 / (‖w.linear p‖ * ‖w.linear p‖) = Real.cos t by
        field_simp, ← Real.cos_abs]
    exact Real.arccos_cos (abs_nonneg _) (hb.trans hm)
  rw [hang]; exact hb

/-- C50: if the linear dynamics point to the attractor and the maximum deviation is below a right
angle (as the default is), the wavy dynamics always come closer to the attractor. -/
theorem C50_wavy_converges (w : Wavy) (hm : |w.maximumDeviation| < Real.pi / 2) (p : Vec 2)
    (c : ℝ) (hc : 0 < c) (hlin : w.linear p = c • (w.attractor - p)) (hp : p ≠ w.attractor) :
    0 < ⟪w.evaluate p, w.attractor - p⟫ := by
  set t := Real.sin (‖p - w.attractor‖ * w.stretch) * w.maximumDeviation with ht
  have hb : |t| ≤ |w.maximumDeviation| := by
    rw [ht, abs_mul]
    calc _ ≤ 1 * |w.maximumDeviation| :=
          mul_le_mul_of_nonneg_right (Real.abs_sin_le_one _) (abs_nonneg _)
      _ = _ := one_mul _
  have he : w.evaluate p = rotate2 t (w.linear p) := rfl
  have h0 : w.attractor - p ≠ 0 := sub_ne_zero.mpr hp.symm
  have h1 := rotate2_inner t (w.linear p)
  rw [← he] at h1
  have hcos : 0 < Real.cos t := Real.cos_pos_of_mem_Ioo
    (by have := abs_lt.mp (hb.trans_lt hm); exact ⟨by linarith [this.1], this.2⟩)
  have h2 : 0 < ⟪w.evaluate p, w.linear p⟫ := by
    rw [h1]
    have : 0 < ‖w.linear p‖ := by
      rw [norm_pos_iff, hlin]; exact smul_ne_zero hc.ne' h0
    positivity
  rw [hlin, inner_smul_right] at h2
  exact (mul_pos_iff_of_pos_left hc).mp h2

/-- The default maximum deviation satisfies the hypothesis of `C50_wavy_converges`. -/
theorem C50_wavy_default (a : Vec 2) (l : Vec 2 → Vec 2) :
    |({ attractor := a, linear := l } : Wavy).maximumDeviation| < Real.pi / 2 := by
  have := Real.pi_pos
  change |Real.pi * 0.3| < _
  rw [abs_of_pos (by positivity)]; nlinarith

/-- The wavy theorems are not vacuous: a linear system towards the origin. -/
example : ∃ (w : Wavy) (p : Vec 2), |w.maximumDeviation| < Real.pi / 2 ∧ p ≠ w.attractor
    ∧ w.linear p = (1 : ℝ) • (w.attractor - p) :=
  ⟨{ attractor := 0, linear := fun p => (1 : ℝ) • (0 - p) }, !₂[1, 0], C50_wavy_default _ _,
    fun h => by simpa using congrArg (fun v : Vec 2 => v 0) h, rfl⟩

/-- C50: both spiraling dynamics have exactly the configured speed, or no value (`nan`) where
rotation and translation cancel. -/
theorem C50_spiral_speed (s : Spiral) (hs : 0 ≤ s.speed) (p v : Vec 3)
    (h : s.evaluate p = .ok v ∨ s.evaluateAttractor p = .ok v) : ‖v‖ = s.speed := by
  have key : ∀ x : Vec 3, normalised s.speed x = .ok v → ‖v‖ = s.speed := by
    intro x hx
    unfold normalised at hx
    by_cases h0 : ‖x‖ = 0
    · rw [if_pos h0] at hx; cases hx
    · rw [if_neg h0] at hx
      cases hx
      rw [norm_smul, norm_smul, Real.norm_eq_abs, abs_of_nonneg hs, norm_div, norm_one, norm_norm]
      field_simp
  rcases h with h | h
  · exact key _ h
  · exact key _ h

/-! ## C51: `SimpleCircularDynamics` -/

section Simple
variable {d : ℕ} [Fact (2 ≤ d)]
open SimpleCircular

lemma planarNorm_sq (x : Vec d) : planarNorm x ^ 2 = x i0 ^ 2 + x i1 ^ 2 :=
  Real.sq_sqrt (by positivity)

lemma planarNorm_nonneg (x : Vec d) : 0 ≤ planarNorm x := Real.sqrt_nonneg _

lemma grad_i0 (x : Vec d) : grad x i0 = x i0 / planarNorm x := by
  unfold grad
  split_ifs with h
  · simp [h]
  · simp [i0_ne_i1]

lemma grad_i1 (x : Vec d) : grad x i1 = x i1 / planarNorm x := by
  unfold grad
  split_ifs with h
  · simp [h]
  · simp [i0_ne_i1.symm]

lemma direction_i0 (c : SimpleCircular d) (x : Vec d) : c.direction x i0
    = -(x i1 / planarNorm x) - 1 / c.radius * c.phi x * (x i0 / planarNorm x) := by
  rw [← grad_i0, ← grad_i1]; simp [SimpleCircular.direction]

lemma direction_i1 (c : SimpleCircular d) (x : Vec d) : c.direction x i1
    = x i0 / planarNorm x - 1 / c.radius * c.phi x * (x i1 / planarNorm x) := by
  rw [← grad_i0, ← grad_i1]; simp [SimpleCircular.direction, i0_ne_i1.symm]

lemma direction_other (c : SimpleCircular d) (x : Vec d) (i : Fin d) (h0 : i ≠ i0) (h1 : i ≠ i1) :
    c.direction x i = -(x i / c.radius) := by
  simp [SimpleCircular.direction, h0, h1]; ring

lemma planar_div (x : Vec d) : x i0 * (x i0 / planarNorm x) + x i1 * (x i1 / planarNorm x)
    = planarNorm x := by
  by_cases h : planarNorm x = 0
  · rw [h]; simp
  · have := planarNorm_sq x
    field_simp
    linarith

lemma direction_cross (c : SimpleCircular d) (x : Vec d) :
    x i0 * c.direction x i1 - x i1 * c.direction x i0 = planarNorm x := by
  rw [direction_i0, direction_i1]
  linear_combination planar_div x

lemma direction_radial (c : SimpleCircular d) (x : Vec d) :
    x i0 * c.direction x i0 + x i1 * c.direction x i1 = -(1 / c.radius * c.phi x * planarNorm x) := by
  rw [direction_i0, direction_i1]
  linear_combination -(1 / c.radius * c.phi x) * planar_div x

lemma planar_zero {x : Vec d} (h : planarNorm x = 0) : x i0 = 0 ∧ x i1 = 0 := by
  have := planarNorm_sq x
  rw [h] at this
  constructor <;> nlinarith [sq_nonneg (x i0), sq_nonneg (x i1)]

lemma direction_ne_zero (c : SimpleCircular d) (hr : 0 < c.radius) {x : Vec d} (hx : x ≠ 0) :
    c.direction x ≠ 0 := by
  intro h
  have hρ : planarNorm x = 0 := by
    have := direction_cross c x
    rw [h] at this
    simpa using this.symm
  obtain ⟨h0, h1⟩ := planar_zero hρ
  apply hx
  ext i
  by_cases hi0 : i = i0
  · subst hi0; simpa using h0
  by_cases hi1 : i = i1
  · subst hi1; simpa using h1
  have := direction_other c x i hi0 hi1
  rw [h] at this
  have h2 : x i / c.radius = 0 := by
    have h3 : (0 : Vec d) i = 0 := rfl
    rw [h3] at this; linarith
  rcases div_eq_zero_iff.mp h2 with h3 | h3
  · simpa using h3
  · exact absurd h3 hr.ne'

/-- The speed of `SimpleCircularDynamics` at a position (distance `n` from the centre) as
documented: constant, slowed down towards the centre. -/
noncomputable def circularSpeed (c : SimpleCircular d) (n : ℝ) : ℝ :=
  open Classical in if n < c.radius / 3 then n / (c.radius / 3) * c.maximumVelocity else 1

lemma localVelocity_eq (c : SimpleCircular d) (hr : 0 < c.radius) {x : Vec d} (hx : x ≠ 0) :
    c.localVelocity x = (circularSpeed c ‖x‖ / ‖c.direction x‖) • c.direction x := by
  have hD : ‖c.direction x‖ ≠ 0 := norm_ne_zero_iff.mpr (direction_ne_zero c hr hx)
  unfold localVelocity circularSpeed
  simp only
  rw [if_neg (norm_ne_zero_iff.mpr hx), if_neg hD,
    show (1 : ℝ) / 3 * c.radius = c.radius / 3 by ring]
  by_cases h : ‖x‖ < c.radius / 3
  · rw [if_pos h, if_pos h, smul_smul]; congr 1; ring
  · rw [if_neg h, if_neg h]

lemma circularSpeed_pos (c : SimpleCircular d) (hr : 0 < c.radius) (hm : 0 < c.maximumVelocity)
    {n : ℝ} (hn : 0 < n) : 0 < circularSpeed c n := by
  unfold circularSpeed
  split_ifs
  · positivity
  · exact one_pos

/-- The coordinates of the position and of the velocity in the frame of the dynamics. -/
noncomputable def localPos (c : SimpleCircular d) (p : Vec d) : Vec d := c.pose.toRelative p

/-- The velocity in the frame of the dynamics. -/
noncomputable def localVel (c : SimpleCircular d) (p : Vec d) : Vec d :=
  c.pose.orientation.symm (c.evaluate p)

lemma localVel_eq (c : SimpleCircular d) (p : Vec d) :
    localVel c p = c.localVelocity (localPos c p) := by
  unfold localVel SimpleCircular.evaluate localPos
  rw [LinearIsometryEquiv.symm_apply_apply]

/-- C51: `SimpleCircularDynamics` always turns in the same (mathematically positive) sense around
its axis. -/
theorem C51_sense (c : SimpleCircular d) (hr : 0 < c.radius) (hm : 0 < c.maximumVelocity)
    (p : Vec d) (hp : localPos c p i0 ≠ 0 ∨ localPos c p i1 ≠ 0) :
    0 < localPos c p i0 * localVel c p i1 - localPos c p i1 * localVel c p i0 := by
  rw [localVel_eq]
  set x := localPos c p
  have hx : x ≠ 0 := by
    rintro h; rw [h] at hp; simp at hp
  have hρ : 0 < planarNorm x := by
    refine lt_of_le_of_ne (planarNorm_nonneg x) fun h => ?_
    obtain ⟨h0, h1⟩ := planar_zero h.symm
    rcases hp with h | h
    · exact h h0
    · exact h h1
  rw [localVelocity_eq c hr hx]
  have hD : 0 < ‖c.direction x‖ := norm_pos_iff.mpr (direction_ne_zero c hr hx)
  have hs := circularSpeed_pos c hr hm (norm_pos_iff.mpr hx)
  have := direction_cross c x
  simp only [PiLp.smul_apply, smul_eq_mul]
  have h2 : 0 < circularSpeed c ‖x‖ / ‖c.direction x‖ := by positivity
  calc (0 : ℝ) < circularSpeed c ‖x‖ / ‖c.direction x‖ * planarNorm x := by positivity
    _ = _ := by rw [← this]; ring

/-- C51: `SimpleCircularDynamics` moves away from its axis inside the circle, neither closer nor
away on the circle, and towards the axis outside. -/
theorem C51_attracted (c : SimpleCircular d) (hr : 0 < c.radius) (hm : 0 < c.maximumVelocity)
    (p : Vec d) (hp : localPos c p i0 ≠ 0 ∨ localPos c p i1 ≠ 0) :
    let radial := localPos c p i0 * localVel c p i0 + localPos c p i1 * localVel c p i1
    let distance := Real.sqrt (localPos c p i0 ^ 2 + localPos c p i1 ^ 2)
    (distance < c.radius → 0 < radial) ∧ (distance = c.radius → radial = 0)
      ∧ (c.radius < distance → radial < 0) := by
  intro radial distance
  have hrad : radial = localPos c p i0 * c.localVelocity (localPos c p) i0
      + localPos c p i1 * c.localVelocity (localPos c p) i1 := by rw [← localVel_eq]
  set x := localPos c p
  have hx : x ≠ 0 := by
    rintro h; rw [h] at hp; simp at hp
  have hdist : distance = planarNorm x := rfl
  have hρ : 0 < planarNorm x := by
    refine lt_of_le_of_ne (planarNorm_nonneg x) fun h => ?_
    obtain ⟨h0, h1⟩ := planar_zero h.symm
    rcases hp with h | h
    · exact h h0
    · exact h h1
  have hD : 0 < ‖c.direction x‖ := norm_pos_iff.mpr (direction_ne_zero c hr hx)
  have hs := circularSpeed_pos c hr hm (norm_pos_iff.mpr hx)
  have h2 : 0 < circularSpeed c ‖x‖ / ‖c.direction x‖ := by positivity
  have h3 : radial = -(circularSpeed c ‖x‖ / ‖c.direction x‖ * (1 / c.radius) * planarNorm x
      * c.phi x) := by
    rw [hrad, localVelocity_eq c hr hx]
    simp only [PiLp.smul_apply, smul_eq_mul]
    linear_combination (circularSpeed c ‖x‖ / ‖c.direction x‖) * direction_radial c x
  have h4 : 0 < circularSpeed c ‖x‖ / ‖c.direction x‖ * (1 / c.radius) * planarNorm x := by
    positivity
  have hsq := planarNorm_sq x
  rw [hdist, h3]
  refine ⟨fun h => ?_, fun h => ?_, fun h => ?_⟩
  · have hneg : x i0 ^ 2 + x i1 ^ 2 - c.radius ^ 2 < 0 := by rw [← hsq]; nlinarith
    have : c.phi x < 0 := by
      unfold phi; simp only; rw [if_neg (not_le.mpr hneg), neg_lt_zero]
      exact Real.sqrt_pos.mpr (abs_pos.mpr hneg.ne)
    nlinarith
  · have : c.phi x = 0 := by
      unfold phi; simp only; rw [← hsq, h]; simp
    rw [this]; simp
  · have hpos : 0 < x i0 ^ 2 + x i1 ^ 2 - c.radius ^ 2 := by rw [← hsq]; nlinarith
    have : 0 < c.phi x := by
      unfold phi; simp only; rw [if_pos hpos.le]
      exact Real.sqrt_pos.mpr (abs_pos.mpr hpos.ne')
    nlinarith

/-- C51: in three and more dimensions it also moves towards the plane of the circle. -/
theorem C51_plane (c : SimpleCircular d) (hr : 0 < c.radius) (hm : 0 < c.maximumVelocity)
    (p : Vec d) (i : Fin d) (h0 : i ≠ i0) (h1 : i ≠ i1) :
    (localPos c p i = 0 → localVel c p i = 0)
    ∧ (localPos c p i ≠ 0 → localPos c p i * localVel c p i < 0) := by
  rw [localVel_eq]
  set x := localPos c p
  by_cases hx : x = 0
  · have hv : c.localVelocity x = 0 := by
      unfold localVelocity; simp only; rw [if_pos (by simpa using hx)]
    rw [hv, hx]; simp
  · rw [localVelocity_eq c hr hx]
    have hD : 0 < ‖c.direction x‖ := norm_pos_iff.mpr (direction_ne_zero c hr hx)
    have hs := circularSpeed_pos c hr hm (norm_pos_iff.mpr hx)
    have h2 : 0 < circularSpeed c ‖x‖ / ‖c.direction x‖ := by positivity
    simp only [PiLp.smul_apply, smul_eq_mul]
    rw [direction_other c x i h0 h1]
    refine ⟨fun h => by rw [h]; simp, fun h => ?_⟩
    have h5 : 0 < x i ^ 2 / c.radius := by positivity
    have : x i * (circularSpeed c ‖x‖ / ‖c.direction x‖ * -(x i / c.radius))
        = -(circularSpeed c ‖x‖ / ‖c.direction x‖ * (x i ^ 2 / c.radius)) := by ring
    rw [this]; nlinarith

/-- C51: the speed is one away from the centre and decreases linearly to zero within a third of the
radius. -/
theorem C51_speed (c : SimpleCircular d) (hr : 0 < c.radius) (hm : 0 ≤ c.maximumVelocity)
    (p : Vec d) :
    (c.radius / 3 ≤ ‖p - c.pose.position‖ → ‖c.evaluate p‖ = 1)
    ∧ (‖p - c.pose.position‖ < c.radius / 3 →
        ‖c.evaluate p‖ = ‖p - c.pose.position‖ / (c.radius / 3) * c.maximumVelocity) := by
  have hn : ‖localPos c p‖ = ‖p - c.pose.position‖ := by
    unfold localPos Pose.toRelative; rw [LinearIsometryEquiv.norm_map]
  have hv : ‖c.evaluate p‖ = ‖c.localVelocity (localPos c p)‖ := by
    unfold SimpleCircular.evaluate localPos; rw [LinearIsometryEquiv.norm_map]
  rw [hv, ← hn]
  set x := localPos c p
  by_cases hx : x = 0
  · have hv : c.localVelocity x = 0 := by
      unfold localVelocity; simp only; rw [if_pos (by simpa using hx)]
    rw [hv, hx]
    simp only [norm_zero]
    exact ⟨fun h => by linarith, fun _ => by simp⟩
  · have hD : 0 < ‖c.direction x‖ := norm_pos_iff.mpr (direction_ne_zero c hr hx)
    have hsn : 0 ≤ circularSpeed c ‖x‖ := by
      unfold circularSpeed; split_ifs
      · positivity
      · exact zero_le_one
    have h1 : ‖c.localVelocity x‖ = circularSpeed c ‖x‖ := by
      rw [localVelocity_eq c hr hx, norm_smul, Real.norm_eq_abs, abs_of_nonneg (by positivity)]
      field_simp
    rw [h1]
    unfold circularSpeed
    exact ⟨fun h => if_neg (not_lt.mpr h), fun h => if_pos h⟩

/-- C51: the only stationary point is the centre. -/
theorem C51_stationary (c : SimpleCircular d) (hr : 0 < c.radius) (hm : 0 < c.maximumVelocity)
    (p : Vec d) : c.evaluate p = 0 ↔ p = c.pose.position := by
  obtain ⟨h1, h2⟩ := C51_speed c hr hm.le p
  rw [← norm_eq_zero (a := c.evaluate p)]
  constructor
  · intro h
    by_cases hn : c.radius / 3 ≤ ‖p - c.pose.position‖
    · rw [h1 hn] at h; norm_num at h
    · rw [h2 (not_le.mp hn)] at h
      have : ‖p - c.pose.position‖ = 0 := by
        by_contra h0
        have : 0 < ‖p - c.pose.position‖ := lt_of_le_of_ne (norm_nonneg _) (Ne.symm h0)
        have h3 : 0 < ‖p - c.pose.position‖ / (c.radius / 3) * c.maximumVelocity := by positivity
        linarith
      exact sub_eq_zero.mp (norm_eq_zero.mp this)
  · intro h
    subst h
    rw [h2 (by simpa using by positivity)]; simp

/-- C72: `SimpleCircularDynamics` move with their frame: placing the frame by a rigid motion and
evaluating at the moved position gives the turned velocity.  Missing: the other three classes, for which it
fails. -/
theorem C72_circular_moves_with_frame_partial (c : SimpleCircular d) (g : Pose d) (p : Vec d) :
    SimpleCircular.evaluate { c with pose := g.poseFromRelative c.pose } (g.fromRelative p)
      = g.orientation (c.evaluate p) := by
  unfold SimpleCircular.evaluate
  have h1 : ({ c with pose := g.poseFromRelative c.pose } : SimpleCircular d).pose.toRelative
      (g.fromRelative p) = c.pose.toRelative p := by
    unfold Pose.toRelative Pose.fromRelative Pose.poseFromRelative Pose.fromRelative
    simp only [add_sub_add_right_eq_sub]
    rw [← map_sub]
    change c.pose.orientation.symm (g.orientation.symm (g.orientation _)) = _
    rw [LinearIsometryEquiv.symm_apply_apply]
  rw [h1]
  have h2 : ∀ x, SimpleCircular.localVelocity { c with pose := g.poseFromRelative c.pose } x
      = c.localVelocity x := fun x => rfl
  rw [h2]; rfl

/-- C71: the speed of `SimpleCircularDynamics` stays within `maximum_velocity` if this is at
least one.  Missing from the full statement: smaller limits, which are not respected, see
`C71_exceeds`. -/
theorem C71_speed_limit_partial (c : SimpleCircular d) (hr : 0 < c.radius)
    (hm : 1 ≤ c.maximumVelocity) (p : Vec d) : ‖c.evaluate p‖ ≤ c.maximumVelocity := by
  obtain ⟨h1, h2⟩ := C51_speed c hr (by linarith) p
  by_cases hn : c.radius / 3 ≤ ‖p - c.pose.position‖
  · rw [h1 hn]; exact hm
  · rw [h2 (not_le.mp hn)]
    have : ‖p - c.pose.position‖ / (c.radius / 3) ≤ 1 := by
      rw [div_le_one (by positivity)]; exact (not_le.mp hn).le
    nlinarith

/-- C71: violated by the code: every `maximum_velocity` below one is exceeded everywhere outside a
third of the radius. -/
theorem C71_exceeds (c : SimpleCircular d) (hr : 0 < c.radius) (h0 : 0 ≤ c.maximumVelocity)
    (hm : c.maximumVelocity < 1) (p : Vec d) (hp : c.radius / 3 ≤ ‖p - c.pose.position‖) :
    c.maximumVelocity < ‖c.evaluate p‖ := by
  rw [(C51_speed c hr h0 p).1 hp]; exact hm

end Simple

/-- C51 and C71 are not vacuous: the unit circle, at a point outside it and off its plane. -/
example : ∃ (c : SimpleCircular 3) (p : Vec 3), 0 < c.radius ∧ 0 < c.maximumVelocity
    ∧ c.maximumVelocity < 1 ∧ c.radius / 3 ≤ ‖p - c.pose.position‖ ∧ localPos c p i0 ≠ 0
    ∧ localPos c p 2 ≠ 0 := by
  refine ⟨{ pose := .trivial, maximumVelocity := 1 / 2 }, !₂[2, 0, 1], one_pos, by norm_num,
    by norm_num, ?_, ?_, ?_⟩
  · have : (1 : ℝ) ≤ ‖(!₂[2, 0, 1] : Vec 3)‖ := by
      rw [EuclideanSpace.norm_eq]
      refine Real.one_le_sqrt.mpr ?_
      simp [Fin.sum_univ_three]
    simp only [Pose.trivial, sub_zero]; linarith
  · change (!₂[2, 0, 1] - 0 : Vec 3) 0 ≠ 0
    simp
  · change (!₂[2, 0, 1] - 0 : Vec 3) 2 ≠ 0
    simp

/-! ## C51: `CircularRotationDynamics` -/

lemma sigmoid_bounds (x : ℝ) : 0 < sigmoid x ∧ sigmoid x < 1 := by
  unfold sigmoid
  simp only
  split_ifs
  · norm_num
  · norm_num
  · constructor
    · exact lt_of_lt_of_le (by norm_num) (le_max_right _ _)
    · exact max_lt (lt_of_le_of_lt (min_le_right _ _) (by norm_num)) (by norm_num)

lemma logistic_mono {x y : ℝ} (h : x ≤ y) :
    1 / (1 + Real.exp ((-1) * (1 * x))) ≤ 1 / (1 + Real.exp ((-1) * (1 * y))) := by
  apply one_div_le_one_div_of_le (by positivity)
  have : Real.exp ((-1) * (1 * y)) ≤ Real.exp ((-1) * (1 * x)) := Real.exp_le_exp.mpr (by linarith)
  linarith

lemma sigmoid_mono {x y : ℝ} (h : x ≤ y) : sigmoid x ≤ sigmoid y := by
  unfold sigmoid
  simp only
  by_cases hx : 1 * x > 50
  · rw [if_pos hx, if_pos (by linarith)]
  rw [if_neg hx]
  by_cases hx2 : 1 * x < (-1) * 50
  · rw [if_pos hx2]
    split_ifs
    · norm_num
    · exact le_refl _
    · exact le_max_right _ _
  rw [if_neg hx2]
  by_cases hy : 1 * y > 50
  · rw [if_pos hy]
    exact max_le (min_le_right _ _) (by norm_num)
  · rw [if_neg hy, if_neg (by push Not at hx2 ⊢; linarith)]
    exact max_le_max (min_le_min (logistic_mono h) (le_refl _)) (le_refl _)

lemma sigmoid_zero : sigmoid 0 = 1 / 2 := by
  unfold sigmoid; simp; norm_num

lemma sigmoid_lt {x : ℝ} (h : x < 0) : sigmoid x < 1 / 2 := by
  unfold sigmoid
  simp only
  rw [if_neg (by linarith)]
  split_ifs with h2
  · norm_num
  · refine max_lt (lt_of_le_of_lt (min_le_left _ _) ?_) (by norm_num)
    rw [div_lt_div_iff_of_pos_left one_pos (by positivity) two_pos]
    have : 1 < Real.exp ((-1) * (1 * x)) := Real.one_lt_exp_iff.mpr (by linarith)
    linarith

lemma sigmoid_gt {x : ℝ} (h : 0 < x) : 1 / 2 < sigmoid x := by
  unfold sigmoid
  simp only
  by_cases hx : 1 * x > 50
  · rw [if_pos hx]; norm_num
  rw [if_neg hx, if_neg (by linarith)]
  refine lt_of_lt_of_le (lt_min ?_ (by norm_num)) (le_max_left _ _)
  rw [div_lt_div_iff_of_pos_left one_pos two_pos (by positivity)]
  have : Real.exp ((-1) * (1 * x)) < 1 := by
    have := Real.exp_lt_exp.mpr (show (-1) * (1 * x) < 0 by linarith)
    rwa [Real.exp_zero] at this
  linarith

namespace Flows

lemma distanceSurface_neg {c : CircularRotation} (hi : 0 < c.insideFactor)
    {n : ℝ} (hn : 0 < n) (h : n < c.radius) : c.distanceSurface n < 0 := by
  unfold CircularRotation.distanceSurface
  rw [if_pos h]
  have : 1 < c.radius / n := (one_lt_div hn).mpr h
  nlinarith

lemma distanceSurface_zero {c : CircularRotation} : c.distanceSurface c.radius = 0 := by
  unfold CircularRotation.distanceSurface
  rw [if_neg (lt_irrefl _)]; simp

lemma distanceSurface_pos {c : CircularRotation} (hr : 0 < c.radius) (ho : 0 < c.outsideFactor)
    {n : ℝ} (h : c.radius < n) : 0 < c.distanceSurface n := by
  unfold CircularRotation.distanceSurface
  rw [if_neg (not_lt.mpr h.le)]
  have : 0 < n - c.radius := by linarith
  positivity

lemma distanceSurface_mono {c : CircularRotation} (hr : 0 < c.radius) (ho : 0 ≤ c.outsideFactor)
    (hi : 0 ≤ c.insideFactor) {n m : ℝ} (hn : 0 < n) (h : n ≤ m) :
    c.distanceSurface n ≤ c.distanceSurface m := by
  unfold CircularRotation.distanceSurface
  by_cases hm : m < c.radius
  · rw [if_pos hm, if_pos (h.trans_lt hm)]
    apply mul_le_mul_of_nonneg_right _ hi
    have := div_le_div_of_nonneg_left hr.le hn h
    linarith
  rw [if_neg hm]
  have h1 : 0 ≤ (m - c.radius) * (1 / c.radius) * c.outsideFactor := by
    have : 0 ≤ m - c.radius := by linarith [not_lt.mp hm]
    positivity
  by_cases hn2 : n < c.radius
  · rw [if_pos hn2]
    have : 1 < c.radius / n := (one_lt_div hn).mpr hn2
    nlinarith
  · rw [if_neg hn2]
    apply mul_le_mul_of_nonneg_right _ ho
    apply mul_le_mul_of_nonneg_right _ (by positivity)
    linarith

end Flows

/-- C51: the rotation weight of `CircularRotationDynamics` lies in `]0, 2[`, is one exactly on the
circle, and never decreases with the distance from the centre. -/
theorem C51_weight (c : CircularRotation) (hr : 0 < c.radius) (hi : 0 < c.insideFactor)
    (ho : 0 < c.outsideFactor) :
    (∀ p, 0 < c.rotationWeight p ∧ c.rotationWeight p < 2)
    ∧ (∀ p, p ≠ 0 → (c.rotationWeight p = 1 ↔ ‖p‖ = c.radius))
    ∧ (∀ p, p ≠ 0 → (c.rotationWeight p < 1 ↔ ‖p‖ < c.radius))
    ∧ (∀ p q, p ≠ 0 → ‖p‖ ≤ ‖q‖ → c.rotationWeight p ≤ c.rotationWeight q) := by
  have low : ∀ p : Vec 2, p ≠ 0 → ‖p‖ < c.radius → c.rotationWeight p < 1 := fun p hp h => by
    have := sigmoid_lt (Flows.distanceSurface_neg hi (norm_pos_iff.mpr hp) h)
    unfold CircularRotation.rotationWeight; linarith
  have mid : ∀ p : Vec 2, ‖p‖ = c.radius → c.rotationWeight p = 1 := fun p h => by
    unfold CircularRotation.rotationWeight
    rw [h, Flows.distanceSurface_zero, sigmoid_zero]; norm_num
  have high : ∀ p : Vec 2, c.radius < ‖p‖ → 1 < c.rotationWeight p := fun p h => by
    have := sigmoid_gt (Flows.distanceSurface_pos hr ho h)
    unfold CircularRotation.rotationWeight; linarith
  refine ⟨fun p => ?_, fun p hp => ⟨fun h => ?_, mid p⟩, fun p hp => ⟨fun h => ?_, low p hp⟩,
    fun p q hp h => ?_⟩
  · have := sigmoid_bounds (c.distanceSurface ‖p‖)
    unfold CircularRotation.rotationWeight
    constructor <;> linarith [this.1, this.2]
  · rcases lt_trichotomy ‖p‖ c.radius with h1 | h1 | h1
    · have := low p hp h1; linarith
    · exact h1
    · have := high p h1; linarith
  · rcases lt_trichotomy ‖p‖ c.radius with h1 | h1 | h1
    · exact h1
    · have := mid p h1; linarith
    · have := high p h1; linarith
  · have := sigmoid_mono (Flows.distanceSurface_mono hr ho.le hi.le (norm_pos_iff.mpr hp) h)
    unfold CircularRotation.rotationWeight; linarith

lemma circular_rotation_eq (c : CircularRotation) (s : ℝ)
    (hs : s = if 0 ≤ c.direction then 1 else -1) :
    c.rotation = some ⟨⟨!₂[1, 0], !₂[0, s]⟩, Real.pi / 2⟩ := by
  have hss : s ^ 2 = 1 := by rw [hs]; split_ifs <;> norm_num
  have hu1 : ‖(!₂[1, 0] : Vec 2)‖ = 1 := by simp [EuclideanSpace.norm_eq]
  have hv1 : ‖(!₂[0, s] : Vec 2)‖ = 1 := by simp [EuclideanSpace.norm_eq, hss]
  have hu0 : (!₂[1, 0] : Vec 2) ≠ 0 := by intro h; rw [h] at hu1; simp at hu1
  have hv0 : (!₂[0, s] : Vec 2) ≠ 0 := by intro h; rw [h] at hv1; simp at hv1
  have hin : ⟪(!₂[1, 0] : Vec 2), !₂[0, s]⟫ = 0 := by rw [vec2_inner]; simp
  have hc : ¬ allclose (unit (!₂[1, 0] : Vec 2)) (unit !₂[0, s]) := by
    rw [unit_of_norm_one hu1, unit_of_norm_one hv1]
    intro h
    have := h 0
    simp [isclose] at this
    norm_num at this
  have ho : ¬ Opposite (!₂[1, 0] : Vec 2) !₂[0, s] := by
    rw [opposite_iff_inner hu0 hv0, unit_of_norm_one hu1, unit_of_norm_one hv1, hin]; norm_num
  unfold CircularRotation.rotation
  rw [← hs, fromDirections_far hu0 hv0 hc ho, unit_of_norm_one hu1, unit_of_norm_one hv1, hin,
    zero_smul, sub_zero, unit_of_norm_one hv1]
  congr 2
  unfold InnerProductGeometry.angle
  rw [hin]; simp

lemma circular_evaluate_eq (c : CircularRotation) (p : Vec 2) (hp : p ≠ 0) (s : ℝ)
    (hs : s = if 0 ≤ c.direction then 1 else -1) :
    c.evaluate p = .ok (c.base (c.constantVelocity •
      rotate2 (s * (c.rotationWeight (c.base.symm p) * (Real.pi / 2)))
        (unit (c.base.symm p)))) := by
  have hss : s ^ 2 = 1 := by rw [hs]; split_ifs <;> norm_num
  have hl : ‖c.base.symm p‖ ≠ 0 := by
    rw [LinearIsometryEquiv.norm_map]; exact norm_ne_zero_iff.mpr hp
  unfold CircularRotation.evaluate
  simp only
  rw [if_neg (norm_ne_zero_iff.mpr hp), if_neg hl, circular_rotation_eq c s hs]
  simp only
  rw [show (1 / ‖c.base.symm p‖) • c.base.symm p = unit (c.base.symm p) from rfl]
  congr 3
  unfold Rot.rotate
  rw [rotateDirection_eq]
  simp only
  set t := c.rotationWeight (c.base.symm p) * (Real.pi / 2)
  have hcos : Real.cos (s * t) = Real.cos t := by
    rw [hs]; split_ifs
    · rw [one_mul]
    · rw [neg_one_mul, Real.cos_neg]
  have hsin : Real.sin (s * t) = s * Real.sin t := by
    rw [hs]; split_ifs
    · rw [one_mul, one_mul]
    · rw [neg_one_mul, Real.sin_neg]; ring
  unfold planeRot rotate2
  rw [hcos, hsin]
  simp only [vec2_inner]
  ext i
  fin_cases i
  · simp; ring
  · simp
    linear_combination (Real.cos t - 1) * (unit (c.base.symm p)) 1 * hss

/-- C51: `CircularRotationDynamics` have constant speed, move away from the origin inside the
circle, along the circle on it, and towards the origin outside; they always turn in the configured
sense (in the frame of `base_matrix`). -/
theorem C51_rotation (c : CircularRotation) (hr : 0 < c.radius) (hi : 0 < c.insideFactor)
    (ho : 0 < c.outsideFactor) (hv : 0 < c.constantVelocity) (p : Vec 2) (hp : p ≠ 0) :
    ∃ v, c.evaluate p = .ok v ∧ ‖v‖ = c.constantVelocity
      ∧ (‖p‖ < c.radius → 0 < ⟪v, p⟫) ∧ (‖p‖ = c.radius → ⟪v, p⟫ = 0)
      ∧ (c.radius < ‖p‖ → ⟪v, p⟫ < 0)
      ∧ (0 ≤ c.direction →
          0 < (c.base.symm p) 0 * (c.base.symm v) 1 - (c.base.symm p) 1 * (c.base.symm v) 0)
      ∧ (c.direction < 0 →
          (c.base.symm p) 0 * (c.base.symm v) 1 - (c.base.symm p) 1 * (c.base.symm v) 0 < 0) := by
  obtain ⟨s, hs⟩ : ∃ s : ℝ, s = if 0 ≤ c.direction then 1 else -1 := ⟨_, rfl⟩
  have hl : c.base.symm p ≠ 0 := by
    intro h; exact hp (by simpa using h)
  have hln : ‖c.base.symm p‖ = ‖p‖ := LinearIsometryEquiv.norm_map _ _
  have hpn : 0 < ‖p‖ := norm_pos_iff.mpr hp
  obtain ⟨w1, w2, w3, _⟩ := C51_weight c hr hi ho
  set x := c.base.symm p with hx
  set w := c.rotationWeight x with hw
  obtain ⟨hw0, hw2⟩ := w1 x
  have hpi := Real.pi_pos
  have hcos : Real.cos (s * (w * (Real.pi / 2))) = Real.cos (w * (Real.pi / 2)) := by
    rw [hs]; split_ifs
    · rw [one_mul]
    · rw [neg_one_mul, Real.cos_neg]
  have hsin : Real.sin (s * (w * (Real.pi / 2))) = s * Real.sin (w * (Real.pi / 2)) := by
    rw [hs]; split_ifs
    · rw [one_mul, one_mul]
    · rw [neg_one_mul, Real.sin_neg]; ring
  have hsinpos : 0 < Real.sin (w * (Real.pi / 2)) :=
    Real.sin_pos_of_pos_of_lt_pi (by positivity) (by nlinarith)
  refine ⟨_, circular_evaluate_eq c p hp s hs, ?_, ?_⟩
  · rw [LinearIsometryEquiv.norm_map, norm_smul, rotate2_norm, unit_norm hl, Real.norm_eq_abs,
      abs_of_pos hv, mul_one]
  have hinner : ⟪c.base (c.constantVelocity • rotate2 (s * (w * (Real.pi / 2))) (unit x)), p⟫
      = c.constantVelocity * ‖p‖ * Real.cos (w * (Real.pi / 2)) := by
    have hpx : p = c.base x := by rw [hx, LinearIsometryEquiv.apply_symm_apply]
    conv_lhs => rw [hpx]
    rw [← hln, LinearIsometryEquiv.inner_map_map, real_inner_smul_left]
    rw [rotate2_unit, real_inner_smul_left, rotate2_inner, hcos]
    have : ‖x‖ ≠ 0 := norm_ne_zero_iff.mpr hl
    field_simp
  have hcross : (c.base.symm p) 0 * (c.base.symm (c.base (c.constantVelocity •
        rotate2 (s * (w * (Real.pi / 2))) (unit x)))) 1
      - (c.base.symm p) 1 * (c.base.symm (c.base (c.constantVelocity •
        rotate2 (s * (w * (Real.pi / 2))) (unit x)))) 0
      = s * (c.constantVelocity * ‖p‖ * Real.sin (w * (Real.pi / 2))) := by
    rw [LinearIsometryEquiv.symm_apply_apply, ← hx, rotate2_unit]
    simp only [PiLp.smul_apply, smul_eq_mul]
    have h := rotate2_cross (s * (w * (Real.pi / 2))) x
    rw [hsin, hln] at h
    rw [hln]
    have h2 : 1 / ‖p‖ * ‖p‖ ^ 2 = ‖p‖ := by field_simp
    linear_combination c.constantVelocity * (1 / ‖p‖) * h
      + c.constantVelocity * s * Real.sin (w * (Real.pi / 2)) * h2
  rw [hinner, hcross]
  have hA : 0 < c.constantVelocity * ‖p‖ := by positivity
  refine ⟨fun h => ?_, fun h => ?_, fun h => ?_, fun h => ?_, fun h => ?_⟩
  · have : w < 1 := (w3 x hl).mpr (by rw [hln]; exact h)
    exact mul_pos hA (Real.cos_pos_of_mem_Ioo ⟨by nlinarith, by nlinarith⟩)
  · have : w = 1 := (w2 x hl).mpr (by rw [hln]; exact h)
    rw [this]; simp
  · have h1 : ¬ w < 1 := fun h1 => by have := (w3 x hl).mp h1; rw [hln] at this; linarith
    have h2 : w ≠ 1 := fun h1 => by have := (w2 x hl).mp h1; rw [hln] at this; linarith
    have h3 : 1 < w := lt_of_le_of_ne (not_lt.mp h1) h2.symm
    exact mul_neg_of_pos_of_neg hA
      (Real.cos_neg_of_pi_div_two_lt_of_lt (by nlinarith) (by nlinarith))
  · rw [hs, if_pos h]; have := mul_pos hA hsinpos; linarith
  · rw [hs, if_neg (not_le.mpr h)]; have := mul_pos hA hsinpos; linarith

/-- C51: at the origin `CircularRotationDynamics` are stationary. -/
theorem C51_rotation_origin (c : CircularRotation) : c.evaluate 0 = .ok 0 := by
  unfold CircularRotation.evaluate; simp

/-- `C51_rotation` is not vacuous: the default dynamics. -/
example : ∃ c : CircularRotation, 0 < c.radius ∧ 0 < c.insideFactor ∧ 0 < c.outsideFactor
    ∧ 0 < c.constantVelocity :=
  ⟨{}, one_pos, one_pos, one_pos, one_pos⟩

/-! ## C72: dynamics move with their frame -/

/-- C72: violated by `CircularRotationDynamics`: the pose has no effect at all, so that the
dynamics do not move with it: they circulate around the origin wherever they are placed. -/
theorem C72_rotation_ignores_pose (c : CircularRotation) (hv : 0 < c.constantVelocity)
    (hr : 0 < c.radius) (hi : 0 < c.insideFactor) (ho : 0 < c.outsideFactor) :
    (∀ (q : Pose 2) (p : Vec 2), ({ c with pose := q } : CircularRotation).evaluate p = c.evaluate p)
    ∧ ∃ (g : Pose 2) (p : Vec 2),
      (∃ v, c.evaluate p = .ok v
        ∧ ({ c with pose := g.poseFromRelative c.pose } : CircularRotation).evaluate
            (g.fromRelative p) ≠ .ok (g.orientation v)) := by
  refine ⟨fun _ _ => rfl, ⟨!₂[1, 0], .refl ℝ _⟩, 0, 0, C51_rotation_origin c, ?_⟩
  have h0 : (!₂[1, 0] : Vec 2) ≠ 0 := fun h => by simpa using congrArg (fun v : Vec 2 => v 0) h
  have h1 : (⟨!₂[1, 0], .refl ℝ _⟩ : Pose 2).fromRelative 0 = !₂[1, 0] := by
    unfold Pose.fromRelative; simp
  rw [h1]
  obtain ⟨v, h2, h3, _⟩ := C51_rotation c hr hi ho hv !₂[1, 0] h0
  change c.evaluate _ ≠ _
  rw [h2, map_zero]
  intro h
  rw [Except.ok.inj h] at h3
  simp at h3; linarith

/-- A spiral along the first axis, with its centre at distance `t` along the third axis. -/
noncomputable def spiralAt (t : ℝ) : Spiral where
  pose := ⟨!₂[0, 0, t], .refl ℝ _⟩
  direction := !₂[1, 0, 0]
  circular := { pose := .trivial }

/-- C72: violated by `SpiralingDynamics3D`: the same spiral moved by three units returns, at the
moved position, a different velocity. -/
theorem C72_spiral_not_translation_invariant :
    (spiralAt 0).evaluate !₂[0, 0, 0] = .ok !₂[1, 0, 0]
    ∧ (spiralAt 3).evaluate !₂[0, 0, 3] ≠ .ok !₂[1, 0, 0] := by
  have hz : ∀ t, (spiralAt t).circular.evaluate (tail3 ((spiralAt t).pose.toRelative !₂[0, 0, t]))
      = 0 := by
    intro t
    have h1 : (spiralAt t).pose.toRelative !₂[0, 0, t] = 0 := by
      unfold Pose.toRelative spiralAt; simp
    rw [h1, show tail3 0 = 0 by unfold tail3; ext i; fin_cases i <;> simp]
    exact (C51_stationary (spiralAt t).circular one_pos one_pos 0).mpr rfl
  have hval : ∀ t, (spiralAt t).evaluate !₂[0, 0, t] = normalised 1 !₂[1, 0, t] := by
    intro t
    unfold Spiral.evaluate
    simp only [hz]
    congr 1
    unfold Pose.fromRelative spiralAt hstack0
    change !₂[0, (0 : Vec 2) 0, (0 : Vec 2) 1] + !₂[0, 0, t] + !₂[1, 0, 0] = _
    ext i; fin_cases i <;> simp
  constructor
  · rw [hval 0]
    have hn : ‖(!₂[1, 0, 0] : Vec 3)‖ = 1 := by simp [EuclideanSpace.norm_eq, Fin.sum_univ_three]
    unfold normalised
    rw [if_neg (by rw [hn]; norm_num), hn]; simp
  · rw [hval 3]
    have hn : ‖(!₂[1, 0, 3] : Vec 3)‖ ≠ 0 := by
      rw [norm_ne_zero_iff]; intro h; have := congrArg (fun v : Vec 3 => v 0) h; simp at this
    unfold normalised
    rw [if_neg hn]
    intro h
    have := congrArg (fun v : Vec 3 => v 2) (Except.ok.inj h)
    simp at this

/-- C72: violated by `SpiralingAttractorDynamics3D`: they are never stationary at their attractor
(for a positive speed) - the velocity has the full speed or no value. -/
theorem C72_spiral_attractor_not_stationary (s : Spiral) (hs : 0 < s.speed) :
    s.evaluateAttractor s.pose.position ≠ .ok 0 := by
  intro h
  have := C50_spiral_speed s hs.le s.pose.position 0 (Or.inr h)
  simp at this; linarith

/-! ## C73: the moving base of `DynamicDynamics` -/

/-- C73: the base is carried along fully by positions within the radius of influence, not at all
from twice the radius on, and in between with a weight in `]0, 1]` that falls with the distance and
joins both ends. -/
theorem C73_weight {d : ℕ} (m : MovingBase d) (hr : 0 < m.influenceRadius)
    (hf : m.decentFactor = 2) (p : Vec d) :
    (‖p - m.base‖ ≤ m.influenceRadius → m.weight p = some 1)
    ∧ (2 * m.influenceRadius ≤ ‖p - m.base‖ → m.weight p = none)
    ∧ (‖p - m.base‖ < 2 * m.influenceRadius →
        ∃ w, m.weight p = some w ∧ 0 < w ∧ w ≤ 1
          ∧ (m.influenceRadius ≤ ‖p - m.base‖ → w = 2 - ‖p - m.base‖ / m.influenceRadius)) := by
  unfold MovingBase.weight
  simp only
  rw [hf]
  set n := ‖p - m.base‖
  have key : m.influenceRadius ≤ n →
      (2 * m.influenceRadius - n) / ((2 - 1) * m.influenceRadius) = 2 - n / m.influenceRadius :=
    fun _ => by field_simp; ring
  refine ⟨fun h => ?_, fun h => ?_, fun h => ?_⟩
  · by_cases h1 : n < m.influenceRadius
    · rw [if_pos h1]
    · have : n = m.influenceRadius := le_antisymm h (not_lt.mp h1)
      rw [if_neg h1, if_pos (by linarith), key (by linarith), this, div_self hr.ne']; norm_num
  · rw [if_neg (by linarith), if_neg (by linarith)]
  · by_cases h1 : n < m.influenceRadius
    · exact ⟨1, if_pos h1, one_pos, le_refl _, fun h => by linarith⟩
    · have h2 := not_lt.mp h1
      refine ⟨_, by rw [if_neg h1, if_pos (by linarith)], ?_, ?_, key⟩ <;> rw [key h2]
      · have : n / m.influenceRadius < 2 := by rw [div_lt_iff₀ hr]; linarith
        linarith
      · have : 1 ≤ n / m.influenceRadius := by rwa [le_div_iff₀ hr, one_mul]
        linarith

/-- C73: a call moves the base by the weighted velocity of the base over one time step, or not at
all; the radius of influence and the dynamics of the base do not change. -/
theorem C73_update {d : ℕ} (m : MovingBase d) (p : Vec d) :
    (m.updateBase p).1.base
      = m.base + ((m.weight p).getD 0 * m.timeStep) • m.baseVelocity m.base
    ∧ (m.updateBase p).1.influenceRadius = m.influenceRadius
    ∧ (m.updateBase p).1.baseVelocity = m.baseVelocity := by
  unfold MovingBase.updateBase
  cases h : m.weight p with
  | none => simp
  | some w => simp [add_comm]

/-- C73: violated by the code: every call that moves the base ends in the debugger. -/
theorem C73_stops {d : ℕ} (m : MovingBase d) (hr : 0 < m.influenceRadius)
    (hf : m.decentFactor = 2) (p : Vec d) :
    (m.updateBase p).2 = .error .breakpoint ↔ ‖p - m.base‖ < 2 * m.influenceRadius := by
  obtain ⟨_, h2, h3⟩ := C73_weight m hr hf p
  unfold MovingBase.updateBase
  constructor
  · intro h
    by_contra hn
    rw [h2 (not_lt.mp hn)] at h
    cases h
  · intro h
    obtain ⟨w, hw, _⟩ := h3 h
    rw [hw]

/-- C73 is not vacuous: the default parameters. -/
example : ∃ m : MovingBase 2, 0 < m.influenceRadius ∧ m.decentFactor = 2 :=
  ⟨{ base := 0, baseVelocity := fun _ => 0 }, two_pos, rfl⟩

end Verif
