import Verif.Model.SpiralCreate
import Verif.Props.Flows

/-!
# C150: spirals along a direction
-/

open scoped RealInnerProductSpace

namespace Verif.Spec

/-- The part of the position across the axis through the origin with the direction `axis`. -/
noncomputable def acrossAxis (axis p : Vec 3) : Vec 3 := p - (⟪p, axis⟫ / ‖axis‖ ^ 2) • axis

/-- The contract of the external orthogonal basis: its first vector is the normalized direction. -/
def FirstAxis (basis : Vec 3 → Vec 3 ≃ₗᵢ[ℝ] Vec 3) (direction : Vec 3) : Prop :=
  basis direction !₂[1, 0, 0] = (1 / ‖direction‖) • direction

end Verif.Spec

namespace Verif.Flows

open Verif.Spec

/-! ### Helpers -/

lemma normalised_ok {speed : ℝ} {u v : Vec 3} (h : normalised speed u = .ok v) :
    u ≠ 0 ∧ v = (speed * (1 / ‖u‖)) • u := by
  unfold normalised at h
  split_ifs at h with h0
  cases h
  exact ⟨fun hu => h0 (by simp [hu]), by rw [smul_smul]⟩

lemma symm_axis {basis : Vec 3 → Vec 3 ≃ₗᵢ[ℝ] Vec 3} {direction : Vec 3} (hd : direction ≠ 0)
    (hb : FirstAxis basis direction) : (basis direction).symm direction = ‖direction‖ • !₂[1, 0, 0] := by
  have hn : ‖direction‖ ≠ 0 := norm_ne_zero_iff.mpr hd
  rw [LinearIsometryEquiv.symm_apply_eq, map_smul, hb, smul_smul, mul_one_div_cancel hn, one_smul]

lemma rotating_axis {basis : Vec 3 → Vec 3 ≃ₗᵢ[ℝ] Vec 3} {direction : Vec 3} (hd : direction ≠ 0)
    (hb : FirstAxis basis direction) (w : Vec 2) : ⟪basis direction (hstack0 w), direction⟫ = 0 := by
  rw [LinearIsometryEquiv.inner_map_eq_flip, symm_axis hd hb, inner_smul_right]
  simp [hstack0, PiLp.inner_apply, Fin.sum_univ_three]

/-! ### C150 -/

/-- C150: the motion along the direction of the spiral has the same sign everywhere; it depends on where the centre
is. -/
theorem C150_progress (basis : Vec 3 → Vec 3 ≃ₗᵢ[ℝ] Vec 3) (center direction : Vec 3) (hd : direction ≠ 0)
    (hb : FirstAxis basis direction) (radius speed : ℝ) (hs : 0 < speed) (p v : Vec 3)
    (hv : (Spiral.createFromDirection basis center direction radius speed).evaluate p = .ok v) :
    (0 < ⟪v, direction⟫ ↔ 0 < ⟪center, direction⟫ + ‖direction‖ ^ 2)
    ∧ (⟪v, direction⟫ < 0 ↔ ⟪center, direction⟫ + ‖direction‖ ^ 2 < 0) := by
  unfold Spiral.evaluate at hv
  obtain ⟨hu, rfl⟩ := normalised_ok hv
  set w := (Spiral.createFromDirection basis center direction radius speed).circular.evaluate
    (tail3 ((Spiral.createFromDirection basis center direction radius speed).pose.toRelative p)) with hw
  have hk : 0 < speed * (1 / ‖(Spiral.createFromDirection basis center direction radius speed).pose.fromRelative
      (hstack0 w) + (Spiral.createFromDirection basis center direction radius speed).direction‖) :=
    mul_pos hs (one_div_pos.mpr (norm_pos_iff.mpr hu))
  have he : ⟪(Spiral.createFromDirection basis center direction radius speed).pose.fromRelative
      (hstack0 w) + (Spiral.createFromDirection basis center direction radius speed).direction, direction⟫
      = ⟪center, direction⟫ + ‖direction‖ ^ 2 := by
    change ⟪basis direction (hstack0 w) + center + direction, direction⟫ = _
    rw [inner_add_left, inner_add_left, rotating_axis hd hb, real_inner_self_eq_norm_sq, zero_add]
  rw [inner_smul_left, he]
  simp only [conj_trivial]
  constructor
  · exact mul_pos_iff_of_pos_left hk
  · constructor
    · intro h
      by_contra h'
      exact absurd h (not_lt.mpr (mul_nonneg hk.le (not_lt.mp h')))
    · exact fun h => mul_neg_of_pos_of_neg hk h

/-- C150: a spiral around an axis through the origin works everywhere, has the given speed and moves forward along its
direction.  Across the axis it approaches the cylinder with the given radius: away from the axis inside, along the
cylinder on it, towards the axis outside. -/
theorem C150_cylinder (basis : Vec 3 → Vec 3 ≃ₗᵢ[ℝ] Vec 3) (direction : Vec 3) (hd : direction ≠ 0)
    (hb : FirstAxis basis direction) (radius speed : ℝ) (hr : 0 < radius) (hs : 0 < speed) (p : Vec 3) :
    ∃ v, (Spiral.createFromDirection basis 0 direction radius speed).evaluate p = .ok v ∧ ‖v‖ = speed
      ∧ 0 < ⟪v, direction⟫
      ∧ (acrossAxis direction p ≠ 0 →
        (‖acrossAxis direction p‖ < radius → 0 < ⟪v, acrossAxis direction p⟫)
        ∧ (‖acrossAxis direction p‖ = radius → ⟪v, acrossAxis direction p⟫ = 0)
        ∧ (radius < ‖acrossAxis direction p‖ → ⟪v, acrossAxis direction p⟫ < 0)) := by
  set R := basis direction with hR
  set x := R.symm p with hx
  set c : SimpleCircular 2 := { pose := .trivial, radius := radius } with hc
  set w := c.evaluate (tail3 x) with hw
  set u := R (hstack0 w) + direction with hu
  have hdn : ‖direction‖ ≠ 0 := norm_ne_zero_iff.mpr hd
  have hsym := symm_axis hd hb
  rw [← hR] at hsym
  have hud : ⟪u, direction⟫ = ‖direction‖ ^ 2 := by
    rw [hu, inner_add_left, rotating_axis hd hb, real_inner_self_eq_norm_sq, zero_add]
  have hu0 : u ≠ 0 := by
    intro h
    rw [h, inner_zero_left] at hud
    exact hdn (pow_eq_zero_iff two_ne_zero |>.mp hud.symm)
  have hun : 0 < ‖u‖ := norm_pos_iff.mpr hu0
  have hk : 0 < speed * (1 / ‖u‖) := mul_pos hs (one_div_pos.mpr hun)
  have hev : (Spiral.createFromDirection basis 0 direction radius speed).evaluate p
      = .ok ((speed * (1 / ‖u‖)) • u) := by
    unfold Spiral.evaluate
    have e1 : (Spiral.createFromDirection basis 0 direction radius speed).pose.toRelative p = x := by
      change R.symm (p - 0) = _
      rw [sub_zero]
    have e2 : (Spiral.createFromDirection basis 0 direction radius speed).pose.fromRelative (hstack0 w) + direction
        = u := by
      change R (hstack0 w) + 0 + direction = _
      rw [add_zero]
    simp only
    rw [e1]
    change normalised speed
      ((Spiral.createFromDirection basis 0 direction radius speed).pose.fromRelative (hstack0 w) + direction) = _
    rw [e2]
    unfold normalised
    rw [if_neg hun.ne', smul_smul]
  have hacross : R.symm (acrossAxis direction p) = !₂[0, x 1, x 2] := by
    have hin : ⟪p, direction⟫ = ‖direction‖ * x 0 := by
      rw [← R.symm.inner_map_map p direction, hsym, ← hx, inner_smul_right]
      simp [PiLp.inner_apply, Fin.sum_univ_three]
    unfold acrossAxis
    rw [map_sub, map_smul, hsym, ← hx, hin, smul_smul]
    have : ‖direction‖ * x 0 / ‖direction‖ ^ 2 * ‖direction‖ = x 0 := by field_simp
    rw [this]
    ext i
    fin_cases i <;> simp
  have hnorm : ‖acrossAxis direction p‖ = Real.sqrt (x 1 ^ 2 + x 2 ^ 2) := by
    rw [← R.symm.norm_map, hacross, EuclideanSpace.norm_eq]
    simp [Fin.sum_univ_three]
  have hinner : ⟪(speed * (1 / ‖u‖)) • u, acrossAxis direction p⟫
      = speed * (1 / ‖u‖) * (x 1 * w 0 + x 2 * w 1) := by
    rw [inner_smul_left, conj_trivial]
    congr 1
    rw [← R.symm.inner_map_map u, hacross, hu, map_add, LinearIsometryEquiv.symm_apply_apply, hsym]
    simp [hstack0, PiLp.inner_apply, Fin.sum_univ_three]
  refine ⟨_, hev, ?_, ?_, ?_⟩
  · rw [norm_smul, Real.norm_of_nonneg hk.le, mul_assoc, one_div, inv_mul_cancel₀ hun.ne', mul_one]
  · rw [inner_smul_left, conj_trivial, hud]
    positivity
  · intro hne
    have lp : localPos c (tail3 x) = tail3 x := by
      change tail3 x - 0 = tail3 x
      rw [sub_zero]
    have l0 : localPos c (tail3 x) i0 = x 1 := by rw [lp]; rfl
    have l1 : localPos c (tail3 x) i1 = x 2 := by rw [lp]; rfl
    have v0 : localVel c (tail3 x) i0 = w 0 := rfl
    have v1 : localVel c (tail3 x) i1 = w 1 := rfl
    have hp : localPos c (tail3 x) i0 ≠ 0 ∨ localPos c (tail3 x) i1 ≠ 0 := by
      by_contra hcon
      push Not at hcon
      apply hne
      rw [l0, l1] at hcon
      rw [← norm_eq_zero, hnorm]
      simp [hcon.1, hcon.2]
    obtain ⟨a1, a2, a3⟩ := C51_attracted c hr one_pos (tail3 x) hp
    rw [l0, l1, v0, v1] at a1 a2 a3
    rw [hinner, hnorm]
    exact ⟨fun h => mul_pos hk (a1 h), fun h => by rw [a2 h, mul_zero], fun h => mul_neg_of_pos_of_neg hk (a3 h)⟩

/-- C150, violated by the code: a spiral around a centre behind the origin moves backwards, at every position, because
the centre is added to the velocity. -/
theorem C150_backwards (basis : Vec 3 → Vec 3 ≃ₗᵢ[ℝ] Vec 3) (direction : Vec 3) (hd : direction ≠ 0)
    (hb : FirstAxis basis direction) (radius speed : ℝ) (hs : 0 < speed) (p v : Vec 3)
    (hv : (Spiral.createFromDirection basis ((-2 : ℝ) • direction) direction radius speed).evaluate p = .ok v) :
    ⟪v, direction⟫ < 0 := by
  refine (C150_progress basis _ direction hd hb radius speed hs p v hv).2.mpr ?_
  rw [inner_smul_left, real_inner_self_eq_norm_sq]
  have : 0 < ‖direction‖ ^ 2 := pow_pos (norm_pos_iff.mpr hd) 2
  simp only [conj_trivial]
  linarith

/-- `C150_cylinder` applies: the first axis with the standard basis, the cylinder with radius two. -/
example : ∃ v, (Spiral.createFromDirection (fun _ => .refl ℝ _) 0 !₂[1, 0, 0] 2 1).evaluate !₂[5, 2, 0] = .ok v
    ∧ 0 < ⟪v, !₂[1, 0, 0]⟫ := by
  have hn : ‖(!₂[1, 0, 0] : Vec 3)‖ = 1 := by
    rw [EuclideanSpace.norm_eq]; simp [Fin.sum_univ_three]
  obtain ⟨v, h1, -, h2, -⟩ := C150_cylinder (fun _ => .refl ℝ _) !₂[1, 0, 0]
    (by intro h; rw [h, norm_zero] at hn; exact zero_ne_one hn)
    (by unfold FirstAxis; rw [hn]; simp) 2 1 two_pos one_pos !₂[5, 2, 0]
  exact ⟨v, h1, h2⟩

end Verif.Flows
