import Verif.Props.SpiralCreate

/-!
# C151: spirals towards an attractor
-/

open scoped RealInnerProductSpace

namespace Verif.Flows

open Verif.Spec

/-- The velocity to the attractor is a positive multiple of the way to it. -/
lemma evaluateAttractor_eq (s : Spiral) (hs : 0 < s.speed) (p : Vec 3) :
    ∃ k : ℝ, 0 < k ∧ s.evaluateAttractor p = normalised s.speed
      ((!₂[s.circular.evaluate !₂[p 0, p 2] 0, 0, s.circular.evaluate !₂[p 0, p 2] 1] : Vec 3)
        + k • (s.pose.position - p)) := by
  unfold Spiral.evaluateAttractor
  by_cases h : ‖s.pose.position - p‖ > s.speed
  · refine ⟨s.speed / ‖s.pose.position - p‖, div_pos hs (hs.trans h), ?_⟩
    simp only
    rw [if_pos h]
  · refine ⟨1, one_pos, ?_⟩
    simp only
    rw [if_neg h, one_smul]

/-- C151: the spiral has the given speed, and its second coordinate approaches the one of the attractor: it rises below
the attractor, falls above it, and stays once it is at its height. -/
theorem C151_height (basis : Vec 3 → Vec 3 ≃ₗᵢ[ℝ] Vec 3) (attractor direction : Vec 3) (radius speed : ℝ)
    (hs : 0 < speed) (p v : Vec 3)
    (hv : (Spiral.createAttractorFromDirection basis attractor direction radius speed).evaluateAttractor p = .ok v) :
    ‖v‖ = speed ∧ (p 1 < attractor 1 → 0 < v 1) ∧ (attractor 1 < p 1 → v 1 < 0) ∧ (p 1 = attractor 1 → v 1 = 0) := by
  refine ⟨C50_spiral_speed _ hs.le p v (Or.inr hv), ?_⟩
  obtain ⟨k, hk, he⟩ := evaluateAttractor_eq (Spiral.createAttractorFromDirection basis attractor direction radius speed)
    hs p
  rw [he] at hv
  obtain ⟨hu, rfl⟩ := normalised_ok hv
  have hm := mul_pos hs (one_div_pos.mpr (norm_pos_iff.mpr hu))
  have e : ∀ m a b : ℝ, (m • ((!₂[a, 0, b] : Vec 3) + k • (attractor - p))) 1 = m * (k * (attractor 1 - p 1)) := by
    intro m a b
    simp
  rw [show (Spiral.createAttractorFromDirection basis attractor direction radius speed).pose.position = attractor from
    rfl, e]
  refine ⟨fun h => ?_, fun h => ?_, fun h => ?_⟩
  · exact mul_pos hm (mul_pos hk (by linarith))
  · exact mul_neg_of_pos_of_neg hm (mul_neg_of_pos_of_neg hk (by linarith))
  · rw [h, sub_self, mul_zero, mul_zero]

/-- C151, violated by the code: the direction the spiral is created from has no effect at all; the axis of the rotation
is always the second coordinate axis through the origin. -/
theorem C151_direction_ignored (basis basis' : Vec 3 → Vec 3 ≃ₗᵢ[ℝ] Vec 3) (attractor direction direction' : Vec 3)
    (radius speed : ℝ) (p : Vec 3) :
    (Spiral.createAttractorFromDirection basis attractor direction radius speed).evaluateAttractor p
      = (Spiral.createAttractorFromDirection basis' attractor direction' radius speed).evaluateAttractor p := rfl

/-- `C151_height` applies: three units above the attractor, on the axis. -/
example : ∃ v, (Spiral.createAttractorFromDirection (fun _ => .refl ℝ _) 0 !₂[0, 1, 0] 1 1).evaluateAttractor
    !₂[0, 3, 0] = .ok v ∧ v 1 < 0 := by
  have hc : (Spiral.createAttractorFromDirection (fun _ => .refl ℝ _) 0 !₂[0, 1, 0] 1 1).circular.evaluate
      (!₂[(!₂[0, 3, 0] : Vec 3) 0, (!₂[0, 3, 0] : Vec 3) 2]) = 0 := by
    have : (!₂[(!₂[0, 3, 0] : Vec 3) 0, (!₂[0, 3, 0] : Vec 3) 2] : Vec 2) = 0 := by
      ext i; fin_cases i <;> simp
    rw [this]
    exact (C51_stationary _ one_pos one_pos 0).mpr rfl
  have hne : ∃ v, (Spiral.createAttractorFromDirection (fun _ => .refl ℝ _) 0 !₂[0, 1, 0] 1 1).evaluateAttractor
      !₂[0, 3, 0] = .ok v := by
    obtain ⟨k, hk, he⟩ := evaluateAttractor_eq
      (Spiral.createAttractorFromDirection (fun _ => .refl ℝ _) 0 !₂[0, 1, 0] 1 1) one_pos !₂[0, 3, 0]
    rw [he, hc]
    unfold normalised
    rw [if_neg]
    · exact ⟨_, rfl⟩
    · rw [norm_eq_zero]
      intro h
      have := congrFun (congrArg (fun x : Vec 3 => x.ofLp) h) 1
      simp [Spiral.createAttractorFromDirection] at this
      exact hk.ne' this
  obtain ⟨v, hv⟩ := hne
  exact ⟨v, hv, (C151_height _ _ _ _ _ one_pos _ v hv).2.2.1 (by simp)⟩

end Verif.Flows
