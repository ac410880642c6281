import Verif.Spec.Planar
import Verif.Lemmas.TreeResult

/-! # Helper lemmas: rotations in the plane -/

open Verif.Spec
open scoped RealInnerProductSpace

set_option linter.unusedSectionVars false

namespace Verif

open Spec.RootedTree (lev)

instance factTwoTwo : Fact (2 ≤ 2) := ⟨le_refl 2⟩

lemma turnBy_add (α β : ℝ) (v : Vec 2) : turnBy α (turnBy β v) = turnBy (α + β) v := by
  ext i
  fin_cases i <;> simp [turnBy, Real.cos_add, Real.sin_add] <;> ring

@[simp] lemma turnBy_zero (v : Vec 2) : turnBy 0 v = v := by
  ext i; fin_cases i <;> simp [turnBy]

lemma norm_sq_two (v : Vec 2) : ‖v‖ ^ 2 = v 0 ^ 2 + v 1 ^ 2 := by
  rw [EuclideanSpace.norm_sq_eq]; simp [Fin.sum_univ_two]

lemma inner_two (v w : Vec 2) : ⟪v, w⟫ = v 0 * w 0 + v 1 * w 1 := by
  simp [PiLp.inner_apply, Fin.sum_univ_two]; ring

lemma turnBy_norm (θ : ℝ) (v : Vec 2) : ‖turnBy θ v‖ = ‖v‖ := by
  have h : ‖turnBy θ v‖ ^ 2 = ‖v‖ ^ 2 := by
    rw [norm_sq_two, norm_sq_two]
    simp only [turnBy, PiLp.toLp_apply, Matrix.cons_val_zero, Matrix.cons_val_one]
    have := Real.sin_sq_add_cos_sq θ
    linear_combination (v 0 ^ 2 + v 1 ^ 2) * this
  exact (sq_eq_sq₀ (norm_nonneg _) (norm_nonneg _)).mp h

/-- The sign of a planar base: `1` if it is counter-clockwise. -/
noncomputable def baseSign (B : Base (Vec 2)) : ℝ := B.b0 0 * B.b1 1 - B.b0 1 * B.b1 0

lemma Base.ON.coords {B : Base (Vec 2)} (h : B.ON) :
    B.b0 0 ^ 2 + B.b0 1 ^ 2 = 1 ∧ B.b1 0 ^ 2 + B.b1 1 ^ 2 = 1
      ∧ B.b0 0 * B.b1 0 + B.b0 1 * B.b1 1 = 0 := by
  refine ⟨?_, ?_, ?_⟩
  · rw [← norm_sq_two, h.norm_fst]; norm_num
  · rw [← norm_sq_two, h.norm_snd]; norm_num
  · rw [← inner_two]; exact h.orth

lemma Base.ON.second {B : Base (Vec 2)} (h : B.ON) :
    B.b1 0 = - (baseSign B * B.b0 1) ∧ B.b1 1 = baseSign B * B.b0 0 := by
  obtain ⟨h1, h2, h3⟩ := h.coords
  unfold baseSign
  constructor
  · linear_combination (- B.b1 0) * h1 + B.b0 0 * h3
  · linear_combination (- B.b1 1) * h1 + B.b0 1 * h3

lemma Base.ON.sign {B : Base (Vec 2)} (h : B.ON) : baseSign B = 1 ∨ baseSign B = -1 := by
  obtain ⟨h1, h2, h3⟩ := h.coords
  have : baseSign B ^ 2 = 1 := by
    unfold baseSign
    linear_combination (B.b1 0 ^ 2 + B.b1 1 ^ 2) * h1 + h2
      - (B.b0 0 * B.b1 0 + B.b0 1 * B.b1 1) * h3
  rcases sq_eq_sq_iff_eq_or_eq_neg.mp (this.trans (one_pow 2).symm) with e | e
  · exact Or.inl e
  · exact Or.inr e

/-- In the plane every plane rotation is a rotation. -/
lemma planeRot_two {B : Base (Vec 2)} (h : B.ON) (θ : ℝ) (v : Vec 2) :
    planeRot B θ v = turnBy (baseSign B * θ) v := by
  obtain ⟨h1, _, _⟩ := h.coords
  obtain ⟨h4, h5⟩ := h.second
  have hc : Real.cos (baseSign B * θ) = Real.cos θ := by
    rcases h.sign with e | e <;> rw [e] <;> simp
  have hs : Real.sin (baseSign B * θ) = baseSign B * Real.sin θ := by
    rcases h.sign with e | e <;> rw [e] <;> simp
  have hq : baseSign B ^ 2 = 1 := by rcases h.sign with e | e <;> rw [e] <;> norm_num
  have c0 : planeRot B θ v 0 = v 0 + ((Real.cos θ - 1) * (B.b0 0 * v 0 + B.b0 1 * v 1)
      - Real.sin θ * (B.b1 0 * v 0 + B.b1 1 * v 1)) * B.b0 0
      + (Real.sin θ * (B.b0 0 * v 0 + B.b0 1 * v 1)
      + (Real.cos θ - 1) * (B.b1 0 * v 0 + B.b1 1 * v 1)) * B.b1 0 := by
    unfold planeRot; rw [inner_two, inner_two]; simp
  have c1 : planeRot B θ v 1 = v 1 + ((Real.cos θ - 1) * (B.b0 0 * v 0 + B.b0 1 * v 1)
      - Real.sin θ * (B.b1 0 * v 0 + B.b1 1 * v 1)) * B.b0 1
      + (Real.sin θ * (B.b0 0 * v 0 + B.b0 1 * v 1)
      + (Real.cos θ - 1) * (B.b1 0 * v 0 + B.b1 1 * v 1)) * B.b1 1 := by
    unfold planeRot; rw [inner_two, inner_two]; simp
  ext i
  fin_cases i
  · change planeRot B θ v 0 = turnBy (baseSign B * θ) v 0
    rw [c0, h4, h5]
    simp only [turnBy, PiLp.toLp_apply, Matrix.cons_val_zero, hc, hs]
    generalize baseSign B = s at *
    linear_combination ((Real.cos θ - 1) * v 0 - s * Real.sin θ * v 1) * h1
      + ((Real.cos θ - 1) * (B.b0 1 ^ 2 * v 0 - B.b0 0 * B.b0 1 * v 1)) * hq
  · change planeRot B θ v 1 = turnBy (baseSign B * θ) v 1
    rw [c1, h4, h5]
    simp only [turnBy, PiLp.toLp_apply, Matrix.cons_val_one, Matrix.cons_val_zero, hc, hs]
    generalize baseSign B = s at *
    linear_combination ((Real.cos θ - 1) * v 1 + s * Real.sin θ * v 0) * h1
      + ((Real.cos θ - 1) * (B.b0 0 ^ 2 * v 1 - B.b0 0 * B.b0 1 * v 0)) * hq

lemma baseSign_map (B A : Base (Vec 2)) (hA : A.ON) (θ : ℝ) :
    baseSign (B.map (planeRot A θ)) = baseSign B := by
  unfold baseSign Base.map
  simp only [planeRot_two hA, turnBy, PiLp.toLp_apply, Matrix.cons_val_one, Matrix.cons_val_zero]
  generalize baseSign A * θ = φ
  have := Real.sin_sq_add_cos_sq φ
  linear_combination (B.b0 0 * B.b1 1 - B.b0 1 * B.b1 0) * this

/-- Rotations by angles less than `π` are determined by the image of one direction. -/
lemma turnBy_inj {α β : ℝ} (hα : |α| < Real.pi) (hβ : |β| < Real.pi) {v : Vec 2} (hv : ‖v‖ = 1)
    (h : turnBy α v = turnBy β v) : α = β := by
  have hn := norm_sq_two v
  rw [hv] at hn
  have h0 := congrArg (fun y : Vec 2 => y 0) h
  have h1 := congrArg (fun y : Vec 2 => y 1) h
  simp only [turnBy, PiLp.toLp_apply, Matrix.cons_val_one, Matrix.cons_val_zero] at h0 h1
  have hc : Real.cos α = Real.cos β := by
    linear_combination v 0 * h0 + v 1 * h1 + (Real.cos α - Real.cos β) * hn
  have hs : Real.sin α = Real.sin β := by
    linear_combination v 0 * h1 - v 1 * h0 + (Real.sin α - Real.sin β) * hn
  have hd : Real.cos (α - β) = 1 := by
    rw [Real.cos_sub, hc, hs]; nlinarith [Real.sin_sq_add_cos_sq β]
  have h2 := abs_lt.mp hα
  have h3 := abs_lt.mp hβ
  have := (Real.cos_eq_one_iff_of_lt_of_lt (by linarith [h2.1, h3.2]) (by linarith [h2.2, h3.1])).mp hd
  linarith

end Verif
