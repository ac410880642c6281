import Verif.Model.VectorRotation
import Verif.Spec.Geometry
import Mathlib.Tactic.Module
import Mathlib.Tactic.LinearCombination
import Mathlib.Tactic.FieldSimp

/-! # Helper lemmas: the closed form of `rotate_direction` -/

open scoped RealInnerProductSpace
open Verif.Spec

namespace Verif

variable {V : Type*} [NormedAddCommGroup V] [InnerProductSpace ℝ V]

/-- Closed form of the plane rotation. -/
noncomputable def planeRot (B : Base V) (θ : ℝ) (v : V) : V :=
  v + ((Real.cos θ - 1) * ⟪B.b0, v⟫ - Real.sin θ * ⟪B.b1, v⟫) • B.b0
    + (Real.sin θ * ⟪B.b0, v⟫ + (Real.cos θ - 1) * ⟪B.b1, v⟫) • B.b1

lemma sqrt_cos_atan2 (x y : ℝ) : Real.sqrt (x ^ 2 + y ^ 2) * Real.cos (atan2 y x) = x := by
  have h := Complex.norm_mul_cos_arg ⟨x, y⟩
  have hn : ‖(⟨x, y⟩ : ℂ)‖ = Real.sqrt (x ^ 2 + y ^ 2) := by
    rw [Complex.norm_def, Complex.normSq_mk]; ring_nf
  rw [hn] at h
  exact h

lemma sqrt_sin_atan2 (x y : ℝ) : Real.sqrt (x ^ 2 + y ^ 2) * Real.sin (atan2 y x) = y := by
  have h := Complex.norm_mul_sin_arg ⟨x, y⟩
  have hn : ‖(⟨x, y⟩ : ℂ)‖ = Real.sqrt (x ^ 2 + y ^ 2) := by
    rw [Complex.norm_def, Complex.normSq_mk]; ring_nf
  rw [hn] at h
  exact h

lemma rot_core (b0 b1 u : V) (p0 p1 θ : ℝ) :
    Real.sqrt (p0 ^ 2 + p1 ^ 2) •
        (Real.cos (atan2 p1 p0 + θ) • b0 + Real.sin (atan2 p1 p0 + θ) • b1)
      + (u - (p0 • b0 + p1 • b1))
    = u + ((Real.cos θ - 1) * p0 - Real.sin θ * p1) • b0
        + (Real.sin θ * p0 + (Real.cos θ - 1) * p1) • b1 := by
  have hc := sqrt_cos_atan2 p0 p1
  have hs := sqrt_sin_atan2 p0 p1
  set s := Real.sqrt (p0 ^ 2 + p1 ^ 2)
  set α := atan2 p1 p0
  have h1 : s * Real.cos (α + θ) = p0 * Real.cos θ - p1 * Real.sin θ := by
    rw [Real.cos_add]; linear_combination Real.cos θ * hc - Real.sin θ * hs
  have h2 : s * Real.sin (α + θ) = p1 * Real.cos θ + p0 * Real.sin θ := by
    rw [Real.sin_add]; linear_combination Real.cos θ * hs + Real.sin θ * hc
  rw [smul_add, smul_smul, smul_smul, h1, h2]
  module

theorem rotateDirection_eq (v : V) (B : Base V) (θ : ℝ) :
    rotateDirection v B θ = planeRot B θ v := by
  unfold rotateDirection planeRot
  split_ifs with h
  · have : v = 0 := norm_eq_zero.mp h
    subst this; simp
  · simp only [rot_core, inner_smul_right]
    have h' : ‖v‖ * (1 / ‖v‖) = 1 := by field_simp
    rw [smul_add, smul_add, smul_smul, smul_smul, smul_smul, h', one_smul]
    congr 1
    · congr 2
      linear_combination ((Real.cos θ - 1) * ⟪B.b0, v⟫ - Real.sin θ * ⟪B.b1, v⟫) * h'
    · congr 1
      linear_combination (Real.sin θ * ⟪B.b0, v⟫ + (Real.cos θ - 1) * ⟪B.b1, v⟫) * h'

theorem rotateColumn_eq (v : V) (hv : v ≠ 0) (B : Base V) (θ : ℝ) :
    rotateColumn B θ v = some (planeRot B θ ((1 / ‖v‖) • v)) := by
  unfold rotateColumn planeRot
  have h : ‖v‖ ≠ 0 := norm_ne_zero_iff.mpr hv
  simp only [if_neg h, rot_core]

theorem rotateColumn_zero (B : Base V) (θ : ℝ) : rotateColumn B θ (0 : V) = none := by
  simp [rotateColumn]

/-- Orthonormality of a base. -/
abbrev Base.ON (B : Base V) : Prop := OrthonormalPair B.b0 B.b1

lemma Base.ON.i00 {B : Base V} (h : B.ON) : ⟪B.b0, B.b0⟫ = 1 := by
  rw [real_inner_self_eq_norm_sq, h.norm_fst]; norm_num
lemma Base.ON.i11 {B : Base V} (h : B.ON) : ⟪B.b1, B.b1⟫ = 1 := by
  rw [real_inner_self_eq_norm_sq, h.norm_snd]; norm_num
lemma Base.ON.i01 {B : Base V} (h : B.ON) : ⟪B.b0, B.b1⟫ = 0 := h.orth
lemma Base.ON.i10 {B : Base V} (h : B.ON) : ⟪B.b1, B.b0⟫ = 0 := by
  rw [real_inner_comm]; exact h.orth

lemma planeRot_zero_vec (B : Base V) (θ : ℝ) : planeRot B θ (0 : V) = 0 := by
  simp [planeRot]

@[simp] lemma planeRot_zero (B : Base V) (v : V) : planeRot B 0 v = v := by
  simp [planeRot]

lemma planeRot_add_vec (B : Base V) (θ : ℝ) (v w : V) :
    planeRot B θ (v + w) = planeRot B θ v + planeRot B θ w := by
  simp only [planeRot, inner_add_right]; module

lemma planeRot_smul (B : Base V) (θ : ℝ) (c : ℝ) (v : V) :
    planeRot B θ (c • v) = c • planeRot B θ v := by
  simp only [planeRot, inner_smul_right]; module

lemma planeRot_neg (B : Base V) (θ : ℝ) (v : V) :
    planeRot B θ (-v) = - planeRot B θ v := by
  simp only [planeRot, inner_neg_right]; module

lemma planeRot_sub (B : Base V) (θ : ℝ) (v w : V) :
    planeRot B θ (v - w) = planeRot B θ v - planeRot B θ w := by
  simp only [planeRot, inner_sub_right]; module

lemma planeRot_inner0 {B : Base V} (h : B.ON) (θ : ℝ) (v : V) :
    ⟪B.b0, planeRot B θ v⟫ = Real.cos θ * ⟪B.b0, v⟫ - Real.sin θ * ⟪B.b1, v⟫ := by
  simp only [planeRot, inner_add_right, inner_smul_right, h.i00, h.i01]; ring

lemma planeRot_inner1 {B : Base V} (h : B.ON) (θ : ℝ) (v : V) :
    ⟪B.b1, planeRot B θ v⟫ = Real.sin θ * ⟪B.b0, v⟫ + Real.cos θ * ⟪B.b1, v⟫ := by
  simp only [planeRot, inner_add_right, inner_smul_right, h.i11, h.i10]; ring

lemma planeRot_planeRot {B : Base V} (h : B.ON) (α β : ℝ) (v : V) :
    planeRot B β (planeRot B α v) = planeRot B (α + β) v := by
  conv_lhs => rw [planeRot]
  rw [planeRot_inner0 h, planeRot_inner1 h]
  simp only [planeRot, Real.cos_add, Real.sin_add]
  module

lemma planeRot_inner {B : Base V} (h : B.ON) (θ : ℝ) (v w : V) :
    ⟪planeRot B θ v, planeRot B θ w⟫ = ⟪v, w⟫ := by
  have hc : Real.sin θ ^ 2 + Real.cos θ ^ 2 = 1 := Real.sin_sq_add_cos_sq θ
  simp only [planeRot, inner_add_right, inner_add_left, inner_smul_right, inner_smul_left,
    h.i00, h.i11, h.i01, h.i10, RCLike.conj_to_real]
  rw [real_inner_comm B.b0 v, real_inner_comm B.b1 v]
  linear_combination (⟪B.b0, v⟫ * ⟪B.b0, w⟫ + ⟪B.b1, v⟫ * ⟪B.b1, w⟫) * hc

lemma planeRot_norm {B : Base V} (h : B.ON) (θ : ℝ) (v : V) : ‖planeRot B θ v‖ = ‖v‖ := by
  have := planeRot_inner h θ v v
  rw [real_inner_self_eq_norm_sq, real_inner_self_eq_norm_sq] at this
  exact (sq_eq_sq₀ (norm_nonneg _) (norm_nonneg _)).mp this

lemma planeRot_b0 {B : Base V} (h : B.ON) (θ : ℝ) :
    planeRot B θ B.b0 = Real.cos θ • B.b0 + Real.sin θ • B.b1 := by
  simp only [planeRot, h.i00, h.i10]; module

lemma planeRot_b1 {B : Base V} (h : B.ON) (θ : ℝ) :
    planeRot B θ B.b1 = (-Real.sin θ) • B.b0 + Real.cos θ • B.b1 := by
  simp only [planeRot, h.i11, h.i01]; module

lemma planeRot_orth (B : Base V) (θ : ℝ) (v : V) (h0 : ⟪B.b0, v⟫ = 0) (h1 : ⟪B.b1, v⟫ = 0) :
    planeRot B θ v = v := by
  simp [planeRot, h0, h1]

/-- Rotating a whole base. -/
noncomputable def Base.map (f : V → V) (B : Base V) : Base V := ⟨f B.b0, f B.b1⟩

lemma Base.ON.planeRot {A B : Base V} (hA : A.ON) (hB : B.ON) (θ : ℝ) :
    (B.map (planeRot A θ)).ON :=
  ⟨by simp [Base.map, planeRot_norm hA, hB.norm_fst],
   by simp [Base.map, planeRot_norm hA, hB.norm_snd],
   by simp [Base.map, planeRot_inner hA, hB.orth]⟩

lemma planeRot_add_two_pi (B : Base V) (θ : ℝ) (v : V) :
    planeRot B (θ + 2 * Real.pi) v = planeRot B θ v := by
  simp [planeRot]

end Verif
