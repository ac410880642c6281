import Verif.Lemmas.Rotation

/-! # Helper lemmas: `from_directions` -/

open scoped RealInnerProductSpace
open Verif.Spec

set_option linter.unusedSectionVars false
set_option linter.unusedSimpArgs false

namespace Verif

section
variable {V : Type*} [NormedAddCommGroup V] [InnerProductSpace ℝ V]

lemma unit_norm {v : V} (hv : v ≠ 0) : ‖unit v‖ = 1 := by
  have h : ‖v‖ ≠ 0 := norm_ne_zero_iff.mpr hv
  rw [unit, norm_smul, Real.norm_eq_abs, abs_of_pos (by positivity)]; field_simp

lemma unit_ne_zero {v : V} (hv : v ≠ 0) : unit v ≠ 0 := by
  intro h; have := unit_norm hv; rw [h] at this; simp at this

lemma unit_of_norm_one {v : V} (hv : ‖v‖ = 1) : unit v = v := by simp [unit, hv]

lemma unit_unit {v : V} (hv : v ≠ 0) : unit (unit v) = unit v := unit_of_norm_one (unit_norm hv)

lemma norm_smul_unit (v : V) : ‖v‖ • unit v = v := by
  by_cases hv : v = 0
  · simp [hv, unit]
  · have h : ‖v‖ ≠ 0 := norm_ne_zero_iff.mpr hv
    rw [unit, smul_smul]; field_simp; simp

lemma inner_unit_unit_eq_cos {u v : V} :
    ⟪unit u, unit v⟫ = Real.cos (InnerProductGeometry.angle u v) := by
  rw [InnerProductGeometry.cos_angle, unit, unit, inner_smul_left, inner_smul_right]
  simp only [RCLike.conj_to_real]
  by_cases hu : ‖u‖ = 0
  · simp [hu]
  by_cases hv : ‖v‖ = 0
  · simp [hv]
  field_simp

lemma inner_unit_bounds (u v : V) : -1 ≤ ⟪unit u, unit v⟫ ∧ ⟪unit u, unit v⟫ ≤ 1 := by
  rw [inner_unit_unit_eq_cos]; exact ⟨Real.neg_one_le_cos _, Real.cos_le_one _⟩

lemma norm_perp_sq {a b : V} (ha : ‖a‖ = 1) (hb : ‖b‖ = 1) :
    ‖b - ⟪a, b⟫ • a‖ ^ 2 = 1 - ⟪a, b⟫ ^ 2 := by
  rw [← real_inner_self_eq_norm_sq]
  simp only [inner_sub_left, inner_sub_right, inner_smul_left, inner_smul_right,
    RCLike.conj_to_real, real_inner_self_eq_norm_sq, ha, hb]
  rw [real_inner_comm a b]; ring

lemma inner_perp {a b : V} (ha : ‖a‖ = 1) : ⟪a, b - ⟪a, b⟫ • a⟫ = 0 := by
  simp only [inner_sub_right, inner_smul_right, real_inner_self_eq_norm_sq, ha]; ring

lemma eq_of_inner_eq_one {a b : V} (ha : ‖a‖ = 1) (hb : ‖b‖ = 1) (h : ⟪a, b⟫ = 1) : a = b :=
  (inner_eq_one_iff_of_norm_eq_one ha hb).mp h

lemma opposite_iff_inner {u v : V} (hu : u ≠ 0) (hv : v ≠ 0) :
    Opposite u v ↔ ⟪unit u, unit v⟫ = -1 := by
  have hu' : 0 < ‖u‖ := norm_pos_iff.mpr hu
  have hv' : 0 < ‖v‖ := norm_pos_iff.mpr hv
  constructor
  · rintro ⟨c, hc, rfl⟩
    rw [unit, unit, norm_smul, inner_smul_left, inner_smul_right, inner_smul_right,
      real_inner_self_eq_norm_sq]
    simp only [RCLike.conj_to_real, Real.norm_eq_abs, abs_neg, abs_of_pos hc]
    field_simp
  · intro h
    have h2 : ⟪-unit u, unit v⟫ = 1 := by rw [inner_neg_left, h]; ring
    have h3 := eq_of_inner_eq_one (by rw [norm_neg, unit_norm hu]) (unit_norm hv) h2
    refine ⟨‖v‖ / ‖u‖, by positivity, ?_⟩
    calc v = ‖v‖ • unit v := (norm_smul_unit v).symm
      _ = ‖v‖ • (-unit u) := by rw [h3]
      _ = (-(‖v‖ / ‖u‖)) • u := by
        rw [unit, ← neg_smul, smul_smul]; congr 1; ring

lemma opposite_unit_iff {u v : V} (hu : u ≠ 0) (hv : v ≠ 0) :
    Opposite (unit u) (unit v) ↔ Opposite u v := by
  rw [opposite_iff_inner hu hv, opposite_iff_inner (unit_ne_zero hu) (unit_ne_zero hv),
    unit_unit hu, unit_unit hv]

end

variable {d : ℕ} [h2 : Fact (2 ≤ d)]

lemma allclose_refl (a : Vec d) : allclose a a := by
  intro i; unfold isclose; simp only [sub_self, abs_zero]; positivity

lemma i0_ne_i1 : (i0 : Fin d) ≠ i1 := by simp [i0, i1]

lemma parallelPerp_norm (v : Vec d) : ‖parallelPerp v‖ = 1 := by
  unfold parallelPerp
  split_ifs with h
  · simp
  · set n := Real.sqrt ((v i1) ^ 2 + (v i0 * (-1)) ^ 2) with hn
    have hnz : n ≠ 0 := by
      rw [hn]; intro h'; apply h
      have : v i0 ^ 2 + v i1 ^ 2 = (v i1) ^ 2 + (v i0 * (-1)) ^ 2 := by ring
      rw [this]; exact h'
    have hsq : n ^ 2 = (v i1) ^ 2 + (v i0 * (-1)) ^ 2 := Real.sq_sqrt (by positivity)
    have : ‖(EuclideanSpace.single i0 (v i1 / n)
        + EuclideanSpace.single i1 (v i0 * (-1) / n) : Vec d)‖ ^ 2 = 1 := by
      rw [← real_inner_self_eq_norm_sq]
      simp only [inner_add_left, inner_add_right, EuclideanSpace.inner_single_left,
        RCLike.conj_to_real]
      simp [PiLp.single_apply, i0_ne_i1, i0_ne_i1.symm]
      field_simp; rw [hsq]; ring
    have h3 : ‖(EuclideanSpace.single i0 (v i1 / n)
        + EuclideanSpace.single i1 (v i0 * (-1) / n) : Vec d)‖ = 1 := by
      have h0 := norm_nonneg (EuclideanSpace.single i0 (v i1 / n)
        + EuclideanSpace.single i1 (v i0 * (-1) / n) : Vec d)
      nlinarith
    exact h3

lemma parallelPerp_orth (v : Vec d) : ⟪v, parallelPerp v⟫ = 0 := by
  unfold parallelPerp
  split_ifs with h
  · have : v i0 ^ 2 + v i1 ^ 2 = 0 := (Real.sqrt_eq_zero (by positivity)).mp h
    have h0 : v i0 = 0 := by nlinarith [sq_nonneg (v i0), sq_nonneg (v i1)]
    rw [EuclideanSpace.inner_single_right]; simp [h0]
  · simp only [inner_add_right, EuclideanSpace.inner_single_right, RCLike.conj_to_real]
    ring

open Classical in
/-- The three cases of `fromDirections`, with clean expressions. -/
lemma fromDirections_close {u v : Vec d} (hu : u ≠ 0) (hv : v ≠ 0)
    (hc : allclose (unit u) (unit v)) :
    fromDirections u v =
      some ⟨⟨unit u, parallelPerp (unit u)⟩, InnerProductGeometry.angle u v⟩ := by
  have hb := inner_unit_bounds u v
  unfold fromDirections
  rw [if_neg (by simp [hu, hv])]
  change (if allclose (unit u) (unit v) then _ else _) = _
  rw [if_pos hc]
  change some (⟨⟨unit u, parallelPerp (unit u)⟩,
    Real.arccos (min (max ⟪unit u, unit v⟫ (-1)) 1)⟩ : Rot (Vec d)) = _
  rw [max_eq_left hb.1, min_eq_left hb.2, inner_unit_unit_eq_cos,
    Real.arccos_cos (InnerProductGeometry.angle_nonneg _ _) (InnerProductGeometry.angle_le_pi _ _)]

open Classical in
lemma fromDirections_far {u v : Vec d} (hu : u ≠ 0) (hv : v ≠ 0)
    (hc : ¬ allclose (unit u) (unit v)) (ho : ¬ Opposite u v) :
    fromDirections u v =
      some ⟨⟨unit u, unit (unit v - ⟪unit u, unit v⟫ • unit u)⟩,
        InnerProductGeometry.angle u v⟩ := by
  have hb := inner_unit_bounds u v
  have hp : ‖unit v - ⟪unit u, unit v⟫ • unit u‖ ≠ 0 := by
    intro h0
    have h1 := norm_perp_sq (unit_norm hu) (unit_norm hv)
    rw [h0] at h1
    have h2 : (⟪unit u, unit v⟫ - 1) * (⟪unit u, unit v⟫ + 1) = 0 := by linarith
    rcases mul_eq_zero.mp h2 with h | h
    · have := eq_of_inner_eq_one (unit_norm hu) (unit_norm hv) (by linarith)
      rw [this] at hc; exact hc (allclose_refl _)
    · exact ho ((opposite_iff_inner hu hv).mpr (by linarith))
  unfold fromDirections
  rw [if_neg (by simp [hu, hv])]
  change (if allclose (unit u) (unit v) then _ else _) = _
  rw [if_neg hc]
  change (if ‖unit v - ⟪unit u, unit v⟫ • unit u‖ = 0 then none else
    some (⟨⟨unit u, unit (unit v - ⟪unit u, unit v⟫ • unit u)⟩,
    Real.arccos (min (max ⟪unit u, unit v⟫ (-1)) 1)⟩ : Rot (Vec d))) = _
  rw [if_neg hp]
  congr 2
  rw [max_eq_left hb.1, min_eq_left hb.2, inner_unit_unit_eq_cos,
    Real.arccos_cos (InnerProductGeometry.angle_nonneg _ _) (InnerProductGeometry.angle_le_pi _ _)]

open Classical in
lemma fromDirections_opposite {u v : Vec d} (hu : u ≠ 0) (hv : v ≠ 0)
    (hc : ¬ allclose (unit u) (unit v)) (ho : Opposite u v) :
    fromDirections u v = none := by
  have h := (opposite_iff_inner hu hv).mp ho
  unfold fromDirections
  rw [if_neg (by simp [hu, hv])]
  change (if allclose (unit u) (unit v) then _ else _) = _
  rw [if_neg hc]
  change (if ‖unit v - ⟪unit u, unit v⟫ • unit u‖ = 0 then none else _) = _
  rw [if_pos]
  have h1 := norm_perp_sq (unit_norm hu) (unit_norm hv)
  rw [h] at h1 ⊢
  nlinarith [norm_nonneg (unit v - (-1 : ℝ) • unit u)]

lemma fromDirections_zero {u v : Vec d} (h : u = 0 ∨ v = 0) : fromDirections u v = none := by
  unfold fromDirections
  rw [if_pos (by simpa using h)]

/-- Exactly opposite unit vectors are not `allclose` in any dimension up to `10^15`. -/
lemma opposite_not_allclose {u v : Vec d} (hd : d ≤ 10 ^ 15) (hu : u ≠ 0) (hv : v ≠ 0)
    (ho : Opposite u v) : ¬ allclose (unit u) (unit v) := by
  intro hc
  have h := (opposite_iff_inner hu hv).mp ho
  have hv' : unit v = - unit u := by
    have h2 : ⟪-unit u, unit v⟫ = 1 := by rw [inner_neg_left, h]; ring
    exact (eq_of_inner_eq_one (by rw [norm_neg, unit_norm hu]) (unit_norm hv) h2).symm
  have hi : ∀ i, (unit u) i ^ 2 ≤ 1e-16 := by
    intro i
    have := hc i
    unfold isclose at this
    rw [hv'] at this
    simp only [PiLp.neg_apply, abs_neg] at this
    rw [show (unit u) i - -(unit u) i = 2 * (unit u) i by ring, abs_mul] at this
    rw [abs_of_pos (by norm_num : (0 : ℝ) < 2)] at this
    have h3 : |(unit u) i| ≤ 1e-8 := by norm_num at this ⊢; linarith [abs_nonneg ((unit u) i)]
    have h4 := abs_nonneg ((unit u) i)
    calc (unit u) i ^ 2 = |(unit u) i| ^ 2 := (sq_abs _).symm
      _ ≤ (1e-8) ^ 2 := by gcongr
      _ = 1e-16 := by norm_num
  have hn : ‖unit u‖ ^ 2 = 1 := by rw [unit_norm hu]; norm_num
  rw [EuclideanSpace.norm_sq_eq] at hn
  have hs : ∑ i, ‖(unit u) i‖ ^ 2 ≤ ∑ _i : Fin d, (1e-16 : ℝ) := by
    apply Finset.sum_le_sum; intro i _; rw [Real.norm_eq_abs, sq_abs]; exact hi i
  rw [hn] at hs
  simp only [Finset.sum_const, Finset.card_univ, Fintype.card_fin, nsmul_eq_mul] at hs
  have h5 : (d : ℝ) ≤ 1e15 := by
    have : ((d : ℕ) : ℝ) ≤ ((10 ^ 15 : ℕ) : ℝ) := Nat.cast_le.mpr hd
    norm_num at this ⊢; exact this
  have h6 : (d : ℝ) * 1e-16 ≤ 1e15 * 1e-16 := by gcongr
  norm_num at hs h6; linarith

/-- Everything that holds for the result of `from_directions`. -/
lemma fromDirections_some {u v : Vec d} {r : Rot (Vec d)} (h : fromDirections u v = some r) :
    u ≠ 0 ∧ v ≠ 0 ∧ r.base.ON ∧ r.base.b0 = unit u ∧ r.angle = InnerProductGeometry.angle u v := by
  by_cases hu : u = 0
  · rw [fromDirections_zero (Or.inl hu)] at h; cases h
  by_cases hv : v = 0
  · rw [fromDirections_zero (Or.inr hv)] at h; cases h
  refine ⟨hu, hv, ?_⟩
  by_cases hc : allclose (unit u) (unit v)
  · rw [fromDirections_close hu hv hc] at h
    cases h
    exact ⟨⟨unit_norm hu, parallelPerp_norm _, parallelPerp_orth _⟩, rfl, rfl⟩
  · by_cases ho : Opposite u v
    · rw [fromDirections_opposite hu hv hc ho] at h; cases h
    · have hne : unit v - ⟪unit u, unit v⟫ • unit u ≠ 0 := by
        intro h0
        have h1 := norm_perp_sq (unit_norm hu) (unit_norm hv)
        rw [h0] at h1
        have h2 : (⟪unit u, unit v⟫ - 1) * (⟪unit u, unit v⟫ + 1) = 0 := by
          simp at h1; linarith
        rcases mul_eq_zero.mp h2 with h | h
        · have := eq_of_inner_eq_one (unit_norm hu) (unit_norm hv) (by linarith)
          rw [this] at hc; exact hc (allclose_refl _)
        · exact ho ((opposite_iff_inner hu hv).mpr (by linarith))
      rw [fromDirections_far hu hv hc ho] at h
      cases h
      refine ⟨⟨unit_norm hu, unit_norm hne, ?_⟩, rfl, rfl⟩
      change ⟪unit u, unit (unit v - ⟪unit u, unit v⟫ • unit u)⟫ = 0
      have := inner_perp (a := unit u) (b := unit v) (unit_norm hu)
      generalize unit v - ⟪unit u, unit v⟫ • unit u = p at this
      rw [show unit p = (1 / ‖p‖) • p from rfl, inner_smul_right, this, mul_zero]

/-- In the general branch the rotation maps the first to the second direction. -/
lemma fromDirections_far_maps {u v : Vec d} {r : Rot (Vec d)} (h : fromDirections u v = some r)
    (hc : ¬ allclose (unit u) (unit v)) :
    Real.cos r.angle • r.base.b0 + Real.sin r.angle • r.base.b1 = unit v := by
  obtain ⟨hu, hv, _, _, _⟩ := fromDirections_some h
  by_cases ho : Opposite u v
  · rw [fromDirections_opposite hu hv hc ho] at h; cases h
  rw [fromDirections_far hu hv hc ho] at h
  cases h
  dsimp only
  set p := unit v - ⟪unit u, unit v⟫ • unit u with hp
  have hs : Real.sin (InnerProductGeometry.angle u v) = ‖p‖ := by
    have h1 := norm_perp_sq (unit_norm hu) (unit_norm hv)
    rw [← hp, inner_unit_unit_eq_cos] at h1
    have h2 := Real.sin_sq_add_cos_sq (InnerProductGeometry.angle u v)
    have h3 := InnerProductGeometry.sin_angle_nonneg u v
    have h4 := norm_nonneg p
    have h5 : Real.sin (InnerProductGeometry.angle u v) ^ 2 = ‖p‖ ^ 2 := by linarith
    exact (sq_eq_sq₀ h3 h4).mp h5
  rw [hs, norm_smul_unit, ← inner_unit_unit_eq_cos, hp]
  module

end Verif
