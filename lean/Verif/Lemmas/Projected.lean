import Verif.Model.Projected
import Verif.Spec.Projected
import Verif.Lemmas.FromDirections

/-!
# Folding and unfolding in terms of the axis, independent of the chosen basis
-/

open scoped RealInnerProductSpace

set_option linter.unusedSectionVars false

namespace Verif
open Spec Projected

variable {d : ℕ} [h2 : Fact (2 ≤ d)]

/-- What `vartools.math.get_orthogonal_basis` guarantees: the first column of the matrix for a unit
vector is the vector itself (the matrix is orthonormal by its type). -/
def FirstColumn (basis : Vec d → (Vec d ≃ₗᵢ[ℝ] Vec d)) : Prop :=
  ∀ v : Vec d, ‖v‖ = 1 → basis v (EuclideanSpace.single i0 1) = v

/-- The part of `v` orthogonal to the unit vector `a`. -/
noncomputable def perpPart (a v : Vec d) : Vec d := v - ⟪a, v⟫ • a

lemma perpPart_orth {a : Vec d} (ha : ‖a‖ = 1) (v : Vec d) : ⟪a, perpPart a v⟫ = 0 := by
  simp only [perpPart, inner_sub_right, inner_smul_right, real_inner_self_eq_norm_sq, ha]; ring

lemma perpPart_add (a v : Vec d) : ⟪a, v⟫ • a + perpPart a v = v := by
  rw [perpPart]; abel

lemma perpPart_smul (a v : Vec d) (c : ℝ) : perpPart a (c • v) = c • perpPart a v := by
  simp only [perpPart, inner_smul_right, smul_sub, smul_smul]

lemma setFirst_eq (t : Vec d) (x : ℝ) :
    setFirst t x = t + EuclideanSpace.single i0 (x - t i0) := by
  ext i
  by_cases hi : i = i0
  · subst hi; simp [setFirst]
  · simp [setFirst, hi]

lemma scaleTail_eq (t : Vec d) (c : ℝ) :
    scaleTail t c = c • t + EuclideanSpace.single i0 (t i0 - c * t i0) := by
  ext i
  by_cases hi : i = i0
  · subst hi; simp [scaleTail]
  · simp [scaleTail, hi]

lemma setFirst_setFirst (t : Vec d) (x y : ℝ) : setFirst (setFirst t x) y = setFirst t y := by
  ext i
  by_cases hi : i = i0
  · subst hi; simp [setFirst]
  · simp [setFirst, hi]

lemma setFirst_apply (t : Vec d) (x : ℝ) : setFirst t x i0 = x := by simp [setFirst]

lemma setFirst_self (t : Vec d) : setFirst t (t i0) = t := by rw [setFirst_eq]; simp

lemma single_smul (x : ℝ) :
    (EuclideanSpace.single i0 x : Vec d) = x • EuclideanSpace.single i0 1 := by
  ext i
  by_cases hi : i = i0
  · subst hi; simp
  · simp [hi]

variable {B : Vec d ≃ₗᵢ[ℝ] Vec d} {a : Vec d}

lemma symm_first (hB : B (EuclideanSpace.single i0 1) = a) (v : Vec d) :
    B.symm v i0 = ⟪a, v⟫ := by
  have h1 : B.symm v i0 = ⟪(EuclideanSpace.single i0 1 : Vec d), B.symm v⟫ := by
    rw [EuclideanSpace.inner_single_left]; simp
  rw [h1, ← LinearIsometryEquiv.inner_map_map B, hB, LinearIsometryEquiv.apply_symm_apply]

lemma basis_setFirst (hB : B (EuclideanSpace.single i0 1) = a) (v : Vec d) (x : ℝ) :
    B (setFirst (B.symm v) x) = x • a + perpPart a v := by
  rw [setFirst_eq, map_add, single_smul, map_smul, hB, LinearIsometryEquiv.apply_symm_apply,
    symm_first hB, perpPart, sub_smul]; abel

lemma basis_scaleTail (hB : B (EuclideanSpace.single i0 1) = a) (v : Vec d) (x c : ℝ) :
    B (scaleTail (setFirst (B.symm v) x) c) = x • a + c • perpPart a v := by
  rw [scaleTail_eq, map_add, map_smul, basis_setFirst hB, single_smul, map_smul, hB,
    setFirst_apply, smul_add, smul_smul, sub_smul]; abel

lemma tailNorm_sq (t : Vec d) : tailNorm t ^ 2 = ‖t‖ ^ 2 - t i0 ^ 2 := by
  unfold tailNorm
  rw [Real.sq_sqrt (Finset.sum_nonneg (fun i _ => sq_nonneg _)), EuclideanSpace.norm_sq_eq]
  have := Finset.add_sum_erase Finset.univ (fun i => t i ^ 2) (Finset.mem_univ (i0 : Fin d))
  simp only [Real.norm_eq_abs, sq_abs]
  linarith

lemma tailNorm_setFirst (t : Vec d) (x : ℝ) : tailNorm (setFirst t x) = tailNorm t := by
  unfold tailNorm
  congr 1
  apply Finset.sum_congr rfl
  intro i hi
  have : i ≠ i0 := (Finset.mem_erase.mp hi).1
  simp [setFirst, this]

lemma norm_perpPart_sq (ha : ‖a‖ = 1) (v : Vec d) : ‖perpPart a v‖ ^ 2 = ‖v‖ ^ 2 - ⟪a, v⟫ ^ 2 := by
  rw [perpPart, norm_sub_sq_real, inner_smul_right, norm_smul, ha, real_inner_comm a v,
    Real.norm_eq_abs]
  rw [mul_one, sq_abs]; ring

lemma tailNorm_symm (hB : B (EuclideanSpace.single i0 1) = a) (ha : ‖a‖ = 1) (v : Vec d) :
    tailNorm (B.symm v) = ‖perpPart a v‖ := by
  have h0 : 0 ≤ tailNorm (B.symm v) := Real.sqrt_nonneg _
  rw [← sq_eq_sq₀ h0 (norm_nonneg _), tailNorm_sq, norm_perpPart_sq ha, symm_first hB,
    LinearIsometryEquiv.norm_map]

/-- The folded displacement from the obstacle before the last scaling, for a displacement `v` from
the attractor. -/
noncomputable def foldedVec (a v : Vec d) (D power : ℝ) : Vec d :=
  (D * Real.log (‖v‖ / D)) • a
    + ((2 / (1 + ⟪unit v, a⟫) - 1) ^ (1 / power)) • unit (perpPart a v)

lemma attractorToObstacle_eq (ref : Option (Vec d)) (attractor : Vec d) :
    attractorToObstacle ref attractor = centre ref - attractor := by
  cases ref <;> simp [attractorToObstacle, centre]

lemma relative_absolute (ref : Option (Vec d)) (x : Vec d) : relative ref (absolute ref x) = x := by
  cases ref <;> simp [relative, absolute]

lemma inner_unit_eq_one {v : Vec d} (ha : ‖a‖ = 1) (hv : v ≠ 0) (h : ⟪unit v, a⟫ = 1) :
    perpPart a v = 0 := by
  have h1 := eq_of_inner_eq_one (unit_norm hv) ha h
  rw [perpPart, ← norm_smul_unit v, h1, inner_smul_right, real_inner_self_eq_norm_sq, ha]
  simp

lemma norm_perpPart_unit {v : Vec d} (ha : ‖a‖ = 1) (hv : v ≠ 0) :
    ‖perpPart a v‖ = ‖v‖ * Real.sqrt (1 - ⟪unit v, a⟫ ^ 2) := by
  have h1 : ‖perpPart a (unit v)‖ ^ 2 = 1 - ⟪unit v, a⟫ ^ 2 := by
    rw [norm_perpPart_sq ha, unit_norm hv, real_inner_comm]; ring
  have h2 : ‖perpPart a (unit v)‖ = Real.sqrt (1 - ⟪unit v, a⟫ ^ 2) := by
    rw [← h1, Real.sqrt_sq (norm_nonneg _)]
  conv_lhs => rw [← norm_smul_unit v, perpPart_smul, norm_smul, Real.norm_eq_abs, abs_norm, h2]

lemma perpPart_ne_zero {v : Vec d} (ha : ‖a‖ = 1) (hv : v ≠ 0) (h1 : -1 < ⟪unit v, a⟫)
    (h2 : ⟪unit v, a⟫ < 1) : perpPart a v ≠ 0 := by
  rw [← norm_ne_zero_iff, norm_perpPart_unit ha hv]
  have : 0 < 1 - ⟪unit v, a⟫ ^ 2 := by nlinarith
  exact mul_ne_zero (norm_ne_zero_iff.mpr hv) (Real.sqrt_ne_zero'.mpr this)

/-- Folding, away from the attractor and the ray behind it. -/
lemma fold_eq {basis : Vec d → (Vec d ≃ₗᵢ[ℝ] Vec d)} (hb : FirstColumn basis)
    (ref : Option (Vec d)) (p attractor : Vec d) (power : ℝ) (hpow : 0 < power)
    (hc : centre ref - attractor ≠ 0) (hp : p - attractor ≠ 0)
    (hdot : -1 < ⟪unit (p - attractor), unit (centre ref - attractor)⟫) :
    let E := foldedVec (unit (centre ref - attractor)) (p - attractor) ‖centre ref - attractor‖ power
    fold basis ref p attractor power
      = absolute ref (setFirst E (E i0 * ‖centre ref - attractor‖)) := by
  classical
  intro E
  have ha : ‖unit (centre ref - attractor)‖ = 1 := unit_norm hc
  have hB := hb _ ha
  set a := unit (centre ref - attractor) with hadef
  set v := p - attractor with hv
  have hD : ‖centre ref - attractor‖ ≠ 0 := norm_ne_zero_iff.mpr hc
  have hn : ‖v‖ ≠ 0 := norm_ne_zero_iff.mpr hp
  unfold fold
  simp only [attractorToObstacle_eq]
  rw [if_neg hD]
  change absolute ref (setFirst (basis a (foldTail (setFirst ((basis a).symm v)
    (foldedRadial ‖centre ref - attractor‖ ‖v‖)) (‖v‖ = 0) ⟪unit v, a⟫ power)) ((basis a (foldTail
    (setFirst ((basis a).symm v) (foldedRadial ‖centre ref - attractor‖ ‖v‖)) (‖v‖ = 0) ⟪unit v, a⟫
    power)) i0 * ‖centre ref - attractor‖)) = _
  have key : basis a (foldTail (setFirst ((basis a).symm v)
      (foldedRadial ‖centre ref - attractor‖ ‖v‖)) (‖v‖ = 0) ⟪unit v, a⟫ power) = E := by
    unfold foldTail foldedRadial
    rw [if_neg hn, if_neg (not_le.mpr hdot), if_pos hn]
    have hle : ⟪unit v, a⟫ ≤ 1 := (inner_unit_bounds v (centre ref - attractor)).2
    by_cases h1 : ⟪unit v, a⟫ < 1
    · rw [if_pos h1, tailNorm_setFirst, tailNorm_symm hB ha,
        if_pos (norm_ne_zero_iff.mpr (perpPart_ne_zero ha hp hdot h1)), basis_scaleTail hB]
      simp only [E, foldedVec]
      congr 1
      change _ = _ • ((1 / ‖perpPart a v‖) • perpPart a v)
      rw [smul_smul, mul_comm]
    · have h1' : ⟪unit v, a⟫ = 1 := le_antisymm hle (not_lt.mp h1)
      rw [if_neg h1, basis_setFirst hB]
      simp only [E, foldedVec]
      congr 1
      rw [inner_unit_eq_one ha hp h1', h1']
      norm_num
      rw [Real.zero_rpow (by positivity)]; simp
  rw [key]

lemma foldedVec_inner (ha : ‖a‖ = 1) (v : Vec d) (D power : ℝ) :
    ⟪a, foldedVec a v D power⟫ = D * Real.log (‖v‖ / D) := by
  have h0 : ⟪a, unit (perpPart a v)⟫ = 0 := by
    rw [unit, inner_smul_right, perpPart_orth ha, mul_zero]
  rw [foldedVec, inner_add_right, inner_smul_right, inner_smul_right, real_inner_self_eq_norm_sq,
    ha, h0]; ring

lemma foldedVec_perp (ha : ‖a‖ = 1) (v : Vec d) (D power : ℝ) :
    perpPart a (foldedVec a v D power)
      = ((2 / (1 + ⟪unit v, a⟫) - 1) ^ (1 / power)) • unit (perpPart a v) := by
  rw [perpPart, foldedVec_inner ha, foldedVec]; abel

lemma foldFactor_nonneg {c : ℝ} (h1 : -1 < c) (h2 : c ≤ 1) : 0 ≤ 2 / (1 + c) - 1 := by
  rw [sub_nonneg, le_div_iff₀ (by linarith)]; linarith

lemma foldFactor_pos {c : ℝ} (h1 : -1 < c) (h2 : c < 1) : 0 < 2 / (1 + c) - 1 := by
  rw [sub_pos, lt_div_iff₀ (by linarith)]; linarith

/-- Recovering the angle from the lateral part of the folded vector. -/
lemma foldedVec_lateral {v : Vec d} (ha : ‖a‖ = 1) (hv : v ≠ 0) (h1 : -1 < ⟪unit v, a⟫)
    (h1' : ⟪unit v, a⟫ ≤ 1) (D power : ℝ) (hpow : 0 < power) :
    ‖perpPart a (foldedVec a v D power)‖ = (2 / (1 + ⟪unit v, a⟫) - 1) ^ (1 / power)
    ∧ 2 / (‖perpPart a (foldedVec a v D power)‖ ^ power + 1) - 1 = ⟪unit v, a⟫ := by
  have hnn := foldFactor_nonneg h1 h1'
  have e : ‖perpPart a (foldedVec a v D power)‖ = (2 / (1 + ⟪unit v, a⟫) - 1) ^ (1 / power) := by
    rw [foldedVec_perp ha, norm_smul, Real.norm_eq_abs, abs_of_nonneg (Real.rpow_nonneg hnn _)]
    rcases lt_or_eq_of_le h1' with h | h
    · rw [unit_norm (perpPart_ne_zero ha hv h1 h), mul_one]
    · rw [h]; norm_num
      rw [Real.zero_rpow (by positivity)]; simp
  refine ⟨e, ?_⟩
  rw [e, one_div, Real.rpow_inv_rpow hnn hpow.ne', sub_add_cancel]
  have : 1 + ⟪unit v, a⟫ ≠ 0 := by linarith
  field_simp; ring

end Verif
