import Verif.Lemmas.Projected
import Verif.Props.Rotation
import Mathlib.Analysis.InnerProductSpace.Projection.Reflection

/-!
# C67: folding the space around the attractor can be undone
-/

open scoped RealInnerProductSpace

set_option linter.unusedSectionVars false

namespace Verif
open Spec Projected

variable {d : ℕ} [h2 : Fact (2 ≤ d)]

lemma allclose_perp {a w : Vec d} (hd : d ≤ 10 ^ 6) (ha : ‖a‖ = 1) (hw : ‖w‖ = 1)
    (h : allclose a w) : ‖perpPart a w‖ ≤ 2e-5 := by
  have h1 : ‖a - w‖ ^ 2 ≤ 4e-10 := by
    rw [EuclideanSpace.norm_sq_eq]
    have hi : ∀ i ∈ Finset.univ, ‖(a - w) i‖ ^ 2 ≤ 2e-16 + 2e-10 * ‖w i‖ ^ 2 := by
      intro i _
      have := h i
      unfold isclose at this
      rw [PiLp.sub_apply, Real.norm_eq_abs, Real.norm_eq_abs]
      have h0 := abs_nonneg (a i - w i)
      have h0' := abs_nonneg (w i)
      nlinarith [sq_nonneg (1e-8 - 1e-5 * |w i|)]
    have hs := Finset.sum_le_sum hi
    have hw' : ∑ i, ‖w i‖ ^ 2 = 1 := by rw [← EuclideanSpace.norm_sq_eq, hw]; norm_num
    rw [Finset.sum_add_distrib, ← Finset.mul_sum, hw'] at hs
    simp only [Finset.sum_const, Finset.card_univ, Fintype.card_fin, nsmul_eq_mul] at hs
    have hd' : (d : ℝ) ≤ 10 ^ 6 := by exact_mod_cast hd
    norm_num at hs ⊢
    linarith
  have h3 : perpPart a w = perpPart a (w - a) := by
    simp only [perpPart, inner_sub_right, real_inner_self_eq_norm_sq, ha, sub_smul]
    norm_num
  have h4 : ‖perpPart a w‖ ^ 2 ≤ ‖a - w‖ ^ 2 := by
    rw [h3, norm_perpPart_sq ha, norm_sub_rev w a]; nlinarith [sq_nonneg ⟪a, w - a⟫]
  have h5 : ‖perpPart a w‖ ^ 2 ≤ (2e-5) ^ 2 := by
    refine h4.trans (h1.trans ?_); norm_num
  exact abs_le_of_sq_le_sq' h5 (by norm_num) |>.2

/-- The direction found by unfolding: at the angle with cosine `c` from the axis, on the side of
the lateral part unless the tolerance of `from_directions` strikes. -/
lemma uniformPosition_eq {a e : Vec d} {c : ℝ} (ha : ‖a‖ = 1) (hc1 : -1 < c) (hc2 : c < 1)
    (he : perpPart a e ≠ 0) :
    ∃ w, uniformPosition a e c = some w ∧ ‖w‖ = 1 ∧ ⟪w, a⟫ = c
      ∧ (¬ allclose a (unit (e - c • a)) →
          w = c • a + Real.sqrt (1 - c ^ 2) • unit (perpPart a e))
      ∧ (allclose a (unit (e - c • a)) → w = c • a + Real.sqrt (1 - c ^ 2) • parallelPerp a) := by
  classical
  have hperp : perpPart a (e - c • a) = perpPart a e := by
    simp only [perpPart, inner_sub_right, inner_smul_right, real_inner_self_eq_norm_sq, ha, sub_smul]
    norm_num
  have hne : e - c • a ≠ 0 := by
    intro h0; rw [h0] at hperp; apply he; rw [← hperp]; simp [perpPart]
  have ha0 : a ≠ 0 := by intro h0; rw [h0] at ha; simp at ha
  have hau : unit a = a := unit_of_norm_one ha
  have hwne : unit (e - c • a) ≠ 0 := unit_ne_zero hne
  have hopp : ¬ Opposite a (unit (e - c • a)) := by
    rintro ⟨k, hk, h0⟩
    have h1 : perpPart a (unit (e - c • a)) = 0 := by
      rw [h0]; simp only [perpPart, inner_smul_right, real_inner_self_eq_norm_sq, ha]; simp
    rw [unit, perpPart_smul, hperp] at h1
    have h3 : (1 / ‖e - c • a‖) ≠ 0 := by
      have := norm_ne_zero_iff.mpr hne; positivity
    exact he ((smul_eq_zero.mp h1).resolve_left h3)
  obtain ⟨r, hr⟩ : ∃ r, fromDirections a (unit (e - c • a)) = some r := by
    by_cases hcl : allclose (unit a) (unit (unit (e - c • a)))
    · exact ⟨_, fromDirections_close ha0 hwne hcl⟩
    · exact ⟨_, fromDirections_far ha0 hwne hcl hopp⟩
  obtain ⟨_, _, hon, h0, _⟩ := fromDirections_some hr
  rw [hau] at h0
  have hrot : ({ r with angle := Real.arccos c } : Rot (Vec d)).rotate a
      = c • a + Real.sqrt (1 - c ^ 2) • r.base.b1 := by
    have hb := planeRot_b0 hon (1 * Real.arccos c)
    rw [one_mul, Real.cos_arccos hc1.le hc2.le, Real.sin_arccos, h0] at hb
    rw [Rot.rotate, rotateDirection_eq]
    simpa using hb
  refine ⟨c • a + Real.sqrt (1 - c ^ 2) • r.base.b1, ?_, ?_, ?_, ?_, ?_⟩
  · unfold uniformPosition
    rw [if_pos hc2]
    simp only
    rw [if_neg (norm_ne_zero_iff.mpr hne)]
    change (match fromDirections a (unit (e - c • a)) with
      | none => none
      | some r => some (({ r with angle := Real.arccos c } : Rot (Vec d)).rotate a)) = _
    rw [hr]
    simp only [hrot]
  · have hsq : ‖c • a + Real.sqrt (1 - c ^ 2) • r.base.b1‖ ^ 2 = 1 := by
      rw [norm_add_sq_real, norm_smul, norm_smul, inner_smul_left, inner_smul_right, ha,
        hon.norm_snd, ← h0, hon.orth, Real.norm_eq_abs, Real.norm_eq_abs]
      simp only [mul_one, mul_zero, add_zero, sq_abs]
      rw [Real.sq_sqrt (by nlinarith)]; ring
    have := norm_nonneg (c • a + Real.sqrt (1 - c ^ 2) • r.base.b1)
    nlinarith
  · rw [inner_add_left, inner_smul_left, inner_smul_left, real_inner_self_eq_norm_sq, ha,
      real_inner_comm, ← h0, hon.orth]; simp
  · intro hcl
    have hcl' : ¬ allclose (unit a) (unit (unit (e - c • a))) := by
      rw [hau, unit_unit hne]; exact hcl
    rw [fromDirections_far ha0 hwne hcl' hopp] at hr
    cases hr
    dsimp only
    rw [hau, unit_unit hne]
    congr 2
    change unit (perpPart a (unit (e - c • a))) = _
    have hpos : 0 < ‖e - c • a‖ := norm_pos_iff.mpr hne
    have hppos : 0 < ‖perpPart a e‖ := norm_pos_iff.mpr he
    conv_lhs => rw [unit.eq_def (e - c • a), perpPart_smul, hperp]
    rw [unit, unit, norm_smul, Real.norm_eq_abs, abs_of_pos (by positivity), smul_smul]
    congr 1
    field_simp
  · intro hcl
    have hcl' : allclose (unit a) (unit (unit (e - c • a))) := by
      rw [hau, unit_unit hne]; exact hcl
    rw [fromDirections_close ha0 hwne hcl'] at hr
    cases hr
    dsimp only
    rw [hau]

/-- Everything the theorems need about unfolding a folded position. -/
lemma unfold_fold {basis : Vec d → (Vec d ≃ₗᵢ[ℝ] Vec d)} (hb : FirstColumn basis)
    (ref : Option (Vec d)) (p A : Vec d) (power : ℝ) (hpow : 0 < power)
    (hc : centre ref - A ≠ 0) (hp : p - A ≠ 0)
    (hdot : -1 < ⟪unit (p - A), unit (centre ref - A)⟫) :
    ∃ w, (unfold ref (fold basis ref p A power) A power).1 = some (‖p - A‖ • w + A)
      ∧ ‖w‖ = 1
      ∧ ⟪w, unit (centre ref - A)⟫ = ⟪unit (p - A), unit (centre ref - A)⟫
      ∧ ((⟪unit (p - A), unit (centre ref - A)⟫ = 1 ∨
          ¬ allclose (unit (centre ref - A))
            (unit (unit (foldedVec (unit (centre ref - A)) (p - A) ‖centre ref - A‖ power)
              - ⟪unit (p - A), unit (centre ref - A)⟫ • unit (centre ref - A)))) →
          w = unit (p - A))
      ∧ (allclose (unit (centre ref - A))
            (unit (unit (foldedVec (unit (centre ref - A)) (p - A) ‖centre ref - A‖ power)
              - ⟪unit (p - A), unit (centre ref - A)⟫ • unit (centre ref - A))) →
          w = ⟪unit (p - A), unit (centre ref - A)⟫ • unit (centre ref - A)
            + Real.sqrt (1 - ⟪unit (p - A), unit (centre ref - A)⟫ ^ 2) • parallelPerp (unit (centre ref - A))) := by
  classical
  have hfold := fold_eq hb ref p A power hpow hc hp hdot
  simp only at hfold
  rw [hfold]
  have ha : ‖unit (centre ref - A)‖ = 1 := unit_norm hc
  have hle : ⟪unit (p - A), unit (centre ref - A)⟫ ≤ 1 := (inner_unit_bounds _ _).2
  have hD : 0 < ‖centre ref - A‖ := norm_pos_iff.mpr hc
  have hn : 0 < ‖p - A‖ := norm_pos_iff.mpr hp
  set a := unit (centre ref - A) with hadef
  set D := ‖centre ref - A‖ with hDdef
  set v := p - A with hv
  set E := foldedVec a v D power with hE
  set c := ⟪unit v, a⟫ with hcdef
  obtain ⟨hlat, hrec⟩ := foldedVec_lateral ha hp hdot hle D power hpow
  have hx0 : ⟪a, E⟫ = D * Real.log (‖v‖ / D) := foldedVec_inner ha v D power
  have hvec : setFirst (relative ref (absolute ref (setFirst E (E i0 * D))))
      ((relative ref (absolute ref (setFirst E (E i0 * D)))) i0 / D) = E := by
    rw [relative_absolute, setFirst_setFirst, setFirst_apply, mul_div_assoc, div_self hD.ne',
      mul_one, setFirst_self]
  have hdec : unit v = c • a + Real.sqrt (1 - c ^ 2) • unit (perpPart a v) := by
    have h1 : ‖v‖ • unit v = ‖v‖ • (c • a + Real.sqrt (1 - c ^ 2) • unit (perpPart a v)) := by
      rw [norm_smul_unit, smul_add, smul_smul, smul_smul, ← norm_perpPart_unit ha hp,
        norm_smul_unit]
      have : ‖v‖ * c = ⟪a, v⟫ := by
        rw [hcdef, real_inner_comm, ← inner_smul_right, norm_smul_unit]
      rw [this, perpPart_add]
    exact smul_right_injective _ hn.ne' h1
  unfold unfold
  simp only [attractorToObstacle_eq, ← hDdef, hvec]
  rw [if_neg hD.ne']
  by_cases hE0 : ‖E‖ = 0
  · -- the obstacle centre
    rw [if_pos hE0]
    have hE0' : E = 0 := norm_eq_zero.mp hE0
    have hlog : D * Real.log (‖v‖ / D) = 0 := by rw [← hx0, hE0']; simp
    have hvD : ‖v‖ = D := by
      have h1 : Real.log (‖v‖ / D) = 0 := by
        rcases mul_eq_zero.mp hlog with h | h
        · exact absurd h hD.ne'
        · exact h
      have h3 := Real.eq_one_of_pos_of_log_eq_zero (by positivity) h1
      field_simp at h3; exact h3
    have hc1 : c = 1 := by
      rw [hcdef, ← hrec, ← hE, hE0']
      simp [perpPart, Real.zero_rpow hpow.ne']; norm_num
    have hva : unit v = a := eq_of_inner_eq_one (unit_norm hp) ha hc1
    refine ⟨unit v, ?_, unit_norm hp, rfl, fun _ => rfl, fun _ => by rw [hc1, hva]; simp⟩
    have h1 : ‖v‖ • unit v + A = centre ref := by
      rw [hva, hvD, hDdef, hadef, norm_smul_unit]; abel
    rw [h1, hE0']
    cases ref with
    | none => simp [centre]
    | some r =>
      have : setFirst (0 : Vec d) ((0 : Vec d) i0 * D) = 0 := by rw [setFirst_eq]; simp
      simp only [this, absolute, zero_add, centre, Option.getD_some]
  · rw [if_neg hE0]
    have hEpos : 0 < ‖E‖ := lt_of_le_of_ne (norm_nonneg _) (Ne.symm hE0)
    have hae : (1 / D) • (centre ref - A) = a := rfl
    have hEu : (1 / ‖E‖) • E = unit E := rfl
    rw [hae, hEu]
    have hrad : ⟪a, unit E⟫ * ‖E‖ = D * Real.log (‖v‖ / D) := by
      rw [mul_comm, ← inner_smul_right, norm_smul_unit, hx0]
    have hfac : Real.sqrt (max (‖E‖ ^ 2 - (⟪a, unit E⟫ * ‖E‖) ^ 2) 0) = ‖perpPart a E‖ := by
      rw [hrad, ← hx0, ← norm_perpPart_sq ha, max_eq_left (sq_nonneg _),
        Real.sqrt_sq (norm_nonneg _)]
    have hexp : Real.exp ((⟪a, unit E⟫ * ‖E‖) / D) * D = ‖v‖ := by
      rw [hrad, mul_div_assoc, mul_comm D, div_mul_cancel₀ _ hD.ne', Real.exp_log (by positivity)]
      field_simp
    rw [hfac, hrec, hexp, ← hcdef]
    rcases lt_or_eq_of_le hle with hc2 | hc2
    · have hv1 : perpPart a v ≠ 0 := perpPart_ne_zero ha hp hdot hc2
      have hfpos : 0 < (2 / (1 + c) - 1) ^ (1 / power) :=
        Real.rpow_pos_of_pos (foldFactor_pos hdot hc2) _
      have hpE : perpPart a (unit E) ≠ 0 := by
        rw [unit, perpPart_smul, hE, foldedVec_perp ha]
        refine smul_ne_zero (by positivity) (smul_ne_zero hfpos.ne' (unit_ne_zero hv1))
      obtain ⟨w, h1, h3, h4, h5, h6⟩ := uniformPosition_eq ha hdot hc2 hpE
      rw [h1]
      refine ⟨w, rfl, h3, h4, fun h => ?_, h6⟩
      rcases h with h | h
      · exact absurd h hc2.ne
      · rw [h5 h, hdec]
        congr 2
        rw [unit.eq_def E, perpPart_smul, hE, foldedVec_perp ha, smul_smul]
        rw [unit, norm_smul, unit_norm hv1, mul_one, smul_smul, Real.norm_eq_abs,
          abs_of_pos (by positivity)]
        conv_rhs => rw [← one_smul ℝ (unit (perpPart a v))]
        congr 1
        field_simp
        exact div_self (mul_pos hEpos hfpos).ne'
    · have hva : unit v = a := eq_of_inner_eq_one (unit_norm hp) ha hc2
      have hu : uniformPosition a (unit E) c = some a := by
        unfold uniformPosition; rw [if_neg (by rw [hc2]; exact lt_irrefl _)]
      rw [hu]
      exact ⟨a, rfl, ha, by rw [hcdef, hva], fun _ => hva.symm, fun _ => by rw [hc2]; simp⟩

/-- C67: unfolding a folded position gives a position at the same distance from the attractor and
at the same angle from the axis attractor-obstacle as the original one, for every position except
the attractor and the ray behind it. -/
theorem C67_same_polar {basis : Vec d → (Vec d ≃ₗᵢ[ℝ] Vec d)} (hb : FirstColumn basis)
    (ref : Option (Vec d)) (p A : Vec d) (power : ℝ) (hpow : 0 < power)
    (hc : centre ref ≠ A) (hp : p ≠ A) (ho : ¬ Opposite (p - A) (centre ref - A)) :
    ∃ q, (unfold ref (fold basis ref p A power) A power).1 = some q
      ∧ ‖q - A‖ = ‖p - A‖
      ∧ InnerProductGeometry.angle (q - A) (centre ref - A)
          = InnerProductGeometry.angle (p - A) (centre ref - A) := by
  have hc' := sub_ne_zero.mpr hc
  have hp' := sub_ne_zero.mpr hp
  have hdot : -1 < ⟪unit (p - A), unit (centre ref - A)⟫ := lt_of_le_of_ne (inner_unit_bounds _ _).1
    (fun h => ho ((opposite_iff_inner hp' hc').mpr h.symm))
  obtain ⟨w, h1, h2, h3, _, _⟩ := unfold_fold hb ref p A power hpow hc' hp' hdot
  have hn : 0 < ‖p - A‖ := norm_pos_iff.mpr hp'
  refine ⟨_, h1, ?_, ?_⟩
  · rw [add_sub_cancel_right, norm_smul, h2, Real.norm_eq_abs, abs_of_pos hn, mul_one]
  · rw [add_sub_cancel_right, InnerProductGeometry.angle_smul_left_of_pos _ _ hn]
    have hw : w ≠ 0 := by intro h0; rw [h0] at h2; simp at h2
    rw [← unit_of_norm_one h2, inner_unit_unit_eq_cos, inner_unit_unit_eq_cos] at h3
    exact Real.injOn_cos ⟨InnerProductGeometry.angle_nonneg _ _, InnerProductGeometry.angle_le_pi _ _⟩
      ⟨InnerProductGeometry.angle_nonneg _ _, InnerProductGeometry.angle_le_pi _ _⟩ h3

/-- C67 for the power two of the code: unfolding a folded position gives back the position, for
every position except the attractor and the ray behind it, if it lies on the axis
attractor-obstacle or is not too close to the axis compared with its distance.  (Missing: positions
whose folded image is within the tolerance of `from_directions` of the axis; for them
`C67_same_polar` holds.) -/
theorem C67_round_trip_partial {basis : Vec d → (Vec d ≃ₗᵢ[ℝ] Vec d)} (hb : FirstColumn basis)
    (hd : d ≤ 10 ^ 6) (ref : Option (Vec d)) (p A : Vec d)
    (hc : centre ref ≠ A) (hp : p ≠ A) (ho : ¬ Opposite (p - A) (centre ref - A))
    (hfar : InnerProductGeometry.angle (p - A) (centre ref - A) = 0 ∨
      |‖centre ref - A‖ * Real.log (‖p - A‖ / ‖centre ref - A‖)|
        ≤ 10 ^ 4 * Real.tan (InnerProductGeometry.angle (p - A) (centre ref - A) / 2)) :
    (unfold ref (fold basis ref p A) A).1 = some p := by
  have hc' := sub_ne_zero.mpr hc
  have hp' := sub_ne_zero.mpr hp
  have hdot : -1 < ⟪unit (p - A), unit (centre ref - A)⟫ := lt_of_le_of_ne (inner_unit_bounds _ _).1
    (fun h => ho ((opposite_iff_inner hp' hc').mpr h.symm))
  have hle : ⟪unit (p - A), unit (centre ref - A)⟫ ≤ 1 := (inner_unit_bounds _ _).2
  obtain ⟨w, h1, _, _, h3, _⟩ := unfold_fold hb ref p A 2 two_pos hc' hp' hdot
  have hw : w = unit (p - A) := by
    apply h3
    by_cases h1' : ⟪unit (p - A), unit (centre ref - A)⟫ = 1
    · exact Or.inl h1'
    refine Or.inr (fun hcl => ?_)
    have hlt := lt_of_le_of_ne hle h1'
    have hcos := inner_unit_unit_eq_cos (u := p - A) (v := centre ref - A)
    set θ := InnerProductGeometry.angle (p - A) (centre ref - A) with hθ
    have hθ0 : θ ≠ 0 := by intro h0; rw [hcos, h0, Real.cos_zero] at h1'; exact h1' rfl
    replace hfar := hfar.resolve_left hθ0
    have ha : ‖unit (centre ref - A)‖ = 1 := unit_norm hc'
    set a := unit (centre ref - A) with hadef
    set D := ‖centre ref - A‖ with hDdef
    set v := p - A with hv
    set E := foldedVec a v D 2 with hE
    set c := ⟪unit v, a⟫ with hcdef
    obtain ⟨hlat, hrec⟩ := foldedVec_lateral ha hp' hdot hle D 2 two_pos
    have hx0 : ⟪a, E⟫ = D * Real.log (‖v‖ / D) := foldedVec_inner ha v D 2
    have htan : (2 / (1 + c) - 1) ^ (1 / (2 : ℝ)) = Real.tan (θ / 2) := by
      have hθr := InnerProductGeometry.angle_nonneg (p - A) (centre ref - A)
      have hθπ := InnerProductGeometry.angle_le_pi (p - A) (centre ref - A)
      have hlt' : θ < Real.pi := lt_of_le_of_ne hθπ (fun h0 => by
        rw [hcos, h0, Real.cos_pi] at hdot; exact lt_irrefl _ hdot)
      have hcp : 0 < Real.cos (θ / 2) := Real.cos_pos_of_mem_Ioo ⟨by linarith, by linarith⟩
      have hsn : 0 ≤ Real.sin (θ / 2) := Real.sin_nonneg_of_nonneg_of_le_pi (by linarith) (by linarith)
      have h4 : 2 / (1 + c) - 1 = Real.tan (θ / 2) ^ 2 := by
        have h5 : c = 2 * Real.cos (θ / 2) ^ 2 - 1 := by
          rw [hcos, ← Real.cos_two_mul]; congr 1; ring
        rw [h5, Real.tan_eq_sin_div_cos, div_pow, Real.sin_sq]; field_simp; ring
      rw [h4, ← Real.sqrt_eq_rpow, Real.sqrt_sq]
      rw [Real.tan_eq_sin_div_cos]; positivity
    have hfpos : 0 < ‖perpPart a E‖ := by
      rw [hlat]; exact Real.rpow_pos_of_pos (foldFactor_pos hdot hlt) _
    rw [htan] at hlat
    rw [← hlat, ← hx0] at hfar
    have hEne : E ≠ 0 := by intro h0; rw [h0] at hfpos; simp [perpPart] at hfpos
    have hEpos : 0 < ‖E‖ := norm_pos_iff.mpr hEne
    have hEle : ‖E‖ ≤ (10 ^ 4 + 1) * ‖perpPart a E‖ := by
      have h5 : ‖E‖ ≤ ‖⟪a, E⟫ • a‖ + ‖perpPart a E‖ := by
        conv_lhs => rw [← perpPart_add a E]
        exact norm_add_le _ _
      rw [norm_smul, ha, mul_one, Real.norm_eq_abs] at h5
      linarith
    -- the normalised direction handed to `from_directions`
    have hperp : perpPart a (unit E - c • a) = (1 / ‖E‖) • perpPart a E := by
      rw [← perpPart_smul]
      change _ = perpPart a (unit E)
      simp only [perpPart, inner_sub_right, inner_smul_right, real_inner_self_eq_norm_sq, ha,
        sub_smul]
      norm_num
    have hg : unit E - c • a ≠ 0 := by
      intro h0; rw [h0] at hperp
      have h6 : (1 / ‖E‖) • perpPart a E = 0 := by rw [← hperp]; simp [perpPart]
      rcases smul_eq_zero.mp h6 with h | h
      · exact absurd h (by positivity)
      · rw [h] at hfpos; simp at hfpos
    have hgn : ‖unit E - c • a‖ ≤ 2 := by
      refine (norm_sub_le _ _).trans ?_
      rw [unit_norm hEne, norm_smul, ha, Real.norm_eq_abs, mul_one]
      have : |c| ≤ 1 := abs_le.mpr ⟨hdot.le, hle⟩
      linarith
    have hgpos : 0 < ‖unit E - c • a‖ := norm_pos_iff.mpr hg
    have hb1 := allclose_perp hd ha (unit_norm hg) hcl
    rw [unit.eq_def (unit E - c • a), perpPart_smul, hperp, norm_smul, norm_smul, Real.norm_eq_abs,
      Real.norm_eq_abs, abs_of_pos (by positivity), abs_of_pos (by positivity)] at hb1
    have h7 : ‖perpPart a E‖ ≤ 2e-5 * (‖unit E - c • a‖ * ‖E‖) := by
      have h8 : 1 / ‖unit E - c • a‖ * (1 / ‖E‖ * ‖perpPart a E‖)
          = ‖perpPart a E‖ / (‖unit E - c • a‖ * ‖E‖) := by field_simp
      rw [h8, div_le_iff₀ (by positivity)] at hb1
      exact hb1
    have h9 : ‖unit E - c • a‖ * ‖E‖ ≤ 2 * ((10 ^ 4 + 1) * ‖perpPart a E‖) :=
      mul_le_mul hgn hEle hEpos.le (by norm_num)
    norm_num at h7 h9
    linarith
  rw [h1, hw, norm_smul_unit]; simp

/-- C67: the obstacle centre is a fixed point of folding. -/
theorem C67_centre_fixed {basis : Vec d → (Vec d ≃ₗᵢ[ℝ] Vec d)} (hb : FirstColumn basis)
    (ref : Option (Vec d)) (A : Vec d) (power : ℝ) (hpow : 0 < power) :
    fold basis ref (centre ref) A power = centre ref := by
  classical
  by_cases hc : centre ref - A = 0
  · unfold fold
    simp only [attractorToObstacle_eq]
    rw [if_pos (by simpa using hc)]
  · have hdot : ⟪unit (centre ref - A), unit (centre ref - A)⟫ = 1 := by
      rw [real_inner_self_eq_norm_sq, unit_norm hc]; norm_num
    have h := fold_eq hb ref (centre ref) A power hpow hc hc (by rw [hdot]; norm_num)
    simp only at h
    have hE : foldedVec (unit (centre ref - A)) (centre ref - A) ‖centre ref - A‖ power = 0 := by
      unfold foldedVec
      rw [hdot, div_self (norm_ne_zero_iff.mpr hc)]
      norm_num
      rw [Real.zero_rpow (by positivity)]; simp
    rw [h, hE]
    have : setFirst (0 : Vec d) ((0 : Vec d) i0 * ‖centre ref - A‖) = 0 := by
      rw [setFirst_eq]; simp
    rw [this]; cases ref <;> simp [absolute, centre]

/-- C67: in the obstacle frame, unfolding changes the array it is called with: its first entry is
divided by the distance between attractor and obstacle.  In the global frame it is unchanged. -/
theorem C67_argument_overwritten (ref : Option (Vec d)) (t A : Vec d) (power : ℝ)
    (hc : centre ref ≠ A) :
    ∀ i, (unfold ref t A power).2 i =
      if ref = none ∧ i = i0 then t i / ‖A‖ else t i := by
  classical
  intro i
  have hD : ‖centre ref - A‖ ≠ 0 := norm_ne_zero_iff.mpr (sub_ne_zero.mpr hc)
  have key : (unfold ref t A power).2 = match ref with
      | none => setFirst t (t i0 / ‖A‖)
      | some _ => t := by
    unfold unfold
    simp only [attractorToObstacle_eq]
    rw [if_neg hD]
    cases ref with
    | none =>
      simp only [relative, centre, Option.getD_none, zero_sub, norm_neg]
      split_ifs
      · rfl
      · split <;> rfl
    | some r =>
      simp only
      split_ifs
      · rfl
      · split <;> rfl
  rw [key]
  cases ref with
  | none =>
    by_cases hi : i = i0
    · subst hi; simp [setFirst]
    · simp [setFirst, hi]
  | some r => simp

/-- A basis as `get_orthogonal_basis` promises it exists in every dimension. -/
theorem firstColumn_exists : ∃ basis : Vec d → (Vec d ≃ₗᵢ[ℝ] Vec d), FirstColumn basis := by
  have h : ∀ v : Vec d, ∃ B : Vec d ≃ₗᵢ[ℝ] Vec d, ‖v‖ = 1 → B (EuclideanSpace.single i0 1) = v := by
    intro v
    refine ⟨(ℝ ∙ ((EuclideanSpace.single i0 1 : Vec d) - v))ᗮ.reflection, fun hv => ?_⟩
    exact Submodule.reflection_sub (by rw [hv]; simp)
  choose basis hb using h
  exact ⟨basis, hb⟩

lemma merge_close {N s x y : ℝ} (hlo : 10 ^ 6 < N) (hhi : N < 10 ^ 6 + 1) (hs2 : |s| = 1) (hx : 1 / 2 ≤ x)
    (hx' : x ≤ 4 / 5) (hy : |y| ≤ 4 / 5) :
    |N * x - (10 ^ 6 * x + s * y)| / N ≤ 1e-8 + 1e-5 * (|10 ^ 6 * x + s * y| / N) := by
  have hNp : 0 < N := by linarith
  have hsy : |s * y| ≤ 4 / 5 := by rw [abs_mul, hs2, one_mul]; exact hy
  generalize s * y = z at *
  have hz := abs_le.1 hsy
  have hNx : N * x ≤ 10 ^ 6 * x + 1 := by nlinarith
  have hNx' : 10 ^ 6 * x ≤ N * x := by nlinarith
  have h2 : |N * x - (10 ^ 6 * x + z)| ≤ 9 / 5 := by
    rw [abs_le]; constructor <;> linarith [hz.1, hz.2]
  have h3 : 4 * 10 ^ 5 ≤ |10 ^ 6 * x + z| := le_trans (by linarith [hz.1]) (le_abs_self _)
  rw [div_le_iff₀ hNp]
  have h4 : (1e-8 + 1e-5 * (|10 ^ 6 * x + z| / N)) * N = 1e-8 * N + 1e-5 * |10 ^ 6 * x + z| := by
    field_simp
  rw [h4]
  have h5 : (0 : ℝ) ≤ 1e-8 * N := by positivity
  have h6 : (1e-5 : ℝ) * (4 * 10 ^ 5) ≤ 1e-5 * |10 ^ 6 * x + z| := mul_le_mul_of_nonneg_left h3 (by norm_num)
  have h7 : (9 / 5 : ℝ) ≤ 1e-5 * (4 * 10 ^ 5) := by norm_num
  linarith

/-- C67, negative result: within the tolerance of `from_directions` the side of the position is lost: far from the
obstacle (distance of the attractor `10 ^ 6`), two positions on opposite sides of the attractor are folded and unfolded to the
same position, so that at least one of them is not given back. -/
theorem C67_sides_merge {basis : Vec 2 → (Vec 2 ≃ₗᵢ[ℝ] Vec 2)} (hb : FirstColumn basis) :
    ∃ A p p' q : Vec 2, ‖p - A‖ = ‖p' - A‖ ∧ p' - A = -(p - A) ∧ p ≠ p'
      ∧ (unfold none (fold basis none p A) A).1 = some q ∧ (unfold none (fold basis none p' A) A).1 = some q := by
  set a : Vec 2 := !₂[3 / 5, 4 / 5] with ha
  set b : Vec 2 := !₂[-4 / 5, 3 / 5] with hb'
  have na : ‖a‖ = 1 := by
    rw [EuclideanSpace.norm_eq, Real.sqrt_eq_one, ha]
    simp [Fin.sum_univ_two]; norm_num
  have nb : ‖b‖ = 1 := by
    rw [EuclideanSpace.norm_eq, Real.sqrt_eq_one, hb']
    simp [Fin.sum_univ_two]; norm_num
  have hab : ⟪b, a⟫ = 0 := by
    simp [ha, hb', PiLp.inner_apply, Fin.sum_univ_two]; norm_num
  have hba : ⟪a, b⟫ = 0 := by rw [real_inner_comm]; exact hab
  have he := Real.exp_pos 1
  set D : ℝ := 10 ^ 6 with hD
  have hDp : 0 < D := by rw [hD]; positivity
  -- the result for one side
  have key : ∀ s : ℝ, (s = 1 ∨ s = -1) →
      (unfold none (fold basis none ((-D) • a + (s * (Real.exp 1 * D)) • b) ((-D) • a)) ((-D) • a)).1
        = some ((Real.exp 1 * D) • parallelPerp a + (-D) • a) := by
    intro s hs
    have hs2 : |s| = 1 := by rcases hs with h | h <;> rw [h] <;> simp
    have hs0 : s ≠ 0 := by rcases hs with h | h <;> rw [h] <;> norm_num
    have hcen : centre (none : Option (Vec 2)) - (-D) • a = D • a := by simp [centre]
    have hv : (-D) • a + (s * (Real.exp 1 * D)) • b - (-D) • a = (s * (Real.exp 1 * D)) • b := by abel
    have hvn : ‖(s * (Real.exp 1 * D)) • b‖ = Real.exp 1 * D := by
      rw [norm_smul, nb, mul_one, Real.norm_eq_abs, abs_mul, hs2, one_mul, abs_of_pos (by positivity)]
    have hvu : unit ((s * (Real.exp 1 * D)) • b) = s • b := by
      rw [unit, hvn, smul_smul]
      congr 1
      field_simp
    have hDa : ‖D • a‖ = D := by rw [norm_smul, na, mul_one, Real.norm_of_nonneg hDp.le]
    have hau : unit (D • a) = a := by
      rw [unit, hDa, smul_smul, one_div, inv_mul_cancel₀ hDp.ne', one_smul]
    have hin : ⟪unit ((s * (Real.exp 1 * D)) • b), a⟫ = 0 := by rw [hvu, inner_smul_left, hab, mul_zero]
    obtain ⟨w, h1, -, -, -, h5⟩ := unfold_fold hb none ((-D) • a + (s * (Real.exp 1 * D)) • b) ((-D) • a) 2 two_pos
      (by rw [hcen, ← norm_ne_zero_iff, hDa]; exact hDp.ne')
      (by rw [hv, ← norm_ne_zero_iff, hvn]; positivity)
      (by rw [hcen, hv, hau, hin]; norm_num)
    rw [hcen, hv, hau, hin] at h5
    rw [hv, hvn] at h1
    have hE : foldedVec a ((s * (Real.exp 1 * D)) • b) ‖D • a‖ 2 = D • a + s • b := by
      have hperp : perpPart a ((s * (Real.exp 1 * D)) • b) = (s * (Real.exp 1 * D)) • b := by
        rw [perpPart, inner_smul_right, hba, mul_zero, zero_smul, sub_zero]
      unfold foldedVec
      rw [hperp, hvu, hvn, inner_smul_left, hab, hDa, mul_div_assoc, div_self hDp.ne', mul_one, Real.log_exp]
      norm_num
    rw [h1]
    have hcl : allclose a (unit (unit (foldedVec a ((s * (Real.exp 1 * D)) • b) ‖D • a‖ 2) - (0 : ℝ) • a)) := by
      rw [zero_smul, sub_zero, hE]
      have hn2 : ‖D • a + s • b‖ ^ 2 = D ^ 2 + 1 := by
        rw [← real_inner_self_eq_norm_sq, inner_add_left, inner_add_right, inner_add_right]
        simp only [inner_smul_left, inner_smul_right, hab, hba, real_inner_self_eq_norm_sq, na, nb]
        have : s ^ 2 = 1 := by rw [← sq_abs, hs2]; norm_num
        simp
        nlinarith
      have hlo : D < ‖D • a + s • b‖ := by nlinarith [norm_nonneg (D • a + s • b)]
      have hhi : ‖D • a + s • b‖ < D + 1 := by nlinarith [norm_nonneg (D • a + s • b)]
      have hu : ‖D • a + s • b‖ ≠ 0 := (hDp.trans hlo).ne'
      rw [unit_unit (by rwa [← norm_ne_zero_iff])]
      rw [unit]
      generalize hN : ‖D • a + s • b‖ = N at *
      have hNp : 0 < N := hDp.trans hlo
      intro i
      have habs : ∀ x y : ℝ, |x - y / N| = |N * x - y| / N := fun x y => by
        rw [show x - y / N = (N * x - y) / N by field_simp, abs_div, abs_of_pos hNp]
      have hcoord : ((1 / N) • (D • a + s • b)) i = (D * a i + s * b i) / N := by
        simp; ring
      unfold isclose
      rw [hcoord, habs, abs_div, abs_of_pos hNp]
      rw [hD] at *
      have e1 : a 0 = 3 / 5 := by rw [ha]; rfl
      have e2 : a 1 = 4 / 5 := by rw [ha]; rfl
      have e3 : b 0 = -4 / 5 := by rw [hb']; rfl
      have e4 : b 1 = 3 / 5 := by rw [hb']; rfl
      fin_cases i
      · show |N * a 0 - (10 ^ 6 * a 0 + s * b 0)| / N ≤ _ + _ * (|10 ^ 6 * a 0 + s * b 0| / N)
        rw [e1, e3]
        exact merge_close hlo hhi hs2 (by norm_num) (by norm_num) (by rw [abs_le]; constructor <;> norm_num)
      · show |N * a 1 - (10 ^ 6 * a 1 + s * b 1)| / N ≤ _ + _ * (|10 ^ 6 * a 1 + s * b 1| / N)
        rw [e2, e4]
        exact merge_close hlo hhi hs2 (by norm_num) (by norm_num) (by rw [abs_le]; constructor <;> norm_num)
    rw [h5 hcl]
    simp
  refine ⟨(-D) • a, (-D) • a + (1 * (Real.exp 1 * D)) • b, (-D) • a + (-1 * (Real.exp 1 * D)) • b, _, ?_, ?_, ?_,
    key 1 (Or.inl rfl), key (-1) (Or.inr rfl)⟩
  · rw [add_sub_cancel_left, add_sub_cancel_left, norm_smul, norm_smul]
    simp
  · module
  · intro h
    have h1 := add_left_cancel h
    have h3 : (2 * (Real.exp 1 * D)) • b = 0 := by
      rw [show (2 * (Real.exp 1 * D)) • b = (1 * (Real.exp 1 * D)) • b - (-1 * (Real.exp 1 * D)) • b by module, h1, sub_self]
    have h4 : ‖(2 * (Real.exp 1 * D)) • b‖ = 0 := by rw [h3, norm_zero]
    rw [norm_smul, nb, mul_one, Real.norm_of_nonneg (by positivity)] at h4
    have : 0 < 2 * (Real.exp 1 * D) := by positivity
    exact this.ne' h4

/-- C67 is not vacuous: attractor at `(-2, 0)`, obstacle at the origin, position `(-2, 2)`. -/
example : ∃ (basis : Vec 2 → (Vec 2 ≃ₗᵢ[ℝ] Vec 2)) (A p : Vec 2), FirstColumn basis
    ∧ centre (none : Option (Vec 2)) ≠ A ∧ p ≠ A
    ∧ ¬ Opposite (p - A) (centre (none : Option (Vec 2)) - A)
    ∧ |‖centre none - A‖ * Real.log (‖p - A‖ / ‖centre none - A‖)|
        ≤ 10 ^ 4 * Real.tan (InnerProductGeometry.angle (p - A) (centre none - A) / 2) := by
  obtain ⟨basis, hb⟩ := firstColumn_exists (d := 2)
  have e1 : (!₂[-2, 2] : Vec 2) - !₂[-2, 0] = EuclideanSpace.single 1 2 := by
    ext i; fin_cases i <;> simp
  have e2 : centre (none : Option (Vec 2)) - !₂[-2, 0] = EuclideanSpace.single 0 2 := by
    ext i; fin_cases i <;> simp [centre]
  have horth : ⟪(EuclideanSpace.single 1 2 : Vec 2), EuclideanSpace.single 0 2⟫ = 0 := by
    rw [EuclideanSpace.inner_single_left]; simp
  refine ⟨basis, !₂[-2, 0], !₂[-2, 2], hb, ?_, ?_, ?_, ?_⟩
  · rw [← sub_ne_zero, e2]; simp
  · rw [← sub_ne_zero, e1]; simp
  · rw [e1, e2]
    rintro ⟨c, _, h⟩
    have := congrArg (fun v : Vec 2 => v 0) h
    simp at this
  · rw [e1, e2]
    simp only [EuclideanSpace.norm_single]
    have h2 : ‖(2 : ℝ)‖ ≠ 0 := by norm_num
    rw [div_self h2, Real.log_one, mul_zero, abs_zero]
    rw [InnerProductGeometry.inner_eq_zero_iff_angle_eq_pi_div_two _ _ |>.mp horth]
    have : Real.pi / 2 / 2 = Real.pi / 4 := by ring
    rw [this, Real.tan_pi_div_four]; norm_num

end Verif
