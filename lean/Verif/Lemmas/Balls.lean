import Verif.Lemmas.BallTrajectory
import Verif.Spec.Balls

/-! # Helper lemmas: the velocity of the avoider among several balls -/

open scoped RealInnerProductSpace

namespace Verif
open Spec

/-- The exponential map of the sphere does not increase distances. -/
lemma exp_contracts {V : Type*} [NormedAddCommGroup V] [InnerProductSpace ℝ V] {v a b : V} (hv : ‖v‖ = 1)
    (ha : ⟪v, a⟫ = 0) (hb : ⟪v, b⟫ = 0) : ‖sphereExp v a - sphereExp v b‖ ≤ ‖a - b‖ := by
  by_cases ha0 : a = 0
  · subst ha0
    rw [star_exp_zero, zero_sub, norm_neg]
    have h1 := star_exp_angle hv hb
    set y := sphereExp v b with hy
    have hy1 : ‖y‖ = 1 := star_exp_unit hv hb
    refine le_trans ?_ h1
    set θ := InnerProductGeometry.angle v y with hθ
    have hcos : Real.cos θ = ⟪v, y⟫ := by rw [hθ, InnerProductGeometry.cos_angle, hv, hy1]; simp
    refine (sq_le_sq₀ (norm_nonneg _) (InnerProductGeometry.angle_nonneg _ _)).mp ?_
    rw [norm_sub_sq_real, hv, hy1, ← hcos]
    have := Real.one_sub_sq_div_two_le_cos (x := θ)
    linarith
  by_cases hb0 : b = 0
  · subst hb0
    rw [star_exp_zero, sub_zero, norm_sub_rev]
    have h1 := star_exp_angle hv ha
    set y := sphereExp v a with hy
    have hy1 : ‖y‖ = 1 := star_exp_unit hv ha
    refine le_trans ?_ h1
    set θ := InnerProductGeometry.angle v y with hθ
    have hcos : Real.cos θ = ⟪v, y⟫ := by rw [hθ, InnerProductGeometry.cos_angle, hv, hy1]; simp
    refine (sq_le_sq₀ (norm_nonneg _) (InnerProductGeometry.angle_nonneg _ _)).mp ?_
    rw [norm_sub_sq_real, hv, hy1, ← hcos]
    have := Real.one_sub_sq_div_two_le_cos (x := θ)
    linarith
  set A := ‖a‖ with hA
  set B := ‖b‖ with hB
  have hAp : 0 < A := norm_pos_iff.mpr ha0
  have hBp : 0 < B := norm_pos_iff.mpr hb0
  set c := ⟪unit a, unit b⟫ with hc
  have hc1 : c ≤ 1 := by
    have := real_inner_le_norm (unit a) (unit b)
    rw [unit_norm ha0, unit_norm hb0] at this
    linarith
  have hab : ⟪a, b⟫ = A * B * c := by
    rw [hc]; unfold unit
    rw [real_inner_smul_left, real_inner_smul_right, ← hA, ← hB]
    field_simp
  have hva : ⟪v, unit a⟫ = 0 := by unfold unit; rw [real_inner_smul_right, ha, mul_zero]
  have hvb : ⟪v, unit b⟫ = 0 := by unfold unit; rw [real_inner_smul_right, hb, mul_zero]
  have hin : ⟪sphereExp v a, sphereExp v b⟫ = Real.cos A * Real.cos B + Real.sin A * Real.sin B * c := by
    unfold sphereExp
    rw [inner_add_left, inner_add_right, inner_add_right, real_inner_smul_left, real_inner_smul_left,
      real_inner_smul_left, real_inner_smul_left, real_inner_smul_right, real_inner_smul_right, real_inner_smul_right,
      real_inner_smul_right, hvb, real_inner_comm v (unit a), hva, real_inner_self_eq_norm_sq, hv, ← hc, ← hA, ← hB]
    ring
  refine (sq_le_sq₀ (norm_nonneg _) (norm_nonneg _)).mp ?_
  rw [norm_sub_sq_real, norm_sub_sq_real, star_exp_unit hv ha, star_exp_unit hv hb, hin, hab, ← hA, ← hB]
  have h1 : Real.sin A * Real.sin B ≤ A * B := by
    have e1 := Real.abs_sin_le_abs (x := A)
    have e2 := Real.abs_sin_le_abs (x := B)
    rw [abs_of_pos hAp] at e1
    rw [abs_of_pos hBp] at e2
    calc Real.sin A * Real.sin B ≤ |Real.sin A * Real.sin B| := le_abs_self _
      _ = |Real.sin A| * |Real.sin B| := abs_mul _ _
      _ ≤ A * B := mul_le_mul e1 e2 (abs_nonneg _) hAp.le
  have h2 := Real.one_sub_sq_div_two_le_cos (x := A - B)
  rw [Real.cos_sub] at h2
  nlinarith [mul_le_mul_of_nonneg_right h1 (sub_nonneg.mpr hc1)]

/-- The limited weights if one of the weights is close to one. -/
lemma limited_split (l r : List ℝ) (w m N : ℝ) (hm : 0 < m) (hw0 : 0 ≤ w) (hw1 : w < 1)
    (hl : ∀ y ∈ l, 0 ≤ y ∧ y ≤ 1 / (1 + m)) (hr : ∀ y ∈ r, 0 ≤ y ∧ y ≤ 1 / (1 + m))
    (hN : ((l.length + r.length : ℕ) : ℝ) ≤ N) :
    ∃ l' w' r', (getLimitedWeightsToMaxSum (l ++ w :: r)).1 = l' ++ w' :: r' ∧ l'.length = l.length
      ∧ r'.length = r.length ∧ (∀ y ∈ l', 0 ≤ y) ∧ (∀ y ∈ r', 0 ≤ y) ∧ 0 ≤ w' ∧ l'.sum + w' + r'.sum ≤ 1
      ∧ 1 - w' ≤ 2 * (1 - w) * max 1 (N / m) ∧ l'.sum + r'.sum ≤ 2 * (1 - w) * max 1 (N / m) := by
  classical
  have hM : (1 : ℝ) ≤ max 1 (N / m) := le_max_left _ _
  have h1w : 0 < 1 - w := by linarith
  have hlt : ∀ y : ℝ, y ≤ 1 / (1 + m) → y < 1 := fun y hy =>
    lt_of_le_of_lt hy (by rw [div_lt_one (by linarith)]; linarith)
  have hK : 1 - w ≤ 2 * (1 - w) * max 1 (N / m) := by nlinarith
  unfold getLimitedWeightsToMaxSum
  by_cases hs : (l ++ w :: r).sum < 1
  · rw [if_pos hs]
    have hs' : l.sum + w + r.sum < 1 := by simpa [add_assoc] using hs
    exact ⟨l, w, r, rfl, rfl, rfl, fun y hy => (hl y hy).1, fun y hy => (hr y hy).1, hw0, hs'.le, hK, by linarith⟩
  · rw [if_neg hs, if_neg]
    swap
    · rintro ⟨y, hy, h⟩
      rcases List.mem_append.mp hy with h' | h'
      · exact absurd (hlt y (hl y h').2) (not_lt.mpr h)
      · rcases List.mem_cons.mp h' with rfl | h'
        · linarith
        · exact absurd (hlt y (hr y h').2) (not_lt.mpr h)
    have hs' : 1 ≤ l.sum + w + r.sum := by
      have := not_lt.mp hs
      simpa [add_assoc] using this
    set f : ℝ → ℝ := fun w => 1 / (1 - w) - 1 with hf
    have hfle : ∀ y, 0 ≤ y → y ≤ 1 / (1 + m) → y ≤ f y ∧ f y ≤ 1 / m := by
      intro y y0 y1
      have hy1 := hlt y y1
      have hp : 0 < 1 - y := by linarith
      have e : f y = y / (1 - y) := by
        simp only [hf]; field_simp; ring
      rw [e]
      constructor
      · rw [le_div_iff₀ hp]; nlinarith
      · rw [le_div_iff₀ (by linarith)] at y1
        rw [div_le_div_iff₀ hp hm]; nlinarith
    have hsum : ∀ l : List ℝ, (∀ y ∈ l, 0 ≤ y ∧ y ≤ 1 / (1 + m)) →
        l.sum ≤ (l.map f).sum ∧ (l.map f).sum ≤ l.length * (1 / m) := by
      intro l
      induction l with
      | nil => intro _; simp
      | cons y l ih =>
        intro h
        obtain ⟨i1, i2⟩ := ih (fun z hz => h z (List.mem_cons_of_mem _ hz))
        obtain ⟨j1, j2⟩ := hfle y (h y List.mem_cons_self).1 (h y List.mem_cons_self).2
        simp only [List.map_cons, List.sum_cons, List.length_cons, Nat.cast_add, Nat.cast_one]
        constructor <;> linarith
    obtain ⟨l1, l2⟩ := hsum l hl
    obtain ⟨r1, r2⟩ := hsum r hr
    have hl0 : 0 ≤ l.sum := List.sum_nonneg (fun y hy => (hl y hy).1)
    have hr0 : 0 ≤ r.sum := List.sum_nonneg (fun y hy => (hr y hy).1)
    have efw : f w = w / (1 - w) := by simp only [hf]; field_simp; ring
    have hfw : w ≤ f w := by rw [efw, le_div_iff₀ h1w]; nlinarith
    set Fl := (l.map f).sum with hFl
    set Fr := (r.map f).sum with hFr
    set total := Fl + f w + Fr with htot
    have hT : 1 ≤ total := by linarith
    have hTp : 0 < total := by linarith
    have hstot : ((l ++ w :: r).map f).sum = total := by
      simp [htot, hFl, hFr, add_assoc]
    have hLR : Fl + Fr ≤ N / m := by
      have : ((l.length + r.length : ℕ) : ℝ) * (1 / m) ≤ N * (1 / m) := mul_le_mul_of_nonneg_right hN (by positivity)
      push_cast at this
      rw [div_eq_mul_one_div]
      linarith
    have hpos : ∀ l : List ℝ, (∀ y ∈ l, 0 ≤ y ∧ y ≤ 1 / (1 + m)) → ∀ y ∈ (l.map f).map (· / total), 0 ≤ y := by
      intro l h y hy
      obtain ⟨z, hz, rfl⟩ := List.mem_map.mp hy
      obtain ⟨q, hq, rfl⟩ := List.mem_map.mp hz
      have := (hfle q (h q hq).1 (h q hq).2).1
      exact div_nonneg ((h q hq).1.trans this) hTp.le
    have hdiv : ∀ l : List ℝ, (l.map (· / total)).sum = l.sum / total := by
      intro l
      induction l with
      | nil => simp
      | cons y l ih => simp only [List.map_cons, List.sum_cons, ih]; ring
    have hrest : (Fl + Fr) / total ≤ 2 * (1 - w) * max 1 (N / m) := by
      by_cases hh : w < 1 / 2
      · have e1 : (Fl + Fr) / total ≤ 1 := by
          rw [div_le_one hTp]; linarith
        have e2 : 1 ≤ 2 * (1 - w) := by linarith
        nlinarith
      · push Not at hh
        have e0 : 1 / 2 ≤ (1 - w) * f w := by
          rw [efw, mul_div_cancel₀ _ h1w.ne']; exact hh
        rw [div_le_iff₀ hTp]
        have e3 : 1 ≤ 2 * (1 - w) * total := by
          have : (1 - w) * f w ≤ (1 - w) * total := mul_le_mul_of_nonneg_left (by linarith) h1w.le
          linarith
        have e4 : Fl + Fr ≤ max 1 (N / m) := hLR.trans (le_max_right _ _)
        have : max 1 (N / m) * 1 ≤ max 1 (N / m) * (2 * (1 - w) * total) :=
          mul_le_mul_of_nonneg_left e3 (by linarith)
        nlinarith
    refine ⟨(l.map f).map (· / total), f w / total, (r.map f).map (· / total), ?_, by simp, by simp, hpos l hl, hpos r hr,
      div_nonneg (hw0.trans hfw) hTp.le, ?_, ?_, ?_⟩
    · simp only [normalised]
      rw [show (l ++ w :: r).map (fun w => 1 / (1 - w) - 1) = (l ++ w :: r).map f from rfl, hstot]
      simp
    · rw [hdiv, hdiv, ← add_div, ← add_div, div_self hTp.ne']
    · have : 1 - f w / total = (Fl + Fr) / total := by
        rw [eq_div_iff hTp.ne', sub_mul, div_mul_cancel₀ _ hTp.ne']; rw [htot]; ring
      rw [this]; exact hrest
    · rw [hdiv, hdiv, ← add_div]; exact hrest

variable {d k : ℕ} [Fact (2 ≤ d)]
set_option linter.unusedSectionVars false

/-- The length of the coordinates of a direction. -/
lemma coordinate_norm {ext : Ext d k} (hE : DirectionSpace ext) {m v : Vec d} (hm : ‖m‖ = 1) (hv : ‖v‖ = 1)
    (hq : -1 < ⟪m, v⟫) : ext.angleOf m m = 0 ∧ ‖ext.angleOf m v‖ = InnerProductGeometry.angle m v := by
  obtain ⟨E, _, hE2, _⟩ := hE.chart m hm
  have hop : ¬ Opposite m v := by
    rintro ⟨s, s0, e⟩
    have h1 : |s| = 1 := by
      have := congrArg norm e
      rw [norm_smul, hv, hm, mul_one, Real.norm_eq_abs, abs_neg] at this
      exact this.symm
    rw [e, real_inner_smul_right, real_inner_self_eq_norm_sq, hm] at hq
    rw [abs_of_pos s0] at h1
    linarith
  have a1 : ext.angleOf m m = 0 := by
    have := hE2 m hm (not_opposite_self hm)
    rw [star_log_self] at this
    exact E.injective (by rw [this, map_zero])
  refine ⟨a1, ?_⟩
  rw [← E.norm_map, hE2 v hv hop]
  by_cases hmv : m = v
  · subst hmv
    rw [star_log_self, norm_zero, InnerProductGeometry.angle_self]
    rintro rfl; simp at hm
  · have hz : v - ⟪m, v⟫ • m ≠ 0 := by
      intro h0
      have e := sub_eq_zero.mp h0
      have h2 := congrArg norm e
      rw [norm_smul, hv, hm, mul_one, Real.norm_eq_abs] at h2
      rcases le_or_gt 0 ⟪m, v⟫ with h | h
      · rw [abs_of_nonneg h] at h2
        rw [← h2, one_smul] at e
        exact hmv e.symm
      · rw [abs_of_neg h] at h2; linarith
    unfold sphereLog
    rw [norm_smul, unit_norm hz, mul_one, Real.norm_of_nonneg (InnerProductGeometry.angle_nonneg _ _)]

lemma angle_le_half {m v : Vec d} (hm : ‖m‖ = 1) (hv : ‖v‖ = 1) :
    InnerProductGeometry.angle m v ≤ Real.pi / 2 ↔ 0 ≤ ⟪m, v⟫ := by
  have h := InnerProductGeometry.cos_angle m v
  rw [hm, hv, mul_one, div_one] at h
  rw [← h]
  constructor
  · intro h1
    exact Real.cos_nonneg_of_neg_pi_div_two_le_of_le (by linarith [InnerProductGeometry.angle_nonneg m v, Real.pi_pos]) h1
  · intro h1
    by_contra hc
    push Not at hc
    have := Real.cos_neg_of_pi_div_two_lt_of_lt hc (by linarith [InnerProductGeometry.angle_le_pi m v, Real.pi_pos])
    linarith

/-- The weight of a ball for a motion which is neither straight towards it nor straight away from it. -/
lemma oblique_weight {ext : Ext d k} (hE : DirectionSpace ext) {n v : Vec d} (hn : ‖n‖ = 1) (hv : ‖v‖ = 1)
    {φ : ℝ} (hφ : 0 < φ) (hφ2 : φ ≤ Real.pi / 2) (h1 : φ ≤ InnerProductGeometry.angle (-n) v)
    (h2 : φ ≤ InnerProductGeometry.angle n v) {g power w : ℝ} (hg : 1 < g) (hp : 0 ≤ power)
    (h : getRotationWeight ext.angleOf n (-n) v g (power := power) = .ok w) :
    1 - w ≤ ballPower power φ * (g - 1) := by
  classical
  have hpp := Real.pi_pos
  have hg0 : 0 < g := by linarith
  have hcos : Real.cos (Real.pi * 0.5) = 0 := by
    rw [show Real.pi * 0.5 = Real.pi / 2 by ring, Real.cos_pi_div_two]
  have h3 : 1 - 1 / g ≤ g - 1 := by
    rw [sub_le_iff_le_add, show g - 1 + 1 / g = (g ^ 2 - g + 1) / g by field_simp, le_div_iff₀ hg0]
    nlinarith
  have h30 : 0 ≤ 1 - 1 / g := by
    rw [sub_nonneg, div_le_one hg0]; exact hg.le
  have hPφ : 1 ≤ ballPower power φ := by
    unfold ballPower
    exact Real.one_le_rpow (by rw [le_div_iff₀ hφ]; linarith) hp
  have core : ∀ m : Vec d, ‖m‖ = 1 → 0 ≤ ⟪m, v⟫ → φ ≤ InnerProductGeometry.angle m v →
      (let angles := (ext.angleOf m m, ext.angleOf m v)
       let deltaAngle := ‖angles.1 - angles.2‖
       let refRadius := min (Real.pi * 0.5) (Real.pi * 0.5) - ‖angles.1‖
       if refRadius ≤ deltaAngle then (.ok (1 / g) : Except PyErr ℝ)
       else if deltaAngle = 0 then
         if power > 0 then .ok 0
         else if power = 0 then .ok ((1 / g) ^ (1 : ℝ))
         else .error .breakpoint
       else
         let rotationPower := (refRadius / deltaAngle) ^ power
         if rotationPower < 1 then .error .breakpoint
         else .ok ((1 / g) ^ rotationPower)) = .ok w → 1 - w ≤ ballPower power φ * (g - 1) := by
    intro m hm hq hang h
    obtain ⟨a1, a2⟩ := coordinate_norm hE hm hv (by linarith)
    simp only [a1, zero_sub, norm_neg, a2, norm_zero, sub_zero, min_self] at h
    set β := InnerProductGeometry.angle m v with hβ
    have hβ0 : 0 < β := by linarith
    by_cases hb : Real.pi * 0.5 ≤ β
    · rw [if_pos hb] at h
      injection h with h
      rw [← h]
      nlinarith
    · rw [if_neg hb, if_neg hβ0.ne'] at h
      push Not at hb
      have hbe : (Real.pi * 0.5 / β) ^ power = ballPower power β := by
        unfold ballPower; congr 2; ring
      have hb1 : 1 ≤ ballPower power β := by
        unfold ballPower
        exact Real.one_le_rpow (by rw [le_div_iff₀ hβ0]; linarith) hp
      rw [hbe, if_neg (not_lt.mpr hb1)] at h
      have hw : w = (1 / g) ^ ballPower power β := by injection h with h; exact h.symm
      have hgi : -1 ≤ 1 / g - 1 := by
        have : 0 < 1 / g := by positivity
        linarith
      have hbern := one_add_mul_self_le_rpow_one_add (s := 1 / g - 1) hgi hb1
      rw [show 1 + (1 / g - 1) = 1 / g by ring, ← hw] at hbern
      have hmono : ballPower power β ≤ ballPower power φ := by
        unfold ballPower
        refine Real.rpow_le_rpow (by positivity) ?_ hp
        exact div_le_div_of_nonneg_left (by positivity) hφ hang
      nlinarith
  unfold getRotationWeight at h
  rw [if_neg (not_le.mpr hg)] at h
  by_cases hcond : ⟪v, n⟫ > Real.cos (Real.pi * 0.5)
  · simp only [if_pos hcond, neg_one_smul, neg_neg] at h
    rw [hcos, real_inner_comm] at hcond
    exact core n hn hcond.le h2 h
  · simp only [if_neg hcond, neg_one_smul] at h
    rw [hcos, real_inner_comm] at hcond
    exact core (-n) (by rwa [norm_neg]) (by rw [inner_neg_left]; linarith) h1 h

/-- The angle of a motion and its tangential part. -/
lemma tangential_angle {n v : Vec d} (hn : ‖n‖ = 1) (hv : ‖v‖ = 1) (hq : ⟪n, v⟫ ^ 2 < 1) {φ : ℝ} (hφ : 0 < φ)
    (h : (⟪n, v⟫ ≤ 0 ∧ φ ≤ InnerProductGeometry.angle (-n) v) ∨ (0 ≤ ⟪n, v⟫ ∧ φ ≤ InnerProductGeometry.angle n v)) :
    InnerProductGeometry.angle v (unit (v - ⟪n, v⟫ • n)) ≤ Real.pi / 2 - φ := by
  have key : ∀ m : Vec d, ‖m‖ = 1 → ⟪m, v⟫ ^ 2 < 1 → 0 ≤ ⟪m, v⟫ → φ ≤ InnerProductGeometry.angle m v →
      InnerProductGeometry.angle v (unit (v - ⟪m, v⟫ • m)) ≤ Real.pi / 2 - φ := by
    intro m hm hqm h0 hang
    obtain ⟨hz, hpos, horth⟩ := ball_perp hm hv hqm
    set e := unit (v - ⟪m, v⟫ • m) with he
    have he1 : ‖e‖ = 1 := unit_norm hz
    have hsq : ⟪v, e⟫ ^ 2 = 1 - ⟪m, v⟫ ^ 2 := by
      have e1 : ‖v - ⟪m, v⟫ • m‖ ^ 2 = 1 - ⟪m, v⟫ ^ 2 := by
        rw [← real_inner_self_eq_norm_sq, inner_sub_left, inner_sub_right, inner_sub_right,
          real_inner_smul_left, real_inner_smul_left, real_inner_smul_right, real_inner_smul_right,
          real_inner_self_eq_norm_sq, real_inner_self_eq_norm_sq, hm, hv, real_inner_comm m v]
        ring
      have e2 : ⟪v, e⟫ = ‖v - ⟪m, v⟫ • m‖ := by
        have hne : ‖v - ⟪m, v⟫ • m‖ ≠ 0 := norm_ne_zero_iff.mpr hz
        rw [he]; unfold unit
        rw [real_inner_smul_right, inner_sub_right, real_inner_smul_right, real_inner_self_eq_norm_sq, hv,
          real_inner_comm m v]
        rw [one_div, inv_mul_eq_iff_eq_mul₀ hne, ← sq ‖v - ⟪m, v⟫ • m‖, e1]; ring
      rw [e2, e1]
    have hψ := InnerProductGeometry.cos_angle m v
    rw [hm, hv, mul_one, div_one] at hψ
    set ψ := InnerProductGeometry.angle m v with hψd
    have hψ2 : ψ ≤ Real.pi / 2 := (angle_le_half hm hv).mpr h0
    have hψ0 : 0 ≤ ψ := InnerProductGeometry.angle_nonneg _ _
    have hsin : ⟪v, e⟫ = Real.sin ψ := by
      have e3 : 0 ≤ Real.sin ψ := Real.sin_nonneg_of_nonneg_of_le_pi hψ0 (by linarith [Real.pi_pos])
      refine (sq_eq_sq₀ hpos.le e3).mp ?_
      rw [hsq, ← hψ, Real.sin_sq]
    have hang2 : InnerProductGeometry.angle v e = Real.pi / 2 - ψ := by
      unfold InnerProductGeometry.angle
      rw [hv, he1, mul_one, div_one, hsin, ← Real.cos_pi_div_two_sub, Real.arccos_cos (by linarith) (by linarith [Real.pi_pos])]
    rw [hang2]; linarith
  rcases h with ⟨h1, h2⟩ | ⟨h1, h2⟩
  · have := key (-n) (by rwa [norm_neg]) (by rw [inner_neg_left, neg_sq]; exact hq) (by rw [inner_neg_left]; linarith) h2
    simpa using this
  · exact key n hn hq h1 h2

/-- What the tangent of a ball contributes. -/
structure BallTangent (φ : ℝ) (n v τ : Vec d) : Prop where
  unit : ‖τ‖ = 1
  not_opposite : ¬ Opposite v τ
  angle : InnerProductGeometry.angle v τ ≤ Real.pi / 2 - φ
  target : 0 ≤ ⟪n, sphereExp v (codeLog v τ)⟫
    ∨ (|⟪n, v⟫| ≤ closeness d ∧ -((1 + Real.pi / 2) * closeness d) ≤ ⟪n, sphereExp v (codeLog v τ)⟫)

lemma ballTangent_self {φ : ℝ} (hφ : φ ≤ Real.pi / 2) {n v : Vec d} (hv : ‖v‖ = 1) (hq : 0 ≤ ⟪n, v⟫) :
    BallTangent φ n v v := by
  have hv0 : v ≠ 0 := by rintro rfl; simp at hv
  refine ⟨hv, not_opposite_self hv, ?_, Or.inl ?_⟩
  · rw [InnerProductGeometry.angle_self hv0]; linarith
  · rw [codeLog_self hv, star_exp_zero]; exact hq

lemma oblique_tangent {ext : Ext d k} (hE : DirectionSpace ext) {R : ℝ} (hR : R = Real.pi * 0.5) {o : Obstacle d}
    {c : Vec d} {r κ : ℝ} (hb : IsBall o c r κ) {x v τ : Vec d} (hx : r < ‖x - c‖) (hv : ‖v‖ = 1) {φ : ℝ}
    (hφ : 0 < φ) (hφ2 : φ ≤ Real.pi / 2) (h1 : φ ≤ InnerProductGeometry.angle (-unit (x - c)) v)
    (h2 : o.tailEffect = true → φ ≤ InnerProductGeometry.angle (unit (x - c)) v)
    (h : TangentOf ext R o x v τ) : BallTangent φ (unit (x - c)) v τ := by
  have hxc : x - c ≠ 0 := by rintro h0; rw [h0, norm_zero] at hx; linarith [hb.radius_pos]
  have hn : ‖unit (x - c)‖ = 1 := unit_norm hxc
  have hop := ball_not_opposite hE hR hb hx hv h
  by_cases hc : o.tailEffect = true ∨ ⟪unit (x - c), v⟫ < 0
  · rcases ball_tangents hE hR hb hx hv h with ⟨h3 | h3, h4⟩ | ⟨hq, hτ⟩
    · rw [h4]; exact ballTangent_self hφ2 hv h3
    · exfalso
      rw [h3, InnerProductGeometry.angle_self (neg_ne_zero.mpr (unit_ne_zero hxc))] at h1
      linarith
    · set n := unit (x - c) with hnd
      obtain ⟨hz, hpos, horth⟩ := ball_perp hn hv hq
      have hτn : ‖τ‖ = 1 := by rw [hτ]; exact unit_norm hz
      refine ⟨hτn, hop, ?_, ?_⟩
      · rw [hτ]
        refine tangential_angle hn hv hq hφ ?_
        rcases le_or_gt ⟪n, v⟫ 0 with h5 | h5
        · exact Or.inl ⟨h5, h1⟩
        · rcases hc with hc | hc
          · exact Or.inr ⟨h5.le, h2 hc⟩
          · linarith
      · rw [← hτ] at horth
        obtain ⟨f1, f2, f3⟩ := codeLog_facts hv hτn hop
        by_cases hcl : v = τ ∨ ¬ allclose v τ
        · left
          rw [f3 hcl, star_exp_log hv hτn hop, horth]
        · right
          push Not at hcl
          have hcn := allclose_norm hτn hcl.2
          have hq1 : |⟪n, v⟫| ≤ closeness d := by
            have : ⟪n, v⟫ = ⟪n, v - τ⟫ := by rw [inner_sub_right, horth, sub_zero]
            rw [this]
            refine (abs_real_inner_le_norm _ _).trans ?_
            rw [hn, one_mul]; exact hcn
          refine ⟨hq1, ?_⟩
          have hDn := star_exp_unit hv f1
          have h6 : ‖sphereExp v (codeLog v τ) - v‖ ≤ Real.pi / 2 * closeness d := by
            rw [norm_sub_rev]
            refine (norm_sub_le_angle hv hDn).trans ((star_exp_angle hv f1).trans ?_)
            rw [f2]
            exact (angle_le_norm_sub hv hτn).trans (mul_le_mul_of_nonneg_left hcn (by positivity))
          have h7 := abs_real_inner_le_norm n (sphereExp v (codeLog v τ) - v)
          rw [hn, one_mul, inner_sub_right] at h7
          have h8 := neg_abs_le ⟪n, v⟫
          have h9 := neg_abs_le (⟪n, sphereExp v (codeLog v τ)⟫ - ⟪n, v⟫)
          linarith
  · have hτ : τ = v := by
      obtain ⟨m, τ', g1, g2, g3, g4⟩ := h
      have hm := ball_surfaceNormal hb hx g1
      rw [← hm] at hc
      rw [g4, g3 hc, unit_of_norm_one hv]
    rw [hτ]
    refine ballTangent_self hφ2 hv ?_
    by_contra h5
    exact hc (Or.inr (not_le.mp h5))

/-- Weighted sums of logarithms. -/
lemma zip_logs {v : Vec d} (hv : ‖v‖ = 1) {R : ℝ} (hR : 0 ≤ R) (W : List ℝ) (τs : List (Vec d)) (hW : ∀ w ∈ W, 0 ≤ w)
    (hτ : ∀ τ ∈ τs, ⟪v, codeLog v τ⟫ = 0 ∧ ‖codeLog v τ‖ ≤ R) :
    ⟪v, (List.zipWith (fun w τ => w • codeLog v τ) W τs).sum⟫ = 0
      ∧ ‖(List.zipWith (fun w τ => w • codeLog v τ) W τs).sum‖ ≤ W.sum * R := by
  induction W generalizing τs with
  | nil => simp
  | cons w W ih =>
    cases τs with
    | nil =>
      simp only [List.zipWith_nil_right, List.sum_nil, inner_zero_right, norm_zero, true_and]
      exact mul_nonneg (List.sum_nonneg hW) hR
    | cons τ τs =>
      obtain ⟨i1, i2⟩ := ih τs (fun y hy => hW y (List.mem_cons_of_mem _ hy))
        (fun y hy => hτ y (List.mem_cons_of_mem _ hy))
      obtain ⟨j1, j2⟩ := hτ τ List.mem_cons_self
      have hw := hW w List.mem_cons_self
      rw [List.zipWith_cons_cons, List.sum_cons, List.sum_cons]
      refine ⟨by rw [inner_add_right, i1, real_inner_smul_right, j1]; simp, ?_⟩
      refine (norm_add_le _ _).trans ?_
      rw [norm_smul, Real.norm_of_nonneg hw, add_mul]
      exact add_le_add (mul_le_mul_of_nonneg_left j2 hw) i2

/-- The direction near one of the balls. -/
lemma near_direction {v n : Vec d} (hv : ‖v‖ = 1) (hn : ‖n‖ = 1) {φ m N w P y : ℝ} (hφ : 0 < φ) (hφ2 : φ ≤ Real.pi / 2)
    (hm : 0 < m) (l r : List ℝ) (τl τr : List (Vec d)) (τ : Vec d) (hll : l.length = τl.length)
    (hrl : r.length = τr.length)
    (hw0 : 0 ≤ w) (hw1 : w < 1) (hl : ∀ y ∈ l, 0 ≤ y ∧ y ≤ 1 / (1 + m)) (hr : ∀ y ∈ r, 0 ≤ y ∧ y ≤ 1 / (1 + m))
    (hN : ((l.length + r.length : ℕ) : ℝ) ≤ N) (hP : 0 ≤ P) (hy : 0 ≤ y)
    (hτ : BallTangent φ n v τ) (hτs : ∀ τ' ∈ τl ++ τr, ‖τ'‖ = 1 ∧ ¬ Opposite v τ' ∧ InnerProductGeometry.angle v τ' ≤ Real.pi / 2 - φ)
    (hcase : 1 - w ≤ P * y ∨ InnerProductGeometry.angle n v < φ) :
    let D := sphereExp v (List.zipWith (fun w τ => w • codeLog v τ) (getLimitedWeightsToMaxSum (l ++ w :: r)).1
      (τl ++ τ :: τr)).sum
    ‖D‖ = 1 ∧ (-(2 * Real.pi * P * max 1 (N / m) * y) ≤ ⟪n, D⟫
      ∨ (|⟪n, v⟫| ≤ closeness d ∧ -(2 * Real.pi * P * max 1 (N / m) * y) - (1 + Real.pi / 2) * closeness d ≤ ⟪n, D⟫)) := by
  intro D
  have hpp := Real.pi_pos
  obtain ⟨l', w', r', e, e1, e2, e3, e4, e5, e6, e7, e8⟩ := limited_split l r w m N hm hw0 hw1 hl hr hN
  have hR : 0 ≤ Real.pi / 2 - φ := by linarith
  have hlogs : ∀ τ' ∈ τl ++ τr, ⟪v, codeLog v τ'⟫ = 0 ∧ ‖codeLog v τ'‖ ≤ Real.pi / 2 - φ := by
    intro τ' h
    obtain ⟨h1, h2, h3⟩ := hτs τ' h
    obtain ⟨f1, f2, _⟩ := codeLog_facts hv h1 h2
    exact ⟨f1, f2.trans_le h3⟩
  obtain ⟨f1, f2, _⟩ := codeLog_facts hv hτ.unit hτ.not_opposite
  have f2' := f2.trans_le hτ.angle
  obtain ⟨a1, a2⟩ := zip_logs hv hR l' τl e3 (fun τ' h => hlogs τ' (List.mem_append_left _ h))
  obtain ⟨b1, b2⟩ := zip_logs hv hR r' τr e4 (fun τ' h => hlogs τ' (List.mem_append_right _ h))
  set A := (List.zipWith (fun w τ => w • codeLog v τ) l' τl).sum with hA
  set B := (List.zipWith (fun w τ => w • codeLog v τ) r' τr).sum with hB
  have hsum : (List.zipWith (fun w τ => w • codeLog v τ) (getLimitedWeightsToMaxSum (l ++ w :: r)).1
      (τl ++ τ :: τr)).sum = A + (w' • codeLog v τ + B) := by
    rw [e, List.zipWith_append (by rw [e1, hll]), List.sum_append, List.zipWith_cons_cons, List.sum_cons]
  have horth : ⟪v, A + (w' • codeLog v τ + B)⟫ = 0 := by
    rw [inner_add_right, inner_add_right, a1, b1, real_inner_smul_right, f1]; simp
  have hDe : D = sphereExp v (A + (w' • codeLog v τ + B)) := by rw [← hsum]
  clear_value D A B
  have hD1 : ‖D‖ = 1 := by rw [hDe]; exact star_exp_unit hv horth
  have hl0 : 0 ≤ l'.sum := List.sum_nonneg e3
  have hr0 : 0 ≤ r'.sum := List.sum_nonneg e4
  refine ⟨hD1, ?_⟩
  have hM : (1 : ℝ) ≤ max 1 (N / m) := le_max_left _ _
  have hKy : 0 ≤ 2 * Real.pi * P * max 1 (N / m) * y := by positivity
  rcases hcase with hc | hc
  · have hd : ‖A + (w' • codeLog v τ + B) - codeLog v τ‖ ≤ 2 * Real.pi * P * max 1 (N / m) * y := by
      have h1 : A + (w' • codeLog v τ + B) - codeLog v τ = A + B - (1 - w') • codeLog v τ := by
        rw [sub_smul, one_smul]; abel
      rw [h1]
      have h2 : ‖(1 - w') • codeLog v τ‖ ≤ (1 - w') * (Real.pi / 2 - φ) := by
        have : 0 ≤ 1 - w' := by linarith
        rw [norm_smul, Real.norm_of_nonneg this]
        exact mul_le_mul_of_nonneg_left f2' this
      have h3 : ‖A + B - (1 - w') • codeLog v τ‖ ≤ (l'.sum + r'.sum + (1 - w')) * (Real.pi / 2 - φ) := by
        refine (norm_sub_le _ _).trans ?_
        have := norm_add_le A B
        nlinarith
      refine h3.trans ?_
      have h4 : l'.sum + r'.sum + (1 - w') ≤ 4 * (P * y) * max 1 (N / m) := by
        have : 2 * (1 - w) * max 1 (N / m) ≤ 2 * (P * y) * max 1 (N / m) := by
          have : 0 ≤ max 1 (N / m) := by linarith
          nlinarith
        linarith
      have h5 : 0 ≤ l'.sum + r'.sum + (1 - w') := by linarith
      calc (l'.sum + r'.sum + (1 - w')) * (Real.pi / 2 - φ) ≤ (l'.sum + r'.sum + (1 - w')) * (Real.pi / 2) :=
            mul_le_mul_of_nonneg_left (by linarith) h5
        _ ≤ (4 * (P * y) * max 1 (N / m)) * (Real.pi / 2) := mul_le_mul_of_nonneg_right h4 (by positivity)
        _ = _ := by ring
    have hdist : ‖D - sphereExp v (codeLog v τ)‖ ≤ 2 * Real.pi * P * max 1 (N / m) * y := by
      rw [hDe]; exact (exp_contracts hv horth f1).trans hd
    have h7 := abs_real_inner_le_norm n (D - sphereExp v (codeLog v τ))
    rw [hn, one_mul, inner_sub_right] at h7
    have h8 := neg_abs_le (⟪n, D⟫ - ⟪n, sphereExp v (codeLog v τ)⟫)
    rcases hτ.target with h9 | ⟨h9, h10⟩
    · left; linarith
    · right; exact ⟨h9, by linarith⟩
  · left
    have h1 : ‖A + (w' • codeLog v τ + B)‖ ≤ Real.pi / 2 - φ := by
      have h2 : ‖w' • codeLog v τ‖ ≤ w' * (Real.pi / 2 - φ) := by
        rw [norm_smul, Real.norm_of_nonneg e5]
        exact mul_le_mul_of_nonneg_left f2' e5
      have h3 : ‖A + (w' • codeLog v τ + B)‖ ≤ (l'.sum + w' + r'.sum) * (Real.pi / 2 - φ) := by
        refine (norm_add_le _ _).trans ?_
        have := norm_add_le (w' • codeLog v τ) B
        nlinarith
      refine h3.trans ?_
      nlinarith
    have h2 := (star_exp_angle hv horth).trans h1
    rw [← hDe] at h2
    have h3 := InnerProductGeometry.angle_le_angle_add_angle n v D
    have h4 : 0 ≤ ⟪n, D⟫ := (angle_le_half hn hD1).mp (by linarith)
    exact (neg_nonpos.mpr hKy).trans h4

lemma zip_orth {v : Vec d} (W : List ℝ) (τs : List (Vec d)) (hτ : ∀ τ ∈ τs, ⟪v, codeLog v τ⟫ = 0) :
    ⟪v, (List.zipWith (fun w τ => w • codeLog v τ) W τs).sum⟫ = 0 := by
  induction W generalizing τs with
  | nil => simp
  | cons w W ih =>
    cases τs with
    | nil => simp
    | cons τ τs =>
      rw [List.zipWith_cons_cons, List.sum_cons, inner_add_right, real_inner_smul_right, hτ τ List.mem_cons_self,
        ih τs (fun y hy => hτ y (List.mem_cons_of_mem _ hy))]
      simp

/-- A ball has a tangent for every motion. -/
lemma ball_hasTangent {ext : Ext d k} (hE : DirectionSpace ext) {R : ℝ} (hR : R = Real.pi * 0.5) {o : Obstacle d}
    {c : Vec d} {r κ : ℝ} (hb : IsBall o c r κ) {x v : Vec d} (hx : r < ‖x - c‖) (hv : ‖v‖ = 1) :
    HasTangent ext R o x v := by
  classical
  have hr := hb.radius_pos
  have hpp := Real.pi_pos
  have hxc : x - c ≠ 0 := by rintro h0; rw [h0, norm_zero] at hx; linarith
  have hn := unit_norm hxc
  have hnorm : o.normal (c + r • unit (x - c)) = unit (x - c) := by
    rw [hb.normal, add_sub_cancel_left]
    have : unit (r • unit (x - c)) = (1 / ‖r • unit (x - c)‖) • (r • unit (x - c)) := rfl
    rw [this, norm_smul, hn, mul_one, Real.norm_of_nonneg hr.le, smul_smul, one_div,
      inv_mul_cancel₀ hr.ne', one_smul]
  have hsurf : o.intersection (if 1 < o.gamma x then o.referencePoint else x) (-o.reference x)
      = some (c + r • unit (x - c)) := by
    rw [if_pos (ball_gamma hb hx).2, hb.center, hb.reference, neg_neg, hb.surface _ (unit_ne_zero hxc),
      unit_of_norm_one hn]
  have hn0 : -unit (x - c) ≠ 0 := neg_ne_zero.mpr (unit_ne_zero hxc)
  by_cases hq : ⟪unit (x - c), v⟫ ^ 2 < 1
  · refine C114_has_tangent ext hE o x v _ _ hv (by rw [hR]; positivity) (by rw [hR]; linarith)
      hb.smooth hsurf (by rw [hnorm]; exact hn) (by rw [hb.reference, norm_neg]; exact hn) ?_ ?_ ?_
    · rw [hnorm, hb.reference, InnerProductGeometry.angle_self hn0]; exact hpp
    · rw [hb.reference]; rintro rfl
      rw [inner_neg_right, real_inner_self_eq_norm_sq, hn] at hq; norm_num at hq
    · rw [hb.reference, neg_neg]; rintro rfl
      rw [real_inner_self_eq_norm_sq, hn] at hq; norm_num at hq
  · refine ⟨hb.smooth, _, hsurf, fun _ => ?_⟩
    rw [hnorm, hb.reference]
    rcases ball_axis hn hv hq with rfl | rfl
    · exact ⟨_, (ball_axis_tangent ext hR hn).1, unit_ne_zero hxc⟩
    · exact ⟨_, (ball_axis_tangent ext hR hn).2, hn0⟩

/-- The ball of an obstacle. -/
lemma balls_of_tree {a : Avoider d} {balls : List (Ball d)} (ha : BallsAvoider a balls) {t : ObstacleTree d}
    (ht : t ∈ a.trees) : t.rootIdx = 0 ∧ Static t ∧ ∃ b ∈ balls, ∃ o, t.components = [o] ∧ o.tailEffect = b.tail
      ∧ IsBall o b.center b.radius b.scale := by
  have key : ∀ (ts : List (ObstacleTree d)) (bs : List (Ball d)), List.Forall₂ (fun t b => t.rootIdx = 0 ∧ Static t ∧
      ∃ o, t.components = [o] ∧ o.tailEffect = b.tail ∧ IsBall o b.center b.radius b.scale) ts bs → ∀ t ∈ ts,
      t.rootIdx = 0 ∧ Static t ∧ ∃ b ∈ bs, ∃ o, t.components = [o] ∧ o.tailEffect = b.tail
      ∧ IsBall o b.center b.radius b.scale := by
    intro ts bs h
    induction h with
    | nil => intro t ht; cases ht
    | cons h _ ih =>
      intro t ht
      rcases List.mem_cons.mp ht with rfl | ht
      · obtain ⟨h1, h2, o, h3⟩ := h
        exact ⟨h1, h2, _, List.mem_cons_self, o, h3⟩
      · obtain ⟨h1, h2, b, hb, h3⟩ := ih t ht
        exact ⟨h1, h2, b, List.mem_cons_of_mem _ hb, h3⟩
  exact key _ _ ha.obstacles t ht

/-- The ball and the obstacle with the same index. -/
lemma balls_index {a : Avoider d} {balls : List (Ball d)} (ha : BallsAvoider a balls) {i : ℕ} {b : Ball d}
    (hi : balls[i]? = some b) : ∃ t o, a.trees[i]? = some t ∧ t.components = [o] ∧ o.tailEffect = b.tail
      ∧ IsBall o b.center b.radius b.scale := by
  have key : ∀ (ts : List (ObstacleTree d)) (bs : List (Ball d)), List.Forall₂ (fun t b => t.rootIdx = 0 ∧ Static t ∧
      ∃ o, t.components = [o] ∧ o.tailEffect = b.tail ∧ IsBall o b.center b.radius b.scale) ts bs → ∀ (i : ℕ) (b : Ball d),
      bs[i]? = some b → ∃ t o, ts[i]? = some t ∧ t.components = [o] ∧ o.tailEffect = b.tail
      ∧ IsBall o b.center b.radius b.scale := by
    intro ts bs h
    induction h with
    | nil => intro i b hi; simp at hi
    | cons h _ ih =>
      intro i b hi
      cases i with
      | zero =>
        simp only [List.getElem?_cons_zero, Option.some.injEq] at hi
        subst hi
        obtain ⟨_, _, o, h3⟩ := h
        exact ⟨_, o, rfl, h3⟩
      | succ i => exact ih i b (by simpa using hi)
  exact key _ _ ha.obstacles i b hi

lemma free_ball {balls : List (Ball d)} {x : Vec d} (hx : FreeOf balls x) {b : Ball d} (hb : b ∈ balls) :
    b.radius < ‖x - b.center‖ := by
  have := hx b hb
  unfold clearance at this
  linarith

lemma balls_single {a : Avoider d} {balls : List (Ball d)} (ha : BallsAvoider a balls) {x : Vec d}
    (hx : FreeOf balls x) : SingleOutside x a.trees := by
  intro t ht
  obtain ⟨h1, _, b, hb, o, h2, _, h3⟩ := balls_of_tree ha ht
  exact ⟨h1, o, h2, (ball_gamma h3 (free_ball hx hb)).2.le⟩

lemma balls_not_opposite {ext : Ext d k} (hE : DirectionSpace ext) {a : Avoider d} {balls : List (Ball d)}
    (ha : BallsAvoider a balls) {x v : Vec d} (hx : FreeOf balls x) (hv : ‖v‖ = 1) :
    ∀ t ∈ a.trees, ∀ o, t.components = [o] → ∀ τ, TangentOf ext a.convergenceRadius o x v τ → ¬ Opposite (unit v) τ := by
  intro t ht o ho τ hτ
  obtain ⟨_, _, b, hb, o', h2, _, h3⟩ := balls_of_tree ha ht
  rw [ho] at h2
  cases h2
  rw [unit_of_norm_one hv]
  exact ball_not_opposite hE ha.radius h3 (free_ball hx hb) hv hτ

lemma balls_facts {a : Avoider d} {balls : List (Ball d)} (ha : BallsAvoider a balls) {x : Vec d} (hx : FreeOf balls x) :
    SaneTrees a.trees ∧ (∀ t ∈ a.trees, Static t) ∧ (∀ t ∈ a.trees, t.components ≠ []) ∧ a.trees ≠ []
      ∧ AtMostOneContact x a.trees := by
  refine ⟨?_, fun t ht => (balls_of_tree ha ht).2.1, ?_, ?_, ?_⟩
  · intro t ht o ho
    obtain ⟨_, _, b, hb, o', h2, _, h3⟩ := balls_of_tree ha ht
    rw [h2, List.mem_singleton] at ho
    subst ho
    exact ball_sane h3
  · intro t ht
    obtain ⟨_, _, b, hb, o', h2, _⟩ := balls_of_tree ha ht
    rw [h2]; simp
  · intro h
    have h1 := ha.obstacles.length_eq
    rw [h, List.length_nil] at h1
    exact ha.some_ball (List.length_eq_zero_iff.mp h1.symm)
  · refine List.Pairwise.imp_of_mem (R := fun _ _ => True) ?_ (List.pairwise_of_forall (fun _ _ => trivial))
    rintro t t' ht _ _ ⟨⟨o, ho, h⟩, _⟩
    obtain ⟨_, _, b, hb, o', h2, _, h3⟩ := balls_of_tree ha ht
    rw [h2, List.mem_singleton] at ho
    subst ho
    have := (ball_gamma h3 (free_ball hx hb)).2
    linarith

/-- The preparation outside of the balls never fails, and leads to a unit vector. -/
lemma balls_prepare {ext : Ext d k} (hE : DirectionSpace ext) (has : ArgsortSpec ext.argsort) {a : Avoider d}
    {balls : List (Ball d)} (ha : BallsAvoider a balls) {x v : Vec d} (hx : FreeOf balls x) (hv : ‖v‖ = 1) :
    ∃ pr D, prepareAvoidance ext a x v = .ok pr ∧ avoidanceDirection ext pr = .ok D ∧ ‖D‖ = 1 := by
  have hs := balls_single ha hx
  have huv : unit v = v := unit_of_norm_one hv
  obtain ⟨pr, hpr⟩ := total_prepare ha.power ha.radius.le hv hs (by
    intro t ht o ho
    obtain ⟨_, _, b, hb, o', h2, _, h3⟩ := balls_of_tree ha ht
    rw [ho] at h2
    cases h2
    exact ball_hasTangent (ext := ext) hE ha.radius h3 (free_ball hx hb) hv)
  obtain ⟨ws, τs, l1, l2, hd, hm⟩ := single_mean ext a x v pr ha.power has ha.radius.le hs
    (balls_not_opposite hE ha hx hv) hpr
  rw [huv] at hm
  refine ⟨pr, _, hpr, hm, star_exp_unit hv (zip_orth _ _ ?_)⟩
  intro τ hτ
  obtain ⟨j, hj⟩ := List.mem_iff_getElem?.mp hτ
  have hjl : j < a.trees.length := by rw [← l2]; exact (List.getElem?_eq_some_iff.mp hj).choose
  have ht : a.trees[j]? = some a.trees[j] := List.getElem?_eq_getElem hjl
  have hwl : j < ws.length := by rw [l1]; exact hjl
  obtain ⟨_, _, b, hb, o, h2, _, h3⟩ := balls_of_tree ha (List.getElem_mem hjl)
  obtain ⟨_, _, w2, w3⟩ := hd j _ o ws[j] τ ht h2 (List.getElem?_eq_getElem hwl) hj
  have hxb := free_ball hx hb
  have hxc : x - b.center ≠ 0 := by rintro h0; rw [h0, norm_zero] at hxb; linarith [h3.radius_pos]
  by_cases hw : 0 < ws[j]
  · have hτ' := w2 hw
    have hτ1 : ‖τ‖ = 1 := by
      rcases ball_tangents hE ha.radius h3 hxb hv hτ' with ⟨_, rfl⟩ | ⟨hq, rfl⟩
      · exact hv
      · exact unit_norm (ball_perp (unit_norm hxc) hv hq).1
    exact (codeLog_facts hv hτ1 (ball_not_opposite hE ha.radius h3 hxb hv hτ')).1
  · rw [w3 (not_lt.mp hw), huv, codeLog_self hv, inner_zero_right]

lemma oblique_angles {φ : ℝ} {balls : List (Ball d)} {x v : Vec d} (hob : Oblique φ balls x v) {b : Ball d}
    (hb : b ∈ balls) (hxc : x - b.center ≠ 0) : φ ≤ InnerProductGeometry.angle (-unit (x - b.center)) v
      ∧ (b.tail = true → φ ≤ InnerProductGeometry.angle (unit (x - b.center)) v) := by
  obtain ⟨h1, h2⟩ := hob b hb
  have hp : 0 < 1 / ‖x - b.center‖ := one_div_pos.mpr (norm_pos_iff.mpr hxc)
  unfold unit
  constructor
  · rw [← smul_neg, InnerProductGeometry.angle_smul_left_of_pos _ _ hp, neg_sub]; exact h1
  · rw [InnerProductGeometry.angle_smul_left_of_pos _ _ hp]; exact h2

/-- The direction of the avoider among several balls. -/
lemma balls_direction {ext : Ext d k} (hE : DirectionSpace ext) (has : ArgsortSpec ext.argsort) {a : Avoider d}
    {balls : List (Ball d)} (ha : BallsAvoider a balls) {x v D : Vec d} (hx : FreeOf balls x) (hv : ‖v‖ = 1) {φ m : ℝ}
    (hφ : 0 < φ) (hφ2 : φ ≤ Real.pi / 2) (hob : Oblique φ balls x v) {pr : Prepared d}
    (hpr : prepareAvoidance ext a x v = .ok pr) (hD : avoidanceDirection ext pr = .ok D) {i : ℕ} {b : Ball d}
    (hi : balls[i]? = some b) (hm : 0 < m)
    (hother : ∀ (j : ℕ) (b' : Ball d), j ≠ i → balls[j]? = some b' → m ≤ b'.scale * clearance b' x) :
    -(2 * Real.pi * ballPower a.power φ * max 1 (balls.length / m) * (b.scale * clearance b x)) ≤ ⟪unit (x - b.center), D⟫
      ∨ (|⟪unit (x - b.center), v⟫| ≤ closeness d
        ∧ -(2 * Real.pi * ballPower a.power φ * max 1 (balls.length / m) * (b.scale * clearance b x))
          - (1 + Real.pi / 2) * closeness d ≤ ⟪unit (x - b.center), D⟫) := by
  have hpp := Real.pi_pos
  have hs := balls_single ha hx
  have huv : unit v = v := unit_of_norm_one hv
  have hv0 : v ≠ 0 := by rintro rfl; simp at hv
  obtain ⟨ws, τs, l1, l2, hd, hmean⟩ := single_mean ext a x v pr ha.power has ha.radius.le hs
    (balls_not_opposite hE ha hx hv) hpr
  rw [huv, hD] at hmean
  have hlen : a.trees.length = balls.length := ha.obstacles.length_eq
  -- every index
  have hall : ∀ (j : ℕ) (b' : Ball d) (w : ℝ) (τ : Vec d), balls[j]? = some b' → ws[j]? = some w → τs[j]? = some τ →
      0 ≤ w ∧ w ≤ 1 / (1 + b'.scale * clearance b' x) ∧ ‖τ‖ = 1 ∧ ¬ Opposite v τ
      ∧ InnerProductGeometry.angle v τ ≤ Real.pi / 2 - φ ∧ BallTangent φ (unit (x - b'.center)) v τ
      ∧ 0 < b'.scale * clearance b' x ∧ x - b'.center ≠ 0
      ∧ ((b'.tail = true ∨ φ ≤ InnerProductGeometry.angle (unit (x - b'.center)) v) →
        1 - w ≤ ballPower a.power φ * (b'.scale * clearance b' x)) := by
    intro j b' w τ hb' hw hτ
    have hmem : b' ∈ balls := List.mem_iff_getElem?.mpr ⟨j, hb'⟩
    obtain ⟨t, o, ht, ho, htail, hball⟩ := balls_index ha hb'
    obtain ⟨w0, w1, w2, w3⟩ := hd j t o w τ ht ho hw hτ
    have hxb := free_ball hx hmem
    have hxc : x - b'.center ≠ 0 := by rintro h0; rw [h0, norm_zero] at hxb; linarith [hball.radius_pos]
    have hn := unit_norm hxc
    obtain ⟨hg, hg1⟩ := ball_gamma hball hxb
    obtain ⟨o1, o2⟩ := oblique_angles hob hmem hxc
    obtain ⟨w', e1, _, _, _, e4⟩ := C32_range_partial ext.angleOf (o.normal x) (o.reference x) v (o.gamma x)
      (Real.pi * 0.5) a.power (Real.pi * 0.5) ha.power
    rw [w1] at e1
    cases e1
    have hle := e4 hg1
    rw [hg] at hle
    rw [hball.normal, hball.reference, hg] at w1
    rw [hg] at hg1
    have hne : v ≠ -unit (x - b'.center) := by
      rintro rfl
      rw [InnerProductGeometry.angle_self hv0] at o1
      linarith
    have hT : BallTangent φ (unit (x - b'.center)) v τ := by
      by_cases hw' : 0 < w
      · exact oblique_tangent hE ha.radius hball hxb hv hφ hφ2 o1 (by rw [htail]; exact o2) (w2 hw')
      · rw [w3 (not_lt.mp hw'), huv]
        refine ballTangent_self hφ2 hv ?_
        by_contra hc
        exact hw' (ball_weight hE hn hv (not_le.mp hc) hne hg1 ha.power w1).1
    refine ⟨w0, hle, hT.unit, hT.not_opposite, hT.angle, hT, ?_, hxc, ?_⟩
    · exact mul_pos hball.scale_pos (hx b' hmem)
    · intro h
      have h2 : φ ≤ InnerProductGeometry.angle (unit (x - b'.center)) v := by
        rcases h with h | h
        · exact o2 h
        · exact h
      have := oblique_weight hE hn hv hφ hφ2 o1 h2 hg1 ha.power w1
      rw [add_sub_cancel_left] at this
      exact this
  have hil : i < balls.length := (List.getElem?_eq_some_iff.mp hi).choose
  have hiw : i < ws.length := by rw [l1, hlen]; exact hil
  have hiτ : i < τs.length := by rw [l2, hlen]; exact hil
  obtain ⟨q1, q2, q3, q4, q5, q6, q7, q8, q9⟩ := hall i b ws[i] τs[i] hi (List.getElem?_eq_getElem hiw)
    (List.getElem?_eq_getElem hiτ)
  have hws : ws = ws.take i ++ ws[i] :: ws.drop (i + 1) := by
    rw [← List.drop_eq_getElem_cons hiw, List.take_append_drop]
  have hτs : τs = τs.take i ++ τs[i] :: τs.drop (i + 1) := by
    rw [← List.drop_eq_getElem_cons hiτ, List.take_append_drop]
  have hwj : ∀ (j : ℕ) (y : ℝ), j ≠ i → ws[j]? = some y → 0 ≤ y ∧ y ≤ 1 / (1 + m) := by
    intro j y hj hy
    have hjl : j < balls.length := by rw [← hlen, ← l1]; exact (List.getElem?_eq_some_iff.mp hy).choose
    have hjτ : j < τs.length := by rw [l2, hlen]; exact hjl
    obtain ⟨p1, p2, _⟩ := hall j balls[j] y τs[j] (List.getElem?_eq_getElem hjl) hy (List.getElem?_eq_getElem hjτ)
    refine ⟨p1, p2.trans ?_⟩
    have := hother j balls[j] hj (List.getElem?_eq_getElem hjl)
    exact one_div_le_one_div_of_le (by linarith) (by linarith)
  have hτj : ∀ τ' ∈ τs.take i ++ τs.drop (i + 1),
      ‖τ'‖ = 1 ∧ ¬ Opposite v τ' ∧ InnerProductGeometry.angle v τ' ≤ Real.pi / 2 - φ := by
    intro τ' hτ'
    have hmem : τ' ∈ τs := by
      rcases List.mem_append.mp hτ' with h | h
      · exact List.mem_of_mem_take h
      · exact List.mem_of_mem_drop h
    obtain ⟨j, hj⟩ := List.mem_iff_getElem?.mp hmem
    have hjl : j < balls.length := by rw [← hlen, ← l2]; exact (List.getElem?_eq_some_iff.mp hj).choose
    have hjw : j < ws.length := by rw [l1, hlen]; exact hjl
    obtain ⟨_, _, p3, p4, p5, _⟩ := hall j balls[j] ws[j] τ' (List.getElem?_eq_getElem hjl)
      (List.getElem?_eq_getElem hjw) hj
    exact ⟨p3, p4, p5⟩
  have hw1 : ws[i] < 1 := by
    refine lt_of_le_of_lt q2 ?_
    rw [div_lt_one (by linarith)]; linarith
  have hnear := near_direction (v := v) (n := unit (x - b.center)) hv (unit_norm q8) (φ := φ) (m := m)
    (N := balls.length) (w := ws[i]) (P := ballPower a.power φ) (y := b.scale * clearance b x) hφ hφ2 hm
    (ws.take i) (ws.drop (i + 1)) (τs.take i) (τs.drop (i + 1)) τs[i]
    (by simp [l1, l2]) (by simp [l1, l2]) q1 hw1
    (by
      intro y hy
      obtain ⟨j, hj⟩ := List.mem_iff_getElem?.mp hy
      rw [List.getElem?_take] at hj
      split_ifs at hj with hji
      exact hwj j y hji.ne hj)
    (by
      intro y hy
      obtain ⟨j, hj⟩ := List.mem_iff_getElem?.mp hy
      rw [List.getElem?_drop] at hj
      exact hwj (i + 1 + j) y (by omega) hj)
    (by
      rw [List.length_take, List.length_drop]
      exact_mod_cast (by rw [l1, hlen]; omega))
    (by unfold ballPower; positivity) q7.le q6 hτj
    (by
      by_cases h : φ ≤ InnerProductGeometry.angle (unit (x - b.center)) v
      · exact Or.inl (q9 (Or.inr h))
      · exact Or.inr (not_le.mp h))
  rw [← hws, ← hτs] at hnear
  have hDe : D = sphereExp v (List.zipWith (fun w τ => w • codeLog v τ) (getLimitedWeightsToMaxSum ws).1 τs).sum := by
    injection hmean
  rw [hDe]
  exact hnear.2

end Verif
