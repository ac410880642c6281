import Verif.Props.Tangent
import Verif.Props.AvoiderTwoContacts

/-!
# C114 is not vacuous
-/

open scoped RealInnerProductSpace

namespace Verif
open Spec

/-- The coordinate along the tangent of the circle at `n`. -/
noncomputable def planeChart (n : Vec 2) (hn : ‖n‖ = 1) : Vec 1 →ₗᵢ[ℝ] Vec 2 where
  toFun a := a 0 • !₂[-(n 1), n 0]
  map_add' a b := by simp [add_smul]
  map_smul' c a := by simp [mul_smul]
  norm_map' a := by
    have h1 : ‖(!₂[-(n 1), n 0] : Vec 2)‖ = 1 := by
      rw [← hn, EuclideanSpace.norm_eq, EuclideanSpace.norm_eq, Fin.sum_univ_two, Fin.sum_univ_two]
      simp [add_comm]
    change ‖a 0 • (!₂[-(n 1), n 0] : Vec 2)‖ = ‖a‖
    rw [norm_smul, h1, mul_one, EuclideanSpace.norm_eq, Fin.sum_univ_one, Real.sqrt_sq (norm_nonneg _)]

lemma plane_cross (n v : Vec 2) (hn : ‖n‖ = 1) :
    v - ⟪n, v⟫ • n = (n 0 * v 1 - n 1 * v 0) • !₂[-(n 1), n 0] := by
  have h : n 0 ^ 2 + n 1 ^ 2 = 1 := by
    have := EuclideanSpace.norm_sq_eq n
    rw [hn, Fin.sum_univ_two, Real.norm_eq_abs, Real.norm_eq_abs, sq_abs, sq_abs] at this
    linarith
  ext i
  fin_cases i
  · simp [PiLp.inner_apply, Fin.sum_univ_two]
    linear_combination (-(v 0)) * h
  · simp [PiLp.inner_apply, Fin.sum_univ_two]
    linear_combination (-(v 1)) * h

/-- The functions of the plane satisfy the contract. -/
lemma planeExt_space (argsort : List ℤ → List ℕ) : DirectionSpace (planeExt argsort) where
  chart := by
    intro n hn
    have hJ : ‖(!₂[-(n 1), n 0] : Vec 2)‖ = 1 := by
      rw [← hn, EuclideanSpace.norm_eq, EuclideanSpace.norm_eq, Fin.sum_univ_two, Fin.sum_univ_two]
      simp [add_comm]
    refine ⟨planeChart n hn, ?_, ?_, ?_⟩
    · intro a
      change ⟪n, a 0 • (!₂[-(n 1), n 0] : Vec 2)⟫ = 0
      simp [PiLp.inner_apply, Fin.sum_univ_two]
      ring
    · intro v hv _
      change (Real.arccos ⟪n, v⟫ * SignType.sign (n 0 * v 1 - n 1 * v 0)) • (!₂[-(n 1), n 0] : Vec 2) = _
      unfold sphereLog InnerProductGeometry.angle
      rw [hn, hv, mul_one, div_one, plane_cross n v hn]
      set c := n 0 * v 1 - n 1 * v 0
      rw [mul_smul]
      congr 1
      unfold unit
      rw [norm_smul, hJ, mul_one, smul_smul, Real.norm_eq_abs]
      congr 1
      rcases lt_trichotomy c 0 with h | h | h
      · have := h.ne
        rw [sign_neg h, abs_of_neg h]; simp; field_simp
      · rw [h]; simp
      · rw [sign_pos h, abs_of_pos h]; field_simp; simp
    · intro a
      change Real.cos (a 0) • n + Real.sin (a 0) • (!₂[-(n 1), n 0] : Vec 2)
        = sphereExp n (a 0 • (!₂[-(n 1), n 0] : Vec 2))
      unfold sphereExp unit
      rw [norm_smul, hJ, mul_one, Real.norm_eq_abs, smul_smul, smul_smul, Real.cos_abs]
      congr 2
      rcases lt_trichotomy (a 0) 0 with h | h | h
      · have := h.ne
        rw [abs_of_neg h, Real.sin_neg]; field_simp
      · rw [h]; simp
      · rw [abs_of_pos h]; field_simp
  circle := by
    classical
    intro s v r a hv hr h
    have hn : ∀ y : Vec 1, ‖y‖ = |y 0| := by
      intro y; rw [EuclideanSpace.norm_eq, Fin.sum_univ_one, Real.sqrt_sq (norm_nonneg _), Real.norm_eq_abs]
    change (if v 0 > 0 then some (!₂[r] : Vec 1) else if v 0 < 0 then some !₂[-r] else none) = some a at h
    by_cases h1 : v 0 > 0
    · rw [if_pos h1] at h
      cases h
      refine ⟨(r - s 0) / v 0, ?_, ?_, ?_⟩
      · ext i; fin_cases i; simp; field_simp; ring
      · rw [hn]; simpa using hr
      · intro t' ht'
        rw [hn] at ht'
        rw [le_div_iff₀ h1]
        have := le_abs_self ((s + t' • v) 0)
        rw [ht'] at this
        simp at this
        linarith
    · rw [if_neg h1] at h
      by_cases h2 : v 0 < 0
      · rw [if_pos h2] at h
        cases h
        refine ⟨(-r - s 0) / v 0, ?_, ?_, ?_⟩
        · have := h2.ne
          ext i; fin_cases i; simp; field_simp; ring
        · rw [hn]; simpa using hr
        · intro t' ht'
          rw [hn] at ht'
          rw [le_div_iff_of_neg h2]
          have := neg_abs_le ((s + t' • v) 0)
          rw [ht'] at this
          simp at this
          linarith
      · rw [if_neg h2] at h; cases h
  circle_some := by
    classical
    intro s v r hv _
    change (if v 0 > 0 then some (!₂[r] : Vec 1) else if v 0 < 0 then some !₂[-r] else none) ≠ none
    have : v 0 ≠ 0 := by
      intro h0; apply hv; ext i; fin_cases i; simpa using h0
    rcases lt_or_gt_of_ne this with h | h
    · rw [if_neg (not_lt.mpr h.le), if_pos h]; simp
    · rw [if_pos h]; simp

lemma low_angle : InnerProductGeometry.angle (-(!₂[0, 1] : Vec 2)) (-!₂[0, 1]) = 0 := by
  apply InnerProductGeometry.angle_self
  intro h
  have := low_norm
  rw [neg_eq_zero.mp h] at this; simp at this

lemma diag_ne_low : diag ≠ -(!₂[0, 1] : Vec 2) ∧ diag ≠ - -(!₂[0, 1] : Vec 2) := by
  constructor <;> · intro h
                    have := congrArg (fun y : Vec 2 => y 0) h
                    simp [diag] at this

/-- C114 (tangent, angle, switch) is not vacuous: the motion diagonally onto a wall. -/
example : ∃ (ext : Ext 2 1) (n ref v τ : Vec 2) (r : ℝ), DirectionSpace ext ∧ ‖n‖ = 1 ∧ ‖ref‖ = 1
    ∧ ‖v‖ = 1 ∧ 0 < r ∧ r < Real.pi ∧ InnerProductGeometry.angle (-n) ref < r
    ∧ InnerProductGeometry.angle (-n) ref < Real.pi - r ∧ v ≠ ref ∧ v ≠ -ref
    ∧ projectedTangent ext v n ref r = .ok τ ∧ τ ≠ v
    ∧ InnerProductGeometry.angle (-n) v < r := by
  have hp := Real.pi_pos
  have hτ := tangent_low (fun _ => [])
  refine ⟨planeExt (fun _ => []), !₂[0, 1], -!₂[0, 1], diag, !₂[1, 0], Real.pi * 0.5,
    planeExt_space _, low_norm, by rw [norm_neg, low_norm], diag_norm, by linarith, by linarith,
    by rw [low_angle]; linarith, by rw [low_angle]; linarith, diag_ne_low.1, diag_ne_low.2, hτ, ?_, ?_⟩
  · intro h
    have := congrArg (fun y : Vec 2 => y 1) h
    simp [diag] at this
  · refine (tangent_switch low_norm diag_norm (by linarith) (by linarith)).mp ?_
    rw [show Real.pi * 0.5 = Real.pi / 2 by ring, Real.cos_pi_div_two]
    simp [PiLp.inner_apply, Fin.sum_univ_two, diag]

/-- C114 (switch) is not vacuous on the side away from the obstacle either. -/
example : ∃ (ext : Ext 2 1) (n ref v τ : Vec 2) (r : ℝ), DirectionSpace ext ∧ ‖n‖ = 1 ∧ ‖ref‖ = 1
    ∧ ‖v‖ = 1 ∧ 0 < r ∧ r < Real.pi ∧ InnerProductGeometry.angle (-n) ref < r
    ∧ InnerProductGeometry.angle (-n) ref < Real.pi - r ∧ v ≠ ref ∧ v ≠ -ref
    ∧ projectedTangent ext v n ref r = .ok τ ∧ r < InnerProductGeometry.angle (-n) v := by
  have hp := Real.pi_pos
  have hr : ‖-(!₂[0, 1] : Vec 2)‖ = 1 := by rw [norm_neg, low_norm]
  have hv : ‖-diag‖ = 1 := by rw [norm_neg, diag_norm]
  have h1 : -diag ≠ -(!₂[0, 1] : Vec 2) := by
    intro h
    exact diag_ne_low.2 (by rw [← h, neg_neg])
  have h2 : -diag ≠ - -(!₂[0, 1] : Vec 2) := by
    intro h
    exact diag_ne_low.1 (neg_injective h)
  obtain ⟨τ, hτ, _⟩ := C114_tangent _ (planeExt_space (fun _ => [])) !₂[0, 1] (-!₂[0, 1]) (-diag)
    (Real.pi * 0.5) low_norm hr hv (by linarith) (by linarith) (by rw [low_angle]; exact hp) h1 h2
  refine ⟨planeExt (fun _ => []), !₂[0, 1], -!₂[0, 1], -diag, τ, Real.pi * 0.5,
    planeExt_space _, low_norm, hr, hv, by linarith, by linarith,
    by rw [low_angle]; linarith, by rw [low_angle]; linarith, h1, h2, hτ, ?_⟩
  rw [InnerProductGeometry.angle_neg_neg]
  have hd : InnerProductGeometry.angle (-(!₂[0, 1] : Vec 2)) diag < Real.pi * 0.5 := by
    refine (tangent_switch low_norm diag_norm (by linarith) (by linarith)).mp ?_
    rw [show Real.pi * 0.5 = Real.pi / 2 by ring, Real.cos_pi_div_two]
    simp [PiLp.inner_apply, Fin.sum_univ_two, diag]
  rw [InnerProductGeometry.angle_neg_left] at hd
  linarith

/-- C114 (head_on) is not vacuous. -/
example : ∃ (n ref : Vec 2) (r : ℝ), ‖n‖ = 1 ∧ ‖ref‖ = 1 ∧ 0 < r ∧ r < Real.pi
    ∧ InnerProductGeometry.angle (-n) ref < r ∧ r ≤ InnerProductGeometry.angle n ref := by
  have hp := Real.pi_pos
  refine ⟨!₂[0, 1], -!₂[0, 1], Real.pi / 2, low_norm, by rw [norm_neg, low_norm], by linarith,
    by linarith, by rw [low_angle]; linarith, ?_⟩
  have := low_angle
  rw [InnerProductGeometry.angle_neg_left] at this
  linarith

/-- C114 (has_tangent) is not vacuous: a disc without tail effect in contact. -/
example : ∃ (ext : Ext 2 1) (o : Obstacle 2) (x v s : Vec 2) (r : ℝ), DirectionSpace ext ∧ ‖v‖ = 1
    ∧ 0 < r ∧ r < Real.pi ∧ o.isCuboid = false
    ∧ o.intersection (open Classical in if 1 < o.gamma x then o.referencePoint else x)
      (-o.reference x) = some s ∧ ‖o.normal s‖ = 1 ∧ ‖o.reference x‖ = 1
    ∧ InnerProductGeometry.angle (-o.normal s) (o.reference x) < Real.pi
    ∧ v ≠ o.reference x ∧ v ≠ -o.reference x := by
  have hp := Real.pi_pos
  obtain ⟨g1, g2, g3, g4, g5⟩ := discAt_facts (-!₂[0, 1]) false (show (1 : ℝ) ≤ 2 by norm_num) low_norm
  refine ⟨planeExt (fun _ => []), discAt (-!₂[0, 1]) false, _, diag, _, 1, planeExt_space _, diag_norm,
    one_pos, by linarith [Real.pi_gt_three], rfl, g4, ?_, ?_, ?_, ?_, ?_⟩
  · rw [g5, low_norm]
  · rw [g3, norm_neg, low_norm]
  · rw [g5, g3, low_angle]; exact hp
  · rw [g3]; exact diag_ne_low.1
  · rw [g3]; exact diag_ne_low.2

/-- C114 (contact) is not vacuous: a disc in contact, another one behind. -/
example : ∃ (ext : Ext 2 1) (a : Avoider 2) (x v w : Vec 2) (pr : Prepared 2) (t : ObstacleTree 2)
    (o : Obstacle 2), DirectionSpace ext ∧ 0 ≤ a.power ∧ ArgsortSpec ext.argsort
    ∧ 0 < a.convergenceRadius ∧ a.convergenceRadius ≤ Real.pi * 0.5 ∧ ‖v‖ = 1
    ∧ SingleOutside x a.trees ∧ GoodTangents ext a.convergenceRadius x v a.trees
    ∧ (∀ t ∈ a.trees, ∀ o, t.components = [o] → ∀ τ, TangentOf ext a.convergenceRadius o x v τ → τ ≠ 0)
    ∧ prepareAvoidance ext a x v = .ok pr ∧ avoidanceDirection ext pr = .ok w
    ∧ a.trees[0]? = some t ∧ t.components = [o] ∧ o.gamma x = 1
    ∧ (∀ (j : ℕ) t' o', j ≠ 0 → a.trees[j]? = some t' → t'.components = [o'] → 1 < o'.gamma x)
    ∧ ‖o.reference x‖ = 1 ∧ (∀ n, SurfaceNormal o x n → ‖n‖ = 1
      ∧ InnerProductGeometry.angle (-n) (o.reference x) < Real.pi)
    ∧ v ≠ o.reference x ∧ v ≠ -o.reference x ∧ w ≠ v := by
  have hp := Real.pi_pos
  obtain ⟨argsort, a, w, pr, t, h1, h2, h3, h4, h5, h6, h7, h8, h9, h10, h11, _, h13, h14⟩ := contact_run
  obtain ⟨_, _, f3, f4⟩ := touch_facts low_norm true
  refine ⟨planeExt argsort, a, 0, diag, w, pr, t, _, planeExt_space _, h1, h2, by rw [h3]; linarith, h3.le,
    diag_norm, h4, h5, h6, h7, h8, h9, h10, h11, h13, by rw [f3, norm_neg, low_norm], ?_, ?_, ?_, h14⟩
  · intro n hn
    rw [f4 n hn, f3, low_angle]
    exact ⟨low_norm, hp⟩
  · rw [f3]; exact diag_ne_low.1
  · rw [f3]; exact diag_ne_low.2

end Verif
