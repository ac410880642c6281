import Verif.Lemmas.TreeTurnBuild
import Verif.Spec.TurnScene
import Verif.Spec.DirectionSpace
import Verif.Lemmas.Monad

/-!
# Tangents and weights in turned coordinates
-/

open scoped RealInnerProductSpace

namespace Verif

open Spec

variable {d k : ℕ} {R : Vec d ≃ₗᵢ[ℝ] Vec d} {ext : Ext d k}

lemma sphereLog_turn (p v : Vec d) : sphereLog (R p) (R v) = R (sphereLog p v) := by
  unfold sphereLog
  rw [angle_turn, R.inner_map_map, ← map_smul, ← map_sub, unit_turn, map_smul]

lemma sphereExp_turn (p w : Vec d) : sphereExp (R p) (R w) = R (sphereExp p w) := by
  unfold sphereExp
  rw [R.norm_map, unit_turn, map_add, map_smul, map_smul]

lemma not_opposite_of_inner_nonneg {u v : Vec d} (hu : u ≠ 0) (h : 0 ≤ ⟪u, v⟫) : ¬ Opposite u v := by
  rintro ⟨c, hc, rfl⟩
  rw [inner_smul_right, real_inner_self_eq_norm_sq] at h
  have := norm_pos_iff.mpr hu
  nlinarith [pow_pos this 2]

/-- Distances of angles are distances of logarithms. -/
lemma angle_dist (hs : DirectionSpace ext) {n u v : Vec d} (hn : ‖n‖ = 1) (hu : ‖u‖ = 1) (hv : ‖v‖ = 1)
    (ou : ¬ Opposite n u) (ov : ¬ Opposite n v) :
    ‖ext.angleOf n u - ext.angleOf n v‖ = ‖sphereLog n u - sphereLog n v‖ ∧ ‖ext.angleOf n u‖ = ‖sphereLog n u‖ := by
  obtain ⟨E, -, h1, -⟩ := hs.chart n hn
  rw [← h1 u hu ou, ← h1 v hv ov, ← map_sub, E.norm_map, E.norm_map]
  exact ⟨rfl, rfl⟩

lemma angle_dist_turn (hs : DirectionSpace ext) {n u v : Vec d} (hn : ‖n‖ = 1) (hu : ‖u‖ = 1) (hv : ‖v‖ = 1)
    (ou : ¬ Opposite n u) (ov : ¬ Opposite n v) :
    ‖ext.angleOf (R n) (R u) - ext.angleOf (R n) (R v)‖ = ‖ext.angleOf n u - ext.angleOf n v‖
      ∧ ‖ext.angleOf (R n) (R u)‖ = ‖ext.angleOf n u‖ := by
  have h1 := angle_dist hs hn hu hv ou ov
  have h2 := angle_dist hs (n := R n) (u := R u) (v := R v) (by rwa [R.norm_map]) (by rwa [R.norm_map])
    (by rwa [R.norm_map]) (fun h => ou (opposite_turn.mp h)) (fun h => ov (opposite_turn.mp h))
  rw [h1.1, h1.2, h2.1, h2.2, sphereLog_turn, sphereLog_turn, ← map_sub, R.norm_map, R.norm_map]
  exact ⟨rfl, rfl⟩

open Classical in
/-- The step of `get_projected_tangent_from_vectors` in the direction space around `n`. -/
noncomputable def findTangent (ext : Ext d k) (v n ref : Vec d) (r : ℝ) : Except PyErr (Vec d) :=
  if ‖ext.angleOf n v - ext.angleOf n ref‖ = 0 then .ok v
  else
    match ext.circleFar (ext.angleOf n ref) (ext.angleOf n v - ext.angleOf n ref) r with
    | none => .error .valueError
    | some s => .ok (ext.vectorOf n s)

lemma projectedTangent_eq (v n ref : Vec d) (r : ℝ) : projectedTangent ext v n ref r =
    open Classical in if ⟪v, (-1 : ℝ) • n⟫ > Real.cos r then findTangent ext v ((-1 : ℝ) • n) ref r
    else findTangent ext v n ((-1 : ℝ) • ref) (Real.pi - r) := rfl

lemma find_turn (hs : DirectionSpace ext) {v n ref : Vec d} {r : ℝ} (hv : ‖v‖ = 1) (hn : ‖n‖ = 1) (href : ‖ref‖ = 1)
    (ov : ¬ Opposite n v) (oref : ¬ Opposite n ref) (hr : 0 ≤ r) :
    findTangent ext (R v) (R n) (R ref) r = (findTangent ext v n ref r).map R := by
  classical
  obtain ⟨E, -, e1, e2⟩ := hs.chart n hn
  obtain ⟨E', -, e1', e2'⟩ := hs.chart (R n) (by rwa [R.norm_map])
  have a1 := e1 v hv ov
  have a2 := e1 ref href oref
  have a1' := e1' (R v) (by rwa [R.norm_map]) (fun h => ov (opposite_turn.mp h))
  have a2' := e1' (R ref) (by rwa [R.norm_map]) (fun h => oref (opposite_turn.mp h))
  rw [sphereLog_turn, ← a1] at a1'
  rw [sphereLog_turn, ← a2] at a2'
  have hlin : ∀ t : ℝ, E' (ext.angleOf (R n) (R ref)
        + t • (ext.angleOf (R n) (R v) - ext.angleOf (R n) (R ref)))
      = R (E (ext.angleOf n ref + t • (ext.angleOf n v - ext.angleOf n ref))) := by
    intro t
    simp only [map_add, map_sub, map_smul, a1', a2']
  have hnorm : ∀ t : ℝ, ‖ext.angleOf (R n) (R ref) + t • (ext.angleOf (R n) (R v) - ext.angleOf (R n) (R ref))‖
      = ‖ext.angleOf n ref + t • (ext.angleOf n v - ext.angleOf n ref)‖ := by
    intro t
    rw [← E'.norm_map, hlin, R.norm_map, E.norm_map]
  have hz := (angle_dist_turn (R := R) hs hn hv href ov oref).1
  unfold findTangent
  rw [hz]
  by_cases h0 : ‖ext.angleOf n v - ext.angleOf n ref‖ = 0
  · rw [if_pos h0, if_pos h0]; rfl
  rw [if_neg h0, if_neg h0]
  have hne : ext.angleOf n v - ext.angleOf n ref ≠ 0 := fun e => h0 (by rw [e, norm_zero])
  have hne' : ext.angleOf (R n) (R v) - ext.angleOf (R n) (R ref) ≠ 0 := by
    intro e; rw [e, norm_zero] at hz; exact h0 hz.symm
  cases hc : ext.circleFar (ext.angleOf n ref) (ext.angleOf n v - ext.angleOf n ref) r with
  | none =>
    cases hc' : ext.circleFar (ext.angleOf (R n) (R ref)) (ext.angleOf (R n) (R v) - ext.angleOf (R n) (R ref)) r with
    | none => rfl
    | some s' =>
      obtain ⟨t, rfl, ht, -⟩ := hs.circle _ _ _ _ hne' hr hc'
      exact absurd hc (hs.circle_some _ _ _ hne ⟨t, by rw [← hnorm]; exact ht⟩)
  | some s =>
    obtain ⟨t, rfl, ht, hmax⟩ := hs.circle _ _ _ _ hne hr hc
    cases hc' : ext.circleFar (ext.angleOf (R n) (R ref)) (ext.angleOf (R n) (R v) - ext.angleOf (R n) (R ref)) r with
    | none => exact absurd hc' (hs.circle_some _ _ _ hne' ⟨t, by rw [hnorm]; exact ht⟩)
    | some s' =>
      obtain ⟨t', rfl, ht', hmax'⟩ := hs.circle _ _ _ _ hne' hr hc'
      have htt : t' = t := le_antisymm (hmax t' (by rw [← hnorm]; exact ht')) (hmax' t (by rw [hnorm]; exact ht))
      subst htt
      simp only [Except.map, e2, e2', hlin, sphereExp_turn]

/-- The projected tangent in turned coordinates. -/
lemma tangent_turn (hs : DirectionSpace ext) {v n ref : Vec d} {r : ℝ} (hv : ‖v‖ = 1) (hn : ‖n‖ = 1) (href : ‖ref‖ = 1)
    (hneg : ⟪n, ref⟫ < 0) (h0 : 0 < r) (h1 : r ≤ Real.pi) :
    projectedTangent ext (R v) (R n) (R ref) r = (projectedTangent ext v n ref r).map R := by
  classical
  have hn0 : n ≠ 0 := by rintro rfl; simp at hn
  rw [projectedTangent_eq, projectedTangent_eq]
  simp only [← map_smul, R.inner_map_map]
  by_cases hc : ⟪v, (-1 : ℝ) • n⟫ > Real.cos r
  · rw [if_pos hc, if_pos hc]
    refine find_turn hs hv (by simpa using hn) href ?_ ?_ h0.le
    · rintro ⟨c, hc0, e⟩
      have hcn : c = 1 := by
        have := congrArg norm e
        rw [hv, norm_smul, norm_smul, hn] at this
        simp at this
        rw [abs_of_pos hc0] at this
        exact this.symm
      subst hcn
      have hvn : v = n := by rw [e]; simp
      rw [hvn, inner_smul_right, real_inner_self_eq_norm_sq, hn] at hc
      have := Real.neg_one_le_cos r
      norm_num at hc
      linarith
    · refine not_opposite_of_inner_nonneg (by simpa using hn0) ?_
      rw [inner_smul_left]
      simp
      linarith
  · rw [if_neg hc, if_neg hc]
    refine find_turn hs hv hn (by simpa using href) ?_ ?_ (by linarith)
    · rintro ⟨c, hc0, e⟩
      have hcn : c = 1 := by
        have := congrArg norm e
        rw [hv, norm_smul, hn] at this
        simp at this
        rw [abs_of_pos hc0] at this
        exact this.symm
      subst hcn
      apply hc
      rw [e, inner_smul_left, inner_smul_right, real_inner_self_eq_norm_sq, hn]
      have : Real.cos r < Real.cos 0 := Real.cos_lt_cos_of_nonneg_of_le_pi le_rfl h1 h0
      rw [Real.cos_zero] at this
      simpa using this
    · refine not_opposite_of_inner_nonneg hn0 ?_
      rw [inner_smul_right]
      linarith

/-- The rotation weight in turned coordinates. -/
lemma rotationWeight_turn (hs : DirectionSpace ext) {v n ref : Vec d} (hv : ‖v‖ = 1) (hn : ‖n‖ = 1) (href : ‖ref‖ = 1)
    (hneg : ⟪n, ref⟫ < 0) (g p : ℝ) :
    getRotationWeight ext.angleOf (R n) (R ref) (R v) g (power := p)
      = getRotationWeight ext.angleOf n ref v g (power := p) := by
  classical
  have hn0 : n ≠ 0 := by rintro rfl; simp at hn
  have hcos : Real.cos (Real.pi * 0.5) = 0 := by
    rw [show Real.pi * 0.5 = Real.pi / 2 by ring, Real.cos_pi_div_two]
  unfold getRotationWeight
  simp only [← map_smul, R.inner_map_map]
  by_cases hg : g ≤ 1
  · rw [if_pos hg, if_pos hg]
  rw [if_neg hg, if_neg hg]
  by_cases hc : ⟪v, n⟫ > Real.cos (Real.pi * 0.5)
  · simp only [if_pos hc]
    have h := angle_dist_turn (R := R) hs hn (u := (-1 : ℝ) • ref) (v := v) (by simpa using href) hv
      (not_opposite_of_inner_nonneg hn0 (by rw [inner_smul_right]; linarith))
      (not_opposite_of_inner_nonneg hn0 (by rw [real_inner_comm]; rw [hcos] at hc; exact hc.le))
    rw [h.1, h.2]
  · simp only [if_neg hc]
    have h := angle_dist_turn (R := R) hs (n := (-1 : ℝ) • n) (by simpa using hn) href hv
      (not_opposite_of_inner_nonneg (by simpa using hn0) (by rw [inner_smul_left]; simp; linarith))
      (not_opposite_of_inner_nonneg (by simpa using hn0) (by
        rw [inner_smul_left, real_inner_comm]
        rw [hcos] at hc
        simp
        linarith))
    rw [h.1, h.2]

end Verif
