import Verif.Lemmas.CircleTrajectory

/-! # Helper lemmas: trajectories of `SimpleCircularDynamics` in its plane, in closed form -/

open scoped RealInnerProductSpace
open Set Filter Topology

namespace Verif
open Spec Flows SimpleCircular

lemma flow_const_Ico {V : Type*} [NormedAddCommGroup V] [NormedSpace ℝ V] {g : ℝ → V} {a b : ℝ} (ha : 0 ≤ a)
    (hc : ContinuousOn g (Ici 0)) (hg : ∀ t ∈ Ico a b, HasDerivWithinAt g 0 (Ici 0) t) {t : ℝ} (ht : t ∈ Icc a b) :
    g t = g a := by
  have hsub : Icc a b ⊆ Ici 0 := fun t ht => ha.trans ht.1
  refine constant_of_has_deriv_right_zero (a := a) (b := b) (hc.mono hsub) ?_ t ht
  intro t ht
  exact (hg t ht).mono (fun s hs => (ha.trans ht.1).trans hs)

variable {d : ℕ} [Fact (2 ≤ d)]

/-- The velocity in the plane, outside of the circle. -/
lemma plane_velocity {c : SimpleCircular d} (hr : 0 < c.radius) {y : Vec d} (hrise : rise y = 0)
    (hq : 0 ≤ excess c y) :
    c.localVelocity y i0 = (-(c.radius * y i1) - √(excess c y) * y i0) / planarNorm y ^ 2
    ∧ c.localVelocity y i1 = (c.radius * y i0 - √(excess c y) * y i1) / planarNorm y ^ 2
    ∧ circleRate c y / c.radius * planarNorm y = 1 := by
  have hsq : planarNorm y ^ 2 = excess c y + c.radius ^ 2 := by rw [planarNorm_sq]; unfold excess; ring
  have hle : c.radius ≤ planarNorm y :=
    (abs_le_of_sq_le_sq' (by rw [hsq]; linarith) (planarNorm_nonneg _)).2
  have hρ : 0 < planarNorm y := hr.trans_le hle
  have hne : y ≠ 0 := by
    intro h
    rw [h] at hρ
    simp [planarNorm] at hρ
  have hn : ‖y‖ = planarNorm y := by
    have := norm_sq_rise y
    rw [hrise, add_zero] at this
    exact (sq_eq_sq₀ (norm_nonneg _) hρ.le).mp this
  have hD : ‖c.direction y‖ * c.radius = planarNorm y := by
    have := direction_norm_sq c hr hρ.ne'
    rw [hrise, abs_of_nonneg hq, add_zero, add_comm, ← hsq] at this
    exact (sq_eq_sq₀ (by positivity) hρ.le).mp this
  have hs : circularSpeed c ‖y‖ = 1 := by
    unfold circularSpeed
    rw [if_neg (by rw [hn]; linarith)]
  have hk : circleRate c y = c.radius / planarNorm y := by
    unfold circleRate
    rw [if_neg hne, hs, ← hD]
    have : ‖c.direction y‖ ≠ 0 := norm_ne_zero_iff.mpr (direction_ne_zero c hr hne)
    field_simp
  have hphi : c.phi y = √(excess c y) := by
    unfold phi
    change (if 0 ≤ excess c y then √|excess c y| else -√|excess c y|) = _
    rw [if_pos hq, abs_of_nonneg hq]
  rw [circle_velocity c hr]
  simp only [PiLp.smul_apply, smul_eq_mul]
  rw [direction_i0, direction_i1, hk, hphi]
  refine ⟨?_, ?_, ?_⟩ <;> field_simp

variable {c : SimpleCircular d} (hr : 0 < c.radius) (hm : 0 < c.maximumVelocity) {y : ℝ → Vec d}
  (hy : LocalTrajectory c y)
include hr hm hy

lemma plane_stays {s t : ℝ} (hs : 0 ≤ s) (hst : s ≤ t) (h : rise (y s) = 0) : rise (y t) = 0 := by
  have := circle_rise_anti hr hm hy (mem_Ici.mpr hs) (mem_Ici.mpr (hs.trans hst)) hst
  simp only [h] at this
  exact le_antisymm this (rise_nonneg _)

omit hm in
lemma tangent_cont : ContinuousOn (fun t => √(excess c (y t))) (Ici 0) :=
  (excess_cont hr hy).sqrt

/-- The length of the tangent decreases with unit speed. -/
lemma tangent_length (hrise : rise (y 0) = 0) (hq : 0 ≤ excess c (y 0)) {t : ℝ} (ht : 0 ≤ t)
    (htL : t ≤ √(excess c (y 0))) : √(excess c (y t)) = √(excess c (y 0)) - t := by
  set L := √(excess c (y 0)) with hL
  have hout : ∀ s, 0 ≤ s → 0 ≤ excess c (y s) := fun s hs => circle_outside hr hm hy le_rfl hs hq
  have habs : ∀ s, 0 ≤ s → √|excess c (y s)| = √(excess c (y s)) := fun s hs => by rw [abs_of_nonneg (hout s hs)]
  have hder : ∀ s, 0 ≤ s → 0 < √(excess c (y s)) →
      HasDerivWithinAt (fun s => √|excess c (y s)|) (-1) (Ici 0) s := by
    intro s hs h
    have hne : excess c (y s) ≠ 0 := (Real.sqrt_pos.mp h).ne'
    refine (circle_tangent_deriv hr hy hs hne).congr_deriv ?_
    rw [(plane_velocity hr (plane_stays hr hm hy le_rfl hs hrise) (hout s hs)).2.2]
  have hlt : ∀ T, 0 ≤ T → T < L → ∀ s ∈ Icc 0 T, L - s ≤ √(excess c (y s)) := by
    intro T hT hTL
    refine keeps_above ((tangent_cont hr hy).mono Icc_subset_Ici_self) (by fun_prop)
      (fun s hs => by linarith [hs.2]) (by rw [← hL]; linarith) ?_
    intro s hs hpos
    have := flow_linear_le (f := fun s => -√|excess c (y s)|) (f' := fun _ => 1) (m := 1) le_rfl hs.1
      (fun u hu => by
        have := (hder u hu.1 (hpos u hu)).neg
        refine this.congr_deriv (by norm_num))
      (fun u _ => le_rfl)
    simp only [habs s hs.1, habs 0 le_rfl] at this
    rw [← hL] at this
    linarith
  have heq : ∀ s, 0 ≤ s → s < L → √(excess c (y s)) = L - s := by
    intro s hs hsL
    refine le_antisymm ?_ (hlt s hs hsL s ⟨hs, le_rfl⟩)
    have := flow_linear_le (f := fun s => √|excess c (y s)|) (f' := fun _ => -1) (m := -1) le_rfl hs
      (fun u hu => hder u hu.1 ((sub_pos.mpr (hu.2.trans_lt hsL)).trans_le (hlt s hs hsL u hu)))
      (fun u _ => le_rfl)
    simp only [habs s hs, habs 0 le_rfl] at this
    rw [← hL] at this
    linarith
  rcases htL.lt_or_eq with h | h
  · exact heq t ht h
  · rw [← h, sub_self]
    refine le_antisymm ?_ (Real.sqrt_nonneg _)
    refine le_of_forall_pos_le_add fun ε hε => ?_
    rw [zero_add]
    rcases ht.eq_or_lt with h0 | h0
    · rw [← h0, ← hL, ← h, ← h0]; exact hε.le
    · have hs0 : 0 ≤ max 0 (t - ε) := le_max_left _ _
      have hst : max 0 (t - ε) < t := max_lt h0 (by linarith)
      have h1 := heq _ hs0 (h ▸ hst)
      have h2 := circle_excess_anti hr hm hy (mem_Ici.mpr hs0) (mem_Ici.mpr ht) hst.le
      simp only [abs_of_nonneg (hout _ hs0), abs_of_nonneg (hout _ ht)] at h2
      have h3 := Real.sqrt_le_sqrt h2
      rw [h1, ← h] at h3
      have := le_max_right 0 (t - ε)
      linarith

/-- Outside of the circle the velocity does not change: the trajectory is straight. -/
lemma tangent_line (hrise : rise (y 0) = 0) (hq : 0 ≤ excess c (y 0)) {t : ℝ} (ht : 0 ≤ t)
    (htL : t ≤ √(excess c (y 0))) : y t = y 0 + t • c.localVelocity (y 0) := by
  set L := √(excess c (y 0)) with hL
  have hout : ∀ s, 0 ≤ s → 0 ≤ excess c (y s) := fun s hs => circle_outside hr hm hy le_rfl hs hq
  have hstay : ∀ s, 0 ≤ s → rise (y s) = 0 := fun s hs => plane_stays hr hm hy le_rfl hs hrise
  have hlen : ∀ s, 0 ≤ s → s ≤ L → √(excess c (y s)) = L - s := fun s hs h => tangent_length hr hm hy hrise hq hs h
  have hsqρ : ∀ s, planarNorm (y s) ^ 2 = excess c (y s) + c.radius ^ 2 := fun s => by
    rw [planarNorm_sq]; unfold excess; ring
  have hρ : ∀ s, 0 ≤ s → s ≤ L → planarNorm (y s) ^ 2 = (L - s) ^ 2 + c.radius ^ 2 := by
    intro s hs h
    rw [hsqρ, ← hlen s hs h, Real.sq_sqrt (hout s hs)]
  have hpos : ∀ s, (L - s) ^ 2 + c.radius ^ 2 ≠ 0 := fun s => by positivity
  have hv : ∀ s, 0 ≤ s → s ≤ L →
      c.localVelocity (y s) i0 = (-(c.radius * y s i1) - (L - s) * y s i0) / ((L - s) ^ 2 + c.radius ^ 2)
      ∧ c.localVelocity (y s) i1 = (c.radius * y s i0 - (L - s) * y s i1) / ((L - s) ^ 2 + c.radius ^ 2) := by
    intro s hs h
    obtain ⟨h0, h1, _⟩ := plane_velocity hr (hstay s hs) (hout s hs)
    rw [hlen s hs h, hρ s hs h] at h0 h1
    exact ⟨h0, h1⟩
  have hlin : ∀ s : ℝ, HasDerivWithinAt (fun s => L - s) (-1) (Ici 0) s := fun s => by
    simpa using (hasDerivWithinAt_id s (Ici (0 : ℝ))).const_sub L
  have hden : ∀ s : ℝ, HasDerivWithinAt (fun s => (L - s) ^ 2 + c.radius ^ 2) (-(2 * (L - s))) (Ici 0) s := fun s => by
    refine (((hlin s).pow 2).add_const (c.radius ^ 2)).congr_deriv ?_
    norm_num
  have hcoord : ∀ i s, 0 ≤ s → HasDerivWithinAt (fun s => y s i) (c.localVelocity (y s) i) (Ici 0) s :=
    fun i s hs => coord_deriv (hy s hs) i
  -- the two components of the velocity are constant
  have hw0 : ∀ s ∈ Icc 0 L, (-(c.radius * y s i1) - (L - s) * y s i0) / ((L - s) ^ 2 + c.radius ^ 2)
      = (-(c.radius * y 0 i1) - (L - 0) * y 0 i0) / ((L - 0) ^ 2 + c.radius ^ 2) := by
    intro s hs
    have hd : ∀ u, 0 ≤ u → HasDerivWithinAt
        (fun s => (-(c.radius * y s i1) - (L - s) * y s i0) / ((L - s) ^ 2 + c.radius ^ 2)) _ (Ici 0) u :=
      fun u hu => ((((hcoord i1 u hu).const_mul c.radius).neg).sub ((hlin u).mul (hcoord i0 u hu))).div (hden u) (hpos u)
    refine flow_const_Ico (g := fun s => (-(c.radius * y s i1) - (L - s) * y s i0) / ((L - s) ^ 2 + c.radius ^ 2))
      le_rfl (fun u hu => (hd u hu).continuousWithinAt) ?_ hs
    intro u hu
    refine (hd u hu.1).congr_deriv ?_
    obtain ⟨h0, h1⟩ := hv u hu.1 hu.2.le
    rw [h0, h1]
    have := hpos u
    simp only [Pi.sub_apply, Pi.neg_apply, Pi.mul_apply]
    field_simp
    ring
  have hw1 : ∀ s ∈ Icc 0 L, (c.radius * y s i0 - (L - s) * y s i1) / ((L - s) ^ 2 + c.radius ^ 2)
      = (c.radius * y 0 i0 - (L - 0) * y 0 i1) / ((L - 0) ^ 2 + c.radius ^ 2) := by
    intro s hs
    have hd : ∀ u, 0 ≤ u → HasDerivWithinAt
        (fun s => (c.radius * y s i0 - (L - s) * y s i1) / ((L - s) ^ 2 + c.radius ^ 2)) _ (Ici 0) u :=
      fun u hu => (((hcoord i0 u hu).const_mul c.radius).sub ((hlin u).mul (hcoord i1 u hu))).div (hden u) (hpos u)
    refine flow_const_Ico (g := fun s => (c.radius * y s i0 - (L - s) * y s i1) / ((L - s) ^ 2 + c.radius ^ 2))
      le_rfl (fun u hu => (hd u hu).continuousWithinAt) ?_ hs
    intro u hu
    refine (hd u hu.1).congr_deriv ?_
    obtain ⟨h0, h1⟩ := hv u hu.1 hu.2.le
    rw [h0, h1]
    have := hpos u
    simp only [Pi.sub_apply, Pi.mul_apply]
    field_simp
    ring
  have hL0 : 0 ≤ L := Real.sqrt_nonneg _
  have hline : ∀ i : Fin d, (∀ s, 0 ≤ s → s ≤ L → c.localVelocity (y s) i = c.localVelocity (y 0) i) →
      y t i = y 0 i + t * c.localVelocity (y 0) i := by
    intro i hi
    have hd : ∀ u, 0 ≤ u → HasDerivWithinAt (fun s => y s i - s * c.localVelocity (y 0) i)
        (c.localVelocity (y u) i - 1 * c.localVelocity (y 0) i) (Ici 0) u :=
      fun u hu => (hcoord i u hu).sub ((hasDerivWithinAt_id u _).mul_const _)
    have := flow_const_Ico (g := fun s => y s i - s * c.localVelocity (y 0) i) (a := 0) (b := L) le_rfl
      (fun u hu => (hd u hu).continuousWithinAt) (fun u hu => (hd u hu.1).congr_deriv (by
        rw [hi u hu.1 hu.2.le]; ring)) ⟨ht, htL⟩
    simp only [zero_mul, sub_zero] at this
    linarith
  ext i
  simp only [PiLp.add_apply, PiLp.smul_apply, smul_eq_mul]
  by_cases h0 : i = i0
  · subst h0
    refine hline i0 fun s hs h => ?_
    rw [(hv s hs h).1, (hv 0 le_rfl hL0).1, hw0 s ⟨hs, h⟩]
  by_cases h1 : i = i1
  · subst h1
    refine hline i1 fun s hs h => ?_
    rw [(hv s hs h).2, (hv 0 le_rfl hL0).2, hw1 s ⟨hs, h⟩]
  have hz : ∀ s, 0 ≤ s → y s i = 0 := by
    intro s hs
    have h := hstay s hs
    unfold rise at h
    rw [Finset.sum_eq_zero_iff_of_nonneg (fun _ _ => sq_nonneg _)] at h
    exact pow_eq_zero_iff (two_ne_zero) |>.mp (h i (by simp [h0, h1]))
  refine hline i fun s hs _ => ?_
  rw [circle_velocity c hr, circle_velocity c hr]
  simp only [PiLp.smul_apply, smul_eq_mul]
  rw [direction_other c _ i h0 h1, direction_other c _ i h0 h1, hz s hs, hz 0 le_rfl]
  simp

/-- On the circle the trajectory turns with angular speed `1 / radius`. -/
lemma circle_turns {s t : ℝ} (hs : 0 ≤ s) (hst : s ≤ t) (hrise : rise (y s) = 0) (hq : excess c (y s) = 0) :
    y t i0 = Real.cos ((t - s) / c.radius) * y s i0 - Real.sin ((t - s) / c.radius) * y s i1
    ∧ y t i1 = Real.sin ((t - s) / c.radius) * y s i0 + Real.cos ((t - s) / c.radius) * y s i1 := by
  have hv : ∀ u, s ≤ u → c.localVelocity (y u) i0 = -(y u i1) / c.radius
      ∧ c.localVelocity (y u) i1 = y u i0 / c.radius := by
    intro u hu
    have hqu := circle_zero hr hm hy hs hu hq
    obtain ⟨h0, h1, _⟩ := plane_velocity hr (plane_stays hr hm hy hs hu hrise) hqu.ge
    have hsq : planarNorm (y u) ^ 2 = c.radius ^ 2 := by
      rw [planarNorm_sq]; unfold excess at hqu; linarith
    rw [hqu, Real.sqrt_zero, hsq] at h0 h1
    rw [h0, h1]
    constructor <;> field_simp <;> ring
  have hang : ∀ u, HasDerivWithinAt (fun u => (u - s) / c.radius) (1 / c.radius) (Ici 0) u := fun u =>
    ((hasDerivWithinAt_id u _).sub_const s).div_const _
  have hcos := fun u => (hang u).cos
  have hsin := fun u => (hang u).sin
  have hcoord : ∀ i u, 0 ≤ u → HasDerivWithinAt (fun s => y s i) (c.localVelocity (y u) i) (Ici 0) u :=
    fun i u hu => coord_deriv (hy u hu) i
  have ha := flow_const (g := fun u => Real.cos ((u - s) / c.radius) * y u i0 + Real.sin ((u - s) / c.radius) * y u i1)
    hs hst (by
      intro u hu
      refine (((hcos u).mul (hcoord i0 u (hs.trans hu.1))).add ((hsin u).mul (hcoord i1 u (hs.trans hu.1)))).congr_deriv ?_
      rw [(hv u hu.1).1, (hv u hu.1).2]
      ring)
  have hb := flow_const (g := fun u => Real.cos ((u - s) / c.radius) * y u i1 - Real.sin ((u - s) / c.radius) * y u i0)
    hs hst (by
      intro u hu
      refine (((hcos u).mul (hcoord i1 u (hs.trans hu.1))).sub ((hsin u).mul (hcoord i0 u (hs.trans hu.1)))).congr_deriv ?_
      rw [(hv u hu.1).1, (hv u hu.1).2]
      ring)
  simp only [sub_self, zero_div, Real.cos_zero, Real.sin_zero, one_mul, zero_mul, add_zero, sub_zero] at ha hb
  have hone := Real.sin_sq_add_cos_sq ((t - s) / c.radius)
  constructor
  · rw [← ha, ← hb]; linear_combination (-(y t i0)) * hone
  · rw [← ha, ← hb]; linear_combination (-(y t i1)) * hone

end Verif
