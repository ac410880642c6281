import Verif.Lemmas.Slerp
import Mathlib.Analysis.Calculus.MeanValue
import Mathlib.Analysis.InnerProductSpace.Calculus
import Mathlib.Analysis.SpecialFunctions.ExpDeriv
import Mathlib.Analysis.SpecialFunctions.Pow.Deriv
import Mathlib.Analysis.SpecialFunctions.Trigonometric.ArctanDeriv

/-! # Helper lemmas: differential inequalities along a trajectory -/

open scoped RealInnerProductSpace
open Set

namespace Verif
open Spec

/-- A function which is above a positive bound as long as it was positive before stays above the bound. -/
lemma keeps_above {T : ℝ} {y B : ℝ → ℝ} (hy : ContinuousOn y (Icc 0 T)) (hB : ContinuousOn B (Icc 0 T))
    (hpos : ∀ t ∈ Icc 0 T, 0 < B t) (h0 : 0 < y 0)
    (hstep : ∀ t ∈ Icc 0 T, (∀ u ∈ Icc 0 t, 0 < y u) → B t ≤ y t) : ∀ t ∈ Icc 0 T, B t ≤ y t := by
  have key : ∀ t ∈ Icc 0 T, 0 < y t := by
    by_contra hc
    push Not at hc
    obtain ⟨t, ht, hyt⟩ := hc
    have hcl : IsCompact (Icc 0 T ∩ y ⁻¹' Iic 0) :=
      (isCompact_Icc).of_isClosed_subset (hy.preimage_isClosed_of_isClosed isClosed_Icc isClosed_Iic) inter_subset_left
    obtain ⟨s, ⟨hs, hys⟩, hmin⟩ := hcl.exists_isLeast ⟨t, ht, hyt⟩
    have hys' : y s ≤ 0 := hys
    have hs0 : 0 < s := by
      rcases hs.1.eq_or_lt with h | h
      · rw [← h] at hys'; linarith
      · exact h
    have hb : ∀ u ∈ Ico 0 s, 0 ≤ y u - B u := by
      intro u hu
      refine sub_nonneg.mpr (hstep u ⟨hu.1, hu.2.le.trans hs.2⟩ ?_)
      intro w hw
      by_contra hw'
      exact absurd (hmin ⟨⟨hw.1, (hw.2.trans hu.2.le).trans hs.2⟩, not_lt.mp hw'⟩) (not_le.mpr (hw.2.trans_lt hu.2))
    have hsub : Icc 0 s ⊆ Icc 0 T := Icc_subset_Icc_right hs.2
    have hcs : 0 ≤ y s - B s := by
      have hc : ContinuousWithinAt (fun u => y u - B u) (Ico 0 s) s :=
        (((hy.sub hB) s hs).mono (Ico_subset_Icc_self.trans hsub))
      have hmem : s ∈ closure (Ico 0 s) := by
        rw [closure_Ico hs0.ne]; exact right_mem_Icc.mpr hs0.le
      have : (nhdsWithin s (Ico 0 s)).NeBot := mem_closure_iff_nhdsWithin_neBot.mp hmem
      exact ge_of_tendsto hc (Filter.eventually_of_mem self_mem_nhdsWithin hb)
    have := hpos s hs
    linarith
  intro t ht
  exact hstep t ht fun u hu => key u ⟨hu.1, hu.2.trans ht.2⟩

/-- A function with non-negative derivative does not decrease. -/
lemma grows {a b : ℝ} (hab : a ≤ b) {T : ℝ} {f f' : ℝ → ℝ} (ha : 0 ≤ a) (hb : b ≤ T)
    (hf : ∀ t ∈ Icc a b, HasDerivWithinAt f (f' t) (Icc 0 T) t) (h : ∀ t ∈ Icc a b, 0 ≤ f' t) : f a ≤ f b := by
  have hsub : Icc a b ⊆ Icc 0 T := Icc_subset_Icc ha hb
  have hm : MonotoneOn f (Icc a b) := by
    refine monotoneOn_of_hasDerivWithinAt_nonneg (f' := f') (convex_Icc a b) ?_ ?_ ?_
    · intro t ht; exact ((hf t ht).mono hsub).continuousWithinAt
    · intro t ht
      exact (hf t (interior_subset ht)).mono (interior_subset.trans hsub)
    · intro t ht; exact h t (interior_subset ht)
  exact hm (left_mem_Icc.mpr hab) (right_mem_Icc.mpr hab) hab

/-- The inequality of Grönwall, from below, for a function which is only controlled where it is positive. -/
lemma gronwall_below {T L E y0 : ℝ} (hL : 0 < L) {f f' : ℝ → ℝ}
    (hf : ∀ t ∈ Icc 0 T, HasDerivWithinAt f (f' t) (Icc 0 T) t) (h0 : y0 ≤ f 0) (hy0 : 0 < y0)
    (h : ∀ t ∈ Icc 0 T, 0 < f t → -(L * f t) - E ≤ f' t)
    (hB : ∀ t ∈ Icc 0 T, 0 < (y0 + E / L) * Real.exp (-(L * t)) - E / L) :
    ∀ t ∈ Icc 0 T, (y0 + E / L) * Real.exp (-(L * t)) - E / L ≤ f t := by
  refine keeps_above (fun t ht => (hf t ht).continuousWithinAt) (by fun_prop) hB (hy0.trans_le h0) ?_
  intro t ht hp
  have hg := grows (f := fun s => (f s + E / L) * Real.exp (L * s))
    (f' := fun s => f' s * Real.exp (L * s) + (f s + E / L) * (Real.exp (L * s) * L)) ht.1 le_rfl ht.2
    (by
      intro s hs
      have h1 : HasDerivWithinAt (fun s => Real.exp (L * s)) (Real.exp (L * s) * L) (Icc 0 T) s := by
        have := ((hasDerivAt_id s).const_mul L).exp
        simpa using this.hasDerivWithinAt
      exact ((hf s ⟨hs.1, hs.2.trans ht.2⟩).add_const (E / L)).mul h1)
    (by
      intro s hs
      have h1 := h s ⟨hs.1, hs.2.trans ht.2⟩ (hp s hs)
      have h2 := Real.exp_pos (L * s)
      have h3 : (f s + E / L) * (Real.exp (L * s) * L) = Real.exp (L * s) * (L * f s + E) := by
        field_simp
      rw [h3]
      nlinarith)
  simp only [mul_zero, Real.exp_zero, mul_one] at hg
  have he : Real.exp (-(L * t)) * Real.exp (L * t) = 1 := by rw [← Real.exp_add]; simp
  have h4 : (y0 + E / L) ≤ (f t + E / L) * Real.exp (L * t) := by linarith
  have h5 := mul_le_mul_of_nonneg_right h4 (Real.exp_pos (-(L * t))).le
  rw [mul_assoc, mul_comm (Real.exp (L * t)), he, mul_one] at h5
  linarith

/-- The last time before `t` at which a value was reached. -/
lemma last_time {T m : ℝ} {y : ℝ → ℝ} (hy : ContinuousOn y (Icc 0 T)) {t : ℝ} (ht : t ∈ Icc 0 T) (h0 : m ≤ y 0)
    (hm : y t ≤ m) : ∃ s ∈ Icc 0 t, y s = m ∧ ∀ u ∈ Icc s t, y u ≤ m := by
  have hsub : Icc 0 t ⊆ Icc 0 T := Icc_subset_Icc_right ht.2
  have hcl : IsCompact (Icc 0 t ∩ y ⁻¹' Ici m) :=
    (isCompact_Icc).of_isClosed_subset ((hy.mono hsub).preimage_isClosed_of_isClosed isClosed_Icc isClosed_Ici)
      inter_subset_left
  obtain ⟨s, ⟨hs, hys⟩, hmax⟩ := hcl.exists_isGreatest ⟨0, left_mem_Icc.mpr ht.1, h0⟩
  have hys' : m ≤ y s := hys
  have hlt : ∀ u ∈ Ioc s t, y u < m := by
    intro u hu
    by_contra hc
    exact absurd (hmax ⟨⟨hs.1.trans hu.1.le, hu.2⟩, not_lt.mp hc⟩) (not_le.mpr hu.1)
  have hle : y s ≤ m := by
    by_contra hc
    push Not at hc
    have hst : s < t := by
      rcases hs.2.eq_or_lt with h | h
      · rw [h] at hc; linarith
      · exact h
    have hc' : ContinuousWithinAt y (Ioc s t) s :=
      (hy s (hsub hs)).mono (fun u hu => hsub ⟨hs.1.trans hu.1.le, hu.2⟩)
    have hmem : s ∈ closure (Ioc s t) := by
      rw [closure_Ioc hst.ne]; exact left_mem_Icc.mpr hst.le
    have : (nhdsWithin s (Ioc s t)).NeBot := mem_closure_iff_nhdsWithin_neBot.mp hmem
    exact absurd (le_of_tendsto hc' (Filter.eventually_of_mem self_mem_nhdsWithin fun u hu => (hlt u hu).le))
      (not_le.mpr hc)
  refine ⟨s, hs, le_antisymm hle hys', ?_⟩
  intro u hu
  rcases hu.1.eq_or_lt with h | h
  · rw [← h]; exact hle
  · exact (hlt u ⟨h, hu.2⟩).le

end Verif
