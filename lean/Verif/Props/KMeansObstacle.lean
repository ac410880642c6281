import Verif.Lemmas.KMeans

/-!
# C80: The region of a cluster
-/

open scoped RealInnerProductSpace

namespace Verif.KMeans

open Verif.Projected (floatMax)

set_option linter.unusedSectionVars false

variable {d n : ℕ} [NeZero d]

/-- **C80** `get_point_on_surface` returns, for every position other than the centre, the point
where the ray from the centre through the position leaves the region of the cluster. -/
theorem C80_surface (o : Obs n d) (hg : Spec.GoodClusters o.centers o.radius o.index) (x : Vec d)
    (hx : x ≠ o.center) :
    ∃ s > 0, (o.getPointOnSurface x true).1 = o.center + (s / ‖x - o.center‖) • (x - o.center)
      ∧ ∀ t, 0 ≤ t → (o.center + (t / ‖x - o.center‖) • (x - o.center)
          ∈ Spec.Cell o.centers o.radius o.index ↔ t ≤ s) := by
  obtain ⟨u, s, h, h1, -, h3, h4⟩ := exists_ray hg x hx
  have h5 : ∀ t : ℝ, (t / ‖x - o.center‖) • (x - o.center) = t • u := by
    intro t
    conv_lhs => rw [h3]
    rw [smul_smul, norm_smul, h.unit, norm_norm, mul_one, div_mul_cancel₀ _ h4.ne']
  refine ⟨s, h.pos, ?_, ?_⟩
  · rw [h5, h1]
  · intro t ht
    rw [h5]
    exact h.mem_cell hg ht

/-- **C80** The two frames agree. -/
theorem C80_frames (o : Obs n d) (x : Vec d) :
    (o.getPointOnSurface x false).1 + o.center = (o.getPointOnSurface (x + o.center) true).1 := by
  unfold Obs.getPointOnSurface
  simp

/-- **C80 (violated)** In the local frame a query at the centre overwrites the array of the
caller. -/
theorem C80_argument_overwritten (o : Obs n d) :
    (o.getPointOnSurface 0 false).2 = EuclideanSpace.single 0 1
      ∧ (o.getPointOnSurface 0 false).2 ≠ 0 := by
  have h : (o.getPointOnSurface 0 false).2 = EuclideanSpace.single 0 1 := by
    unfold Obs.getPointOnSurface; simp
  refine ⟨h, ?_⟩
  rw [h]
  intro h1
  have := congrArg (fun v : Vec d => v 0) h1
  simp at this

/-- The values `get_gamma` can take away from the surface. -/
lemma getGamma_ray (o : Obs n d) (hg : Spec.GoodClusters o.centers o.radius o.index)
    (last : Fin n) (x : Vec d) (hx : x ≠ o.center) (t : Obs.Transparent n) :
    ∃ u s P, Ray o u s ∧ x = o.center + ‖x - o.center‖ • u ∧ 0 < ‖x - o.center‖
      ∧ (‖x - o.center‖ < s → P = s * (s / ‖x - o.center‖) ∧ s < P)
      ∧ (s < ‖x - o.center‖ → P = ‖x - o.center‖)
      ∧ (‖x - o.center‖ = s → o.getGamma last x true t = .ok (some (o.gammaOnSurface x last t)))
      ∧ (‖x - o.center‖ ≠ s → o.isBoundary = true → o.getGamma last x true t
          = (o.gammaBoundary (o.distances (o.center + P • u) P) P ‖x - o.center‖ t).map some)
      ∧ (‖x - o.center‖ ≠ s → o.isBoundary = false → o.getGamma last x true t
          = o.gammaObstacle (o.distances (o.center + P • u) P) ‖x - o.center‖) := by
  obtain ⟨u, s, h, h1, h2, h3, h4⟩ := exists_ray hg x hx
  have hs : ‖(o.center + s • u) - o.center‖ = s := by
    rw [add_sub_cancel_left, norm_smul, h.unit, mul_one, Real.norm_of_nonneg h.pos.le]
  generalize hρ : ‖x - o.center‖ = ρ at *
  refine ⟨u, s, if ρ < s then s * (s / ρ) else ρ, h, h2, h4, ?_, ?_, ?_, ?_, ?_⟩
  · intro h5
    rw [if_pos h5]
    refine ⟨rfl, ?_⟩
    have : 1 < s / ρ := by rw [lt_div_iff₀ h4]; linarith
    nlinarith [h.pos]
  · intro h5
    rw [if_neg (not_lt.mpr h5.le)]
  · intro h5
    have h6 : x = o.center + s • u := by rw [← h5]; exact h2
    unfold Obs.getGamma
    simp only [if_true, hρ, h1, hs]
    rw [if_neg h4.ne', if_pos h5, ← h6]
  all_goals
    intro h5 h6
    unfold Obs.getGamma
    simp only [if_true, hρ, h1, hs]
    rw [if_neg h4.ne', if_neg h5]
    by_cases h7 : ρ < s
    · simp only [if_pos h7, h6]
      have h8 : ((s / ρ) ^ 2) • (x - o.center) = (s * (s / ρ)) • u := by
        rw [h3, smul_smul]
        congr 1
        field_simp
      have h9 : ‖(s * (s / ρ)) • u‖ = s * (s / ρ) := by
        rw [norm_smul, h.unit, mul_one, Real.norm_of_nonneg]
        have := h.pos
        positivity
      rw [h8, h9, add_comm]
      simp
    · simp only [if_neg h7, h6, hρ]
      rw [← h2]
      simp

lemma weighted_bounds {w r : Fin n → ℝ} {a b : ℝ} (hw : ∀ i, 0 ≤ w i) (h1 : ∑ i, w i = 1)
    (ha : ∀ i, 0 < w i → a ≤ r i) (hb : ∀ i, 0 < w i → r i < b) :
    a ≤ ∑ i, w i * r i ∧ ∑ i, w i * r i < b := by
  constructor
  · have : ∑ i, w i * a ≤ ∑ i, w i * r i := by
      refine Finset.sum_le_sum (fun i _ => ?_)
      rcases (hw i).eq_or_lt with h | h
      · rw [← h]; simp
      · exact mul_le_mul_of_nonneg_left (ha i h) h.le
    rwa [← Finset.sum_mul, h1, one_mul] at this
  · have hpos : ∃ i, 0 < w i := by
      by_contra hc
      push Not at hc
      have : ∑ i, w i ≤ 0 := Finset.sum_nonpos (fun i _ => hc i)
      linarith
    obtain ⟨k, hk⟩ := hpos
    have : ∑ i, w i * r i < ∑ i, w i * b := by
      refine Finset.sum_lt_sum (fun i _ => ?_) ⟨k, Finset.mem_univ _, ?_⟩
      · rcases (hw i).eq_or_lt with h | h
        · rw [← h]; simp
        · exact mul_le_mul_of_nonneg_left (hb i h).le h.le
      · exact mul_lt_mul_of_pos_left (hb k hk) hk
    rwa [← Finset.sum_mul, h1, one_mul] at this

/-- Queries for which no wall is transparent. -/
def NoGap (o : Obs n d) (t : Obs.Transparent n) : Prop :=
  t = .minusOne ∨ (t = .unset ∧ o.successor = [])

/-- Queries that the code implements. -/
def Supported (o : Obs n d) (t : Obs.Transparent n) : Prop :=
  t = .unset → o.successor.length ≤ 1

lemma gammaBoundary_noGap {o : Obs n d} {t : Obs.Transparent n} (ht : NoGap o t)
    {dist : Fin n → ℝ} {P ρ : ℝ} {w : Fin n → ℝ} (hw : Obs.surfaceWeights dist = some w) :
    o.gammaBoundary dist P ρ t = .ok ((∑ i, w i * (P - dist i)) / ρ) := by
  unfold Obs.gammaBoundary
  rcases ht with rfl | ⟨rfl, h⟩
  · simp only [hw]
  · simp only [h, hw]

lemma gammaBoundary_gap {o : Obs n d} {t : Obs.Transparent n} {i : Fin n}
    (ht : t = .cluster i ∨ (t = .unset ∧ o.successor = [i]))
    {dist : Fin n → ℝ} {P ρ : ℝ} {w : Fin n → ℝ} (hw : Obs.surfaceWeights dist = some w) :
    o.gammaBoundary dist P ρ t = .ok (Obs.gammaTransparent w (fun i => P - dist i) ρ i) := by
  unfold Obs.gammaBoundary
  rcases ht with rfl | ⟨rfl, h⟩
  · simp only [hw]
  · simp only [h, hw]

lemma gammaTransparent_ge {w r : Fin n → ℝ} {a ρ : ℝ} (hρ : 0 < ρ) (hw : ∀ i, 0 ≤ w i)
    (h1 : ∑ i, w i = 1) (ha : ∀ i, 0 < w i → a ≤ r i) (ha0 : 0 < a) (t : Fin n) :
    a / ρ ≤ Obs.gammaTransparent w r ρ t ∨ Obs.gammaTransparent w r ρ t = floatMax := by
  classical
  unfold Obs.gammaTransparent
  by_cases h2 : w t > 0
  · rw [if_pos h2]
    have h3 : ∀ i, max (w i - w t) 0 ≤ w i := fun i => max_le (by linarith [hw t]) (hw i)
    have h4 : ∑ i, max (w i - w t) 0 ≤ 1 := by
      rw [← h1]; exact Finset.sum_le_sum (fun i _ => h3 i)
    by_cases h5 : 1 - ∑ i, max (w i - w t) 0 ≥ 1
    · right; simp only [if_pos h5]
    · left
      simp only [if_neg h5]
      set S := ∑ i, max (w i - w t) 0 with hS
      have hS0 : 0 < S := by by_contra hc; exact h5 (by linarith)
      rw [div_le_div_iff_of_pos_right hρ]
      have h6 : a ≤ r t / S := by
        rw [le_div_iff₀ hS0]
        have := ha t h2
        nlinarith
      have h7 : ∑ i, (if i = t then (1 - S) * a else max (w i - w t) 0 * a)
          ≤ ∑ i, (if i = t then (1 - S) * (r t / (1 - (1 - S))) else max (w i - w t) 0 * r i) := by
        refine Finset.sum_le_sum (fun i _ => ?_)
        by_cases hi : i = t
        · rw [if_pos hi, if_pos hi, sub_sub_cancel]
          exact mul_le_mul_of_nonneg_left h6 (by linarith)
        · rw [if_neg hi, if_neg hi]
          by_cases hm : w i - w t ≤ 0
          · rw [max_eq_right hm]; simp
          · have : 0 < w i := by push Not at hm; linarith
            exact mul_le_mul_of_nonneg_left (ha i this) (le_max_right _ _)
      refine le_trans (le_of_eq ?_) h7
      have h8 : ∀ i, (if i = t then (1 - S) * a else max (w i - w t) 0 * a)
          = (if i = t then (1 - S) * a else 0) + max (w i - w t) 0 * a := by
        intro i
        by_cases hi : i = t
        · rw [if_pos hi, if_pos hi, hi]; simp
        · rw [if_neg hi, if_neg hi]; ring
      rw [Finset.sum_congr rfl (fun i _ => h8 i), Finset.sum_add_distrib, ← Finset.sum_mul, ← hS,
        Finset.sum_ite_eq' Finset.univ t]
      simp
      ring
  · rw [if_neg h2]
    left
    rw [div_le_div_iff_of_pos_right hρ]
    have : ∑ i, w i * a ≤ ∑ i, w i * r i := by
      refine Finset.sum_le_sum (fun i _ => ?_)
      rcases (hw i).eq_or_lt with h | h
      · rw [← h]; simp
      · exact mul_le_mul_of_nonneg_left (ha i h) h.le
    rwa [← Finset.sum_mul, h1, one_mul] at this

/-- **C80** Inside the region gamma is greater than one, whatever wall is transparent. -/
theorem C80_gamma_inside (o : Obs n d) (hg : Spec.GoodClusters o.centers o.radius o.index)
    (hb : o.isBoundary = true) (last : Fin n) (t : Obs.Transparent n) (ht : Supported o t)
    (x : Vec d) (hx : x ∈ Spec.OpenCell o.centers o.radius o.index) :
    ∃ g > 1, o.getGamma last x true t = .ok (some g) := by
  by_cases hc : x = o.center
  · refine ⟨floatMax, floatMax_gt, ?_⟩
    unfold Obs.getGamma
    simp [hc, hb]
  obtain ⟨u, s, P, h, h2, h4, h5, -, -, h7, -⟩ := getGamma_ray o hg last x hc t
  have h8 : ‖x - o.center‖ < s := by
    rw [h2] at hx
    exact (h.mem_openCell hg h4.le).mp hx
  obtain ⟨hP, hsP⟩ := h5 h8
  rw [h7 h8.ne hb]
  obtain ⟨w, hw, hw0, hw1, hwp⟩ := surfaceWeights_ok (exists_distance_pos h hg hsP)
  have hr : ∀ i, 0 < w i → s ≤ P - o.distances (o.center + P • u) P i := by
    intro i _
    have := distances_le h hg hsP i
    linarith
  have hr2 : ∀ i, 0 < w i → P - o.distances (o.center + P • u) P i < P := by
    intro i hi
    have := (hwp i).mp hi
    linarith
  have hs1 : 1 < s / ‖x - o.center‖ := by rw [lt_div_iff₀ h4]; linarith
  by_cases hng : NoGap o t
  · rw [gammaBoundary_noGap hng hw]
    refine ⟨_, ?_, rfl⟩
    have := (weighted_bounds hw0 hw1 hr hr2).1
    rw [gt_iff_lt, lt_div_iff₀ h4]
    linarith
  · obtain ⟨i, hi⟩ : ∃ i, t = .cluster i ∨ (t = .unset ∧ o.successor = [i]) := by
      cases t with
      | minusOne => exact absurd (Or.inl rfl) hng
      | cluster i => exact ⟨i, Or.inl rfl⟩
      | unset =>
        have h9 := ht rfl
        match hsucc : o.successor with
        | [] => exact absurd (Or.inr ⟨rfl, hsucc⟩) hng
        | [i] => exact ⟨i, Or.inr ⟨rfl, rfl⟩⟩
        | _ :: _ :: _ => rw [hsucc] at h9; simp at h9
    rw [gammaBoundary_gap hi hw]
    refine ⟨_, ?_, rfl⟩
    rcases gammaTransparent_ge h4 hw0 hw1 hr h.pos i with h9 | h9
    · exact lt_of_lt_of_le hs1 h9
    · rw [h9]; exact floatMax_gt

/-- **C80** Outside of the region gamma is between zero and one if no wall is transparent. -/
theorem C80_gamma_outside (o : Obs n d) (hg : Spec.GoodClusters o.centers o.radius o.index)
    (hb : o.isBoundary = true) (last : Fin n) (t : Obs.Transparent n) (ht : NoGap o t)
    (x : Vec d) (hx : x ∉ Spec.Cell o.centers o.radius o.index) :
    ∃ g, 0 < g ∧ g < 1 ∧ o.getGamma last x true t = .ok (some g) := by
  have hc : x ≠ o.center := by
    intro hc
    refine hx ⟨?_, ?_⟩
    · rw [hc]; change ‖o.center - o.center‖ ≤ _; rw [sub_self, norm_zero]; exact hg.radius_pos.le
    · intro j; rw [hc]; change ‖o.center - o.center‖ ≤ _; rw [sub_self, norm_zero]; positivity
  obtain ⟨u, s, P, h, h2, h4, -, h5, -, h7, -⟩ := getGamma_ray o hg last x hc t
  have h8 : s < ‖x - o.center‖ := by
    by_contra h9
    apply hx
    rw [h2]
    exact (h.mem_cell hg h4.le).mpr (not_lt.mp h9)
  have hP := h5 h8
  rw [h7 h8.ne' hb, hP]
  obtain ⟨w, hw, hw0, hw1, hwp⟩ := surfaceWeights_ok (exists_distance_pos h hg h8)
  rw [gammaBoundary_noGap ht hw]
  have hr : ∀ i, 0 < w i → s ≤ ‖x - o.center‖
      - o.distances (o.center + ‖x - o.center‖ • u) ‖x - o.center‖ i := by
    intro i _
    have := distances_le h hg h8 i
    linarith
  have hr2 : ∀ i, 0 < w i → ‖x - o.center‖
      - o.distances (o.center + ‖x - o.center‖ • u) ‖x - o.center‖ i < ‖x - o.center‖ := by
    intro i hi
    have := (hwp i).mp hi
    linarith
  obtain ⟨h9, h10⟩ := weighted_bounds hw0 hw1 hr hr2
  refine ⟨_, ?_, ?_, rfl⟩
  · have := h.pos
    apply div_pos _ h4
    linarith
  · rw [div_lt_one h4]; exact h10

/-- **C80** On the surface gamma is one if no wall is transparent (and `ind_transparent` is not
given). -/
theorem C80_gamma_surface (o : Obs n d) (hg : Spec.GoodClusters o.centers o.radius o.index)
    (last : Fin n) (hs : o.successor = [])
    (x : Vec d) (hx : x ∈ Spec.Cell o.centers o.radius o.index)
    (hx' : x ∉ Spec.OpenCell o.centers o.radius o.index) :
    o.getGamma last x true .unset = .ok (some 1) := by
  have hc : x ≠ o.center := by
    intro hc
    refine hx' ⟨?_, ?_⟩
    · rw [hc]; change ‖o.center - o.center‖ < _; rw [sub_self, norm_zero]; exact hg.radius_pos
    · intro j hj; rw [hc]; change ‖o.center - o.center‖ < _; rw [sub_self, norm_zero, norm_sub_rev]
      exact (hg.separated j hj).1
  obtain ⟨u, s, P, h, h2, h4, -, -, h5, -, -⟩ := getGamma_ray o hg last x hc .unset
  have h8 : ‖x - o.center‖ = s := by
    rw [h2] at hx hx'
    refine le_antisymm ((h.mem_cell hg h4.le).mp hx) ?_
    by_contra h9
    exact hx' ((h.mem_openCell hg h4.le).mpr (not_le.mp h9))
  rw [h5 h8]
  unfold Obs.gammaOnSurface
  simp [hs]

/-- **C80** So the sign of `gamma - 1` tells for every position whether it is inside, on the surface
or outside. -/
theorem C80_sign (o : Obs n d) (hg : Spec.GoodClusters o.centers o.radius o.index)
    (hb : o.isBoundary = true) (last : Fin n) (hs : o.successor = []) (x : Vec d) :
    ∃ g, o.getGamma last x true .unset = .ok (some g)
      ∧ (x ∈ Spec.OpenCell o.centers o.radius o.index ↔ 1 < g)
      ∧ (x ∉ Spec.Cell o.centers o.radius o.index ↔ g < 1) := by
  by_cases h1 : x ∈ Spec.OpenCell o.centers o.radius o.index
  · obtain ⟨g, hg1, h2⟩ := C80_gamma_inside o hg hb last .unset (by intro _; rw [hs]; simp) x h1
    refine ⟨g, h2, ⟨fun _ => hg1, fun _ => h1⟩, ⟨?_, fun h => absurd h (not_lt.mpr hg1.le)⟩⟩
    intro h3
    exfalso
    apply h3
    refine ⟨h1.1.le, fun j => ?_⟩
    by_cases hj : j = o.index
    · rw [hj]
    · exact (h1.2 j hj).le
  · by_cases h2 : x ∈ Spec.Cell o.centers o.radius o.index
    · refine ⟨1, C80_gamma_surface o hg last hs x h2 h1, ⟨fun h => absurd h h1, fun h => ?_⟩,
        ⟨fun h => absurd h2 h, fun h => ?_⟩⟩
      · exact absurd h (lt_irrefl _)
      · exact absurd h (lt_irrefl _)
    · obtain ⟨g, h3, h4, h5⟩ := C80_gamma_outside o hg hb last .unset (Or.inr ⟨rfl, hs⟩) x h2
      exact ⟨g, h5, ⟨fun h => absurd h h1, fun h => absurd h (not_lt.mpr h4.le)⟩,
        ⟨fun _ => h4, fun _ => h2⟩⟩

/-- **C80** `get_gamma` gives the same value in both frames. -/
theorem C80_gamma_frames (o : Obs n d) (last : Fin n) (t : Obs.Transparent n) (x : Vec d) :
    o.getGamma last x false t = o.getGamma last (x + o.center) true t := by
  unfold Obs.getGamma
  simp

/-- **C80** A transparent wall to cluster `k` does not open the other walls: outside of the region,
on the own side of the transparent wall, gamma stays below one. -/
theorem C80_transparent_blocked (o : Obs n d)
    (hg : Spec.GoodClusters o.centers o.radius o.index) (hb : o.isBoundary = true) (last k : Fin n)
    (hk : o.Relevant k) (x : Vec d) (hx : x ∉ Spec.Cell o.centers o.radius o.index)
    (hside : ‖x - o.center‖ ≤ ‖x - o.centers k‖) :
    ∃ g, 0 < g ∧ g < 1 ∧ o.getGamma last x true (.cluster k) = .ok (some g) := by
  have hc : x ≠ o.center := by
    intro hc
    refine hx ⟨?_, ?_⟩
    · rw [hc]; change ‖o.center - o.center‖ ≤ _; rw [sub_self, norm_zero]; exact hg.radius_pos.le
    · intro j; rw [hc]; change ‖o.center - o.center‖ ≤ _; rw [sub_self, norm_zero]; positivity
  obtain ⟨u, s, P, h, h2, h4, -, h5, -, h7, -⟩ := getGamma_ray o hg last x hc (.cluster k)
  have h8 : s < ‖x - o.center‖ := by
    by_contra h9
    apply hx
    rw [h2]
    exact (h.mem_cell hg h4.le).mpr (not_lt.mp h9)
  have hP := h5 h8
  rw [h7 h8.ne' hb, hP]
  obtain ⟨w, hw, hw0, hw1, hwp⟩ := surfaceWeights_ok (exists_distance_pos h hg h8)
  rw [gammaBoundary_gap (Or.inl rfl) hw]
  have hr : ∀ i, 0 < w i → s ≤ ‖x - o.center‖
      - o.distances (o.center + ‖x - o.center‖ • u) ‖x - o.center‖ i := by
    intro i _
    have := distances_le h hg h8 i
    linarith
  have hr2 : ∀ i, 0 < w i → ‖x - o.center‖
      - o.distances (o.center + ‖x - o.center‖ • u) ‖x - o.center‖ i < ‖x - o.center‖ := by
    intro i hi
    have := (hwp i).mp hi
    linarith
  have hz : ¬ w k > 0 := by
    intro h9
    have h10 := (hwp k).mp h9
    rw [(distances_ray hg k).2.1 hk] at h10
    have h11 : ‖o.center + ‖x - o.center‖ • u - o.center‖
        ≤ ‖o.center + ‖x - o.center‖ • u - o.centers k‖ := by
      rw [← h2]; exact hside
    have h12 := (closer_iff h.unit h4.le (hg.separated k hk.1).1).1.mp h11
    linarith
  unfold Obs.gammaTransparent
  rw [if_neg hz]
  obtain ⟨h9, h10⟩ := weighted_bounds hw0 hw1 hr hr2
  refine ⟨_, ?_, ?_, rfl⟩
  · have := h.pos
    apply div_pos _ h4
    linarith
  · rw [div_lt_one h4]; exact h10

/-- **C80** A transparent wall is open: at a position that leaves the region through this wall only,
gamma is the largest float. -/
theorem C80_transparent_open (o : Obs n d)
    (hg : Spec.GoodClusters o.centers o.radius o.index) (hb : o.isBoundary = true) (last k : Fin n)
    (x : Vec d) (hball : ‖x - o.center‖ ≤ o.radius)
    (hside : ‖x - o.centers k‖ < ‖x - o.center‖)
    (hother : ∀ j, j ≠ k → ‖x - o.center‖ ≤ ‖x - o.centers j‖) :
    o.getGamma last x true (.cluster k) = .ok (some floatMax) := by
  have hc : x ≠ o.center := by
    intro hc
    rw [hc, sub_self, norm_zero] at hside
    exact absurd hside (not_lt.mpr (norm_nonneg _))
  obtain ⟨u, s, P, h, h2, h4, -, h5, -, h7, -⟩ := getGamma_ray o hg last x hc (.cluster k)
  have h8 : s < ‖x - o.center‖ := by
    by_contra h9
    have h10 := (h.mem_cell hg h4.le).mpr (not_lt.mp h9)
    rw [← h2] at h10
    exact absurd (h10.2 k) (not_le.mpr hside)
  have hP := h5 h8
  rw [h7 h8.ne' hb, hP]
  obtain ⟨w, hw, hw0, hw1, hwp⟩ := surfaceWeights_ok (exists_distance_pos h hg h8)
  rw [gammaBoundary_gap (Or.inl rfl) hw]
  have hz : ∀ i, i ≠ k → w i = 0 := by
    intro i hi
    refine le_antisymm ?_ (hw0 i)
    by_contra h9
    have h10 := (hwp i).mp (not_le.mp h9)
    by_cases hidx : i = o.index
    · rw [(distances_ray hg i).1 hidx] at h10; linarith
    · by_cases hrel : o.Relevant i
      · rw [(distances_ray hg i).2.1 hrel] at h10
        have h11 := hother i hi
        rw [h2, ← h2] at h11
        have h12 : ‖o.center + ‖x - o.center‖ • u - o.center‖
            ≤ ‖o.center + ‖x - o.center‖ • u - o.centers i‖ := by
          rw [← h2]; exact hother i hi
        have h13 := (closer_iff h.unit h4.le (hg.separated i hrel.1).1).1.mp h12
        linarith
      · rw [(distances_ray hg i).2.2 hidx hrel] at h10; exact absurd h10 (lt_irrefl _)
  have hwk : w k = 1 := by
    rw [← hw1, Finset.sum_eq_single k (fun i _ hi => hz i hi) (by simp)]
  unfold Obs.gammaTransparent
  have hsum : ∑ i, max (w i - w k) 0 = 0 := by
    refine Finset.sum_eq_zero (fun i _ => max_eq_right ?_)
    by_cases hi : i = k
    · rw [hi]; simp
    · rw [hz i hi, hwk]; norm_num
  rw [if_pos (by rw [hwk]; norm_num)]
  simp only [hsum]
  rw [if_pos (by norm_num)]
  rfl

/-- **C80** On the surface the transparent wall is open as well, and the other walls are closed. -/
theorem C80_transparent_surface (o : Obs n d)
    (hg : Spec.GoodClusters o.centers o.radius o.index) (last k : Fin n)
    (hk : o.Relevant k) (x : Vec d) (hx : x ∈ Spec.Cell o.centers o.radius o.index)
    (hx' : x ∉ Spec.OpenCell o.centers o.radius o.index) :
    (‖x - o.center‖ = ‖x - o.centers k‖ →
      o.getGamma last x true (.cluster k) = .ok (some floatMax))
    ∧ (‖x - o.center‖ ≠ ‖x - o.centers k‖ →
      o.getGamma last x true (.cluster k) = .ok (some 1)) := by
  have hc : x ≠ o.center := by
    intro hc
    refine hx' ⟨?_, ?_⟩
    · rw [hc]; change ‖o.center - o.center‖ < _; rw [sub_self, norm_zero]; exact hg.radius_pos
    · intro j hj; rw [hc]; change ‖o.center - o.center‖ < _; rw [sub_self, norm_zero, norm_sub_rev]
      exact (hg.separated j hj).1
  obtain ⟨u, s, P, h, h2, h4, -, -, h5, -, -⟩ := getGamma_ray o hg last x hc (.cluster k)
  have h8 : ‖x - o.center‖ = s := by
    rw [h2] at hx hx'
    refine le_antisymm ((h.mem_cell hg h4.le).mp hx) ?_
    by_contra h9
    exact hx' ((h.mem_openCell hg h4.le).mpr (not_le.mp h9))
  rw [h5 h8]
  have h9 : ⟪x - o.inbetween k, o.normal k⟫ = 0 ↔ ‖x - o.center‖ = ‖x - o.centers k‖ := by
    have h10 := closer_iff h.unit h4.le (hg.separated k hk.1).1
    rw [← h2] at h10
    rw [real_inner_comm]
    have h11 : ⟪o.normal k, x - o.inbetween k⟫ = ‖x - o.center‖ * slope o u k - half o k := by
      have h12 := inner_normal_ray (u := u) (P := ‖x - o.center‖) hk (hg.separated k hk.1).1
      rw [← h2] at h12
      exact h12
    rw [h11]
    constructor
    · intro h12
      refine le_antisymm (h10.1.mpr (by linarith)) ?_
      by_contra h13
      have := h10.2.mp (not_le.mp h13)
      linarith
    · intro h12
      have h13 := h10.1.mp h12.le
      have h14 : ¬ (‖x - o.center‖ * slope o u k < half o k) := fun h15 =>
        absurd (h10.2.mpr h15) (not_lt.mpr h12.ge)
      linarith
  unfold Obs.gammaOnSurface
  constructor
  · intro h10
    simp only
    rw [if_neg (by rw [not_not]; exact h9.mpr h10)]
  · intro h10
    simp only
    rw [if_pos (fun h11 => h10 (h9.mp h11))]

/-- **C80** `is_inside` is right for every position that is not on the surface.

Missing: the surface, for which it fails (`C80_surface_inside`). -/
theorem C80_is_inside_partial (o : Obs n d) (hg : Spec.GoodClusters o.centers o.radius o.index)
    (hb : o.isBoundary = true) (last : Fin n) (x : Vec d) :
    (x ∈ Spec.OpenCell o.centers o.radius o.index → o.isInside last x true = .ok True)
    ∧ (x ∉ Spec.Cell o.centers o.radius o.index → o.isInside last x true = .ok False) := by
  constructor
  · intro h
    obtain ⟨g, hg1, h2⟩ := C80_gamma_inside o hg hb last .minusOne (by intro h; cases h) x h
    unfold Obs.isInside
    rw [h2]
    simp only [hg1]
  · intro h
    obtain ⟨g, h3, h4, h5⟩ := C80_gamma_outside o hg hb last .minusOne (Or.inl rfl) x h
    unfold Obs.isInside
    rw [h5]
    simp only [gt_iff_lt, not_lt.mpr h4.le]

/-- **C80 (violated)** On the surface `is_inside` depends on the last cluster: `-1` means "no
transparent wall" below line 340, but selects the last row in lines 262-265.  For the last cluster
itself (and for every cluster whose ball does not meet that of the last) every point of the surface
is reported as inside. -/
theorem C80_surface_inside (o : Obs n d) (hg : Spec.GoodClusters o.centers o.radius o.index)
    (last : Fin n) (hl : ¬ o.Relevant last)
    (x : Vec d) (hx : x ∈ Spec.Cell o.centers o.radius o.index)
    (hx' : x ∉ Spec.OpenCell o.centers o.radius o.index) :
    o.isInside last x true = .ok True := by
  have hc : x ≠ o.center := by
    intro hc
    refine hx' ⟨?_, ?_⟩
    · rw [hc]; change ‖o.center - o.center‖ < _; rw [sub_self, norm_zero]; exact hg.radius_pos
    · intro j hj; rw [hc]; change ‖o.center - o.center‖ < _; rw [sub_self, norm_zero, norm_sub_rev]
      exact (hg.separated j hj).1
  obtain ⟨u, s, P, h, h2, h4, -, -, h5, -, -⟩ := getGamma_ray o hg last x hc .minusOne
  have h8 : ‖x - o.center‖ = s := by
    rw [h2] at hx hx'
    refine le_antisymm ((h.mem_cell hg h4.le).mp hx) ?_
    by_contra h9
    exact hx' ((h.mem_openCell hg h4.le).mpr (not_le.mp h9))
  unfold Obs.isInside
  rw [h5 h8]
  unfold Obs.gammaOnSurface
  simp only
  rw [if_neg (by rw [not_not, normal_of_not hl, inner_zero_right])]
  simp only [gt_iff_lt, floatMax_gt]

/-- **C80 (violated)** For an obstacle that is not a boundary `get_gamma` returns `None` at every
position except the centre and the surface, and `is_inside` raises `TypeError` there. -/
theorem C80_obstacle_none (o : Obs n d) (hg : Spec.GoodClusters o.centers o.radius o.index)
    (hb : o.isBoundary = false) (hs : o.successor = []) (last : Fin n) (t : Obs.Transparent n)
    (x : Vec d) (hc : x ≠ o.center)
    (hx : x ∈ Spec.OpenCell o.centers o.radius o.index
      ∨ x ∉ Spec.Cell o.centers o.radius o.index) :
    o.getGamma last x true t = .ok none ∧ o.isInside last x true = .error .typeError := by
  have key : ∀ t, o.getGamma last x true t = .ok none := by
    intro t
    obtain ⟨u, s, P, h, h2, h4, h5, h5', -, -, h7⟩ := getGamma_ray o hg last x hc t
    have hne : ‖x - o.center‖ ≠ s := by
      intro h8
      rcases hx with h9 | h9
      · rw [h2] at h9
        exact absurd ((h.mem_openCell hg h4.le).mp h9) (by rw [h8]; exact lt_irrefl _)
      · apply h9
        rw [h2]
        exact (h.mem_cell hg h4.le).mpr h8.le
    have hsP : s < P := by
      rcases lt_or_gt_of_ne hne with h8 | h8
      · exact (h5 h8).2
      · rw [h5' h8]; exact h8
    rw [h7 hne hb]
    obtain ⟨w, hw, hw0, hw1, hwp⟩ := surfaceWeights_ok (exists_distance_pos h hg hsP)
    unfold Obs.gammaObstacle
    simp only [hs, hw]
    rw [if_pos]
    obtain ⟨i, hi⟩ := exists_distance_pos h hg hsP
    refine Finset.sum_pos' (fun j _ => ?_) ⟨i, Finset.mem_univ _, mul_pos ((hwp i).mpr hi) hi⟩
    rcases (hw0 j).eq_or_lt with h8 | h8
    · rw [← h8]; simp
    · exact (mul_pos h8 ((hwp j).mp h8)).le
  refine ⟨key t, ?_⟩
  unfold Obs.isInside
  rw [key]

/-- **C80** `_get_gamma_without_transition` of a boundary is greater than one exactly inside. -/
theorem C80_gamma_without_transition (o : Obs n d)
    (hg : Spec.GoodClusters o.centers o.radius o.index) (hb : o.isBoundary = true) (x : Vec d) :
    (x ∈ Spec.OpenCell o.centers o.radius o.index ↔ 1 < o.gammaWithoutTransition x true)
    ∧ (x ∈ Spec.Cell o.centers o.radius o.index ↔ 1 ≤ o.gammaWithoutTransition x true) := by
  by_cases hc : x = o.center
  · have h1 : x ∈ Spec.OpenCell o.centers o.radius o.index := by
      refine ⟨?_, ?_⟩
      · rw [hc]; change ‖o.center - o.center‖ < _; rw [sub_self, norm_zero]; exact hg.radius_pos
      · intro j hj; rw [hc]; change ‖o.center - o.center‖ < _
        rw [sub_self, norm_zero, norm_sub_rev]; exact (hg.separated j hj).1
    have h2 : x ∈ Spec.Cell o.centers o.radius o.index := by
      refine ⟨h1.1.le, fun j => ?_⟩
      by_cases hj : j = o.index
      · rw [hj]
      · exact (h1.2 j hj).le
    have h3 : o.gammaWithoutTransition x true = floatMax := by
      unfold Obs.gammaWithoutTransition; simp [hc, hb]
    rw [h3]
    exact ⟨⟨fun _ => floatMax_gt, fun _ => h1⟩, ⟨fun _ => floatMax_gt.le, fun _ => h2⟩⟩
  · obtain ⟨u, s, h, h1, h2, h3, h4⟩ := exists_ray hg x hc
    have hs : ‖(o.center + s • u) - o.center‖ = s := by
      rw [add_sub_cancel_left, norm_smul, h.unit, mul_one, Real.norm_of_nonneg h.pos.le]
    have h5 : o.gammaWithoutTransition x true = s / ‖x - o.center‖ := by
      unfold Obs.gammaWithoutTransition
      simp only [if_true]
      rw [if_neg h4.ne', if_pos hb, h1, hs]
    rw [h5, one_lt_div h4, one_le_div h4]
    have h6 := h.mem_openCell hg h4.le
    have h7 := h.mem_cell hg h4.le
    rw [← h2] at h6 h7
    exact ⟨h6, h7⟩

/-- **C80** `_get_gamma_without_transition` for a position in the frame of the obstacle is the value for the same
position in the global frame. -/
theorem C80_without_transition_frames (o : Obs n d) (x : Vec d) :
    o.gammaWithoutTransition (x - o.centers o.index) false = o.gammaWithoutTransition x true := by
  unfold Obs.gammaWithoutTransition
  have : x - o.centers o.index + o.center = x := sub_add_cancel x _
  simp only [Bool.false_eq_true, if_false, if_true, this]

/-! ### Examples -/

/-- Two clusters of radius two with centres at distance two. -/
noncomputable def twoClusters : Obs 2 1 where
  centers := fun i => EuclideanSpace.single 0 (if i = 0 then 0 else 2)
  radius := 2
  index := 0

lemma norm_line (a b : ℝ) :
    ‖(EuclideanSpace.single 0 a : Vec 1) - EuclideanSpace.single 0 b‖ = |a - b| := by
  rw [EuclideanSpace.norm_eq]
  simp [Real.sqrt_sq_eq_abs]

lemma twoClusters_good :
    Spec.GoodClusters twoClusters.centers twoClusters.radius twoClusters.index := by
  have h1 : ∀ j : Fin 2, j ≠ 0 → ‖twoClusters.centers j - twoClusters.centers 0‖ = 2 := by
    intro j hj
    fin_cases j
    · exact absurd rfl hj
    · simp only [twoClusters, norm_line]; norm_num
  refine ⟨by norm_num [twoClusters], ?_⟩
  intro j hj
  change 0 < ‖twoClusters.centers j - twoClusters.centers 0‖
    ∧ 1e-9 * (2 : ℝ) ≤ ‖twoClusters.centers j - twoClusters.centers 0‖ / 2
  rw [h1 j hj]
  norm_num

/-- The hypotheses of the theorems can be met, with points inside, outside and on the surface. -/
example : Spec.GoodClusters twoClusters.centers twoClusters.radius twoClusters.index
    ∧ twoClusters.isBoundary = true ∧ twoClusters.successor = []
    ∧ twoClusters.Relevant 1
    ∧ (EuclideanSpace.single 0 (0.5 : ℝ) : Vec 1) ∈ Spec.OpenCell twoClusters.centers 2 0
    ∧ (EuclideanSpace.single 0 (-2 : ℝ) : Vec 1) ∈ Spec.Cell twoClusters.centers 2 0
    ∧ (EuclideanSpace.single 0 (-2 : ℝ) : Vec 1) ∉ Spec.OpenCell twoClusters.centers 2 0
    ∧ (EuclideanSpace.single 0 (-3 : ℝ) : Vec 1) ∉ Spec.Cell twoClusters.centers 2 0
    ∧ (EuclideanSpace.single 0 (1.5 : ℝ) : Vec 1) ∉ Spec.Cell twoClusters.centers 2 0 := by
  refine ⟨twoClusters_good, rfl, rfl, ⟨by decide, ?_⟩, ⟨?_, ?_⟩, ⟨?_, ?_⟩, ?_, ?_, ?_⟩
  · simp only [twoClusters, norm_line]; norm_num
  · simp only [twoClusters, norm_line]; norm_num
  · intro j hj
    fin_cases j
    · exact absurd rfl hj
    · simp only [twoClusters, norm_line]; norm_num
  · simp only [twoClusters, norm_line]; norm_num
  · intro j
    fin_cases j <;> simp only [twoClusters, norm_line] <;> norm_num
  · rintro ⟨h, -⟩
    simp only [twoClusters, norm_line] at h; norm_num at h
  · rintro ⟨h, -⟩
    simp only [twoClusters, norm_line] at h; norm_num at h
  · rintro ⟨-, h⟩
    have := h 1
    simp only [twoClusters, norm_line] at this; norm_num at this

end Verif.KMeans
