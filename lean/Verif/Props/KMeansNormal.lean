import Verif.Model.KMeansNormal
import Verif.Lemmas.KMeans
import Verif.Props.KMeansObstacle
import Verif.Lemmas.Sphere
import Verif.Spec.Region
import Mathlib.Analysis.Normed.Module.Ray

/-!
# C109: normal directions of learned regions
-/

open scoped RealInnerProductSpace

namespace Verif.KMeans
open Spec Obs

variable {d n : ℕ} [NeZero d]

omit [NeZero d] in
lemma unit_scaled {u : Vec d} (hu : ‖u‖ = 1) {t : ℝ} (ht : 0 < t) : (1 / ‖t • u‖) • (t • u) = u := by
  rw [norm_smul, hu, mul_one, Real.norm_of_nonneg ht.le, smul_smul, one_div_mul_cancel ht.ne', one_smul]

/-- The three cases of `get_normal_direction`: `P` is the distance of the projected position. -/
lemma normal_cases {o : Obs n d} (hg : GoodClusters o.centers o.radius o.index) (ext : NormalExt n d)
    {x : Vec d} (hx : x ≠ o.center) :
    ∃ u s, Ray o u s ∧ x = o.center + ‖x - o.center‖ • u ∧ x - o.center = ‖x - o.center‖ • u
      ∧ 0 < ‖x - o.center‖
      ∧ (o.getPointOnSurface x true).1 = o.center + s • u
      ∧ (‖x - o.center‖ < s → normalDirection ext o x true
          = (normalFrom ext o (x - o.center) (o.center + (s ^ 2 / ‖x - o.center‖) • u)
              (s ^ 2 / ‖x - o.center‖), x))
      ∧ (‖x - o.center‖ = s → normalDirection ext o x true
          = (normalOnSurface ext o (x - o.center), x))
      ∧ (s < ‖x - o.center‖ → normalDirection ext o x true
          = (normalFrom ext o (x - o.center) (o.center + ‖x - o.center‖ • u) ‖x - o.center‖, x)) := by
  obtain ⟨u, s, h, h1, h2, h3, h4⟩ := exists_ray hg x hx
  have hs : ‖(o.getPointOnSurface x true).1 - o.center‖ = s := by
    rw [h1, add_sub_cancel_left, norm_smul, h.unit, mul_one, Real.norm_of_nonneg h.pos.le]
  refine ⟨u, s, h, h2, h3, h4, h1, ?_, ?_, ?_⟩
  · intro hlt
    unfold normalDirection
    simp only [if_true, hs]
    rw [if_neg h4.ne', if_pos hlt]
    have hp : ((s / ‖x - o.center‖) ^ 2) • (x - o.center) = (s ^ 2 / ‖x - o.center‖) • u := by
      conv_lhs => rw [h3]
      rw [smul_smul, norm_smul, h.unit, mul_one, norm_norm]
      congr 1
      field_simp
    rw [hp, add_comm _ o.center, norm_smul, h.unit, mul_one, Real.norm_of_nonneg (by positivity)]
  · intro heq
    unfold normalDirection
    simp only [if_true, hs]
    rw [if_neg h4.ne', if_neg (by rw [heq]; exact lt_irrefl _), if_pos heq]
  · intro hgt
    unfold normalDirection
    simp only [if_true, hs]
    rw [if_neg h4.ne', if_neg (not_lt.mpr hgt.le), if_neg hgt.ne', ← h2]

omit [NeZero d] in
/-- The weights of the walls, and the result, for a projected position beyond the surface. -/
lemma normalFrom_spec {o : Obs n d} (hg : GoodClusters o.centers o.radius o.index) (ext : NormalExt n d)
    {u : Vec d} {s P t : ℝ} (h : Ray o u s) (hP : s < P) (ht : 0 < t) :
    ∃ w : Fin n → ℝ, (∀ i, 0 ≤ w i) ∧ ∑ i, w i ≤ 1
      ∧ (∀ i, 0 < w i ↔ i ≠ o.index ∧ 0 < o.distances (o.center + P • u) P i)
      ∧ (∀ i, 0 < w i → o.Relevant i ∧ 0 < ⟪u, o.normal i⟫)
      ∧ (o.distances (o.center + P • u) P o.index ≤ 0 → ∑ i, w i = 1)
      ∧ normalFrom ext o (t • u) (o.center + P • u) P = .ok (o.signed (ext.mean u w o.normal (∑ i, w i))) := by
  classical
  obtain ⟨w, h1, h2, h3, h4⟩ := surfaceWeights_ok (exists_distance_pos h hg hP)
  set w' := Function.update w o.index 0 with hw'
  have hself : w' o.index = 0 := by rw [hw', Function.update_self]
  have hother : ∀ i, i ≠ o.index → w' i = w i := fun i hi => by rw [hw', Function.update_of_ne hi]
  have hle : ∀ i, w' i ≤ w i := by
    intro i
    by_cases hi : i = o.index
    · rw [hi, hself]; exact h2 _
    · rw [hother i hi]
  have hiff : ∀ i, 0 < w' i ↔ i ≠ o.index ∧ 0 < o.distances (o.center + P • u) P i := by
    intro i
    by_cases hi : i = o.index
    · rw [hi, hself]; simp
    · rw [hother i hi, h4]; simp [hi]
  refine ⟨w', ?_, ?_, hiff, ?_, ?_, ?_⟩
  · intro i
    by_cases hi : i = o.index
    · rw [hi, hself]
    · rw [hother i hi]; exact h2 i
  · rw [← h3]; exact Finset.sum_le_sum (fun i _ => hle i)
  · intro i hi
    obtain ⟨hne, hd⟩ := (hiff i).mp hi
    have hrel : o.Relevant i := by
      by_contra hrel
      rw [(distances_ray hg i).2.2 hne hrel] at hd
      exact lt_irrefl _ hd
    refine ⟨hrel, ?_⟩
    rw [(distances_ray hg i).2.1 hrel] at hd
    rw [real_inner_comm, inner_normal hrel]
    have : 0 < half o i := half_pos (hg.separated i hne).1
    by_contra hc
    have := mul_nonpos_of_nonneg_of_nonpos (h.pos.le.trans hP.le) (not_lt.mp hc)
    linarith
  · intro hd
    have h0 : w o.index = 0 := by
      have := (h4 o.index).not.mpr (not_lt.mpr hd)
      exact le_antisymm (not_lt.mp this) (h2 _)
    have : w' = w := by
      funext i
      by_cases hi : i = o.index
      · rw [hi, hself, h0]
      · exact hother i hi
    rw [this, h3]
  · unfold normalFrom
    rw [h1]
    simp only [← hw', unit_scaled h.unit ht]

/-- **C109** At every position that is neither the centre nor on the surface, the normal direction is
defined, a unit vector, and points to the side of the centre: into the region for a boundary, away from it
for an obstacle.  The argument is left alone. -/
theorem C109_side (ext : NormalExt n d) (hm : SaneMean ext.mean) (o : Obs n d)
    (hg : GoodClusters o.centers o.radius o.index) (x : Vec d) (hc : x ≠ o.center)
    (hx : x ∈ OpenCell o.centers o.radius o.index ∨ x ∉ Cell o.centers o.radius o.index) :
    ∃ v, normalDirection ext o x true = (.ok v, x) ∧ ‖v‖ = 1
      ∧ (o.isBoundary = true → 0 < ⟪v, o.center - x⟫)
      ∧ (o.isBoundary = false → 0 < ⟪v, x - o.center⟫) := by
  obtain ⟨u, s, h, h2, h3, h4, h5, c1, c2, c3⟩ := normal_cases hg ext hc
  have key : ∀ P, s < P → normalDirection ext o x true
      = (normalFrom ext o (x - o.center) (o.center + P • u) P, x) →
      ∃ v, normalDirection ext o x true = (.ok v, x) ∧ ‖v‖ = 1
      ∧ (o.isBoundary = true → 0 < ⟪v, o.center - x⟫)
      ∧ (o.isBoundary = false → 0 < ⟪v, x - o.center⟫) := by
    intro P hP he
    obtain ⟨w, w0, w1, -, w3, -, w5⟩ := normalFrom_spec hg ext h hP h4
    rw [← h3] at w5
    rw [w5] at he
    have hu := hm.unit u w o.normal h.unit w0 w1 (fun i hi => (w3 i hi).2)
    have hh := hm.half u w o.normal h.unit w0 w1 (fun i hi => (w3 i hi).2)
    refine ⟨_, he, ?_, ?_, ?_⟩
    · unfold signed
      split_ifs
      · rw [norm_smul, hu]; simp
      · exact hu
    · intro hb
      unfold signed
      rw [if_pos hb, ← neg_sub x, h3, inner_neg_right, inner_smul_left, inner_smul_right,
        real_inner_comm]
      simp only [conj_trivial]
      nlinarith
    · intro hb
      unfold signed
      rw [if_neg (by simp [hb]), h3, inner_smul_right, real_inner_comm]
      positivity
  rcases hx with hx | hx
  · have hlt : ‖x - o.center‖ < s := by
      rw [h2] at hx
      exact (h.mem_openCell hg h4.le).mp hx
    refine key _ ?_ (c1 hlt)
    rw [lt_div_iff₀ h4, sq]
    exact mul_lt_mul_of_pos_left hlt h.pos
  · have hgt : s < ‖x - o.center‖ := by
      by_contra hle
      apply hx
      rw [h2]
      exact (h.mem_cell hg h4.le).mpr (not_lt.mp hle)
    exact key _ hgt (c3 hgt)

omit [NeZero d] in
lemma exit_eq {o : Obs n d} (hg : GoodClusters o.centers o.radius o.index) {u x p : Vec d} {s : ℝ}
    (h : Ray o u s) (h3 : x - o.center = ‖x - o.center‖ • u) (h4 : 0 < ‖x - o.center‖)
    (hp : Exit o.centers o.radius o.index x p) : p = o.center + s • u := by
  obtain ⟨s', hs', rfl, hiff⟩ := hp
  have hu : unit (x - o.centers o.index) = u := by
    change (1 / ‖x - o.center‖) • (x - o.center) = u
    conv_lhs => rw [h3]
    rw [smul_smul, norm_smul, norm_norm, h.unit, mul_one, one_div_mul_cancel h4.ne', one_smul]
  rw [hu] at hiff ⊢
  have e1 : s ≤ s' := (hiff s h.pos.le).mp ((h.mem_cell hg h.pos.le).mpr le_rfl)
  have e2 : s' ≤ s := (h.mem_cell hg hs'.le).mp ((hiff s' hs'.le).mpr le_rfl)
  rw [le_antisymm e2 e1]
  rfl

omit [NeZero d] in
/-- The mirror image as a point of the ray. -/
lemma mirror_eq {o : Obs n d} (hg : GoodClusters o.centers o.radius o.index) {u x y : Vec d} {s : ℝ}
    (h : Ray o u s) (h3 : x - o.center = ‖x - o.center‖ • u) (h4 : 0 < ‖x - o.center‖)
    (hy : Mirror o.centers o.radius o.index x y) : y = o.center + (s ^ 2 / ‖x - o.center‖) • u := by
  obtain ⟨p, hp, hray, hmul⟩ := hy
  have hpe := exit_eq hg h h3 h4 hp
  change SameRay ℝ (x - o.center) (y - o.center) at hray
  change ‖x - o.center‖ * ‖y - o.center‖ = ‖p - o.center‖ ^ 2 at hmul
  rw [hpe, add_sub_cancel_left, norm_smul, h.unit, mul_one, Real.norm_of_nonneg h.pos.le] at hmul
  have hn : ‖y - o.center‖ = s ^ 2 / ‖x - o.center‖ := by
    rw [eq_div_iff h4.ne', mul_comm]; exact hmul
  have hx : ‖y - o.center‖ • (x - o.center) = ‖x - o.center‖ • (y - o.center) :=
    (sameRay_iff_norm_smul_eq.mp hray).symm
  have : y - o.center = ‖y - o.center‖ • u := by
    have h5 : ‖x - o.center‖ • (y - o.center) = ‖x - o.center‖ • (‖y - o.center‖ • u) := by
      rw [← hx]
      conv_lhs => rw [h3]
      rw [smul_comm]
    exact smul_right_injective _ h4.ne' h5
  rw [← hn, ← this, add_sub_cancel]

omit [NeZero d] in
lemma distance_pos_iff {o : Obs n d} (hg : GoodClusters o.centers o.radius o.index) {u : Vec d} {P : ℝ}
    (hu : ‖u‖ = 1) (hP : 0 ≤ P) {i : Fin n} (hi : i ≠ o.index)
    (hfar : ¬ o.Relevant i → P ≤ o.radius) :
    (0 < o.distances (o.center + P • u) P i ↔
      ‖o.center + P • u - o.centers i‖ < ‖o.center + P • u - o.center‖) := by
  have hc := (closer_iff (o := o) (j := i) hu hP (hg.separated i hi).1).1
  by_cases hrel : o.Relevant i
  · rw [(distances_ray hg i).2.1 hrel, sub_pos, ← not_le, ← not_le]
    exact hc.not.symm
  · rw [(distances_ray hg i).2.2 hi hrel]
    simp only [lt_self_iff_false, false_iff, not_lt]
    rw [hc]
    have h2 : 2 * o.radius ≤ ‖o.centers o.index - o.centers i‖ := by
      by_contra h3
      exact hrel ⟨hi, not_le.mp h3⟩
    rw [norm_sub_rev] at h2
    have h3 := mul_le_mul_of_nonneg_left (slope_le (o := o) hu i) hP
    have := hfar hrel
    unfold half
    change _ ≤ ‖o.centers i - o.centers o.index‖ / 2
    linarith

/-- **C109** In front of the wall to cluster `k` (the mirror image of the position is beyond this wall and
no other one) the normal is perpendicular to the wall: the way from the centre of cluster `k` to the own
centre. -/
theorem C109_wall (ext : NormalExt n d) (hm : SaneMean ext.mean) (o : Obs n d)
    (hg : GoodClusters o.centers o.radius o.index) (hb : o.isBoundary = true) (x y : Vec d) (k : Fin n)
    (hc : x ≠ o.center) (hx : x ∈ OpenCell o.centers o.radius o.index)
    (hy : Mirror o.centers o.radius o.index x y) (hball : ‖y - o.center‖ ≤ o.radius)
    (hk : ‖y - o.centers k‖ < ‖y - o.center‖)
    (hother : ∀ j, j ≠ k → ‖y - o.center‖ ≤ ‖y - o.centers j‖) :
    normalDirection ext o x true = (.ok (unit (o.center - o.centers k)), x) := by
  obtain ⟨u, s, h, h2, h3, h4, h5, c1, c2, c3⟩ := normal_cases hg ext hc
  have hye := mirror_eq hg h h3 h4 hy
  have hlt : ‖x - o.center‖ < s := by
    rw [h2] at hx
    exact (h.mem_openCell hg h4.le).mp hx
  set P := s ^ 2 / ‖x - o.center‖ with hPdef
  have hP : s < P := by
    rw [hPdef, lt_div_iff₀ h4, sq]
    exact mul_lt_mul_of_pos_left hlt h.pos
  have hP0 : 0 ≤ P := h.pos.le.trans hP.le
  have hyn : ‖y - o.center‖ = P := by
    rw [hye, add_sub_cancel_left, norm_smul, h.unit, mul_one, Real.norm_of_nonneg hP0]
  rw [hyn] at hball
  have hki : k ≠ o.index := by
    intro hki
    rw [hki] at hk
    exact lt_irrefl _ hk
  obtain ⟨w, w0, w1, w2, w3, w4, w5⟩ := normalFrom_spec hg ext h hP h4
  rw [← h3] at w5
  have hsum : ∑ i, w i = 1 := w4 (by rw [(distances_ray hg _).1 rfl]; linarith)
  have hiff : ∀ i, 0 < w i ↔ i = k := by
    intro i
    rw [w2]
    constructor
    · rintro ⟨hi, hd⟩
      rw [distance_pos_iff hg h.unit hP0 hi (fun _ => hball), ← hye] at hd
      by_contra hik
      exact absurd hd (not_lt.mpr (hother i hik))
    · rintro rfl
      refine ⟨hki, ?_⟩
      rw [distance_pos_iff hg h.unit hP0 hki (fun _ => hball), ← hye]
      exact hk
  have hz : ∀ i, i ≠ k → w i = 0 := fun i hi => by
    have := (hiff i).not.mpr hi
    exact le_antisymm (not_lt.mp this) (w0 i)
  have hwk : w k = 1 := by
    rw [← hsum, Finset.sum_eq_single k (fun i _ hi => hz i hi) (by simp)]
  obtain ⟨hrel, hpos⟩ := w3 k ((hiff k).mpr rfl)
  rw [c1 hlt, w5, hm.one u w o.normal k h.unit hwk hz hpos, normal_of_relevant hrel]
  have hd : 0 < ‖o.centers k - o.center‖ := (hg.separated k hki).1
  congr 2
  unfold signed unit
  rw [if_pos hb, norm_smul, norm_div, norm_one, norm_norm, one_div_mul_cancel hd.ne', div_one, one_smul,
    neg_one_smul, ← smul_neg, neg_sub, norm_sub_rev]

/-- **C80** In front of the transparent wall to cluster `k` (the mirror image of the position is beyond this
wall and no other one) gamma is the largest float: the region has no surface in this direction. -/
theorem C80_transparent_front (o : Obs n d) (hg : GoodClusters o.centers o.radius o.index)
    (hb : o.isBoundary = true) (last k : Fin n) (x y : Vec d) (hc : x ≠ o.center)
    (hx : x ∈ OpenCell o.centers o.radius o.index) (hy : Mirror o.centers o.radius o.index x y)
    (hball : ‖y - o.center‖ ≤ o.radius)
    (hother : ∀ j, j ≠ k → ‖y - o.center‖ ≤ ‖y - o.centers j‖) :
    o.getGamma last x true (.cluster k) = .ok (some Projected.floatMax) := by
  obtain ⟨u, s, P, h, h2, h4, h5, -, -, h7, -⟩ := getGamma_ray o hg last x hc (.cluster k)
  have h3 : x - o.center = ‖x - o.center‖ • u := by
    conv_lhs => rw [h2]
    rw [add_sub_cancel_left]
  have hlt : ‖x - o.center‖ < s := by
    rw [h2] at hx
    exact (h.mem_openCell hg h4.le).mp hx
  have hye := mirror_eq hg h h3 h4 hy
  obtain ⟨hP, hsP⟩ := h5 hlt
  have hP0 : 0 ≤ P := h.pos.le.trans hsP.le
  have hyP : y = o.center + P • u := by
    rw [hye, hP]
    congr 2
    ring
  have hyn : ‖y - o.center‖ = P := by
    rw [hyP, add_sub_cancel_left, norm_smul, h.unit, mul_one, Real.norm_of_nonneg hP0]
  rw [hyn] at hball
  rw [h7 hlt.ne hb]
  obtain ⟨w, hw, hw0, hw1, hwp⟩ := surfaceWeights_ok (exists_distance_pos h hg hsP)
  rw [gammaBoundary_gap (Or.inl rfl) hw]
  have hz : ∀ i, i ≠ k → w i = 0 := by
    intro i hi
    refine le_antisymm ?_ (hw0 i)
    by_contra h9
    have h10 := (hwp i).mp (not_le.mp h9)
    by_cases hidx : i = o.index
    · rw [(distances_ray hg i).1 hidx] at h10; linarith
    · rw [distance_pos_iff hg h.unit hP0 hidx (fun _ => hball), ← hyP] at h10
      exact absurd h10 (not_lt.mpr (hother i hi))
  have hwk : w k = 1 := by
    rw [← hw1, Finset.sum_eq_single k (fun i _ hi => hz i hi) (by simp)]
  unfold Obs.gammaTransparent
  have hsum : ∑ i, max (w i - w k) 0 = 0 := by
    refine Finset.sum_eq_zero (fun i _ => max_eq_right ?_)
    by_cases hi : i = k
    · rw [hi]; simp
    · rw [hz i hi, hwk]; norm_num
  rw [if_pos (by rw [hwk]; norm_num)]
  simp only [hsum]
  rw [if_pos (by norm_num)]
  rfl

/-- **C109** In front of the spherical part of the surface (the mirror image is beyond no wall) the normal
points to the centre. -/
theorem C109_ball (ext : NormalExt n d) (hm : SaneMean ext.mean) (o : Obs n d)
    (hg : GoodClusters o.centers o.radius o.index) (hb : o.isBoundary = true) (x y : Vec d)
    (hc : x ≠ o.center) (hx : x ∈ OpenCell o.centers o.radius o.index)
    (hy : Mirror o.centers o.radius o.index x y)
    (hother : ∀ j, ‖y - o.center‖ ≤ ‖y - o.centers j‖) :
    normalDirection ext o x true = (.ok (unit (o.center - x)), x) := by
  obtain ⟨u, s, h, h2, h3, h4, h5, c1, c2, c3⟩ := normal_cases hg ext hc
  have hye := mirror_eq hg h h3 h4 hy
  have hlt : ‖x - o.center‖ < s := by
    rw [h2] at hx
    exact (h.mem_openCell hg h4.le).mp hx
  set P := s ^ 2 / ‖x - o.center‖ with hPdef
  have hP : s < P := by
    rw [hPdef, lt_div_iff₀ h4, sq]
    exact mul_lt_mul_of_pos_left hlt h.pos
  have hP0 : 0 ≤ P := h.pos.le.trans hP.le
  obtain ⟨w, w0, w1, w2, w3, w4, w5⟩ := normalFrom_spec hg ext h hP h4
  rw [← h3] at w5
  have hz : ∀ i, w i = 0 := by
    intro i
    refine le_antisymm ?_ (w0 i)
    by_contra hpos
    obtain ⟨hi, hd⟩ := (w2 i).mp (not_le.mp hpos)
    rw [distance_pos_iff hg h.unit hP0 hi (fun hr => absurd (w3 i (not_le.mp hpos)).1 hr), ← hye] at hd
    exact absurd hd (not_lt.mpr (hother i))
  rw [c1 hlt, w5, hm.none u w o.normal h.unit hz]
  congr 2
  unfold signed unit
  rw [if_pos hb, ← neg_sub x, norm_neg, smul_neg, neg_one_smul]
  congr 1
  conv_rhs => rw [h3]
  exact (unit_scaled h.unit h4).symm

/-- **C109 (violated)** On the surface the normal is never defined for a region without neighbours: the
search for the closest neighbour raises `IndexError`. -/
theorem C109_surface_fails (ext : NormalExt n d) (o : Obs n d)
    (hg : GoodClusters o.centers o.radius o.index) (hn : ∀ j, ¬ o.Relevant j) (x : Vec d)
    (hx : x ∈ Cell o.centers o.radius o.index) (hx' : x ∉ OpenCell o.centers o.radius o.index) :
    (normalDirection ext o x true).1 = .error .indexError := by
  have hc : x ≠ o.center := by
    intro hc
    refine hx' ⟨?_, ?_⟩
    · rw [hc]; change ‖o.center - o.center‖ < _; rw [sub_self, norm_zero]; exact hg.radius_pos
    · intro j hj; rw [hc]; change ‖o.center - o.center‖ < _; rw [sub_self, norm_zero, norm_sub_rev]
      exact (hg.separated j hj).1
  obtain ⟨u, s, h, h2, h3, h4, h5, c1, c2, c3⟩ := normal_cases hg ext hc
  have heq : ‖x - o.center‖ = s := by
    rw [h2] at hx hx'
    exact le_antisymm ((h.mem_cell hg h4.le).mp hx) (not_lt.mp (fun hl => hx' ((h.mem_openCell hg h4.le).mpr hl)))
  rw [c2 heq]
  have hnil : o.indRelevant = [] := by
    rw [List.eq_nil_iff_forall_not_mem]
    intro j hj
    exact hn j (mem_indRelevant.mp hj)
  unfold normalOnSurface
  simp only [hnil]
  split
  · rfl
  · simp

/-- **C109 (violated)** On a wall the normal is not perpendicular to the wall: with at least as many
neighbours as dimensions, none of them closer than the radius, it points to the centre, also on the walls
(compare `C109_wall`). -/
theorem C109_surface_radial (ext : NormalExt n d) (o : Obs n d)
    (hg : GoodClusters o.centers o.radius o.index) (hb : o.isBoundary = true)
    (has : ∀ f, ext.argsort f ≠ []) (hn : d ≤ o.indRelevant.length)
    (hfar : ∀ j, o.Relevant j → o.radius ≤ ‖o.centers j - o.center‖) (x : Vec d)
    (hx : x ∈ Cell o.centers o.radius o.index) (hx' : x ∉ OpenCell o.centers o.radius o.index) :
    (normalDirection ext o x true).1 = .ok (unit (o.center - x)) := by
  have hc : x ≠ o.center := by
    intro hc
    refine hx' ⟨?_, ?_⟩
    · rw [hc]; change ‖o.center - o.center‖ < _; rw [sub_self, norm_zero]; exact hg.radius_pos
    · intro j hj; rw [hc]; change ‖o.center - o.center‖ < _; rw [sub_self, norm_zero, norm_sub_rev]
      exact (hg.separated j hj).1
  obtain ⟨u, s, h, h2, h3, h4, h5, c1, c2, c3⟩ := normal_cases hg ext hc
  have heq : ‖x - o.center‖ = s := by
    rw [h2] at hx hx'
    exact le_antisymm ((h.mem_cell hg h4.le).mp hx) (not_lt.mp (fun hl => hx' ((h.mem_openCell hg h4.le).mpr hl)))
  rw [c2 heq]
  unfold normalOnSurface
  split
  · rename_i h0; exact absurd h0 (has _)
  · rename_i i rest h0
    have hi : (i : ℕ) < o.indRelevant.length := i.isLt.trans_le hn
    rw [List.getElem?_eq_getElem hi]
    simp only
    rw [if_pos (hfar _ (mem_indRelevant.mp (List.getElem_mem hi)))]
    congr 1
    unfold signed unit
    rw [if_pos hb, ← neg_sub x, norm_neg, smul_neg, neg_one_smul]

/-- **C109 (violated)** At the centre the first coordinate of the caller's array is overwritten with one, and
the result is this array, multiplied with minus one for a boundary: in general not a unit vector. -/
theorem C109_centre (ext : NormalExt n d) (o : Obs n d) (x : Vec d) (hx : x = o.center) :
    (normalDirection ext o x true).2 0 = 1
      ∧ (∀ j, j ≠ 0 → (normalDirection ext o x true).2 j = x j)
      ∧ (o.isBoundary = true →
        (normalDirection ext o x true).1 = .ok (-(normalDirection ext o x true).2))
      ∧ (o.isBoundary = false →
        (normalDirection ext o x true).1 = .ok (normalDirection ext o x true).2) := by
  unfold normalDirection
  simp only [if_true]
  rw [if_pos (by rw [hx, sub_self, norm_zero])]
  refine ⟨by simp, ?_, ?_, ?_⟩
  · intro j hj; simp [hj]
  · intro hb; simp only [signed, hb, if_true, neg_one_smul]
  · intro hb; simp only [signed, hb, Bool.false_eq_true, if_false]

/-! ### The hypotheses can be met -/

/-- The mean in the tangent space of the null direction. -/
noncomputable def tangentMean (u : Vec d) (w : Fin n → ℝ) (ds : Fin n → Vec d) (_ : ℝ) : Vec d :=
  sphereExp u (∑ i, w i • sphereLog u (unit (ds i)))

omit [NeZero d] in
lemma tangentMean_sane : SaneMean (tangentMean : Vec d → (Fin n → ℝ) → (Fin n → Vec d) → ℝ → Vec d) := by
  have horth : ∀ (u : Vec d) (w : Fin n → ℝ) (ds : Fin n → Vec d), ‖u‖ = 1 →
      ⟪u, ∑ i, w i • sphereLog u (unit (ds i))⟫ = 0 := by
    intro u w ds hu
    rw [inner_sum]
    refine Finset.sum_eq_zero (fun i _ => ?_)
    rw [real_inner_smul_right, (star_log_facts hu _).1, mul_zero]
  constructor
  · intro u w ds hu _ _ _
    exact star_exp_unit hu (horth u w ds hu)
  · intro u w ds hu hw hs hpos
    unfold tangentMean
    rw [star_exp_inner hu (horth u w ds hu)]
    have hlog : ∀ i, 0 < w i → ‖sphereLog u (unit (ds i))‖ < Real.pi / 2 := by
      intro i hi
      refine (star_log_facts hu _).2.trans_lt ?_
      rw [InnerProductGeometry.angle, Real.arccos_lt_pi_div_two]
      have h0 : ds i ≠ 0 := by
        intro h0
        have := hpos i hi
        rw [h0, inner_zero_right] at this
        exact lt_irrefl _ this
      rw [hu, unit_norm h0, mul_one, div_one]
      unfold unit
      rw [real_inner_smul_right]
      have := hpos i hi
      have hn : 0 < ‖ds i‖ := norm_pos_iff.mpr h0
      positivity
    have hlt : ‖∑ i, w i • sphereLog u (unit (ds i))‖ < Real.pi / 2 := by
      by_cases hz : ∀ i, w i = 0
      · simp only [hz, zero_smul, Finset.sum_const_zero, norm_zero]
        have := Real.pi_pos
        positivity
      push Not at hz
      obtain ⟨k, hk⟩ := hz
      have hk : 0 < w k := lt_of_le_of_ne (hw k) (Ne.symm hk)
      calc ‖∑ i, w i • sphereLog u (unit (ds i))‖ ≤ ∑ i, ‖w i • sphereLog u (unit (ds i))‖ :=
            norm_sum_le _ _
        _ < ∑ i, w i * (Real.pi / 2) := by
            refine Finset.sum_lt_sum (fun i _ => ?_) ⟨k, Finset.mem_univ _, ?_⟩
            · rw [norm_smul, Real.norm_of_nonneg (hw i)]
              rcases (hw i).eq_or_lt with h | h
              · rw [← h]; simp
              · exact mul_le_mul_of_nonneg_left (hlog i h).le h.le
            · rw [norm_smul, Real.norm_of_nonneg (hw k)]
              exact mul_lt_mul_of_pos_left (hlog k hk) hk
        _ = (∑ i, w i) * (Real.pi / 2) := by rw [Finset.sum_mul]
        _ ≤ 1 * (Real.pi / 2) := mul_le_mul_of_nonneg_right hs (by have := Real.pi_pos; positivity)
        _ = Real.pi / 2 := one_mul _
    exact Real.cos_pos_of_mem_Ioo ⟨by have := norm_nonneg (∑ i, w i • sphereLog u (unit (ds i))); have := Real.pi_pos; linarith, hlt⟩
  · intro u w ds k hu hk hz hpos
    unfold tangentMean
    rw [Finset.sum_eq_single k (fun i _ hi => by rw [hz i hi, zero_smul]) (by simp), hk, one_smul]
    have h0 : ds k ≠ 0 := by
      intro h0
      rw [h0, inner_zero_right] at hpos
      exact lt_irrefl _ hpos
    refine star_exp_log hu (unit_norm h0) ?_
    rintro ⟨c, hc, he⟩
    have : ⟪u, unit (ds k)⟫ = -c := by
      rw [he, real_inner_smul_right, real_inner_self_eq_norm_sq, hu]; ring
    unfold unit at this
    rw [real_inner_smul_right] at this
    have hn : 0 < ‖ds k‖ := norm_pos_iff.mpr h0
    have : 0 < 1 / ‖ds k‖ * ⟪u, ds k⟫ := by positivity
    linarith
  · intro u w ds hu hz
    unfold tangentMean
    simp only [hz, zero_smul, Finset.sum_const_zero, star_exp_zero]

/-- A one-dimensional `np.argsort` and the tangent mean. -/
noncomputable def lineExt : NormalExt 2 1 := ⟨tangentMean, fun _ => [0]⟩

lemma line_unit {a : ℝ} (ha : a ≠ 0) :
    unit (EuclideanSpace.single 0 a - EuclideanSpace.single 0 0 : Vec 1)
      = EuclideanSpace.single 0 (a / |a|) := by
  unfold unit
  rw [norm_line, sub_zero]
  ext i
  fin_cases i
  simp
  field_simp

lemma line_add (t a : ℝ) : (EuclideanSpace.single 0 0 : Vec 1) + t • EuclideanSpace.single 0 a
    = EuclideanSpace.single 0 (t * a) := by
  ext i
  fin_cases i
  simp

lemma line_mirror : Mirror twoClusters.centers twoClusters.radius twoClusters.index
    (EuclideanSpace.single 0 (3 / 4)) (EuclideanSpace.single 0 (4 / 3)) := by
  refine ⟨EuclideanSpace.single 0 1, ⟨1, one_pos, ?_, ?_⟩, ?_, ?_⟩
  · simp only [twoClusters, if_true]
    rw [line_unit (by norm_num), line_add]
    norm_num [abs_of_pos]
  · intro t ht
    simp only [twoClusters, if_true]
    rw [line_unit (by norm_num), line_add]
    have : (3 / 4 : ℝ) / |3 / 4| = 1 := by norm_num [abs_of_pos]
    rw [this, mul_one]
    constructor
    · rintro ⟨-, h⟩
      have := h 1
      simp only [norm_line] at this
      norm_num at this
      rw [abs_of_nonneg ht] at this
      by_contra hc
      push Not at hc
      rcases abs_cases (t - 2) with ⟨e, -⟩ | ⟨e, -⟩ <;> rw [e] at this <;> linarith
    · intro h
      refine ⟨?_, ?_⟩
      · simp only [if_true, norm_line]
        rw [sub_zero, abs_of_nonneg ht]
        linarith
      · intro j
        fin_cases j
        · simp
        · simp only [norm_line]
          norm_num
          rw [abs_of_nonneg ht, abs_of_nonpos (by linarith)]
          linarith
  · simp only [twoClusters, if_true]
    have : (EuclideanSpace.single 0 (4 / 3) - EuclideanSpace.single 0 0 : Vec 1)
        = (16 / 9 : ℝ) • (EuclideanSpace.single 0 (3 / 4) - EuclideanSpace.single 0 0 : Vec 1) := by
      ext i; fin_cases i; simp; norm_num
    rw [this]
    exact SameRay.sameRay_nonneg_smul_right _ (by norm_num)
  · simp only [twoClusters, if_true, norm_line]; norm_num [abs_of_pos]

/-- `C109_wall`: the position `3/4` between two centres at `0` and `2`, with mirror image `4/3`. -/
example : normalDirection lineExt twoClusters (EuclideanSpace.single 0 (3 / 4)) true
    = (.ok (unit (twoClusters.center - twoClusters.centers 1)), EuclideanSpace.single 0 (3 / 4)) := by
  refine C109_wall lineExt tangentMean_sane twoClusters twoClusters_good rfl _
    (EuclideanSpace.single 0 (4 / 3)) 1 ?_ ⟨?_, ?_⟩ ?_ ?_ ?_ ?_
  · intro h
    have := congrArg (fun v : Vec 1 => v 0) h
    simp [twoClusters, center] at this
  · simp only [twoClusters, norm_line]; norm_num [abs_of_pos]
  · intro j hj
    fin_cases j
    · exact absurd rfl hj
    · simp only [twoClusters, norm_line]; norm_num [abs_of_pos]
  · exact line_mirror
  · simp only [twoClusters, center, norm_line]; norm_num [abs_of_pos]
  · simp only [twoClusters, center, norm_line]; norm_num [abs_of_pos, abs_of_neg]
  · intro j hj
    fin_cases j
    · simp [twoClusters, center]
    · exact absurd rfl hj

/-- `C80_transparent_front` at the same position: with the wall transparent, gamma is the largest float. -/
example : twoClusters.getGamma 1 (EuclideanSpace.single 0 (3 / 4)) true (.cluster 1)
    = .ok (some Projected.floatMax) := by
  refine C80_transparent_front twoClusters twoClusters_good rfl 1 1 _ (EuclideanSpace.single 0 (4 / 3)) ?_
    ⟨?_, ?_⟩ line_mirror ?_ ?_
  · intro h
    have := congrArg (fun v : Vec 1 => v 0) h
    simp [twoClusters, center] at this
  · simp only [twoClusters, norm_line]; norm_num [abs_of_pos]
  · intro j hj
    fin_cases j
    · exact absurd rfl hj
    · simp only [twoClusters, norm_line]; norm_num [abs_of_pos]
  · simp only [twoClusters, center, norm_line]; norm_num [abs_of_pos]
  · intro j hj
    fin_cases j
    · simp [twoClusters, center]
    · exact absurd rfl hj

/-- `C109_ball`: the position `-1`, away from the other centre, with mirror image `-4`. -/
example : normalDirection lineExt twoClusters (EuclideanSpace.single 0 (-1)) true
    = (.ok (unit (twoClusters.center - EuclideanSpace.single 0 (-1))), EuclideanSpace.single 0 (-1)) := by
  refine C109_ball lineExt tangentMean_sane twoClusters twoClusters_good rfl _
    (EuclideanSpace.single 0 (-4)) ?_ ⟨?_, ?_⟩ ?_ ?_
  · intro h
    have := congrArg (fun v : Vec 1 => v 0) h
    simp [twoClusters, center] at this
  · simp only [twoClusters, norm_line]; norm_num [abs_of_pos]
  · intro j hj
    fin_cases j
    · exact absurd rfl hj
    · simp only [twoClusters, norm_line]; norm_num [abs_of_pos]
  · refine ⟨EuclideanSpace.single 0 (-2), ⟨2, two_pos, ?_, ?_⟩, ?_, ?_⟩
    · simp only [twoClusters, if_true]
      rw [line_unit (by norm_num), line_add]
      norm_num [abs_of_pos]
    · intro t ht
      simp only [twoClusters, if_true]
      rw [line_unit (by norm_num), line_add]
      have : (-1 : ℝ) / |-1| = -1 := by norm_num [abs_of_pos]
      rw [this, mul_neg_one]
      constructor
      · rintro ⟨h, -⟩
        simp only [if_true, norm_line] at h
        rw [sub_zero, abs_neg, abs_of_nonneg ht] at h
        exact h
      · intro h
        refine ⟨?_, ?_⟩
        · simp only [if_true, norm_line]
          rw [sub_zero, abs_neg, abs_of_nonneg ht]
          exact h
        · intro j
          fin_cases j
          · simp
          · simp only [norm_line]
            norm_num
            rw [abs_of_nonneg ht, abs_of_nonpos (by linarith)]
            linarith
    · simp only [twoClusters, if_true]
      have : (EuclideanSpace.single 0 (-4) - EuclideanSpace.single 0 0 : Vec 1)
          = (4 : ℝ) • (EuclideanSpace.single 0 (-1) - EuclideanSpace.single 0 0 : Vec 1) := by
        ext i; fin_cases i; simp
      rw [this]
      exact SameRay.sameRay_nonneg_smul_right _ (by norm_num)
    · simp only [twoClusters, if_true, norm_line]; norm_num [abs_of_pos]
  · intro j
    fin_cases j <;> simp only [twoClusters, center, norm_line] <;> norm_num [abs_of_pos, abs_of_neg]

/-- `C109_side`: a position outside of the region. -/
example : ∃ v, normalDirection lineExt twoClusters (EuclideanSpace.single 0 (3 / 2)) true
      = (.ok v, EuclideanSpace.single 0 (3 / 2)) ∧ ‖v‖ = 1
      ∧ (twoClusters.isBoundary = true → 0 < ⟪v, twoClusters.center - EuclideanSpace.single 0 (3 / 2)⟫)
      ∧ (twoClusters.isBoundary = false → 0 < ⟪v, EuclideanSpace.single 0 (3 / 2) - twoClusters.center⟫) := by
  refine C109_side lineExt tangentMean_sane twoClusters twoClusters_good _ ?_ (Or.inr ?_)
  · intro h
    have := congrArg (fun v : Vec 1 => v 0) h
    simp [twoClusters, center] at this
  · rintro ⟨-, h⟩
    have := h 1
    simp only [twoClusters, norm_line] at this; norm_num [abs_of_pos, abs_of_neg] at this

/-- A single cluster: `C109_surface_fails` at the position one. -/
example (ext : NormalExt 1 1) :
    (normalDirection ext (⟨fun _ => EuclideanSpace.single 0 0, 1, 0, true, []⟩ : Obs 1 1)
      (EuclideanSpace.single 0 1) true).1 = .error .indexError := by
  refine C109_surface_fails ext _ ⟨one_pos, fun j hj => absurd (Subsingleton.elim _ _) hj⟩ ?_ _ ⟨?_, ?_⟩ ?_
  · rintro j ⟨hj, -⟩
    exact absurd (Subsingleton.elim _ _) hj
  · simp only [norm_line]; norm_num
  · intro j; rfl
  · rintro ⟨h, -⟩
    simp only [norm_line] at h; norm_num at h

/-- Three clusters in a row in the plane. -/
noncomputable def rowClusters : Obs 3 2 where
  centers := fun i => if i = 0 then 0 else if i = 1 then !₂[2, 0] else !₂[-2, 0]
  radius := 3 / 2
  index := 0

lemma rowClusters_norm : ∀ j : Fin 3, j ≠ 0 → ‖rowClusters.centers j - rowClusters.centers 0‖ = 2 := by
  intro j hj
  fin_cases j
  · exact absurd rfl hj
  · simp only [rowClusters]
    norm_num [EuclideanSpace.norm_eq, Fin.sum_univ_two]
    rw [show (4 : ℝ) = 2 ^ 2 by norm_num, Real.sqrt_sq (by norm_num)]
  · simp only [rowClusters]
    norm_num [EuclideanSpace.norm_eq, Fin.sum_univ_two]
    rw [show (4 : ℝ) = 2 ^ 2 by norm_num, Real.sqrt_sq (by norm_num)]

/-- `C109_surface_radial`: on the wall `x₁ = 1` at `(1, 1/2)` the normal is not perpendicular to the wall
(its second coordinate is not zero). -/
example : (normalDirection ⟨tangentMean, fun _ => [0, 1]⟩ rowClusters (!₂[1, 1 / 2]) true).1
      = .ok (unit (rowClusters.center - !₂[1, 1 / 2]))
    ∧ (unit (rowClusters.center - !₂[1, 1 / 2]) : Vec 2) 1 ≠ 0 := by
  have hrel : ∀ j : Fin 3, rowClusters.Relevant j ↔ j ≠ 0 := by
    intro j
    constructor
    · exact fun h => h.1
    · intro hj
      refine ⟨hj, ?_⟩
      rw [norm_sub_rev]
      change ‖rowClusters.centers j - rowClusters.centers 0‖ < _
      rw [rowClusters_norm j hj]
      norm_num [rowClusters]
  have hsq : Real.sqrt (5 / 4) < 3 / 2 := by
    rw [Real.sqrt_lt' (by norm_num)]; norm_num
  refine ⟨C109_surface_radial _ rowClusters ⟨by norm_num [rowClusters], ?_⟩ rfl ?_ ?_ ?_ _ ⟨?_, ?_⟩ ?_, ?_⟩
  · intro j hj
    change 0 < ‖rowClusters.centers j - rowClusters.centers 0‖
      ∧ 1e-9 * (3 / 2 : ℝ) ≤ ‖rowClusters.centers j - rowClusters.centers 0‖ / 2
    rw [rowClusters_norm j hj]
    norm_num
  · simp
  · have h1 : (1 : Fin 3) ∈ rowClusters.indRelevant := mem_indRelevant.mpr ((hrel 1).mpr (by decide))
    have h2 : (2 : Fin 3) ∈ rowClusters.indRelevant := mem_indRelevant.mpr ((hrel 2).mpr (by decide))
    match hl : rowClusters.indRelevant, h1, h2 with
    | [], h1, _ => cases h1
    | [a], h1, h2 =>
      rw [List.mem_singleton] at h1 h2
      exact absurd (h1.trans h2.symm) (by decide)
    | a :: b :: l, _, _ => simp
  · intro j hj
    change _ ≤ ‖rowClusters.centers j - rowClusters.centers 0‖
    rw [rowClusters_norm j hj.1]
    norm_num [rowClusters]
  · simp only [rowClusters, if_true, sub_zero]
    norm_num [EuclideanSpace.norm_eq, Fin.sum_univ_two]
    rw [← Real.sqrt_div (by norm_num)]
    exact hsq.le
  · intro j
    fin_cases j
    · rfl
    · simp only [rowClusters, if_true, sub_zero]
      norm_num [EuclideanSpace.norm_eq, Fin.sum_univ_two]
    · simp only [rowClusters, if_true, sub_zero]
      simp only [EuclideanSpace.norm_eq, Fin.sum_univ_two]
      refine Real.sqrt_le_sqrt ?_
      norm_num
  · rintro ⟨-, h⟩
    have := h 1 (by decide)
    simp only [rowClusters, if_true, sub_zero] at this
    norm_num [EuclideanSpace.norm_eq, Fin.sum_univ_two] at this
  · unfold unit
    have : (rowClusters.center - !₂[1, 1 / 2] : Vec 2) ≠ 0 := by
      intro h
      have := congrArg (fun v : Vec 2 => v 1) h
      simp [rowClusters, center] at this
    simp only [PiLp.smul_apply, smul_eq_mul]
    refine mul_ne_zero (one_div_ne_zero (norm_ne_zero_iff.mpr this)) ?_
    simp [rowClusters, center]

/-- `C109_centre`: the result at the centre `(2, 0)` is `-(1, 0)`; at the centre `(0, 2)` it is `-(1, 2)`,
not a unit vector. -/
example (ext : NormalExt 1 2) :
    (normalDirection ext (⟨fun _ => !₂[0, 2], 1, 0, true, []⟩ : Obs 1 2) (!₂[0, 2]) true).1
      = .ok (-(!₂[1, 2])) := by
  obtain ⟨h0, h1, h2, -⟩ := C109_centre ext (⟨fun _ => !₂[0, 2], 1, 0, true, []⟩ : Obs 1 2) (!₂[0, 2]) rfl
  rw [h2 rfl]
  congr 2
  ext i
  fin_cases i
  · exact h0
  · exact h1 1 (by decide)

end Verif.KMeans
