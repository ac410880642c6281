import Verif.Model.KMeans
import Verif.Spec.Cell

/-!
# Lemmas about the regions of clusters
-/

open scoped RealInnerProductSpace

namespace Verif.KMeans

open Verif.Projected (floatMax)

variable {d n : ℕ}

lemma floatMax_gt : (1 : ℝ) < floatMax := by
  unfold floatMax
  have h : (2 : ℝ) ^ 1024 = 2 ^ 971 * 2 ^ 53 := by rw [← pow_add]
  rw [h]
  have h1 : (1 : ℝ) ≤ 2 ^ 971 := one_le_pow₀ (by norm_num)
  have h2 : (3 : ℝ) ≤ 2 ^ 53 := by norm_num
  generalize (2 : ℝ) ^ 971 = a at *
  generalize (2 : ℝ) ^ 53 = b at *
  nlinarith

/-- Cosine of the angle between a direction and the way to another centre. -/
noncomputable def slope (o : Obs n d) (u : Vec d) (j : Fin n) : ℝ :=
  ⟪(1 / ‖o.centers j - o.center‖) • (o.centers j - o.center), u⟫

/-- Distance of the wall. -/
noncomputable def half (o : Obs n d) (j : Fin n) : ℝ := ‖o.centers j - o.center‖ / 2

variable {o : Obs n d} {u : Vec d}

lemma slope_le (hu : ‖u‖ = 1) (j : Fin n) : slope o u j ≤ 1 := by
  unfold slope
  refine (real_inner_le_norm _ _).trans ?_
  rw [hu, mul_one, norm_smul, norm_div, norm_one, norm_norm]
  by_cases h : ‖o.centers j - o.center‖ = 0
  · rw [h]; norm_num
  · rw [one_div, inv_mul_cancel₀ h]

lemma closer_iff {j : Fin n} (hu : ‖u‖ = 1) {t : ℝ} (ht : 0 ≤ t)
    (hj : 0 < ‖o.centers j - o.center‖) :
    (‖o.center + t • u - o.center‖ ≤ ‖o.center + t • u - o.centers j‖
      ↔ t * slope o u j ≤ half o j)
    ∧ (‖o.center + t • u - o.center‖ < ‖o.center + t • u - o.centers j‖
      ↔ t * slope o u j < half o j) := by
  have h1 : ‖o.center + t • u - o.center‖ = t := by
    rw [add_sub_cancel_left, norm_smul, hu, mul_one, Real.norm_of_nonneg ht]
  have h2 : ‖o.center + t • u - o.centers j‖ ^ 2
      = t ^ 2 - 2 * (t * (slope o u j * ‖o.centers j - o.center‖))
        + ‖o.centers j - o.center‖ ^ 2 := by
    have h3 : o.center + t • u - o.centers j = t • u - (o.centers j - o.center) := by abel
    rw [h3, norm_sub_sq_real, norm_smul, hu, mul_one, Real.norm_of_nonneg ht, inner_smul_left]
    have h4 : slope o u j * ‖o.centers j - o.center‖ = ⟪u, o.centers j - o.center⟫ := by
      unfold slope
      rw [inner_smul_left, real_inner_comm, one_div]
      simp only [conj_trivial]
      field_simp
    rw [h4]; simp
  rw [h1]
  unfold half
  have hn := norm_nonneg (o.center + t • u - o.centers j)
  set D := ‖o.centers j - o.center‖
  set X := ‖o.center + t • u - o.centers j‖
  set a := slope o u j
  constructor
  · constructor
    · intro h
      have h5 : t ^ 2 ≤ X ^ 2 := by gcongr
      rw [h2] at h5
      have h6 : 2 * (t * a) * D ≤ D * D := by nlinarith
      have := le_of_mul_le_mul_right h6 hj
      linarith
    · intro h
      have h5 : t ^ 2 ≤ X ^ 2 := by rw [h2]; nlinarith
      exact le_of_sq_le_sq h5 hn |>.trans le_rfl
  · constructor
    · intro h
      have h5 : t ^ 2 < X ^ 2 := by gcongr
      rw [h2] at h5
      have h6 : 2 * (t * a) * D < D * D := by nlinarith
      have := lt_of_mul_lt_mul_right h6 hj.le
      linarith
    · intro h
      have h5 : t ^ 2 < X ^ 2 := by rw [h2]; nlinarith
      exact lt_of_pow_lt_pow_left₀ 2 hn h5

lemma mem_indRelevant {i : Fin n} : i ∈ o.indRelevant ↔ o.Relevant i := by
  simp [Obs.indRelevant]

lemma normal_of_relevant {i : Fin n} (h : o.Relevant i) :
    o.normal i = (1 / ‖o.centers i - o.center‖) • (o.centers i - o.center) := by
  unfold Obs.normal; rw [if_pos h]; rfl

lemma normal_of_not {i : Fin n} (h : ¬ o.Relevant i) : o.normal i = 0 := by
  unfold Obs.normal; rw [if_neg h]

lemma inner_normal {i : Fin n} (h : o.Relevant i) : ⟪o.normal i, u⟫ = slope o u i := by
  rw [normal_of_relevant h]; rfl

lemma inner_normal_sub {i : Fin n} (h : o.Relevant i) (hi : 0 < ‖o.centers i - o.center‖)
    (x : Vec d) :
    ⟪o.normal i, x - o.inbetween i⟫ = ⟪o.normal i, x - o.center⟫ - half o i := by
  have h1 : o.inbetween i = o.center + (1 / 2 : ℝ) • (o.centers i - o.center) := by
    unfold Obs.inbetween
    rw [if_pos h]
    change (0.5 : ℝ) • (o.center + o.centers i) = _
    ext k; simp; ring
  rw [h1, ← sub_sub, inner_sub_right, inner_smul_right, normal_of_relevant h, inner_smul_left,
    inner_smul_left, real_inner_self_eq_norm_sq]
  unfold half
  simp only [conj_trivial]
  congr 1
  field_simp

lemma linePlane_wall {i : Fin n} (h : o.Relevant i) (hi : 0 < ‖o.centers i - o.center‖) :
    Obs.linePlane o.center u (o.inbetween i) (o.normal i)
      = if slope o u i < 0 then none else some (o.center + (half o i / slope o u i) • u) := by
  have hp : 0 < half o i := by unfold half; linarith
  have h1 : ⟪o.normal i, o.inbetween i - o.center⟫ = half o i := by
    have := inner_normal_sub h hi o.center
    rw [sub_self, inner_zero_right, zero_sub] at this
    rw [← neg_sub, inner_neg_right, this, neg_neg]
  unfold Obs.linePlane
  simp only [h1, inner_normal h]
  have h2 : (half o i / slope o u i < 0) ↔ slope o u i < 0 := by
    constructor
    · intro h3
      by_contra h4
      exact absurd h3 (not_lt.mpr (div_nonneg hp.le (not_lt.mp h4)))
    · intro h3; exact div_neg_of_pos_of_neg hp h3
  by_cases h3 : slope o u i < 0
  · rw [if_pos (h2.mpr h3), if_pos h3]
  · rw [if_neg (fun h4 => h3 (h2.mp h4)), if_neg h3]

/-- The invariant of the loop of `get_point_on_surface`. -/
structure Reach (o : Obs n d) (u : Vec d) (l : List (Fin n)) (s : ℝ × Vec d) : Prop where
  point : s.2 = o.center + s.1 • u
  pos : 0 < s.1
  le_radius : s.1 ≤ o.radius
  le_wall : ∀ i ∈ l, s.1 * slope o u i ≤ half o i
  attained : s.1 = o.radius ∨ ∃ i ∈ l, 0 < slope o u i ∧ s.1 * slope o u i = half o i

lemma surfaceStep_reach (hu : ‖u‖ = 1) {l : List (Fin n)} {s : ℝ × Vec d} (h : Reach o u l s)
    {i : Fin n} (hi : o.Relevant i) (hd : 0 < ‖o.centers i - o.center‖)
    (hs : slope o u i ≠ 0) : Reach o u (l ++ [i]) (o.surfaceStep u s i) := by
  have hp : 0 < half o i := by unfold half; linarith
  unfold Obs.surfaceStep
  rw [linePlane_wall hi hd]
  by_cases h1 : slope o u i < 0
  · rw [if_pos h1]
    refine ⟨h.point, h.pos, h.le_radius, ?_, ?_⟩
    · intro j hj
      rcases List.mem_append.mp hj with hj | hj
      · exact h.le_wall j hj
      · rw [List.mem_singleton.mp hj]
        nlinarith [h.pos]
    · rcases h.attained with h2 | ⟨j, hj, h2⟩
      · exact Or.inl h2
      · exact Or.inr ⟨j, List.mem_append_left _ hj, h2⟩
  · rw [if_neg h1]
    have h2 : 0 < slope o u i := lt_of_le_of_ne (not_lt.mp h1) (Ne.symm hs)
    have h3 : ‖o.center - (o.center + (half o i / slope o u i) • u)‖ = half o i / slope o u i := by
      rw [sub_add_cancel_left, norm_neg, norm_smul, hu, mul_one, Real.norm_of_nonneg (by positivity)]
    simp only [h3]
    by_cases h4 : half o i / slope o u i < s.1
    · rw [if_pos h4]
      refine ⟨rfl, by positivity, h4.le.trans h.le_radius, ?_, ?_⟩
      · intro j hj
        rcases List.mem_append.mp hj with hj | hj
        · by_cases h5 : 0 ≤ slope o u j
          · exact (mul_le_mul_of_nonneg_right h4.le h5).trans (h.le_wall j hj)
          · have h6 : 0 ≤ half o j := by unfold half; positivity
            have : 0 < half o i / slope o u i := by positivity
            simp only
            nlinarith
        · rw [List.mem_singleton.mp hj]
          simp only
          rw [div_mul_cancel₀ _ h2.ne']
      · refine Or.inr ⟨i, by simp, h2, ?_⟩
        simp only
        rw [div_mul_cancel₀ _ h2.ne']
    · rw [if_neg h4]
      refine ⟨h.point, h.pos, h.le_radius, ?_, ?_⟩
      · intro j hj
        rcases List.mem_append.mp hj with hj | hj
        · exact h.le_wall j hj
        · rw [List.mem_singleton.mp hj]
          rw [not_lt, le_div_iff₀ h2] at h4
          exact h4
      · rcases h.attained with h2 | ⟨j, hj, h2⟩
        · exact Or.inl h2
        · exact Or.inr ⟨j, List.mem_append_left _ hj, h2⟩

lemma foldl_reach (hu : ‖u‖ = 1) : ∀ (l l0 : List (Fin n)) (s : ℝ × Vec d), Reach o u l0 s →
    (∀ i ∈ l, o.Relevant i ∧ 0 < ‖o.centers i - o.center‖ ∧ slope o u i ≠ 0) →
    Reach o u (l0 ++ l) (l.foldl (o.surfaceStep u) s)
  | [], l0, s, h, _ => by simpa using h
  | i :: l, l0, s, h, hl => by
    have h1 := surfaceStep_reach hu h (hl i List.mem_cons_self).1 (hl i List.mem_cons_self).2.1
      (hl i List.mem_cons_self).2.2
    have h2 := foldl_reach hu l (l0 ++ [i]) _ h1 (fun j hj => hl j (List.mem_cons_of_mem _ hj))
    rw [List.append_assoc] at h2
    exact h2

/-- The distance to the surface along a direction. -/
theorem surfaceAlong_spec (hu : ‖u‖ = 1) (hg : Spec.GoodClusters o.centers o.radius o.index) :
    ∃ s : ℝ, o.surfaceAlong u = o.center + s • u ∧ 0 < s ∧ s ≤ o.radius
      ∧ (∀ j, j ≠ o.index → s * slope o u j ≤ half o j)
      ∧ (s = o.radius ∨ ∃ j, o.Relevant j ∧ 0 < slope o u j ∧ s * slope o u j = half o j) := by
  classical
  have hd : ∀ i, o.Relevant i → 0 < ‖o.centers i - o.center‖ := fun i hi => (hg.separated i hi.1).1
  have h0 : Reach o u [] (o.radius, o.center + o.radius • u) :=
    ⟨rfl, hg.radius_pos, le_rfl, by simp, Or.inl rfl⟩
  have h1 := foldl_reach hu
    (o.indRelevant.filter (fun i => decide (|⟪o.normal i, u⟫| > 1e-9))) [] _ h0 (by
      intro i hi
      rw [List.mem_filter, mem_indRelevant, decide_eq_true_eq] at hi
      refine ⟨hi.1, hd i hi.1, ?_⟩
      have h2 := hi.2
      rw [inner_normal hi.1] at h2
      intro h3
      rw [h3] at h2
      norm_num at h2)
  rw [List.nil_append] at h1
  refine ⟨_, ?_, h1.pos, h1.le_radius, ?_, ?_⟩
  · unfold Obs.surfaceAlong
    convert h1.point using 3
  · intro j hj
    by_cases hrel : o.Relevant j
    · by_cases hbig : |⟪o.normal j, u⟫| > 1e-9
      · exact h1.le_wall j (by
          rw [List.mem_filter, mem_indRelevant, decide_eq_true_eq]; exact ⟨hrel, hbig⟩)
      · rw [inner_normal hrel] at hbig
        have h2 : slope o u j ≤ 1e-9 := (le_abs_self _).trans (not_lt.mp hbig)
        have h3 := (hg.separated j hj).2
        have h4 := mul_le_mul_of_nonneg_left h2 h1.pos.le
        have h5 := mul_le_mul_of_nonneg_left h1.le_radius (by norm_num : (0 : ℝ) ≤ 1e-9)
        unfold half
        change _ ≤ ‖o.centers j - o.centers o.index‖ / 2
        linarith
    · have h2 : 2 * o.radius ≤ ‖o.centers o.index - o.centers j‖ := by
        by_contra h3
        exact hrel ⟨hj, not_le.mp h3⟩
      rw [norm_sub_rev] at h2
      have h3 := mul_le_mul_of_nonneg_left (slope_le (o := o) hu j) h1.pos.le
      have h4 := h1.le_radius
      unfold half
      change _ ≤ ‖o.centers j - o.centers o.index‖ / 2
      linarith
  · rcases h1.attained with h2 | ⟨j, hj, h2⟩
    · exact Or.inl h2
    · rw [List.mem_filter, mem_indRelevant] at hj
      exact Or.inr ⟨j, hj.1, h2⟩

/-- What `get_gamma` needs to know about a position. -/
structure Ray (o : Obs n d) (u : Vec d) (s : ℝ) : Prop where
  unit : ‖u‖ = 1
  pos : 0 < s
  le_radius : s ≤ o.radius
  le_wall : ∀ j, j ≠ o.index → s * slope o u j ≤ half o j
  attained : s = o.radius ∨ ∃ j, o.Relevant j ∧ 0 < slope o u j ∧ s * slope o u j = half o j

lemma Ray.mem_cell {s : ℝ} (h : Ray o u s) (hg : Spec.GoodClusters o.centers o.radius o.index)
    {t : ℝ} (ht : 0 ≤ t) :
    o.center + t • u ∈ Spec.Cell o.centers o.radius o.index ↔ t ≤ s := by
  have h1 : ‖o.center + t • u - o.center‖ = t := by
    rw [add_sub_cancel_left, norm_smul, h.unit, mul_one, Real.norm_of_nonneg ht]
  constructor
  · rintro ⟨h2, h3⟩
    rcases h.attained with h4 | ⟨j, hj, h5, h6⟩
    · change ‖o.center + t • u - o.center‖ ≤ _ at h2
      rw [h4, ← h1]; exact h2
    · have h7 := ((closer_iff h.unit ht (hg.separated j hj.1).1).1.mp (h3 j))
      rw [← h6] at h7
      exact le_of_mul_le_mul_right h7 h5
  · intro h2
    refine ⟨?_, ?_⟩
    · change ‖o.center + t • u - o.center‖ ≤ _
      rw [h1]; exact h2.trans h.le_radius
    · intro j
      by_cases hj : j = o.index
      · rw [hj]
      · refine (closer_iff h.unit ht (hg.separated j hj).1).1.mpr ?_
        by_cases h5 : 0 ≤ slope o u j
        · exact (mul_le_mul_of_nonneg_right h2 h5).trans (h.le_wall j hj)
        · have : 0 ≤ half o j := by unfold half; positivity
          nlinarith

lemma Ray.mem_openCell {s : ℝ} (h : Ray o u s) (hg : Spec.GoodClusters o.centers o.radius o.index)
    {t : ℝ} (ht : 0 ≤ t) :
    o.center + t • u ∈ Spec.OpenCell o.centers o.radius o.index ↔ t < s := by
  have h1 : ‖o.center + t • u - o.center‖ = t := by
    rw [add_sub_cancel_left, norm_smul, h.unit, mul_one, Real.norm_of_nonneg ht]
  constructor
  · rintro ⟨h2, h3⟩
    rcases h.attained with h4 | ⟨j, hj, h5, h6⟩
    · change ‖o.center + t • u - o.center‖ < _ at h2
      rw [h4, ← h1]; exact h2
    · have h7 := ((closer_iff h.unit ht (hg.separated j hj.1).1).2.mp (h3 j hj.1))
      rw [← h6] at h7
      exact lt_of_mul_lt_mul_right h7 h5.le
  · intro h2
    refine ⟨?_, ?_⟩
    · change ‖o.center + t • u - o.center‖ < _
      rw [h1]; exact h2.trans_le h.le_radius
    · intro j hj
      refine (closer_iff h.unit ht (hg.separated j hj).1).2.mpr ?_
      have h6 : 0 < half o j := half_pos (hg.separated j hj).1
      by_cases h5 : 0 < slope o u j
      · exact (mul_lt_mul_of_pos_right h2 h5).trans_le (h.le_wall j hj)
      · nlinarith

/-- The position as a point on a ray from the centre. -/
lemma exists_ray [NeZero d] (hg : Spec.GoodClusters o.centers o.radius o.index) (x : Vec d)
    (hx : x ≠ o.center) :
    ∃ u s, Ray o u s ∧ (o.getPointOnSurface x true).1 = o.center + s • u
      ∧ x = o.center + ‖x - o.center‖ • u ∧ x - o.center = ‖x - o.center‖ • u
      ∧ 0 < ‖x - o.center‖ := by
  have h0 : ‖x - o.center‖ ≠ 0 := by rwa [norm_ne_zero_iff, sub_ne_zero]
  have hu : ‖(1 / ‖x - o.center‖) • (x - o.center)‖ = 1 := by
    rw [norm_smul, norm_div, norm_one, norm_norm, one_div, inv_mul_cancel₀ h0]
  have h5 : x - o.center = ‖x - o.center‖ • ((1 / ‖x - o.center‖) • (x - o.center)) := by
    rw [smul_smul, mul_one_div_cancel h0, one_smul]
  obtain ⟨s, h1, h2, h3, h4, h6⟩ := surfaceAlong_spec hu hg
  refine ⟨_, s, ⟨hu, h2, h3, h4, h6⟩, ?_, ?_, h5, by positivity⟩
  · unfold Obs.getPointOnSurface Obs.surfaceDirection
    rw [if_pos rfl, if_pos h0]
    exact h1
  · rw [← h5, add_sub_cancel]

lemma inner_normal_ray {P : ℝ} {i : Fin n} (h : o.Relevant i)
    (hi : 0 < ‖o.centers i - o.center‖) :
    ⟪o.normal i, (o.center + P • u) - o.inbetween i⟫ = P * slope o u i - half o i := by
  rw [inner_normal_sub h hi, add_sub_cancel_left, inner_smul_right, inner_normal h]

lemma distances_ray (hg : Spec.GoodClusters o.centers o.radius o.index) {P : ℝ} (i : Fin n) :
    (i = o.index → o.distances (o.center + P • u) P i = P - o.radius)
    ∧ (o.Relevant i → o.distances (o.center + P • u) P i = P * slope o u i - half o i)
    ∧ (i ≠ o.index → ¬ o.Relevant i → o.distances (o.center + P • u) P i = 0) := by
  refine ⟨?_, ?_, ?_⟩
  · intro h; unfold Obs.distances; rw [if_pos h]
  · intro h; unfold Obs.distances
    rw [if_neg h.1]
    exact inner_normal_ray h (hg.separated i h.1).1
  · intro h h'; unfold Obs.distances
    rw [if_neg h, normal_of_not h', inner_zero_left]

lemma distances_le {s : ℝ} (h : Ray o u s) (hg : Spec.GoodClusters o.centers o.radius o.index)
    {P : ℝ} (hP : s < P) (i : Fin n) : o.distances (o.center + P • u) P i ≤ P - s := by
  by_cases hi : i = o.index
  · rw [(distances_ray hg i).1 hi]; linarith [h.le_radius]
  · by_cases hr : o.Relevant i
    · rw [(distances_ray hg i).2.1 hr]
      have h1 := h.le_wall i hi
      have h2 := slope_le (o := o) h.unit i
      nlinarith
    · rw [(distances_ray hg i).2.2 hi hr]; linarith

lemma exists_distance_pos {s : ℝ} (h : Ray o u s)
    (hg : Spec.GoodClusters o.centers o.radius o.index) {P : ℝ} (hP : s < P) :
    ∃ i, 0 < o.distances (o.center + P • u) P i := by
  rcases h.attained with h1 | ⟨j, hj, h2, h3⟩
  · exact ⟨o.index, by rw [(distances_ray hg _).1 rfl]; linarith⟩
  · exact ⟨j, by rw [(distances_ray hg _).2.1 hj]; nlinarith⟩

lemma sum_max_pos {dist : Fin n → ℝ} (h : ∃ i, 0 < dist i) : 0 < ∑ i, max (dist i) 0 := by
  obtain ⟨i, hi⟩ := h
  refine Finset.sum_pos' (fun j _ => le_max_right _ _) ⟨i, Finset.mem_univ _, ?_⟩
  exact lt_max_of_lt_left hi

lemma surfaceWeights_ok {dist : Fin n → ℝ} (h : ∃ i, 0 < dist i) :
    ∃ w, Obs.surfaceWeights dist = some w ∧ (∀ i, 0 ≤ w i) ∧ ∑ i, w i = 1
      ∧ ∀ i, 0 < w i ↔ 0 < dist i := by
  have hp := sum_max_pos h
  refine ⟨_, by unfold Obs.surfaceWeights; rw [if_neg hp.ne'], ?_, ?_, ?_⟩
  · intro i; positivity
  · rw [← Finset.sum_div, div_self hp.ne']
  · intro i
    rw [div_pos_iff_of_pos_right hp]
    constructor
    · intro h2
      rcases lt_max_iff.mp h2 with h3 | h3
      · exact h3
      · exact absurd h3 (lt_irrefl _)
    · exact lt_max_of_lt_left

end Verif.KMeans
