import Verif.Model.KMeansDirection
import Verif.Spec.KMeansDirection
import Verif.Props.KMeansPredict
import Verif.Lemmas.Sphere

/-!
# C111: local directions lead to the next region
-/

open scoped RealInnerProductSpace

namespace Verif.KMeans
open Spec Obs

variable {d n : ℕ} [NeZero d]

/-- Distance to the surface along a direction. -/
lemma ray_of_unit {o : Obs n d} (hg : GoodClusters o.centers o.radius o.index) {u : Vec d} (hu : ‖u‖ = 1) :
    ∃ s, Ray o u s ∧ (o.getPointOnSurface (o.center + u) true).1 = o.center + s • u := by
  obtain ⟨s, h1, h2, h3, h4, h6⟩ := surfaceAlong_spec hu hg
  refine ⟨s, ⟨hu, h2, h3, h4, h6⟩, ?_⟩
  unfold Obs.getPointOnSurface Obs.surfaceDirection
  rw [if_pos rfl, add_sub_cancel_left, hu, if_pos one_ne_zero, div_one, one_smul]
  exact h1

lemma ray_exit {o : Obs n d} (hg : GoodClusters o.centers o.radius o.index) {u : Vec d} {s : ℝ} (h : Ray o u s)
    (p : Vec d) : Exit o.centers o.radius o.index (o.center + u) p ↔ p = o.center + s • u := by
  have e : unit (o.center + u - o.centers o.index) = u := by
    change unit (o.center + u - o.center) = u
    rw [add_sub_cancel_left, unit_of_norm_one h.unit]
  unfold Exit
  rw [e]
  constructor
  · rintro ⟨t, ht, rfl, hiff⟩
    have h1 := (hiff s h.pos.le).mp ((h.mem_cell hg h.pos.le).mpr le_rfl)
    have h2 := (h.mem_cell hg ht.le).mp ((hiff t ht.le).mpr le_rfl)
    rw [le_antisymm h2 h1]
    rfl
  · rintro rfl
    exact ⟨s, h.pos, rfl, fun t ht => h.mem_cell hg ht⟩

lemma pointing_iff {o : Obs n d} (hg : GoodClusters o.centers o.radius o.index) {u : Vec d} (hu : ‖u‖ = 1)
    (j : Fin n) : o.pointing u j ↔ ¬ Misses o.centers o.radius o.index j u := by
  obtain ⟨s, hr, hs⟩ := ray_of_unit hg hu
  unfold Obs.pointing Misses
  simp only [hs]
  have : ∀ p, Exit o.centers o.radius o.index (o.centers o.index + u) p ↔ p = o.center + s • u :=
    ray_exit hg hr
  simp only [this, exists_eq_left, not_lt]
  unfold isclose
  rw [abs_norm]
  rfl

lemma leadsTo_iff {o : Obs n d} (hg : GoodClusters o.centers o.radius o.index) {u : Vec d} {s : ℝ}
    (h : Ray o u s) {j : Fin n} (hj : j ≠ o.index) :
    LeadsTo o.centers o.radius o.index j u ↔ s * slope o u j = half o j := by
  unfold LeadsTo
  have : ∀ p, Exit o.centers o.radius o.index (o.centers o.index + u) p ↔ p = o.center + s • u :=
    ray_exit hg h
  simp only [this, exists_eq_left]
  obtain ⟨h1, h2⟩ := closer_iff (o := o) (j := j) h.unit h.pos.le (hg.separated j hj).1
  change ‖o.center + s • u - o.center‖ = _ ↔ _
  have hle := h.le_wall j hj
  constructor
  · intro he
    refine le_antisymm hle (not_lt.mp (fun hlt => ?_))
    exact absurd (h2.mpr hlt) (not_lt.mpr he.ge)
  · intro he
    exact le_antisymm (h1.mpr he.le) (not_lt.mp (fun hlt => absurd (h2.mp hlt) (not_lt.mpr he.ge)))

lemma leads_pointing {o : Obs n d} (hg : GoodClusters o.centers o.radius o.index) {u : Vec d} (hu : ‖u‖ = 1)
    {j : Fin n} (h : LeadsTo o.centers o.radius o.index j u) : o.pointing u j := by
  rw [pointing_iff hg hu]
  rintro ⟨p, hp, hm⟩
  obtain ⟨s, hr, -⟩ := ray_of_unit hg hu
  obtain ⟨q, hq, he⟩ := h
  have e1 := (ray_exit hg hr p).mp hp
  have e2 := (ray_exit hg hr q).mp hq
  rw [e1] at hm
  rw [e2] at he
  rw [he, sub_self, abs_zero] at hm
  have : (0 : ℝ) ≤ 1e-8 + 1e-5 * ‖o.center + s • u - o.centers j‖ := by positivity
  linarith

lemma slope_smul_add (o : Obs n d) (a b : ℝ) (u v : Vec d) (j : Fin n) :
    slope o (a • u + b • v) j = a * slope o u j + b * slope o v j := by
  unfold slope
  rw [inner_add_right, real_inner_smul_right, real_inner_smul_right]

/-- Directions that lead to the same wall have no opposite, and the direction between them leads there too. -/
lemma leads_between {o : Obs n d} (hg : GoodClusters o.centers o.radius o.index) {u v : Vec d} (hu : ‖u‖ = 1)
    (hv : ‖v‖ = 1) {j : Fin n} (hj : j ≠ o.index) (h1 : LeadsTo o.centers o.radius o.index j u)
    (h2 : LeadsTo o.centers o.radius o.index j v) :
    u + v ≠ 0 ∧ ¬ Opposite u v ∧ LeadsTo o.centers o.radius o.index j (unit (u + v)) := by
  obtain ⟨s, hs, -⟩ := ray_of_unit hg hu
  obtain ⟨t, ht, -⟩ := ray_of_unit hg hv
  rw [leadsTo_iff hg hs hj] at h1
  rw [leadsTo_iff hg ht hj] at h2
  have hh : 0 < half o j := by
    have := (hg.separated j hj).1
    unfold half
    change 0 < ‖o.centers j - o.centers o.index‖ / 2
    linarith
  have su : 0 < slope o u j := by
    have : 0 < s * slope o u j := by rw [h1]; exact hh
    exact (mul_pos_iff_of_pos_left hs.pos).mp this
  have sv : 0 < slope o v j := by
    have : 0 < t * slope o v j := by rw [h2]; exact hh
    exact (mul_pos_iff_of_pos_left ht.pos).mp this
  have hsum : slope o (u + v) j = slope o u j + slope o v j := by
    have := slope_smul_add o 1 1 u v j
    simpa using this
  have hne : u + v ≠ 0 := by
    intro h
    rw [h] at hsum
    unfold slope at hsum su sv
    rw [inner_zero_right] at hsum
    linarith
  refine ⟨hne, ?_, ?_⟩
  · rintro ⟨c, hc, rfl⟩
    have : slope o ((-c) • u) j = -c * slope o u j := by
      have := slope_smul_add o (-c) 0 u u j
      simpa using this
    rw [this] at sv
    nlinarith
  set m := unit (u + v) with hm
  have hmn : ‖m‖ = 1 := unit_norm hne
  obtain ⟨r, hr, -⟩ := ray_of_unit hg hmn
  rw [leadsTo_iff hg hr hj]
  refine le_antisymm (hr.le_wall j hj) ?_
  -- the point of the wall in direction `m` lies between the ones in directions `u` and `v`
  have hN : 0 < ‖u + v‖ := norm_pos_iff.mpr hne
  have hst : 0 < s + t := add_pos hs.pos ht.pos
  set c : ℝ := s * t / (s + t) * ‖u + v‖ with hcdef
  have hc0 : 0 < c := by
    have := hs.pos
    have := ht.pos
    positivity
  have hcm : c • m = (s * t / (s + t)) • u + (s * t / (s + t)) • v := by
    rw [hm, hcdef]
    unfold unit
    rw [smul_smul, ← smul_add]
    congr 1
    field_simp
  have hslope : ∀ i, c * slope o m i = t / (s + t) * (s * slope o u i) + s / (s + t) * (t * slope o v i) := by
    intro i
    have e1 : slope o (c • m) i = c * slope o m i := by
      have := slope_smul_add o c 0 m m i
      simpa using this
    rw [← e1, hcm, slope_smul_add]
    field_simp
  have hcr : c ≤ r := by
    refine (hr.mem_cell hg hc0.le).mp ⟨?_, ?_⟩
    · change ‖o.center + c • m - o.center‖ ≤ _
      rw [add_sub_cancel_left, hcm]
      calc _ ≤ ‖(s * t / (s + t)) • u‖ + ‖(s * t / (s + t)) • v‖ := norm_add_le _ _
        _ = s * t / (s + t) + s * t / (s + t) := by
          have : 0 ≤ s * t / (s + t) := by
            have := hs.pos
            have := ht.pos
            positivity
          rw [norm_smul, norm_smul, hu, hv, Real.norm_of_nonneg this, mul_one]
        _ ≤ o.radius := by
          have h3 := hs.le_radius
          have h4 := ht.le_radius
          have := hs.pos
          have := ht.pos
          rw [← add_div, div_le_iff₀ hst]
          nlinarith
    · intro i
      by_cases hi : i = o.index
      · rw [hi]
      · rw [show o.centers o.index = o.center from rfl]
        rw [(closer_iff (o := o) (j := i) hmn hc0.le (hg.separated i hi).1).1, hslope]
        have h3 := hs.le_wall i hi
        have h4 := ht.le_wall i hi
        calc _ ≤ t / (s + t) * half o i + s / (s + t) * half o i := by
              have := hs.pos
              have := ht.pos
              gcongr
          _ = half o i := by field_simp; ring
  have hcj := hslope j
  rw [h1, h2] at hcj
  have h5 : c * slope o m j = half o j := by
    rw [hcj]; field_simp; ring
  rw [← h5]
  have hmj : 0 < slope o m j := by
    have : 0 < c * slope o m j := by rw [h5]; exact hh
    exact (mul_pos_iff_of_pos_left hc0).mp this
  exact mul_le_mul_of_nonneg_right hcr hmj.le

/-! ### The direction of a cluster -/

/-- The direction to the centre of cluster `j`. -/
noncomputable def toward (o : Obs n d) (j : Fin n) : Vec d := unit (o.centers j - o.centers o.index)

omit [NeZero d] in
lemma toward_norm {o : Obs n d} (hg : GoodClusters o.centers o.radius o.index) {j : Fin n} (hj : j ≠ o.index) :
    ‖toward o j‖ = 1 := unit_norm (norm_pos_iff.mp (hg.separated j hj).1)

/-- The body of `towardsParent` after the normalisation. -/
lemma towards_eq (mean : Vec d → Vec d → Vec d) {o : Obs n d} {j : Fin n}
    (hg : GoodClusters o.centers o.radius o.index) (hs : o.successor = [j]) (hj : j ≠ o.index)
    (node velocity u : Vec d) (itMax : ℕ)
    (hu : (velocity = 0 ∧ u = node) ∨ (velocity ≠ 0 ∧ u = unit velocity)) :
    open Classical in
    o.towardsParent mean node velocity itMax
      = if o.pointing u j then .ok u
        else if isclose ⟪toward o j, u⟫ (-1) then
          if o.pointing (toward o j) j then .ok (toward o j) else .error .notImplemented
        else if o.pointing (toward o j) j then
          .ok (bisect mean o j itMax (mean u (toward o j)) (toward o j))
        else if ¬ o.pointing (mean u (toward o j)) j then .ok u
        else .ok (bisect mean o j itMax u (mean u (toward o j))) := by
  have e : (open Classical in if ‖velocity‖ = 0 then node else (1 / ‖velocity‖) • velocity) = u := by
    rcases hu with ⟨h0, rfl⟩ | ⟨h0, rfl⟩
    · rw [if_pos (by rw [h0, norm_zero])]
    · rw [if_neg (norm_ne_zero_iff.mpr h0)]; rfl
  have hd : ‖o.centers j - o.center‖ ≠ 0 := (hg.separated j hj).1.ne'
  unfold Obs.towardsParent
  rw [hs]
  dsimp only
  rw [if_neg hd, e]
  rfl

/-- **C111** The result is a unit vector, whatever the velocities of the data; `NotImplementedError` is the only
exception for a cluster with one next cluster. -/
theorem C111_unit (mean : Vec d → Vec d → Vec d) (hm : ∀ u v, ‖u‖ = 1 → ‖v‖ = 1 → ‖mean u v‖ = 1)
    (o : Obs n d) (hg : GoodClusters o.centers o.radius o.index) (j : Fin n) (hs : o.successor = [j])
    (hj : j ≠ o.index) (node velocity : Vec d) (hn : ‖node‖ = 1) (itMax : ℕ) :
    (∃ v, o.towardsParent mean node velocity itMax = .ok v ∧ ‖v‖ = 1)
      ∨ o.towardsParent mean node velocity itMax = .error .notImplemented := by
  have hb : ∀ k u v, ‖u‖ = 1 → ‖v‖ = 1 → ‖bisect mean o j k u v‖ = 1 := by
    intro k
    induction k with
    | zero => intro u v hu _; exact hu
    | succ k ih =>
      intro u v hu hv
      unfold bisect
      split_ifs
      · exact ih _ _ hu (hm u v hu hv)
      · exact ih _ _ (hm u v hu hv) hv
  obtain ⟨u, hu, hu1⟩ : ∃ u, ((velocity = 0 ∧ u = node) ∨ (velocity ≠ 0 ∧ u = unit velocity)) ∧ ‖u‖ = 1 := by
    by_cases h0 : velocity = 0
    · exact ⟨node, Or.inl ⟨h0, rfl⟩, hn⟩
    · exact ⟨unit velocity, Or.inr ⟨h0, rfl⟩, unit_norm h0⟩
  have ht := toward_norm hg hj
  rw [towards_eq mean hg hs hj node velocity u itMax hu]
  split_ifs
  · exact Or.inl ⟨_, rfl, hu1⟩
  · exact Or.inl ⟨_, rfl, ht⟩
  · exact Or.inr rfl
  · exact Or.inl ⟨_, rfl, hb _ _ _ (hm _ _ hu1 ht) ht⟩
  · exact Or.inl ⟨_, rfl, hb _ _ _ hu1 (hm _ _ hu1 ht)⟩
  · exact Or.inl ⟨_, rfl, hu1⟩

/-- **C111** The mean direction of the data is kept if it leads to the wall to the next cluster. -/
theorem C111_kept (mean : Vec d → Vec d → Vec d) (o : Obs n d)
    (hg : GoodClusters o.centers o.radius o.index) (j : Fin n) (hs : o.successor = [j])
    (hj : j ≠ o.index) (node velocity : Vec d) (hv : velocity ≠ 0) (itMax : ℕ)
    (h : LeadsTo o.centers o.radius o.index j (unit velocity)
      ∨ ¬ Misses o.centers o.radius o.index j (unit velocity)) :
    o.towardsParent mean node velocity itMax = .ok (unit velocity) := by
  rw [towards_eq mean hg hs hj node velocity _ itMax (Or.inr ⟨hv, rfl⟩), if_pos]
  rcases h with h | h
  · exact leads_pointing hg (unit_norm hv) h
  · exact (pointing_iff hg (unit_norm hv) j).mpr h

/-- In the loop nothing happens to a direction that leads to the wall. -/
lemma bisect_leads {mean : Vec d → Vec d → Vec d} (hm : Bisects mean) {o : Obs n d}
    (hg : GoodClusters o.centers o.radius o.index) {j : Fin n} (hj : j ≠ o.index) :
    ∀ (k : ℕ) (u v : Vec d), ‖u‖ = 1 → ‖v‖ = 1 → LeadsTo o.centers o.radius o.index j u →
      LeadsTo o.centers o.radius o.index j v → bisect mean o j k u v = u := by
  intro k
  induction k with
  | zero => intros; rfl
  | succ k ih =>
    intro u v hu hv h1 h2
    obtain ⟨b1, b2, b3⟩ := leads_between hg hu hv hj h1 h2
    unfold bisect
    rw [if_pos (leads_pointing hg hv h2), hm u v hu hv b2]
    exact ih _ _ hu (unit_norm b1) h1 b3

omit [NeZero d] in
lemma not_opposite_of_not_close {e u : Vec d} (he : ‖e‖ = 1) (hu : ‖u‖ = 1) (h : ¬ isclose ⟪e, u⟫ (-1)) :
    ¬ Opposite u e := by
  rintro ⟨c, hc, hce⟩
  have h1 : c = 1 := by
    have := congrArg norm hce
    rw [he, norm_smul, hu, mul_one, norm_neg, Real.norm_of_nonneg hc.le] at this
    exact this.symm
  apply h
  rw [hce, real_inner_smul_left, real_inner_self_eq_norm_sq, hu, h1]
  unfold isclose
  norm_num

/-- **C111** Otherwise the result leads to the wall, if the direction to the next centre does and the direction
half-way between this one and the mean direction of the data does: it is the direction half-way, or the
direction to the next centre for data that moves away from it. -/
theorem C111_halfway (mean : Vec d → Vec d → Vec d) (hm : Bisects mean) (o : Obs n d)
    (hg : GoodClusters o.centers o.radius o.index) (j : Fin n) (hs : o.successor = [j])
    (hj : j ≠ o.index) (node velocity : Vec d) (hv : velocity ≠ 0) (itMax : ℕ)
    (h : Misses o.centers o.radius o.index j (unit velocity))
    (h1 : LeadsTo o.centers o.radius o.index j (unit (o.centers j - o.centers o.index)))
    (h2 : LeadsTo o.centers o.radius o.index j
      (unit (unit velocity + unit (o.centers j - o.centers o.index))))
    (h3 : unit velocity + unit (o.centers j - o.centers o.index) ≠ 0) :
    ∃ v, o.towardsParent mean node velocity itMax = .ok v ∧ LeadsTo o.centers o.radius o.index j v
      ∧ ‖v‖ = 1
      ∧ (¬ isclose ⟪unit (o.centers j - o.centers o.index), unit velocity⟫ (-1) →
        v = unit (unit velocity + unit (o.centers j - o.centers o.index))) := by
  have hu := unit_norm hv
  have ht := toward_norm hg hj
  have hp := leads_pointing hg ht h1
  rw [towards_eq mean hg hs hj node velocity _ itMax (Or.inr ⟨hv, rfl⟩),
    if_neg (fun hh => ((pointing_iff hg hu j).mp hh) h)]
  by_cases hc : isclose ⟪toward o j, unit velocity⟫ (-1)
  · rw [if_pos hc, if_pos hp]
    exact ⟨_, rfl, h1, ht, fun hh => absurd hc hh⟩
  · rw [if_neg hc, if_pos hp, hm _ _ hu ht (not_opposite_of_not_close ht hu hc)]
    have hb := bisect_leads hm hg hj itMax (unit (unit velocity + toward o j)) (toward o j) (unit_norm h3) ht h2 h1
    rw [hb]
    exact ⟨_, rfl, h2, unit_norm h3, fun _ => rfl⟩

/-- **C111** Data that rests on average, or moves away from the next centre: the result is the direction to the
next centre, if it leads to the wall, and `NotImplementedError` otherwise. -/
theorem C111_opposite (mean : Vec d → Vec d → Vec d) (o : Obs n d)
    (hg : GoodClusters o.centers o.radius o.index) (j : Fin n) (hs : o.successor = [j])
    (hj : j ≠ o.index) (velocity : Vec d) (itMax : ℕ)
    (h : velocity = 0 ∨ (velocity ≠ 0 ∧ unit velocity = unit (o.centers o.index - o.centers j)))
    (h0 : Misses o.centers o.radius o.index j (unit (o.centers o.index - o.centers j))) :
    (LeadsTo o.centers o.radius o.index j (unit (o.centers j - o.centers o.index)) →
      o.towardsParent mean (unit (o.centers o.index - o.centers j)) velocity itMax
        = .ok (unit (o.centers j - o.centers o.index)))
    ∧ (Misses o.centers o.radius o.index j (unit (o.centers j - o.centers o.index)) →
      o.towardsParent mean (unit (o.centers o.index - o.centers j)) velocity itMax = .error .notImplemented) := by
  have ht := toward_norm hg hj
  have hback : unit (o.centers o.index - o.centers j) = -toward o j := (neg_unit _ _).symm
  have hbn : ‖unit (o.centers o.index - o.centers j)‖ = 1 := by rw [hback, norm_neg, ht]
  have hc : isclose ⟪toward o j, unit (o.centers o.index - o.centers j)⟫ (-1) := by
    rw [hback, inner_neg_right, real_inner_self_eq_norm_sq, ht]
    unfold isclose
    norm_num
  rw [towards_eq mean hg hs hj _ velocity (unit (o.centers o.index - o.centers j)) itMax
    (by rcases h with h | ⟨h, h'⟩
        · exact Or.inl ⟨h, rfl⟩
        · exact Or.inr ⟨h, h'.symm⟩),
    if_neg (fun hh => ((pointing_iff hg hbn j).mp hh) h0), if_pos hc]
  exact ⟨fun h1 => if_pos (leads_pointing hg ht h1),
    fun h1 => if_neg (fun hh => ((pointing_iff hg ht j).mp hh) h1)⟩

/-- **C111 (violated)** The direction of the data is returned although it misses the wall, if the direction to
the next centre and the one half-way miss it too (another cluster is in between). -/
theorem C111_gives_up (mean : Vec d → Vec d → Vec d) (hm : Bisects mean) (o : Obs n d)
    (hg : GoodClusters o.centers o.radius o.index) (j : Fin n) (hs : o.successor = [j])
    (hj : j ≠ o.index) (node velocity : Vec d) (hv : velocity ≠ 0) (itMax : ℕ)
    (h : Misses o.centers o.radius o.index j (unit velocity))
    (h1 : Misses o.centers o.radius o.index j (unit (o.centers j - o.centers o.index)))
    (h2 : Misses o.centers o.radius o.index j
      (unit (unit velocity + unit (o.centers j - o.centers o.index))))
    (h3 : ¬ isclose ⟪unit (o.centers j - o.centers o.index), unit velocity⟫ (-1)) :
    o.towardsParent mean node velocity itMax = .ok (unit velocity) := by
  have hu := unit_norm hv
  have ht := toward_norm hg hj
  have hop := not_opposite_of_not_close ht hu h3
  have hne : unit velocity + toward o j ≠ 0 := by
    intro h0
    exact hop ⟨1, one_pos, by rw [neg_one_smul]; exact (neg_eq_of_add_eq_zero_right h0).symm⟩
  rw [towards_eq mean hg hs hj node velocity _ itMax (Or.inr ⟨hv, rfl⟩),
    if_neg (fun hh => ((pointing_iff hg hu j).mp hh) h), if_neg (c := isclose ⟪toward o j, unit velocity⟫ (-1)) h3,
    if_neg (fun hh => ((pointing_iff hg ht j).mp hh) h1), hm _ _ hu ht hop,
    if_pos (fun hh => ((pointing_iff hg (unit_norm hne) j).mp hh) h2)]

/-! ### A region with a single neighbour -/

omit [NeZero d] in
lemma dist_sq {o : Obs n d} {u : Vec d} (hu : ‖u‖ = 1) {t : ℝ} (ht : 0 ≤ t) {j : Fin n}
    (hj : 0 < ‖o.centers j - o.center‖) : ‖o.center + t • u - o.centers j‖ ^ 2
      = t ^ 2 - 2 * (t * (slope o u j * ‖o.centers j - o.center‖)) + ‖o.centers j - o.center‖ ^ 2 := by
  have h3 : o.center + t • u - o.centers j = t • u - (o.centers j - o.center) := by abel
  rw [h3, norm_sub_sq_real, norm_smul, hu, mul_one, Real.norm_of_nonneg ht, real_inner_smul_left]
  have h4 : slope o u j * ‖o.centers j - o.center‖ = ⟪u, o.centers j - o.center⟫ := by
    unfold slope
    rw [real_inner_smul_left, real_inner_comm]
    field_simp
  rw [h4]

/-- With a single neighbour the check is monotone in the slope. -/
lemma lone_mono {o : Obs n d} (hg : GoodClusters o.centers o.radius o.index) {j : Fin n} (hj : j ≠ o.index)
    (hlone : ∀ m, m ≠ o.index → m ≠ j → 2 * o.radius ≤ ‖o.centers o.index - o.centers m‖) {u v : Vec d}
    (hu : ‖u‖ = 1) (hv : ‖v‖ = 1) (hle : slope o u j ≤ slope o v j) (hp : o.pointing u j) :
    o.pointing v j := by
  have hD : 0 < ‖o.centers j - o.center‖ := (hg.separated j hj).1
  have hrel : ∀ m, o.Relevant m → m = j := by
    intro m hm
    by_contra hmj
    exact absurd hm.2 (not_lt.mpr (hlone m hm.1 hmj))
  obtain ⟨s, rs, es⟩ := ray_of_unit hg hu
  obtain ⟨t, rt, et⟩ := ray_of_unit hg hv
  by_cases hl : t * slope o v j = half o j
  · exact leads_pointing hg hv ((leadsTo_iff hg rt hj).mpr hl)
  have ht : t = o.radius := by
    rcases rt.attained with h | ⟨m, hm, -, h⟩
    · exact h
    · rw [hrel m hm] at h; exact absurd h hl
  have hlt : t * slope o v j < half o j := lt_of_le_of_ne (rt.le_wall j hj) hl
  have hR := hg.radius_pos
  have hst : s = t := by
    rw [ht]
    rcases rs.attained with h | ⟨m, hm, hpos, h⟩
    · exact h
    · rw [hrel m hm] at h hpos
      have h1 : s * slope o u j ≤ o.radius * slope o u j := mul_le_mul_of_nonneg_right rs.le_radius hpos.le
      have h2 : o.radius * slope o u j ≤ o.radius * slope o v j := mul_le_mul_of_nonneg_left hle hR.le
      rw [ht] at hlt
      linarith
  have hlt' : t * slope o u j < half o j :=
    lt_of_le_of_lt (mul_le_mul_of_nonneg_left hle rt.pos.le) hlt
  have c1 := (closer_iff (o := o) (j := j) hu rt.pos.le hD).2.mpr hlt'
  have c2 := (closer_iff (o := o) (j := j) hv rt.pos.le hD).2.mpr hlt
  have d1 := dist_sq (o := o) hu rt.pos.le hD
  have d2 := dist_sq (o := o) hv rt.pos.le hD
  have e1 : ‖o.center + t • u - o.center‖ = t := by
    rw [add_sub_cancel_left, norm_smul, hu, mul_one, Real.norm_of_nonneg rt.pos.le]
  have e2 : ‖o.center + t • v - o.center‖ = t := by
    rw [add_sub_cancel_left, norm_smul, hv, mul_one, Real.norm_of_nonneg rt.pos.le]
  have hX : ‖o.center + t • v - o.centers j‖ ≤ ‖o.center + t • u - o.centers j‖ := by
    refine le_of_sq_le_sq ?_ (norm_nonneg _)
    rw [d1, d2]
    have := mul_le_mul_of_nonneg_left (mul_le_mul_of_nonneg_right hle hD.le) rt.pos.le
    linarith
  unfold Obs.pointing at hp ⊢
  simp only [es, et, hst] at hp ⊢
  unfold isclose at hp ⊢
  rw [e1] at c1 hp
  rw [e2] at c2 ⊢
  rw [abs_norm, abs_sub_comm, abs_of_pos (by linarith)] at hp ⊢
  linarith

/-- A direction on the great circle from `e` in direction `f`. -/
noncomputable def arc (e f : Vec d) (θ : ℝ) : Vec d := Real.cos θ • e + Real.sin θ • f

omit [NeZero d] in
lemma arc_norm {e f : Vec d} (he : ‖e‖ = 1) (hf : ‖f‖ = 1) (hef : ⟪e, f⟫ = 0) (θ : ℝ) : ‖arc e f θ‖ = 1 := by
  have h : ‖arc e f θ‖ ^ 2 = 1 := by
    unfold arc
    rw [norm_add_sq_real, norm_smul, norm_smul, he, hf, real_inner_smul_left, real_inner_smul_right, hef]
    have := Real.cos_sq_add_sin_sq θ
    simp
  nlinarith [norm_nonneg (arc e f θ)]

omit [NeZero d] in
lemma arc_inner {e f : Vec d} (he : ‖e‖ = 1) (hef : ⟪e, f⟫ = 0) (θ : ℝ) : ⟪e, arc e f θ⟫ = Real.cos θ := by
  unfold arc
  rw [inner_add_right, real_inner_smul_right, real_inner_smul_right, hef, real_inner_self_eq_norm_sq, he]
  ring

omit [NeZero d] in
lemma arc_add (e f : Vec d) (a b : ℝ) :
    arc e f a + arc e f b = (2 * Real.cos ((a - b) / 2)) • arc e f ((a + b) / 2) := by
  unfold arc
  have h1 : Real.cos a + Real.cos b = 2 * Real.cos ((a - b) / 2) * Real.cos ((a + b) / 2) := by
    rw [Real.cos_add_cos]; ring
  have h2 : Real.sin a + Real.sin b = 2 * Real.cos ((a - b) / 2) * Real.sin ((a + b) / 2) := by
    rw [Real.sin_add_sin]; ring
  rw [smul_add, smul_smul, smul_smul, ← h1, ← h2, add_smul, add_smul]
  abel

omit [NeZero d] in
/-- The direction half-way between two directions of a great circle. -/
lemma arc_mean {mean : Vec d → Vec d → Vec d} (hm : Bisects mean) {e f : Vec d} (he : ‖e‖ = 1) (hf : ‖f‖ = 1)
    (hef : ⟪e, f⟫ = 0) {a b : ℝ} (hab : |a - b| < Real.pi) :
    mean (arc e f a) (arc e f b) = arc e f ((a + b) / 2) ∧ arc e f a + arc e f b ≠ 0
      ∧ unit (arc e f a + arc e f b) = arc e f ((a + b) / 2) := by
  have hc : 0 < 2 * Real.cos ((a - b) / 2) := by
    rw [abs_lt] at hab
    have := Real.cos_pos_of_mem_Ioo (x := (a - b) / 2) ⟨by linarith, by linarith⟩
    linarith
  have hn := arc_norm he hf hef ((a + b) / 2)
  have hne : arc e f ((a + b) / 2) ≠ 0 := by
    intro h; rw [h, norm_zero] at hn; norm_num at hn
  have h2 : arc e f a + arc e f b ≠ 0 := by
    rw [arc_add]; exact smul_ne_zero hc.ne' hne
  have h3 : unit (arc e f a + arc e f b) = arc e f ((a + b) / 2) := by
    rw [arc_add]
    unfold unit
    rw [norm_smul, hn, Real.norm_of_nonneg hc.le, smul_smul, mul_one, one_div_mul_cancel hc.ne', one_smul]
  refine ⟨?_, h2, h3⟩
  rw [hm _ _ (arc_norm he hf hef a) (arc_norm he hf hef b), h3]
  rintro ⟨c, hcc, h⟩
  apply h2
  have hc1 : c = 1 := by
    have := congrArg norm h
    rw [arc_norm he hf hef, norm_smul, arc_norm he hf hef, mul_one, norm_neg, Real.norm_of_nonneg hcc.le] at this
    exact this.symm
  rw [h, hc1, neg_one_smul, add_neg_cancel]

omit [NeZero d] in
lemma arc_exists {e u : Vec d} (he : ‖e‖ = 1) (hu : ‖u‖ = 1) (hne : u ≠ e) (hop : ¬ Opposite e u) :
    ∃ f θ, ‖f‖ = 1 ∧ ⟪e, f⟫ = 0 ∧ 0 < θ ∧ θ < Real.pi ∧ u = arc e f θ := by
  have h := star_exp_log he hu hop
  obtain ⟨l1, l2⟩ := star_log_facts he u
  have hw : sphereLog e u ≠ 0 := by
    intro h0
    rw [h0, star_exp_zero] at h
    exact hne h.symm
  refine ⟨unit (sphereLog e u), ‖sphereLog e u‖, unit_norm hw, ?_, norm_pos_iff.mpr hw, ?_, h.symm⟩
  · unfold unit
    rw [real_inner_smul_right, l1, mul_zero]
  · refine lt_of_le_of_lt l2 (lt_of_le_of_ne (InnerProductGeometry.angle_le_pi _ _) ?_)
    intro hpi
    obtain ⟨-, r, hr, hru⟩ := InnerProductGeometry.angle_eq_pi_iff.mp hpi
    exact hop ⟨-r, by linarith, by rw [neg_neg]; exact hru⟩

/-- The loop on a great circle: a direction that misses the wall is replaced by one that misses it. -/
lemma bisect_misses {mean : Vec d → Vec d → Vec d} (hm : Bisects mean) {o : Obs n d}
    (hg : GoodClusters o.centers o.radius o.index) {j : Fin n} (hj : j ≠ o.index)
    (hlone : ∀ m, m ≠ o.index → m ≠ j → 2 * o.radius ≤ ‖o.centers o.index - o.centers m‖) {f : Vec d}
    (hf : ‖f‖ = 1) (hef : ⟪toward o j, f⟫ = 0) :
    ∀ (k : ℕ) (a b : ℝ), 0 ≤ b → b ≤ a → a < Real.pi → ¬ o.pointing (arc (toward o j) f a) j →
      ∃ c, bisect mean o j k (arc (toward o j) f a) (arc (toward o j) f b) = arc (toward o j) f c
        ∧ ¬ o.pointing (arc (toward o j) f c) j := by
  have he := toward_norm hg hj
  have hslope : ∀ θ, slope o (arc (toward o j) f θ) j = Real.cos θ := by
    intro θ
    exact arc_inner he hef θ
  intro k
  induction k with
  | zero => intro a b _ _ _ h; exact ⟨a, rfl, h⟩
  | succ k ih =>
    intro a b hb hab ha h
    obtain ⟨h1, -, -⟩ := arc_mean hm he hf hef (a := a) (b := b) (by
      rw [abs_of_nonneg (by linarith)]; linarith)
    unfold bisect
    rw [h1]
    by_cases hp : o.pointing (arc (toward o j) f b) j
    · rw [if_pos hp]
      exact ih a _ (by linarith) (by linarith) ha h
    · rw [if_neg hp]
      refine ih _ b hb (by linarith) (by linarith) ?_
      intro hpm
      refine hp (lone_mono hg hj hlone (arc_norm he hf hef _) (arc_norm he hf hef _) ?_ hpm)
      rw [hslope, hslope]
      exact Real.cos_le_cos_of_nonneg_of_le_pi hb (by linarith) (by linarith)

/-- **C111 (violated)** Because the bisection moves the wrong end, the result does not lead to the next region:
in a region with a single neighbour the result misses the wall whenever the direction of the data and the one
half-way to the next centre miss it, although the direction to the next centre leads there. -/
theorem C111_misses (mean : Vec d → Vec d → Vec d) (hm : Bisects mean) (o : Obs n d)
    (hg : GoodClusters o.centers o.radius o.index) (j : Fin n) (hs : o.successor = [j])
    (hj : j ≠ o.index) (hwall : ‖o.centers o.index - o.centers j‖ < 2 * o.radius)
    (hlone : ∀ m, m ≠ o.index → m ≠ j → 2 * o.radius ≤ ‖o.centers o.index - o.centers m‖)
    (node velocity : Vec d) (hv : velocity ≠ 0) (itMax : ℕ)
    (h : Misses o.centers o.radius o.index j (unit velocity))
    (h2 : Misses o.centers o.radius o.index j
      (unit (unit velocity + unit (o.centers j - o.centers o.index))))
    (h3 : ¬ isclose ⟪unit (o.centers j - o.centers o.index), unit velocity⟫ (-1)) :
    LeadsTo o.centers o.radius o.index j (unit (o.centers j - o.centers o.index))
    ∧ ∃ v, o.towardsParent mean node velocity itMax = .ok v ∧ Misses o.centers o.radius o.index j v := by
  have hu := unit_norm hv
  have ht := toward_norm hg hj
  have hl : LeadsTo o.centers o.radius o.index j (toward o j) := by
    obtain ⟨s, rs, -⟩ := ray_of_unit hg ht
    rw [leadsTo_iff hg rs hj]
    have h1 : slope o (toward o j) j = 1 := by
      change ⟪toward o j, toward o j⟫ = 1
      rw [real_inner_self_eq_norm_sq, ht]; norm_num
    have hhalf : half o j < o.radius := by
      unfold half
      rw [norm_sub_rev] at hwall
      change ‖o.centers j - o.centers o.index‖ / 2 < _
      linarith
    have hle := rs.le_wall j hj
    rw [h1, mul_one] at hle ⊢
    rcases rs.attained with h | ⟨m, hmr, -, h⟩
    · rw [h] at hle; linarith
    · have : m = j := by
        by_contra hmj
        exact absurd hmr.2 (not_lt.mpr (hlone m hmr.1 hmj))
      rw [this, h1, mul_one] at h
      exact h
  refine ⟨hl, ?_⟩
  have hp := leads_pointing hg ht hl
  have hop := not_opposite_of_not_close ht hu h3
  have hnp : ¬ o.pointing (unit velocity) j := fun hh => ((pointing_iff hg hu j).mp hh) h
  have hop' : ¬ Opposite (toward o j) (unit velocity) := by
    rintro ⟨c, hc, hcv⟩
    refine hop ⟨c⁻¹, inv_pos.mpr hc, ?_⟩
    change toward o j = _
    rw [hcv, smul_smul, neg_mul_neg, inv_mul_cancel₀ hc.ne', one_smul]
  obtain ⟨f, θ, hf, hef, hθ0, hθ, hue⟩ := arc_exists ht hu (fun he => hnp (by rw [he]; exact hp)) hop'
  have h0 : arc (toward o j) f 0 = toward o j := by unfold arc; simp
  obtain ⟨m1, m2, m3⟩ := arc_mean hm ht hf hef (a := θ) (b := 0) (by rw [sub_zero, abs_of_pos hθ0]; exact hθ)
  rw [h0, ← hue, add_zero] at m1 m3
  have hn := arc_norm ht hf hef (θ / 2)
  have hmp : ¬ o.pointing (arc (toward o j) f (θ / 2)) j := by
    intro hh
    rw [pointing_iff hg hn, ← m3] at hh
    exact hh h2
  rw [towards_eq mean hg hs hj node velocity _ itMax (Or.inr ⟨hv, rfl⟩), if_neg hnp,
    if_neg (c := isclose ⟪toward o j, unit velocity⟫ (-1)) h3, if_pos hp, m1]
  obtain ⟨c, hc1, hc2⟩ := bisect_misses hm hg hj hlone hf hef itMax (θ / 2) 0 le_rfl (by linarith) (by linarith) hmp
  rw [h0] at hc1
  refine ⟨_, rfl, ?_⟩
  rw [hc1]
  by_contra hh
  exact hc2 ((pointing_iff hg (arc_norm ht hf hef c) j).mpr hh)

/-- **C111** The local dynamics of a cluster: the cluster of the attractor gets the dynamics around the
attractor; every other one a constant flow of unit speed, in the mean direction of its own data if that leads to
the next cluster.  Violated for a cluster without data: the direction is not a number. -/
theorem C111_fit (mean : Vec d → Vec d → Vec d) (l : Learner n d) (root : LocalFlow d) (flow : Vec d → LocalFlow d)
    (node : Fin n → Vec d) (data : List (Fin n × Vec d)) (i : Fin n) :
    (l.graph.level i = some 0 → l.fitDynamics mean root flow node data i = .ok root)
    ∧ (∀ k, l.graph.level i = some (k + 1) → (∀ e ∈ data, e.1 ≠ i) →
      l.fitDynamics mean root flow node data i = .error .nan)
    ∧ (∀ k j, l.graph.level i = some (k + 1) → GoodClusters l.centers l.radius i →
      l.graph.successors i = [j] → j ≠ i → ∀ (v : Vec d) (own : List (Vec d)),
      own = (data.filter (fun e => e.1 = i)).map Prod.snd → own ≠ [] →
      v = (1 / (own.length : ℝ)) • own.sum →
      (v ≠ 0 → (LeadsTo l.centers l.radius i j (unit v) ∨ ¬ Misses l.centers l.radius i j (unit v)) →
        l.fitDynamics mean root flow node data i = .ok (flow (unit v)))
      ∧ ((∀ u v, ‖u‖ = 1 → ‖v‖ = 1 → ‖mean u v‖ = 1) → ‖node i‖ = 1 →
        (∃ u, l.fitDynamics mean root flow node data i = .ok (flow u) ∧ ‖u‖ = 1)
          ∨ l.fitDynamics mean root flow node data i = .error .notImplemented)) := by
  refine ⟨?_, ?_, ?_⟩
  · intro h
    unfold Learner.fitDynamics
    rw [h]
  · intro k h hd
    unfold Learner.fitDynamics
    rw [h]
    have : data.filter (fun e => e.1 = i) = [] := by
      rw [List.filter_eq_nil_iff]
      intro e he
      simpa using hd e he
    unfold meanVelocity
    rw [this]
    rfl
  · intro k j h hg hs hj v own ho hne hv
    have hm : meanVelocity data i = .ok v := by
      unfold meanVelocity
      simp only [← ho]
      rw [if_neg hne, hv]
    have hf : ∀ r, (l.region i).towardsParent mean (node i) v = r →
        l.fitDynamics mean root flow node data i = r.bind (fun u => .ok (flow u)) := by
      intro r hr
      unfold Learner.fitDynamics
      rw [h]
      simp only [hm, bind, Except.bind, hr]
    constructor
    · intro hv0 hl
      rw [hf _ (C111_kept mean (l.region i) hg j hs hj (node i) v hv0 10 hl)]
      rfl
    · intro hmean hn
      rcases C111_unit mean hmean (l.region i) hg j hs hj (node i) v hn 10 with ⟨u, h1, h2⟩ | h1
      · exact Or.inl ⟨u, by rw [hf _ h1]; rfl, h2⟩
      · exact Or.inr (by rw [hf _ h1]; rfl)

/-- **C111 (violated)** For a cluster without or with several next clusters the function stops in the debugger. -/
theorem C111_breakpoint (mean : Vec d → Vec d → Vec d) (o : Obs n d) (hs : o.successor.length ≠ 1)
    (node velocity : Vec d) (itMax : ℕ) :
    o.towardsParent mean node velocity itMax = .error .breakpoint := by
  unfold Obs.towardsParent
  match h : o.successor with
  | [] => rfl
  | [j] => rw [h] at hs; exact absurd rfl hs
  | _ :: _ :: _ => rfl

end Verif.KMeans
