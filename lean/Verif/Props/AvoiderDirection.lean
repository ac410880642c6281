import Verif.Lemmas.AvoiderMean

/-!
# C108: the avoidance direction is the weighted mean of the tangents
-/

open scoped RealInnerProductSpace

namespace Verif
open Spec

variable {d k : ℕ} [Fact (2 ≤ d)]
set_option linter.unusedSectionVars false

/-- C108 (partial): for obstacles with one component each, with the position outside of them or on
their surface, the direction of the avoidance is the weighted mean of the tangents of the obstacles
in the tangent space of the direction `v`: the exponential of the sum of the logarithms, each
multiplied with the weight of the obstacle, limited as in C28.

Missing for the full property: obstacles with several components (their branches have more levels),
positions inside of obstacles (the radius of the projection is interpolated, C37). -/
theorem C108_mean_partial (ext : Ext d k) (a : Avoider d) (x v : Vec d) (pr : Prepared d)
    (hpow : 0 ≤ a.power) (has : ArgsortSpec ext.argsort)
    (hrad : a.convergenceRadius ≤ Real.pi * 0.5) (hs : SingleOutside x a.trees)
    (hgood : GoodTangents ext a.convergenceRadius x v a.trees)
    (h : prepareAvoidance ext a x v = .ok pr) :
    ∃ (ws : List ℝ) (τs : List (Vec d)), ws.length = a.trees.length ∧ τs.length = a.trees.length
      ∧ (∀ (i : ℕ) (t : ObstacleTree d) (o : Obstacle d) (w : ℝ) (τ : Vec d),
          a.trees[i]? = some t → t.components = [o] → ws[i]? = some w → τs[i]? = some τ →
          0 ≤ w ∧ getRotationWeight ext.angleOf (o.normal x) (o.reference x) v (o.gamma x)
            (power := a.power) = .ok w
          ∧ (0 < w → TangentOf ext a.convergenceRadius o x v τ) ∧ (w ≤ 0 → τ = unit v))
      ∧ avoidanceDirection ext pr = .ok (sphereExp (unit v)
          (List.zipWith (fun w τ => w • sphereLog (unit v) τ) (getLimitedWeightsToMaxSum ws).1 τs).sum) := by
  obtain ⟨ws, τs, l1, l2, hd, hm⟩ := single_mean ext a x v pr hpow has hrad hs
    (fun t ht o ho τ hτ => (hgood t ht o ho τ hτ).1) h
  refine ⟨ws, τs, l1, l2, hd, ?_⟩
  have hv : v ≠ 0 := (single_prepare hpow hs hrad h).choose_spec.2.2.2.2.1
  rw [hm]
  congr 3
  apply List.ext_getElem (by simp)
  intro i hi hi'
  rw [List.length_zipWith] at hi
  simp only [List.getElem_zipWith]
  congr 1
  have hti : i < a.trees.length := by omega
  obtain ⟨_, o, ho, _⟩ := hs a.trees[i] (List.getElem_mem hti)
  obtain ⟨h0, _, h1, h2⟩ := hd i a.trees[i] o ws[i] τs[i] (List.getElem?_eq_getElem hti) ho
    (List.getElem?_eq_getElem (by omega)) (List.getElem?_eq_getElem (by omega))
  by_cases hw : 0 < ws[i]
  · have hT := h1 hw
    have hg := hgood _ (List.getElem_mem hti) o ho _ hT
    obtain ⟨_, τ', _, _, _, e⟩ := hT
    rw [e] at hg ⊢
    exact (codeLog_unit (unit_norm hv) hg.1).2.2 hg.2
  · rw [h2 (not_lt.mp hw), codeLog_self (unit_norm hv), star_log_self]

/-- C108 (partial), including the tangents within the tolerance of `np.allclose` of the direction `v`:
the direction is the exponential of the weighted sum of rotations which have at most the angle of the
tangents; they lead to the tangents exactly unless these are within the tolerance.

Missing for the full property: as for `C108_mean_partial`, and the axis of the rotation within the
tolerance. -/
theorem C108_tolerance_partial (ext : Ext d k) (a : Avoider d) (x v : Vec d) (pr : Prepared d)
    (hpow : 0 ≤ a.power) (has : ArgsortSpec ext.argsort)
    (hrad : a.convergenceRadius ≤ Real.pi * 0.5) (hs : SingleOutside x a.trees)
    (hgood : ∀ t ∈ a.trees, ∀ o, t.components = [o] → ∀ τ, TangentOf ext a.convergenceRadius o x v τ →
      ¬ Opposite (unit v) τ)
    (h : prepareAvoidance ext a x v = .ok pr) :
    ∃ (ws : List ℝ) (τs ls : List (Vec d)), ws.length = a.trees.length ∧ τs.length = a.trees.length
      ∧ ls.length = a.trees.length
      ∧ (∀ (i : ℕ) (t : ObstacleTree d) (o : Obstacle d) (w : ℝ) (τ l : Vec d),
          a.trees[i]? = some t → t.components = [o] → ws[i]? = some w → τs[i]? = some τ → ls[i]? = some l →
          0 ≤ w ∧ getRotationWeight ext.angleOf (o.normal x) (o.reference x) v (o.gamma x)
            (power := a.power) = .ok w
          ∧ (0 < w → TangentOf ext a.convergenceRadius o x v τ) ∧ (w ≤ 0 → τ = unit v)
          ∧ ⟪unit v, l⟫ = 0 ∧ ‖l‖ ≤ InnerProductGeometry.angle (unit v) τ
          ∧ (unit v = τ ∨ ¬ allclose (unit v) τ → l = sphereLog (unit v) τ))
      ∧ avoidanceDirection ext pr = .ok (sphereExp (unit v)
          (List.zipWith (fun w l => w • l) (getLimitedWeightsToMaxSum ws).1 ls).sum) := by
  obtain ⟨ws, τs, l1, l2, hd, hm⟩ := single_mean ext a x v pr hpow has hrad hs hgood h
  have hv : v ≠ 0 := (single_prepare hpow hs hrad h).choose_spec.2.2.2.2.1
  refine ⟨ws, τs, τs.map (codeLog (unit v)), l1, l2, by simpa using l2, ?_, ?_⟩
  · intro i t o w τ l ht ho hw hτ hl
    rw [List.getElem?_map, hτ] at hl
    cases hl
    obtain ⟨h0, h1, h2, h3⟩ := hd i t o w τ ht ho hw hτ
    refine ⟨h0, h1, h2, h3, ?_⟩
    by_cases hw : 0 < w
    · have hT := h2 hw
      have hg := hgood t (List.mem_of_getElem? ht) o ho _ hT
      obtain ⟨_, τ', _, _, _, e⟩ := hT
      rw [e] at hg ⊢
      exact codeLog_unit (unit_norm hv) hg
    · rw [h3 (not_lt.mp hw), codeLog_self (unit_norm hv), star_log_self]
      simp [InnerProductGeometry.angle_nonneg]
  · rw [hm, List.zipWith_map_right]

/-- C108: the direction is defined if the external functions find the tangents (and the directions
are distinguishable), whatever the number of obstacles. -/
theorem C108_defined (ext : Ext d k) (a : Avoider d) (x v : Vec d) (hpow : 0 ≤ a.power)
    (has : ArgsortSpec ext.argsort) (hv : ‖v‖ = 1) (hrad : a.convergenceRadius ≤ Real.pi * 0.5)
    (hs : SingleOutside x a.trees)
    (hT : ∀ t ∈ a.trees, ∀ o, t.components = [o] → HasTangent ext a.convergenceRadius o x v)
    (hgood : GoodTangents ext a.convergenceRadius x v a.trees) :
    ∃ pr w, prepareAvoidance ext a x v = .ok pr ∧ avoidanceDirection ext pr = .ok w := by
  obtain ⟨pr, hpr⟩ := total_prepare hpow hrad hv hs hT
  obtain ⟨_, _, _, _, _, h⟩ := C108_mean_partial ext a x v pr hpow has hrad hs hgood hpr
  exact ⟨pr, _, hpr, h⟩

/-- C108: on the surface of exactly one obstacle the direction is the tangent of this obstacle,
whatever the other obstacles. -/
theorem C108_contact (ext : Ext d k) (a : Avoider d) (x v w : Vec d) (pr : Prepared d)
    (hpow : 0 ≤ a.power) (has : ArgsortSpec ext.argsort)
    (hrad : a.convergenceRadius ≤ Real.pi * 0.5) (hs : SingleOutside x a.trees)
    (hgood : GoodTangents ext a.convergenceRadius x v a.trees)
    (hnz : ∀ t ∈ a.trees, ∀ o, t.components = [o] → ∀ τ, TangentOf ext a.convergenceRadius o x v τ → τ ≠ 0)
    (h : prepareAvoidance ext a x v = .ok pr) (hw : avoidanceDirection ext pr = .ok w)
    (i : ℕ) (t : ObstacleTree d) (o : Obstacle d) (ht : a.trees[i]? = some t)
    (ho : t.components = [o]) (hcontact : o.gamma x = 1)
    (honly : ∀ (j : ℕ) t' o', j ≠ i → a.trees[j]? = some t' → t'.components = [o'] → 1 < o'.gamma x) :
    TangentOf ext a.convergenceRadius o x v w := by
  classical
  obtain ⟨ws, τs, l1, l2, hd, hm⟩ := C108_mean_partial ext a x v pr hpow has hrad hs hgood h
  have hv : v ≠ 0 := (single_prepare hpow hs hrad h).choose_spec.2.2.2.2.1
  rw [hw] at hm
  cases hm
  have hti := (List.getElem?_eq_some_iff.mp ht).choose
  have htm : t ∈ a.trees := List.mem_of_getElem? ht
  have hwi : ws[i]? = some ws[i] := List.getElem?_eq_getElem (by omega)
  have hτi : τs[i]? = some τs[i] := List.getElem?_eq_getElem (by omega)
  obtain ⟨_, d2, d3, _⟩ := hd i t o _ _ ht ho hwi hτi
  have hone : ws[i] = 1 := by
    obtain ⟨w', e1, _, _, e2, _⟩ := C32_range_partial ext.angleOf (o.normal x) (o.reference x) v
      (o.gamma x) (Real.pi * 0.5) a.power (Real.pi * 0.5) hpow
    rw [d2] at e1
    cases e1
    exact e2 hcontact.le
  have hnn : Nonneg ws := by
    intro y hy
    obtain ⟨j, hj, rfl⟩ := List.getElem_of_mem hy
    have hj' : j < a.trees.length := by omega
    obtain ⟨_, o', ho', _⟩ := hs a.trees[j] (List.getElem_mem hj')
    exact (hd j a.trees[j] o' ws[j] τs[j] (List.getElem?_eq_getElem hj') ho'
      (List.getElem?_eq_getElem hj) (List.getElem?_eq_getElem (by omega))).1
  have hoth : ∀ j y, j ≠ i → ws[j]? = some y → y < 1 := by
    intro j y hji hy
    obtain ⟨hj, rfl⟩ := List.getElem?_eq_some_iff.mp hy
    have hj' : j < a.trees.length := by omega
    obtain ⟨_, o', ho', _⟩ := hs a.trees[j] (List.getElem_mem hj')
    have e := (hd j a.trees[j] o' ws[j] τs[j] (List.getElem?_eq_getElem hj') ho'
      (List.getElem?_eq_getElem hj) (List.getElem?_eq_getElem (by omega))).2.1
    have hg := honly j a.trees[j] o' hji (List.getElem?_eq_getElem hj') ho'
    obtain ⟨w', e1, _, _, _, e2⟩ := C32_range_partial ext.angleOf (o'.normal x) (o'.reference x) v
      (o'.gamma x) (Real.pi * 0.5) a.power (Real.pi * 0.5) hpow
    rw [e] at e1
    cases e1
    exact lt_of_le_of_lt (e2 hg) (by rw [div_lt_one (by linarith)]; exact hg)
  have hmem : ws[i] ∈ ws := List.getElem_mem _
  have hlim : (getLimitedWeightsToMaxSum ws).1 = indicator (· ≥ 1) ws := by
    unfold getLimitedWeightsToMaxSum
    rw [if_neg (by have := le_sum_of_mem hnn hmem; rw [hone] at this; linarith),
      if_pos ⟨_, hmem, by rw [hone]⟩]
  rw [hlim, zipWith_one_hot (fun τ => sphereLog (unit v) τ) _ τs i τs[i] ?_ hτi ?_]
  · have hT := d3 (by rw [hone]; norm_num)
    have hτn : ‖τs[i]‖ = 1 := by
      have h0 := hnz t htm o ho _ hT
      obtain ⟨n, τ', _, _, _, e⟩ := hT
      rw [e] at h0 ⊢
      refine unit_norm ?_
      rintro rfl
      exact h0 (by simp [unit])
    rw [star_exp_log (unit_norm hv) hτn (hgood t htm o ho _ hT).1]
    exact hT
  · unfold indicator
    rw [List.getElem?_map, hwi, hone]
    simp
  · intro j y hji hy
    unfold indicator at hy
    rw [List.getElem?_map, Option.map_eq_some_iff] at hy
    obtain ⟨z, hz, rfl⟩ := hy
    rw [if_neg (not_le.mpr (hoth j z hji hz))]

/-- C108: where no obstacle has an influence the direction is not changed. -/
theorem C108_unchanged (ext : Ext d k) (a : Avoider d) (x v w : Vec d) (pr : Prepared d)
    (hpow : 0 ≤ a.power) (has : ArgsortSpec ext.argsort)
    (hrad : a.convergenceRadius ≤ Real.pi * 0.5) (hs : SingleOutside x a.trees)
    (hgood : GoodTangents ext a.convergenceRadius x v a.trees)
    (h : prepareAvoidance ext a x v = .ok pr) (hw : avoidanceDirection ext pr = .ok w)
    (hfar : ∀ t ∈ a.trees, ∀ o, t.components = [o] →
      getRotationWeight ext.angleOf (o.normal x) (o.reference x) v (o.gamma x) (power := a.power) = .ok 0) :
    w = unit v := by
  obtain ⟨ws, τs, l1, l2, hd, hm⟩ := C108_mean_partial ext a x v pr hpow has hrad hs hgood h
  rw [hw] at hm
  cases hm
  have hz : ∀ y ∈ List.zipWith (fun w τ => w • sphereLog (unit v) τ)
      (getLimitedWeightsToMaxSum ws).1 τs, y = 0 := by
    intro y hy
    obtain ⟨j, hj, rfl⟩ := List.getElem_of_mem hy
    rw [List.length_zipWith] at hj
    rw [List.getElem_zipWith]
    have hj' : j < a.trees.length := by omega
    obtain ⟨_, o', ho', _⟩ := hs a.trees[j] (List.getElem_mem hj')
    have e := hd j a.trees[j] o' ws[j] τs[j] (List.getElem?_eq_getElem hj') ho'
      (List.getElem?_eq_getElem (by omega)) (List.getElem?_eq_getElem (by omega))
    have h0 : ws[j] = 0 := by
      have := e.2.1
      rw [hfar _ (List.getElem_mem hj') o' ho'] at this
      injection this with this
      exact this.symm
    rw [e.2.2.2 h0.le, star_log_self, smul_zero]
  rw [List.sum_eq_zero hz, star_exp_zero]

/-- C108: the direction is turned by at most the weighted sum of the angles to the tangents: if no
tangent deviates by more than `α` from `v`, then the result deviates by at most `α` times the number
of obstacles in contact, or `α` if there are none. -/
theorem C108_turn (ext : Ext d k) (a : Avoider d) (x v w : Vec d) (pr : Prepared d) (α : ℝ)
    (hα : 0 ≤ α) (hpow : 0 ≤ a.power) (has : ArgsortSpec ext.argsort)
    (hrad : a.convergenceRadius ≤ Real.pi * 0.5) (hs : SingleOutside x a.trees)
    (hgood : GoodTangents ext a.convergenceRadius x v a.trees)
    (h : prepareAvoidance ext a x v = .ok pr) (hw : avoidanceDirection ext pr = .ok w)
    (hangle : ∀ t ∈ a.trees, ∀ o, t.components = [o] → ∀ τ,
      TangentOf ext a.convergenceRadius o x v τ → InnerProductGeometry.angle v τ ≤ α) :
    open Classical in
    InnerProductGeometry.angle v w
      ≤ α * max 1 ((a.trees.filter (fun t => InContact x t)).length : ℝ) := by
  classical
  obtain ⟨ws, τs, l1, l2, hd, hm⟩ := C108_mean_partial ext a x v pr hpow has hrad hs hgood h
  have hv : v ≠ 0 := (single_prepare hpow hs hrad h).choose_spec.2.2.2.2.1
  have hvn := norm_pos_iff.mpr hv
  rw [hw] at hm
  cases hm
  have hun : ∀ y, InnerProductGeometry.angle v y = InnerProductGeometry.angle (unit v) y := by
    intro y
    unfold unit
    rw [InnerProductGeometry.angle_smul_left_of_pos _ _ (by positivity)]
  have hnn : Nonneg ws := by
    intro y hy
    obtain ⟨j, hj, rfl⟩ := List.getElem_of_mem hy
    have hj' : j < a.trees.length := by omega
    obtain ⟨_, o', ho', _⟩ := hs a.trees[j] (List.getElem_mem hj')
    exact (hd j a.trees[j] o' ws[j] τs[j] (List.getElem?_eq_getElem hj') ho'
      (List.getElem?_eq_getElem hj) (List.getElem?_eq_getElem (by omega))).1
  rw [hun]
  refine (star_exp_angle (unit_norm hv) (zipWith_inner_zero _ _
    (fun τ => (star_log_facts (unit_norm hv) τ).1) _ _)).trans ?_
  refine (zipWith_norm_le (fun τ => sphereLog (unit v) τ) α hα _ τs
    (fun w hw => ((C28_in_unit ws hnn).2.1 w hw).1) ?_).trans ?_
  · intro τ hτ
    refine (star_log_facts (unit_norm hv) τ).2.trans ?_
    obtain ⟨j, hj, rfl⟩ := List.getElem_of_mem hτ
    have hj' : j < a.trees.length := by omega
    obtain ⟨_, o', ho', _⟩ := hs a.trees[j] (List.getElem_mem hj')
    have e := hd j a.trees[j] o' ws[j] τs[j] (List.getElem?_eq_getElem hj') ho'
      (List.getElem?_eq_getElem (by omega)) (List.getElem?_eq_getElem hj)
    by_cases h0 : 0 < ws[j]
    · rw [← hun]
      exact hangle _ (List.getElem_mem hj') o' ho' _ (e.2.2.1 h0)
    · rw [e.2.2.2 (not_lt.mp h0), InnerProductGeometry.angle_self (unit_ne_zero hv)]
      exact hα
  · refine mul_le_mul_of_nonneg_left ?_ hα
    have hcount : (ws.filter (fun w => w ≥ 1)).length = (a.trees.filter (fun t => InContact x t)).length := by
      refine filter_length_match (fun w : ℝ => w ≥ 1) (fun t => InContact x t) ws a.trees l1 ?_
      intro j y t hy ht
      obtain ⟨hj, rfl⟩ := List.getElem?_eq_some_iff.mp hy
      obtain ⟨_, o', ho', _⟩ := hs t (List.mem_of_getElem? ht)
      have e := (hd j t o' ws[j] τs[j] ht ho' hy (List.getElem?_eq_getElem (by omega))).2.1
      obtain ⟨w', e1, _, _, e2, e3⟩ := C32_range_partial ext.angleOf (o'.normal x) (o'.reference x) v
        (o'.gamma x) (Real.pi * 0.5) a.power (Real.pi * 0.5) hpow
      rw [e] at e1
      cases e1
      have hin : InContact x t ↔ o'.gamma x ≤ 1 := by unfold InContact; rw [ho']; simp
      rw [hin]
      constructor
      · intro hge
        by_contra hlt
        push Not at hlt
        have := e3 hlt
        have : 1 / o'.gamma x < 1 := by rw [div_lt_one (by linarith)]; exact hlt
        linarith
      · intro hle
        rw [e2 hle]
    by_cases h1 : 1 ≤ (ws.filter (fun w => w ≥ 1)).length
    · rw [(C28_sum_saturated ws hnn h1).1, hcount]
      exact le_max_right _ _
    · have h1' : (ws.filter (fun w => w ≥ 1)).length ≤ 1 := by omega
      rw [C28_sum_partial ws hnn h1']
      exact (C28_in_unit ws hnn).2.2.trans (le_max_left _ _)

end Verif
