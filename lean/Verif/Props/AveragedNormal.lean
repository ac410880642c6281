import Verif.Lemmas.AveragedNormal
import Verif.Props.AvoiderTwoContacts

/-!
# C118: the averaged normal and the distance of the surroundings
-/

open scoped RealInnerProductSpace

namespace Verif
open Spec

variable {d : ℕ}

/-- C118: `compute_averaged_normal_and_gamma` fails (with `ValueError`) exactly in surroundings without any
component. -/
theorem C118_defined (trees : List (ObstacleTree d)) (x : Vec d) (p : ℝ) :
    ((∃ r, computeAveragedNormalAndGamma trees x p = .ok r) ↔ ∃ t ∈ trees, t.components ≠ [])
      ∧ ((∀ t ∈ trees, t.components = []) → computeAveragedNormalAndGamma trees x p = .error .valueError) := by
  have hnil : (parts trees = []) ↔ ∀ t ∈ trees, t.components = [] := by
    simp [parts, List.flatMap_eq_nil_iff]
  have herr : parts trees = [] → computeAveragedNormalAndGamma trees x p = .error .valueError := by
    intro h
    have h' : allComponents trees = [] := h
    simp [computeAveragedNormalAndGamma, h']
  refine ⟨⟨fun ⟨r, hr⟩ => ?_, fun ⟨t, ht, hne⟩ => ?_⟩, fun h => herr (hnil.mpr h)⟩
  · by_contra hcon
    push Not at hcon
    rw [herr (hnil.mpr hcon)] at hr
    cases hr
  · have h : allComponents trees ≠ [] := fun h => hne ((hnil.mp h) t ht)
    unfold computeAveragedNormalAndGamma
    cases hm : ((allComponents trees).map (fun o => o.gamma x)).min? with
    | none => simp [List.min?_eq_none_iff] at hm; exact absurd hm h
    | some m => simp only [hm]; exact ⟨_, rfl⟩

/-- C118: the returned distance value is the smallest one of all components of all obstacles. -/
theorem C118_gamma (trees : List (ObstacleTree d)) (x n : Vec d) (p g : ℝ)
    (h : computeAveragedNormalAndGamma trees x p = .ok (n, g)) :
    (∃ t ∈ trees, ∃ o ∈ t.components, o.gamma x = g) ∧ ∀ t ∈ trees, ∀ o ∈ t.components, g ≤ o.gamma x := by
  obtain ⟨⟨o, ho, hg⟩, hmin⟩ := min_facts (averaged_unfold h).1
  obtain ⟨t, ht, ho⟩ := List.mem_flatMap.mp ho
  exact ⟨⟨t, ht, o, ho, hg⟩, fun t ht o ho => hmin o (List.mem_flatMap.mpr ⟨t, ht, ho⟩)⟩

/-- C118: in contact the returned vector is the mean of the normals of the components which touch the position;
the others do not count. -/
theorem C118_contact (trees : List (ObstacleTree d)) (x n : Vec d) (p g : ℝ)
    (h : computeAveragedNormalAndGamma trees x p = .ok (n, g)) (hg : g ≤ 1) :
    touching trees x ≠ [] ∧
      n = (1 / ((touching trees x).length : ℝ)) • ((touching trees x).map (fun o => o.normal x)).sum := by
  classical
  obtain ⟨hmin, hn⟩ := averaged_unfold h
  obtain ⟨⟨o, ho, hog⟩, _⟩ := min_facts hmin
  refine ⟨List.ne_nil_of_mem (List.mem_filter.mpr ⟨ho, by simpa using hog.trans_le hg⟩), ?_⟩
  rw [← hn, averaged_contact _ _ _ _ hg]
  rfl

/-- C118: away from all components the returned vector is the sum of the normals, each multiplied with `γ ^ (-p)`,
and divided by the sum of these factors if it exceeds one.  A closer component therefore counts more than a distant
one. -/
theorem C118_outside (trees : List (ObstacleTree d)) (x n : Vec d) (p g : ℝ)
    (h : computeAveragedNormalAndGamma trees x p = .ok (n, g)) (hg : 1 < g) :
    n = min 1 (1 / totalInfluence p trees x) • influencedNormal p trees x := by
  obtain ⟨hmin, hn⟩ := averaged_unfold h
  obtain ⟨⟨o, ho, _⟩, hall⟩ := min_facts hmin
  rw [← hn, averaged_outside _ _ _ _ hg hall (List.ne_nil_of_mem ho)]
  rfl

lemma list_inner_sum (u : Vec d) (l : List (Obstacle d)) (f : Obstacle d → Vec d) :
    ⟪u, (l.map f).sum⟫ = (l.map (fun o => ⟪u, f o⟫)).sum := by
  induction l with
  | nil => simp
  | cons a l ih => simp [inner_add_right, ih]

lemma list_norm_sum (l : List (Obstacle d)) (f : Obstacle d → Vec d) (b : Obstacle d → ℝ)
    (h : ∀ o ∈ l, ‖f o‖ ≤ b o) : ‖(l.map f).sum‖ ≤ (l.map b).sum := by
  induction l with
  | nil => simp
  | cons a l ih =>
    rw [List.map_cons, List.map_cons, List.sum_cons, List.sum_cons]
    exact (norm_add_le _ _).trans (add_le_add (h a (by simp)) (ih fun o ho => h o (by simp [ho])))

lemma influence_pos {trees : List (ObstacleTree d)} {x : Vec d} {p g : ℝ} (hg : 1 < g)
    (hmin : ((parts trees).map (fun o => o.gamma x)).min? = some g) : 0 < totalInfluence p trees x := by
  obtain ⟨⟨o, ho, _⟩, hall⟩ := min_facts hmin
  have hp : ∀ o ∈ parts trees, 0 < o.gamma x ^ (-p) := fun o ho => Real.rpow_pos_of_pos (by linarith [hall o ho]) _
  refine sum_pos_of_mem ?_ (List.mem_map.mpr ⟨o, ho, rfl⟩) (hp o ho)
  intro w hw
  obtain ⟨o', ho', rfl⟩ := List.mem_map.mp hw
  exact (hp o' ho').le

/-- C118: if the normals have at most length one, so does the average; away from all components it is not longer
than the sum of the influences, and it vanishes with the distance. -/
theorem C118_norm (trees : List (ObstacleTree d)) (x n : Vec d) (p g : ℝ)
    (h : computeAveragedNormalAndGamma trees x p = .ok (n, g))
    (hn : ∀ t ∈ trees, ∀ o ∈ t.components, ‖o.normal x‖ ≤ 1) :
    ‖n‖ ≤ 1 ∧ (1 < g → 0 ≤ p → ‖n‖ ≤ totalInfluence p trees x
      ∧ ‖n‖ ≤ (parts trees).length * g ^ (-p)) := by
  classical
  obtain ⟨hmin, -⟩ := averaged_unfold h
  obtain ⟨⟨o₀, ho₀, hog⟩, hall⟩ := min_facts hmin
  have hu : ∀ o ∈ parts trees, ‖o.normal x‖ ≤ 1 := fun o ho => by
    obtain ⟨t, ht, ho⟩ := List.mem_flatMap.mp ho
    exact hn t ht o ho
  by_cases hg : 1 < g
  · have hout := C118_outside trees x n p g h hg
    have hS := influence_pos (p := p) hg hmin
    have hle : ‖influencedNormal p trees x‖ ≤ totalInfluence p trees x := by
      refine list_norm_sum _ _ _ fun o ho => ?_
      have hp : 0 < o.gamma x ^ (-p) := Real.rpow_pos_of_pos (by linarith [hall o ho]) _
      rw [norm_smul, Real.norm_of_nonneg hp.le]
      nlinarith [hu o ho]
    have hm0 : 0 ≤ min 1 (1 / totalInfluence p trees x) := le_min zero_le_one (by positivity)
    have hnorm : ‖n‖ = min 1 (1 / totalInfluence p trees x) * ‖influencedNormal p trees x‖ := by
      rw [hout, norm_smul, Real.norm_of_nonneg hm0]
    have h1 : ‖n‖ ≤ totalInfluence p trees x := by
      rw [hnorm]
      calc _ ≤ 1 * ‖influencedNormal p trees x‖ := mul_le_mul_of_nonneg_right (min_le_left _ _) (norm_nonneg _)
        _ ≤ _ := by rw [one_mul]; exact hle
    refine ⟨?_, fun _ hp => ⟨h1, h1.trans ?_⟩⟩
    · rw [hnorm]
      calc _ ≤ (1 / totalInfluence p trees x) * ‖influencedNormal p trees x‖ :=
            mul_le_mul_of_nonneg_right (min_le_right _ _) (norm_nonneg _)
        _ ≤ (1 / totalInfluence p trees x) * totalInfluence p trees x := by
            exact mul_le_mul_of_nonneg_left hle (by positivity)
        _ = 1 := by field_simp
    · have : totalInfluence p trees x ≤ ((parts trees).map (fun _ => g ^ (-p))).sum := by
        refine List.sum_le_sum fun o ho => ?_
        rw [Real.rpow_neg (by linarith [hall o ho]), Real.rpow_neg (by linarith)]
        exact inv_anti₀ (Real.rpow_pos_of_pos (by linarith) _)
          (Real.rpow_le_rpow (by linarith) (hall o ho) hp)
      refine this.trans ?_
      simp
  · obtain ⟨hne, hc⟩ := C118_contact trees x n p g h (not_lt.mp hg)
    refine ⟨?_, fun hg' => absurd hg' hg⟩
    have hle := list_norm_sum (touching trees x) (fun o => o.normal x) (fun _ => 1)
      (fun o ho => hu o (List.mem_filter.mp ho).1)
    have hlen : (0 : ℝ) < ((touching trees x).length : ℝ) := by
      exact_mod_cast List.length_pos_iff.mpr hne
    rw [hc, norm_smul, Real.norm_of_nonneg (by positivity)]
    simp only [List.map_const', List.sum_replicate, nsmul_eq_mul, mul_one] at hle
    rw [one_div, inv_mul_le_iff₀ hlen, mul_one]
    exact hle

/-- C118: if all components which count lie on one side (their normals have a positive component along `u`), the
average points to that side too. -/
theorem C118_side (trees : List (ObstacleTree d)) (x n u : Vec d) (p g : ℝ)
    (h : computeAveragedNormalAndGamma trees x p = .ok (n, g))
    (hu : ∀ t ∈ trees, ∀ o ∈ t.components, (1 < g ∨ o.gamma x ≤ 1) → 0 < ⟪u, o.normal x⟫) : 0 < ⟪u, n⟫ := by
  classical
  obtain ⟨hmin, -⟩ := averaged_unfold h
  obtain ⟨⟨o₀, ho₀, hog⟩, hall⟩ := min_facts hmin
  have hu' : ∀ o ∈ parts trees, (1 < g ∨ o.gamma x ≤ 1) → 0 < ⟪u, o.normal x⟫ := fun o ho => by
    obtain ⟨t, ht, ho⟩ := List.mem_flatMap.mp ho
    exact hu t ht o ho
  by_cases hg : 1 < g
  · rw [C118_outside trees x n p g h hg, inner_smul_right]
    have hS := influence_pos (p := p) hg hmin
    refine mul_pos (lt_min one_pos (by positivity)) ?_
    unfold influencedNormal
    rw [list_inner_sum]
    have hp : ∀ o ∈ parts trees, 0 < ⟪u, o.gamma x ^ (-p) • o.normal x⟫ := fun o ho => by
      rw [inner_smul_right]
      exact mul_pos (Real.rpow_pos_of_pos (by linarith [hall o ho]) _) (hu' o ho (.inl hg))
    refine sum_pos_of_mem ?_ (List.mem_map.mpr ⟨o₀, ho₀, rfl⟩) (hp o₀ ho₀)
    intro w hw
    obtain ⟨o', ho', rfl⟩ := List.mem_map.mp hw
    exact (hp o' ho').le
  · obtain ⟨hne, hc⟩ := C118_contact trees x n p g h (not_lt.mp hg)
    have hlen : (0 : ℝ) < ((touching trees x).length : ℝ) := by
      exact_mod_cast List.length_pos_iff.mpr hne
    rw [hc, inner_smul_right, list_inner_sum]
    refine mul_pos (by positivity) ?_
    have hp : ∀ o ∈ touching trees x, 0 < ⟪u, o.normal x⟫ := fun o ho =>
      hu' o (List.mem_filter.mp ho).1 (.inr (by simpa using (List.mem_filter.mp ho).2))
    obtain ⟨o₁, ho₁⟩ := List.exists_mem_of_ne_nil _ hne
    refine sum_pos_of_mem ?_ (List.mem_map.mpr ⟨o₁, ho₁, rfl⟩) (hp o₁ ho₁)
    intro w hw
    obtain ⟨o', ho', rfl⟩ := List.mem_map.mp hw
    exact (hp o' ho').le

/-- What the function returns for a single component: the normal, shortened by `γ ^ (-p)` outside. -/
lemma averaged_single (t : ObstacleTree d) (o : Obstacle d) (ht : t.components = [o]) (x : Vec d) {p : ℝ}
    (hp : 0 ≤ p) :
    computeAveragedNormalAndGamma [t] x p
      = .ok ((max 1 (o.gamma x)) ^ (-p) • o.normal x, o.gamma x) := by
  classical
  have hparts : allComponents [t] = [o] := by simp [allComponents, ht]
  unfold computeAveragedNormalAndGamma
  simp only [hparts, List.map_cons, List.map_nil, List.min?_singleton]
  by_cases hg : o.gamma x ≤ 1
  · have h1 : averagedNormalWeights [o.gamma x] (o.gamma x) p = [1] := by
      simp [averagedNormalWeights, hg, normalised, indicator]
    rw [h1, max_eq_left hg, Real.one_rpow]
    simp
  · push Not at hg
    have h0 : 0 < o.gamma x := by linarith
    have hle : o.gamma x ^ (-p) ≤ 1 := Real.rpow_le_one_of_one_le_of_nonpos hg.le (by linarith)
    have h1 : averagedNormalWeights [o.gamma x] (o.gamma x) p = [o.gamma x ^ (-p)] := by
      unfold averagedNormalWeights
      rw [if_neg (not_le.mpr hg)]
      simp only [List.map_cons, List.map_nil, one_div, ← Real.rpow_neg h0.le]
      rw [if_neg (by simpa using hle)]
    rw [h1, max_eq_right hg.le]
    simp

/-- C118 (partial): for a single component the average is continuous wherever its distance value and its normal are, in
particular at its surface.  Missing: several components, for which it fails (`C118_jump`). -/
theorem C118_continuous_partial (t : ObstacleTree d) (o : Obstacle d) (ht : t.components = [o]) (x : Vec d) (p : ℝ)
    (hp : 0 ≤ p) (hγ : ContinuousAt o.gamma x) (hn : ContinuousAt o.normal x) :
    ∃ f : Vec d → Vec d, (∀ y, computeAveragedNormalAndGamma [t] y p = .ok (f y, o.gamma y)) ∧ ContinuousAt f x := by
  refine ⟨fun y => (max 1 (o.gamma y)) ^ (-p) • o.normal y, fun y => averaged_single t o ht y hp, ?_⟩
  have hmax : ContinuousAt (fun y => (max 1 (o.gamma y)) ^ (-p)) x :=
    (continuousAt_const.max hγ).rpow_const (.inl (by positivity))
  exact hmax.smul hn

/-- A unit disc around the origin and one around `(a, 0)`. -/
noncomputable def twoDiscs (a : ℝ) : List (ObstacleTree 2) := [discTreeAt 0 false, discTreeAt !₂[a, 0] false]

lemma twoDiscs_parts (a : ℝ) : parts (twoDiscs a) = [discAt 0 false, discAt !₂[a, 0] false] := rfl

lemma axis_disc (a s : ℝ) : (discAt !₂[a, 0] false).gamma !₂[s, 0] = |s - a|
    ∧ (discAt !₂[a, 0] false).normal !₂[s, 0] = (1 / |s - a|) • !₂[s - a, 0] := by
  have hsub : (!₂[s, 0] - !₂[a, 0] : Vec 2) = !₂[s - a, 0] := by ext i; fin_cases i <;> simp
  have hnorm : ‖(!₂[s - a, 0] : Vec 2)‖ = |s - a| := by
    rw [EuclideanSpace.norm_eq]; simp [Real.sqrt_sq_eq_abs]
  constructor
  · change ‖(!₂[s, 0] - !₂[a, 0] : Vec 2)‖ = _
    rw [hsub, hnorm]
  · change (1 / ‖(!₂[s, 0] - !₂[a, 0] : Vec 2)‖) • (!₂[s, 0] - !₂[a, 0] : Vec 2) = _
    rw [hsub, hnorm]

lemma axis_disc_zero (s : ℝ) : (discAt 0 false).gamma !₂[s, 0] = |s|
    ∧ (discAt 0 false).normal !₂[s, 0] = (1 / |s|) • !₂[s, 0] := by
  have h := axis_disc 0 s
  have h0 : (!₂[0, 0] : Vec 2) = 0 := by ext i; fin_cases i <;> simp
  rw [h0, sub_zero] at h
  exact h

/-- C118 (negative result): the average is not continuous at the surface of an obstacle if another obstacle is near.  For
unit discs around `(0, 0)` and `(3, 0)` it is `(1, 0)` on the surface at `(1, 0)`, but its first coordinate is below `0.6`
everywhere just outside. -/
theorem C118_jump :
    ContinuousAt (discAt 0 false).gamma !₂[1, 0] ∧ ContinuousAt (discAt 0 false).normal !₂[1, 0]
      ∧ ContinuousAt (discAt !₂[3, 0] false).gamma !₂[1, 0] ∧ ContinuousAt (discAt !₂[3, 0] false).normal !₂[1, 0]
      ∧ ∃ f : Vec 2 → Vec 2, (∀ y, ∃ g, computeAveragedNormalAndGamma (twoDiscs 3) y = .ok (f y, g))
        ∧ f !₂[1, 0] = !₂[1, 0] ∧ (∀ t, 0 < t → t < 1 / 2 → f !₂[1 + t, 0] 0 < 0.6)
        ∧ ¬ ContinuousAt f !₂[1, 0] := by
  classical
  have hcont : ∀ c : Vec 2, (!₂[1, 0] : Vec 2) - c ≠ 0 → ContinuousAt (discAt c false).gamma !₂[1, 0]
      ∧ ContinuousAt (discAt c false).normal !₂[1, 0] := by
    intro c hc
    have h1 : ContinuousAt (fun p : Vec 2 => p - c) !₂[1, 0] := by fun_prop
    refine ⟨h1.norm, ?_⟩
    exact (continuousAt_const.div h1.norm (by simpa using hc)).smul h1
  have hdef : ∀ y : Vec 2, ∃ r, computeAveragedNormalAndGamma (twoDiscs 3) y = .ok r := fun y =>
    (C118_defined (twoDiscs 3) y 2).1.mpr ⟨discTreeAt 0 false, by simp [twoDiscs], by simp [discTreeAt]⟩
  choose r hr using hdef
  have hok : ∀ y, computeAveragedNormalAndGamma (twoDiscs 3) y = .ok ((r y).1, (r y).2) := hr
  have hat : (r !₂[1, 0]).1 = !₂[1, 0] := by
    obtain ⟨hmin, _⟩ := averaged_unfold (hok !₂[1, 0])
    obtain ⟨_, hall⟩ := min_facts hmin
    have hle : (r !₂[1, 0]).2 ≤ 1 := by
      have := hall (discAt 0 false) (by simp [twoDiscs_parts])
      rw [(axis_disc_zero 1).1] at this
      simpa using this
    have htouch : touching (twoDiscs 3) !₂[1, 0] = [discAt 0 false] := by
      unfold touching
      rw [twoDiscs_parts, List.filter_cons_of_pos, List.filter_cons_of_neg]
      · rfl
      · rw [(axis_disc 3 1).1]; norm_num
      · rw [(axis_disc_zero 1).1]; norm_num
    rw [(C118_contact _ _ _ _ _ (hok !₂[1, 0]) hle).2, htouch]
    simp only [List.map_cons, List.map_nil, (axis_disc_zero 1).2]
    simp
  have hnear : ∀ t : ℝ, 0 < t → t < 1 / 2 → (r !₂[1 + t, 0]).1 0 < 0.6 := by
    intro t h0 h1
    have g1 := axis_disc_zero (1 + t)
    have g2 := axis_disc 3 (1 + t)
    rw [abs_of_pos (by linarith)] at g1
    rw [abs_of_neg (by linarith)] at g2
    obtain ⟨hmin, _⟩ := averaged_unfold (hok !₂[1 + t, 0])
    obtain ⟨⟨o, ho, hog⟩, hall⟩ := min_facts hmin
    have hgt : 1 < (r !₂[1 + t, 0]).2 := by
      rw [← hog]
      simp only [twoDiscs_parts, List.mem_cons, List.not_mem_nil, or_false] at ho
      rcases ho with rfl | rfl
      · rw [g1.1]; linarith
      · rw [g2.1]; linarith
    have hS : totalInfluence 2 (twoDiscs 3) !₂[1 + t, 0] = 1 / (1 + t) ^ 2 + 1 / (2 - t) ^ 2 := by
      unfold totalInfluence
      rw [twoDiscs_parts]
      simp only [List.map_cons, List.map_nil, List.sum_cons, List.sum_nil, add_zero, g1.1, g2.1]
      rw [Real.rpow_neg (by linarith), Real.rpow_neg (by linarith), Real.rpow_two, Real.rpow_two]
      rw [one_div, one_div]
      congr 3
      ring
    have hN : (influencedNormal 2 (twoDiscs 3) !₂[1 + t, 0]) 0 = 1 / (1 + t) ^ 2 - 1 / (2 - t) ^ 2 := by
      unfold influencedNormal
      rw [twoDiscs_parts]
      simp only [List.map_cons, List.map_nil, List.sum_cons, List.sum_nil, add_zero, g1.1, g2.1, g1.2, g2.2]
      rw [Real.rpow_neg (by linarith), Real.rpow_neg (by linarith), Real.rpow_two, Real.rpow_two]
      have e1 : (1 + t) ≠ 0 := by linarith
      have e2 : (2 - t) ≠ 0 := by linarith
      have e3 : (3 - (1 + t)) ≠ 0 := by linarith
      have e4 : 1 + t - 3 = -(2 - t) := by ring
      rw [e4, neg_neg]
      simp only [PiLp.add_apply, PiLp.smul_apply, smul_eq_mul, Matrix.cons_val_zero]
      field_simp
      ring
    have hout := C118_outside _ _ _ _ _ (hok !₂[1 + t, 0]) hgt
    rw [hout, hS, PiLp.smul_apply, hN, smul_eq_mul]
    have p1 : (0 : ℝ) < (1 + t) ^ 2 := by positivity
    have p2 : (0 : ℝ) < (2 - t) ^ 2 := by nlinarith
    have hpos : 0 < 1 / (1 + t) ^ 2 + 1 / (2 - t) ^ 2 := by positivity
    have hdiff : 0 ≤ 1 / (1 + t) ^ 2 - 1 / (2 - t) ^ 2 := by
      rw [sub_nonneg]
      exact one_div_le_one_div_of_le p1 (by nlinarith)
    refine lt_of_le_of_lt (mul_le_mul_of_nonneg_right (min_le_right _ _) hdiff) ?_
    rw [one_div, inv_mul_lt_iff₀ hpos]
    have q1 : 1 / (1 + t) ^ 2 < 4 * (1 / (2 - t) ^ 2) := by
      rw [mul_one_div, div_lt_div_iff₀ p1 p2]
      nlinarith
    norm_num
    norm_num at q1
    linarith
  refine ⟨(hcont 0 ?_).1, (hcont 0 ?_).2, (hcont _ ?_).1, (hcont _ ?_).2, fun y => (r y).1,
    fun y => ⟨(r y).2, hok y⟩, hat, hnear, fun hc => ?_⟩
  · intro h; simpa using congrArg (fun v : Vec 2 => v 0) h
  · intro h; simpa using congrArg (fun v : Vec 2 => v 0) h
  · intro h; have := congrArg (fun v : Vec 2 => v 0) h; norm_num at this
  · intro h; have := congrArg (fun v : Vec 2 => v 0) h; norm_num at this
  · have hpath : ContinuousAt (fun t : ℝ => (!₂[1 + t, 0] : Vec 2)) 0 := by fun_prop
    have h0 : (!₂[1 + 0, 0] : Vec 2) = !₂[1, 0] := by simp
    have hcomp : ContinuousAt (fun t : ℝ => (r !₂[1 + t, 0]).1 0) 0 := by
      have h1 : ContinuousAt (fun t : ℝ => (r !₂[1 + t, 0]).1) 0 :=
        ContinuousAt.comp (f := fun t : ℝ => (!₂[1 + t, 0] : Vec 2)) (g := fun y => (r y).1)
          (by simpa using hc) hpath
      have h2 : Continuous (fun v : Vec 2 => v 0) := by fun_prop
      exact h2.continuousAt.comp h1
    have hval : (r !₂[1 + 0, 0]).1 0 = 1 := by rw [h0, hat]; simp
    have hev := hcomp.eventually (lt_mem_nhds (a := 0.6) (by beta_reduce; rw [hval]; norm_num))
    obtain ⟨ε, hε, hball⟩ := Metric.eventually_nhds_iff.mp hev
    have hmin : 0 < min (ε / 2) (1 / 4) := lt_min (by linarith) (by norm_num)
    have := hball (y := min (ε / 2) (1 / 4)) (by
      rw [dist_zero_right, Real.norm_of_nonneg hmin.le]
      exact lt_of_le_of_lt (min_le_left _ _) (by linarith))
    have h' := hnear (min (ε / 2) (1 / 4)) hmin (lt_of_le_of_lt (min_le_right _ _) (by norm_num))
    linarith

/-- C118 (negative result): between two obstacles which touch the position from opposite sides the average vanishes.
The slowing down by `compute_safe_magnitude`, which uses it, then has no effect for any velocity, although the position
is on the surface of both. -/
theorem C118_squeezed :
    computeAveragedNormalAndGamma (twoDiscs 2) !₂[1, 0] = .ok (0, 1)
      ∧ ∀ (v : Vec 2) (s : ℝ), v ≠ 0 → computeSafeMagnitude v s 0 1 = .ok (s • unit v) := by
  classical
  have g1 := axis_disc_zero 1
  have g2 := axis_disc 2 1
  norm_num at g1 g2
  constructor
  · obtain ⟨⟨n, g⟩, hr⟩ := (C118_defined (twoDiscs 2) !₂[1, 0] 2).1.mpr
      ⟨discTreeAt 0 false, by simp [twoDiscs], by simp [discTreeAt]⟩
    obtain ⟨hmin, _⟩ := averaged_unfold hr
    obtain ⟨⟨o, ho, hog⟩, _⟩ := min_facts hmin
    have hg : g = 1 := by
      rw [← hog]
      simp only [twoDiscs_parts, List.mem_cons, List.not_mem_nil, or_false] at ho
      rcases ho with rfl | rfl
      · exact g1.1
      · exact g2.1
    have htouch : touching (twoDiscs 2) !₂[1, 0] = [discAt 0 false, discAt !₂[2, 0] false] := by
      unfold touching
      rw [twoDiscs_parts, List.filter_cons_of_pos, List.filter_cons_of_pos]
      · rfl
      · rw [g2.1]; norm_num
      · rw [g1.1]; norm_num
    have hn := (C118_contact _ _ _ _ _ hr hg.le).2
    rw [htouch] at hn
    simp only [List.map_cons, List.map_nil, List.sum_cons, List.sum_nil, add_zero, g1.2, g2.2] at hn
    have hzero : (!₂[1, 0] + !₂[-1, 0] : Vec 2) = 0 := by ext i; fin_cases i <;> simp
    rw [hzero, smul_zero] at hn
    rw [hr, hn, hg]
  · intro v s hv
    unfold computeSafeMagnitude
    rw [if_neg (by simpa using hv)]
    simp [unit]

/-- The hypotheses of C118 are met in contact: on the surface of the first of two discs. -/
example : ∃ n g, computeAveragedNormalAndGamma (twoDiscs 3) !₂[1, 0] = .ok (n, g) ∧ g ≤ 1 ∧ n = !₂[1, 0] := by
  obtain ⟨_, _, _, _, f, hf, h1, _⟩ := C118_jump
  obtain ⟨g, hg⟩ := hf !₂[1, 0]
  refine ⟨_, g, hg, ?_, h1⟩
  have := (C118_gamma _ _ _ _ _ hg).2 (discTreeAt 0 false) (by simp [twoDiscs]) (discAt 0 false) (by simp [discTreeAt])
  rw [(axis_disc_zero 1).1] at this
  simpa using this

/-- The hypotheses of C118 are met away from all obstacles: to the left of two discs, where both normals point to the
left; the average has at most length one and points to the left. -/
example : ∃ n g, computeAveragedNormalAndGamma (twoDiscs 3) !₂[-2, 0] = .ok (n, g) ∧ 1 < g ∧ 0 < ⟪(!₂[-1, 0] : Vec 2), n⟫
    ∧ ‖n‖ ≤ 1 := by
  have g1 := axis_disc_zero (-2)
  have g2 := axis_disc 3 (-2)
  norm_num at g1 g2
  obtain ⟨⟨n, g⟩, hr⟩ := (C118_defined (twoDiscs 3) !₂[-2, 0] 2).1.mpr
    ⟨discTreeAt 0 false, by simp [twoDiscs], by simp [discTreeAt]⟩
  obtain ⟨⟨t, ht, o, ho, hog⟩, _⟩ := C118_gamma _ _ _ _ _ hr
  refine ⟨n, g, hr, ?_, C118_side _ _ _ _ _ _ hr ?_, (C118_norm _ _ _ _ _ hr ?_).1⟩
  · rw [← hog]
    simp only [twoDiscs, List.mem_cons, List.not_mem_nil, or_false] at ht
    rcases ht with rfl | rfl <;> simp only [discTreeAt, List.mem_cons, List.not_mem_nil, or_false] at ho <;> subst ho
    · rw [g1.1]; norm_num
    · rw [g2.1]; norm_num
  · intro t ht o ho _
    simp only [twoDiscs, List.mem_cons, List.not_mem_nil, or_false] at ht
    rcases ht with rfl | rfl <;> simp only [discTreeAt, List.mem_cons, List.not_mem_nil, or_false] at ho <;> subst ho
    · rw [g1.2, inner_smul_right]; simp [PiLp.inner_apply]
    · rw [g2.2, inner_smul_right]; simp [PiLp.inner_apply]
  · intro t ht o ho
    simp only [twoDiscs, List.mem_cons, List.not_mem_nil, or_false] at ht
    rcases ht with rfl | rfl <;> simp only [discTreeAt, List.mem_cons, List.not_mem_nil, or_false] at ho <;> subst ho
    · exact (discAt_sane _ _).normal_le _
    · exact (discAt_sane _ _).normal_le _

end Verif
