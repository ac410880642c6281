import Verif.Model.Legacy
import Verif.Spec.AveragedNormal
import Verif.Lemmas.Weights

/-!
# Lemmas about the averaged normal
-/

open scoped RealInnerProductSpace

namespace Verif
open Spec

variable {d : ℕ}

lemma zipWith_normals (l : List (Obstacle d)) (x : Vec d) (f : Obstacle d → ℝ) :
    List.zipWith (fun (n : Vec d) w => w • n) (l.map (fun o => o.normal x)) (l.map f)
      = l.map (fun o => f o • o.normal x) := by
  induction l with
  | nil => rfl
  | cons a l ih => simp [ih]

lemma smul_list_sum (c : ℝ) (l : List (Vec d)) : (l.map (fun v => c • v)).sum = c • l.sum := by
  induction l with
  | nil => simp
  | cons a l ih => simp [ih, smul_add]

/-- The weights in contact: the average over the components which touch. -/
lemma contact_sum (l : List (Obstacle d)) (x : Vec d) (c : ℝ) :
    open Classical in
    (l.map (fun o => ((if o.gamma x ≤ 1 then (1 : ℝ) else 0) / c) • o.normal x)).sum
      = (1 / c) • ((l.filter (fun o => o.gamma x ≤ 1)).map (fun o => o.normal x)).sum := by
  classical
  induction l with
  | nil => simp
  | cons a l ih =>
    by_cases h : a.gamma x ≤ 1
    · simp [h, ih, smul_add]
    · simp [h, ih]

lemma contact_count (l : List (Obstacle d)) (x : Vec d) :
    (indicator (· ≤ 1) (l.map (fun o => o.gamma x))).sum
      = (open Classical in (l.filter (fun o => o.gamma x ≤ 1)).length : ℝ) := by
  classical
  unfold indicator
  induction l with
  | nil => simp
  | cons a l ih =>
    by_cases h : a.gamma x ≤ 1
    · rw [List.filter_cons_of_pos (by simpa using h), List.length_cons, List.map_cons, List.map_cons, List.sum_cons, ih,
        if_pos h]
      push_cast
      ring
    · rw [List.filter_cons_of_neg (by simpa using h), List.map_cons, List.map_cons, List.sum_cons, ih, if_neg h,
        zero_add]

lemma averaged_contact (l : List (Obstacle d)) (x : Vec d) (m p : ℝ) (hm : m ≤ 1) :
    (List.zipWith (fun (n : Vec d) w => w • n) (l.map (fun o => o.normal x))
      (averagedNormalWeights (l.map (fun o => o.gamma x)) m p)).sum
      = (open Classical in
        (1 / ((l.filter (fun o => o.gamma x ≤ 1)).length : ℝ))
          • ((l.filter (fun o => o.gamma x ≤ 1)).map (fun o => o.normal x)).sum) := by
  classical
  unfold averagedNormalWeights normalised
  rw [if_pos hm, contact_count]
  unfold indicator
  rw [List.map_map, List.map_map, zipWith_normals]
  rw [← contact_sum]
  rfl

lemma averaged_outside (l : List (Obstacle d)) (x : Vec d) (m p : ℝ) (hm : 1 < m) (hl : ∀ o ∈ l, m ≤ o.gamma x)
    (hne : l ≠ []) :
    (List.zipWith (fun (n : Vec d) w => w • n) (l.map (fun o => o.normal x))
      (averagedNormalWeights (l.map (fun o => o.gamma x)) m p)).sum
      = min 1 (1 / (l.map (fun o => o.gamma x ^ (-p))).sum)
        • (l.map (fun o => o.gamma x ^ (-p) • o.normal x)).sum := by
  classical
  have hmap : (l.map (fun o => o.gamma x)).map (fun g => 1 / g ^ p) = l.map (fun o => o.gamma x ^ (-p)) := by
    rw [List.map_map]
    refine List.map_congr_left fun o ho => ?_
    have : 0 < o.gamma x := by linarith [hl o ho]
    change 1 / o.gamma x ^ p = _
    rw [Real.rpow_neg this.le, one_div]
  have hpos : 0 < (l.map (fun o => o.gamma x ^ (-p))).sum := by
    obtain ⟨o, ho⟩ := List.exists_mem_of_ne_nil l hne
    have hp : ∀ o ∈ l, 0 < o.gamma x ^ (-p) := fun o ho => Real.rpow_pos_of_pos (by linarith [hl o ho]) _
    refine sum_pos_of_mem ?_ (List.mem_map.mpr ⟨o, ho, rfl⟩) (hp o ho)
    intro w hw
    obtain ⟨o', ho', rfl⟩ := List.mem_map.mp hw
    exact (hp o' ho').le
  unfold averagedNormalWeights
  rw [if_neg (not_le.mpr hm)]
  simp only [hmap]
  set S := (l.map (fun o => o.gamma x ^ (-p))).sum with hS
  by_cases h : S > 1
  · rw [if_pos h]
    unfold normalised
    rw [List.map_map, zipWith_normals]
    rw [min_eq_right (by rw [div_le_one hpos]; exact h.le), ← smul_list_sum, List.map_map]
    congr 1
    refine List.map_congr_left fun o _ => ?_
    simp only [Function.comp, smul_smul]
    rw [← hS]
    congr 1
    ring
  · rw [if_neg h, zipWith_normals, min_eq_left (by rw [le_div_iff₀ hpos]; linarith), one_smul]

lemma averaged_unfold {trees : List (ObstacleTree d)} {x : Vec d} {p : ℝ} {n : Vec d} {g : ℝ}
    (h : computeAveragedNormalAndGamma trees x p = .ok (n, g)) :
    ((parts trees).map (fun o => o.gamma x)).min? = some g
      ∧ (List.zipWith (fun (n : Vec d) w => w • n) ((parts trees).map (fun o => o.normal x))
        (averagedNormalWeights ((parts trees).map (fun o => o.gamma x)) g p)).sum = n := by
  unfold computeAveragedNormalAndGamma at h
  change (match ((parts trees).map (fun o : Obstacle d => o.gamma x)).min? with
    | none => (Except.error PyErr.valueError : Except PyErr (Vec d × ℝ))
    | some m => Except.ok ((List.zipWith (fun (n : Vec d) w => w • n) ((parts trees).map (fun o : Obstacle d => o.normal x))
        (averagedNormalWeights ((parts trees).map (fun o : Obstacle d => o.gamma x)) m p)).sum, m)) = .ok (n, g) at h
  cases hm : ((parts trees).map (fun o => o.gamma x)).min? with
  | none => rw [hm] at h; cases h
  | some m =>
    rw [hm] at h
    injection h with h
    injection h with h1 h2
    subst h2
    exact ⟨rfl, h1⟩

lemma min_facts {trees : List (ObstacleTree d)} {x : Vec d} {g : ℝ}
    (h : ((parts trees).map (fun o => o.gamma x)).min? = some g) :
    (∃ o ∈ parts trees, o.gamma x = g) ∧ ∀ o ∈ parts trees, g ≤ o.gamma x := by
  rw [List.min?_eq_some_iff] at h
  obtain ⟨h1, h2⟩ := h
  refine ⟨by simpa [List.mem_map] using h1, fun o ho => h2 _ (List.mem_map.mpr ⟨o, ho, rfl⟩)⟩

end Verif
