import Verif.Model.KMeansExclusive
import Verif.Spec.KMeansExclusive

/-!
# C127: the older prediction outside of the clusters
-/

open scoped RealInnerProductSpace
open Verif.Spec

namespace Verif.KMeans

variable {d n k : ℕ}

/-- The first two indices of the sorted list are two closest ones; the distances do not depend on the choice. -/
lemma argsort_two {argsort : (Fin n → ℝ) → List (Fin n)} (hs : SortsIndices argsort) (l : Learner n d) (x : Vec d)
    (i j : Fin n) (hij : ClosestTwo l.centers x i j) :
    ∃ i' j' rest, argsort (fun i => ‖x - l.centers i‖) = i' :: j' :: rest
      ∧ ‖x - l.centers i'‖ = ‖x - l.centers i‖ ∧ ‖x - l.centers j'‖ = ‖x - l.centers j‖
      ∧ (‖x - l.centers i‖ < ‖x - l.centers j‖ → i' = i) := by
  obtain ⟨hne, hle, hmin⟩ := hij
  obtain ⟨hp, hsort⟩ := hs (fun i => ‖x - l.centers i‖)
  generalize argsort (fun i => ‖x - l.centers i‖) = L at hp hsort
  have hmem : ∀ m, m ∈ L := fun m => hp.mem_iff.mpr (List.mem_finRange m)
  have hnd : L.Nodup := hp.nodup_iff.mpr (List.nodup_finRange n)
  have hall : ∀ m, ‖x - l.centers i‖ ≤ ‖x - l.centers m‖ := by
    intro m
    by_cases h : m = i
    · rw [h]
    · exact hle.trans (hmin m h)
  match L, hmem, hnd, hsort with
  | [], hmem, _, _ => exact absurd (hmem i) (by simp)
  | [a], hmem, _, _ =>
    have h1 := List.mem_singleton.mp (hmem i)
    have h2 := List.mem_singleton.mp (hmem j)
    exact absurd (h1.trans h2.symm) hne
  | a :: b :: rest, hmem, hnd, hsort =>
    have hab : a ≠ b := by
      intro h
      rw [h] at hnd
      simp at hnd
    rw [List.pairwise_cons, List.pairwise_cons] at hsort
    have ha : ‖x - l.centers a‖ = ‖x - l.centers i‖ := by
      refine le_antisymm ?_ (hall a)
      rcases List.mem_cons.mp (hmem i) with h | h
      · rw [h]
      · exact hsort.1 i h
    have hb1 : ∀ m, m ≠ a → ‖x - l.centers b‖ ≤ ‖x - l.centers m‖ := by
      intro m hm
      rcases List.mem_cons.mp (hmem m) with h | h
      · exact absurd h hm
      rcases List.mem_cons.mp h with h | h
      · rw [h]
      · exact hsort.2.1 m h
    have hstrict : ‖x - l.centers i‖ < ‖x - l.centers j‖ → a = i := by
      intro h
      by_contra hc
      have := hmin a hc
      rw [ha] at this
      linarith
    have hb : ‖x - l.centers b‖ = ‖x - l.centers j‖ := by
      by_cases hai : a = i
      · refine le_antisymm (hb1 j (by rw [hai]; exact hne.symm)) (hmin b (by rw [← hai]; exact hab.symm))
      · have h1 : ‖x - l.centers j‖ ≤ ‖x - l.centers i‖ := ha ▸ hmin a hai
        have h2 : ‖x - l.centers b‖ ≤ ‖x - l.centers i‖ := hb1 i (fun h => hai h.symm)
        have h3 := hall b
        linarith
    exact ⟨a, b, rest, rfl, ha, hb, hstrict⟩

/-- C127: beyond the cut-off distance from all centres the velocity is the one of the outside dynamics. -/
theorem C127_far (mean : Vec d → List ℝ → List (Vec d) → Vec d) (argsort : (Fin n → ℝ) → List (Fin n))
    (hs : SortsIndices argsort) (hn : 0 < n) (l : Learner n d) (x : Vec d) (cutOff power : ℝ)
    (hfar : ∀ i, l.radius * cutOff < ‖x - l.centers i‖) :
    predictExclusive mean argsort l x cutOff power = .ok (l.outside x) := by
  obtain ⟨hp, -⟩ := hs (fun i => ‖x - l.centers i‖)
  unfold predictExclusive
  simp only
  generalize argsort (fun i => ‖x - l.centers i‖) = L at hp
  match L, hp with
  | [], hp =>
    have : (⟨0, hn⟩ : Fin n) ∈ ([] : List (Fin n)) := hp.mem_iff.mpr (List.mem_finRange _)
    simp at this
  | i :: rest, _ =>
    simp only
    rw [if_pos (hfar i)]

/-- The weight of the surface, for distances in order. -/
lemma exclusiveBase_eq {d0 d1 radius cutOff power : ℝ} (hR : 0 < radius) (hc : 1 < cutOff) (hp : 0 < power)
    (h1 : d0 ≤ d1) (h2 : d0 < radius * cutOff) :
    exclusiveBase d0 d1 radius cutOff power
      = some (((min d1 (radius * cutOff) - d0) / (radius * (cutOff - 1)))
        ^ (radius * (cutOff - 1) / (radius * cutOff - d0) * power)) := by
  have hm : radius * cutOff - radius = radius * (cutOff - 1) := by ring
  have hmp : 0 < radius * (cutOff - 1) := mul_pos hR (by linarith)
  have hrel : (if d1 > radius * cutOff then radius * cutOff - d0 else d1 - d0)
      = min d1 (radius * cutOff) - d0 := by
    by_cases h : d1 > radius * cutOff
    · rw [if_pos h, min_eq_right h.le]
    · rw [if_neg h, min_eq_left (not_lt.mp h)]
  have h0 : 0 ≤ min d1 (radius * cutOff) - d0 := by
    have := le_min h1 h2.le
    linarith
  have hq : 0 ≤ (min d1 (radius * cutOff) - d0) / (radius * (cutOff - 1)) := div_nonneg h0 hmp.le
  have he : 0 < radius * (cutOff - 1) / (radius * cutOff - d0) * power :=
    mul_pos (div_pos hmp (by linarith)) hp
  unfold exclusiveBase
  simp only [hrel, hm]
  rw [if_neg hmp.ne', if_neg (by linarith)]
  unfold npPow
  rw [if_neg (fun h => absurd h.1 (not_lt.mpr hq)), if_neg (fun h => absurd h.2 (not_lt.mpr he.le))]

/-- C127: at equal distances from the two closest centres the velocity is the one of the outside dynamics. -/
theorem C127_between (mean : Vec d → List ℝ → List (Vec d) → Vec d) (argsort : (Fin n → ℝ) → List (Fin n))
    (hs : SortsIndices argsort) (l : Learner n d) (x : Vec d) (cutOff power : ℝ) (hR : 0 < l.radius)
    (hc : 1 < cutOff) (hp : 0 < power) (i j : Fin n) (hij : ClosestTwo l.centers x i j)
    (heq : ‖x - l.centers i‖ = ‖x - l.centers j‖) :
    predictExclusive mean argsort l x cutOff power = .ok (l.outside x) := by
  obtain ⟨i', j', rest, hL, hi, hj, -⟩ := argsort_two hs l x i j hij
  have hmp : 0 < l.radius * (cutOff - 1) := mul_pos hR (by linarith)
  unfold predictExclusive
  simp only [hL, hi, hj]
  by_cases hout : ‖x - l.centers i‖ > l.radius * cutOff
  · rw [if_pos hout]
  · rw [if_neg hout]
    push Not at hout
    have hw : exclusiveBase ‖x - l.centers i‖ ‖x - l.centers j‖ l.radius cutOff power = some 0 := by
      rcases hout.eq_or_lt with h | h
      · unfold exclusiveBase
        have : l.radius * cutOff - l.radius ≠ 0 := by
          have : l.radius * cutOff - l.radius = l.radius * (cutOff - 1) := by ring
          rw [this]; exact hmp.ne'
        simp only
        rw [if_neg this, if_pos (by rw [h, sub_self])]
      · rw [exclusiveBase_eq hR hc hp heq.le h, ← heq, min_eq_left h.le, sub_self, zero_div,
          Real.zero_rpow (mul_pos (div_pos hmp (by linarith)) hp).ne']
    rw [hw]
    simp only
    unfold exclusiveMean
    rw [if_pos le_rfl]

/-- The direction of the centre in the code, in terms of the angle. -/
lemma exclusive_pow {x v c : Vec d} (hv : v ≠ 0) (hcx : c - x ≠ 0) :
    ⟪(1 / ‖c - x‖) • (c - x), v⟫ / ‖v‖ - Real.cos Real.pi = 1 + Real.cos (InnerProductGeometry.angle (c - x) v) := by
  have h1 : ‖v‖ ≠ 0 := norm_ne_zero_iff.mpr hv
  have h2 : ‖c - x‖ ≠ 0 := norm_ne_zero_iff.mpr hcx
  rw [real_inner_smul_left, InnerProductGeometry.cos_angle, Real.cos_pi]
  field_simp
  ring

/-- C127: closer than the cut-off distance to a strictly closest centre, the velocity is the mean of the direction of
this centre and the outside velocity.  The weight of the centre falls from one on its surface to zero at the cut-off
distance and on the walls to the other clusters, and with the angle of the outside velocity to the direction of the
centre; a velocity exactly away from the centre is not changed. -/
theorem C127_near (mean : Vec d → List ℝ → List (Vec d) → Vec d) (argsort : (Fin n → ℝ) → List (Fin n))
    (hs : SortsIndices argsort) (l : Learner n d) (x : Vec d) (cutOff power : ℝ) (hR : 0 < l.radius)
    (hc : 1 < cutOff) (hp : 0 < power) (i j : Fin n) (hij : ClosestTwo l.centers x i j)
    (hlt : ‖x - l.centers i‖ < ‖x - l.centers j‖) (hin : ‖x - l.centers i‖ < l.radius * cutOff)
    (hsurf : l.radius ≤ ‖x - l.centers i‖) (hv : l.outside x ≠ 0) (w : ℝ)
    (hw : w = (((min ‖x - l.centers j‖ (l.radius * cutOff) - ‖x - l.centers i‖) / (l.radius * (cutOff - 1)))
        ^ (l.radius * (cutOff - 1) / (l.radius * cutOff - ‖x - l.centers i‖) * power))
        ^ (2 / (1 + Real.cos (InnerProductGeometry.angle (l.centers i - x) (l.outside x))))) :
    (InnerProductGeometry.angle (l.centers i - x) (l.outside x) ≠ Real.pi → 0 < w ∧ w ≤ 1
      ∧ predictExclusive mean argsort l x cutOff power
        = .ok (mean (l.outside x) [w, 1 - w] [unit (l.centers i - x), l.outside x]))
    ∧ (InnerProductGeometry.angle (l.centers i - x) (l.outside x) = Real.pi →
      predictExclusive mean argsort l x cutOff power = .ok (l.outside x)) := by
  obtain ⟨i', j', rest, hL, hi, hj, hii⟩ := argsort_two hs l x i j hij
  obtain rfl := hii hlt
  have hmp : 0 < l.radius * (cutOff - 1) := mul_pos hR (by linarith)
  have hcx : l.centers i' - x ≠ 0 := by
    intro h0
    rw [norm_sub_rev, h0, norm_zero] at hsurf
    linarith
  have hrun : predictExclusive mean argsort l x cutOff power
      = exclusiveMean mean x (l.outside x) (l.centers i')
        (((min ‖x - l.centers j‖ (l.radius * cutOff) - ‖x - l.centers i'‖) / (l.radius * (cutOff - 1)))
          ^ (l.radius * (cutOff - 1) / (l.radius * cutOff - ‖x - l.centers i'‖) * power)) := by
    unfold predictExclusive
    simp only [hL, hj]
    rw [if_neg (not_lt.mpr hin.le), exclusiveBase_eq hR hc hp hlt.le hin]
  have hb0 : 0 < (min ‖x - l.centers j‖ (l.radius * cutOff) - ‖x - l.centers i'‖) / (l.radius * (cutOff - 1)) := by
    refine div_pos ?_ hmp
    have := lt_min hlt hin
    linarith
  have hb1 : (min ‖x - l.centers j‖ (l.radius * cutOff) - ‖x - l.centers i'‖) / (l.radius * (cutOff - 1)) ≤ 1 := by
    rw [div_le_one hmp]
    have := min_le_right ‖x - l.centers j‖ (l.radius * cutOff)
    have h2 : l.radius * (cutOff - 1) = l.radius * cutOff - l.radius := by ring
    linarith
  have he : 0 < l.radius * (cutOff - 1) / (l.radius * cutOff - ‖x - l.centers i'‖) * power :=
    mul_pos (div_pos hmp (by linarith)) hp
  rw [hrun]
  have hw0 := Real.rpow_pos_of_pos hb0
    (l.radius * (cutOff - 1) / (l.radius * cutOff - ‖x - l.centers i'‖) * power)
  have hw1 := Real.rpow_le_one hb0.le hb1 he.le
  generalize ((min ‖x - l.centers j‖ (l.radius * cutOff) - ‖x - l.centers i'‖) / (l.radius * (cutOff - 1)))
          ^ (l.radius * (cutOff - 1) / (l.radius * cutOff - ‖x - l.centers i'‖) * power) = b at *
  have hns : ¬ (‖l.outside x‖ = 0 ∨ ‖l.centers i' - x‖ = 0) := by
    rintro (h | h)
    · exact hv (norm_eq_zero.mp h)
    · exact hcx (norm_eq_zero.mp h)
  unfold exclusiveMean
  rw [if_neg (not_le.mpr hw0), if_neg hns]
  simp only [exclusive_pow hv hcx]
  constructor
  · intro ha
    have hpos : 0 < 1 + Real.cos (InnerProductGeometry.angle (l.centers i' - x) (l.outside x)) := by
      have h3 : Real.cos Real.pi < Real.cos (InnerProductGeometry.angle (l.centers i' - x) (l.outside x)) :=
        Real.cos_lt_cos_of_nonneg_of_le_pi (InnerProductGeometry.angle_nonneg _ _) le_rfl
          (lt_of_le_of_ne (InnerProductGeometry.angle_le_pi _ _) ha)
      rw [Real.cos_pi] at h3
      linarith
    refine ⟨by rw [hw]; exact Real.rpow_pos_of_pos hw0 _,
      by rw [hw]; exact Real.rpow_le_one hw0.le hw1 (by positivity), ?_⟩
    rw [if_neg (not_le.mpr hpos)]
    unfold npPow
    rw [if_neg (fun h => absurd h.1 (not_lt.mpr hw0.le)), if_neg (fun h => absurd h.1 hw0.ne')]
    simp only
    rw [Real.cos_pi, show (1 : ℝ) - -1 = 2 by norm_num, ← hw]
    rfl
  · intro ha
    rw [if_pos (by rw [ha, Real.cos_pi]; norm_num)]

/-- C127: on the surface of the closest cluster, with all other centres beyond the cut-off distance, the motion leads
into the cluster, towards its centre.  Missing: a second centre within the cut-off distance, for which it is false
(`C127_surface_fails`). -/
theorem C127_surface_partial (ext : PredictExt n d k) (he : SaneAngles ext.rot)
    (argsort : (Fin n → ℝ) → List (Fin n)) (hs : SortsIndices argsort) (l : Learner n d) (x : Vec d)
    (cutOff power : ℝ) (hR : 0 < l.radius) (hc : 1 < cutOff) (hp : 0 < power) (i j : Fin n)
    (hij : ClosestTwo l.centers x i j) (hsurf : ‖x - l.centers i‖ = l.radius)
    (hother : l.radius * cutOff ≤ ‖x - l.centers j‖) (hv : ‖l.outside x‖ = 1)
    (ha : InnerProductGeometry.angle (l.centers i - x) (l.outside x) ≠ Real.pi) :
    predictExclusive ext.rot.mean argsort l x cutOff power = .ok (unit (l.centers i - x)) := by
  have hRc : l.radius < l.radius * cutOff := by
    calc l.radius = l.radius * 1 := (mul_one _).symm
      _ < l.radius * cutOff := mul_lt_mul_of_pos_left hc hR
  have hv0 : l.outside x ≠ 0 := by
    intro h; rw [h, norm_zero] at hv; norm_num at hv
  have hcx : l.centers i - x ≠ 0 := by
    intro h0
    rw [norm_sub_rev, h0, norm_zero] at hsurf
    linarith
  obtain ⟨-, -, hrun⟩ := (C127_near ext.rot.mean argsort hs l x cutOff power hR hc hp i j hij (by linarith)
    (by linarith) hsurf.ge hv0 _ rfl).1 ha
  rw [hrun, min_eq_right hother, hsurf]
  have h1 : (l.radius * cutOff - l.radius) / (l.radius * (cutOff - 1)) = 1 := by
    rw [show l.radius * cutOff - l.radius = l.radius * (cutOff - 1) by ring]
    exact div_self (mul_pos hR (by linarith)).ne'
  rw [h1, Real.one_rpow, Real.one_rpow, sub_self]
  have hun : unit (l.centers i - x) ≠ 0 := by
    unfold unit
    exact smul_ne_zero (one_div_ne_zero (norm_ne_zero_iff.mpr hcx)) hcx
  have hopp : ¬ Opposite (l.outside x) (unit (l.centers i - x)) := by
    rintro ⟨t, ht, h⟩
    apply ha
    rw [InnerProductGeometry.angle_comm, InnerProductGeometry.angle_eq_pi_iff]
    refine ⟨hv0, -(t * ‖l.centers i - x‖), ?_, ?_⟩
    · have := mul_pos ht (norm_pos_iff.mpr hcx)
      linarith
    · have h3 : ‖l.centers i - x‖ • unit (l.centers i - x) = l.centers i - x := by
        unfold unit
        rw [smul_smul, mul_one_div_cancel (norm_ne_zero_iff.mpr hcx), one_smul]
      calc l.centers i - x = ‖l.centers i - x‖ • unit (l.centers i - x) := h3.symm
        _ = ‖l.centers i - x‖ • ((-t) • l.outside x) := by rw [h]
        _ = -(t * ‖l.centers i - x‖) • l.outside x := by rw [smul_smul]; congr 1; ring
  have := he.mean_one (l.outside x) [] [0] [] (unit (l.centers i - x)) [l.outside x] hv hun hopp rfl rfl
    ⟨by intro w hw; simp at hw; rcases hw with h | h <;> rw [h]; exact zero_le_one, by simp⟩
  rw [List.nil_append, List.nil_append] at this
  rw [this]
  congr 1
  have hn1 : ‖unit (l.centers i - x)‖ = 1 := by
    unfold unit
    rw [norm_smul, norm_div, norm_one, norm_norm, one_div_mul_cancel (norm_ne_zero_iff.mpr hcx)]
  rw [show unit (unit (l.centers i - x)) = (1 / ‖unit (l.centers i - x)‖) • unit (l.centers i - x) from rfl, hn1,
    div_one, one_smul]

/-- C127, violated: the claim that the motion on the surface of the closest cluster leads to its centre.  With a second
centre within the cut-off distance the weight of the centre is below one. -/
theorem C127_surface_fails (mean : Vec d → List ℝ → List (Vec d) → Vec d) (argsort : (Fin n → ℝ) → List (Fin n))
    (hs : SortsIndices argsort) (l : Learner n d) (x : Vec d) (cutOff power : ℝ) (hR : 0 < l.radius)
    (hc : 1 < cutOff) (hp : 0 < power) (i j : Fin n) (hij : ClosestTwo l.centers x i j)
    (hsurf : ‖x - l.centers i‖ = l.radius) (hlt : l.radius < ‖x - l.centers j‖)
    (hother : ‖x - l.centers j‖ < l.radius * cutOff) (hv : l.outside x ≠ 0)
    (ha : InnerProductGeometry.angle (l.centers i - x) (l.outside x) ≠ Real.pi) :
    ∃ w : ℝ, 0 < w ∧ w < 1 ∧ predictExclusive mean argsort l x cutOff power
        = .ok (mean (l.outside x) [w, 1 - w] [unit (l.centers i - x), l.outside x]) := by
  have hmp : 0 < l.radius * (cutOff - 1) := mul_pos hR (by linarith)
  have h2 : l.radius * (cutOff - 1) = l.radius * cutOff - l.radius := by ring
  obtain ⟨h0, h1, hrun⟩ := (C127_near mean argsort hs l x cutOff power hR hc hp i j hij (by linarith)
    (by linarith) hsurf.ge hv _ rfl).1 ha
  refine ⟨_, h0, ?_, hrun⟩
  have hpos : 0 < 1 + Real.cos (InnerProductGeometry.angle (l.centers i - x) (l.outside x)) := by
    have h3 : Real.cos Real.pi < Real.cos (InnerProductGeometry.angle (l.centers i - x) (l.outside x)) :=
      Real.cos_lt_cos_of_nonneg_of_le_pi (InnerProductGeometry.angle_nonneg _ _) le_rfl
        (lt_of_le_of_ne (InnerProductGeometry.angle_le_pi _ _) ha)
    rw [Real.cos_pi] at h3
    linarith
  rw [min_eq_left hother.le, hsurf]
  have hb0 : 0 < (‖x - l.centers j‖ - l.radius) / (l.radius * (cutOff - 1)) := div_pos (by linarith) hmp
  have hb1 : (‖x - l.centers j‖ - l.radius) / (l.radius * (cutOff - 1)) < 1 := by
    rw [div_lt_one hmp]; linarith
  have he : 0 < l.radius * (cutOff - 1) / (l.radius * cutOff - l.radius) * power :=
    mul_pos (div_pos hmp (by linarith)) hp
  exact Real.rpow_lt_one (Real.rpow_nonneg hb0.le _) (Real.rpow_lt_one hb0.le hb1 he) (by positivity)

/-- C127, violated: the claim that a velocity is returned.  With a single cluster the call fails (`IndexError`) within
the cut-off distance. -/
theorem C127_single (mean : Vec d → List ℝ → List (Vec d) → Vec d) (argsort : (Fin 1 → ℝ) → List (Fin 1))
    (hs : SortsIndices argsort) (l : Learner 1 d) (x : Vec d) (cutOff power : ℝ)
    (hin : ‖x - l.centers 0‖ ≤ l.radius * cutOff) :
    predictExclusive mean argsort l x cutOff power = .error .indexError := by
  obtain ⟨hp, -⟩ := hs (fun i => ‖x - l.centers i‖)
  have : argsort (fun i => ‖x - l.centers i‖) = [0] := by
    have h1 : List.finRange 1 = [0] := rfl
    rw [h1] at hp
    exact List.perm_singleton.mp hp
  unfold predictExclusive
  simp only [this]
  rw [if_neg (not_lt.mpr hin)]

/-- C127, violated: the claim that a velocity is returned.  Where the outside dynamics rest, the result is not a
number (closer than the cut-off distance to a strictly closest centre). -/
theorem C127_rest (mean : Vec d → List ℝ → List (Vec d) → Vec d) (argsort : (Fin n → ℝ) → List (Fin n))
    (hs : SortsIndices argsort) (l : Learner n d) (x : Vec d) (cutOff power : ℝ) (hR : 0 < l.radius)
    (hc : 1 < cutOff) (hp : 0 < power) (i j : Fin n) (hij : ClosestTwo l.centers x i j)
    (hlt : ‖x - l.centers i‖ < ‖x - l.centers j‖) (hin : ‖x - l.centers i‖ < l.radius * cutOff)
    (hv : l.outside x = 0) :
    predictExclusive mean argsort l x cutOff power = .error .nan := by
  obtain ⟨i', j', rest, hL, hi, hj, hii⟩ := argsort_two hs l x i j hij
  obtain rfl := hii hlt
  have hmp : 0 < l.radius * (cutOff - 1) := mul_pos hR (by linarith)
  have hb0 : 0 < (min ‖x - l.centers j‖ (l.radius * cutOff) - ‖x - l.centers i'‖) / (l.radius * (cutOff - 1)) := by
    refine div_pos ?_ hmp
    have := lt_min hlt hin
    linarith
  unfold predictExclusive
  simp only [hL, hj]
  rw [if_neg (not_lt.mpr hin.le), exclusiveBase_eq hR hc hp hlt.le hin]
  simp only
  unfold exclusiveMean
  rw [if_neg (not_le.mpr (Real.rpow_pos_of_pos hb0 _)), if_pos (Or.inl (by rw [hv, norm_zero]))]

end Verif.KMeans
