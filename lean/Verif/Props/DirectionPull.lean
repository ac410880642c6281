import Verif.Model.DirectionPull
import Verif.Spec.DirectionPull
import Verif.Props.RotationalWeights

/-!
# C125: pulling a direction towards the tangent; C126: pulling in the inverted direction space
-/

open scoped RealInnerProductSpace
open Verif.Spec

namespace Verif.Pull

variable {k : ℕ}

/-- Two points inside a circle: the ray through them leaves the circle behind the second one. -/
lemma leaves_behind {ref conv : Vec k} {r t : ℝ} (hr : ‖ref‖ < r) (hc : ‖conv‖ < r) (ht : 0 < t)
    (hn : ‖ref + t • (conv - ref)‖ = r) : 1 < t := by
  by_contra h
  push Not at h
  have e : ref + t • (conv - ref) = (1 - t) • ref + t • conv := by
    rw [smul_sub, sub_smul, one_smul]; abel
  have : ‖ref + t • (conv - ref)‖ < r := by
    rw [e]
    calc ‖(1 - t) • ref + t • conv‖ ≤ ‖(1 - t) • ref‖ + ‖t • conv‖ := norm_add_le _ _
      _ = (1 - t) * ‖ref‖ + t * ‖conv‖ := by
          rw [norm_smul, norm_smul, Real.norm_of_nonneg (by linarith), Real.norm_of_nonneg ht.le]
      _ < (1 - t) * r + t * r :=
          add_lt_add_of_le_of_lt (mul_le_mul_of_nonneg_left hr.le (by linarith))
            (mul_lt_mul_of_pos_left hc ht)
      _ = r := by ring
  linarith

/-- C125: a direction and a reference inside the convergence circle.  The convergence direction is moved along
the ray from the reference through it, by the power `t / 3` of the weight of the way to the circle, which the ray
meets at the parameter `t`. -/
theorem C125_rotated (ext : Ext k) (hx : LeavesCircle ext.circle) (weight radius : ℝ) (hw : 0 ≤ weight)
    (conv ref : Vec k) (hc : ‖conv‖ < radius) (hr : ‖ref‖ < radius) (hne : conv ≠ ref) :
    ∃ t : ℝ, 1 < t ∧ ‖ref + t • (conv - ref)‖ = radius
      ∧ rotatedConvergence ext weight radius conv ref
        = .ok (some (ref + (1 + (min weight 1) ^ (t / 3) * (t - 1)) • (conv - ref))) := by
  have hv : conv - ref ≠ 0 := sub_ne_zero.mpr hne
  obtain ⟨t, ht, hcirc, hn⟩ := hx ref (conv - ref) radius hr hv
  have h1 : 1 < t := leaves_behind hr hc ht hn
  refine ⟨t, h1, hn, ?_⟩
  have hvn : 0 < ‖conv - ref‖ := norm_pos_iff.mpr hv
  have hd : ref + t • (conv - ref) - ref = t • (conv - ref) := by abel
  have hdn : ‖ref + t • (conv - ref) - ref‖ = t * ‖conv - ref‖ := by
    rw [hd, norm_smul, Real.norm_of_nonneg ht.le]
  have hq : ‖conv - ref‖ / (t * ‖conv - ref‖) = 1 / t := by
    field_simp
  have hdev : deviationFactor weight ‖conv - ref‖ ‖ref + t • (conv - ref) - ref‖
      = some ((min weight 1) ^ (t / 3)) := by
    unfold deviationFactor
    rw [hdn, if_neg (by positivity), hq]
    obtain ⟨out, ho, _, _, _, h5, h6, _⟩ := C92_deviation 3 (by norm_num) weight (1 / t) hw
    have hp : 0 < 1 / t := by positivity
    have hl : 1 / t < 1 := by rw [div_lt_one ht]; exact h1
    rw [ho]
    by_cases hw1 : weight < 1
    · rw [h6 hp hl hw1, min_eq_left hw1.le]
      congr 2
      field_simp
    · push Not at hw1
      rw [h5 hp (Or.inr hw1), min_eq_right hw1, Real.one_rpow]
  unfold rotatedConvergence
  rw [if_neg (not_le.mpr hc), if_neg hvn.ne', hcirc]
  simp only [hdev]
  congr 2
  generalize (min weight 1) ^ (t / 3) = w
  have : conv = ref + (conv - ref) := by abel
  conv_lhs => rw [show (1 - w) • conv = (1 - w) • (ref + (conv - ref)) by rw [← this]]
  module

/-- C125: the pulled direction is never beyond the circle, is at least as far from the reference as before,
is not moved with the weight zero, and is on the circle with the weight one. -/
theorem C125_inside (ext : Ext k) (hx : LeavesCircle ext.circle) (weight radius : ℝ) (hw : 0 ≤ weight)
    (conv ref : Vec k) (hc : ‖conv‖ < radius) (hr : ‖ref‖ < radius) (hne : conv ≠ ref) :
    ∃ out : Vec k, rotatedConvergence ext weight radius conv ref = .ok (some out)
      ∧ ‖out‖ ≤ radius ∧ ‖conv - ref‖ ≤ ‖out - ref‖ ∧ (weight = 0 → out = conv)
      ∧ (1 ≤ weight → ‖out‖ = radius) ∧ (0 < weight → ‖conv - ref‖ < ‖out - ref‖) := by
  obtain ⟨t, h1, hn, he⟩ := C125_rotated ext hx weight radius hw conv ref hc hr hne
  refine ⟨_, he, ?_⟩
  have hm0 : 0 ≤ min weight 1 := le_min hw zero_le_one
  have hw0 : 0 ≤ (min weight 1) ^ (t / 3) := Real.rpow_nonneg hm0 _
  have hw1 : (min weight 1) ^ (t / 3) ≤ 1 := Real.rpow_le_one hm0 (min_le_right _ _) (by positivity)
  have hvn : 0 < ‖conv - ref‖ := norm_pos_iff.mpr (sub_ne_zero.mpr hne)
  have hz : weight = 0 → (min weight 1) ^ (t / 3) = 0 := by
    intro h0
    rw [h0, min_eq_left zero_le_one, Real.zero_rpow (by positivity)]
  have ho : 1 ≤ weight → (min weight 1) ^ (t / 3) = 1 := by
    intro h; rw [min_eq_right h, Real.one_rpow]
  have hpos : 0 < weight → 0 < (min weight 1) ^ (t / 3) := fun h =>
    Real.rpow_pos_of_pos (lt_min h one_pos) _
  generalize (min weight 1) ^ (t / 3) = w at hw0 hw1 hz ho hpos
  have hs : ‖ref + (1 + w * (t - 1)) • (conv - ref) - ref‖ = (1 + w * (t - 1)) * ‖conv - ref‖ := by
    rw [add_sub_cancel_left, norm_smul, Real.norm_of_nonneg]
    have : 0 ≤ w * (t - 1) := mul_nonneg hw0 (by linarith)
    linarith
  refine ⟨?_, ?_, ?_, ?_, ?_⟩
  · have e : ref + (1 + w * (t - 1)) • (conv - ref)
        = (1 - w) • conv + w • (ref + t • (conv - ref)) := by
      have : conv = ref + (conv - ref) := by abel
      conv_rhs => rw [show (1 - w) • conv = (1 - w) • (ref + (conv - ref)) by rw [← this]]
      module
    rw [e]
    calc ‖(1 - w) • conv + w • (ref + t • (conv - ref))‖
        ≤ ‖(1 - w) • conv‖ + ‖w • (ref + t • (conv - ref))‖ := norm_add_le _ _
      _ = (1 - w) * ‖conv‖ + w * radius := by
          rw [norm_smul, norm_smul, hn, Real.norm_of_nonneg (by linarith), Real.norm_of_nonneg hw0]
      _ ≤ (1 - w) * radius + w * radius :=
          add_le_add (mul_le_mul_of_nonneg_left hc.le (by linarith)) le_rfl
      _ = radius := by ring
  · rw [hs]
    have : 0 ≤ w * (t - 1) := mul_nonneg hw0 (by linarith)
    exact le_mul_of_one_le_left hvn.le (by linarith)
  · intro h0
    rw [hz h0]
    module
  · intro h
    rw [ho h]
    have : (1 + 1 * (t - 1)) = t := by ring
    rw [this, hn]
  · intro h
    rw [hs]
    have : 0 < w * (t - 1) := mul_pos (hpos h) (by linarith)
    exact lt_mul_of_one_lt_left hvn (by linarith)

/-- C125: a larger weight pulls further. -/
theorem C125_monotone (ext : Ext k) (hx : LeavesCircle ext.circle) (weight weight' radius : ℝ) (hw : 0 ≤ weight)
    (hww : weight ≤ weight') (conv ref : Vec k) (hc : ‖conv‖ < radius) (hr : ‖ref‖ < radius)
    (hne : conv ≠ ref) :
    ∃ out out' : Vec k, rotatedConvergence ext weight radius conv ref = .ok (some out)
      ∧ rotatedConvergence ext weight' radius conv ref = .ok (some out')
      ∧ ‖out - ref‖ ≤ ‖out' - ref‖ := by
  obtain ⟨t, h1, hn, he⟩ := C125_rotated ext hx weight radius hw conv ref hc hr hne
  obtain ⟨t', h1', hn', he'⟩ := C125_rotated ext hx weight' radius (hw.trans hww) conv ref hc hr hne
  have htt : t' = t := by
    by_contra hcon
    have hl : ∀ a b : ℝ, 1 < a → a < b → ‖ref + a • (conv - ref)‖ = radius →
        ‖ref + b • (conv - ref)‖ = radius → False := by
      intro a b ha hab hna hnb
      have hb : 0 < b - 1 := by linarith
      have e : ref + a • (conv - ref)
          = ((b - a) / (b - 1)) • conv + ((a - 1) / (b - 1)) • (ref + b • (conv - ref)) := by
        have hcv : conv = ref + (conv - ref) := by abel
        conv_rhs => rw [show ((b - a) / (b - 1)) • conv = ((b - a) / (b - 1)) • (ref + (conv - ref)) by
          rw [← hcv]]
        generalize conv - ref = v
        have h2 : (b - a) / (b - 1) + (a - 1) / (b - 1) = 1 := by
          rw [← add_div, div_eq_one_iff_eq hb.ne']; ring
        have h3 : (b - a) / (b - 1) + (a - 1) / (b - 1) * b = a := by
          rw [div_mul_eq_mul_div, ← add_div, div_eq_iff hb.ne']; ring
        calc ref + a • v = ((b - a) / (b - 1) + (a - 1) / (b - 1)) • ref
              + ((b - a) / (b - 1) + (a - 1) / (b - 1) * b) • v := by rw [h2, h3, one_smul]
          _ = _ := by module
      have hlt : ‖ref + a • (conv - ref)‖ < radius := by
        rw [e]
        have p1 : 0 < (b - a) / (b - 1) := div_pos (by linarith) hb
        have p2 : 0 < (a - 1) / (b - 1) := div_pos (by linarith) hb
        calc _ ≤ ‖((b - a) / (b - 1)) • conv‖ + ‖((a - 1) / (b - 1)) • (ref + b • (conv - ref))‖ :=
              norm_add_le _ _
          _ = (b - a) / (b - 1) * ‖conv‖ + (a - 1) / (b - 1) * radius := by
              rw [norm_smul, norm_smul, hnb, Real.norm_of_nonneg p1.le, Real.norm_of_nonneg p2.le]
          _ < (b - a) / (b - 1) * radius + (a - 1) / (b - 1) * radius :=
              add_lt_add_of_lt_of_le (mul_lt_mul_of_pos_left hc p1) le_rfl
          _ = radius := by
              rw [← add_mul, ← add_div, show b - a + (a - 1) = b - 1 by ring, div_self hb.ne', one_mul]
      linarith
    rcases lt_or_gt_of_ne hcon with h | h
    · exact hl t' t h1' h hn' hn
    · exact hl t t' h1 h hn hn'
  subst htt
  refine ⟨_, _, he, he', ?_⟩
  have hm0 : 0 ≤ min weight 1 := le_min hw zero_le_one
  have hm0' : 0 ≤ min weight' 1 := le_min (hw.trans hww) zero_le_one
  have hmono : (min weight 1) ^ (t' / 3) ≤ (min weight' 1) ^ (t' / 3) :=
    Real.rpow_le_rpow hm0 (min_le_min_right 1 hww) (by positivity)
  have hp : 0 ≤ (min weight 1) ^ (t' / 3) := Real.rpow_nonneg hm0 _
  rw [add_sub_cancel_left, add_sub_cancel_left, norm_smul, norm_smul, Real.norm_of_nonneg,
    Real.norm_of_nonneg]
  · refine mul_le_mul_of_nonneg_right ?_ (norm_nonneg _)
    have := mul_le_mul_of_nonneg_right hmono (show 0 ≤ t' - 1 by linarith)
    linarith
  · have : 0 ≤ (min weight' 1) ^ (t' / 3) * (t' - 1) :=
      mul_nonneg (Real.rpow_nonneg hm0' _) (by linarith)
    linarith
  · have : 0 ≤ (min weight 1) ^ (t' / 3) * (t' - 1) := mul_nonneg hp (by linarith)
    linarith

/-- C125: a direction which already points away from the obstacle is not changed. -/
theorem C125_away (ext : Ext k) (weight radius : ℝ) (conv ref : Vec k) (hc : radius ≤ ‖conv‖) :
    rotatedConvergence ext weight radius conv ref = .ok (some conv) := by
  unfold rotatedConvergence
  rw [if_pos hc]

/-- C125, violated: the claim that a direction is always returned.  For a direction towards the reference
nothing is returned (`None`). -/
theorem C125_head_on (ext : Ext k) (weight radius : ℝ) (conv : Vec k) (hc : ‖conv‖ < radius) :
    rotatedConvergence ext weight radius conv conv = .ok none := by
  unfold rotatedConvergence
  rw [if_neg (not_le.mpr hc), if_pos (by simp)]

/-- C125: the angle to the normal grows if the direction is on the far side of the reference, seen from the
normal.  Missing: the other directions, for which the claim fails (`C125_shrinks`). -/
theorem C125_turns_away_partial (ext : Ext k) (hx : LeavesCircle ext.circle) (weight radius : ℝ)
    (hw : 0 < weight) (conv ref : Vec k) (hc : ‖conv‖ < radius) (hr : ‖ref‖ < radius) (hne : conv ≠ ref)
    (hside : 0 ≤ ⟪conv, conv - ref⟫) :
    ∃ out : Vec k, rotatedConvergence ext weight radius conv ref = .ok (some out) ∧ ‖conv‖ < ‖out‖ := by
  obtain ⟨t, h1, hn, he⟩ := C125_rotated ext hx weight radius hw.le conv ref hc hr hne
  refine ⟨_, he, ?_⟩
  have hpos : 0 < (min weight 1) ^ (t / 3) * (t - 1) :=
    mul_pos (Real.rpow_pos_of_pos (lt_min hw one_pos) _) (by linarith)
  generalize (min weight 1) ^ (t / 3) * (t - 1) = c at hpos
  have e : ref + (1 + c) • (conv - ref) = conv + c • (conv - ref) := by
    rw [add_smul, one_smul]; abel
  rw [e]
  have hv : 0 < ‖conv - ref‖ ^ 2 := by
    have := norm_pos_iff.mpr (sub_ne_zero.mpr hne)
    positivity
  have hsq : ‖conv + c • (conv - ref)‖ ^ 2
      = ‖conv‖ ^ 2 + 2 * (c * ⟪conv, conv - ref⟫) + c ^ 2 * ‖conv - ref‖ ^ 2 := by
    rw [norm_add_sq_real, inner_smul_right, norm_smul, Real.norm_of_nonneg hpos.le, mul_pow]
  have hlt : ‖conv‖ ^ 2 < ‖conv + c • (conv - ref)‖ ^ 2 := by
    rw [hsq]
    have h2 := mul_nonneg hpos.le hside
    have h3 := mul_pos (pow_pos hpos 2) hv
    linarith
  exact lt_of_pow_lt_pow_left₀ 2 (norm_nonneg _) hlt

/-- C125, violated: the claim that pulling never turns the direction towards the obstacle.  Whenever the normal
is behind the direction, seen from the reference, some weight turns the direction exactly against the normal
(the angle zero). -/
theorem C125_shrinks (ext : Ext k) (hx : LeavesCircle ext.circle) (radius : ℝ) (ref : Vec k)
    (hr : ‖ref‖ < radius) (hr0 : ref ≠ 0) (c : ℝ) (hc0 : 0 < c) (hc1 : c < 1) :
    ∃ weight : ℝ, 0 < weight ∧ weight < 1
      ∧ rotatedConvergence ext weight radius (c • ref) ref = .ok (some 0) := by
  have hrn : 0 < ‖ref‖ := norm_pos_iff.mpr hr0
  have hc : ‖c • ref‖ < radius := by
    rw [norm_smul, Real.norm_of_nonneg hc0.le]
    calc c * ‖ref‖ < 1 * ‖ref‖ := mul_lt_mul_of_pos_right hc1 hrn
      _ < radius := by rw [one_mul]; exact hr
  have hv : c • ref - ref = (c - 1) • ref := by rw [sub_smul, one_smul]
  have hne : c • ref ≠ ref := by
    intro h
    have : (c - 1) • ref = 0 := by rw [← hv, h, sub_self]
    rcases smul_eq_zero.mp this with h | h
    · linarith
    · exact hr0 h
  have key : ∀ (weight t : ℝ), 1 < t → ‖ref + t • (c • ref - ref)‖ = radius → 1 / (1 - c) < t := by
    intro weight t h1 hn
    rw [hv] at hn
    have e : ref + t • (c - 1) • ref = (1 - t * (1 - c)) • ref := by module
    rw [e, norm_smul, Real.norm_eq_abs] at hn
    have hab : 1 < |1 - t * (1 - c)| := by
      by_contra hcon
      push Not at hcon
      have := mul_le_mul_of_nonneg_right hcon hrn.le
      linarith
    rw [div_lt_iff₀ (by linarith)]
    have h2 : 0 < t * (1 - c) := mul_pos (by linarith) (by linarith)
    rcases lt_abs.mp hab with h | h <;> linarith
  obtain ⟨t, h1, hn, -⟩ := C125_rotated ext hx 1 radius zero_le_one (c • ref) ref hc hr hne
  have ht := key 1 t h1 hn
  -- the share of the way to the origin
  have h1c : 0 < 1 - c := by linarith
  set w : ℝ := (1 / (1 - c) - 1) / (t - 1) with hwdef
  have hone : 1 < 1 / (1 - c) := by rw [lt_div_iff₀ h1c]; linarith
  have hw0 : 0 < w := div_pos (by linarith) (by linarith)
  have hw1 : w < 1 := by rw [hwdef, div_lt_one (by linarith)]; linarith
  refine ⟨w ^ (3 / t), Real.rpow_pos_of_pos hw0 _,
    Real.rpow_lt_one hw0.le hw1 (by positivity), ?_⟩
  have hpos : 0 < w ^ (3 / t) := Real.rpow_pos_of_pos hw0 _
  have hlt : w ^ (3 / t) < 1 := Real.rpow_lt_one hw0.le hw1 (by positivity)
  obtain ⟨t', h1', hn', he⟩ := C125_rotated ext hx (w ^ (3 / t)) radius hpos.le (c • ref) ref hc hr hne
  have htt : t' = t := by
    have hx1 := hx ref (c • ref - ref) radius hr (by rw [hv]; exact smul_ne_zero (by linarith) hr0)
    have hb := key 1 t' h1' hn'
    rw [hv] at hn hn'
    have e : ∀ t : ℝ, ref + t • (c - 1) • ref = (1 - t * (1 - c)) • ref := fun t => by module
    rw [e, norm_smul, Real.norm_eq_abs] at hn hn'
    rw [div_lt_iff₀ h1c] at ht hb
    rw [abs_of_neg (by linarith)] at hn hn'
    have := mul_right_cancel₀ hrn.ne' (hn'.trans hn.symm)
    have h3 : t' * (1 - c) = t * (1 - c) := by linarith
    exact mul_right_cancel₀ h1c.ne' h3
  subst htt
  rw [he, min_eq_left hlt.le, ← Real.rpow_mul hw0.le]
  have : 3 / t' * (t' / 3) = 1 := by field_simp
  rw [this, Real.rpow_one, hwdef, div_mul_cancel₀ _ (by linarith : t' - 1 ≠ 0)]
  congr 2
  rw [hv, smul_smul]
  have : (1 + (1 / (1 - c) - 1)) * (c - 1) = -1 := by field_simp; ring
  rw [this]
  module

/-! ## `_get_projected_velocity` -/

/-- C125: with a weight between zero and one the initial direction is moved towards the tangent direction of the
given radius, by a share of at most the weight.  The share is the weight itself unless the direction points beyond
the tangent; then it is reduced by the cosine of the angle between the tangent and the way to the direction. -/
theorem C125_projected (tangent initial : Vec k) (weight radius : ℝ) (h0 : 0 ≤ weight) (h1 : weight ≤ 1)
    (hr : 0 < radius) (ht : tangent ≠ 0) (T : Vec k) (hT : T = (radius / ‖tangent‖) • tangent) :
    ‖T‖ = radius ∧ ∃ w : ℝ, 0 ≤ w ∧ w ≤ weight
      ∧ projectedVelocity tangent initial weight radius = .ok (w • T + (1 - w) • initial)
      ∧ (⟪T, initial - T⟫ ≤ 0 → w = weight)
      ∧ (0 < ⟪T, initial - T⟫ → w = weight * (1 - ⟪T, initial - T⟫ / (radius * ‖initial - T‖))) := by
  have htn : 0 < ‖tangent‖ := norm_pos_iff.mpr ht
  have hTn : ‖T‖ = radius := by
    rw [hT, norm_smul, Real.norm_of_nonneg (by positivity), div_mul_cancel₀ _ htn.ne']
  have hs : scaledTangent radius tangent = some T := by
    unfold scaledTangent
    by_cases h : radius = ‖tangent‖
    · rw [if_pos h, hT, h, div_self htn.ne', one_smul]
    · rw [if_neg h, if_neg htn.ne', hT]
  refine ⟨hTn, ?_⟩
  unfold projectedVelocity
  rw [hs]
  by_cases hd : ‖initial - T‖ = 0
  · simp only [if_pos hd]
    have he : initial = T := sub_eq_zero.mp (norm_eq_zero.mp hd)
    have hz : ⟪T, initial - T⟫ = 0 := by rw [he, sub_self, inner_zero_right]
    refine ⟨weight, h0, le_refl _, ?_, fun _ => rfl, fun h => absurd hz h.ne'⟩
    rw [he]
    congr 1
    module
  · simp only [if_neg hd]
    have hdp : 0 < ‖initial - T‖ := lt_of_le_of_ne (norm_nonneg _) (Ne.symm hd)
    have hden : 0 < ‖T‖ * ‖initial - T‖ := by rw [hTn]; positivity
    have hle : ⟪T, initial - T⟫ / (‖T‖ * ‖initial - T‖) ≤ 1 := by
      rw [div_le_one hden]
      exact real_inner_le_norm _ _
    have key : 0 ≤ tailWeight weight T (initial - T) ∧ tailWeight weight T (initial - T) ≤ weight
        ∧ (⟪T, initial - T⟫ ≤ 0 → tailWeight weight T (initial - T) = weight)
        ∧ (0 < ⟪T, initial - T⟫ → tailWeight weight T (initial - T)
          = weight * (1 - ⟪T, initial - T⟫ / (radius * ‖initial - T‖))) := by
      unfold tailWeight
      by_cases hp : ⟪T, initial - T⟫ / (‖T‖ * ‖initial - T‖) > 0
      · simp only [if_pos hp]
        refine ⟨mul_nonneg h0 (by linarith), ?_, fun h => ?_, fun _ => by rw [hTn]⟩
        · calc weight * (1 - ⟪T, initial - T⟫ / (‖T‖ * ‖initial - T‖)) ≤ weight * 1 :=
              mul_le_mul_of_nonneg_left (by linarith) h0
            _ = weight := mul_one _
        · exact absurd (div_nonpos_of_nonpos_of_nonneg h hden.le) (not_le.mpr hp)
      · simp only [if_neg hp]
        exact ⟨h0, le_refl _, fun _ => trivial, fun h => absurd (div_pos h hden) hp⟩
    refine ⟨_, key.1, key.2.1, ?_, key.2.2.1, key.2.2.2⟩
    rw [if_neg]
    intro h
    rcases h with h | h
    · linarith [key.1]
    · linarith [key.2.1]

/-- C125: the projected direction is not further from the tangent direction than the initial one, and not further
from the normal than the larger of the two.  Inside the circle the share is the weight: the weight one gives the
tangent.  A direction which goes along the tangent, at least as far, is kept. -/
theorem C125_towards (tangent initial : Vec k) (weight radius : ℝ) (h0 : 0 ≤ weight) (h1 : weight ≤ 1)
    (hr : 0 < radius) (ht : tangent ≠ 0) (T : Vec k) (hT : T = (radius / ‖tangent‖) • tangent) :
    ∃ out : Vec k, projectedVelocity tangent initial weight radius = .ok out
      ∧ ‖out - T‖ ≤ ‖initial - T‖ ∧ ‖out‖ ≤ max ‖initial‖ radius
      ∧ (‖initial‖ ≤ radius → out = weight • T + (1 - weight) • initial)
      ∧ (∀ c : ℝ, 1 ≤ c → initial = c • T → out = initial) := by
  obtain ⟨hTn, w, hw0, hw1, he, hin, hout⟩ := C125_projected tangent initial weight radius h0 h1 hr ht T hT
  refine ⟨_, he, ?_, ?_, ?_, ?_⟩
  · have e : w • T + (1 - w) • initial - T = (1 - w) • (initial - T) := by module
    rw [e, norm_smul, Real.norm_of_nonneg (by linarith)]
    calc (1 - w) * ‖initial - T‖ ≤ 1 * ‖initial - T‖ :=
          mul_le_mul_of_nonneg_right (by linarith) (norm_nonneg _)
      _ = ‖initial - T‖ := one_mul _
  · calc ‖w • T + (1 - w) • initial‖ ≤ ‖w • T‖ + ‖(1 - w) • initial‖ := norm_add_le _ _
      _ = w * radius + (1 - w) * ‖initial‖ := by
          rw [norm_smul, norm_smul, hTn, Real.norm_of_nonneg hw0, Real.norm_of_nonneg (by linarith)]
      _ ≤ w * max ‖initial‖ radius + (1 - w) * max ‖initial‖ radius :=
          add_le_add (mul_le_mul_of_nonneg_left (le_max_right _ _) hw0)
            (mul_le_mul_of_nonneg_left (le_max_left _ _) (by linarith))
      _ = max ‖initial‖ radius := by ring
  · intro hi
    rw [hin]
    rw [inner_sub_right, real_inner_self_eq_norm_sq, hTn]
    have h2 := real_inner_le_norm T initial
    rw [hTn] at h2
    have h3 := mul_le_mul_of_nonneg_left hi hr.le
    nlinarith [h2, h3]
  · intro c hc hcT
    rcases hc.eq_or_lt with h | h
    · rw [hcT, ← h]; module
    · have hd : initial - T = (c - 1) • T := by rw [hcT]; module
      have hip : ⟪T, initial - T⟫ = (c - 1) * radius ^ 2 := by
        rw [hd, inner_smul_right, real_inner_self_eq_norm_sq, hTn]
      have hdn : ‖initial - T‖ = (c - 1) * radius := by
        rw [hd, norm_smul, Real.norm_of_nonneg (by linarith), hTn]
      have hc' : c - 1 ≠ 0 := by linarith
      have hw : w = 0 := by
        rw [hout (by rw [hip]; have : 0 < c - 1 := by linarith
                     positivity), hip, hdn]
        have : (c - 1) * radius ^ 2 / (radius * ((c - 1) * radius)) = 1 := by
          field_simp
        rw [this, sub_self, mul_zero]
      rw [hw]; module

/-- C125: weights outside of the unit interval are rejected for directions inside the circle.

Missing: directions outside the circle, for which such weights are accepted (`C125_weight_accepted`). -/
theorem C125_weight_rejected_partial (tangent initial : Vec k) (weight radius : ℝ)
    (hw : weight < 0 ∨ 1 < weight) (hr : 0 < radius) (ht : tangent ≠ 0)
    (hi : ‖initial‖ ≤ radius) (hne : initial ≠ (radius / ‖tangent‖) • tangent) :
    projectedVelocity tangent initial weight radius = .error .breakpoint := by
  have htn : 0 < ‖tangent‖ := norm_pos_iff.mpr ht
  have hTn : ‖(radius / ‖tangent‖) • tangent‖ = radius := by
    rw [norm_smul, Real.norm_of_nonneg (by positivity), div_mul_cancel₀ _ htn.ne']
  have hs : scaledTangent radius tangent = some ((radius / ‖tangent‖) • tangent) := by
    unfold scaledTangent
    by_cases h : radius = ‖tangent‖
    · rw [if_pos h, h, div_self htn.ne', one_smul]
    · rw [if_neg h, if_neg htn.ne']
  unfold projectedVelocity
  rw [hs]
  generalize (radius / ‖tangent‖) • tangent = T at *
  have hd : ‖initial - T‖ ≠ 0 := norm_ne_zero_iff.mpr (sub_ne_zero.mpr hne)
  simp only [if_neg hd]
  have hip : ⟪T, initial - T⟫ ≤ 0 := by
    rw [inner_sub_right, real_inner_self_eq_norm_sq, hTn]
    have h2 := real_inner_le_norm T initial
    rw [hTn] at h2
    have h3 := mul_le_mul_of_nonneg_left hi hr.le
    nlinarith [h2, h3]
  have hw' : tailWeight weight T (initial - T) = weight := by
    unfold tailWeight
    have : ¬ ⟪T, initial - T⟫ / (‖T‖ * ‖initial - T‖) > 0 :=
      not_lt.mpr (div_nonpos_of_nonpos_of_nonneg hip (by positivity))
    simp only [if_neg this]
  rw [hw', if_pos hw]

/-- C125, violated: the claim that weights outside of the unit interval are rejected.  The check comes after the
reduction of the weight: for a direction along the tangent and beyond it every weight is accepted. -/
theorem C125_weight_accepted (tangent : Vec k) (weight radius c : ℝ) (hr : 0 < radius) (ht : tangent ≠ 0)
    (hc : 1 < c) (T : Vec k) (hT : T = (radius / ‖tangent‖) • tangent) :
    projectedVelocity tangent (c • T) weight radius = .ok (c • T) := by
  have htn : 0 < ‖tangent‖ := norm_pos_iff.mpr ht
  have hTn : ‖T‖ = radius := by
    rw [hT, norm_smul, Real.norm_of_nonneg (by positivity), div_mul_cancel₀ _ htn.ne']
  have hs : scaledTangent radius tangent = some T := by
    unfold scaledTangent
    by_cases h : radius = ‖tangent‖
    · rw [if_pos h, hT, h, div_self htn.ne', one_smul]
    · rw [if_neg h, if_neg htn.ne', hT]
  have hd : c • T - T = (c - 1) • T := by module
  have hdn : ‖c • T - T‖ = (c - 1) * radius := by
    rw [hd, norm_smul, Real.norm_of_nonneg (by linarith), hTn]
  have hc' : 0 < c - 1 := by linarith
  unfold projectedVelocity
  rw [hs]
  simp only [hdn, if_neg (show (c - 1) * radius ≠ 0 by positivity)]
  have hw : tailWeight weight T (c • T - T) = 0 := by
    unfold tailWeight
    have hq : ⟪T, c • T - T⟫ / (‖T‖ * ‖c • T - T‖) = 1 := by
      rw [hdn, hTn, hd, inner_smul_right, real_inner_self_eq_norm_sq, hTn]
      field_simp
    simp only [hq, if_pos (show (1 : ℝ) > 0 by norm_num)]
    ring
  rw [hw, if_neg (by norm_num)]
  congr 1
  module

/-- C125, violated: the claim that a direction is always obtained.  Without a tangent direction (angle zero) the
result is not a number. -/
theorem C125_no_tangent (initial : Vec k) (weight radius : ℝ) (h0 : 0 ≤ weight) (h1 : weight ≤ 1)
    (hr : 0 < radius) : projectedVelocity 0 initial weight radius = .error .nan := by
  unfold projectedVelocity scaledTangent
  rw [if_neg (by rw [norm_zero]; exact hr.ne'), if_pos norm_zero]
  simp only
  rw [if_neg (by intro h; rcases h with h | h <;> linarith)]

/-! ## `get_tangent_convergence_direction_from_unit_direction` -/

/-- C125: the tangent of a reference inside the circle is on the circle, and on the ray from the reference through
the direction if the two differ. -/
theorem C125_tangent (ext : Ext k) (hk : 0 < k) (hx : LeavesCircle ext.circle) (conv ref : Vec k) (radius : ℝ)
    (hr : ‖ref‖ < radius) :
    ∃ out : Vec k, tangentFromDirection ext conv ref radius = .ok out ∧ ‖out‖ = radius
      ∧ (conv ≠ ref → ∃ t : ℝ, 0 < t ∧ out = ref + t • (conv - ref)) := by
  have hr0 : 0 < radius := lt_of_le_of_lt (norm_nonneg _) hr
  unfold tangentFromDirection
  by_cases h : conv = ref
  · rw [if_pos (by rw [h, sub_self, norm_zero]), dif_pos hk]
    refine ⟨_, rfl, ?_, fun h' => absurd h h'⟩
    rw [EuclideanSpace.norm_single, Real.norm_of_nonneg hr0.le]
  · have hv : conv - ref ≠ 0 := sub_ne_zero.mpr h
    obtain ⟨t, ht, hc, hn⟩ := hx ref (conv - ref) radius hr hv
    rw [if_neg (norm_ne_zero_iff.mpr hv), hc]
    exact ⟨_, rfl, hn, fun _ => ⟨t, ht, rfl⟩⟩

/-! ## C126: the inverted direction space -/

/-- C126: a nonlinear direction which already converges is not changed. -/
theorem C126_unchanged (ext : Ext k) (hi : InvertsAngle ext.invert) (conv nonlinear : Vec k) (weight radius : ℝ)
    (hn : ‖nonlinear‖ ≤ Real.pi) (hr : radius ≤ ‖nonlinear‖) :
    projectedNonlinear ext conv nonlinear weight radius = .ok nonlinear := by
  unfold projectedNonlinear
  simp only [hi nonlinear hn]
  rw [if_pos (by linarith)]

/-- C126: the pulled direction, if the convergence direction is outside of the circle and the nonlinear one inside:
in the inverted space the nonlinear direction is moved along the ray through the convergence direction, by the share
`weight` of the way to the point where this ray leaves the inverted circle. -/
theorem C126_pulled (ext : Ext k) (hi : InvertsAngle ext.invert) (hx : LeavesCircle ext.circle)
    (conv nonlinear : Vec k) (weight radius : ℝ) (hw : 0 < weight) (hcp : ‖conv‖ ≤ Real.pi)
    (hc : radius < ‖conv‖) (hn : ‖nonlinear‖ < radius) (hrp : radius ≤ Real.pi) :
    ∃ t : ℝ, 1 < t
      ∧ ‖ext.invert nonlinear + t • (ext.invert conv - ext.invert nonlinear)‖ = Real.pi - radius
      ∧ projectedNonlinear ext conv nonlinear weight radius
        = .ok (ext.invert (ext.invert nonlinear
          + (weight * t) • (ext.invert conv - ext.invert nonlinear))) := by
  have hcn := hi conv hcp
  have hnn := hi nonlinear (by linarith)
  have hne : ext.invert conv - ext.invert nonlinear ≠ 0 := by
    intro h
    have : ext.invert conv = ext.invert nonlinear := sub_eq_zero.mp h
    rw [this] at hcn
    linarith
  obtain ⟨t, ht, hcirc, hnorm⟩ := hx (ext.invert conv) (ext.invert conv - ext.invert nonlinear)
    (Real.pi - radius) (by linarith) hne
  have e : ext.invert conv + t • (ext.invert conv - ext.invert nonlinear)
      = ext.invert nonlinear + (1 + t) • (ext.invert conv - ext.invert nonlinear) := by module
  refine ⟨1 + t, by linarith, by rw [← e]; exact hnorm, ?_⟩
  have hwn : getNonlinearInvertedWeight ‖ext.invert conv‖ ‖ext.invert nonlinear‖ (Real.pi - radius) weight
      = weight :=
    (C92_inverted _ _ _ weight hw.le).2.2.2.1 (by linarith) (by linarith)
  unfold projectedNonlinear projectionOfInverted
  simp only
  rw [if_neg (by linarith), hwn, if_neg hw.ne', if_neg (by linarith), if_pos (by linarith), hcirc]
  refine congrArg (fun x => Except.ok (ext.invert x)) ?_
  module

/-- C126, violated: the claim that the direction is pulled to the point between the two directions where the
connection crosses the circle.  With the weight one it is always pulled beyond the convergence direction, to the
opposite side of the inverted circle. -/
theorem C126_overshoots (ext : Ext k) (hi : InvertsAngle ext.invert) (hx : LeavesCircle ext.circle)
    (conv nonlinear : Vec k) (radius : ℝ) (hcp : ‖conv‖ ≤ Real.pi)
    (hc : radius < ‖conv‖) (hn : ‖nonlinear‖ < radius) (hrp : radius ≤ Real.pi) :
    ∃ q : Vec k, projectedNonlinear ext conv nonlinear 1 radius = .ok (ext.invert q)
      ∧ ‖q‖ = Real.pi - radius
      ∧ ‖ext.invert conv - ext.invert nonlinear‖ < ‖q - ext.invert nonlinear‖ := by
  obtain ⟨t, h1, hnorm, he⟩ := C126_pulled ext hi hx conv nonlinear 1 radius one_pos hcp hc hn hrp
  refine ⟨_, he, by rw [one_mul]; exact hnorm, ?_⟩
  have hcn := hi conv hcp
  have hnn := hi nonlinear (by linarith)
  have hne : ext.invert conv - ext.invert nonlinear ≠ 0 := by
    intro h
    have : ext.invert conv = ext.invert nonlinear := sub_eq_zero.mp h
    rw [this] at hcn
    linarith
  rw [one_mul, add_sub_cancel_left, norm_smul, Real.norm_of_nonneg (by linarith)]
  exact lt_mul_of_one_lt_left (norm_pos_iff.mpr hne) h1

/-- C126: both directions inside the circle, and the line through the inverted directions crosses the inverted
circle.  If the external intersection lists the more distant point first, the projection is the closer point.

Missing: external intersections which list the closer point first, for which it fails (`C126_secant_stops`,
`C126_secant_mirrored`). -/
theorem C126_secant_partial (ext : Ext k) (conv nonlinear : Vec k) (radius : ℝ) (hr : radius ≤ Real.pi)
    (hn : radius < ‖nonlinear‖) (hc : radius < ‖conv‖) (p0 p1 : Vec k)
    (hp : ext.circleBoth conv (conv - nonlinear) radius = some (p0, p1)) (h1 : ‖p1‖ = radius)
    (s : ℝ) (hs0 : 0 ≤ s) (hs1 : s ≤ 1) (hcl : p1 = p0 + s • (conv - p0)) (hne : conv ≠ p0) :
    projectionOfInverted ext conv nonlinear radius = .ok p1 := by
  have hv : 0 < ‖conv - p0‖ := norm_pos_iff.mpr (sub_ne_zero.mpr hne)
  unfold projectionOfInverted
  rw [if_neg (not_le.mpr hn), if_neg (not_le.mpr hc), hp]
  simp only
  unfold secantPoint
  have hw : ‖p0 - p1‖ / ‖conv - p0‖ = s := by
    rw [hcl, sub_add_cancel_left, norm_neg, norm_smul, Real.norm_of_nonneg hs0,
      mul_div_cancel_right₀ _ hv.ne']
  simp only [hw]
  have e : (1 - s) • p0 + s • conv = p1 := by rw [hcl]; module
  rw [if_neg (not_lt.mpr hs1), e, if_neg (by rw [h1]; exact not_lt.mpr hr)]

/-- C126: the projection is the convergence direction itself, if the nonlinear direction does not leave the circle, or if
both do and the line through them misses the circle. -/
theorem C126_unprojected (ext : Ext k) (conv nonlinear : Vec k) (radius : ℝ)
    (h : ‖nonlinear‖ ≤ radius ∨ (radius < ‖conv‖ ∧ ext.circleBoth conv (conv - nonlinear) radius = none)) :
    projectionOfInverted ext conv nonlinear radius = .ok conv := by
  unfold projectionOfInverted
  by_cases hn : ‖nonlinear‖ ≤ radius
  · rw [if_pos hn]
  · obtain ⟨hc, hp⟩ := h.resolve_left hn
    rw [if_neg hn, if_neg (not_le.mpr hc), hp]

/-- Both cases of `C126_unprojected` occur with two different directions. -/
example : (∃ ext : Ext 1, projectionOfInverted ext (EuclideanSpace.single 0 3) (EuclideanSpace.single 0 1) 2
      = .ok (EuclideanSpace.single 0 3))
    ∧ ∃ ext : Ext 1, projectionOfInverted ext (EuclideanSpace.single 0 3) (EuclideanSpace.single 0 4) 2
      = .ok (EuclideanSpace.single 0 3) := by
  refine ⟨⟨⟨fun _ _ _ => none, fun _ _ _ => none, id⟩, C126_unprojected _ _ _ _ (Or.inl ?_)⟩,
    ⟨⟨fun _ _ _ => none, fun _ _ _ => none, id⟩, C126_unprojected _ _ _ _ (Or.inr ⟨?_, rfl⟩)⟩⟩
  · rw [EuclideanSpace.norm_single]; norm_num
  · rw [EuclideanSpace.norm_single]; norm_num

/-- C126, violated: the claim that a direction is returned.  If the external intersection lists the closer point
first, the call stops (`breakpoint()`) whenever the secant is longer than the way to it. -/
theorem C126_secant_stops (ext : Ext k) (conv nonlinear : Vec k) (radius : ℝ)
    (hn : radius < ‖nonlinear‖) (hc : radius < ‖conv‖) (p0 p1 : Vec k)
    (hp : ext.circleBoth conv (conv - nonlinear) radius = some (p0, p1))
    (hlong : ‖conv - p0‖ < ‖p0 - p1‖) (hne : conv ≠ p0) :
    projectionOfInverted ext conv nonlinear radius = .error .breakpoint := by
  have hv : 0 < ‖conv - p0‖ := norm_pos_iff.mpr (sub_ne_zero.mpr hne)
  unfold projectionOfInverted
  rw [if_neg (not_le.mpr hn), if_neg (not_le.mpr hc), hp]
  simp only
  unfold secantPoint
  simp only
  rw [if_pos]
  rw [gt_iff_lt, lt_div_iff₀ hv, one_mul]
  exact hlong

/-- C126: neither direction converges.  The nonlinear direction is moved in the inverted space by the share `s` of the
way to the projection of the convergence direction; the share is less than the weight, so that the projection is not
reached even with full weight. -/
theorem C126_neither (ext : Ext k) (hi : InvertsAngle ext.invert) (conv nonlinear : Vec k) (weight radius : ℝ)
    (hw : 0 < weight) (hc : ‖conv‖ < radius) (hn : ‖nonlinear‖ < radius) (hrp : radius ≤ Real.pi) :
    ∃ s : ℝ, 0 < s ∧ s < weight
      ∧ s * ((radius - ‖nonlinear‖) + (radius - ‖conv‖)) = weight * (radius - ‖nonlinear‖)
      ∧ (∀ p, projectionOfInverted ext (ext.invert conv) (ext.invert nonlinear) (Real.pi - radius) = .ok p →
          projectedNonlinear ext conv nonlinear weight radius
            = .ok (ext.invert (ext.invert nonlinear + s • (p - ext.invert nonlinear))))
      ∧ (∀ e, projectionOfInverted ext (ext.invert conv) (ext.invert nonlinear) (Real.pi - radius) = .error e →
          projectedNonlinear ext conv nonlinear weight radius = .error e) := by
  have hcn := hi conv (by linarith)
  have hnn := hi nonlinear (by linarith)
  have h := (C92_inverted ‖ext.invert conv‖ ‖ext.invert nonlinear‖ (Real.pi - radius) weight hw.le).2.2.2.2.1
    (by linarith) (by linarith)
  generalize hs : getNonlinearInvertedWeight ‖ext.invert conv‖ ‖ext.invert nonlinear‖ (Real.pi - radius) weight = s at h
  rw [hcn, hnn] at h
  have h' : s * ((radius - ‖nonlinear‖) + (radius - ‖conv‖)) = weight * (radius - ‖nonlinear‖) := by linarith
  have hs0 : 0 < s := by
    by_contra hcon
    push Not at hcon
    nlinarith [mul_pos hw (sub_pos.2 hn)]
  have hsw : s < weight := by
    by_contra hcon
    push Not at hcon
    nlinarith [mul_pos hw (sub_pos.2 hc)]
  have hlt : ¬ ‖ext.invert nonlinear‖ ≤ Real.pi - radius := by rw [hnn]; linarith
  refine ⟨s, hs0, hsw, h', ?_, ?_⟩
  · intro p hp
    unfold projectedNonlinear
    simp only [hs, hp]
    rw [if_neg hlt, if_neg hs0.ne']
    congr 2
    module
  · intro e he
    unfold projectedNonlinear
    simp only [hs, he]
    rw [if_neg hlt, if_neg hs0.ne']

/-- The hypotheses of `C126_neither` are met by two different directions of the line. -/
example : ∃ conv nonlinear : Vec 1, ‖conv‖ < 2 ∧ ‖nonlinear‖ < 2 ∧ conv ≠ nonlinear ∧ (2 : ℝ) ≤ Real.pi := by
  refine ⟨EuclideanSpace.single 0 1, EuclideanSpace.single 0 (1 / 2), ?_, ?_, ?_, Real.two_le_pi⟩
  · rw [EuclideanSpace.norm_single]; norm_num
  · rw [EuclideanSpace.norm_single]; norm_num
  · intro h
    have := congrArg (fun v => v 0) h
    norm_num at this

/-- C126, violated: if the external intersection lists the closer point first and the secant is short, the projection is
not a point of the circle, but the closer point moved by the length of the secant in the wrong direction, away from the
circle. -/
theorem C126_secant_mirrored (ext : Ext k) (conv nonlinear : Vec k) (radius : ℝ)
    (hn : radius < ‖nonlinear‖) (hc : radius < ‖conv‖) (hcp : ‖conv‖ ≤ Real.pi) (p0 p1 : Vec k)
    (hp : ext.circleBoth conv (conv - nonlinear) radius = some (p0, p1)) (h0 : ‖p0‖ = radius) (h1 : ‖p1‖ = radius)
    (s : ℝ) (hs0 : 0 < s) (hs1 : s ≤ 1 / 2) (hcl : p0 = p1 + s • (conv - p1)) (hne : conv ≠ p1) :
    projectionOfInverted ext conv nonlinear radius = .ok (p0 + (p0 - p1)) ∧ radius < ‖p0 + (p0 - p1)‖ := by
  have hv : 0 < ‖conv - p1‖ := norm_pos_iff.mpr (sub_ne_zero.mpr hne)
  have e1 : p0 - p1 = s • (conv - p1) := by rw [hcl]; module
  have e2 : conv - p0 = (1 - s) • (conv - p1) := by rw [hcl]; module
  have hw : ‖p0 - p1‖ / ‖conv - p0‖ = s / (1 - s) := by
    rw [e1, e2, norm_smul, norm_smul, Real.norm_of_nonneg hs0.le, Real.norm_of_nonneg (by linarith),
      mul_div_mul_right _ _ hv.ne']
  have hw1 : s / (1 - s) ≤ 1 := by rw [div_le_one (by linarith)]; linarith
  have ea : (1 - s / (1 - s)) • p0 + (s / (1 - s)) • conv = p0 + (p0 - p1) := by
    have : (1 - s / (1 - s)) • p0 + (s / (1 - s)) • conv = p0 + (s / (1 - s)) • (conv - p0) := by module
    rw [this, e2, smul_smul, div_mul_cancel₀ _ (by linarith), e1]
  have hmid : p0 + (p0 - p1) = (1 - 2 * s) • p1 + (2 * s) • conv := by rw [hcl]; module
  have hr : radius ≤ ‖conv‖ := hc.le
  have hup : ‖p0 + (p0 - p1)‖ ≤ Real.pi := by
    rw [hmid]
    refine (norm_add_le _ _).trans ?_
    rw [norm_smul, norm_smul, Real.norm_of_nonneg (by linarith), Real.norm_of_nonneg (by linarith), h1]
    nlinarith
  refine ⟨?_, ?_⟩
  · unfold projectionOfInverted
    rw [if_neg (not_le.mpr hn), if_neg (not_le.mpr hc), hp]
    simp only
    unfold secantPoint
    simp only [hw]
    rw [if_neg (not_lt.mpr hw1), ea, if_neg (not_lt.mpr hup)]
  · -- the parallelogram identity
    have hpar := parallelogram_law_with_norm ℝ p0 (p0 - p1)
    rw [sub_sub_cancel, h0, h1] at hpar
    have hpos : 0 < ‖p0 - p1‖ := by
      rw [e1, norm_smul, Real.norm_of_nonneg hs0.le]; exact mul_pos hs0 hv
    have hr0 : 0 ≤ radius := h0 ▸ norm_nonneg _
    nlinarith [norm_nonneg (p0 + (p0 - p1))]

/-- The hypotheses of `C126_secant_mirrored` are met by the directions `3` and `5/2` of the line and the radius one half. -/
example : ∃ p0 p1 conv : Vec 1, ‖p0‖ = 1 / 2 ∧ ‖p1‖ = 1 / 2 ∧ 1 / 2 < ‖conv‖ ∧ ‖conv‖ ≤ Real.pi ∧ conv ≠ p1
    ∧ p0 = p1 + (2 / 7 : ℝ) • (conv - p1) := by
  refine ⟨EuclideanSpace.single 0 (1 / 2), EuclideanSpace.single 0 (-1 / 2), EuclideanSpace.single 0 3, ?_, ?_, ?_, ?_, ?_, ?_⟩
  · rw [EuclideanSpace.norm_single]; norm_num
  · rw [EuclideanSpace.norm_single]; norm_num
  · rw [EuclideanSpace.norm_single]; norm_num
  · rw [EuclideanSpace.norm_single]; norm_num; exact Real.pi_gt_three.le
  · intro h
    have := congrArg (fun v => v 0) h
    norm_num at this
  · ext i
    fin_cases i
    norm_num

end Verif.Pull
