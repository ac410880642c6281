import Verif.Lemmas.Weights
import Mathlib.Analysis.Real.Pi.Bounds

/-!
# Property theorems C32–C38 and C59: rotation, projection, importance, scaling and occlusion
weights

Model: `Verif.Model.Weights` (multi_obstacle_avoider.py, rotational_avoider.py,
nonlinear_rotation_avoider.py, projected_rotation_dynamics.py).
-/

open Verif.Spec
open scoped RealInnerProductSpace

namespace Verif

/-! ## C32 -/

lemma one_div_rpow_le {g e : ℝ} (hg : 1 < g) (he : 1 ≤ e) :
    0 < (1 / g) ^ e ∧ (1 / g) ^ e ≤ 1 / g := by
  have h0 : 0 < 1 / g := by positivity
  have h1 : 1 / g ≤ 1 := by rw [div_le_one (by linarith)]; linarith
  refine ⟨Real.rpow_pos_of_pos h0 _, ?_⟩
  calc (1 / g) ^ e ≤ (1 / g) ^ (1 : ℝ) := Real.rpow_le_rpow_of_exponent_ge h0 h1 he
    _ = 1 / g := Real.rpow_one _

/-- C32 (partial): for every non-negative power the rotation weight is defined (the debugger call
is never reached) and lies in `[0, 1]`; it is one for `gamma ≤ 1` and at most `1 / gamma`
outside.

Missing for the full property: that the weight is positive.  It is (`C32_positive`), except if
the convergence direction is exactly opposite to the reference direction (`C32_aligned_zero`). -/
theorem C32_range_partial {d k : ℕ} (angleOf : Vec d → Vec d → Vec k) (n r v : Vec d)
    (g cr p rb : ℝ) (hp : 0 ≤ p) :
    ∃ w, getRotationWeight angleOf n r v g cr p rb = .ok w ∧ 0 ≤ w ∧ w ≤ 1
      ∧ (g ≤ 1 → w = 1) ∧ (1 < g → w ≤ 1 / g) := by
  unfold getRotationWeight
  by_cases hg : g ≤ 1
  · rw [if_pos hg]
    exact ⟨1, rfl, by norm_num, le_refl _, fun _ => rfl, fun h => absurd hg (not_le.mpr h)⟩
  rw [if_neg hg]
  push Not at hg
  have h0 : 0 < 1 / g := by positivity
  have h1 : 1 / g ≤ 1 := by rw [div_le_one (by linarith)]; linarith
  extract_lets angles dA rR rP
  clear_value angles
  split_ifs with h2 h3 h4 h5 h6
  · exact ⟨1 / g, rfl, h0.le, h1, fun h => absurd h (not_le.mpr hg), fun _ => le_refl _⟩
  · exact ⟨0, rfl, le_refl _, by norm_num, fun h => absurd h (not_le.mpr hg), fun _ => h0.le⟩
  · exact ⟨_, rfl, by rw [Real.rpow_one]; exact h0.le, by rw [Real.rpow_one]; exact h1,
      fun h => absurd h (not_le.mpr hg), fun _ => by rw [Real.rpow_one]⟩
  · exact absurd (le_antisymm (not_lt.mp h4) hp) h5
  · exfalso
    have hd : 0 < dA := lt_of_le_of_ne (norm_nonneg _) (Ne.symm h3)
    have : 1 ≤ rR / dA := by rw [le_div_iff₀ hd]; linarith
    exact absurd (Real.one_le_rpow this hp) (not_le.mpr h6)
  · have := one_div_rpow_le hg (not_lt.mp h6)
    exact ⟨_, rfl, this.1.le, this.2.trans h1, fun h => absurd h (not_le.mpr hg), fun _ => this.2⟩

/-- C32: the weight is positive, if the convergence direction is not exactly opposite to the
reference direction, as seen from either side. -/
theorem C32_positive {d k : ℕ} (angleOf : Vec d → Vec d → Vec k) (n r v : Vec d)
    (g cr p rb : ℝ) (hp : 0 ≤ p)
    (h1 : angleOf n ((-1 : ℝ) • r) ≠ angleOf n v)
    (h2 : angleOf ((-1 : ℝ) • n) r ≠ angleOf ((-1 : ℝ) • n) v) :
    ∃ w, getRotationWeight angleOf n r v g cr p rb = .ok w ∧ 0 < w := by
  obtain ⟨w, hw, h0, -, -, -⟩ := C32_range_partial angleOf n r v g cr p rb hp
  refine ⟨w, hw, lt_of_le_of_ne h0 ?_⟩
  rintro rfl
  unfold getRotationWeight at hw
  by_cases hg : g ≤ 1
  · rw [if_pos hg] at hw; simp at hw
  rw [if_neg hg] at hw
  push Not at hg
  extract_lets angles dA rR rP at hw
  have hd : dA ≠ 0 := by
    simp only [dA, angles]
    split_ifs
    · exact norm_ne_zero_iff.mpr (sub_ne_zero.mpr h1)
    · exact norm_ne_zero_iff.mpr (sub_ne_zero.mpr h2)
  clear_value angles
  rw [if_neg hd] at hw
  have h3 : 0 < 1 / g := by positivity
  split_ifs at hw with h4 h5
  · simp only [Except.ok.injEq] at hw; exact absurd hw h3.ne'
  · simp only [Except.ok.injEq] at hw; exact absurd hw (Real.rpow_pos_of_pos h3 _).ne'

/-- C32 fails to be positive: outside the obstacle the weight is zero if the convergence direction
is exactly opposite to the reference direction and within the convergence radius. -/
theorem C32_aligned_zero {d k : ℕ} (angleOf : Vec d → Vec d → Vec k) (n r : Vec d)
    (g cr p rb : ℝ) (hp : 0 < p) (hg : 1 < g) (hc : ⟪(-1 : ℝ) • r, n⟫ > Real.cos cr)
    (ha : ‖angleOf n ((-1 : ℝ) • r)‖ < min rb cr) :
    getRotationWeight angleOf n r ((-1 : ℝ) • r) g cr p rb = .ok 0 := by
  unfold getRotationWeight
  rw [if_neg (not_le.mpr hg), if_pos hc]
  simp only [sub_self, norm_zero]
  rw [if_neg (by push Not; linarith), if_true, if_pos hp]

/-- C32 is not vacuous: an angle function with distinct angles, and the aligned case in the
plane. -/
example : (∃ (f : Vec 2 → Vec 2 → Vec 1) (n r v : Vec 2), f n ((-1 : ℝ) • r) ≠ f n v
      ∧ f ((-1 : ℝ) • n) r ≠ f ((-1 : ℝ) • n) v)
    ∧ (∃ (f : Vec 2 → Vec 2 → Vec 1) (n r : Vec 2), ⟪(-1 : ℝ) • r, n⟫ > Real.cos (Real.pi / 2)
      ∧ ‖f n ((-1 : ℝ) • r)‖ < min (Real.pi / 2) (Real.pi / 2)) := by
  constructor
  · refine ⟨fun _ v => !₂[v 0], !₂[1, 0], !₂[1, 0], !₂[0, 1], ?_, ?_⟩
    all_goals
      intro h
      have := congrFun (congrArg WithLp.ofLp h) 0
      norm_num at this
  · refine ⟨fun _ v => !₂[v 1], !₂[1, 0], !₂[-1, 0], ?_, ?_⟩
    · rw [Real.cos_pi_div_two]
      simp [PiLp.inner_apply, Fin.sum_univ_two]
    · rw [min_self]
      have : ‖(!₂[((-1 : ℝ) • (!₂[-1, 0] : Vec 2)) 1] : Vec 1)‖ = 0 := by
        rw [norm_eq_zero]; ext i; fin_cases i; simp
      rw [this]; positivity

/-! ## C33 -/

/-- C33: the projected weight of `ConvergenceDynamicsWithoutSingularity` is in `(0, 1]`, one in
contact, and decreases with gamma. -/
theorem C33_without_singularity (g : ℝ) :
    0 < projectedWeightWithoutSingularity g ∧ projectedWeightWithoutSingularity g ≤ 1
      ∧ (g ≤ 1 → projectedWeightWithoutSingularity g = 1)
      ∧ Antitone projectedWeightWithoutSingularity
      ∧ StrictAntiOn projectedWeightWithoutSingularity (Set.Ici 1) := by
  unfold projectedWeightWithoutSingularity
  refine ⟨?_, ?_, ?_, ?_, ?_⟩
  · split_ifs
    · positivity
    · norm_num
  · split_ifs with h
    · rw [div_le_one (by linarith)]; exact h
    · exact le_refl _
  · intro h
    split_ifs with h2
    · rw [le_antisymm h h2]; norm_num
    · rfl
  · intro x y hxy
    dsimp only
    split_ifs with h1 h2 h2
    · exact one_div_le_one_div_of_le (by linarith) hxy
    · rw [div_le_one (by linarith)]; exact h1
    · linarith
    · exact le_refl _
  · intro x hx y hy hxy
    simp only [Set.mem_Ici] at hx hy
    dsimp only
    rw [if_pos (by linarith), if_pos (by linarith)]
    exact one_div_lt_one_div_of_lt (by linarith) hxy

/-- C33: the projected weight of `ProjectedRotationDynamics` is in `(0, 1]`, one in contact of
the position or of its projection, and decreases with both gammas. -/
theorem C33_projected (p : ℝ) (hp : 0 ≤ p) (pg g : ℝ) :
    0 < projectedWeight pg g p ∧ projectedWeight pg g p ≤ 1
      ∧ (pg ≤ 1 ∨ g ≤ 1 → projectedWeight pg g p = 1)
      ∧ (∀ pg' g', pg ≤ pg' → g ≤ g' → projectedWeight pg' g' p ≤ projectedWeight pg g p)
      ∧ (0 < p → ∀ pg' g', 1 < pg → 1 < g → pg ≤ pg' → g < g' →
        projectedWeight pg' g' p < projectedWeight pg g p) := by
  have base : ∀ {a b : ℝ}, ¬ (a ≤ 1 ∨ b ≤ 1) → 0 < 1 / ((a - 1) * (b - 1) + 1)
      ∧ 1 / ((a - 1) * (b - 1) + 1) ≤ 1 := by
    intro a b h
    push Not at h
    have : 0 < (a - 1) * (b - 1) := mul_pos (by linarith [h.1]) (by linarith [h.2])
    exact ⟨by positivity, by rw [div_le_one (by linarith)]; linarith⟩
  have pos : ∀ a b, 0 < projectedWeight a b p := by
    intro a b
    unfold projectedWeight
    split_ifs with h
    · norm_num
    · exact lt_min (Real.rpow_pos_of_pos (base h).1 _) (by norm_num)
  have le1 : ∀ a b, projectedWeight a b p ≤ 1 := by
    intro a b
    unfold projectedWeight
    split_ifs with h
    · exact le_refl _
    · exact min_le_right _ _
  have eq : ∀ {a b}, ¬ (a ≤ 1 ∨ b ≤ 1) →
      projectedWeight a b p = (1 / ((a - 1) * (b - 1) + 1)) ^ p := by
    intro a b h
    unfold projectedWeight
    rw [if_neg h, min_eq_left (Real.rpow_le_one (base h).1.le (base h).2 hp)]
  refine ⟨pos _ _, le1 _ _, ?_, ?_, ?_⟩
  · intro h; unfold projectedWeight; rw [if_pos h]
  · intro pg' g' h1 h2
    by_cases h : pg ≤ 1 ∨ g ≤ 1
    · have : projectedWeight pg g p = 1 := by unfold projectedWeight; rw [if_pos h]
      rw [this]; exact le1 _ _
    · have h' : ¬ (pg' ≤ 1 ∨ g' ≤ 1) := by push Not at h ⊢; exact ⟨by linarith [h.1], by linarith [h.2]⟩
      rw [eq h, eq h']
      apply Real.rpow_le_rpow (base h').1.le _ hp
      push Not at h
      have a1 : 0 < pg - 1 := by linarith [h.1]
      have a2 : 0 < g - 1 := by linarith [h.2]
      apply one_div_le_one_div_of_le (by positivity)
      have := mul_le_mul (sub_le_sub_right h1 1) (sub_le_sub_right h2 1) a2.le (by linarith)
      linarith
  · intro hp0 pg' g' a b h1 h2
    have h : ¬ (pg ≤ 1 ∨ g ≤ 1) := by push Not; exact ⟨a, b⟩
    have h' : ¬ (pg' ≤ 1 ∨ g' ≤ 1) := by push Not; exact ⟨by linarith, by linarith⟩
    rw [eq h, eq h']
    apply Real.rpow_lt_rpow (base h').1.le _ hp0
    have a1 : 0 < pg - 1 := by linarith
    have a2 : 0 < g - 1 := by linarith
    apply one_div_lt_one_div_of_lt (by positivity)
    have := mul_lt_mul_of_pos_left (sub_lt_sub_right h2 1) a1
    have := mul_le_mul_of_nonneg_right (sub_le_sub_right h1 1) (show (0 : ℝ) ≤ g' - 1 by linarith)
    linarith

/-- C33 is not vacuous: a weight strictly between zero and one. -/
example : projectedWeight 2 4 (1 / 2) = 1 / 2 ∧ projectedWeightWithoutSingularity 4 = 1 / 4 := by
  constructor
  · unfold projectedWeight
    rw [if_neg (by norm_num), show (1 / (((2 : ℝ) - 1) * (4 - 1) + 1)) = (1 / 2) ^ (2 : ℝ) by norm_num,
      ← Real.rpow_mul (by norm_num)]
    norm_num
  · unfold projectedWeightWithoutSingularity; norm_num

/-! ## C34 -/

lemma sum_ite_filter (l : List ℝ) (p : ℝ → Prop) [DecidablePred p] (f : ℝ → ℝ) :
    (l.map (fun x => if p x then f x else 0)).sum = ((l.filter (fun x => p x)).map f).sum := by
  induction l with
  | nil => simp
  | cons a l ih =>
    by_cases h : p a
    · simp [h, ih]
    · simp [h, ih]

/-- C34: the importance weights are non-negative, one for each obstacle; obstacles at or beyond
the cut-off get weight zero; the weights sum up to one if some obstacle is closer than the
cut-off. -/
theorem C34_importance (gs : List ℝ) (c gm p : ℝ) (hc : gm < c) :
    SameLength gs (importanceWeights gs c gm p) ∧ Nonneg (importanceWeights gs c gm p)
      ∧ (∀ i, i < gs.length → c ≤ gs.getD i 0 → (importanceWeights gs c gm p).getD i 0 = 0)
      ∧ ((∃ g ∈ gs, g < c) → (importanceWeights gs c gm p).sum = 1) := by
  classical
  unfold importanceWeights
  extract_lets close raw s
  by_cases h1 : close.sum ≠ 0
  · rw [if_pos h1]
    have hpos : 0 < close.sum := lt_of_le_of_ne (sum_nonneg' (indicator_nonneg _ _)) (Ne.symm h1)
    refine ⟨by simp [SameLength], ?_, ?_, ?_⟩
    · intro w hw
      obtain ⟨x, _, rfl⟩ := List.mem_map.mp hw
      split_ifs <;> positivity
    · intro i hi hci
      rw [getD_map _ _ _ hi]
      rw [getD_eq _ _ hi] at hci
      rw [if_neg (by linarith)]
    · intro _
      have : (gs.map (fun g => if g ≤ gm then 1 / close.sum else 0))
          = (close.map (· / close.sum)) := by
        simp only [close, indicator, List.map_map]
        apply List.map_congr_left
        intro g _
        simp only [Function.comp]
        split_ifs <;> simp
      rw [this, sum_map_div, div_self h1]
  · rw [if_neg h1]
    have hlow : ∀ g ∈ gs, gm < g := by
      by_contra hcon
      push Not at hcon
      exact h1 (indicator_sum_ne.mpr hcon)
    have hraw : ∀ g ∈ gs, g < c → 0 < raw g := by
      intro g hg hgc
      apply Real.rpow_pos_of_pos
      rw [sub_pos]
      exact one_div_lt_one_div_of_lt (by linarith [hlow g hg]) (by linarith)
    have hnn : Nonneg ((gs.filter (fun g => g < c)).map raw) := by
      intro w hw
      obtain ⟨x, hx, rfl⟩ := List.mem_map.mp hw
      rw [List.mem_filter] at hx
      exact (hraw x hx.1 (by simpa using hx.2)).le
    have hs0 : 0 ≤ s := sum_nonneg' hnn
    refine ⟨by simp [SameLength], ?_, ?_, ?_⟩
    · intro w hw
      obtain ⟨x, hx, rfl⟩ := List.mem_map.mp hw
      split_ifs with h2 h3
      · exact div_nonneg (hraw x hx h2).le hs0
      · exact (hraw x hx h2).le
      · exact le_refl _
    · intro i hi hci
      rw [getD_map _ _ _ hi]
      rw [getD_eq _ _ hi] at hci
      rw [if_neg (by linarith)]
    · rintro ⟨g, hg, hgc⟩
      have hs : 0 < s := sum_pos_of_mem hnn
        (List.mem_map.mpr ⟨g, List.mem_filter.mpr ⟨hg, by simpa using hgc⟩, rfl⟩) (hraw g hg hgc)
      simp only [if_pos hs]
      rw [sum_ite_filter gs (fun g => g < c) (fun g => raw g / s)]
      have : (gs.filter (fun g => g < c)).map (fun g => raw g / s)
          = (((gs.filter (fun g => g < c)).map raw).map (· / s)) := by
        rw [List.map_map]; rfl
      rw [this, sum_map_div]
      exact div_self hs.ne'

/-- C34: obstacles in contact share the weight equally and all others get none; without contact a
closer obstacle never gets a smaller weight. -/
theorem C34_shares (gs : List ℝ) (c gm p : ℝ) (hc : gm < c) (hp : 0 ≤ p) :
    ((∃ g ∈ gs, g ≤ gm) → ∀ i, i < gs.length → (importanceWeights gs c gm p).getD i 0 =
        open Classical in
        if gs.getD i 0 ≤ gm then 1 / ((gs.filter (fun g => g ≤ gm)).length : ℝ) else 0)
      ∧ ((∀ g ∈ gs, gm < g) → OrderReversing gs (importanceWeights gs c gm p)) := by
  classical
  constructor
  · intro h i hi
    unfold importanceWeights
    simp only
    rw [if_pos (indicator_sum_ne.mpr h), getD_map _ _ _ hi, indicator_sum, getD_eq _ _ hi]
  · intro hlow i j hi hj hij
    have h1 : ¬ (indicator (· ≤ gm) gs).sum ≠ 0 := by
      rw [indicator_sum_ne]; push Not; exact hlow
    have hnn := (C34_importance gs c gm p hc).2.1
    unfold importanceWeights at hnn ⊢
    extract_lets _ raw s at hnn ⊢
    rw [if_neg h1] at hnn ⊢
    rw [getD_eq _ _ hi, getD_eq _ _ hj] at hij
    rw [getD_map _ _ _ hi, getD_map _ _ _ hj]
    have hli := hlow _ (List.getElem_mem hi)
    have hlj := hlow _ (List.getElem_mem hj)
    by_cases h2 : gs[j] < c
    · have h3 : gs[i] < c := by linarith
      rw [if_pos h2, if_pos h3]
      have hr : raw gs[j] ≤ raw gs[i] := by
        apply Real.rpow_le_rpow _ _ hp
        · rw [sub_nonneg]
          exact one_div_le_one_div_of_le (by linarith) (by linarith)
        · have := one_div_le_one_div_of_le (a := gs[i] - gm) (b := gs[j] - gm) (by linarith) (by linarith)
          linarith
      split_ifs with h4
      · exact div_le_div_of_nonneg_right hr h4.le
      · exact hr
    · rw [if_neg h2]
      exact hnn _ (List.mem_map.mpr ⟨gs[i], List.getElem_mem hi, rfl⟩)

/-- C34 is not vacuous: no contact, one obstacle beyond the cut-off; and contact. -/
example : (1 : ℝ) < 3 ∧ (∃ g ∈ [(2 : ℝ), 5], g < 3) ∧ (∀ g ∈ [(2 : ℝ), 5], 1 < g)
    ∧ (3 : ℝ) ≤ [(2 : ℝ), 5].getD 1 0 ∧ (∃ g ∈ [(1 : ℝ), 5], g ≤ 1) := by
  refine ⟨by norm_num, ⟨2, by simp, by norm_num⟩, ?_, by norm_num, ⟨1, by simp, le_refl _⟩⟩
  intro x hx; simp at hx; rcases hx with h | h <;> rw [h] <;> norm_num

/-! ## C35 -/

lemma npPow_unit {a b : ℝ} (h0 : 0 ≤ a) (h1 : a ≤ 1) (hb : 0 ≤ b) :
    ∃ s, npPow a b = some s ∧ 0 ≤ s ∧ s ≤ 1 := by
  unfold npPow
  rw [if_neg (fun h => absurd h.1 (not_lt.mpr h0)), if_neg (fun h => absurd h.2 (not_lt.mpr hb))]
  exact ⟨_, rfl, Real.rpow_nonneg h0 _, Real.rpow_le_one h0 h1 hb⟩

lemma scale_base {d : ℕ} {v n : Vec d} {c : ℝ} (hv : ‖v‖ ≤ 1) (hn : ‖n‖ ≤ 1) (hc0 : 0 ≤ c)
    (hc1 : c ≤ 1) (hd : ⟪v, n⟫ ≤ 0) : 0 ≤ 1 + c * ⟪v, n⟫ ∧ 1 + c * ⟪v, n⟫ ≤ 1 := by
  have h1 : |⟪v, n⟫| ≤ 1 := (abs_real_inner_le_norm v n).trans
    (by calc ‖v‖ * ‖n‖ ≤ 1 * 1 := mul_le_mul hv hn (norm_nonneg _) (by norm_num)
          _ = 1 := by norm_num)
  have h2 := (abs_le.mp h1).1
  have h3 : c * ⟪v, n⟫ ≤ 0 := mul_nonpos_of_nonneg_of_nonpos hc0 hd
  have h4 : c * (-1) ≤ c * ⟪v, n⟫ := mul_le_mul_of_nonneg_left h2 hc0
  exact ⟨by linarith, by linarith⟩

/-- C35: for velocities and normals of at most unit length the safe scaling is defined and in
`[0, 1]`. -/
theorem C35_scaling_range {d : ℕ} (v n : Vec d) (g ds pr : ℝ) (hv : ‖v‖ ≤ 1) (hn : ‖n‖ ≤ 1)
    (h0 : 0 ≤ ds) (h1 : ds ≤ 1) :
    ∃ s, computeSafeScaling v n g ds pr = .ok s ∧ 0 ≤ s ∧ s ≤ 1 := by
  unfold computeSafeScaling
  by_cases h2 : ‖v‖ = 0
  · rw [if_pos h2]
    exact ⟨1, rfl, by norm_num, le_refl _⟩
  rw [if_neg h2]
  extract_lets dp nn pf
  split_ifs with h3 h4 h5
  · exact ⟨1, rfl, by norm_num, le_refl _⟩
  · exact ⟨0, rfl, le_refl _, by norm_num⟩
  · exact ⟨1, rfl, by norm_num, le_refl _⟩
  · push Not at h3 h4
    have hb := scale_base hv hn h0 h1 h3.1
    have hpf : 0 ≤ pf := Real.rpow_nonneg
      (mul_nonneg (one_div_nonneg.mpr (by linarith)) (norm_nonneg _)) _
    obtain ⟨s, hs, hs0, hs1⟩ := npPow_unit hb.1 hb.2 hpf
    have hs' : npPow (1 + ds * dp) pf = some s := hs
    rw [hs']
    exact ⟨s, rfl, hs0, hs1⟩

/-- C35: the scaling is one when moving away from the obstacle, and zero in contact when moving
into it. -/
theorem C35_scaling_cases {d : ℕ} (v n : Vec d) (g ds pr : ℝ) :
    (0 < ⟪v, n⟫ → computeSafeScaling v n g ds pr = .ok 1)
      ∧ (‖v‖ ≤ 1 → g ≤ 1 → ⟪v, n⟫ < -1e-3 → computeSafeScaling v n g ds pr = .ok 0) := by
  constructor
  · intro h
    unfold computeSafeScaling
    by_cases h2 : ‖v‖ = 0
    · rw [if_pos h2]
    · rw [if_neg h2]
      simp only [if_pos (show ⟪v, n⟫ > 0 ∨ isclose ‖n‖ 0 from Or.inl h)]
  · intro hv hg hd
    have hv0 : ‖v‖ ≠ 0 := by
      intro h
      rw [norm_eq_zero.mp h, inner_zero_left] at hd
      norm_num at hd
    have hn : ¬ isclose ‖n‖ 0 := by
      unfold isclose
      have h1 := (abs_le.mp (abs_real_inner_le_norm v n)).1
      have h2 : ‖v‖ * ‖n‖ ≤ 1 * ‖n‖ := mul_le_mul_of_nonneg_right hv (norm_nonneg _)
      rw [sub_zero, abs_zero, abs_of_nonneg (norm_nonneg _)]
      norm_num at hd ⊢
      linarith
    unfold computeSafeScaling
    rw [if_neg hv0]
    simp only
    rw [if_neg (not_or.mpr ⟨by push Not; norm_num at hd; linarith, hn⟩), if_pos hg, if_pos hd]

/-- C35: the safe magnitude returns a non-negative multiple of its input, no longer than the
initial norm. -/
theorem C35_magnitude {d : ℕ} (v n : Vec d) (m g ds pr : ℝ) (hv : ‖v‖ ≤ 1) (hn : ‖n‖ ≤ 1)
    (h0 : 0 ≤ ds) (h1 : ds ≤ 1) (hm : 0 ≤ m) :
    ∃ c : ℝ, 0 ≤ c ∧ computeSafeMagnitude v m n g ds pr = .ok (c • v) ∧ ‖c • v‖ ≤ m := by
  unfold computeSafeMagnitude
  by_cases hz : ‖v‖ = 0
  · rw [if_pos hz]
    refine ⟨1, by norm_num, by rw [one_smul], by rw [one_smul, hz]; exact hm⟩
  rw [if_neg hz]
  have hpos : 0 < ‖v‖ := lt_of_le_of_ne (norm_nonneg _) (Ne.symm hz)
  extract_lets rn dp nn finish pf
  have fin : ∀ s : ℝ, 0 ≤ s → s ≤ 1 →
      ∃ c : ℝ, 0 ≤ c ∧ finish (some s) = .ok (c • v) ∧ ‖c • v‖ ≤ m := by
    intro s hs0 hs1
    refine ⟨s * (m * (1 / ‖v‖)), by positivity, ?_, ?_⟩
    · simp only [finish]
      rw [if_neg (not_lt.mpr hs1), ← smul_assoc, ← smul_assoc]
      simp only [smul_eq_mul]
      rw [mul_assoc]
    · rw [norm_smul, Real.norm_of_nonneg (by positivity)]
      have : s * (m * (1 / ‖v‖)) * ‖v‖ = s * m := by field_simp
      rw [this]
      calc s * m ≤ 1 * m := mul_le_mul_of_nonneg_right hs1 hm
        _ = m := one_mul _
  split_ifs with h3 h4 h5
  · exact fin 1 (by norm_num) (le_refl _)
  · exact ⟨0, le_refl _, by rw [zero_smul], by rw [zero_smul, norm_zero]; exact hm⟩
  · exact fin 1 (by norm_num) (le_refl _)
  · push Not at h3 h4
    have hb := scale_base hv hn h0 h1 h3.1
    have hpf : 0 ≤ pf := Real.rpow_nonneg
      (mul_nonneg (one_div_nonneg.mpr (by linarith)) (norm_nonneg _)) _
    obtain ⟨s, hs, hs0, hs1⟩ := npPow_unit hb.1 hb.2 hpf
    have hs' : npPow (1 + ds * dp) pf = some s := hs
    rw [hs']
    exact fin s hs0 hs1

/-- C35: the safe magnitude is zero in contact when moving into the obstacle and keeps the full
norm when moving away. -/
theorem C35_magnitude_cases {d : ℕ} (v n : Vec d) (m g ds pr : ℝ) (hm : 0 ≤ m) (hv : v ≠ 0) :
    (g ≤ 1 → n ≠ 0 → ⟪v, n⟫ < -1e-3 → computeSafeMagnitude v m n g ds pr = .ok 0)
      ∧ (0 < ⟪v, n⟫ → ∃ u, computeSafeMagnitude v m n g ds pr = .ok u ∧ ‖u‖ = m) := by
  have hz : ‖v‖ ≠ 0 := norm_ne_zero_iff.mpr hv
  unfold computeSafeMagnitude
  rw [if_neg hz]
  extract_lets rn dp nn finish pf
  constructor
  · intro hg hn hd
    rw [if_neg (not_or.mpr ⟨by norm_num at hd; simp only [dp]; linarith, norm_ne_zero_iff.mpr hn⟩),
      if_pos hg, if_pos hd]
  · intro hd
    rw [if_pos (Or.inl hd)]
    simp only [finish]
    rw [if_neg (by norm_num)]
    refine ⟨_, rfl, ?_⟩
    rw [one_smul, norm_smul, norm_smul, Real.norm_of_nonneg hm, Real.norm_of_nonneg (by positivity)]
    simp only [rn]
    field_simp

/-- C35 is not vacuous: moving straight into an obstacle in contact. -/
example : ‖(!₂[-1, 0] : Vec 2)‖ ≤ 1 ∧ ⟪(!₂[-1, 0] : Vec 2), !₂[1, 0]⟫ < -1e-3
    ∧ (0 : ℝ) < ⟪(!₂[1, 0] : Vec 2), !₂[1, 0]⟫ := by
  refine ⟨?_, ?_, ?_⟩
  · simp [EuclideanSpace.norm_eq, Fin.sum_univ_two]
  · simp [PiLp.inner_apply, Fin.sum_univ_two]; norm_num
  · simp

end Verif
