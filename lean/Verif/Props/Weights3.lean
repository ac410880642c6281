import Verif.Lemmas.Weights
import Mathlib.Analysis.Real.Pi.Bounds

/-!
# Property theorems C36–C38 and C59: slow-down, convergence radii, occlusion, surface magnitude

Model: `Verif.Model.Weights` (multi_obstacle_avoider.py:192-195, 366-377, 1008-1214,
rotational_avoider.py:444-469).
-/

open Verif.Spec
open scoped RealInnerProductSpace

namespace Verif

/-! ## C36 -/

lemma mapM_option_some {α β : Type*} {f : α → Option β} {g : α → β} {l : List α}
    (h : ∀ x ∈ l, f x = some (g x)) : l.mapM f = some (l.map g) := by
  induction l with
  | nil => rfl
  | cons a l ih =>
    rw [List.mapM_cons, h a (by simp), ih (fun x hx => h x (by simp [hx]))]
    rfl

lemma min?_exists {l : List ℝ} (h : l ≠ []) : ∃ m, l.min? = some m ∧ m ∈ l := by
  cases hm : l.min? with
  | none => exact absurd (List.min?_eq_none_iff.mp hm) h
  | some m => exact ⟨m, rfl, List.min?_mem hm⟩

lemma max?_exists {l : List ℝ} (h : l ≠ []) : ∃ m, l.max? = some m ∧ m ∈ l := by
  cases hm : l.max? with
  | none => exact absurd (List.max?_eq_none_iff.mp hm) h
  | some m => exact ⟨m, rfl, List.max?_mem hm⟩

/-- C36: for every non-empty history of (rotation weight, reference proximity) pairs with
proximities at most one, the slow-down factor is defined and in `[0, 1]`; it is below one only if
some pair with positive weight and positive proximity demands it. -/
theorem C36_slowfactor (l : List (ℝ × ℝ)) (p : ℝ) (hne : l ≠ []) (hp : 0 ≤ p)
    (h : ∀ x ∈ l, x.2 ≤ 1) :
    ∃ s, slowfactorFromConvergence l p = .ok s ∧ 0 ≤ s ∧ s ≤ 1
      ∧ (∀ x ∈ l, 0 < x.1 → 0 < x.2 → s ≤ ((1 - x.2) / x.1) ^ p)
      ∧ (s < 1 → ∃ x ∈ l, 0 < x.1 ∧ 0 < x.2 ∧ s = ((1 - x.2) / x.1) ^ p) := by
  classical
  have hb : ∀ x ∈ l, x.1 > 0 ∧ 0 < x.2 → 0 ≤ (1 - x.2) / x.1 := fun x hx hc =>
    div_nonneg (by linarith [h x hx]) hc.1.le
  have hf : ∀ x ∈ l, (if x.1 > 0 ∧ 0 < x.2 then npPow ((1 - x.2) / x.1) p else some 1)
      = some (if x.1 > 0 ∧ 0 < x.2 then ((1 - x.2) / x.1) ^ p else 1) := by
    intro x hx
    by_cases hc : x.1 > 0 ∧ 0 < x.2
    · rw [if_pos hc, if_pos hc]
      unfold npPow
      rw [if_neg (fun k => absurd k.1 (not_lt.mpr (hb x hx hc))),
        if_neg (fun k => absurd k.2 (not_lt.mpr hp))]
    · rw [if_neg hc, if_neg hc]
  have hm := mapM_option_some hf
  unfold slowfactorFromConvergence
  have hm' : l.mapM (fun p_1 : ℝ × ℝ => if p_1.1 > 0 ∧ 0 < p_1.2 then npPow ((1 - p_1.2) / p_1.1) p
    else some 1) = some (l.map (fun x => if x.1 > 0 ∧ 0 < x.2 then ((1 - x.2) / x.1) ^ p else 1)) := hm
  obtain ⟨m, hmin, hmem⟩ := min?_exists (l := l.map (fun x : ℝ × ℝ => if x.1 > 0 ∧ 0 < x.2 then
    ((1 - x.2) / x.1) ^ p else 1)) (by simpa using hne)
  have hle : ∀ x ∈ l, m ≤ (if x.1 > 0 ∧ 0 < x.2 then ((1 - x.2) / x.1) ^ p else 1) := fun x hx =>
    (List.le_min?_iff hmin).mp (le_refl m) _ (List.mem_map.mpr ⟨x, hx, rfl⟩)
  refine ⟨min m 1, ?_, ?_, min_le_right _ _, ?_, ?_⟩
  · rw [show l.mapM (fun p_1 : ℝ × ℝ => if p_1.1 > 0 ∧ 0 < p_1.2 then
      npPow ((1 - p_1.2) / p_1.1) p else some 1) = _ from hm']
    simp only
    rw [hmin]
  · obtain ⟨x, hx, rfl⟩ := List.mem_map.mp hmem
    refine le_min ?_ (by norm_num)
    split_ifs with hc
    · exact Real.rpow_nonneg (hb x hx hc) _
    · norm_num
  · intro x hx h1 h2
    have := hle x hx
    rw [if_pos ⟨h1, h2⟩] at this
    exact (min_le_left _ _).trans this
  · intro hs
    obtain ⟨x, hx, hxm⟩ := List.mem_map.mp hmem
    have hm1 : m < 1 := by
      by_contra hc
      push Not at hc
      rw [min_eq_right hc] at hs
      exact lt_irrefl _ hs
    rw [min_eq_left hm1.le]
    split_ifs at hxm with hc
    · exact ⟨x, hx, hc.1, hc.2, hxm.symm⟩
    · linarith

/-- C36: without any stored weight (no obstacle evaluated yet) the call raises `ValueError`. -/
theorem C36_empty (p : ℝ) : slowfactorFromConvergence [] p = .error .valueError := by
  unfold slowfactorFromConvergence
  simp

/-- C36 is not vacuous. -/
example : ∀ x ∈ [((0.5 : ℝ), (0.75 : ℝ)), (0, -1)], x.2 ≤ 1 := by
  intro x hx; simp at hx; rcases hx with h | h <;> rw [h] <;> norm_num

/-! ## C37 -/

/-- C37: the constructor accepts exactly the radii in `[π/2, π]`. -/
theorem C37_constructor (r : ℝ) :
    (checkConvergenceRadius r = .ok () ↔ Real.pi / 2 ≤ r ∧ r ≤ Real.pi)
      ∧ (checkConvergenceRadius r = .error .valueError ↔ ¬ (Real.pi / 2 ≤ r ∧ r ≤ Real.pi)) := by
  have e : Real.pi * 0.5 = Real.pi / 2 := by norm_num; ring
  unfold checkConvergenceRadius
  rw [e]
  split_ifs with h
  · simp [h]
  · simp [h]

/-- The data of one component: `π`-valued radius deep inside, `surface` the point where the ray
from the centre through the position leaves it, not closer to the centre than the position. -/
def InsideGeometry {d : ℕ} (position : Vec d) (c : Obstacle d) : Prop :=
  ∃ s, c.intersection c.center (position - c.center) = some s
    ∧ ‖position - c.center‖ ≤ ‖s - c.center‖ ∧ s ≠ c.center

lemma componentRadius_range {d : ℕ} {r gm : ℝ} {position : Vec d} {c : Obstacle d}
    (hr : r ≤ Real.pi) (hgm : gm < 1) (hgeo : InsideGeometry position c) :
    ∃ x, componentRadius r gm Real.pi position c = some x ∧ r ≤ x ∧ x ≤ Real.pi := by
  obtain ⟨s, hs, hle, hne⟩ := hgeo
  unfold componentRadius
  by_cases hc : allclose position c.center
  · rw [if_pos hc]; exact ⟨_, rfl, hr, le_refl _⟩
  rw [if_neg hc, hs]
  have h0 : ‖s - c.center‖ ≠ 0 := norm_ne_zero_iff.mpr (sub_ne_zero.mpr hne)
  have hpos : 0 < ‖s - c.center‖ := lt_of_le_of_ne (norm_nonneg _) (Ne.symm h0)
  simp only
  rw [if_neg h0]
  split_ifs with h1
  · exact ⟨_, rfl, hr, le_refl _⟩
  · push Not at h1
    have hi : ‖position - c.center‖ / ‖s - c.center‖ ≤ 1 := (div_le_one hpos).mpr hle
    have w0 : 0 ≤ (‖position - c.center‖ / ‖s - c.center‖ - gm) / (1 - gm) :=
      div_nonneg (by linarith) (by linarith)
    have w1 : (‖position - c.center‖ / ‖s - c.center‖ - gm) / (1 - gm) ≤ 1 := by
      rw [div_le_one (by linarith)]; linarith
    refine ⟨_, rfl, ?_, ?_⟩
    · nlinarith
    · nlinarith

/-- C37: every component gets a radius between the configured one and `π`; components the
position is not inside of get the configured one. -/
theorem C37_radii {d : ℕ} (r : ℝ) (gammaMax : Option ℝ) (position : Vec d)
    (cs : List (Obstacle d × ℝ)) (hr : r ≤ Real.pi) (hgm : ∀ gm ∈ gammaMax, gm < 1)
    (hgeo : ∀ c ∈ cs, c.2 < 1 → InsideGeometry position c.1) :
    ∃ out, computeConvergenceRadiuses r gammaMax position cs = .ok out ∧ SameLength cs out
      ∧ (∀ x ∈ out, r ≤ x ∧ x ≤ Real.pi)
      ∧ (∀ i (hi : i < cs.length), 1 ≤ cs[i].2 → out.getD i 0 = r) := by
  classical
  unfold computeConvergenceRadiuses
  cases gammaMax with
  | none =>
    refine ⟨_, rfl, by simp [SameLength], ?_, ?_⟩
    · intro x hx
      obtain ⟨_, _, rfl⟩ := List.mem_map.mp hx
      exact ⟨le_refl _, hr⟩
    · intro i hi _
      rw [getD_map _ _ _ hi]
  | some gm =>
    have hg := hgm gm rfl
    let g : Obstacle d × ℝ → ℝ := fun c => if c.2 < 1 then
      (componentRadius r gm Real.pi position c.1).getD 0 else r
    have hf : ∀ c ∈ cs, (if c.2 < 1 then componentRadius r gm Real.pi position c.1 else some r)
        = some (g c) := by
      intro c hc
      simp only [g]
      split_ifs with h1
      · obtain ⟨x, hx, -, -⟩ := componentRadius_range hr hg (hgeo c hc h1)
        rw [hx]; rfl
      · rfl
    have hm := mapM_option_some hf
    refine ⟨cs.map g, ?_, by simp [SameLength], ?_, ?_⟩
    · simp only
      rw [show cs.mapM (fun c => if c.2 < 1 then componentRadius r gm Real.pi position c.1
        else some r) = some (cs.map g) from hm]
    · intro x hx
      obtain ⟨c, hc, rfl⟩ := List.mem_map.mp hx
      simp only [g]
      split_ifs with h1
      · obtain ⟨y, hy, h2, h3⟩ := componentRadius_range hr hg (hgeo c hc h1)
        rw [hy]; exact ⟨h2, h3⟩
      · exact ⟨le_refl _, hr⟩
    · intro i hi h1
      rw [getD_map _ _ _ hi]
      simp only [g]
      rw [if_neg (not_lt.mpr h1)]

/-- C37: deep inside (relative distance to the centre below `gamma_maximum_repulsion`, or at the
centre) the radius of a component is `π`. -/
theorem C37_deep_inside {d : ℕ} (r gm : ℝ) (position s : Vec d) (c : Obstacle d) (g : ℝ)
    (hg : g < 1) (hs : c.intersection c.center (position - c.center) = some s) (hne : s ≠ c.center)
    (h : position = c.center ∨ ‖position - c.center‖ < gm * ‖s - c.center‖) :
    computeConvergenceRadiuses r (some gm) position [(c, g)] = .ok [Real.pi] := by
  have h0 : ‖s - c.center‖ ≠ 0 := norm_ne_zero_iff.mpr (sub_ne_zero.mpr hne)
  have hpos : 0 < ‖s - c.center‖ := lt_of_le_of_ne (norm_nonneg _) (Ne.symm h0)
  have : componentRadius r gm Real.pi position c = some Real.pi := by
    unfold componentRadius
    by_cases hc : allclose position c.center
    · rw [if_pos hc]
    · rw [if_neg hc, hs]
      simp only
      rw [if_neg h0, if_pos]
      rcases h with h | h
      · exfalso; apply hc; intro i; rw [h]; unfold isclose; simp; positivity
      · rw [div_lt_iff₀ hpos]; exact h
  unfold computeConvergenceRadiuses
  simp [hg, this]

/-- C37: between the two limits the radius joins both ends without a jump: it approaches the
configured radius towards the surface and `π` towards the deep inside, each at most linearly in
the relative distance `ρ` of the position from the centre. -/
theorem C37_joins {d : ℕ} (r gm : ℝ) (position s : Vec d) (c : Obstacle d) (g : ℝ)
    (hg : g < 1) (hgm : gm < 1) (hr : r ≤ Real.pi)
    (hs : c.intersection c.center (position - c.center) = some s) (hne : s ≠ c.center)
    (hc : ¬ allclose position c.center)
    (hge : gm * ‖s - c.center‖ ≤ ‖position - c.center‖)
    (hle : ‖position - c.center‖ ≤ ‖s - c.center‖) :
    ∃ x, computeConvergenceRadiuses r (some gm) position [(c, g)] = .ok [x]
      ∧ |x - r| ≤ (Real.pi - r) / (1 - gm) * (1 - ‖position - c.center‖ / ‖s - c.center‖)
      ∧ |x - Real.pi| ≤
        (Real.pi - r) / (1 - gm) * (‖position - c.center‖ / ‖s - c.center‖ - gm) := by
  have h0 : ‖s - c.center‖ ≠ 0 := norm_ne_zero_iff.mpr (sub_ne_zero.mpr hne)
  have hpos : 0 < ‖s - c.center‖ := lt_of_le_of_ne (norm_nonneg _) (Ne.symm h0)
  have h1 : gm ≤ ‖position - c.center‖ / ‖s - c.center‖ := (le_div_iff₀ hpos).mpr hge
  have h2 : ‖position - c.center‖ / ‖s - c.center‖ ≤ 1 := (div_le_one hpos).mpr hle
  set ρ := ‖position - c.center‖ / ‖s - c.center‖ with hρ
  have hd : (1 : ℝ) - gm ≠ 0 := by linarith
  have : componentRadius r gm Real.pi position c =
      some (r * ((ρ - gm) / (1 - gm)) + Real.pi * (1 - (ρ - gm) / (1 - gm))) := by
    unfold componentRadius
    rw [if_neg hc, hs]
    simp only
    rw [if_neg h0, if_neg (by rw [← hρ]; exact not_lt.mpr h1)]
  have hk : 0 ≤ (Real.pi - r) / (1 - gm) := div_nonneg (by linarith) (by linarith)
  refine ⟨r * ((ρ - gm) / (1 - gm)) + Real.pi * (1 - (ρ - gm) / (1 - gm)),
    by unfold computeConvergenceRadiuses; simp [hg, this], ?_, ?_⟩
  · rw [show r * ((ρ - gm) / (1 - gm)) + Real.pi * (1 - (ρ - gm) / (1 - gm)) - r
      = (Real.pi - r) / (1 - gm) * (1 - ρ) by field_simp; ring]
    rw [abs_of_nonneg (mul_nonneg hk (by linarith))]
  · rw [show r * ((ρ - gm) / (1 - gm)) + Real.pi * (1 - (ρ - gm) / (1 - gm)) - Real.pi
      = -((Real.pi - r) / (1 - gm) * (ρ - gm)) by field_simp; ring]
    rw [abs_neg, abs_of_nonneg (mul_nonneg hk (by linarith))]

/-- A ball of radius one around the origin, as an obstacle. -/
noncomputable def unitBall (d : ℕ) : Obstacle d where
  gamma p := ‖p‖
  normal p := (1 / ‖p‖) • p
  reference p := (-(1 / ‖p‖)) • p
  referencePoint := 0
  center := 0
  intersection s v := open Classical in if s = 0 ∧ v ≠ 0 then some ((1 / ‖v‖) • v) else none
  tailEffect := true
  isBoundary := false

/-- C37 is not vacuous: a position inside a ball. -/
example : InsideGeometry (!₂[(1 / 2 : ℝ), 0]) (unitBall 2)
    ∧ ∃ s, (unitBall 2).intersection (unitBall 2).center (!₂[(1 / 2 : ℝ), 0] - (unitBall 2).center)
      = some s ∧ s ≠ (unitBall 2).center
      ∧ ‖!₂[(1 / 2 : ℝ), 0] - (unitBall 2).center‖ < 0.6 * ‖s - (unitBall 2).center‖
      ∧ ¬ allclose (!₂[(1 / 2 : ℝ), 0]) (unitBall 2).center
      ∧ 0.4 * ‖s - (unitBall 2).center‖ ≤ ‖!₂[(1 / 2 : ℝ), 0] - (unitBall 2).center‖ := by
  have hn : ‖(!₂[(1 / 2 : ℝ), 0] : Vec 2)‖ = 1 / 2 := by
    simp [EuclideanSpace.norm_eq, Fin.sum_univ_two]
  have hne : (!₂[(1 / 2 : ℝ), 0] : Vec 2) ≠ 0 := by
    intro h; rw [h] at hn; simp at hn
  have hi : (unitBall 2).intersection (unitBall 2).center (!₂[(1 / 2 : ℝ), 0] - (unitBall 2).center)
      = some ((1 / (1 / 2 : ℝ)) • !₂[(1 / 2 : ℝ), 0]) := by
    simp only [unitBall, sub_zero]
    rw [if_pos ⟨trivial, hne⟩, hn]
  have hs : ‖(1 / (1 / 2 : ℝ)) • (!₂[(1 / 2 : ℝ), 0] : Vec 2)‖ = 1 := by
    rw [norm_smul, hn]; norm_num
  have hs0 : (1 / (1 / 2 : ℝ)) • (!₂[(1 / 2 : ℝ), 0] : Vec 2) ≠ (unitBall 2).center := by
    intro h; rw [h] at hs; simp [unitBall] at hs
  refine ⟨⟨_, hi, ?_, hs0⟩, _, hi, hs0, ?_, ?_, ?_⟩
  · simp only [unitBall, sub_zero]; rw [hs, hn]; norm_num
  · simp only [unitBall, sub_zero]; rw [hs, hn]; norm_num
  · intro h
    have := h 0
    norm_num [isclose, unitBall] at this
  · simp only [unitBall, sub_zero]; rw [hs, hn]; norm_num

/-! ## C38 -/

/-- C38: the factor of the root is one and every defined factor is in `[0, 1]`; it is defined
whenever the surface point exists and neither the position nor the reference point of the parent
is the reference point of the component. -/
theorem C38_parent_occlusion {d : ℕ} (position : Vec d) (c : Obstacle d) (parent : Option (Obstacle d))
    (hg : ∀ q ∈ parent, ∀ x, 0 ≤ q.gamma x) :
    (parent = none → parentOcclusionWeight position c parent = .ok 1)
      ∧ (∀ w, parentOcclusionWeight position c parent = .ok w → 0 ≤ w ∧ w ≤ 1)
      ∧ (∀ q ∈ parent, (∀ s v, (c.intersection s v).isSome) → position ≠ c.referencePoint →
          q.referencePoint ≠ c.referencePoint →
          ∃ w, parentOcclusionWeight position c parent = .ok w) := by
  have hdot : ∀ (a b : Vec d), ‖b‖ * ‖a‖ ≠ 0 → ¬ ⟪a, b⟫ / (‖b‖ * ‖a‖) ≥ 1 →
      0 < 1 / (1 - ⟪a, b⟫ / (‖b‖ * ‖a‖)) := by
    intro a b _ h
    push Not at h
    exact one_div_pos.mpr (by linarith)
  cases parent with
  | none =>
    refine ⟨fun _ => rfl, ?_, by simp⟩
    intro w hw
    simp only [parentOcclusionWeight, Except.ok.injEq] at hw
    rw [← hw]; norm_num
  | some q =>
    have hq := hg q rfl
    refine ⟨by simp, ?_, ?_⟩
    · intro w hw
      simp only [parentOcclusionWeight] at hw
      split at hw
      · exact absurd hw (by simp)
      · rename_i surf _
        split_ifs at hw with h1 h2 h3
        · simp only [Except.ok.injEq] at hw; rw [← hw]; norm_num
        · simp only [Except.ok.injEq] at hw; rw [← hw]; norm_num
        · have he := hdot _ _ h2 h3
          unfold npPow at hw
          rw [if_neg (fun k => absurd k.1 (not_lt.mpr (hq surf))),
            if_neg (fun k => absurd k.2 (not_lt.mpr he.le))] at hw
          simp only [Except.ok.injEq] at hw
          rw [← hw]
          push Not at h1
          exact ⟨Real.rpow_nonneg (hq _) _, Real.rpow_le_one (hq _) h1.le he.le⟩
    · intro q' hq' hi hp hr
      obtain rfl : q = q' := by simpa using hq'
      simp only [parentOcclusionWeight]
      split
      · rename_i h
        have := hi position (if c.gamma position < 1 then (-1 : ℝ) • c.reference position
          else c.reference position)
        rw [h] at this; simp at this
      · rename_i surf _
        have h0 : ‖position - c.referencePoint‖ * ‖q.referencePoint - c.referencePoint‖ ≠ 0 :=
          mul_ne_zero (norm_ne_zero_iff.mpr (sub_ne_zero.mpr hp))
            (norm_ne_zero_iff.mpr (sub_ne_zero.mpr hr))
        by_cases h1 : q.gamma surf ≥ 1
        · exact ⟨1, by rw [if_pos h1]⟩
        rw [if_neg h1, if_neg h0]
        by_cases h2 : ⟪q.referencePoint - c.referencePoint, position - c.referencePoint⟫
            / (‖position - c.referencePoint‖ * ‖q.referencePoint - c.referencePoint‖) ≥ 1
        · exact ⟨0, by rw [if_pos h2]⟩
        rw [if_neg h2]
        have he := hdot _ _ h0 h2
        unfold npPow
        rw [if_neg (fun k => absurd k.1 (not_lt.mpr (hq surf))),
          if_neg (fun k => absurd k.2 (not_lt.mpr he.le))]
        exact ⟨_, rfl⟩

/-- C38: for a non-empty array `evaluate_occlusion_array` returns non-negative weights with sum
one; if some entry is positive the weights are proportional to the positive part. -/
theorem C38_occlusion_array (ws : List ℝ) (hne : ws ≠ []) :
    ∃ out, evaluateOcclusionArray ws = .ok out ∧ SameLength ws out ∧ Nonneg out ∧ out.sum = 1
      ∧ ((∃ w ∈ ws, 0 < w) → ∃ c, 0 < c ∧ ∀ i, i < ws.length →
          out.getD i 0 = max (ws.getD i 0) 0 * c) := by
  classical
  unfold evaluateOcclusionArray
  by_cases h : ∃ w ∈ ws, w > 0
  · rw [if_pos h]
    simp only
    have hnn : Nonneg (ws.filter (fun w => w > 0)) := by
      intro w hw
      rw [List.mem_filter] at hw
      have : 0 < w := by simpa using hw.2
      exact this.le
    obtain ⟨w, hw, hw0⟩ := h
    have hs : 0 < (ws.filter (fun w => w > 0)).sum :=
      sum_pos_of_mem hnn (List.mem_filter.mpr ⟨hw, by simpa using hw0⟩) hw0
    refine ⟨_, rfl, by simp [SameLength], ?_, ?_, fun _ => ⟨1 / (ws.filter (fun w => w > 0)).sum,
      by positivity, ?_⟩⟩
    · intro x hx
      obtain ⟨y, _, rfl⟩ := List.mem_map.mp hx
      split_ifs with h2
      · have : 0 < y := h2
        positivity
      · exact le_refl _
    · have hsum : ∀ (l : List ℝ) (s : ℝ), (l.map (fun w => if w > 0 then w / s else 0)).sum
          = (l.filter (fun w => w > 0)).sum / s := by
        intro l s
        induction l with
        | nil => simp
        | cons a l ih =>
          by_cases ha : a > 0
          · simp only [List.map_cons, List.sum_cons, ih, if_pos ha]
            rw [List.filter_cons_of_pos (by simpa using ha), List.sum_cons]; ring
          · simp only [List.map_cons, List.sum_cons, ih, if_neg ha]
            rw [List.filter_cons_of_neg (by simpa using ha), zero_add]
      rw [hsum, div_self hs.ne']
    · intro i hi
      rw [getD_map _ _ _ hi, getD_eq _ _ hi]
      split_ifs with h2
      · rw [max_eq_left (le_of_lt h2)]; ring
      · rw [max_eq_right (not_lt.mp h2), zero_mul]
  · rw [if_neg h]
    cases ws with
    | nil => exact absurd rfl hne
    | cons a l =>
      simp only
      have hs : (List.replicate ((a :: l).length - 1) (0 : ℝ) ++ [1]).sum = 1 := by simp
      refine ⟨_, rfl, ?_, ?_, sum_normalised (by rw [hs]; norm_num), fun hc => absurd hc h⟩
      · simp [SameLength, length_normalised]
      · intro w hw
        refine (normalised_inUnit ?_ w hw).1
        intro x hx
        simp only [List.mem_append, List.mem_replicate, List.mem_singleton] at hx
        rcases hx with ⟨_, rfl⟩ | rfl <;> norm_num

/-- C38: an empty array raises `IndexError`. -/
theorem C38_occlusion_array_empty : evaluateOcclusionArray [] = .error .indexError := by
  unfold evaluateOcclusionArray; simp

/-- C38: for a non-empty list of gammas and positive margin, `compute_occlusion_weights` returns
non-negative weights with sum one (with and without the bound on gamma). -/
theorem C38_occlusion_weights (gs : List ℝ) (hne : gs ≠ []) (m : ℝ) (hm : 0 < m)
    (mg : Option ℝ) :
    ∃ out, computeOcclusionWeights gs m mg = .ok out ∧ SameLength gs out ∧ Nonneg out
      ∧ out.sum = 1 := by
  unfold computeOcclusionWeights
  extract_lets gammas
  have hlen : gammas.length = gs.length := by
    simp only [gammas]; cases mg <;> simp
  have hne' : gammas ≠ [] := by
    intro h; rw [h] at hlen; exact hne (List.length_eq_zero_iff.mp (by simpa using hlen.symm))
  by_cases h : ∃ g ∈ gammas, g > 1 + m
  · rw [if_pos h]
    obtain ⟨g, hg, hg1⟩ := h
    have hnn : Nonneg (gammas.map (fun g => if g > 1 then (g - 1) / g else 0)) := by
      intro w hw
      obtain ⟨x, _, rfl⟩ := List.mem_map.mp hw
      split_ifs with h1
      · exact div_nonneg (by linarith) (by linarith)
      · exact le_refl _
    refine ⟨_, rfl, by simp [SameLength, length_normalised, hlen],
      fun w hw => (normalised_inUnit hnn w hw).1, sum_normalised (ne_of_gt ?_)⟩
    refine sum_pos_of_mem hnn (List.mem_map.mpr ⟨g, hg, rfl⟩) ?_
    rw [if_pos (by linarith)]
    exact div_pos (by linarith) (by linarith)
  · rw [if_neg h]
    obtain ⟨mx, hmx, hmem⟩ := max?_exists hne'
    rw [hmx]
    simp only
    have hnn : Nonneg (gammas.map (fun g => max (g - mx + m) 0)) := by
      intro w hw
      obtain ⟨x, _, rfl⟩ := List.mem_map.mp hw
      exact le_max_right _ _
    refine ⟨_, rfl, by simp [SameLength, length_normalised, hlen],
      fun w hw => (normalised_inUnit hnn w hw).1, sum_normalised (ne_of_gt ?_)⟩
    refine sum_pos_of_mem hnn (List.mem_map.mpr ⟨mx, hmem, rfl⟩) ?_
    rw [sub_self, zero_add, max_eq_left hm.le]
    exact hm

/-- C38: an empty list raises `ValueError`. -/
theorem C38_occlusion_weights_empty (m : ℝ) (mg : Option ℝ) :
    computeOcclusionWeights [] m mg = .error .valueError := by
  unfold computeOcclusionWeights; cases mg <;> simp

/-- A defect next to C38: the default `max_gamma = 2` acts as a lower bound, so that all
components with gammas at most two (occluded or not) get the same weight. -/
theorem C38_default_ignores_occlusion (gs : List ℝ) (hne : gs ≠ []) (h : ∀ g ∈ gs, g ≤ 2) :
    computeOcclusionWeights gs = .ok (List.replicate gs.length (1 / (gs.length : ℝ))) := by
  unfold computeOcclusionWeights
  have e : gs.map (fun g => max g 2) = List.replicate gs.length 2 := by
    rw [List.eq_replicate_iff]
    refine ⟨by simp, ?_⟩
    intro b hb
    obtain ⟨x, hx, rfl⟩ := List.mem_map.mp hb
    exact max_eq_right (h x hx)
  simp only [e]
  have hlen : gs.length ≠ 0 := fun h0 => hne (List.length_eq_zero_iff.mp h0)
  have hx : ∃ g ∈ List.replicate gs.length (2 : ℝ), g > 1 + 0.1 :=
    ⟨2, List.mem_replicate.mpr ⟨hlen, rfl⟩, by norm_num⟩
  rw [if_pos hx, List.map_replicate]
  unfold normalised
  rw [List.map_replicate, List.sum_replicate]
  have hl : (gs.length : ℝ) ≠ 0 := by exact_mod_cast hlen
  congr 2
  rw [if_pos (by norm_num), nsmul_eq_mul]
  field_simp

/-- C38 is not vacuous: a parent that occludes the component, with non-negative gamma everywhere,
and a component whose surface is always hit. -/
example : ∃ (position : Vec 2) (c q : Obstacle 2), (∀ x, 0 ≤ q.gamma x)
    ∧ (∀ s v, (c.intersection s v).isSome) ∧ position ≠ c.referencePoint
    ∧ q.referencePoint ≠ c.referencePoint ∧ q.gamma (position) < 1 := by
  refine ⟨0, { unitBall 2 with referencePoint := !₂[1, 0], intersection := fun s _ => some s },
    unitBall 2, fun x => norm_nonneg x, fun _ _ => rfl, ?_, ?_, by simp [unitBall]⟩
  all_goals
    intro h
    have := congrFun (congrArg WithLp.ofLp h) 0
    simp [unitBall] at this

/-! ## C59 -/

lemma limitLoop_spec {d : ℕ} (v : Vec d) (l : List (ℝ × Vec d)) (best : Option (ℝ × ℝ)) :
    (limitLoop v l best = best
        ∧ ∀ o ∈ l, (match best with | none => (0 : ℝ) | some b => b.2) ≤ ⟪v, o.2⟫)
      ∨ ∃ o ∈ l, limitLoop v l best = some (o.1, ⟪v, o.2⟫)
        ∧ ⟪v, o.2⟫ < (match best with | none => (0 : ℝ) | some b => b.2)
        ∧ ∀ o' ∈ l, ⟪v, o.2⟫ ≤ ⟪v, o'.2⟫ := by
  induction l generalizing best with
  | nil => left; exact ⟨rfl, by simp⟩
  | cons a l ih =>
    obtain ⟨g, n⟩ := a
    unfold limitLoop
    extract_lets dp md
    have hmd : (match best with | none => (0 : ℝ) | some b => b.2) = md := rfl
    rw [hmd]
    by_cases h : dp < md
    · rw [if_pos h]
      right
      rcases ih (some (g, dp)) with ⟨h1, h2⟩ | ⟨o, ho, h1, h2, h3⟩
      · refine ⟨(g, n), by simp, h1, h, ?_⟩
        intro o' ho'
        rcases List.mem_cons.mp ho' with rfl | ho'
        · exact le_refl _
        · exact h2 o' ho'
      · refine ⟨o, by simp [ho], h1, h2.trans h, ?_⟩
        intro o' ho'
        rcases List.mem_cons.mp ho' with rfl | ho'
        · exact le_of_lt h2
        · exact h3 o' ho'
    · rw [if_neg h]
      rcases ih best with ⟨h1, h2⟩ | ⟨o, ho, h1, h2, h3⟩
      · left
        refine ⟨h1, ?_⟩
        intro o' ho'
        rcases List.mem_cons.mp ho' with rfl | ho'
        · exact not_lt.mp h
        · exact h2 o' ho'
      · right
        refine ⟨o, by simp [ho], h1, h2, ?_⟩
        intro o' ho'
        rcases List.mem_cons.mp ho' with rfl | ho'
        · exact (le_of_lt h2).trans (not_lt.mp h)
        · exact h3 o' ho'

/-- C59: the limited velocity is the velocity scaled by a factor in `[0, 1]` times the initial
magnitude; the factor is one if the velocity points into no obstacle. -/
theorem C59_factor {d : ℕ} (v : Vec d) (m : ℝ) (l : List (ℝ × Vec d)) (hv : ‖v‖ ≤ 1)
    (hl : ∀ o ∈ l, 1 ≤ o.1 ∧ ‖o.2‖ ≤ 1) :
    ∃ c : ℝ, 0 ≤ c ∧ c ≤ 1 ∧ limitMagnitude v m l = (c * m) • v
      ∧ ((∀ o ∈ l, 0 ≤ ⟪v, o.2⟫) → c = 1)
      ∧ (∀ o ∈ l, ⟪v, o.2⟫ < 0 → c < 1) := by
  unfold limitMagnitude
  rcases limitLoop_spec v l none with ⟨h1, h2⟩ | ⟨o, ho, h1, h2, h3⟩
  · rw [h1]
    refine ⟨1, by norm_num, le_refl _, by rw [one_mul], fun _ => rfl, ?_⟩
    intro o ho h
    exact absurd (h2 o ho) (not_le.mpr h)
  · rw [h1]
    simp only at h2
    have hg := (hl o ho).1
    have hn := (hl o ho).2
    have hd : -1 ≤ ⟪v, o.2⟫ := by
      have := (abs_le.mp (abs_real_inner_le_norm v o.2)).1
      have : ‖v‖ * ‖o.2‖ ≤ 1 * 1 := mul_le_mul hv hn (norm_nonneg _) (by norm_num)
      linarith
    have hi0 : 0 < 1 / o.1 := by positivity
    have hi1 : 1 / o.1 ≤ 1 := by rw [div_le_one (by linarith)]; exact hg
    have hneg : 1 / o.1 * ⟪v, o.2⟫ < 0 := mul_neg_of_pos_of_neg hi0 h2
    refine ⟨1 + 1 / o.1 * ⟪v, o.2⟫, ?_, by linarith, by simp only [mul_smul], ?_, ?_⟩
    · have : 1 / o.1 * (-1) ≤ 1 / o.1 * ⟪v, o.2⟫ := mul_le_mul_of_nonneg_left hd hi0.le
      linarith
    · intro h
      exact absurd (h o ho) (not_le.mpr h2)
    · intro _ _ _; linarith

/-- C59 (partial): the limited velocity vanishes if the velocity points straight into an obstacle
in contact, and no obstacle that is not in contact has the same normal.

Missing for the full property: the last hypothesis.  Without it the statement is false
(`C59_not_stopped`), since the factor uses the gamma of the first of the obstacles which are
opposed most. -/
theorem C59_stops_partial {d : ℕ} (v : Vec d) (m : ℝ) (l : List (ℝ × Vec d)) (hv : ‖v‖ = 1)
    (hl : ∀ o ∈ l, ‖o.2‖ ≤ 1) (h1 : (1, -v) ∈ l) (h2 : ∀ o ∈ l, o.2 = -v → o.1 = 1) :
    limitMagnitude v m l = 0 := by
  have hvv : ⟪v, -v⟫ = -1 := by rw [inner_neg_right, real_inner_self_eq_norm_sq, hv]; norm_num
  unfold limitMagnitude
  rcases limitLoop_spec v l none with ⟨_, h⟩ | ⟨o, ho, e, _, h⟩
  · have := h _ h1
    simp only [hvv] at this
    norm_num at this
  · rw [e]
    have hle := h _ h1
    simp only [hvv] at hle
    have hge : -1 ≤ ⟪v, o.2⟫ := by
      have := (abs_le.mp (abs_real_inner_le_norm v o.2)).1
      have := hl o ho
      rw [hv] at *
      linarith
    have heq : ⟪v, o.2⟫ = -1 := le_antisymm hle hge
    have ho2 : o.2 = -v := by
      have hs : ‖o.2 + v‖ ^ 2 ≤ 0 := by
        rw [norm_add_sq_real, real_inner_comm, heq, hv]
        have := hl o ho
        have := pow_le_one₀ (norm_nonneg o.2) this (n := 2)
        linarith
      have : ‖o.2 + v‖ = 0 := by
        have := sq_nonneg ‖o.2 + v‖
        exact pow_eq_zero_iff (two_ne_zero) |>.mp (le_antisymm hs this)
      exact eq_neg_of_add_eq_zero_left (norm_eq_zero.mp this)
    simp only [heq, h2 o ho ho2]
    norm_num

/-- C59 fails: pointing straight into an obstacle in contact, the velocity is not stopped if
another obstacle, further away and first in the list, has the same normal. -/
theorem C59_not_stopped {d : ℕ} (v : Vec d) (hv : ‖v‖ = 1) :
    limitMagnitude v 1 [(2, -v), (1, -v)] = (1 / 2 : ℝ) • v := by
  have hvv : ⟪v, -v⟫ = -1 := by rw [inner_neg_right, real_inner_self_eq_norm_sq, hv]; norm_num
  unfold limitMagnitude
  simp only [limitLoop, hvv]
  norm_num

/-- C59 is not vacuous. -/
example : ‖(!₂[1, 0] : Vec 2)‖ = 1 ∧ ((1 : ℝ), -(!₂[1, 0] : Vec 2)) ∈ [((1 : ℝ), -(!₂[1, 0] : Vec 2))] := by
  constructor
  · simp [EuclideanSpace.norm_eq, Fin.sum_univ_two]
  · simp

end Verif
