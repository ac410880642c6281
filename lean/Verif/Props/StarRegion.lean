import Verif.Lemmas.StarRegion
import Verif.Lemmas.BallsVelocity
import Verif.Props.Trajectory

/-!
# C124: the trajectories of the avoider among star-shaped obstacles

The obstacles are regions with a smooth surface of any star-shaped form, e.g. ellipses.
-/

open scoped RealInnerProductSpace
open Set

namespace Verif
open Spec

variable {d k : ℕ} [Fact (2 ≤ d)]

/-- C124: outside of all regions the velocity is defined, whatever the convergence direction, also straight ahead. -/
theorem C124_defined (ext : Ext d k) (hE : DirectionSpace ext) (has : ArgsortSpec ext.argsort) (a : Avoider d)
    (regions : List (Region d)) (ha : RegionsAvoider a regions) (x v : Vec d) (hx : OutsideAll regions x)
    (hc : ConvergenceDirection ext a x v) (hv : ‖v‖ = 1) : ∃ vel, a.evaluate ext x = .ok vel := by
  obtain ⟨hs, hstatic, hnil, hne, hone⟩ := regions_facts ha hx
  obtain ⟨pr, D, h1, h2, h3⟩ := regions_prepare hE has ha hx hv
  exact avoider_defined ha.power hs hstatic hnil hne hone hc h1 h2 h3

lemma regionPower_one {power φ : ℝ} (hp : 0 ≤ power) (hφ : 0 < φ) (hφ2 : φ ≤ Real.pi / 2) :
    1 ≤ regionPower power φ := by
  unfold regionPower
  refine Real.one_le_rpow ?_ hp
  rw [le_div_iff₀ hφ]
  nlinarith [Real.pi_gt_three]

/-- C124: the avoider approaches each of the regions at most in proportion to the remaining distance (up to the
tolerance of `np.allclose`): the velocity towards the surface vanishes at the surface. -/
theorem C124_rate (ext : Ext d k) (hE : DirectionSpace ext) (has : ArgsortSpec ext.argsort) (a : Avoider d)
    (regions : List (Region d)) (ha : RegionsAvoider a regions) (S φ m : ℝ) (hφ : 0 < φ) (hφ2 : φ ≤ Real.pi / 2)
    (hm : 0 < m) (hsep : Separated m regions) (x vel : Vec d) (hx : OutsideAll regions x)
    (hmag : 0 ≤ a.magnitude x) (hS : max 1 (a.magnitude x) ≤ S)
    (hdir : ∀ v, ConvergenceDirection ext a x v → ‖v‖ = 1 ∧ Slanted φ regions x v)
    (h : a.evaluate ext x = .ok vel) (r : Region d) (hr : r ∈ regions) (L : ℝ)
    (hL : L = S * r.slope * r.scale
      * (4 * Real.pi * (Real.pi ^ 2 / 4 / φ) ^ a.power * max 1 (regions.length / m))) :
    -(L * (r.gauge x - 1)) - S * r.slope * ((1 + Real.pi / 2) * closeness d) ≤ ⟪r.grad x, vel⟫
    ∧ ((∀ v, ConvergenceDirection ext a x v → closeness d < |⟪unit (r.grad x), v⟫|) →
      -(L * (r.gauge x - 1)) ≤ ⟪r.grad x, vel⟫) := by
  have hpp := Real.pi_pos
  obtain ⟨hs, hstatic, hnil, hne, hone⟩ := regions_facts ha hx
  obtain ⟨i, hi⟩ := List.mem_iff_getElem?.mp hr
  obtain ⟨t, _, _, hreg⟩ := regions_index ha hi
  have hxr := hx r hr
  have hxc := region_ne hreg hxr
  obtain ⟨hg0, hn, _⟩ := region_facts hreg hxc
  obtain ⟨hγ1, hγ2⟩ := hreg.outside x hxr
  have hgn : 0 < ‖r.grad x‖ := norm_pos_iff.mpr hg0
  have hgM := hreg.steep x hxc
  have hM : 0 < r.slope := hgn.trans_le hgM
  have hκ := hreg.scale
  have hS1 : 1 ≤ S := (le_max_left _ _).trans hS
  have hη : 0 < closeness d := closeness_pos
  have hP := regionPower_one ha.power hφ hφ2
  have hPe : (Real.pi ^ 2 / 4 / φ) ^ a.power = regionPower a.power φ := rfl
  rw [hPe] at hL
  have hlen : (1 : ℝ) ≤ regions.length := by
    have : 0 < regions.length := List.length_pos_of_mem hr
    exact_mod_cast this
  have hMx : (1 : ℝ) ≤ max 1 (regions.length / m) := le_max_left _ _
  have hG : 0 < r.gauge x - 1 := by linarith
  set K := 4 * Real.pi * regionPower a.power φ * max 1 (regions.length / m) with hK
  have hK0 : 0 < K := by positivity
  have hL0 : 0 ≤ L * (r.gauge x - 1) := by rw [hL]; positivity
  have hT : 0 ≤ S * r.slope * ((1 + Real.pi / 2) * closeness d) := by positivity
  have hy : r.obstacle.gamma x - 1 ≤ r.scale * (r.gauge x - 1) := by linarith
  have hsplit : ∀ u : Vec d, ⟪r.grad x, u⟫ = ‖r.grad x‖ * ⟪unit (r.grad x), u⟫ := by
    intro u
    unfold unit
    rw [real_inner_smul_left]
    field_simp
  rcases avoider_velocity ha.power hs hstatic hne hone
    (by
      intro v pr D hv hpr hD
      obtain ⟨pr', D', e1, e2, e3⟩ := regions_prepare hE has ha hx (hdir v hv).1
      rw [hpr] at e1
      cases e1
      rw [hD] at e2
      cases e2
      exact e3) hmag h with rfl | ⟨v, pr, D, l, hv, hpr, hD, hD1, l0, l1, rfl⟩
  · rw [inner_zero_right]
    exact ⟨by linarith, fun _ => by linarith⟩
  · obtain ⟨hv1, hob⟩ := hdir v hv
    have hlS := l1.trans hS
    have hlg : l * ‖r.grad x‖ ≤ S * r.slope := mul_le_mul hlS hgM hgn.le (by linarith)
    have hlg0 : 0 ≤ l * ‖r.grad x‖ := mul_nonneg l0 hgn.le
    have hform : ⟪r.grad x, l • D⟫ = l * ‖r.grad x‖ * ⟪unit (r.grad x), D⟫ := by
      rw [real_inner_smul_right, hsplit]; ring
    rw [hform]
    -- a lower bound of the inner product with the normal gives the claim
    have lower : ∀ B q : ℝ, 0 ≤ B → -B ≤ q → -(S * r.slope * B) ≤ l * ‖r.grad x‖ * q := by
      intro B q hB hq
      have h1 := mul_le_mul_of_nonneg_left hq hlg0
      have h2 := mul_le_mul_of_nonneg_right hlg hB
      linarith
    by_cases hclose : r.obstacle.gamma x < 1 + m
    · have hbound : K * (r.obstacle.gamma x - 1) ≤ K * (r.scale * (r.gauge x - 1)) :=
        mul_le_mul_of_nonneg_left hy hK0.le
      have hLe : L * (r.gauge x - 1) = S * r.slope * (K * (r.scale * (r.gauge x - 1))) := by rw [hL]; ring
      have hB0 : 0 ≤ K * (r.scale * (r.gauge x - 1)) := by positivity
      rcases regions_direction hE has ha hx hv1 hφ hφ2 hob hpr hD hi hm
        (fun j r' hj hr' => hsep x i j r r' (Ne.symm hj) hi hr' hclose) with h3 | ⟨h3, h4⟩
      · have := lower (K * (r.scale * (r.gauge x - 1))) ⟪unit (r.grad x), D⟫ hB0 (by linarith)
        rw [← hLe] at this
        exact ⟨by linarith, fun _ => this⟩
      · refine ⟨?_, fun hno => absurd h3 (not_le.mpr (hno v hv))⟩
        have := lower (K * (r.scale * (r.gauge x - 1)) + (1 + Real.pi / 2) * closeness d) ⟪unit (r.grad x), D⟫
          (by positivity) (by linarith)
        rw [mul_add, ← hLe] at this
        linarith
    · push Not at hclose
      have hb : -1 ≤ ⟪unit (r.grad x), D⟫ := by
        have := neg_le_of_abs_le (abs_real_inner_le_norm (unit (r.grad x)) D)
        rwa [hn, hD1, mul_one] at this
      have h5 := lower 1 _ zero_le_one hb
      have h6 : S * r.slope * 1 ≤ L * (r.gauge x - 1) := by
        have h7 : m ≤ r.scale * (r.gauge x - 1) := by linarith
        have h8 : 1 ≤ max 1 (regions.length / m) * (r.scale * (r.gauge x - 1)) := by
          calc (1 : ℝ) ≤ regions.length := hlen
            _ = regions.length / m * m := by field_simp
            _ ≤ max 1 (regions.length / m) * (r.scale * (r.gauge x - 1)) :=
              mul_le_mul (le_max_right _ _) h7 hm.le (by linarith)
        have h9 : 1 ≤ 4 * Real.pi * regionPower a.power φ := by nlinarith [Real.pi_gt_three]
        have h10 : 1 ≤ K * (r.scale * (r.gauge x - 1)) := by
          rw [hK, mul_assoc (4 * Real.pi * regionPower a.power φ)]
          calc (1 : ℝ) = 1 * 1 := (mul_one 1).symm
            _ ≤ _ := mul_le_mul h9 h8 zero_le_one (zero_le_one.trans h9)
        have h11 : 0 ≤ S * r.slope := by positivity
        calc S * r.slope * 1 ≤ S * r.slope * (K * (r.scale * (r.gauge x - 1))) := mul_le_mul_of_nonneg_left h10 h11
          _ = L * (r.gauge x - 1) := by rw [hL]; ring
      exact ⟨by linarith, fun _ => by linarith⟩

/-- The derivative of the gauge along a motion. -/
lemma gauge_deriv {o : Obstacle d} {c : Vec d} {gauge : Vec d → ℝ} {grad : Vec d → Vec d} {κ M : ℝ}
    (h : StarRegion o c gauge grad κ M) {x : ℝ → Vec d} {vel : Vec d} {s : Set ℝ} {t : ℝ} (hx : x t ≠ c)
    (hd : HasDerivWithinAt x vel s t) : HasDerivWithinAt (fun u => gauge (x u)) ⟪grad (x t), vel⟫ s t := by
  have := (h.gradient _ hx).hasFDerivAt.comp_hasDerivWithinAt t hd
  rw [InnerProductSpace.toDual_apply_apply] at this
  exact this

/-- The gauge of a region is continuous, also at the reference point. -/
lemma gauge_continuous {o : Obstacle d} {c : Vec d} {gauge : Vec d → ℝ} {grad : Vec d → Vec d} {κ M : ℝ}
    (h : StarRegion o c gauge grad κ M) : Continuous gauge := by
  rw [continuous_iff_continuousAt]
  intro p
  by_cases hp : p = c
  · subst hp
    have h0 : gauge p = 0 := by
      have := h.homogeneous 2 0 two_pos
      rw [smul_zero, add_zero] at this
      linarith
    have hle : ∀ q, |gauge q| ≤ |M| * ‖q - p‖ := by
      intro q
      by_cases hq : q = p
      · rw [hq, h0, sub_self, norm_zero, mul_zero, abs_zero]
      · rw [← region_euler h hq]
        refine (abs_real_inner_le_norm _ _).trans ?_
        exact mul_le_mul_of_nonneg_right ((h.steep q hq).trans (le_abs_self M)) (norm_nonneg _)
    unfold ContinuousAt
    rw [h0]
    refine squeeze_zero_norm hle ?_
    have : Filter.Tendsto (fun q : Vec d => |M| * ‖q - p‖) (nhds p) (nhds (|M| * ‖p - p‖)) := by
      apply Continuous.tendsto
      fun_prop
    simpa using this
  · exact (h.gradient p hp).hasFDerivAt.continuousAt

/-- C124 (partial): a trajectory which starts outside of the regions stays outside of all of them: the relative
distance from each surface decays at most exponentially, with an additional creeping of the size of the tolerance of
`np.allclose`.

Missing: motions which become head-on, obstacles with edges or several components, and times after which the creeping
may have used up the distance (`C124_never_partial` for motions without creeping). -/
theorem C124_trajectory_partial (ext : Ext d k) (hE : DirectionSpace ext) (has : ArgsortSpec ext.argsort)
    (a : Avoider d) (regions : List (Region d)) (ha : RegionsAvoider a regions) (S φ m : ℝ) (hφ : 0 < φ)
    (hφ2 : φ ≤ Real.pi / 2) (hm : 0 < m) (hsep : Separated m regions)
    (hmag : ∀ x, 0 ≤ a.magnitude x ∧ max 1 (a.magnitude x) ≤ S) (T : ℝ) (x : ℝ → Vec d)
    (hx : Trajectory ext a T x) (h0 : OutsideAll regions (x 0))
    (hdir : ∀ t ∈ Icc 0 T, ∀ v, OutsideAll regions (x t) → ConvergenceDirection ext a (x t) v →
      ‖v‖ = 1 ∧ Slanted φ regions (x t) v)
    (L E : Region d → ℝ)
    (hL : ∀ r, L r = S * r.slope * r.scale
      * (4 * Real.pi * (Real.pi ^ 2 / 4 / φ) ^ a.power * max 1 (regions.length / m)))
    (hEq : ∀ r, E r = S * r.slope * ((1 + Real.pi / 2) * closeness d))
    (hT : ∀ t ∈ Icc 0 T, ∀ r ∈ regions,
      0 < (r.gauge (x 0) - 1 + E r / L r) * Real.exp (-(L r * t)) - E r / L r) :
    ∀ t ∈ Icc 0 T, ∀ r ∈ regions,
      (r.gauge (x 0) - 1 + E r / L r) * Real.exp (-(L r * t)) - E r / L r ≤ r.gauge (x t) - 1 := by
  have hpi := Real.pi_pos
  have hS1 : 0 < S := lt_of_lt_of_le one_pos ((le_max_left _ _).trans (hmag 0).2)
  have hreg : ∀ r ∈ regions, StarRegion r.obstacle r.center r.gauge r.grad r.scale r.slope := by
    intro r hr
    obtain ⟨i, hi⟩ := List.mem_iff_getElem?.mp hr
    exact (regions_index ha hi).choose_spec.2.2
  have hLp : ∀ r ∈ regions, 0 < L r := by
    intro r hr
    have h := hreg r hr
    have h1 := h0 r hr
    obtain ⟨h2, h3⟩ := h.outside _ h1
    have hκ : 0 < r.scale := by
      by_contra hc
      have : r.scale * (r.gauge (x 0) - 1) ≤ 0 := mul_nonpos_of_nonpos_of_nonneg (not_lt.mp hc) (by linarith)
      linarith
    have hne := region_ne h h1
    have hM : 0 < r.slope := (norm_pos_iff.mpr (region_facts h hne).1).trans_le (h.steep _ hne)
    have hMx : (0 : ℝ) < max 1 (regions.length / m) := lt_max_of_lt_left one_pos
    rw [hL]; positivity
  choose! vel hev hvel using hx
  have hcont : ContinuousOn x (Icc 0 T) := fun t ht => (hvel t ht).continuousWithinAt
  refine keeps_above_all regions (y := fun r t => r.gauge (x t) - 1)
    (B := fun r t => (r.gauge (x 0) - 1 + E r / L r) * Real.exp (-(L r * t)) - E r / L r)
    (fun r hr => ((gauge_continuous (hreg r hr)).comp_continuousOn hcont).sub continuousOn_const)
    (fun r _ => by fun_prop) (fun r hr t ht => hT t ht r hr) (fun r hr => by have := h0 r hr; linarith) ?_
  intro t ht hp r hr
  have hsub : ∀ s ∈ Icc 0 t, s ∈ Icc 0 T := fun s hs => ⟨hs.1, hs.2.trans ht.2⟩
  have hout : ∀ s ∈ Icc 0 t, OutsideAll regions (x s) := by
    intro s hs r' hr'
    have := hp s hs r' hr'
    linarith
  refine gronwall_below (T := t) (f := fun s => r.gauge (x s) - 1) (f' := fun s => ⟪r.grad (x s), vel s⟫) (hLp r hr) ?_
    le_rfl (by have := h0 r hr; linarith) ?_ (fun s hs => hT s (hsub s hs) r hr) t ⟨ht.1, le_rfl⟩
  · intro s hs
    have hne := region_ne (hreg r hr) (hout s hs r hr)
    exact (gauge_deriv (hreg r hr) hne ((hvel s (hsub s hs)).mono (Icc_subset_Icc_right ht.2))).sub_const 1
  · intro s hs _
    have h1 := (C124_rate ext hE has a regions ha S φ m hφ hφ2 hm hsep (x s) (vel s) (hout s hs) (hmag _).1 (hmag _).2
      (fun v => hdir s (hsub s hs) v (hout s hs)) (hev s (hsub s hs)) r hr (L r) (hL r)).1
    rw [hEq]
    exact h1

/-- C124 (partial): if the motion is never within the tolerance of the tangential plane of a region, the trajectory
never reaches any of the regions, for all times.

Missing: motions which become head-on or pass the tangential plane, obstacles with edges or several components. -/
theorem C124_never_partial (ext : Ext d k) (hE : DirectionSpace ext) (has : ArgsortSpec ext.argsort)
    (a : Avoider d) (regions : List (Region d)) (ha : RegionsAvoider a regions) (S φ m : ℝ) (hφ : 0 < φ)
    (hφ2 : φ ≤ Real.pi / 2) (hm : 0 < m) (hsep : Separated m regions)
    (hmag : ∀ x, 0 ≤ a.magnitude x ∧ max 1 (a.magnitude x) ≤ S) (T : ℝ) (x : ℝ → Vec d)
    (hx : Trajectory ext a T x) (h0 : OutsideAll regions (x 0))
    (hdir : ∀ t ∈ Icc 0 T, ∀ v, OutsideAll regions (x t) → ConvergenceDirection ext a (x t) v →
      ‖v‖ = 1 ∧ Slanted φ regions (x t) v ∧ ∀ r ∈ regions, closeness d < |⟪unit (r.grad (x t)), v⟫|)
    (L : Region d → ℝ)
    (hL : ∀ r, L r = S * r.slope * r.scale
      * (4 * Real.pi * (Real.pi ^ 2 / 4 / φ) ^ a.power * max 1 (regions.length / m))) :
    ∀ t ∈ Icc 0 T, ∀ r ∈ regions, (r.gauge (x 0) - 1) * Real.exp (-(L r * t)) ≤ r.gauge (x t) - 1 := by
  have hpi := Real.pi_pos
  have hS1 : 0 < S := lt_of_lt_of_le one_pos ((le_max_left _ _).trans (hmag 0).2)
  have hreg : ∀ r ∈ regions, StarRegion r.obstacle r.center r.gauge r.grad r.scale r.slope := by
    intro r hr
    obtain ⟨i, hi⟩ := List.mem_iff_getElem?.mp hr
    exact (regions_index ha hi).choose_spec.2.2
  have hLp : ∀ r ∈ regions, 0 < L r := by
    intro r hr
    have h := hreg r hr
    have h1 := h0 r hr
    obtain ⟨h2, h3⟩ := h.outside _ h1
    have hκ : 0 < r.scale := by
      by_contra hc
      have : r.scale * (r.gauge (x 0) - 1) ≤ 0 := mul_nonpos_of_nonpos_of_nonneg (not_lt.mp hc) (by linarith)
      linarith
    have hne := region_ne h h1
    have hM : 0 < r.slope := (norm_pos_iff.mpr (region_facts h hne).1).trans_le (h.steep _ hne)
    have hMx : (0 : ℝ) < max 1 (regions.length / m) := lt_max_of_lt_left one_pos
    rw [hL]; positivity
  choose! vel hev hvel using hx
  have hcont : ContinuousOn x (Icc 0 T) := fun t ht => (hvel t ht).continuousWithinAt
  have hy0 : ∀ r ∈ regions, 0 < r.gauge (x 0) - 1 := fun r hr => by have := h0 r hr; linarith
  refine keeps_above_all regions (y := fun r t => r.gauge (x t) - 1)
    (B := fun r t => (r.gauge (x 0) - 1) * Real.exp (-(L r * t)))
    (fun r hr => ((gauge_continuous (hreg r hr)).comp_continuousOn hcont).sub continuousOn_const)
    (fun r _ => by fun_prop) (fun r hr t _ => mul_pos (hy0 r hr) (Real.exp_pos _)) hy0 ?_
  intro t ht hp r hr
  have hsub : ∀ s ∈ Icc 0 t, s ∈ Icc 0 T := fun s hs => ⟨hs.1, hs.2.trans ht.2⟩
  have hout : ∀ s ∈ Icc 0 t, OutsideAll regions (x s) := by
    intro s hs r' hr'
    have := hp s hs r' hr'
    linarith
  have hy := hy0 r hr
  have := gronwall_below (T := t) (E := 0) (f := fun s => r.gauge (x s) - 1) (f' := fun s => ⟪r.grad (x s), vel s⟫)
    (hLp r hr) ?_ le_rfl hy ?_ (fun s _ => by simp only [zero_div, add_zero, sub_zero]; positivity) t ⟨ht.1, le_rfl⟩
  · simpa using this
  · intro s hs
    have hne := region_ne (hreg r hr) (hout s hs r hr)
    exact (gauge_deriv (hreg r hr) hne ((hvel s (hsub s hs)).mono (Icc_subset_Icc_right ht.2))).sub_const 1
  · intro s hs _
    have h1 := (C124_rate ext hE has a regions ha S φ m hφ hφ2 hm hsep (x s) (vel s) (hout s hs) (hmag _).1 (hmag _).2
      (fun v hv => ⟨(hdir s (hsub s hs) v (hout s hs) hv).1, (hdir s (hsub s hs) v (hout s hs) hv).2.1⟩) (hev s (hsub s hs)) r hr (L r) (hL r)).2
      (fun v hv => (hdir s (hsub s hs) v (hout s hs) hv).2.2 r hr)
    rw [sub_zero]
    exact h1

/-- What a straight motion with several regions in its way is. -/
lemma straight_regions {ext : Ext d k} (has : ArgsortSpec ext.argsort) {projected : Vec d → Convergence d}
    {trees : List (ObstacleTree d)} {regions : List (Region d)} {initial : Dynamics d} {ref : Vec d → Vec d} {u : Vec d}
    {a : Avoider d} (hA : initial.attractorPosition = none) (hown : initial.ownSequence = none)
    (hu : Straight initial.evaluate u) (hr : Straight ref u)
    (ha : createAvoider projected trees initial (some ref) = .ok a) (hpar : ∀ t ∈ trees, t.parentIdx 0 = none)
    (hobs : List.Forall₂ (fun t r => t.rootIdx = 0 ∧ Static t ∧ t.components = [r.obstacle]
      ∧ StarRegion r.obstacle r.center r.gauge r.grad r.scale r.slope) trees regions) (hne : regions ≠ []) :
    RegionsAvoider a regions ∧ a.power = 0.3 ∧ (∀ x, a.magnitude x = ‖initial.evaluate x‖)
      ∧ ∀ x v, OutsideAll regions x → (ConvergenceDirection ext a x v ↔ v = u) := by
  have ha' : a = { initial := initial, convergence := convergenceWithoutSingularity initial.evaluate ref, trees := trees } := by
    unfold createAvoider createLocalConvergence at ha
    rw [hA] at ha
    cases ha; rfl
  have hi : a.initial = initial := by rw [ha']
  have htr : a.trees = trees := by rw [ha']
  have hba : RegionsAvoider a regions := ⟨by rw [htr]; exact hobs, hne, by rw [ha'], by rw [ha']; norm_num⟩
  refine ⟨hba, by rw [ha'], ?_, ?_⟩
  · intro x
    rw [ha']
    rfl
  · intro x v hx
    have hH : ∀ t' ∈ trees, Hierarchy t' := by
      intro t' ht'
      obtain ⟨hroot, _, r, hr, ho, _⟩ := regions_of_tree hba (htr ▸ ht')
      refine ⟨by rw [hroot, ho]; simp, ?_⟩
      intro i hi
      rw [ho] at hi
      have : i = 0 := by simpa using hi
      subst this
      exact ⟨0, by norm_num, .stop (by rw [ho]; simp) (hpar t' ht')⟩
    obtain ⟨s, conv, e1, e2, e3⟩ := C113_straight_partial ext has projected trees initial ref u a hA hown hu hr ha hH x
    constructor
    · rintro ⟨s', conv', f1, f2, f3⟩
      rw [hi, e1] at f1; cases f1
      rw [e2] at f2; cases f2
      rw [e3] at f3; cases f3
      rfl
    · rintro rfl
      exact ⟨s, conv, by rw [hi]; exact e1, e2, e3⟩

/-- C124 (partial): an avoider which `create_with_convergence_dynamics` builds for a motion with the constant direction
`u` and several regions: a trajectory along which the motion stays slanted and outside of the tolerance never reaches
any of the regions.

Missing: motions which become head-on for one of the regions (`C124_head_on`), and those which pass a tangential
plane. -/
theorem C124_straight_partial (ext : Ext d k) (hE : DirectionSpace ext) (has : ArgsortSpec ext.argsort)
    (projected : Vec d → Convergence d) (trees : List (ObstacleTree d)) (regions : List (Region d))
    (initial : Dynamics d) (ref : Vec d → Vec d) (u : Vec d) (a : Avoider d) (hA : initial.attractorPosition = none)
    (hown : initial.ownSequence = none) (hu : Straight initial.evaluate u) (hr : Straight ref u)
    (ha : createAvoider projected trees initial (some ref) = .ok a) (hpar : ∀ t ∈ trees, t.parentIdx 0 = none)
    (hobs : List.Forall₂ (fun t r => t.rootIdx = 0 ∧ Static t ∧ t.components = [r.obstacle]
      ∧ StarRegion r.obstacle r.center r.gauge r.grad r.scale r.slope) trees regions) (hne : regions ≠ [])
    (S φ m : ℝ) (hφ : 0 < φ) (hφ2 : φ ≤ Real.pi / 2) (hm : 0 < m) (hsep : Separated m regions)
    (hS : ∀ x, max 1 ‖initial.evaluate x‖ ≤ S) (T : ℝ) (x : ℝ → Vec d) (hx : Trajectory ext a T x)
    (h0 : OutsideAll regions (x 0))
    (hdir : ∀ t ∈ Icc 0 T, Slanted φ regions (x t) u ∧ ∀ r ∈ regions, closeness d < |⟪unit (r.grad (x t)), u⟫|)
    (L : Region d → ℝ)
    (hL : ∀ r, L r = S * r.slope * r.scale
      * (4 * Real.pi * (Real.pi ^ 2 / 4 / φ) ^ (0.3 : ℝ) * max 1 (regions.length / m))) :
    ∀ t ∈ Icc 0 T, ∀ r ∈ regions, (r.gauge (x 0) - 1) * Real.exp (-(L r * t)) ≤ r.gauge (x t) - 1 := by
  obtain ⟨hba, hpow, hmag, hconv⟩ := straight_regions (ext := ext) has hA hown hu hr ha hpar hobs hne
  refine C124_never_partial ext hE has a regions hba S φ m hφ hφ2 hm hsep ?_ T x hx h0 ?_ L
    (fun r => by rw [hL, hpow])
  · intro y
    rw [hmag]
    exact ⟨norm_nonneg _, hS y⟩
  · intro t ht v hfree hv
    rw [(hconv _ v hfree).mp hv]
    exact ⟨hu.norm, hdir t ht⟩

/-- C124, negative result: a motion along a line through all reference points on which the surfaces are perpendicular to
the line (e.g. a common axis of ellipses) is neither deflected nor slowed down: it moves with unit speed straight to the
next region, and comes arbitrarily close to its surface in finite time. -/
theorem C124_head_on (ext : Ext d k) (hE : DirectionSpace ext) (has : ArgsortSpec ext.argsort)
    (projected : Vec d → Convergence d) (trees : List (ObstacleTree d)) (regions : List (Region d))
    (initial : Dynamics d) (ref : Vec d → Vec d) (u : Vec d) (a : Avoider d) (hA : initial.attractorPosition = none)
    (hown : initial.ownSequence = none) (hu : Straight initial.evaluate u) (hr : Straight ref u)
    (ha : createAvoider projected trees initial (some ref) = .ok a) (hpar : ∀ t ∈ trees, t.parentIdx 0 = none)
    (hobs : List.Forall₂ (fun t r => t.rootIdx = 0 ∧ Static t ∧ t.components = [r.obstacle]
      ∧ StarRegion r.obstacle r.center r.gauge r.grad r.scale r.slope) trees regions) (hne : regions ≠ [])
    (x0 : Vec d) (T : ℝ) (hfree : ∀ τ ∈ Icc 0 T, OutsideAll regions (x0 + τ • u))
    (hline : ∀ r ∈ regions, ∃ s : ℝ, x0 - r.center = s • u)
    (hperp : ∀ τ ∈ Icc 0 T, ∀ r ∈ regions, unit (r.grad (x0 + τ • u)) = unit (x0 + τ • u - r.center)) :
    Trajectory ext a T (fun τ => x0 + τ • u) := by
  obtain ⟨hba, hpow, hmag, hconv⟩ := straight_regions (ext := ext) has hA hown hu hr ha hpar hobs hne
  intro τ hτ
  have hx := hfree τ hτ
  refine ⟨u, ?_, ?_⟩
  · refine regions_axis_evaluate hE has hba (by rw [hpow]; norm_num) hx ((hconv _ u hx).mpr rfl) ?_
    intro r hr
    refine ⟨hperp τ hτ r hr, ?_⟩
    obtain ⟨s, hs⟩ := hline r hr
    obtain ⟨i, hi⟩ := List.mem_iff_getElem?.mp hr
    have hne' := sub_ne_zero.mpr (region_ne (regions_index hba hi).choose_spec.2.2 (hx r hr))
    have e : x0 + τ • u - r.center = (s + τ) • u := by
      rw [add_smul, ← hs]; abel
    rw [e] at hne' ⊢
    have hu1 := hu.norm
    rcases lt_trichotomy (s + τ) 0 with h | h | h
    · right
      unfold unit
      rw [norm_smul, hu1, mul_one, Real.norm_of_nonpos h.le, smul_smul, ← neg_smul]
      have : -(1 / -(s + τ) * (s + τ)) = 1 := by rw [div_neg, neg_mul, neg_neg, one_div, inv_mul_cancel₀ h.ne]
      rw [this, one_smul]
    · rw [h, zero_smul] at hne'
      exact absurd rfl hne'
    · left
      unfold unit
      rw [norm_smul, hu1, mul_one, Real.norm_of_nonneg h.le, smul_smul, one_div, inv_mul_cancel₀ h.ne', one_smul]
  · have := ((hasDerivWithinAt_id τ (Icc 0 T)).smul_const u).const_add x0
    simpa using this

end Verif
