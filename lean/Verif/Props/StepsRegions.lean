import Verif.Props.Steps
import Verif.Props.StarRegionExamples
import Mathlib.Analysis.Convex.Deriv

/-!
# C130: simulated steps among several convex regions

As `Verif.Props.Steps`, for obstacles of any convex shape with a smooth surface.
-/

open scoped RealInnerProductSpace
open Set

namespace Verif
open Spec

variable {d k : ℕ} [Fact (2 ≤ d)]

omit [Fact (2 ≤ d)] in
/-- A convex gauge is above its tangents. -/
lemma convex_step {gauge : Vec d → ℝ} {grad x : Vec d} (hc : ConvexOn ℝ univ gauge) (hg : HasGradientAt gauge grad x)
    (w : Vec d) : gauge x + ⟪grad, w⟫ ≤ gauge (x + w) := by
  have h1 : ConvexOn ℝ univ (fun t : ℝ => gauge (x + t • w)) := by
    refine ⟨convex_univ, fun s _ t _ a b ha hb hab => ?_⟩
    have h := hc.2 (mem_univ (x + s • w)) (mem_univ (x + t • w)) ha hb hab
    have e : a • (x + s • w) + b • (x + t • w) = x + (a • s + b • t) • w := by
      have : x = (a + b) • x := by rw [hab, one_smul]
      rw [smul_eq_mul, smul_eq_mul]
      calc a • (x + s • w) + b • (x + t • w) = (a + b) • x + (a * s + b * t) • w := by module
        _ = _ := by rw [hab, one_smul]
    rw [e] at h
    exact h
  have h2 : HasDerivAt (fun t : ℝ => gauge (x + t • w)) ⟪grad, w⟫ 0 := by
    have hx : HasDerivAt (fun t : ℝ => x + t • w) w 0 := by
      have := ((hasDerivAt_id (0 : ℝ)).smul_const w).const_add x
      simpa using this
    have hf : HasFDerivAt gauge ((InnerProductSpace.toDual ℝ (Vec d)) grad) (x + (0 : ℝ) • w) := by
      rw [zero_smul, add_zero]; exact hg.hasFDerivAt
    exact hf.comp_hasDerivAt (0 : ℝ) hx
  have h3 := h1.le_slope_of_hasDerivAt (mem_univ 0) (mem_univ 1) one_pos h2
  rw [slope_def_field] at h3
  simp at h3
  linarith

/-- How fast the direction of the velocity approaches any of several regions. -/
lemma regions_unit_rate {ext : Ext d k} (hE : DirectionSpace ext) (has : ArgsortSpec ext.argsort) {a : Avoider d}
    {regions : List (Region d)} (ha : RegionsAvoider a regions) {φ m : ℝ} (hφ : 0 < φ) (hφ2 : φ ≤ Real.pi / 2)
    (hm : 0 < m) (hsep : Separated m regions) {x vel : Vec d} (hx : OutsideAll regions x)
    (hmag : 0 ≤ a.magnitude x)
    (hdir : ∀ v, ConvergenceDirection ext a x v → ‖v‖ = 1 ∧ Slanted φ regions x v)
    (h : a.evaluate ext x = .ok vel) (hvel : vel ≠ 0) {r : Region d} (hr : r ∈ regions) {L : ℝ}
    (hL : L = r.slope * r.scale
      * (4 * Real.pi * (Real.pi ^ 2 / 4 / φ) ^ a.power * max 1 (regions.length / m)))
    (hno : ∀ v, ConvergenceDirection ext a x v → closeness d < |⟪unit (r.grad x), v⟫|) :
    -(L * (r.gauge x - 1)) ≤ ⟪r.grad x, unit vel⟫ := by
  have hpp := Real.pi_pos
  obtain ⟨hs, hstatic, hnil, hne, hone⟩ := regions_facts ha hx
  obtain ⟨i, hi⟩ := List.mem_iff_getElem?.mp hr
  obtain ⟨t, _, _, hreg⟩ := regions_index ha hi
  have hxr := hx r hr
  have hxc := region_ne hreg hxr
  obtain ⟨hg0, hn, _⟩ := region_facts hreg hxc
  obtain ⟨hγ1, hγ2⟩ := hreg.outside x hxr
  have hgn : 0 < ‖r.grad x‖ := norm_pos_iff.mpr hg0
  have hgM := hreg.steep x hxc
  have hM : 0 < r.slope := hgn.trans_le hgM
  have hκ := hreg.scale
  have hP := regionPower_one ha.power hφ hφ2
  have hPe : (Real.pi ^ 2 / 4 / φ) ^ a.power = regionPower a.power φ := rfl
  rw [hPe] at hL
  have hlen : (1 : ℝ) ≤ regions.length := by
    have : 0 < regions.length := List.length_pos_of_mem hr
    exact_mod_cast this
  have hMx : (1 : ℝ) ≤ max 1 (regions.length / m) := le_max_left _ _
  have hG : 0 < r.gauge x - 1 := by linarith
  set K := 4 * Real.pi * regionPower a.power φ * max 1 (regions.length / m) with hK
  have hK0 : 0 < K := by positivity
  have hy : r.obstacle.gamma x - 1 ≤ r.scale * (r.gauge x - 1) := by linarith
  have hsplit : ∀ u : Vec d, ⟪r.grad x, u⟫ = ‖r.grad x‖ * ⟪unit (r.grad x), u⟫ := by
    intro u
    unfold unit
    rw [real_inner_smul_left]
    field_simp
  rcases avoider_velocity ha.power hs hstatic hne hone
    (by
      intro v pr D hv hpr hD
      obtain ⟨pr', D', e1, e2, e3⟩ := regions_prepare hE has ha hx (hdir v hv).1
      rw [hpr] at e1
      cases e1
      rw [hD] at e2
      cases e2
      exact e3) hmag h with rfl | ⟨v, pr, D, l, hv, hpr, hD, hD1, l0, l1, rfl⟩
  · exact absurd rfl hvel
  have hl : 0 < l := lt_of_le_of_ne l0 (by rintro rfl; rw [zero_smul] at hvel; exact hvel rfl)
  have hu : unit (l • D) = D := by
    unfold unit
    rw [norm_smul, hD1, mul_one, Real.norm_of_nonneg l0, smul_smul, one_div, inv_mul_cancel₀ hl.ne', one_smul]
  rw [hu]
  obtain ⟨hv1, hob⟩ := hdir v hv
  rw [hsplit]
  have lower : ∀ B q : ℝ, 0 ≤ B → -B ≤ q → -(r.slope * B) ≤ ‖r.grad x‖ * q := by
    intro B q hB hq
    have h1 := mul_le_mul_of_nonneg_left hq hgn.le
    have h2 := mul_le_mul_of_nonneg_right hgM hB
    linarith
  have hB0 : 0 ≤ K * (r.scale * (r.gauge x - 1)) := by positivity
  have hLe : L * (r.gauge x - 1) = r.slope * (K * (r.scale * (r.gauge x - 1))) := by rw [hL]; ring
  rw [hLe]
  refine lower _ _ hB0 ?_
  by_cases hclose : r.obstacle.gamma x < 1 + m
  · have hbound : K * (r.obstacle.gamma x - 1) ≤ K * (r.scale * (r.gauge x - 1)) :=
      mul_le_mul_of_nonneg_left hy hK0.le
    rcases regions_direction hE has ha hx hv1 hφ hφ2 hob hpr hD hi hm
      (fun j r' hj hr' => hsep x i j r r' (Ne.symm hj) hi hr' hclose) with h3 | ⟨h3, h4⟩
    · linarith
    · exact absurd h3 (not_le.mpr (hno v hv))
  · push Not at hclose
    have hb : -1 ≤ ⟪unit (r.grad x), D⟫ := by
      have := neg_le_of_abs_le (abs_real_inner_le_norm (unit (r.grad x)) D)
      rwa [hn, hD1, mul_one] at this
    have h7 : m ≤ r.scale * (r.gauge x - 1) := by linarith
    have h8 : 1 ≤ max 1 (regions.length / m) * (r.scale * (r.gauge x - 1)) := by
      calc (1 : ℝ) ≤ regions.length := hlen
        _ = regions.length / m * m := by field_simp
        _ ≤ max 1 (regions.length / m) * (r.scale * (r.gauge x - 1)) :=
          mul_le_mul (le_max_right _ _) h7 hm.le (by linarith)
    have h9 : 1 ≤ 4 * Real.pi * regionPower a.power φ := by nlinarith [Real.pi_gt_three]
    have h10 : 1 ≤ K * (r.scale * (r.gauge x - 1)) := by
      rw [hK, mul_assoc (4 * Real.pi * regionPower a.power φ)]
      calc (1 : ℝ) = 1 * 1 := (mul_one 1).symm
        _ ≤ _ := mul_le_mul h9 h8 zero_le_one (zero_le_one.trans h9)
    linarith

/-- C130 (partial), for obstacles of any convex shape with a smooth surface (ellipses for example): a robot which moves
for the time `dt` with the velocity returned by the avoider, again and again, never enters any of the regions, however
many steps it makes, if the steps are short (`dt * L < 1`): every step leaves at least the fraction `1 - dt * L` of the
distance value to every region.

Missing: regions which are not convex or not smooth, regions which touch or overlap, motions which become head-on
(`C124_head_on`) or pass a tangential plane. -/
theorem C130_regions_steps_partial (ext : Ext d k) (hE : DirectionSpace ext) (has : ArgsortSpec ext.argsort)
    (a : Avoider d) (regions : List (Region d)) (ha : RegionsAvoider a regions)
    (hconv : ∀ r ∈ regions, ConvexOn ℝ univ r.gauge) (S φ m : ℝ) (hφ : 0 < φ) (hφ2 : φ ≤ Real.pi / 2)
    (hm : 0 < m) (hsep : Separated m regions) (hmag : ∀ x, 0 ≤ a.magnitude x ∧ max 1 (a.magnitude x) ≤ S) (dt : ℝ)
    (hdt : 0 ≤ dt) (L : Region d → ℝ)
    (hL : ∀ r, L r = S * r.slope * r.scale
      * (4 * Real.pi * (Real.pi ^ 2 / 4 / φ) ^ a.power * max 1 (regions.length / m)))
    (hdL : ∀ r ∈ regions, dt * L r < 1) (x vel : ℕ → Vec d) (hvel : ∀ n, a.evaluate ext (x n) = .ok (vel n))
    (hstep : ∀ n, x (n + 1) = x n + dt • vel n) (h0 : OutsideAll regions (x 0))
    (hdir : ∀ n v, OutsideAll regions (x n) → ConvergenceDirection ext a (x n) v →
      ‖v‖ = 1 ∧ Slanted φ regions (x n) v ∧ ∀ r ∈ regions, closeness d < |⟪unit (r.grad (x n)), v⟫|) :
    ∀ n, OutsideAll regions (x n)
      ∧ ∀ r ∈ regions, (1 - dt * L r) ^ n * (r.gauge (x 0) - 1) ≤ r.gauge (x n) - 1 := by
  have free : ∀ n, (∀ r ∈ regions, (1 - dt * L r) ^ n * (r.gauge (x 0) - 1) ≤ r.gauge (x n) - 1) →
      OutsideAll regions (x n) := by
    intro n h r hr
    have h1 := h r hr
    have h2 : 0 < (1 - dt * L r) ^ n * (r.gauge (x 0) - 1) :=
      mul_pos (pow_pos (by linarith [hdL r hr]) n) (by linarith [h0 r hr])
    linarith
  have key : ∀ n, ∀ r ∈ regions, (1 - dt * L r) ^ n * (r.gauge (x 0) - 1) ≤ r.gauge (x n) - 1 := by
    intro n
    induction n with
    | zero => intro r _; rw [pow_zero, one_mul]
    | succ n ih =>
      have hfree := free n ih
      intro r hr
      have h1 := (C124_rate ext hE has a regions ha S φ m hφ hφ2 hm hsep (x n) (vel n) hfree (hmag _).1 (hmag _).2
        (fun v hv => ⟨(hdir n v hfree hv).1, (hdir n v hfree hv).2.1⟩) (hvel n) r hr (L r) (hL r)).2
        (fun v hv => (hdir n v hfree hv).2.2 r hr)
      obtain ⟨i, hi⟩ := List.mem_iff_getElem?.mp hr
      obtain ⟨t, _, _, hreg⟩ := regions_index ha hi
      have h2 := convex_step (hconv r hr) (hreg.gradient (x n) (region_ne hreg (hfree r hr))) (dt • vel n)
      rw [real_inner_smul_right] at h2
      have h3 := mul_le_mul_of_nonneg_left h1 hdt
      have h4 := mul_le_mul_of_nonneg_left (ih r hr) (show 0 ≤ 1 - dt * L r by linarith [hdL r hr])
      rw [hstep n, pow_succ]
      calc (1 - dt * L r) ^ n * (1 - dt * L r) * (r.gauge (x 0) - 1)
          = (1 - dt * L r) * ((1 - dt * L r) ^ n * (r.gauge (x 0) - 1)) := by ring
        _ ≤ (1 - dt * L r) * (r.gauge (x n) - 1) := h4
        _ = r.gauge (x n) - 1 + dt * (-(L r * (r.gauge (x n) - 1))) := by ring
        _ ≤ _ := by linarith
  exact fun n => ⟨free n (key n), key n⟩

/-- The positions which the simulation reaches from the start. -/
lemma regions_simulated_clear {ext : Ext d k} (hE : DirectionSpace ext) (has : ArgsortSpec ext.argsort)
    {a : Avoider d} {regions : List (Region d)} (ha : RegionsAvoider a regions)
    (hconv : ∀ r ∈ regions, ConvexOn ℝ univ r.gauge) {φ m : ℝ} (hφ : 0 < φ) (hφ2 : φ ≤ Real.pi / 2)
    (hm : 0 < m) (hsep : Separated m regions) (hmag : ∀ x, 0 ≤ a.magnitude x) {dt margin : ℝ} (hdt : 0 ≤ dt)
    {L : Region d → ℝ}
    (hL : ∀ r, L r = r.slope * r.scale
      * (4 * Real.pi * (Real.pi ^ 2 / 4 / φ) ^ a.power * max 1 (regions.length / m)))
    (hdL : ∀ r ∈ regions, dt * L r < 1) {c : Option (Vec d → Bool)} {start : Vec d} {traj : List (Vec d)}
    (hhead : traj = [] ∨ traj.head? = some start) (hsim : Simulates (a.evaluate ext) dt margin c traj)
    (h0 : OutsideAll regions start)
    (hdir : ∀ p ∈ traj, ∀ v, OutsideAll regions p → ConvergenceDirection ext a p v →
      ‖v‖ = 1 ∧ Slanted φ regions p v ∧ ∀ r ∈ regions, closeness d < |⟪unit (r.grad p), v⟫|) :
    ∀ (i : ℕ) (p : Vec d), traj[i]? = some p → OutsideAll regions p
      ∧ ∀ r ∈ regions, (1 - dt * L r) ^ i * (r.gauge start - 1) ≤ r.gauge p - 1 := by
  have free : ∀ n p, (∀ r ∈ regions, (1 - dt * L r) ^ n * (r.gauge start - 1) ≤ r.gauge p - 1) →
      OutsideAll regions p := by
    intro n p h r hr
    have h1 := h r hr
    have h2 : 0 < (1 - dt * L r) ^ n * (r.gauge start - 1) :=
      mul_pos (pow_pos (by linarith [hdL r hr]) n) (by linarith [h0 r hr])
    linarith
  have key : ∀ (i : ℕ) (p : Vec d), traj[i]? = some p → ∀ r ∈ regions,
      (1 - dt * L r) ^ i * (r.gauge start - 1) ≤ r.gauge p - 1 := by
    intro i
    induction i with
    | zero =>
      intro p hp b _
      rcases hhead with h | h
      · rw [h] at hp; cases hp
      · rw [List.head?_eq_getElem?, hp] at h
        cases h
        rw [pow_zero, one_mul]
    | succ i ih =>
      intro q hq r hr
      have hi : i < traj.length := by
        have := (List.getElem?_eq_some_iff.mp hq).1
        omega
      have hp : traj[i]? = some traj[i] := List.getElem?_eq_getElem hi
      obtain ⟨v, hv, hv0, _, rfl, _⟩ := hsim i _ _ hp hq
      have ih := ih _ hp
      have hmem : traj[i] ∈ traj := List.getElem_mem hi
      have hfree := free i _ ih
      have h1 := regions_unit_rate hE has ha hφ hφ2 hm hsep hfree (hmag _)
        (fun v hv => ⟨(hdir _ hmem v hfree hv).1, (hdir _ hmem v hfree hv).2.1⟩) hv hv0 hr (hL r)
        (fun v hv => (hdir _ hmem v hfree hv).2.2 r hr)
      obtain ⟨j, hj⟩ := List.mem_iff_getElem?.mp hr
      obtain ⟨t, _, _, hreg⟩ := regions_index ha hj
      have h2 := convex_step (hconv r hr) (hreg.gradient traj[i] (region_ne hreg (hfree r hr))) (dt • unit v)
      rw [real_inner_smul_right] at h2
      have h3 := mul_le_mul_of_nonneg_left h1 hdt
      have h4 := mul_le_mul_of_nonneg_left (ih r hr) (show 0 ≤ 1 - dt * L r by linarith [hdL r hr])
      rw [pow_succ]
      calc (1 - dt * L r) ^ i * (1 - dt * L r) * (r.gauge start - 1)
          = (1 - dt * L r) * ((1 - dt * L r) ^ i * (r.gauge start - 1)) := by ring
        _ ≤ (1 - dt * L r) * (r.gauge traj[i] - 1) := h4
        _ = r.gauge traj[i] - 1 + dt * (-(L r * (r.gauge traj[i] - 1))) := by ring
        _ ≤ _ := by linarith
  intro i p hp
  exact ⟨free i p (key i p hp), key i p hp⟩

/-- C130 (partial), for obstacles of any convex shape with a smooth surface: every position of the trajectory which the
comparison simulates with the avoider is outside of all regions, whatever the number of iterations, if the start is and
if the steps are short.

Missing: as for `C130_regions_steps_partial`. -/
theorem C130_regions_simulated_partial (ext : Ext d k) (hE : DirectionSpace ext) (has : ArgsortSpec ext.argsort)
    (a : Avoider d) (regions : List (Region d)) (ha : RegionsAvoider a regions)
    (hconv : ∀ r ∈ regions, ConvexOn ℝ univ r.gauge) (φ m : ℝ) (hφ : 0 < φ) (hφ2 : φ ≤ Real.pi / 2)
    (hm : 0 < m) (hsep : Separated m regions) (hmag : ∀ x, 0 ≤ a.magnitude x) (dt margin : ℝ) (hdt : 0 ≤ dt)
    (L : Region d → ℝ)
    (hL : ∀ r, L r = r.slope * r.scale
      * (4 * Real.pi * (Real.pi ^ 2 / 4 / φ) ^ a.power * max 1 (regions.length / m)))
    (hdL : ∀ r ∈ regions, dt * L r < 1) (c : Option (Vec d → Bool)) (start : Vec d) (itMax : ℕ) (traj : List (Vec d))
    (h : Comparison.integrateTrajectory (a.evaluate ext) start itMax dt margin c = .ok traj)
    (h0 : OutsideAll regions start)
    (hdir : ∀ p ∈ traj, ∀ v, OutsideAll regions p → ConvergenceDirection ext a p v →
      ‖v‖ = 1 ∧ Slanted φ regions p v ∧ ∀ r ∈ regions, closeness d < |⟪unit (r.grad p), v⟫|) :
    ∀ (i : ℕ) (p : Vec d), traj[i]? = some p → OutsideAll regions p
      ∧ ∀ r ∈ regions, (1 - dt * L r) ^ i * (r.gauge start - 1) ≤ r.gauge p - 1 := by
  obtain ⟨h1, h2, _⟩ := C121_trajectory_partial (a.evaluate ext) start itMax dt margin c traj h
  exact regions_simulated_clear hE has ha hconv hφ hφ2 hm hsep hmag hdt hL hdL h1 h2 h0 hdir

/-- C130 (partial), for obstacles of any convex shape with a smooth surface: the simulation never ends because of a
collision or with an exception: it returns as many positions as allowed, or ends because the motion comes to rest.  The
collision functor may be any which reports no positions outside of all regions.

Missing: as for `C130_regions_steps_partial`. -/
theorem C130_regions_completes_partial (ext : Ext d k) (hE : DirectionSpace ext) (has : ArgsortSpec ext.argsort)
    (a : Avoider d) (regions : List (Region d)) (ha : RegionsAvoider a regions)
    (hconv : ∀ r ∈ regions, ConvexOn ℝ univ r.gauge) (φ m : ℝ) (hφ : 0 < φ) (hφ2 : φ ≤ Real.pi / 2)
    (hm : 0 < m) (hsep : Separated m regions) (hmag : ∀ x, 0 ≤ a.magnitude x) (dt margin : ℝ) (hdt : 0 ≤ dt)
    (L : Region d → ℝ)
    (hL : ∀ r, L r = r.slope * r.scale
      * (4 * Real.pi * (Real.pi ^ 2 / 4 / φ) ^ a.power * max 1 (regions.length / m)))
    (hdL : ∀ r ∈ regions, dt * L r < 1) (hmargin : 0 < margin) (c : Option (Vec d → Bool))
    (hc : ∀ g, c = some g → ∀ p, g p = true → ¬ OutsideAll regions p)
    (start : Vec d) (itMax : ℕ) (hit : 2 ≤ itMax) (h0 : OutsideAll regions start)
    (hdir : ∀ (l : List (Vec d)) (p : Vec d), l.head? = some start → Simulates (a.evaluate ext) dt margin c l → p ∈ l →
      OutsideAll regions p → (∃ v, ConvergenceDirection ext a p v) ∧ ∀ v, ConvergenceDirection ext a p v →
        ‖v‖ = 1 ∧ Slanted φ regions p v ∧ ∀ r ∈ regions, closeness d < |⟪unit (r.grad p), v⟫|) :
    ∃ traj, Comparison.integrateTrajectory (a.evaluate ext) start itMax dt margin c = .ok traj
      ∧ (traj.length = itMax ∨ ∃ p v, a.evaluate ext p = .ok v ∧ ‖v‖ < margin ∧ (traj ++ [p]).head? = some start
        ∧ Simulates (a.evaluate ext) dt margin c (traj ++ [p])) := by
  have hfree : ∀ (l : List (Vec d)) (p : Vec d), l.head? = some start → Simulates (a.evaluate ext) dt margin c l →
      p ∈ l → OutsideAll regions p := by
    intro l p hl hs hp
    obtain ⟨i, hi⟩ := List.mem_iff_getElem?.mp hp
    exact (regions_simulated_clear hE has ha hconv hφ hφ2 hm hsep hmag hdt hL hdL (Or.inr hl) hs h0
      (fun q hq v hfr hv => (hdir l q hl hs hq hfr).2 v hv) i p hi).1
  have hdef : ∀ (l : List (Vec d)) (p : Vec d), l.head? = some start → Simulates (a.evaluate ext) dt margin c l →
      p ∈ l → ∃ v, a.evaluate ext p = .ok v := by
    intro l p hl hs hp
    have hfp := hfree l p hl hs hp
    obtain ⟨⟨v, hv⟩, hall⟩ := hdir l p hl hs hp hfp
    exact C124_defined ext hE has a regions ha p v hfp hv (hall v hv).1
  obtain ⟨fuel, rfl⟩ : ∃ fuel, itMax = fuel + 2 := ⟨itMax - 2, by omega⟩
  obtain ⟨traj, ht⟩ := integrateLoop_defined hmargin hdef (fuel + 1) (acc := [start]) (last := start) rfl rfl
    (simulates_single _ _ _ _ _)
  have ht' : Comparison.integrateTrajectory (a.evaluate ext) start (fuel + 2) dt margin c = .ok traj := ht
  refine ⟨traj, ht', ?_⟩
  obtain ⟨h1, h2, _, _, h3⟩ := C121_trajectory_partial (a.evaluate ext) start (fuel + 2) dt margin c traj ht'
  rcases h3 with h3 | ⟨g, p, v, hg, hp, hv, hcol⟩ | h3
  · exact Or.inl h3
  · exfalso
    have hmem := List.mem_of_getLast? hp
    have hhead : traj.head? = some start := by
      rcases h1 with rfl | h1
      · cases hmem
      · exact h1
    have hfp := hfree traj p hhead h2 hmem
    refine hc g hg _ hcol ?_
    by_cases hv0 : v = 0
    · rw [hv0]; unfold unit; rw [smul_zero, smul_zero, add_zero]; exact hfp
    · intro r hr
      have hall := (hdir traj p hhead h2 hmem hfp).2
      have h4 := regions_unit_rate hE has ha hφ hφ2 hm hsep hfp (hmag _)
        (fun v hv => ⟨(hall v hv).1, (hall v hv).2.1⟩) hv hv0 hr (hL r) (fun v hv => (hall v hv).2.2 r hr)
      obtain ⟨j, hj⟩ := List.mem_iff_getElem?.mp hr
      obtain ⟨t, _, _, hreg⟩ := regions_index ha hj
      have h5 := convex_step (hconv r hr) (hreg.gradient p (region_ne hreg (hfp r hr))) (dt • unit v)
      rw [real_inner_smul_right] at h5
      have h6 := mul_le_mul_of_nonneg_left h4 hdt
      have h7 := mul_pos (show 0 < 1 - dt * L r by linarith [hdL r hr]) (show 0 < r.gauge p - 1 by linarith [hfp r hr])
      have h8 : (1 - dt * L r) * (r.gauge p - 1) = r.gauge p - 1 + dt * (-(L r * (r.gauge p - 1))) := by ring
      linarith
  · exact Or.inr h3

/-! ## Examples: the motion away from an ellipse -/

lemma oval_convex (c : Vec 2) : ConvexOn ℝ univ (ovalR c).gauge := by
  have hn : ∀ p : Vec 2, ovalGauge p = ‖(!₂[p 0 / 2, p 1] : Vec 2)‖ := by
    intro p
    rw [EuclideanSpace.norm_eq]
    unfold ovalGauge
    simp [Fin.sum_univ_two]
  refine ⟨convex_univ, fun x _ y _ a b ha hb hab => ?_⟩
  change ovalGauge (a • x + b • y - c) ≤ a * ovalGauge (x - c) + b * ovalGauge (y - c)
  have e : a • x + b • y - c = a • (x - c) + b • (y - c) := by
    have : c = (a + b) • c := by rw [hab, one_smul]
    calc a • x + b • y - c = a • x + b • y - (a + b) • c := by rw [hab, one_smul]
      _ = _ := by module
  rw [e, hn, hn, hn]
  have e2 : (!₂[(a • (x - c) + b • (y - c)) 0 / 2, (a • (x - c) + b • (y - c)) 1] : Vec 2)
      = a • !₂[(x - c) 0 / 2, (x - c) 1] + b • !₂[(y - c) 0 / 2, (y - c) 1] := by
    ext i; fin_cases i <;> simp <;> ring
  rw [e2]
  refine (norm_add_le _ _).trans ?_
  rw [norm_smul, norm_smul, Real.norm_of_nonneg ha, Real.norm_of_nonneg hb]

lemma oval_away (argsort : List ℤ → List ℕ) (has : ArgsortSpec argsort) (t : ℝ) (ht : 0 ≤ t) :
    (straightOvals longAxis [0]).evaluate (planeExt argsort) ((4 : ℝ) • longAxis + t • longAxis) = .ok longAxis := by
  have hv := longAxis_norm
  obtain ⟨h1, h2, h3, h4⟩ := straightOvals_regions (ext := planeExt argsort) has hv (cs := [0]) (by simp)
  have hx := oval_behind ht
  refine regions_axis_evaluate (planeExt_space argsort) has h1 (by rw [h2]; norm_num) hx ((h4 _ longAxis hx).mpr rfl) ?_
  intro r hr
  simp only [List.map_cons, List.map_nil, List.mem_cons, List.not_mem_nil, or_false] at hr
  subst hr
  change unit (ovalGrad ((4 : ℝ) • longAxis + t • longAxis - 0)) = unit ((4 : ℝ) • longAxis + t • longAxis - 0)
    ∧ (longAxis = unit ((4 : ℝ) • longAxis + t • longAxis - 0) ∨ longAxis = -unit ((4 : ℝ) • longAxis + t • longAxis - 0))
  rw [sub_zero, ← add_smul]
  exact ⟨oval_axis_normal (by linarith), Or.inl (by rw [unit_scale (by linarith), unit_of_norm_one hv])⟩

lemma oval_slanted {t : ℝ} (ht : 0 ≤ t) :
    Slanted (Real.pi / 2) ([0].map ovalR) ((4 : ℝ) • longAxis + t • longAxis) longAxis
      ∧ ∀ r ∈ [0].map ovalR, closeness 2 < |⟪unit (r.grad ((4 : ℝ) • longAxis + t • longAxis)), longAxis⟫| := by
  have hv := longAxis_norm
  have hv0 : longAxis ≠ 0 := by intro h; rw [h, norm_zero] at hv; norm_num at hv
  have hpi := Real.pi_pos
  have hs : 0 < 4 + t := by linarith
  constructor
  · intro r hr
    simp only [List.map_cons, List.map_nil, List.mem_cons, List.not_mem_nil, or_false] at hr
    subst hr
    refine ⟨?_, fun h => by simp at h⟩
    change Real.pi / 2 ≤ InnerProductGeometry.angle (0 - ((4 : ℝ) • longAxis + t • longAxis)) longAxis
    rw [zero_sub, ← add_smul, InnerProductGeometry.angle_neg_left, InnerProductGeometry.angle_smul_left_of_pos _ _ hs,
      InnerProductGeometry.angle_self hv0]
    linarith
  · intro r hr
    simp only [List.map_cons, List.map_nil, List.mem_cons, List.not_mem_nil, or_false] at hr
    subst hr
    change closeness 2 < |⟪unit (ovalGrad ((4 : ℝ) • longAxis + t • longAxis - 0)), longAxis⟫|
    rw [sub_zero, ← add_smul, oval_axis_normal hs.ne', unit_scale hs, unit_of_norm_one hv, real_inner_self_eq_norm_sq, hv]
    norm_num
    exact closeness_plane.trans_lt (by norm_num)

/-- The hypotheses of `C130_regions_steps_partial` are met by the robot which moves away from an ellipse. -/
example (argsort : List ℤ → List ℕ) (has : ArgsortSpec argsort) (dt : ℝ) (hdt : 0 ≤ dt) :
    RegionsAvoider (straightOvals longAxis [0]) ([0].map ovalR) ∧ Separated 1 ([0].map ovalR)
    ∧ (∀ r ∈ [0].map ovalR, ConvexOn ℝ univ r.gauge)
    ∧ (∀ x, 0 ≤ (straightOvals longAxis [0]).magnitude x ∧ max 1 ((straightOvals longAxis [0]).magnitude x) ≤ 1)
    ∧ (∀ n : ℕ, (straightOvals longAxis [0]).evaluate (planeExt argsort) ((4 : ℝ) • longAxis + ((n : ℝ) * dt) • longAxis)
        = .ok longAxis)
    ∧ (∀ n : ℕ, (4 : ℝ) • longAxis + (((n + 1 : ℕ) : ℝ) * dt) • longAxis
        = (4 : ℝ) • longAxis + ((n : ℝ) * dt) • longAxis + dt • longAxis)
    ∧ ∀ (n : ℕ) (w : Vec 2), OutsideAll ([0].map ovalR) ((4 : ℝ) • longAxis + ((n : ℝ) * dt) • longAxis)
      ∧ (ConvergenceDirection (planeExt argsort) (straightOvals longAxis [0])
          ((4 : ℝ) • longAxis + ((n : ℝ) * dt) • longAxis) w → ‖w‖ = 1
        ∧ Slanted (Real.pi / 2) ([0].map ovalR) ((4 : ℝ) • longAxis + ((n : ℝ) * dt) • longAxis) w
        ∧ ∀ r ∈ [0].map ovalR, closeness 2 < |⟪unit (r.grad ((4 : ℝ) • longAxis + ((n : ℝ) * dt) • longAxis)), w⟫|) := by
  have hv := longAxis_norm
  obtain ⟨h1, _, h3, h4⟩ := straightOvals_regions (ext := planeExt argsort) has hv (cs := [0]) (by simp)
  have hn : ∀ n : ℕ, 0 ≤ (n : ℝ) * dt := fun n => by positivity
  refine ⟨h1, oval_single 0, ?_, fun x => by rw [h3, hv]; norm_num, fun n => oval_away argsort has _ (hn n), ?_, ?_⟩
  · intro r hr
    simp only [List.map_cons, List.map_nil, List.mem_cons, List.not_mem_nil, or_false] at hr
    subst hr
    exact oval_convex 0
  · intro n; rw [Nat.cast_add, Nat.cast_one]; module
  · intro n w
    have hx := oval_behind (hn n)
    refine ⟨hx, fun hw => ?_⟩
    rw [(h4 _ w hx).mp hw]
    exact ⟨hv, oval_slanted (hn n)⟩

/-- The hypotheses of `C130_regions_simulated_partial` and `C130_regions_completes_partial` are met by the simulation of
the motion away from an ellipse. -/
example (argsort : List ℤ → List ℕ) (has : ArgsortSpec argsort) (dt margin : ℝ)
    (hdt : 0 ≤ dt) (c : Option (Vec 2 → Bool)) (l : List (Vec 2)) (hl : l.head? = some ((4 : ℝ) • longAxis))
    (hs : Simulates ((straightOvals longAxis [0]).evaluate (planeExt argsort)) dt margin c l) (p : Vec 2) (hp : p ∈ l) :
    OutsideAll ([0].map ovalR) p ∧ ConvergenceDirection (planeExt argsort) (straightOvals longAxis [0]) p longAxis
    ∧ ∀ w, ConvergenceDirection (planeExt argsort) (straightOvals longAxis [0]) p w → ‖w‖ = 1
        ∧ Slanted (Real.pi / 2) ([0].map ovalR) p w
        ∧ ∀ r ∈ [0].map ovalR, closeness 2 < |⟪unit (r.grad p), w⟫| := by
  have hv := longAxis_norm
  obtain ⟨h1, _, h3, h4⟩ := straightOvals_regions (ext := planeExt argsort) has hv (cs := [0]) (by simp)
  have key : ∀ (i : ℕ) (q : Vec 2), l[i]? = some q → q = (4 : ℝ) • longAxis + ((i : ℝ) * dt) • longAxis := by
    intro i
    induction i with
    | zero =>
      intro q hq
      rw [List.head?_eq_getElem?, hq] at hl
      cases hl
      norm_num
    | succ i ih =>
      intro q hq
      have hi : i < l.length := by
        have := (List.getElem?_eq_some_iff.mp hq).1
        omega
      have hp : l[i]? = some l[i] := List.getElem?_eq_getElem hi
      obtain ⟨w, hw, _, _, rfl, _⟩ := hs i _ _ hp hq
      rw [ih _ hp, oval_away argsort has _ (by positivity)] at hw
      cases hw
      rw [ih _ hp, Nat.cast_add, Nat.cast_one]
      unfold unit
      rw [hv, div_one, one_smul]
      module
  obtain ⟨i, hi⟩ := List.mem_iff_getElem?.mp hp
  have hpos : 0 ≤ (i : ℝ) * dt := by positivity
  have hx := oval_behind hpos
  rw [key i p hi]
  refine ⟨hx, (h4 _ longAxis hx).mpr rfl, fun w hw => ?_⟩
  rw [(h4 _ w hx).mp hw]
  exact ⟨hv, oval_slanted hpos⟩

end Verif
