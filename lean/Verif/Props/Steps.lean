import Verif.Props.Balls
import Verif.Props.Comparison

/-!
# C130: simulated steps among several balls

The trajectories of C120 are solutions of the differential equation.  What is run is a simulation: a robot which moves
for a short time with the velocity returned by the avoider (C130_steps), or the comparison of avoiders, which moves by a
fixed distance in the direction of the velocity (C130_simulated).
-/

open scoped RealInnerProductSpace
open Set

namespace Verif
open Spec

variable {d k : ℕ} [Fact (2 ≤ d)]

/-- The distance to the centre after a step. -/
lemma step_clearance (b : Ball d) (x w : Vec d) (dt : ℝ) (hdt : 0 ≤ dt) (hx : x - b.center ≠ 0) :
    clearance b x + dt * ⟪unit (x - b.center), w⟫ ≤ clearance b (x + dt • w) := by
  unfold clearance
  have h1 := real_inner_le_norm (unit (x - b.center)) (x + dt • w - b.center)
  rw [unit_norm hx, one_mul] at h1
  have h2 : ⟪unit (x - b.center), x + dt • w - b.center⟫ = ‖x - b.center‖ + dt * ⟪unit (x - b.center), w⟫ := by
    have e : x + dt • w - b.center = (x - b.center) + dt • w := by abel
    rw [e, inner_add_right, real_inner_smul_right]
    congr 1
    unfold unit
    rw [real_inner_smul_left, real_inner_self_eq_norm_sq, sq, ← mul_assoc, one_div,
      inv_mul_cancel₀ (norm_ne_zero_iff.mpr hx), one_mul]
  rw [h2] at h1
  linarith

/-- How fast the direction of the velocity approaches any of several balls which are apart. -/
lemma balls_apart_unit {ext : Ext d k} (hE : DirectionSpace ext) (has : ArgsortSpec ext.argsort) {a : Avoider d}
    {balls : List (Ball d)} {φ gap κ K : ℝ} (ha : BallsAvoider a balls) (hφ : 0 < φ) (hφ2 : φ ≤ Real.pi / 2)
    (hgap : 0 < gap) (hap : Apart gap balls) (hκ : 0 < κ) (hscale : ∀ b ∈ balls, κ ≤ b.scale ∧ b.scale ≤ K)
    {x vel : Vec d} (hx : FreeOf balls x) (hmag : 0 ≤ a.magnitude x)
    (hdir : ∀ v, ConvergenceDirection ext a x v → ‖v‖ = 1 ∧ Oblique φ balls x v)
    (h : a.evaluate ext x = .ok vel) (hvel : vel ≠ 0) {L : ℝ}
    (hL : L = max (2 / gap)
      (2 * Real.pi * (Real.pi / 2 / φ) ^ a.power * max 1 (balls.length / (κ * (gap / 2))) * K))
    {b : Ball d} (hb : b ∈ balls) :
    -(L * clearance b x) - (1 + Real.pi / 2) * closeness d ≤ ⟪unit (x - b.center), unit vel⟫
    ∧ ((∀ v, ConvergenceDirection ext a x v → closeness d < |⟪unit (x - b.center), v⟫|) →
      -(L * clearance b x) ≤ ⟪unit (x - b.center), unit vel⟫) := by
  have hpi := Real.pi_pos
  have hη : 0 < closeness d := closeness_pos
  have hT : 0 ≤ (1 + Real.pi / 2) * closeness d := by positivity
  have hpos := hx b hb
  obtain ⟨i, hi⟩ := List.mem_iff_getElem?.mp hb
  rcases balls_velocity hE has ha hx (fun v hv => (hdir v hv).1) hmag h with
    rfl | ⟨v, pr, D, l, hv, hpr, hD, hD1, l0, l1, rfl⟩
  · exact absurd rfl hvel
  have hl : 0 < l := lt_of_le_of_ne l0 (by rintro rfl; rw [zero_smul] at hvel; exact hvel rfl)
  have hu : unit (l • D) = D := by
    unfold unit
    rw [norm_smul, hD1, mul_one, Real.norm_of_nonneg l0, smul_smul, one_div, inv_mul_cancel₀ hl.ne', one_smul]
  rw [hu]
  by_cases hfar : gap / 2 ≤ clearance b x
  · have hxb := free_ball hx hb
    obtain ⟨t, o, _, _, _, hball⟩ := balls_index ha hi
    have hxc : x - b.center ≠ 0 := by rintro h0; rw [h0, norm_zero] at hxb; linarith [hball.radius_pos]
    have h1 := (abs_le.mp (abs_real_inner_le_norm (unit (x - b.center)) D)).1
    rw [unit_norm hxc, one_mul, hD1] at h1
    have h2 : 2 / gap * clearance b x ≤ L * clearance b x := by
      refine mul_le_mul_of_nonneg_right ?_ hpos.le
      rw [hL]
      exact le_max_left _ _
    have h3 : 1 ≤ 2 / gap * clearance b x := by
      rw [div_mul_eq_mul_div, le_div_iff₀ hgap]; linarith
    exact ⟨by linarith, fun _ => by linarith⟩
  · have hm : 0 < κ * (gap / 2) := by positivity
    have h3 : 2 * Real.pi * ballPower a.power φ * max 1 (balls.length / (κ * (gap / 2)))
        * (b.scale * clearance b x) ≤ L * clearance b x := by
      rw [← mul_assoc]
      refine mul_le_mul_of_nonneg_right ?_ hpos.le
      rw [hL]
      refine le_trans ?_ (le_max_right _ _)
      unfold ballPower
      refine mul_le_mul_of_nonneg_left (hscale b hb).2 ?_
      have : (0 : ℝ) ≤ max 1 (balls.length / (κ * (gap / 2))) := zero_le_one.trans (le_max_left _ _)
      positivity
    rcases balls_direction hE has ha hx (hdir v hv).1 hφ hφ2 (hdir v hv).2 hpr hD hi hm (by
      intro j b' hj hb'
      have h1 := apart_other hap hj hi hb' x
      have h2 := (hscale b' (List.mem_iff_getElem?.mpr ⟨j, hb'⟩)).1
      exact mul_le_mul h2 (by linarith) (by positivity) (hκ.le.trans h2)) with h4 | ⟨h4, h5⟩
    · exact ⟨by linarith, fun _ => by linarith⟩
    · exact ⟨by linarith, fun hno => absurd h4 (not_le.mpr (hno v hv))⟩

lemma ball_offcenter {a : Avoider d} {balls : List (Ball d)} (ha : BallsAvoider a balls) {x : Vec d}
    (hx : FreeOf balls x) {b : Ball d} (hb : b ∈ balls) : x - b.center ≠ 0 := by
  obtain ⟨i, hi⟩ := List.mem_iff_getElem?.mp hb
  have hxb := free_ball hx hb
  obtain ⟨t, o, _, _, _, hball⟩ := balls_index ha hi
  rintro h0; rw [h0, norm_zero] at hxb; linarith [hball.radius_pos]

/-- C130 (partial): a robot which moves for the time `dt` with the velocity returned by the avoider, again and again,
never enters any of the balls, however many steps it makes, if the steps are short (`dt * L < 1`): every step leaves at
least the fraction `1 - dt * L` of the distance to every ball.

Missing: obstacles of other shapes, balls which touch or overlap, motions which become head-on (`C130_head_on`) or pass
a tangential plane (`C130_creeping_partial`). -/
theorem C130_steps_partial (ext : Ext d k) (hE : DirectionSpace ext) (has : ArgsortSpec ext.argsort)
    (a : Avoider d) (balls : List (Ball d)) (S φ gap κ K : ℝ) (ha : BallsAvoider a balls) (hφ : 0 < φ)
    (hφ2 : φ ≤ Real.pi / 2) (hgap : 0 < gap) (hap : Apart gap balls) (hκ : 0 < κ)
    (hscale : ∀ b ∈ balls, κ ≤ b.scale ∧ b.scale ≤ K)
    (hmag : ∀ x, 0 ≤ a.magnitude x ∧ max 1 (a.magnitude x) ≤ S) (dt L : ℝ) (hdt : 0 ≤ dt)
    (hL : L = S * max (2 / gap)
      (2 * Real.pi * (Real.pi / 2 / φ) ^ a.power * max 1 (balls.length / (κ * (gap / 2))) * K))
    (hdL : dt * L < 1) (x vel : ℕ → Vec d) (hvel : ∀ n, a.evaluate ext (x n) = .ok (vel n))
    (hstep : ∀ n, x (n + 1) = x n + dt • vel n) (h0 : FreeOf balls (x 0))
    (hdir : ∀ n v, FreeOf balls (x n) → ConvergenceDirection ext a (x n) v →
      ‖v‖ = 1 ∧ Oblique φ balls (x n) v ∧ ∀ b ∈ balls, closeness d < |⟪unit (x n - b.center), v⟫|) :
    ∀ n, FreeOf balls (x n) ∧ ∀ b ∈ balls, (1 - dt * L) ^ n * clearance b (x 0) ≤ clearance b (x n) := by
  have key : ∀ n, ∀ b ∈ balls, (1 - dt * L) ^ n * clearance b (x 0) ≤ clearance b (x n) := by
    intro n
    induction n with
    | zero => intro b _; rw [pow_zero, one_mul]
    | succ n ih =>
      have hfree : FreeOf balls (x n) := fun b hb =>
        lt_of_lt_of_le (mul_pos (pow_pos (by linarith) n) (h0 b hb)) (ih b hb)
      intro b hb
      have h1 := (balls_apart_rate hE has ha hφ hφ2 hgap hap hκ hscale hfree (hmag _).1 (hmag _).2
        (fun v hv => ⟨(hdir n v hfree hv).1, (hdir n v hfree hv).2.1⟩) (hvel n) hL hb).2
        (fun v hv => (hdir n v hfree hv).2.2 b hb)
      have h2 := step_clearance b (x n) (vel n) dt hdt (ball_offcenter ha hfree hb)
      have h3 := mul_le_mul_of_nonneg_left h1 hdt
      have h4 := mul_le_mul_of_nonneg_left (ih b hb) (show 0 ≤ 1 - dt * L by linarith)
      rw [hstep n, pow_succ]
      calc (1 - dt * L) ^ n * (1 - dt * L) * clearance b (x 0)
          = (1 - dt * L) * ((1 - dt * L) ^ n * clearance b (x 0)) := by ring
        _ ≤ (1 - dt * L) * clearance b (x n) := h4
        _ = clearance b (x n) + dt * (-(L * clearance b (x n))) := by ring
        _ ≤ _ := by linarith
  intro n
  exact ⟨fun b hb => lt_of_lt_of_le (mul_pos (pow_pos (by linarith) n) (h0 b hb)) (key n b hb), key n⟩

/-- C130 (partial): as `C130_steps_partial`, also for motions which pass the tangential planes of the balls; every step
may then lose an additional distance of the size of the tolerance of `np.allclose`.

Missing: numbers of steps after which this creeping may have used up the distance. -/
theorem C130_creeping_partial (ext : Ext d k) (hE : DirectionSpace ext) (has : ArgsortSpec ext.argsort)
    (a : Avoider d) (balls : List (Ball d)) (S φ gap κ K : ℝ) (ha : BallsAvoider a balls) (hφ : 0 < φ)
    (hφ2 : φ ≤ Real.pi / 2) (hgap : 0 < gap) (hap : Apart gap balls) (hκ : 0 < κ)
    (hscale : ∀ b ∈ balls, κ ≤ b.scale ∧ b.scale ≤ K)
    (hmag : ∀ x, 0 ≤ a.magnitude x ∧ max 1 (a.magnitude x) ≤ S) (dt L E : ℝ) (hdt : 0 ≤ dt)
    (hL : L = S * max (2 / gap)
      (2 * Real.pi * (Real.pi / 2 / φ) ^ a.power * max 1 (balls.length / (κ * (gap / 2))) * K))
    (hEq : E = S * ((1 + Real.pi / 2) * closeness d))
    (hdL : dt * L ≤ 1) (x vel : ℕ → Vec d) (hvel : ∀ n, a.evaluate ext (x n) = .ok (vel n))
    (hstep : ∀ n, x (n + 1) = x n + dt • vel n) (h0 : FreeOf balls (x 0))
    (hdir : ∀ n v, FreeOf balls (x n) → ConvergenceDirection ext a (x n) v → ‖v‖ = 1 ∧ Oblique φ balls (x n) v)
    (n : ℕ) (hn : ∀ b ∈ balls, ∀ m ≤ n, 0 < (clearance b (x 0) + E / L) * (1 - dt * L) ^ m - E / L) :
    FreeOf balls (x n) ∧ ∀ b ∈ balls, (clearance b (x 0) + E / L) * (1 - dt * L) ^ n - E / L ≤ clearance b (x n) := by
  have hpi := Real.pi_pos
  have hS1 : 0 < S := lt_of_lt_of_le one_pos ((le_max_left _ _).trans (hmag 0).2)
  have hLp : 0 < L := by
    rw [hL]
    exact mul_pos hS1 (lt_of_lt_of_le (by positivity) (le_max_left _ _))
  have key : ∀ m ≤ n, ∀ b ∈ balls, (clearance b (x 0) + E / L) * (1 - dt * L) ^ m - E / L ≤ clearance b (x m) := by
    intro m
    induction m with
    | zero => intro _ b _; rw [pow_zero, mul_one, add_sub_cancel_right]
    | succ m ih =>
      intro hm
      have ih := ih (by omega)
      have hfree : FreeOf balls (x m) := fun b hb => lt_of_lt_of_le (hn b hb m (by omega)) (ih b hb)
      intro b hb
      have h1 := (balls_apart_rate hE has ha hφ hφ2 hgap hap hκ hscale hfree (hmag _).1 (hmag _).2
        (fun v hv => hdir m v hfree hv) (hvel m) hL hb).1
      rw [← hEq] at h1
      have h2 := step_clearance b (x m) (vel m) dt hdt (ball_offcenter ha hfree hb)
      have h3 := mul_le_mul_of_nonneg_left h1 hdt
      have h4 := mul_le_mul_of_nonneg_left (ih b hb) (show 0 ≤ 1 - dt * L by linarith)
      rw [hstep m, pow_succ]
      have e : (1 - dt * L) * (E / L) = E / L - dt * E := by field_simp
      calc (clearance b (x 0) + E / L) * ((1 - dt * L) ^ m * (1 - dt * L)) - E / L
          = (1 - dt * L) * ((clearance b (x 0) + E / L) * (1 - dt * L) ^ m - E / L) + (1 - dt * L) * (E / L) - E / L := by
            ring
        _ ≤ (1 - dt * L) * clearance b (x m) + (1 - dt * L) * (E / L) - E / L := by linarith
        _ = clearance b (x m) + dt * (-(L * clearance b (x m)) - E) := by rw [e]; ring
        _ ≤ _ := by linarith
  exact ⟨fun b hb => lt_of_lt_of_le (hn b hb n le_rfl) (key n le_rfl b hb), key n le_rfl⟩

/-- The positions which the simulation reaches from the start. -/
lemma simulated_clear {ext : Ext d k} (hE : DirectionSpace ext) (has : ArgsortSpec ext.argsort)
    {a : Avoider d} {balls : List (Ball d)} {φ gap κ K : ℝ} (ha : BallsAvoider a balls) (hφ : 0 < φ)
    (hφ2 : φ ≤ Real.pi / 2) (hgap : 0 < gap) (hap : Apart gap balls) (hκ : 0 < κ)
    (hscale : ∀ b ∈ balls, κ ≤ b.scale ∧ b.scale ≤ K) (hmag : ∀ x, 0 ≤ a.magnitude x) {dt margin L : ℝ} (hdt : 0 ≤ dt)
    (hL : L = max (2 / gap)
      (2 * Real.pi * (Real.pi / 2 / φ) ^ a.power * max 1 (balls.length / (κ * (gap / 2))) * K))
    (hdL : dt * L < 1) {c : Option (Vec d → Bool)} {start : Vec d} {traj : List (Vec d)}
    (hhead : traj = [] ∨ traj.head? = some start) (hsim : Simulates (a.evaluate ext) dt margin c traj)
    (h0 : FreeOf balls start)
    (hdir : ∀ p ∈ traj, ∀ v, FreeOf balls p → ConvergenceDirection ext a p v →
      ‖v‖ = 1 ∧ Oblique φ balls p v ∧ ∀ b ∈ balls, closeness d < |⟪unit (p - b.center), v⟫|) :
    ∀ (i : ℕ) (p : Vec d), traj[i]? = some p →
      FreeOf balls p ∧ ∀ b ∈ balls, (1 - dt * L) ^ i * clearance b start ≤ clearance b p := by
  have key : ∀ (i : ℕ) (p : Vec d), traj[i]? = some p → ∀ b ∈ balls,
      (1 - dt * L) ^ i * clearance b start ≤ clearance b p := by
    intro i
    induction i with
    | zero =>
      intro p hp b _
      rcases hhead with h | h
      · rw [h] at hp; cases hp
      · rw [List.head?_eq_getElem?, hp] at h
        cases h
        rw [pow_zero, one_mul]
    | succ i ih =>
      intro q hq b hb
      have hi : i < traj.length := by
        have := (List.getElem?_eq_some_iff.mp hq).1
        omega
      have hp : traj[i]? = some traj[i] := List.getElem?_eq_getElem hi
      obtain ⟨v, hv, hv0, _, rfl, _⟩ := hsim i _ _ hp hq
      have ih := ih _ hp
      have hmem : traj[i] ∈ traj := List.getElem_mem hi
      have hfree : FreeOf balls traj[i] := fun b hb =>
        lt_of_lt_of_le (mul_pos (pow_pos (by linarith) i) (h0 b hb)) (ih b hb)
      have h1 := (balls_apart_unit hE has ha hφ hφ2 hgap hap hκ hscale hfree (hmag _)
        (fun v hv => ⟨(hdir _ hmem v hfree hv).1, (hdir _ hmem v hfree hv).2.1⟩) hv hv0 hL hb).2
        (fun v hv => (hdir _ hmem v hfree hv).2.2 b hb)
      have h2 := step_clearance b traj[i] (unit v) dt hdt (ball_offcenter ha hfree hb)
      have h3 := mul_le_mul_of_nonneg_left h1 hdt
      have h4 := mul_le_mul_of_nonneg_left (ih b hb) (show 0 ≤ 1 - dt * L by linarith)
      rw [pow_succ]
      calc (1 - dt * L) ^ i * (1 - dt * L) * clearance b start
          = (1 - dt * L) * ((1 - dt * L) ^ i * clearance b start) := by ring
        _ ≤ (1 - dt * L) * clearance b traj[i] := h4
        _ = clearance b traj[i] + dt * (-(L * clearance b traj[i])) := by ring
        _ ≤ _ := by linarith
  intro i p hp
  exact ⟨fun b hb => lt_of_lt_of_le (mul_pos (pow_pos (by linarith) i) (h0 b hb)) (key i p hp b hb), key i p hp⟩

/-- C130 (partial): every position of the trajectory which the comparison simulates with the avoider is outside of all
balls, whatever the number of iterations, if the start is and if the steps are short; each step leaves at least the
fraction `1 - delta_time * L` of the distance to every ball.  No collision functor is needed for this.

Missing: obstacles of other shapes, balls which touch or overlap, motions which become head-on (`C130_head_on`) or pass
a tangential plane. -/
theorem C130_simulated_partial (ext : Ext d k) (hE : DirectionSpace ext) (has : ArgsortSpec ext.argsort)
    (a : Avoider d) (balls : List (Ball d)) (φ gap κ K : ℝ) (ha : BallsAvoider a balls) (hφ : 0 < φ)
    (hφ2 : φ ≤ Real.pi / 2) (hgap : 0 < gap) (hap : Apart gap balls) (hκ : 0 < κ)
    (hscale : ∀ b ∈ balls, κ ≤ b.scale ∧ b.scale ≤ K) (hmag : ∀ x, 0 ≤ a.magnitude x) (dt margin L : ℝ) (hdt : 0 ≤ dt)
    (hL : L = max (2 / gap)
      (2 * Real.pi * (Real.pi / 2 / φ) ^ a.power * max 1 (balls.length / (κ * (gap / 2))) * K))
    (hdL : dt * L < 1) (c : Option (Vec d → Bool)) (start : Vec d) (itMax : ℕ) (traj : List (Vec d))
    (h : Comparison.integrateTrajectory (a.evaluate ext) start itMax dt margin c = .ok traj) (h0 : FreeOf balls start)
    (hdir : ∀ p ∈ traj, ∀ v, FreeOf balls p → ConvergenceDirection ext a p v →
      ‖v‖ = 1 ∧ Oblique φ balls p v ∧ ∀ b ∈ balls, closeness d < |⟪unit (p - b.center), v⟫|) :
    ∀ (i : ℕ) (p : Vec d), traj[i]? = some p →
      FreeOf balls p ∧ ∀ b ∈ balls, (1 - dt * L) ^ i * clearance b start ≤ clearance b p := by
  obtain ⟨h1, h2, _⟩ := C121_trajectory_partial (a.evaluate ext) start itMax dt margin c traj h
  exact simulated_clear hE has ha hφ hφ2 hgap hap hκ hscale hmag hdt hL hdL h1 h2 h0 hdir

omit [Fact (2 ≤ d)] in
/-- The simulation ends without an exception if the velocity is defined at all positions which can be reached. -/
lemma integrateLoop_defined {f : Vec d → Except PyErr (Vec d)} {dt margin : ℝ} (hm : 0 < margin)
    {c : Option (Vec d → Bool)} {start : Vec d}
    (hdef : ∀ (l : List (Vec d)) (p : Vec d), l.head? = some start → Simulates f dt margin c l → p ∈ l → ∃ v, f p = .ok v)
    (fuel : ℕ) {acc : List (Vec d)} {last : Vec d} (hh : acc.head? = some start) (hl : acc.getLast? = some last)
    (hs : Simulates f dt margin c acc) : ∃ traj, Comparison.integrateLoop f dt margin c fuel acc last = .ok traj := by
  classical
  induction fuel generalizing acc last with
  | zero => exact ⟨acc, rfl⟩
  | succ fuel ih =>
    obtain ⟨v, hv⟩ := hdef acc last hh hs (List.mem_of_getLast? hl)
    have hne : acc ≠ [] := by rintro rfl; simp at hh
    unfold Comparison.integrateLoop
    by_cases h1 : ‖v‖ < margin
    · exact ⟨_, bind_ok.mpr ⟨v, hv, if_pos h1⟩⟩
    have hpos : 0 < ‖v‖ := hm.trans_le (not_lt.mp h1)
    have hv0 : v ≠ 0 := norm_pos_iff.mp hpos
    have hnext : dt • ((1 / ‖v‖) • v) + last = last + dt • unit v := by rw [add_comm]; rfl
    have step : (∀ g, c = some g → g (last + dt • unit v) = false) →
        ∃ traj, Comparison.integrateLoop f dt margin c fuel (acc ++ [last + dt • unit v]) (last + dt • unit v) = .ok traj := by
      intro hfree
      refine ih ?_ (by simp) (simulates_append hs hl ⟨v, hv, hv0, not_lt.mp h1, rfl, hfree⟩)
      cases acc with
      | nil => exact absurd rfl hne
      | cons a l => simpa using hh
    cases c with
    | none =>
      obtain ⟨traj, ht⟩ := step (by intro g hg; cases hg)
      exact ⟨traj, bind_ok.mpr ⟨v, hv, by rw [if_neg h1, if_neg hpos.ne']; simp only [hnext]; exact ht⟩⟩
    | some g =>
      by_cases h3 : g (last + dt • unit v) = true
      · exact ⟨acc, bind_ok.mpr ⟨v, hv, by rw [if_neg h1, if_neg hpos.ne']; simp only [hnext]; rw [if_pos h3]⟩⟩
      · obtain ⟨traj, ht⟩ := step (by intro g' hg; cases hg; simpa using h3)
        exact ⟨traj, bind_ok.mpr ⟨v, hv, by rw [if_neg h1, if_neg hpos.ne']; simp only [hnext]; rw [if_neg h3]; exact ht⟩⟩

/-- C130 (partial): the simulation of an avoider among balls never ends because of a collision or with an exception: it
returns as many positions as allowed, or ends because the motion comes to rest.  The collision functor may be any which
reports no positions outside of all balls.

Missing: as for `C130_simulated_partial`. -/
theorem C130_completes_partial (ext : Ext d k) (hE : DirectionSpace ext) (has : ArgsortSpec ext.argsort)
    (a : Avoider d) (balls : List (Ball d)) (φ gap κ K : ℝ) (ha : BallsAvoider a balls) (hφ : 0 < φ)
    (hφ2 : φ ≤ Real.pi / 2) (hgap : 0 < gap) (hap : Apart gap balls) (hκ : 0 < κ)
    (hscale : ∀ b ∈ balls, κ ≤ b.scale ∧ b.scale ≤ K) (hmag : ∀ x, 0 ≤ a.magnitude x) (dt margin L : ℝ) (hdt : 0 ≤ dt)
    (hL : L = max (2 / gap)
      (2 * Real.pi * (Real.pi / 2 / φ) ^ a.power * max 1 (balls.length / (κ * (gap / 2))) * K))
    (hdL : dt * L < 1) (hm : 0 < margin) (c : Option (Vec d → Bool))
    (hc : ∀ g, c = some g → ∀ p, g p = true → ¬ FreeOf balls p)
    (start : Vec d) (itMax : ℕ) (hit : 2 ≤ itMax) (h0 : FreeOf balls start)
    (hdir : ∀ (l : List (Vec d)) (p : Vec d), l.head? = some start → Simulates (a.evaluate ext) dt margin c l → p ∈ l →
      FreeOf balls p → (∃ v, ConvergenceDirection ext a p v) ∧ ∀ v, ConvergenceDirection ext a p v →
        ‖v‖ = 1 ∧ Oblique φ balls p v ∧ ∀ b ∈ balls, closeness d < |⟪unit (p - b.center), v⟫|) :
    ∃ traj, Comparison.integrateTrajectory (a.evaluate ext) start itMax dt margin c = .ok traj
      ∧ (traj.length = itMax ∨ ∃ p v, a.evaluate ext p = .ok v ∧ ‖v‖ < margin ∧ (traj ++ [p]).head? = some start
        ∧ Simulates (a.evaluate ext) dt margin c (traj ++ [p])) := by
  have hfree : ∀ (l : List (Vec d)) (p : Vec d), l.head? = some start → Simulates (a.evaluate ext) dt margin c l →
      p ∈ l → FreeOf balls p := by
    intro l p hl hs hp
    obtain ⟨i, hi⟩ := List.mem_iff_getElem?.mp hp
    exact (simulated_clear hE has ha hφ hφ2 hgap hap hκ hscale hmag hdt hL hdL (Or.inr hl) hs h0
      (fun q hq v hfr hv => (hdir l q hl hs hq hfr).2 v hv) i p hi).1
  have hdef : ∀ (l : List (Vec d)) (p : Vec d), l.head? = some start → Simulates (a.evaluate ext) dt margin c l →
      p ∈ l → ∃ v, a.evaluate ext p = .ok v := by
    intro l p hl hs hp
    have hfp := hfree l p hl hs hp
    obtain ⟨⟨v, hv⟩, hall⟩ := hdir l p hl hs hp hfp
    exact C120_defined ext hE has a balls ha p v hfp hv (hall v hv).1
  obtain ⟨fuel, rfl⟩ : ∃ fuel, itMax = fuel + 2 := ⟨itMax - 2, by omega⟩
  obtain ⟨traj, ht⟩ := integrateLoop_defined hm hdef (fuel + 1) (acc := [start]) (last := start) rfl rfl
    (simulates_single _ _ _ _ _)
  have ht' : Comparison.integrateTrajectory (a.evaluate ext) start (fuel + 2) dt margin c = .ok traj := ht
  refine ⟨traj, ht', ?_⟩
  obtain ⟨h1, h2, _, _, h3⟩ := C121_trajectory_partial (a.evaluate ext) start (fuel + 2) dt margin c traj ht'
  rcases h3 with h3 | ⟨g, p, v, hg, hp, hv, hcol⟩ | h3
  · exact Or.inl h3
  · exfalso
    have hmem := List.mem_of_getLast? hp
    have hhead : traj.head? = some start := by
      rcases h1 with rfl | h1
      · cases hmem
      · exact h1
    have hfp := hfree traj p hhead h2 hmem
    refine hc g hg _ hcol ?_
    by_cases hv0 : v = 0
    · rw [hv0]; unfold unit; rw [smul_zero, smul_zero, add_zero]; exact hfp
    · intro b hb
      have hall := (hdir traj p hhead h2 hmem hfp).2
      have h4 := (balls_apart_unit hE has ha hφ hφ2 hgap hap hκ hscale hfp (hmag _)
        (fun v hv => ⟨(hall v hv).1, (hall v hv).2.1⟩) hv hv0 hL hb).2 (fun v hv => (hall v hv).2.2 b hb)
      have h5 := step_clearance b p (unit v) dt hdt (ball_offcenter ha hfp hb)
      have h6 := mul_le_mul_of_nonneg_left h4 hdt
      have h7 := mul_pos (show 0 < 1 - dt * L by linarith) (hfp b hb)
      have h8 : (1 - dt * L) * clearance b p = clearance b p + dt * (-(L * clearance b p)) := by ring
      linarith
  · exact Or.inr h3

/-- C130 (partial): an avoider which `create_with_convergence_dynamics` builds for a motion with the constant direction
`u` and several balls which are apart from each other: no position of a simulated trajectory is in a ball, as long as
the motion stays oblique and outside of the tolerance of the tangential planes.

Missing: motions which become head-on for one of the balls (`C130_head_on`), and those which pass a tangential plane. -/
theorem C130_straight_partial (ext : Ext d k) (hE : DirectionSpace ext) (has : ArgsortSpec ext.argsort)
    (projected : Vec d → Convergence d) (trees : List (ObstacleTree d)) (balls : List (Ball d)) (initial : Dynamics d)
    (ref : Vec d → Vec d) (u : Vec d) (a : Avoider d) (hA : initial.attractorPosition = none)
    (hown : initial.ownSequence = none) (hu : Straight initial.evaluate u) (hr : Straight ref u)
    (ha : createAvoider projected trees initial (some ref) = .ok a) (hpar : ∀ t ∈ trees, t.parentIdx 0 = none)
    (hobs : List.Forall₂ (fun t b => t.rootIdx = 0 ∧ Static t ∧ ∃ o, t.components = [o] ∧ o.tailEffect = b.tail
      ∧ IsBall o b.center b.radius b.scale) trees balls) (hne : balls ≠ [])
    (φ gap κ K : ℝ) (hφ : 0 < φ) (hφ2 : φ ≤ Real.pi / 2) (hgap : 0 < gap) (hap : Apart gap balls) (hκ : 0 < κ)
    (hscale : ∀ b ∈ balls, κ ≤ b.scale ∧ b.scale ≤ K) (dt margin L : ℝ) (hdt : 0 ≤ dt)
    (hL : L = max (2 / gap)
      (2 * Real.pi * (Real.pi / 2 / φ) ^ (0.3 : ℝ) * max 1 (balls.length / (κ * (gap / 2))) * K))
    (hdL : dt * L < 1) (c : Option (Vec d → Bool)) (start : Vec d) (itMax : ℕ) (traj : List (Vec d))
    (h : Comparison.integrateTrajectory (a.evaluate ext) start itMax dt margin c = .ok traj) (h0 : FreeOf balls start)
    (hdir : ∀ p ∈ traj, Oblique φ balls p u ∧ ∀ b ∈ balls, closeness d < |⟪unit (p - b.center), u⟫|) :
    ∀ (i : ℕ) (p : Vec d), traj[i]? = some p →
      FreeOf balls p ∧ ∀ b ∈ balls, (1 - dt * L) ^ i * clearance b start ≤ clearance b p := by
  obtain ⟨hba, hpow, hmag, hconv⟩ := straight_balls (ext := ext) has hA hown hu hr ha hpar hobs hne
  refine C130_simulated_partial ext hE has a balls φ gap κ K hba hφ hφ2 hgap hap hκ hscale ?_ dt margin L hdt
    (by rw [hL, hpow]) hdL c start itMax traj h h0 ?_
  · intro y; rw [hmag]; exact norm_nonneg _
  · intro p hp v hfree hv
    rw [(hconv _ v hfree).mp hv]
    exact ⟨hu.norm, hdir p hp⟩

/-- C130, negative result: a motion along the line through the centres of all balls is not deflected, so that the
simulation steps into the next ball, whatever the length of its steps. -/
theorem C130_head_on (ext : Ext d k) (hE : DirectionSpace ext) (has : ArgsortSpec ext.argsort)
    (projected : Vec d → Convergence d) (trees : List (ObstacleTree d)) (balls : List (Ball d)) (initial : Dynamics d)
    (ref : Vec d → Vec d) (u : Vec d) (a : Avoider d) (hA : initial.attractorPosition = none)
    (hown : initial.ownSequence = none) (hu : Straight initial.evaluate u) (hr : Straight ref u)
    (ha : createAvoider projected trees initial (some ref) = .ok a) (hpar : ∀ t ∈ trees, t.parentIdx 0 = none)
    (hobs : List.Forall₂ (fun t b => t.rootIdx = 0 ∧ Static t ∧ ∃ o, t.components = [o] ∧ o.tailEffect = b.tail
      ∧ IsBall o b.center b.radius b.scale) trees balls) (hne : balls ≠ [])
    (start : Vec d) (hline : ∀ b ∈ balls, ∃ s : ℝ, start - b.center = s • u) (dt margin : ℝ) (hm : margin ≤ 1)
    (n : ℕ) (hfree : ∀ i ≤ n, FreeOf balls (start + (i * dt) • u)) (b : Ball d) (hb : b ∈ balls)
    (hin : clearance b (start + ((n + 1 : ℕ) * dt) • u) ≤ 0) :
    ∃ traj, Comparison.integrateTrajectory (a.evaluate ext) start (n + 2) dt margin none = .ok traj
      ∧ traj = (List.range (n + 2)).map (fun (i : ℕ) => start + ((i : ℝ) * dt) • u)
      ∧ ∃ p ∈ traj, clearance b p ≤ 0 := by
  classical
  obtain ⟨hba, hpow, hmag, hconv⟩ := straight_balls (ext := ext) has hA hown hu hr ha hpar hobs hne
  have hu1 := hu.norm
  have hev : ∀ i ≤ n, a.evaluate ext (start + ((i : ℝ) * dt) • u) = .ok u := by
    intro i hi
    have hx := hfree i hi
    refine balls_axis_evaluate hE has hba (by rw [hpow]; norm_num) hx ((hconv _ u hx).mpr rfl) ?_
    intro b' hb'
    obtain ⟨s, hs⟩ := hline b' hb'
    have e : start + ((i : ℝ) * dt) • u - b'.center = (s + i * dt) • u := by
      rw [add_smul, ← hs]; abel
    have h1 := ball_offcenter hba hx hb'
    rw [e] at h1 ⊢
    rcases lt_trichotomy (s + i * dt) 0 with h | h | h
    · right
      unfold unit
      rw [norm_smul, hu1, mul_one, Real.norm_of_nonpos h.le, smul_smul, ← neg_smul]
      have : -(1 / -(s + i * dt) * (s + i * dt)) = 1 := by rw [div_neg, neg_mul, neg_neg, one_div, inv_mul_cancel₀ h.ne]
      rw [this, one_smul]
    · rw [h, zero_smul] at h1
      exact absurd rfl h1
    · left
      unfold unit
      rw [norm_smul, hu1, mul_one, Real.norm_of_nonneg h.le, smul_smul, one_div, inv_mul_cancel₀ h.ne', one_smul]
  have key : ∀ m j : ℕ, j + m = n + 1 → Comparison.integrateLoop (a.evaluate ext) dt margin none m
      ((List.range (j + 1)).map (fun (i : ℕ) => start + ((i : ℝ) * dt) • u)) (start + ((j : ℝ) * dt) • u)
        = .ok ((List.range (n + 2)).map (fun (i : ℕ) => start + ((i : ℝ) * dt) • u)) := by
    intro m
    induction m with
    | zero =>
      intro j hj
      unfold Comparison.integrateLoop
      rw [show j + 1 = n + 2 by omega]
    | succ m ih =>
      intro j hj
      unfold Comparison.integrateLoop
      refine bind_ok.mpr ⟨u, hev j (by omega), ?_⟩
      rw [if_neg (by rw [hu1]; exact not_lt.mpr hm), if_neg (by rw [hu1]; norm_num)]
      have e : dt • ((1 / ‖u‖) • u) + (start + ((j : ℝ) * dt) • u) = start + (((j + 1 : ℕ) : ℝ) * dt) • u := by
        rw [hu1, div_one, one_smul, Nat.cast_add, Nat.cast_one]
        module
      simp only [e]
      have := ih (j + 1) (by omega)
      rw [List.range_succ, List.map_append] at this
      exact this
  refine ⟨_, ?_, rfl, _, List.mem_map.mpr ⟨n + 1, List.mem_range.mpr (by omega), rfl⟩, hin⟩
  have := key (n + 1) 0 (by omega)
  unfold Comparison.integrateTrajectory
  simpa using this

/-! ## Examples: two discs -/

/-- The robot which moves away from the two discs. -/
lemma discs_steps (argsort : List ℤ → List ℕ) (has : ArgsortSpec argsort) (v : Vec 2) (hv : ‖v‖ = 1) (t : ℝ)
    (ht : 0 ≤ t) : (straightDiscs v).evaluate (planeExt argsort) ((t + 2) • v) = .ok v := by
  obtain ⟨h1, h2, _, h4⟩ := straightDiscs_balls (ext := planeExt argsort) has hv
  have hx := twoBalls_free hv ht
  refine balls_axis_evaluate (planeExt_space argsort) has h1 (by rw [h2]; norm_num) hx ((h4 _ v hx).mpr rfl) ?_
  intro b hb
  left
  have hu : ∀ s : ℝ, 0 < s → unit (s • v) = v := by
    intro s hs
    unfold unit
    rw [norm_smul, hv, mul_one, Real.norm_of_nonneg hs.le, smul_smul, one_div, inv_mul_cancel₀ hs.ne', one_smul]
  unfold twoBalls at hb
  simp only [List.mem_cons, List.not_mem_nil, or_false] at hb
  rcases hb with rfl | rfl
  · rw [sub_zero, hu _ (by linarith)]
  · have : (t + 2) • v - (-4 : ℝ) • v = (t + 6) • v := by module
    rw [this, hu _ (by linarith)]

/-- The hypotheses of `C130_steps_partial` (and of `C130_creeping_partial`, for the first steps) are met by the robot
which moves away from the two discs. -/
example (argsort : List ℤ → List ℕ) (has : ArgsortSpec argsort) (v : Vec 2) (hv : ‖v‖ = 1) (dt : ℝ) (hdt : 0 ≤ dt) :
    BallsAvoider (straightDiscs v) (twoBalls v) ∧ Apart 2 (twoBalls v)
    ∧ (∀ x, 0 ≤ (straightDiscs v).magnitude x ∧ max 1 ((straightDiscs v).magnitude x) ≤ 1)
    ∧ (∀ n : ℕ, (straightDiscs v).evaluate (planeExt argsort) (((n : ℝ) * dt + 2) • v) = .ok v)
    ∧ (∀ n : ℕ, (((n + 1 : ℕ) : ℝ) * dt + 2) • v = ((n : ℝ) * dt + 2) • v + dt • v)
    ∧ ∀ (n : ℕ) (w : Vec 2), FreeOf (twoBalls v) (((n : ℝ) * dt + 2) • v)
      ∧ (ConvergenceDirection (planeExt argsort) (straightDiscs v) (((n : ℝ) * dt + 2) • v) w → ‖w‖ = 1
        ∧ Oblique (Real.pi / 2) (twoBalls v) (((n : ℝ) * dt + 2) • v) w
        ∧ ∀ b ∈ twoBalls v, closeness 2 < |⟪unit (((n : ℝ) * dt + 2) • v - b.center), w⟫|) := by
  obtain ⟨h1, _, h3, h4⟩ := straightDiscs_balls (ext := planeExt argsort) has hv
  have hn : ∀ n : ℕ, 0 ≤ (n : ℝ) * dt := fun n => by positivity
  refine ⟨h1, twoBalls_apart hv, fun x => by rw [h3, hv]; norm_num, fun n => discs_steps argsort has v hv _ (hn n), ?_, ?_⟩
  · intro n; rw [Nat.cast_add, Nat.cast_one]; module
  · intro n w
    have hx := twoBalls_free hv (hn n)
    refine ⟨hx, fun hw => ?_⟩
    rw [(h4 _ w hx).mp hw]
    exact ⟨hv, twoBalls_oblique hv (hn n)⟩

/-- The hypotheses of `C130_simulated_partial`, `C130_straight_partial` and `C130_completes_partial` are met by the
simulation of the motion away from the two discs: all lists of positions which it can reach consist of points at which
the motion is oblique. -/
example (argsort : List ℤ → List ℕ) (has : ArgsortSpec argsort) (v : Vec 2) (hv : ‖v‖ = 1) (dt margin : ℝ)
    (hdt : 0 ≤ dt) (c : Option (Vec 2 → Bool)) (l : List (Vec 2)) (hl : l.head? = some ((2 : ℝ) • v))
    (hs : Simulates ((straightDiscs v).evaluate (planeExt argsort)) dt margin c l) (p : Vec 2) (hp : p ∈ l) :
    FreeOf (twoBalls v) p ∧ ConvergenceDirection (planeExt argsort) (straightDiscs v) p v
    ∧ ∀ w, ConvergenceDirection (planeExt argsort) (straightDiscs v) p w → ‖w‖ = 1
        ∧ Oblique (Real.pi / 2) (twoBalls v) p w ∧ ∀ b ∈ twoBalls v, closeness 2 < |⟪unit (p - b.center), w⟫| := by
  obtain ⟨h1, _, h3, h4⟩ := straightDiscs_balls (ext := planeExt argsort) has hv
  have key : ∀ (i : ℕ) (q : Vec 2), l[i]? = some q → q = ((i : ℝ) * dt + 2) • v := by
    intro i
    induction i with
    | zero =>
      intro q hq
      rw [List.head?_eq_getElem?, hq] at hl
      cases hl
      norm_num
    | succ i ih =>
      intro q hq
      have hi : i < l.length := by
        have := (List.getElem?_eq_some_iff.mp hq).1
        omega
      have hp : l[i]? = some l[i] := List.getElem?_eq_getElem hi
      obtain ⟨w, hw, _, _, rfl, _⟩ := hs i _ _ hp hq
      rw [ih _ hp, discs_steps argsort has v hv _ (by positivity)] at hw
      cases hw
      rw [ih _ hp, Nat.cast_add, Nat.cast_one]
      unfold unit
      rw [hv, div_one, one_smul]
      module
  obtain ⟨i, hi⟩ := List.mem_iff_getElem?.mp hp
  have hpos : 0 ≤ (i : ℝ) * dt := by positivity
  have hx := twoBalls_free hv hpos
  rw [key i p hi]
  refine ⟨hx, (h4 _ v hx).mpr rfl, fun w hw => ?_⟩
  rw [(h4 _ w hx).mp hw]
  exact ⟨hv, twoBalls_oblique hv hpos⟩

/-- The hypotheses of `C130_head_on` are met by the motion towards the two discs, in steps of `1/4`. -/
example (v : Vec 2) (hv : ‖v‖ = 1) : (∀ i ≤ 3, FreeOf (twoBalls v) ((-6 : ℝ) • v + ((i : ℕ) * (1 / 4 : ℝ)) • v))
    ∧ (∀ b ∈ twoBalls v, ∃ s : ℝ, (-6 : ℝ) • v - b.center = s • v)
    ∧ clearance (⟨(-4 : ℝ) • v, 1, 1, false⟩ : Ball 2) ((-6 : ℝ) • v + ((3 + 1 : ℕ) * (1 / 4 : ℝ)) • v) ≤ 0 := by
  refine ⟨?_, ?_, ?_⟩
  · intro i hi b hb
    have hi' : (i : ℝ) ≤ 3 := by exact_mod_cast hi
    unfold twoBalls at hb
    simp only [List.mem_cons, List.not_mem_nil, or_false] at hb
    unfold clearance
    rw [← add_smul]
    rcases hb with rfl | rfl
    · rw [sub_zero, norm_smul, hv, mul_one, Real.norm_of_nonpos (by linarith)]; linarith
    · rw [← sub_smul, norm_smul, hv, mul_one, Real.norm_of_nonpos (by linarith)]; linarith
  · intro b hb
    unfold twoBalls at hb
    simp only [List.mem_cons, List.not_mem_nil, or_false] at hb
    rcases hb with rfl | rfl
    · exact ⟨-6, by rw [sub_zero]⟩
    · exact ⟨-6 - -4, by rw [sub_smul]⟩
  · unfold clearance
    rw [← add_smul, ← sub_smul, norm_smul, hv]
    norm_num

end Verif
