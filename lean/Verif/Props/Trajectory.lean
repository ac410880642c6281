import Verif.Lemmas.BallTrajectory
import Verif.Props.NoAttractor
import Verif.Props.TangentExamples

/-!
# C116: the trajectories of the avoider and a ball

The velocity field which `evaluate` returns is followed in time: the theorems are about solutions of the differential
equation, not about single evaluations.
-/

open scoped RealInnerProductSpace
open Set

namespace Verif
open Spec

variable {d k : ℕ} [Fact (2 ≤ d)]

/-- C116: outside of a ball the velocity is defined, whatever the convergence direction, also straight ahead. -/
theorem C116_defined (ext : Ext d k) (hE : DirectionSpace ext) (has : ArgsortSpec ext.argsort) (a : Avoider d)
    (c : Vec d) (r κ : ℝ) (ha : BallAvoider a c r κ) (x v : Vec d) (hx : r < ‖x - c‖)
    (hc : ConvergenceDirection ext a x v) (hv : ‖v‖ = 1) : ∃ vel, a.evaluate ext x = .ok vel :=
  ball_defined hE has ha hx hc hv

/-- C116: the avoider approaches a ball at most in proportion to the remaining distance (up to the tolerance of
`np.allclose`): the velocity towards the ball vanishes at its surface.  The angle of the motion to the direction of the
centre is at least `φ`. -/
theorem C116_rate (ext : Ext d k) (hE : DirectionSpace ext) (has : ArgsortSpec ext.argsort) (a : Avoider d)
    (c : Vec d) (r κ S φ : ℝ) (ha : BallAvoider a c r κ) (hφ : 0 < φ) (x vel : Vec d) (hx : r < ‖x - c‖)
    (hmag : 0 ≤ a.magnitude x) (hS : max 1 (a.magnitude x) ≤ S)
    (hdir : ∀ v, ConvergenceDirection ext a x v →
      ‖v‖ = 1 ∧ φ ≤ InnerProductGeometry.angle (-unit (x - c)) v)
    (h : a.evaluate ext x = .ok vel) :
    -(S * κ * (Real.pi / 2) * (Real.pi / 2 / φ) ^ a.power * (‖x - c‖ - r))
        - S * ((1 + Real.pi / 2) * closeness d) ≤ ⟪unit (x - c), vel⟫
    ∧ ((∀ v, ConvergenceDirection ext a x v → closeness d < |⟪unit (x - c), v⟫|) →
      -(S * κ * (Real.pi / 2) * (Real.pi / 2 / φ) ^ a.power * (‖x - c‖ - r)) ≤ ⟪unit (x - c), vel⟫) := by
  obtain ⟨t, o, ht, hroot, ho, hstat, hb⟩ := ha.obstacle
  have hκ := hb.scale_pos
  have hxc : x - c ≠ 0 := by rintro h0; rw [h0, norm_zero] at hx; linarith [hb.radius_pos]
  have hn := unit_norm hxc
  have hpi := Real.pi_pos
  have hη : 0 < closeness d := closeness_pos
  have hf : 0 < ‖x - c‖ - r := by linarith
  have hS1 : 1 ≤ S := (le_max_left _ _).trans hS
  have hP : 0 ≤ (Real.pi / 2 / φ) ^ a.power := by positivity
  have hall : ∀ v, ConvergenceDirection ext a x v → ‖v‖ = 1 ∧ v ≠ -unit (x - c) := by
    intro v hv
    obtain ⟨h1, h2⟩ := hdir v hv
    refine ⟨h1, ?_⟩
    rintro rfl
    rw [InnerProductGeometry.angle_self (neg_ne_zero.mpr (unit_ne_zero hxc))] at h2
    linarith
  have hL : 0 ≤ S * κ * (Real.pi / 2) * (Real.pi / 2 / φ) ^ a.power * (‖x - c‖ - r) := by positivity
  have hT : 0 ≤ S * ((1 + Real.pi / 2) * closeness d) := by positivity
  rcases ball_velocity hE has ha hx hall hmag h with rfl | ⟨v, D, l, hv, l0, l1, rfl, hD⟩
  · rw [inner_zero_right]
    exact ⟨by linarith, fun _ => by linarith⟩
  · rw [real_inner_smul_right]
    obtain ⟨h1, h2⟩ := hdir v hv
    have hlS := l1.trans hS
    rcases ball_rate ha.power hn h1 (mul_nonneg hκ.le hf.le) hφ h2 hD with h3 | ⟨h3, h4⟩
    · have h5 := mul_le_mul_of_nonneg_left h3 l0
      have h6 : 0 ≤ Real.pi / 2 * ballPower a.power φ * (κ * (‖x - c‖ - r)) := by
        unfold ballPower; positivity
      have h7 := mul_le_mul_of_nonneg_right hlS h6
      have h8 : S * κ * (Real.pi / 2) * (Real.pi / 2 / φ) ^ a.power * (‖x - c‖ - r)
          = S * (Real.pi / 2 * ballPower a.power φ * (κ * (‖x - c‖ - r))) := by
        unfold ballPower; ring
      rw [h8]
      exact ⟨by linarith, fun _ => by linarith⟩
    · refine ⟨?_, fun hno => absurd h3 (not_le.mpr (hno v hv))⟩
      have h5 := mul_le_mul_of_nonneg_left h4 l0
      have h6 : 0 ≤ (1 + Real.pi / 2) * closeness d := by positivity
      have h7 := mul_le_mul_of_nonneg_right hlS h6
      linarith

/-- C116 (partial): a trajectory which starts outside of a ball stays outside: the distance decays at most
exponentially, with an additional creeping of the size of the tolerance of `np.allclose`.

Missing: obstacles of other shapes (`C124_trajectory_partial`) (several balls: C120), and times after which the creeping may have used up the
distance. -/
theorem C116_trajectory_partial (ext : Ext d k) (hE : DirectionSpace ext) (has : ArgsortSpec ext.argsort)
    (a : Avoider d) (c : Vec d) (r κ S φ : ℝ) (ha : BallAvoider a c r κ) (hφ : 0 < φ)
    (hmag : ∀ x, 0 ≤ a.magnitude x ∧ max 1 (a.magnitude x) ≤ S) (T : ℝ) (x : ℝ → Vec d)
    (hx : Trajectory ext a T x) (h0 : r < ‖x 0 - c‖)
    (hdir : ∀ t ∈ Icc 0 T, ∀ v, ConvergenceDirection ext a (x t) v →
      ‖v‖ = 1 ∧ φ ≤ InnerProductGeometry.angle (-unit (x t - c)) v)
    (L E : ℝ) (hL : L = S * κ * (Real.pi / 2) * (Real.pi / 2 / φ) ^ a.power)
    (hEq : E = S * ((1 + Real.pi / 2) * closeness d))
    (hT : ∀ t ∈ Icc 0 T, 0 < (‖x 0 - c‖ - r + E / L) * Real.exp (-(L * t)) - E / L) :
    ∀ t ∈ Icc 0 T, (‖x 0 - c‖ - r + E / L) * Real.exp (-(L * t)) - E / L ≤ ‖x t - c‖ - r := by
  obtain ⟨_, _, _, _, _, _, hb⟩ := ha.obstacle
  have hr := hb.radius_pos
  have hκ := hb.scale_pos
  have hpi := Real.pi_pos
  have hS1 : 0 < S := lt_of_lt_of_le one_pos ((le_max_left _ _).trans (hmag 0).2)
  have hLp : 0 < L := by rw [hL]; positivity
  choose! vel hev hvel using hx
  -- a differentiable extension of the distance
  have hcont : ContinuousOn x (Icc 0 T) := fun t ht => (hvel t ht).continuousWithinAt
  refine keeps_above (((hcont.sub continuousOn_const).norm).sub continuousOn_const) (by fun_prop) hT
    (by linarith) ?_
  intro t ht hp
  have hsub : ∀ s ∈ Icc 0 t, s ∈ Icc 0 T := fun s hs => ⟨hs.1, hs.2.trans ht.2⟩
  refine gronwall_below (T := t) (f := fun s => ‖x s - c‖ - r) (f' := fun s => ⟪unit (x s - c), vel s⟫) hLp ?_ le_rfl
    (by linarith) ?_ (fun s hs => hT s (hsub s hs)) t ⟨ht.1, le_rfl⟩
  · intro s hs
    have h1 := hp s hs
    have hz : x s - c ≠ 0 := by intro h; rw [h, norm_zero] at h1; linarith
    exact ((dist_deriv ((hvel s (hsub s hs)).mono (Icc_subset_Icc_right ht.2)) hz).sub_const r)
  · intro s hs hpos
    have h1 := (C116_rate ext hE has a c r κ S φ ha hφ (x s) (vel s) (by linarith) (hmag _).1 (hmag _).2
      (hdir s (hsub s hs)) (hev s (hsub s hs))).1
    rw [hL, hEq]
    exact h1

/-- C116 (partial): if the motion is never within the tolerance of the tangential plane, the trajectory never reaches
the ball, for all times.

Missing: obstacles of other shapes (`C124_trajectory_partial`) (several balls: C120), motions which pass the tangential plane (`C116_straight` for
motions with a constant direction). -/
theorem C116_never_partial (ext : Ext d k) (hE : DirectionSpace ext) (has : ArgsortSpec ext.argsort)
    (a : Avoider d) (c : Vec d) (r κ S φ : ℝ) (ha : BallAvoider a c r κ) (hφ : 0 < φ)
    (hmag : ∀ x, 0 ≤ a.magnitude x ∧ max 1 (a.magnitude x) ≤ S) (T : ℝ) (x : ℝ → Vec d)
    (hx : Trajectory ext a T x) (h0 : r < ‖x 0 - c‖)
    (hdir : ∀ t ∈ Icc 0 T, ∀ v, ConvergenceDirection ext a (x t) v →
      ‖v‖ = 1 ∧ φ ≤ InnerProductGeometry.angle (-unit (x t - c)) v
      ∧ closeness d < |⟪unit (x t - c), v⟫|)
    (L : ℝ) (hL : L = S * κ * (Real.pi / 2) * (Real.pi / 2 / φ) ^ a.power) :
    ∀ t ∈ Icc 0 T, (‖x 0 - c‖ - r) * Real.exp (-(L * t)) ≤ ‖x t - c‖ - r := by
  obtain ⟨_, _, _, _, _, _, hb⟩ := ha.obstacle
  have hr := hb.radius_pos
  have hκ := hb.scale_pos
  have hpi := Real.pi_pos
  have hS1 : 0 < S := lt_of_lt_of_le one_pos ((le_max_left _ _).trans (hmag 0).2)
  have hLp : 0 < L := by rw [hL]; positivity
  have hf0 : 0 < ‖x 0 - c‖ - r := by linarith
  choose! vel hev hvel using hx
  have hcont : ContinuousOn x (Icc 0 T) := fun t ht => (hvel t ht).continuousWithinAt
  refine keeps_above (((hcont.sub continuousOn_const).norm).sub continuousOn_const) (by fun_prop)
    (fun t _ => by positivity) (by linarith) ?_
  intro t ht hp
  have hsub : ∀ s ∈ Icc 0 t, s ∈ Icc 0 T := fun s hs => ⟨hs.1, hs.2.trans ht.2⟩
  have := gronwall_below (T := t) (E := 0) (f := fun s => ‖x s - c‖ - r) (f' := fun s => ⟪unit (x s - c), vel s⟫)
    hLp ?_ le_rfl hf0 ?_ (fun s _ => by simp only [zero_div, add_zero, sub_zero]; positivity) t ⟨ht.1, le_rfl⟩
  · simpa using this
  · intro s hs
    have h1 := hp s hs
    have hz : x s - c ≠ 0 := by intro h; rw [h, norm_zero] at h1; linarith
    exact ((dist_deriv ((hvel s (hsub s hs)).mono (Icc_subset_Icc_right ht.2)) hz).sub_const r)
  · intro s hs hpos
    have h1 := (C116_rate ext hE has a c r κ S φ ha hφ (x s) (vel s) (by linarith) (hmag _).1 (hmag _).2
      (fun v hv => ⟨(hdir s (hsub s hs) v hv).1, (hdir s (hsub s hs) v hv).2.1⟩) (hev s (hsub s hs))).2
      (fun v hv => (hdir s (hsub s hs) v hv).2.2)
    rw [hL, sub_zero]
    exact h1

/-- What a straight motion with a ball in its way is. -/
lemma straight_ball {ext : Ext d k} (has : ArgsortSpec ext.argsort) {projected : Vec d → Convergence d}
    {t : ObstacleTree d} {o : Obstacle d} {initial : Dynamics d} {ref : Vec d → Vec d} {u c : Vec d} {r κ : ℝ}
    {a : Avoider d} (hA : initial.attractorPosition = none) (hown : initial.ownSequence = none)
    (hu : Straight initial.evaluate u) (hr : Straight ref u)
    (ha : createAvoider projected [t] initial (some ref) = .ok a) (hroot : t.rootIdx = 0)
    (hpar : t.parentIdx 0 = none) (ho : t.components = [o]) (hstat : Static t) (hb : IsBall o c r κ) :
    BallAvoider a c r κ ∧ a.power = 0.3 ∧ (∀ x, 0 ≤ a.magnitude x)
      ∧ ∀ x v, ConvergenceDirection ext a x v ↔ v = u := by
  have ha' : a = { initial := initial, convergence := convergenceWithoutSingularity initial.evaluate ref, trees := [t] } := by
    unfold createAvoider createLocalConvergence at ha
    rw [hA] at ha
    cases ha; rfl
  have hi : a.initial = initial := by rw [ha']
  refine ⟨⟨⟨t, o, by rw [ha'], hroot, ho, hstat, hb⟩, by rw [ha'], by rw [ha']; norm_num⟩, by rw [ha'], ?_, ?_⟩
  · intro x
    rw [ha']
    exact norm_nonneg _
  · intro x v
    have hH : ∀ t' ∈ [t], Hierarchy t' := by
      intro t' ht'
      rw [List.mem_singleton] at ht'
      subst ht'
      refine ⟨by rw [hroot, ho]; simp, ?_⟩
      intro i hi
      rw [ho] at hi
      have : i = 0 := by simpa using hi
      subst this
      exact ⟨0, by norm_num, .stop (by rw [ho]; simp) hpar⟩
    obtain ⟨s, conv, e1, e2, e3⟩ := C113_straight_partial ext has projected [t] initial ref u a hA hown hu hr ha hH x
    constructor
    · rintro ⟨s', conv', f1, f2, f3⟩
      rw [hi, e1] at f1; cases f1
      rw [e2] at f2; cases f2
      rw [e3] at f3; cases f3
      rfl
    · rintro rfl
      exact ⟨s, conv, by rw [hi]; exact e1, e2, e3⟩

/-- C116: an avoider for a motion with the constant direction `u` and a ball in its way never reaches the ball unless
it starts exactly head-on: for all times the distance from the ball is at least a fixed part of the initial distance
(of the radius, if it starts further away), less a tolerance of about `10⁻⁸` times the radius.  The part depends only
on the angle between the motion and the direction of the centre at the start. -/
theorem C116_straight (ext : Ext d k) (hE : DirectionSpace ext) (has : ArgsortSpec ext.argsort)
    (projected : Vec d → Convergence d) (t : ObstacleTree d) (o : Obstacle d) (initial : Dynamics d)
    (ref : Vec d → Vec d) (u c : Vec d) (r κ : ℝ) (a : Avoider d) (hA : initial.attractorPosition = none)
    (hown : initial.ownSequence = none) (hu : Straight initial.evaluate u) (hr : Straight ref u)
    (ha : createAvoider projected [t] initial (some ref) = .ok a) (hroot : t.rootIdx = 0)
    (hpar : t.parentIdx 0 = none) (ho : t.components = [o]) (hstat : Static t) (hb : IsBall o c r κ) (hd : closeness d ≤ 1 / 10)
    (T : ℝ) (x : ℝ → Vec d) (hx : Trajectory ext a T x) (h0 : r < ‖x 0 - c‖) (hne : u ≠ -unit (x 0 - c))
    (e B : ℝ)
    (he : e = Real.pi / 2 * κ * r
      * (Real.pi / 2 / InnerProductGeometry.angle (-unit (x 0 - c)) u) ^ (0.3 : ℝ))
    (hB : B = min (‖x 0 - c‖ - r) r * ((1 + ⟪unit (x 0 - c), u⟫) / 2) ^ e
      - 8 * Real.pi * (1 + Real.pi / 2) * r * closeness d ^ 2) (hBpos : 0 < B) :
    ∀ τ ∈ Icc 0 T, B ≤ ‖x τ - c‖ - r := by
  obtain ⟨hba, hpow, hmag, hconv⟩ := straight_ball (ext := ext) has hA hown hu hr ha hroot hpar ho hstat hb
  refine straight_clearance (power := a.power) (a := e) hba.power hd hb.scale_pos hb.radius_pos hu.norm h0 hne ?_
    (by rw [he, hpow]; rfl) B hB hBpos
  intro τ hτ
  obtain ⟨vel, hev, hvel⟩ := hx τ hτ
  refine ⟨vel, hvel, fun hout hun => ?_⟩
  have hdir : ∀ v, ConvergenceDirection ext a (x τ) v → ‖v‖ = 1 ∧ v ≠ -unit (x τ - c) := by
    intro v hv
    rw [(hconv _ v).mp hv]
    exact ⟨hu.norm, hun⟩
  rcases ball_velocity hE has hba hout hdir (hmag _) hev with h | ⟨v, D, l, hv, l0, _, hl, hD⟩
  · exact Or.inl h
  · rw [(hconv _ v).mp hv] at hD
    exact Or.inr ⟨D, l, l0, hl, hD⟩

/-- C116, negative result: the exact head-on motion is not deflected and not slowed down: it moves with unit speed
straight to the ball, and comes arbitrarily close to its surface in finite time. -/
theorem C116_head_on (ext : Ext d k) (hE : DirectionSpace ext) (has : ArgsortSpec ext.argsort)
    (projected : Vec d → Convergence d) (t : ObstacleTree d) (o : Obstacle d) (initial : Dynamics d)
    (ref : Vec d → Vec d) (u c : Vec d) (r κ : ℝ) (a : Avoider d) (hA : initial.attractorPosition = none)
    (hown : initial.ownSequence = none) (hu : Straight initial.evaluate u) (hr : Straight ref u)
    (ha : createAvoider projected [t] initial (some ref) = .ok a) (hroot : t.rootIdx = 0)
    (hpar : t.parentIdx 0 = none) (ho : t.components = [o]) (hstat : Static t) (hb : IsBall o c r κ) (ρ T : ℝ) (hT : T < ρ - r) :
    Trajectory ext a T (fun τ => c + (τ - ρ) • u)
      ∧ ∀ τ ∈ Icc 0 T, ‖(c + (τ - ρ) • u) - c‖ - r = ρ - r - τ := by
  obtain ⟨hba, hpow, _, hconv⟩ := straight_ball (ext := ext) has hA hown hu hr ha hroot hpar ho hstat hb
  have hr0 := hb.radius_pos
  have hun := hu.norm
  have hnorm : ∀ τ ∈ Icc 0 T, ‖(c + (τ - ρ) • u) - c‖ = ρ - τ := by
    intro τ hτ
    rw [add_sub_cancel_left, norm_smul, hun, mul_one, Real.norm_eq_abs, abs_of_neg (by linarith [hτ.2])]
    ring
  refine ⟨?_, fun τ hτ => by rw [hnorm τ hτ]; ring⟩
  intro τ hτ
  refine ⟨u, ?_, ?_⟩
  · refine ball_axis_evaluate hE has hba (by rw [hpow]; norm_num) (by rw [hnorm τ hτ]; linarith [hτ.2])
      ((hconv _ u).mpr rfl) (Or.inr ?_)
    unfold unit
    rw [hnorm τ hτ, add_sub_cancel_left, smul_smul, ← neg_smul]
    have h1 : ρ - τ ≠ 0 := by linarith [hτ.2]
    have h2 : -(1 / (ρ - τ) * (τ - ρ)) = 1 := by field_simp; ring
    rw [h2, one_smul]
  · have := (((hasDerivWithinAt_id τ (Icc 0 T)).sub_const ρ).smul_const u).const_add c
    simpa using this

/-! ## Examples -/

lemma disc_ball : IsBall (disc : Obstacle 2) 0 1 1 where
  radius_pos := one_pos
  scale_pos := one_pos
  outside := by intro p _; rw [sub_zero]; change ‖p‖ = _; ring
  inside := by intro p hp; rw [sub_zero] at hp; exact ⟨norm_nonneg _, hp⟩
  normal := by intro p; rw [sub_zero]; rfl
  reference := by intro p; rw [sub_zero]; change (-(1 / ‖p‖)) • p = _; rw [neg_smul]; rfl
  center := rfl
  surface := by
    intro v hv
    have hn : 0 < ‖v‖ := norm_pos_iff.mpr hv
    change (if v = 0 ∨ ⟪(0 : Vec 2), v⟫ ^ 2 - ‖v‖ ^ 2 * (‖(0 : Vec 2)‖ ^ 2 - 1) < 0 then none
      else some (0 + ((-⟪(0 : Vec 2), v⟫ + √(⟪(0 : Vec 2), v⟫ ^ 2 - ‖v‖ ^ 2 * (‖(0 : Vec 2)‖ ^ 2 - 1)))
        / ‖v‖ ^ 2) • v)) = _
    have e : ⟪(0 : Vec 2), v⟫ ^ 2 - ‖v‖ ^ 2 * (‖(0 : Vec 2)‖ ^ 2 - 1) = ‖v‖ ^ 2 := by
      rw [inner_zero_left, norm_zero]; ring
    rw [e, if_neg (by push Not; exact ⟨hv, by positivity⟩), Real.sqrt_sq hn.le, inner_zero_left, one_smul]
    unfold unit
    congr 3
    field_simp
    ring
  smooth := rfl

/-- The disc in the way of a motion with the constant velocity `v`. -/
noncomputable def straightDisc (v : Vec 2) : Avoider 2 where
  initial := { evaluate := fun _ => v, attractorPosition := none }
  convergence := convergenceWithoutSingularity (fun _ => v) (fun _ => v)
  trees := [discTree]

lemma straightDisc_create (projected : Vec 2 → Convergence 2) (v : Vec 2) :
    createAvoider projected [discTree] { evaluate := fun _ => v, attractorPosition := none } (some fun _ => v)
      = .ok (straightDisc v) := rfl

lemma straight_const {v : Vec d} (hv : ‖v‖ = 1) : Straight (fun _ => v) v :=
  fun _ => ⟨by rw [hv]; norm_num, unit_of_norm_one hv⟩

lemma straightDisc_ball {ext : Ext 2 1} (has : ArgsortSpec ext.argsort) {v : Vec 2} (hv : ‖v‖ = 1) :
    BallAvoider (straightDisc v) 0 1 1 ∧ (straightDisc v).power = 0.3 ∧ (∀ x, 0 ≤ (straightDisc v).magnitude x)
      ∧ ∀ x w, ConvergenceDirection ext (straightDisc v) x w ↔ w = v :=
  straight_ball (ext := ext) (projected := fun _ => (straightDisc v).convergence) (t := discTree) (o := disc)
    (initial := { evaluate := fun _ => v, attractorPosition := none }) (ref := fun _ => v) (u := v) (c := 0) (r := 1)
    (κ := 1) (a := straightDisc v) has rfl rfl (straight_const hv) (straight_const hv)
    (straightDisc_create _ v) rfl rfl rfl ⟨rfl, rfl⟩ disc_ball

lemma closeness_plane : closeness 2 ≤ 2e-5 := by
  unfold closeness
  have h : √((2 : ℕ) : ℝ) ≤ 2 := by
    rw [Real.sqrt_le_left (by norm_num)]; norm_num
  calc (1e-5 : ℝ) + 1e-8 * √((2 : ℕ) : ℝ) ≤ 1e-5 + 1e-8 * 2 := by gcongr
    _ ≤ 2e-5 := by norm_num

/-- The hypotheses of `C116_defined` and `C116_rate` are met by the disc and any motion which is not head-on, at every
position outside; the velocity exists. -/
example (argsort : List ℤ → List ℕ) (has : ArgsortSpec argsort) (v x : Vec 2) (hv : ‖v‖ = 1) (hx : 1 < ‖x‖)
    (hne : v ≠ -unit x) :
    BallAvoider (straightDisc v) 0 1 1 ∧ 0 < InnerProductGeometry.angle (-unit (x - 0)) v
    ∧ 0 ≤ (straightDisc v).magnitude x ∧ max 1 ((straightDisc v).magnitude x) ≤ 1
    ∧ (∀ w, ConvergenceDirection (planeExt argsort) (straightDisc v) x w →
      ‖w‖ = 1 ∧ InnerProductGeometry.angle (-unit (x - 0)) v ≤ InnerProductGeometry.angle (-unit (x - 0)) w)
    ∧ ConvergenceDirection (planeExt argsort) (straightDisc v) x v
    ∧ ∃ vel, (straightDisc v).evaluate (planeExt argsort) x = .ok vel := by
  obtain ⟨h1, _, h3, h4⟩ := straightDisc_ball (ext := planeExt argsort) has hv
  have hx0 : x ≠ 0 := by rintro rfl; simp at hx; linarith
  refine ⟨h1, ?_, h3 x, ?_, ?_, (h4 x v).mpr rfl, ?_⟩
  · rw [sub_zero]
    rcases (InnerProductGeometry.angle_nonneg (-unit x) v).eq_or_lt with h | h
    · exfalso
      apply hne
      have h5 := InnerProductGeometry.cos_angle (-unit x) v
      have hn : ‖-unit x‖ = 1 := by rw [norm_neg]; exact unit_norm hx0
      rw [← h, Real.cos_zero, hn, hv, mul_one, div_one] at h5
      exact ((inner_eq_one_iff_of_norm_eq_one (𝕜 := ℝ) hn hv).mp h5.symm).symm
    · exact h
  · change max 1 ‖v‖ ≤ 1
    rw [hv, max_self]
  · intro w hw
    rw [(h4 x w).mp hw]
    exact ⟨hv, le_rfl⟩
  · exact C116_defined _ (planeExt_space argsort) has _ 0 1 1 h1 x v (by rw [sub_zero]; exact hx) ((h4 x v).mpr rfl) hv

/-- Straight behind the disc there is an explicit trajectory. -/
lemma away_trajectory (argsort : List ℤ → List ℕ) (has : ArgsortSpec argsort) (v : Vec 2) (hv : ‖v‖ = 1) (T : ℝ) :
    Trajectory (planeExt argsort) (straightDisc v) T (fun t => (t + 2) • v) := by
  obtain ⟨h1, h2, h3, h4⟩ := straightDisc_ball (ext := planeExt argsort) has hv
  intro t ht
  have hn : ‖(t + 2) • v‖ = t + 2 := by
    rw [norm_smul, hv, mul_one, Real.norm_of_nonneg (by linarith [ht.1])]
  refine ⟨v, ?_, ?_⟩
  · refine ball_axis_evaluate (planeExt_space argsort) has h1 (by rw [h2]; norm_num)
      (by rw [sub_zero, hn]; linarith [ht.1]) ((h4 _ v).mpr rfl) (Or.inl ?_)
    rw [sub_zero]
    unfold unit
    rw [hn, smul_smul, one_div, inv_mul_cancel₀ (by linarith [ht.1]), one_smul]
  · have := ((hasDerivWithinAt_id t (Icc 0 T)).add_const 2).smul_const v
    simpa using this

lemma away_unit {v : Vec 2} (hv : ‖v‖ = 1) {t : ℝ} (ht : 0 ≤ t) : unit ((t + 2) • v - 0) = v := by
  unfold unit
  rw [sub_zero, norm_smul, hv, mul_one, Real.norm_of_nonneg (by linarith), smul_smul, one_div,
    inv_mul_cancel₀ (by linarith), one_smul]

/-- The hypotheses of `C116_trajectory_partial` and `C116_never_partial` are met by the motion away from the disc. -/
example (argsort : List ℤ → List ℕ) (has : ArgsortSpec argsort) (v : Vec 2) (hv : ‖v‖ = 1) :
    Trajectory (planeExt argsort) (straightDisc v) (1 / 10) (fun t => (t + 2) • v)
    ∧ (1 : ℝ) < ‖((0 : ℝ) + 2) • v - 0‖
    ∧ (∀ t ∈ Icc (0 : ℝ) (1 / 10), ∀ w, ConvergenceDirection (planeExt argsort) (straightDisc v) ((t + 2) • v) w →
      ‖w‖ = 1 ∧ Real.pi ≤ InnerProductGeometry.angle (-unit ((t + 2) • v - 0)) w
      ∧ closeness 2 < |⟪unit ((t + 2) • v - 0), w⟫|)
    ∧ ∀ t ∈ Icc (0 : ℝ) (1 / 10), ∀ L E : ℝ,
      L = 1 * 1 * (Real.pi / 2) * (Real.pi / 2 / Real.pi) ^ (straightDisc v).power →
      E = 1 * ((1 + Real.pi / 2) * closeness 2) →
      0 < (‖((0 : ℝ) + 2) • v - 0‖ - 1 + E / L) * Real.exp (-(L * t)) - E / L := by
  obtain ⟨h1, h2, h3, h4⟩ := straightDisc_ball (ext := planeExt argsort) has hv
  have hv0 : v ≠ 0 := by rintro rfl; simp at hv
  have hpi := Real.pi_pos
  have hpi2 := Real.pi_lt_d2
  have h0 : ‖((0 : ℝ) + 2) • v - 0‖ = 2 := by rw [sub_zero, norm_smul, hv]; norm_num
  refine ⟨away_trajectory argsort has v hv _, by rw [h0]; norm_num, ?_, ?_⟩
  · intro t ht w hw
    rw [(h4 _ w).mp hw, away_unit hv ht.1]
    refine ⟨hv, ?_, ?_⟩
    · rw [InnerProductGeometry.angle_neg_left, InnerProductGeometry.angle_self hv0, sub_zero]
    · rw [real_inner_self_eq_norm_sq, hv]
      norm_num
      exact closeness_plane.trans_lt (by norm_num)
  · intro t ht L E hL hE
    rw [h0, h2] at *
    have hη : 0 < closeness 2 := closeness_pos
    have hη2 := closeness_plane
    have hE0 : 0 < E := by rw [hE]; positivity
    have hE1 : E ≤ 1 := by rw [hE]; nlinarith
    have hP : (Real.pi / 2 / Real.pi) ^ (0.3 : ℝ) ≤ 1 := by
      refine Real.rpow_le_one (by positivity) ?_ (by norm_num)
      rw [div_le_one hpi]; linarith
    have hPp : 0 < (Real.pi / 2 / Real.pi) ^ (0.3 : ℝ) := by positivity
    have hLp : 0 < L := by rw [hL]; positivity
    have hL2 : L ≤ 2 := by rw [hL]; nlinarith
    have hexp : 1 - L * t ≤ Real.exp (-(L * t)) := by linarith [Real.add_one_le_exp (-(L * t))]
    have h5 : (2 - 1 + E / L) * (1 - L * t) ≤ (2 - 1 + E / L) * Real.exp (-(L * t)) :=
      mul_le_mul_of_nonneg_left hexp (by positivity)
    have h6 : (2 - 1 + E / L) * (1 - L * t) = 1 - L * t + E / L - E * t := by field_simp; ring
    have h7 : L * t ≤ 2 * (1 / 10) := mul_le_mul hL2 ht.2 ht.1 (by norm_num)
    have h8 : E * t ≤ 1 * (1 / 10) := mul_le_mul hE1 ht.2 ht.1 (by norm_num)
    linarith

/-- The hypotheses of `C116_straight` are met by the disc, both by the motion away from it and, for the bound, by a
motion which approaches it obliquely. -/
example (argsort : List ℤ → List ℕ) (has : ArgsortSpec argsort) (v : Vec 2) (hv : ‖v‖ = 1) (T : ℝ) :
    Trajectory (planeExt argsort) (straightDisc v) T (fun t => (t + 2) • v)
    ∧ (1 : ℝ) < ‖((0 : ℝ) + 2) • v - 0‖ ∧ v ≠ -unit (((0 : ℝ) + 2) • v - 0) ∧ closeness 2 ≤ 1 / 10
    ∧ ∀ x u : Vec 2, ‖x‖ = 2 → ‖u‖ = 1 → ⟪unit (x - 0), u⟫ = -3 / 5 → ∀ e : ℝ,
      e = Real.pi / 2 * 1 * 1 * (Real.pi / 2 / InnerProductGeometry.angle (-unit (x - 0)) u) ^ (0.3 : ℝ) →
      0 < min (‖x - 0‖ - 1) 1 * ((1 + ⟪unit (x - 0), u⟫) / 2) ^ e
        - 8 * Real.pi * (1 + Real.pi / 2) * 1 * closeness 2 ^ 2 := by
  have hpi := Real.pi_pos
  have hpi2 := Real.pi_lt_d2
  have hv0 : v ≠ 0 := by rintro rfl; simp at hv
  have h0 : ‖((0 : ℝ) + 2) • v - 0‖ = 2 := by rw [sub_zero, norm_smul, hv]; norm_num
  have hη : 0 < closeness 2 := closeness_pos
  have hη2 := closeness_plane
  refine ⟨away_trajectory argsort has v hv T, by rw [h0]; norm_num, ?_, by linarith, ?_⟩
  · rw [away_unit hv le_rfl]
    intro h
    have : (2 : ℝ) • v = 0 := by rw [two_smul]; nth_rewrite 1 [h]; simp
    simp [hv0] at this
  · intro x u hx hu hq e he
    rw [sub_zero] at *
    have hx0 : x ≠ 0 := by rintro rfl; simp at hx
    rw [hq, hx]
    set φ := InnerProductGeometry.angle (-unit x) u with hφ
    have hcos : Real.cos φ = 3 / 5 := by
      rw [hφ, InnerProductGeometry.cos_angle, inner_neg_left, hq, norm_neg, unit_norm hx0, hu]; norm_num
    have hφ0 : 0 ≤ φ := InnerProductGeometry.angle_nonneg _ _
    have hφπ : φ ≤ Real.pi := InnerProductGeometry.angle_le_pi _ _
    have hsin : Real.sin φ = 4 / 5 := by
      have h1 := Real.sin_nonneg_of_nonneg_of_le_pi hφ0 hφπ
      have h2 := Real.sin_sq_add_cos_sq φ
      rw [hcos] at h2
      nlinarith
    have hφ1 : 4 / 5 ≤ φ := by rw [← hsin]; exact Real.sin_le hφ0
    have hφ2 : φ ≤ Real.pi / 2 := by
      by_contra hc
      have := Real.cos_neg_of_pi_div_two_lt_of_lt (not_le.mp hc) (by linarith)
      linarith
    have h1 : 1 ≤ Real.pi / 2 / φ := by rw [le_div_iff₀ (by linarith)]; linarith
    have h2 : (Real.pi / 2 / φ) ^ (0.3 : ℝ) ≤ 2 := by
      calc (Real.pi / 2 / φ) ^ (0.3 : ℝ) ≤ (Real.pi / 2 / φ) ^ (1 : ℝ) :=
            Real.rpow_le_rpow_of_exponent_le h1 (by norm_num)
        _ = Real.pi / 2 / φ := Real.rpow_one _
        _ ≤ 2 := by rw [div_le_iff₀ (by linarith)]; linarith
    have he4 : e ≤ 4 := by
      rw [he]
      have := Real.pi_gt_three
      nlinarith
    have h3 : ((1 + -3 / 5) / 2 : ℝ) ^ (4 : ℝ) ≤ ((1 + -3 / 5) / 2) ^ e :=
      Real.rpow_le_rpow_of_exponent_ge (by norm_num) (by norm_num) he4
    have h4 : ((1 + -3 / 5) / 2 : ℝ) ^ (4 : ℝ) = 1 / 625 := by
      rw [show (4 : ℝ) = ((4 : ℕ) : ℝ) by norm_num, Real.rpow_natCast]; norm_num
    have h5 : 8 * Real.pi * (1 + Real.pi / 2) * 1 * closeness 2 ^ 2 ≤ 1 / 1000 := by
      have i1 : closeness 2 ^ 2 ≤ (2e-5) ^ 2 := pow_le_pow_left₀ hη.le hη2 2
      have i2 : 8 * Real.pi * (1 + Real.pi / 2) * 1 ≤ 100 := by nlinarith
      calc 8 * Real.pi * (1 + Real.pi / 2) * 1 * closeness 2 ^ 2 ≤ 100 * (2e-5) ^ 2 :=
            mul_le_mul i2 i1 (by positivity) (by norm_num)
        _ ≤ 1 / 1000 := by norm_num
    rw [h4] at h3
    have h6 : min ((2 : ℝ) - 1) 1 = 1 := by norm_num
    rw [h6]
    linarith

/-- The hypotheses of `C116_head_on` are met by the disc and every constant motion. -/
example (projected : Vec 2 → Convergence 2) (v : Vec 2) (hv : ‖v‖ = 1) :
    Straight (fun _ => v) v ∧ IsBall (disc : Obstacle 2) 0 1 1 ∧ Static (discTree : ObstacleTree 2) ∧ (discTree : ObstacleTree 2).rootIdx = 0
    ∧ (discTree : ObstacleTree 2).parentIdx 0 = none ∧ (discTree : ObstacleTree 2).components = [disc] ∧ (1 / 2 : ℝ) < 2 - 1
    ∧ createAvoider projected [discTree] { evaluate := fun _ => v, attractorPosition := none } (some fun _ => v)
      = .ok (straightDisc v) :=
  ⟨straight_const hv, disc_ball, ⟨rfl, rfl⟩, rfl, rfl, rfl, by norm_num, rfl⟩

/-- The hypotheses of `C108_tolerance_partial` are met by the disc at every position outside and by every motion, also
by those which are within the tolerance of their tangents. -/
example (argsort : List ℤ → List ℕ) (has : ArgsortSpec argsort) (v x : Vec 2) (hv : ‖v‖ = 1) (hx : 1 < ‖x‖) :
    0 ≤ (straightDisc v).power ∧ (straightDisc v).convergenceRadius ≤ Real.pi * 0.5
    ∧ SingleOutside x (straightDisc v).trees
    ∧ (∀ t ∈ (straightDisc v).trees, ∀ o, t.components = [o] → ∀ τ,
      TangentOf (planeExt argsort) (straightDisc v).convergenceRadius o x v τ → ¬ Opposite (unit v) τ)
    ∧ ∃ pr, prepareAvoidance (planeExt argsort) (straightDisc v) x v = .ok pr := by
  obtain ⟨h1, h2, _, _⟩ := straightDisc_ball (ext := planeExt argsort) has hv
  have hx' : (1 : ℝ) < ‖x - 0‖ := by rwa [sub_zero]
  refine ⟨h1.power, h1.radius.le, ball_single (a := straightDisc v) rfl rfl rfl disc_ball hx', ?_, ?_⟩
  · intro t ht o ho τ hτ
    rw [show (straightDisc v).trees = [discTree] from rfl, List.mem_singleton] at ht
    subst ht
    have : o = disc := by
      have : [disc] = [o] := ho
      cases this; rfl
    subst this
    rw [unit_of_norm_one hv]
    exact ball_not_opposite (planeExt_space argsort) h1.radius disc_ball hx' hv hτ
  · obtain ⟨pr, _, h, _⟩ := ball_prepare (planeExt_space argsort) has h1 hx' hv
    exact ⟨pr, h⟩

end Verif
