import Verif.Lemmas.BallsVelocity
import Verif.Props.Trajectory
import Verif.Props.AvoiderTwoContacts

/-!
# C120: the avoider among several balls

As C116, for any number of balls: the influences of the balls are limited to a total of one and averaged, and the
theorems say that the average still does not move into any of them.
-/

open scoped RealInnerProductSpace
open Set

namespace Verif
open Spec

variable {d k : ℕ} [Fact (2 ≤ d)]

/-- C120: outside of all balls the velocity is defined, whatever the convergence direction. -/
theorem C120_defined (ext : Ext d k) (hE : DirectionSpace ext) (has : ArgsortSpec ext.argsort) (a : Avoider d)
    (balls : List (Ball d)) (ha : BallsAvoider a balls) (x v : Vec d) (hx : FreeOf balls x)
    (hc : ConvergenceDirection ext a x v) (hv : ‖v‖ = 1) : ∃ vel, a.evaluate ext x = .ok vel :=
  balls_defined hE has ha hx hc hv

/-- C120: the avoider approaches every ball at most in proportion to the remaining distance (up to the tolerance of
`np.allclose`), although all balls influence the direction: the factor depends on the number of balls and on how far
the others are (their distance functions exceed `1 + m`). -/
theorem C120_rate (ext : Ext d k) (hE : DirectionSpace ext) (has : ArgsortSpec ext.argsort) (a : Avoider d)
    (balls : List (Ball d)) (S φ : ℝ) (ha : BallsAvoider a balls) (hφ : 0 < φ) (hφ2 : φ ≤ Real.pi / 2)
    (x vel : Vec d) (hx : FreeOf balls x) (hmag : 0 ≤ a.magnitude x) (hS : max 1 (a.magnitude x) ≤ S)
    (hdir : ∀ v, ConvergenceDirection ext a x v → ‖v‖ = 1 ∧ Oblique φ balls x v)
    (h : a.evaluate ext x = .ok vel) (i : ℕ) (b : Ball d) (hi : balls[i]? = some b) (m : ℝ) (hm : 0 < m)
    (hother : ∀ (j : ℕ) (b' : Ball d), j ≠ i → balls[j]? = some b' → m ≤ b'.scale * clearance b' x) :
    -(S * (2 * Real.pi * (Real.pi / 2 / φ) ^ a.power * max 1 (balls.length / m)) * (b.scale * clearance b x))
        - S * ((1 + Real.pi / 2) * closeness d) ≤ ⟪unit (x - b.center), vel⟫
    ∧ ((∀ v, ConvergenceDirection ext a x v → closeness d < |⟪unit (x - b.center), v⟫|) →
      -(S * (2 * Real.pi * (Real.pi / 2 / φ) ^ a.power * max 1 (balls.length / m)) * (b.scale * clearance b x))
        ≤ ⟪unit (x - b.center), vel⟫) := by
  have hpi := Real.pi_pos
  have hη : 0 < closeness d := closeness_pos
  have hS1 : 1 ≤ S := (le_max_left _ _).trans hS
  have hbm : b ∈ balls := List.mem_iff_getElem?.mpr ⟨i, hi⟩
  obtain ⟨t, o, _, _, _, hball⟩ := balls_index ha hi
  have hy : 0 ≤ b.scale * clearance b x := mul_nonneg hball.scale_pos.le (hx b hbm).le
  have hmax : (0 : ℝ) ≤ max 1 (balls.length / m) := zero_le_one.trans (le_max_left _ _)
  have hK : 0 ≤ 2 * Real.pi * (Real.pi / 2 / φ) ^ a.power * max 1 (balls.length / m) * (b.scale * clearance b x) := by
    positivity
  have hT : 0 ≤ (1 + Real.pi / 2) * closeness d := by positivity
  rw [mul_assoc S]
  rcases balls_velocity hE has ha hx (fun v hv => (hdir v hv).1) hmag h with
    rfl | ⟨v, pr, D, l, hv, hpr, hD, hD1, l0, l1, rfl⟩
  · rw [inner_zero_right]
    have h1 := mul_nonneg (zero_le_one.trans hS1) hK
    have h2 := mul_nonneg (zero_le_one.trans hS1) hT
    exact ⟨by linarith, fun _ => by linarith⟩
  · rw [real_inner_smul_right]
    have hlS := l1.trans hS
    have h7 := mul_le_mul_of_nonneg_right hlS hK
    have h8 := mul_le_mul_of_nonneg_right hlS hT
    have h9 := mul_nonneg (zero_le_one.trans hS1) hT
    rcases balls_direction hE has ha hx (hdir v hv).1 hφ hφ2 (hdir v hv).2 hpr hD hi hm hother with h3 | ⟨h3, h4⟩
    · have h5 := mul_le_mul_of_nonneg_left h3 l0
      unfold ballPower at h5
      exact ⟨by linarith, fun _ => by linarith⟩
    · refine ⟨?_, fun hno => absurd h3 (not_le.mpr (hno v hv))⟩
      have h5 := mul_le_mul_of_nonneg_left h4 l0
      unfold ballPower at h5
      linarith

/-- How fast the avoider approaches any of several balls which are apart. -/
lemma balls_apart_rate {ext : Ext d k} (hE : DirectionSpace ext) (has : ArgsortSpec ext.argsort) {a : Avoider d}
    {balls : List (Ball d)} {S φ gap κ K : ℝ} (ha : BallsAvoider a balls) (hφ : 0 < φ) (hφ2 : φ ≤ Real.pi / 2)
    (hgap : 0 < gap) (hap : Apart gap balls) (hκ : 0 < κ) (hscale : ∀ b ∈ balls, κ ≤ b.scale ∧ b.scale ≤ K)
    {x vel : Vec d} (hx : FreeOf balls x) (hmag : 0 ≤ a.magnitude x) (hS : max 1 (a.magnitude x) ≤ S)
    (hdir : ∀ v, ConvergenceDirection ext a x v → ‖v‖ = 1 ∧ Oblique φ balls x v)
    (h : a.evaluate ext x = .ok vel) {L : ℝ}
    (hL : L = S * max (2 / gap)
      (2 * Real.pi * (Real.pi / 2 / φ) ^ a.power * max 1 (balls.length / (κ * (gap / 2))) * K))
    {b : Ball d} (hb : b ∈ balls) :
    -(L * clearance b x) - S * ((1 + Real.pi / 2) * closeness d) ≤ ⟪unit (x - b.center), vel⟫
    ∧ ((∀ v, ConvergenceDirection ext a x v → closeness d < |⟪unit (x - b.center), v⟫|) →
      -(L * clearance b x) ≤ ⟪unit (x - b.center), vel⟫) := by
  have hpi := Real.pi_pos
  have hη : 0 < closeness d := closeness_pos
  have hS1 : 0 < S := one_pos.trans_le ((le_max_left _ _).trans hS)
  have hT : 0 ≤ S * ((1 + Real.pi / 2) * closeness d) := by positivity
  have hpos := hx b hb
  obtain ⟨i, hi⟩ := List.mem_iff_getElem?.mp hb
  by_cases hfar : gap / 2 ≤ clearance b x
  · -- far from this ball the speed is bounded
    have hxb := free_ball hx hb
    obtain ⟨t, o, _, _, _, hball⟩ := balls_index ha hi
    have hxc : x - b.center ≠ 0 := by rintro h0; rw [h0, norm_zero] at hxb; linarith [hball.radius_pos]
    have hvel : ‖vel‖ ≤ S := by
      rcases balls_velocity hE has ha hx (fun v hv => (hdir v hv).1) hmag h with
        rfl | ⟨v, pr, D, l, _, _, _, hD1, l0, l1, rfl⟩
      · rw [norm_zero]; exact hS1.le
      · rw [norm_smul, hD1, mul_one, Real.norm_of_nonneg l0]; exact l1.trans hS
    have h1 := (abs_le.mp (abs_real_inner_le_norm (unit (x - b.center)) vel)).1
    rw [unit_norm hxc, one_mul] at h1
    have h2 : S * (2 / gap) * clearance b x ≤ L * clearance b x := by
      refine mul_le_mul_of_nonneg_right ?_ hpos.le
      rw [hL]
      exact mul_le_mul_of_nonneg_left (le_max_left _ _) hS1.le
    have h3 : S ≤ S * (2 / gap) * clearance b x := by
      have : 1 ≤ 2 / gap * clearance b x := by
        rw [div_mul_eq_mul_div, le_div_iff₀ hgap]; linarith
      nlinarith
    exact ⟨by linarith, fun _ => by linarith⟩
  · -- close to this ball all others are far
    have hm : 0 < κ * (gap / 2) := by positivity
    obtain ⟨h1, h2⟩ := C120_rate ext hE has a balls S φ ha hφ hφ2 x vel hx hmag hS hdir h i b hi (κ * (gap / 2)) hm (by
      intro j b' hj hb'
      have h1 := apart_other hap hj hi hb' x
      have h2 := (hscale b' (List.mem_iff_getElem?.mpr ⟨j, hb'⟩)).1
      exact mul_le_mul h2 (by linarith) (by positivity) (hκ.le.trans h2))
    have h3 : S * (2 * Real.pi * (Real.pi / 2 / φ) ^ a.power * max 1 (balls.length / (κ * (gap / 2))))
        * (b.scale * clearance b x) ≤ L * clearance b x := by
      rw [← mul_assoc]
      refine mul_le_mul_of_nonneg_right ?_ hpos.le
      rw [hL, mul_assoc S]
      refine mul_le_mul_of_nonneg_left (le_trans ?_ (le_max_right _ _)) hS1.le
      refine mul_le_mul_of_nonneg_left (hscale b hb).2 ?_
      have : (0 : ℝ) ≤ max 1 (balls.length / (κ * (gap / 2))) := zero_le_one.trans (le_max_left _ _)
      positivity
    exact ⟨by linarith, fun hno => by linarith [h2 hno]⟩

/-- C120 (partial): a trajectory which starts outside of all balls stays outside of all of them: every distance decays
at most exponentially, with an additional creeping of the size of the tolerance of `np.allclose`.  The balls have to be
apart from each other.

Missing: obstacles of other shapes (`C124_trajectory_partial`), balls which touch or overlap (`C61_two_contacts` shows that the claim fails where
two of them are touched at once), and times after which the creeping may have used up the distance. -/
theorem C120_trajectory_partial (ext : Ext d k) (hE : DirectionSpace ext) (has : ArgsortSpec ext.argsort)
    (a : Avoider d) (balls : List (Ball d)) (S φ gap κ K : ℝ) (ha : BallsAvoider a balls) (hφ : 0 < φ)
    (hφ2 : φ ≤ Real.pi / 2) (hgap : 0 < gap) (hap : Apart gap balls) (hκ : 0 < κ)
    (hscale : ∀ b ∈ balls, κ ≤ b.scale ∧ b.scale ≤ K)
    (hmag : ∀ x, 0 ≤ a.magnitude x ∧ max 1 (a.magnitude x) ≤ S) (T : ℝ) (x : ℝ → Vec d)
    (hx : Trajectory ext a T x) (h0 : FreeOf balls (x 0))
    (hdir : ∀ t ∈ Icc 0 T, ∀ v, FreeOf balls (x t) → ConvergenceDirection ext a (x t) v →
      ‖v‖ = 1 ∧ Oblique φ balls (x t) v)
    (L E : ℝ)
    (hL : L = S * max (2 / gap)
      (2 * Real.pi * (Real.pi / 2 / φ) ^ a.power * max 1 (balls.length / (κ * (gap / 2))) * K))
    (hEq : E = S * ((1 + Real.pi / 2) * closeness d))
    (hT : ∀ b ∈ balls, ∀ t ∈ Icc 0 T, 0 < (clearance b (x 0) + E / L) * Real.exp (-(L * t)) - E / L) :
    ∀ t ∈ Icc 0 T, ∀ b ∈ balls,
      (clearance b (x 0) + E / L) * Real.exp (-(L * t)) - E / L ≤ clearance b (x t) := by
  have hpi := Real.pi_pos
  have hS1 : 0 < S := lt_of_lt_of_le one_pos ((le_max_left _ _).trans (hmag 0).2)
  have hLp : 0 < L := by
    rw [hL]
    exact mul_pos hS1 (lt_of_lt_of_le (by positivity) (le_max_left _ _))
  choose! vel hev hvel using hx
  have hcont : ContinuousOn x (Icc 0 T) := fun t ht => (hvel t ht).continuousWithinAt
  refine keeps_above_all balls (y := fun b t => clearance b (x t))
    (B := fun b t => (clearance b (x 0) + E / L) * Real.exp (-(L * t)) - E / L)
    (fun b _ => ((hcont.sub continuousOn_const).norm).sub continuousOn_const) (fun b _ => by fun_prop) hT h0 ?_
  intro t ht hp b hb
  have hsub : ∀ s ∈ Icc 0 t, s ∈ Icc 0 T := fun s hs => ⟨hs.1, hs.2.trans ht.2⟩
  obtain ⟨i, hi⟩ := List.mem_iff_getElem?.mp hb
  obtain ⟨_, _, _, _, _, hball⟩ := balls_index ha hi
  refine gronwall_below (T := t) (f := fun s => clearance b (x s)) (f' := fun s => ⟪unit (x s - b.center), vel s⟫) hLp ?_
    le_rfl (h0 b hb) ?_ (fun s hs => hT b hb s (hsub s hs)) t ⟨ht.1, le_rfl⟩
  · intro s hs
    have h1 := free_ball (hp s hs) hb
    have hz : x s - b.center ≠ 0 := by intro h; rw [h, norm_zero] at h1; linarith [hball.radius_pos]
    exact ((dist_deriv ((hvel s (hsub s hs)).mono (Icc_subset_Icc_right ht.2)) hz).sub_const b.radius)
  · intro s hs _
    rw [hEq]
    exact (balls_apart_rate hE has ha hφ hφ2 hgap hap hκ hscale (hp s hs) (hmag _).1 (hmag _).2
      (fun v hv => hdir s (hsub s hs) v (hp s hs) hv) (hev s (hsub s hs)) hL hb).1

/-- C120 (partial): if the motion is never within the tolerance of the tangential planes, the trajectory never reaches
any of the balls, for all times.

Missing: obstacles of other shapes (`C124_trajectory_partial`), balls which touch or overlap, motions which pass a tangential plane. -/
theorem C120_never_partial (ext : Ext d k) (hE : DirectionSpace ext) (has : ArgsortSpec ext.argsort)
    (a : Avoider d) (balls : List (Ball d)) (S φ gap κ K : ℝ) (ha : BallsAvoider a balls) (hφ : 0 < φ)
    (hφ2 : φ ≤ Real.pi / 2) (hgap : 0 < gap) (hap : Apart gap balls) (hκ : 0 < κ)
    (hscale : ∀ b ∈ balls, κ ≤ b.scale ∧ b.scale ≤ K)
    (hmag : ∀ x, 0 ≤ a.magnitude x ∧ max 1 (a.magnitude x) ≤ S) (T : ℝ) (x : ℝ → Vec d)
    (hx : Trajectory ext a T x) (h0 : FreeOf balls (x 0))
    (hdir : ∀ t ∈ Icc 0 T, ∀ v, FreeOf balls (x t) → ConvergenceDirection ext a (x t) v →
      ‖v‖ = 1 ∧ Oblique φ balls (x t) v ∧ ∀ b ∈ balls, closeness d < |⟪unit (x t - b.center), v⟫|)
    (L : ℝ)
    (hL : L = S * max (2 / gap)
      (2 * Real.pi * (Real.pi / 2 / φ) ^ a.power * max 1 (balls.length / (κ * (gap / 2))) * K)) :
    ∀ t ∈ Icc 0 T, ∀ b ∈ balls, clearance b (x 0) * Real.exp (-(L * t)) ≤ clearance b (x t) := by
  have hpi := Real.pi_pos
  have hS1 : 0 < S := lt_of_lt_of_le one_pos ((le_max_left _ _).trans (hmag 0).2)
  have hLp : 0 < L := by
    rw [hL]
    exact mul_pos hS1 (lt_of_lt_of_le (by positivity) (le_max_left _ _))
  choose! vel hev hvel using hx
  have hcont : ContinuousOn x (Icc 0 T) := fun t ht => (hvel t ht).continuousWithinAt
  refine keeps_above_all balls (y := fun b t => clearance b (x t))
    (B := fun b t => clearance b (x 0) * Real.exp (-(L * t)))
    (fun b _ => ((hcont.sub continuousOn_const).norm).sub continuousOn_const) (fun b _ => by fun_prop)
    (fun b hb t _ => mul_pos (h0 b hb) (Real.exp_pos _)) h0 ?_
  intro t ht hp b hb
  have hsub : ∀ s ∈ Icc 0 t, s ∈ Icc 0 T := fun s hs => ⟨hs.1, hs.2.trans ht.2⟩
  obtain ⟨i, hi⟩ := List.mem_iff_getElem?.mp hb
  obtain ⟨_, _, _, _, _, hball⟩ := balls_index ha hi
  have := gronwall_below (T := t) (E := 0) (f := fun s => clearance b (x s))
    (f' := fun s => ⟪unit (x s - b.center), vel s⟫) hLp ?_ le_rfl (h0 b hb) ?_
    (fun s _ => by simp only [zero_div, add_zero, sub_zero]; exact mul_pos (h0 b hb) (Real.exp_pos _)) t ⟨ht.1, le_rfl⟩
  · simpa using this
  · intro s hs
    have h1 := free_ball (hp s hs) hb
    have hz : x s - b.center ≠ 0 := by intro h; rw [h, norm_zero] at h1; linarith [hball.radius_pos]
    exact ((dist_deriv ((hvel s (hsub s hs)).mono (Icc_subset_Icc_right ht.2)) hz).sub_const b.radius)
  · intro s hs _
    rw [sub_zero]
    refine (balls_apart_rate hE has ha hφ hφ2 hgap hap hκ hscale (hp s hs) (hmag _).1 (hmag _).2
      (fun v hv => ?_) (hev s (hsub s hs)) hL hb).2 (fun v hv => (hdir s (hsub s hs) v (hp s hs) hv).2.2 b hb)
    obtain ⟨h1, h2, _⟩ := hdir s (hsub s hs) v (hp s hs) hv
    exact ⟨h1, h2⟩

/-- What a straight motion with several balls in its way is. -/
lemma straight_balls {ext : Ext d k} (has : ArgsortSpec ext.argsort) {projected : Vec d → Convergence d}
    {trees : List (ObstacleTree d)} {balls : List (Ball d)} {initial : Dynamics d} {ref : Vec d → Vec d} {u : Vec d}
    {a : Avoider d} (hA : initial.attractorPosition = none) (hown : initial.ownSequence = none)
    (hu : Straight initial.evaluate u) (hr : Straight ref u)
    (ha : createAvoider projected trees initial (some ref) = .ok a) (hpar : ∀ t ∈ trees, t.parentIdx 0 = none)
    (hobs : List.Forall₂ (fun t b => t.rootIdx = 0 ∧ Static t ∧ ∃ o, t.components = [o] ∧ o.tailEffect = b.tail
      ∧ IsBall o b.center b.radius b.scale) trees balls) (hne : balls ≠ []) :
    BallsAvoider a balls ∧ a.power = 0.3 ∧ (∀ x, a.magnitude x = ‖initial.evaluate x‖)
      ∧ ∀ x v, FreeOf balls x → (ConvergenceDirection ext a x v ↔ v = u) := by
  have ha' : a = { initial := initial, convergence := convergenceWithoutSingularity initial.evaluate ref, trees := trees } := by
    unfold createAvoider createLocalConvergence at ha
    rw [hA] at ha
    cases ha; rfl
  have hi : a.initial = initial := by rw [ha']
  have htr : a.trees = trees := by rw [ha']
  have hba : BallsAvoider a balls := ⟨by rw [htr]; exact hobs, hne, by rw [ha'], by rw [ha']; norm_num⟩
  refine ⟨hba, by rw [ha'], ?_, ?_⟩
  · intro x
    rw [ha']
    rfl
  · intro x v hx
    have hH : ∀ t' ∈ trees, Hierarchy t' := by
      intro t' ht'
      obtain ⟨hroot, _, b, hb, o, ho, _, _⟩ := balls_of_tree hba (htr ▸ ht')
      refine ⟨by rw [hroot, ho]; simp, ?_⟩
      intro i hi
      rw [ho] at hi
      have : i = 0 := by simpa using hi
      subst this
      exact ⟨0, by norm_num, .stop (by rw [ho]; simp) (hpar t' ht')⟩
    obtain ⟨s, conv, e1, e2, e3⟩ := C113_straight_partial ext has projected trees initial ref u a hA hown hu hr ha hH x
    constructor
    · rintro ⟨s', conv', f1, f2, f3⟩
      rw [hi, e1] at f1; cases f1
      rw [e2] at f2; cases f2
      rw [e3] at f3; cases f3
      rfl
    · rintro rfl
      exact ⟨s, conv, by rw [hi]; exact e1, e2, e3⟩

/-- C120 (partial): an avoider which `create_with_convergence_dynamics` builds for a motion with the constant direction
`u` and several balls which are apart from each other: a trajectory along which the motion stays oblique and outside of
the tolerance never reaches any of the balls.

Missing: motions which become head-on for one of the balls (`C120_head_on`), and those which pass a tangential plane. -/
theorem C120_straight_partial (ext : Ext d k) (hE : DirectionSpace ext) (has : ArgsortSpec ext.argsort)
    (projected : Vec d → Convergence d) (trees : List (ObstacleTree d)) (balls : List (Ball d)) (initial : Dynamics d)
    (ref : Vec d → Vec d) (u : Vec d) (a : Avoider d) (hA : initial.attractorPosition = none)
    (hown : initial.ownSequence = none) (hu : Straight initial.evaluate u) (hr : Straight ref u)
    (ha : createAvoider projected trees initial (some ref) = .ok a) (hpar : ∀ t ∈ trees, t.parentIdx 0 = none)
    (hobs : List.Forall₂ (fun t b => t.rootIdx = 0 ∧ Static t ∧ ∃ o, t.components = [o] ∧ o.tailEffect = b.tail
      ∧ IsBall o b.center b.radius b.scale) trees balls) (hne : balls ≠ [])
    (S φ gap κ K : ℝ) (hφ : 0 < φ) (hφ2 : φ ≤ Real.pi / 2) (hgap : 0 < gap) (hap : Apart gap balls) (hκ : 0 < κ)
    (hscale : ∀ b ∈ balls, κ ≤ b.scale ∧ b.scale ≤ K) (hS : ∀ x, max 1 ‖initial.evaluate x‖ ≤ S)
    (T : ℝ) (x : ℝ → Vec d) (hx : Trajectory ext a T x) (h0 : FreeOf balls (x 0))
    (hdir : ∀ t ∈ Icc 0 T, Oblique φ balls (x t) u ∧ ∀ b ∈ balls, closeness d < |⟪unit (x t - b.center), u⟫|)
    (L : ℝ)
    (hL : L = S * max (2 / gap)
      (2 * Real.pi * (Real.pi / 2 / φ) ^ (0.3 : ℝ) * max 1 (balls.length / (κ * (gap / 2))) * K)) :
    ∀ t ∈ Icc 0 T, ∀ b ∈ balls, clearance b (x 0) * Real.exp (-(L * t)) ≤ clearance b (x t) := by
  obtain ⟨hba, hpow, hmag, hconv⟩ := straight_balls (ext := ext) has hA hown hu hr ha hpar hobs hne
  refine C120_never_partial ext hE has a balls S φ gap κ K hba hφ hφ2 hgap hap hκ hscale ?_ T x hx h0 ?_ L
    (by rw [hL, hpow])
  · intro y
    rw [hmag]
    exact ⟨norm_nonneg _, hS y⟩
  · intro t ht v hfree hv
    rw [(hconv _ v hfree).mp hv]
    exact ⟨hu.norm, hdir t ht⟩

/-- C120, negative result: a motion along the line through the centres of all balls is neither deflected nor slowed
down, whatever the number of balls: it moves with unit speed straight to the next ball, and comes arbitrarily close to
its surface in finite time. -/
theorem C120_head_on (ext : Ext d k) (hE : DirectionSpace ext) (has : ArgsortSpec ext.argsort)
    (projected : Vec d → Convergence d) (trees : List (ObstacleTree d)) (balls : List (Ball d)) (initial : Dynamics d)
    (ref : Vec d → Vec d) (u : Vec d) (a : Avoider d) (hA : initial.attractorPosition = none)
    (hown : initial.ownSequence = none) (hu : Straight initial.evaluate u) (hr : Straight ref u)
    (ha : createAvoider projected trees initial (some ref) = .ok a) (hpar : ∀ t ∈ trees, t.parentIdx 0 = none)
    (hobs : List.Forall₂ (fun t b => t.rootIdx = 0 ∧ Static t ∧ ∃ o, t.components = [o] ∧ o.tailEffect = b.tail
      ∧ IsBall o b.center b.radius b.scale) trees balls) (hne : balls ≠ [])
    (x0 : Vec d) (T : ℝ) (hfree : ∀ τ ∈ Icc 0 T, FreeOf balls (x0 + τ • u))
    (hline : ∀ b ∈ balls, ∃ s : ℝ, x0 - b.center = s • u) :
    Trajectory ext a T (fun τ => x0 + τ • u) := by
  obtain ⟨hba, hpow, hmag, hconv⟩ := straight_balls (ext := ext) has hA hown hu hr ha hpar hobs hne
  intro τ hτ
  have hx := hfree τ hτ
  refine ⟨u, ?_, ?_⟩
  · refine balls_axis_evaluate hE has hba (by rw [hpow]; norm_num) hx ((hconv _ u hx).mpr rfl) ?_
    intro b hb
    obtain ⟨s, hs⟩ := hline b hb
    obtain ⟨i, hi⟩ := List.mem_iff_getElem?.mp hb
    obtain ⟨_, _, _, _, _, hball⟩ := balls_index hba hi
    have e : x0 + τ • u - b.center = (s + τ) • u := by
      rw [add_smul, ← hs]; abel
    have h1 := free_ball hx hb
    rw [e] at h1 ⊢
    have hu1 := hu.norm
    rcases lt_trichotomy (s + τ) 0 with h | h | h
    · right
      unfold unit
      rw [norm_smul, hu1, mul_one, Real.norm_of_nonpos h.le, smul_smul, ← neg_smul]
      have : -(1 / -(s + τ) * (s + τ)) = 1 := by rw [div_neg, neg_mul, neg_neg, one_div, inv_mul_cancel₀ h.ne]
      rw [this, one_smul]
    · rw [h, zero_smul, norm_zero] at h1
      linarith [hball.radius_pos]
    · left
      unfold unit
      rw [norm_smul, hu1, mul_one, Real.norm_of_nonneg h.le, smul_smul, one_div, inv_mul_cancel₀ h.ne', one_smul]
  · have := ((hasDerivWithinAt_id τ (Icc 0 T)).smul_const u).const_add x0
    simpa using this

/-! ## Examples: two discs -/

lemma discAt_ball (c : Vec 2) (tail : Bool) : IsBall (discAt c tail) c 1 1 where
  radius_pos := one_pos
  scale_pos := one_pos
  outside := by
    intro p hp
    have := disc_ball.outside (p - c) (by rwa [sub_zero])
    rwa [sub_zero] at this
  inside := by
    intro p hp
    exact disc_ball.inside (p - c) (by rwa [sub_zero])
  normal := by
    intro p
    have := disc_ball.normal (p - c)
    rwa [sub_zero] at this
  reference := by
    intro p
    have := disc_ball.reference (p - c)
    rwa [sub_zero] at this
  center := rfl
  surface := by
    intro v hv
    change (disc.intersection (c - c) v).map (fun p => p + c) = _
    rw [sub_self, disc_ball.surface v hv, Option.map_some, zero_add, add_comm]
  smooth := rfl

/-- Two discs of radius one around `0` and `-4 v`. -/
noncomputable def twoBalls (v : Vec 2) : List (Ball 2) := [⟨0, 1, 1, false⟩, ⟨(-4 : ℝ) • v, 1, 1, false⟩]

/-- The two discs in the way of a motion with the constant velocity `v`. -/
noncomputable def straightDiscs (v : Vec 2) : Avoider 2 where
  initial := { evaluate := fun _ => v, attractorPosition := none }
  convergence := convergenceWithoutSingularity (fun _ => v) (fun _ => v)
  trees := [discTreeAt 0 false, discTreeAt ((-4 : ℝ) • v) false]

lemma straightDiscs_create (projected : Vec 2 → Convergence 2) (v : Vec 2) :
    createAvoider projected [discTreeAt 0 false, discTreeAt ((-4 : ℝ) • v) false]
      { evaluate := fun _ => v, attractorPosition := none } (some fun _ => v) = .ok (straightDiscs v) := rfl

lemma twoBalls_obstacles (v : Vec 2) : List.Forall₂ (fun t b => t.rootIdx = 0 ∧ Static t ∧
    ∃ o, t.components = [o] ∧ o.tailEffect = b.tail ∧ IsBall o b.center b.radius b.scale)
    [discTreeAt 0 false, discTreeAt ((-4 : ℝ) • v) false] (twoBalls v) :=
  .cons ⟨rfl, ⟨rfl, rfl⟩, _, rfl, rfl, discAt_ball _ _⟩ (.cons ⟨rfl, ⟨rfl, rfl⟩, _, rfl, rfl, discAt_ball _ _⟩ .nil)

lemma straightDiscs_balls {ext : Ext 2 1} (has : ArgsortSpec ext.argsort) {v : Vec 2} (hv : ‖v‖ = 1) :
    BallsAvoider (straightDiscs v) (twoBalls v) ∧ (straightDiscs v).power = 0.3
      ∧ (∀ x, (straightDiscs v).magnitude x = ‖v‖)
      ∧ ∀ x w, FreeOf (twoBalls v) x → (ConvergenceDirection ext (straightDiscs v) x w ↔ w = v) :=
  straight_balls (ext := ext) (projected := fun _ => (straightDiscs v).convergence)
    (initial := { evaluate := fun _ => v, attractorPosition := none }) (ref := fun _ => v) (u := v)
    has rfl rfl (straight_const hv) (straight_const hv) (straightDiscs_create _ v)
    (by
      intro t ht
      simp only [List.mem_cons, List.not_mem_nil, or_false] at ht
      rcases ht with rfl | rfl <;> rfl)
    (twoBalls_obstacles v) (by unfold twoBalls; simp)

lemma twoBalls_apart {v : Vec 2} (hv : ‖v‖ = 1) : Apart 2 (twoBalls v) := by
  unfold Apart twoBalls
  refine List.pairwise_pair.mpr ?_
  change (1 : ℝ) + 1 + 2 ≤ ‖0 - (-4 : ℝ) • v‖
  rw [zero_sub, norm_neg, norm_smul, hv]
  norm_num

lemma twoBalls_free {v : Vec 2} (hv : ‖v‖ = 1) {t : ℝ} (ht : 0 ≤ t) : FreeOf (twoBalls v) ((t + 2) • v) := by
  intro b hb
  unfold twoBalls at hb
  simp only [List.mem_cons, List.not_mem_nil, or_false] at hb
  unfold clearance
  rcases hb with rfl | rfl
  · rw [sub_zero, norm_smul, hv, mul_one, Real.norm_of_nonneg (by linarith)]; linarith
  · rw [← sub_smul, norm_smul, hv, mul_one, Real.norm_of_nonneg (by linarith)]; linarith

/-- The motion away from both discs. -/
lemma discs_away (argsort : List ℤ → List ℕ) (has : ArgsortSpec argsort) (v : Vec 2) (hv : ‖v‖ = 1) (T : ℝ) :
    Trajectory (planeExt argsort) (straightDiscs v) T (fun t => (t + 2) • v) := by
  have := C120_head_on (planeExt argsort) (planeExt_space argsort) has (fun _ => (straightDiscs v).convergence) _
    (twoBalls v) { evaluate := fun _ => v, attractorPosition := none } (fun _ => v) v (straightDiscs v) rfl rfl
    (straight_const hv) (straight_const hv) (straightDiscs_create _ v)
    (by
      intro t ht
      simp only [List.mem_cons, List.not_mem_nil, or_false] at ht
      rcases ht with rfl | rfl <;> rfl)
    (twoBalls_obstacles v) (by unfold twoBalls; simp) ((2 : ℝ) • v) T
    (by
      intro t ht
      rw [← add_smul, add_comm]
      exact twoBalls_free hv ht.1)
    (by
      intro b hb
      unfold twoBalls at hb
      simp only [List.mem_cons, List.not_mem_nil, or_false] at hb
      rcases hb with rfl | rfl
      · exact ⟨2, by rw [sub_zero]⟩
      · exact ⟨2 - -4, by rw [sub_smul]⟩)
  have e : (fun t : ℝ => (2 : ℝ) • v + t • v) = fun t => (t + 2) • v := by
    funext t; rw [← add_smul, add_comm]
  rwa [e] at this

lemma twoBalls_oblique {v : Vec 2} (hv : ‖v‖ = 1) {t : ℝ} (ht : 0 ≤ t) :
    Oblique (Real.pi / 2) (twoBalls v) ((t + 2) • v) v
      ∧ ∀ b ∈ twoBalls v, closeness 2 < |⟪unit ((t + 2) • v - b.center), v⟫| := by
  have hpi := Real.pi_pos
  have hv0 : v ≠ 0 := by rintro rfl; simp at hv
  have hu : ∀ s : ℝ, 0 < s → unit (s • v) = v := by
    intro s hs
    unfold unit
    rw [norm_smul, hv, mul_one, Real.norm_of_nonneg hs.le, smul_smul, one_div, inv_mul_cancel₀ hs.ne', one_smul]
  have hang : ∀ s : ℝ, 0 < s → Real.pi / 2 ≤ InnerProductGeometry.angle (-(s • v)) v := by
    intro s hs
    rw [InnerProductGeometry.angle_neg_left, InnerProductGeometry.angle_smul_left_of_pos _ _ hs,
      InnerProductGeometry.angle_self hv0]
    linarith
  have hcl : closeness 2 < |⟪v, v⟫| := by
    rw [real_inner_self_eq_norm_sq, hv]
    norm_num
    exact closeness_plane.trans_lt (by norm_num)
  constructor
  · intro b hb
    unfold twoBalls at hb
    simp only [List.mem_cons, List.not_mem_nil, or_false] at hb
    rcases hb with rfl | rfl
    · refine ⟨?_, fun h => by cases h⟩
      rw [zero_sub]
      exact hang _ (by linarith)
    · refine ⟨?_, fun h => by cases h⟩
      have : (-4 : ℝ) • v - (t + 2) • v = -((t + 6) • v) := by module
      rw [this]
      exact hang _ (by linarith)
  · intro b hb
    unfold twoBalls at hb
    simp only [List.mem_cons, List.not_mem_nil, or_false] at hb
    rcases hb with rfl | rfl
    · rw [sub_zero, hu _ (by linarith)]; exact hcl
    · have : (t + 2) • v - (-4 : ℝ) • v = (t + 6) • v := by module
      rw [this, hu _ (by linarith)]; exact hcl

/-- The hypotheses of `C120_defined` and `C120_rate` are met by the two discs, at every position outside of them at
which the motion is oblique. -/
example (argsort : List ℤ → List ℕ) (has : ArgsortSpec argsort) (v x : Vec 2) (hv : ‖v‖ = 1) (hx : FreeOf (twoBalls v) x)
    (φ : ℝ) (hob : Oblique φ (twoBalls v) x v) :
    BallsAvoider (straightDiscs v) (twoBalls v) ∧ 0 ≤ (straightDiscs v).magnitude x
    ∧ max 1 ((straightDiscs v).magnitude x) ≤ 1
    ∧ (∀ w, ConvergenceDirection (planeExt argsort) (straightDiscs v) x w → ‖w‖ = 1 ∧ Oblique φ (twoBalls v) x w)
    ∧ ConvergenceDirection (planeExt argsort) (straightDiscs v) x v
    ∧ ∃ vel, (straightDiscs v).evaluate (planeExt argsort) x = .ok vel := by
  obtain ⟨h1, _, h3, h4⟩ := straightDiscs_balls (ext := planeExt argsort) has hv
  refine ⟨h1, by rw [h3]; exact norm_nonneg _, by rw [h3, hv, max_self], ?_, (h4 x v hx).mpr rfl, ?_⟩
  · intro w hw
    rw [(h4 x w hx).mp hw]
    exact ⟨hv, hob⟩
  · exact C120_defined _ (planeExt_space argsort) has _ _ h1 x v hx ((h4 x v hx).mpr rfl) hv

/-- The hypotheses of `C120_never_partial` and `C120_straight_partial` are met by the motion away from the discs. -/
example (argsort : List ℤ → List ℕ) (has : ArgsortSpec argsort) (v : Vec 2) (hv : ‖v‖ = 1) (T : ℝ) :
    BallsAvoider (straightDiscs v) (twoBalls v) ∧ Apart 2 (twoBalls v)
    ∧ (∀ b ∈ twoBalls v, 1 ≤ b.scale ∧ b.scale ≤ 1)
    ∧ Trajectory (planeExt argsort) (straightDiscs v) T (fun t => (t + 2) • v)
    ∧ FreeOf (twoBalls v) (((0 : ℝ) + 2) • v)
    ∧ ∀ t ∈ Icc 0 T, Oblique (Real.pi / 2) (twoBalls v) ((t + 2) • v) v
      ∧ ∀ b ∈ twoBalls v, closeness 2 < |⟪unit ((t + 2) • v - b.center), v⟫| := by
  obtain ⟨h1, _, h3, h4⟩ := straightDiscs_balls (ext := planeExt argsort) has hv
  refine ⟨h1, twoBalls_apart hv, ?_, discs_away argsort has v hv T, twoBalls_free hv le_rfl,
    fun t ht => twoBalls_oblique hv ht.1⟩
  intro b hb
  unfold twoBalls at hb
  simp only [List.mem_cons, List.not_mem_nil, or_false] at hb
  rcases hb with rfl | rfl <;> exact ⟨le_rfl, le_rfl⟩

/-- The remaining hypothesis of `C120_trajectory_partial` is met for a positive time. -/
example (v : Vec 2) (hv : ‖v‖ = 1) (L E : ℝ) (hE : 0 < E) (hL : 0 < L) :
    ∀ b ∈ twoBalls v, ∀ t ∈ Icc (0 : ℝ) (1 / (2 * (L + E))),
      0 < (clearance b (((0 : ℝ) + 2) • v) + E / L) * Real.exp (-(L * t)) - E / L := by
  intro b hb t ht
  have hc : 1 ≤ clearance b (((0 : ℝ) + 2) • v) := by
    unfold twoBalls at hb
    simp only [List.mem_cons, List.not_mem_nil, or_false] at hb
    unfold clearance
    rcases hb with rfl | rfl
    · rw [sub_zero, norm_smul, hv]; norm_num
    · rw [← sub_smul, norm_smul, hv]; norm_num
  have hexp : 1 - L * t ≤ Real.exp (-(L * t)) := by linarith [Real.add_one_le_exp (-(L * t))]
  have h5 : (1 + E / L) * (1 - L * t) ≤ (1 + E / L) * Real.exp (-(L * t)) :=
    mul_le_mul_of_nonneg_left hexp (by positivity)
  have h6 : (1 + E / L) * (1 - L * t) = 1 - L * t + E / L - E * t := by field_simp; ring
  have h7 : (L + E) * t ≤ 1 / 2 := by
    calc (L + E) * t ≤ (L + E) * (1 / (2 * (L + E))) := mul_le_mul_of_nonneg_left ht.2 (by positivity)
      _ = 1 / 2 := by field_simp
  have h8 : (1 + E / L) * Real.exp (-(L * t)) ≤ (clearance b (((0 : ℝ) + 2) • v) + E / L) * Real.exp (-(L * t)) :=
    mul_le_mul_of_nonneg_right (add_le_add hc le_rfl) (Real.exp_pos _).le
  linarith

/-- The hypotheses of `C120_head_on` are met by the motion towards the two discs. -/
example (v : Vec 2) (hv : ‖v‖ = 1) : (∀ τ ∈ Icc (0 : ℝ) (1 / 2), FreeOf (twoBalls v) ((-6 : ℝ) • v + τ • v))
    ∧ ∀ b ∈ twoBalls v, ∃ s : ℝ, (-6 : ℝ) • v - b.center = s • v := by
  constructor
  · intro τ hτ b hb
    unfold twoBalls at hb
    simp only [List.mem_cons, List.not_mem_nil, or_false] at hb
    unfold clearance
    rw [← add_smul]
    rcases hb with rfl | rfl
    · rw [sub_zero, norm_smul, hv, mul_one, Real.norm_of_nonpos (by linarith [hτ.2])]; linarith [hτ.2]
    · rw [← sub_smul, norm_smul, hv, mul_one, Real.norm_of_nonpos (by linarith [hτ.2])]; linarith [hτ.2]
  · intro b hb
    unfold twoBalls at hb
    simp only [List.mem_cons, List.not_mem_nil, or_false] at hb
    rcases hb with rfl | rfl
    · exact ⟨-6, by rw [sub_zero]⟩
    · exact ⟨-6 - -4, by rw [sub_smul]⟩

end Verif
