import Verif.Props.StarRegion
import Verif.Props.TangentExamples
import Mathlib.Analysis.InnerProductSpace.Calculus
import Mathlib.Analysis.SpecialFunctions.Sqrt

/-!
# Examples for C124: ellipses, and balls as star-shaped regions
-/

open scoped RealInnerProductSpace
open Set

namespace Verif
open Spec

/-- The gauge of the ellipse with half axes `2` and `1`. -/
noncomputable def ovalGauge (p : Vec 2) : ℝ := √((p 0 / 2) ^ 2 + (p 1) ^ 2)

/-- Its gradient. -/
noncomputable def ovalGrad (p : Vec 2) : Vec 2 := (1 / ovalGauge p) • !₂[p 0 / 4, p 1]

/-- The ellipse around `c`. -/
noncomputable def oval (c : Vec 2) : Obstacle 2 where
  gamma p := ovalGauge (p - c)
  normal p := unit (ovalGrad (p - c))
  reference p := -unit (p - c)
  referencePoint := c
  center := c
  intersection _ v := some (c + (1 / ovalGauge v) • v)
  tailEffect := true
  isBoundary := false

lemma oval_sq (p : Vec 2) : ovalGauge p ^ 2 = (p 0 / 2) ^ 2 + (p 1) ^ 2 := Real.sq_sqrt (by positivity)

lemma oval_norm_sq (p : Vec 2) : ‖p‖ ^ 2 = p 0 ^ 2 + p 1 ^ 2 := by
  rw [EuclideanSpace.norm_sq_eq, Fin.sum_univ_two]
  simp

lemma oval_ge (p : Vec 2) : ‖p‖ / 2 ≤ ovalGauge p := by
  refine Real.le_sqrt_of_sq_le ?_
  rw [div_pow, oval_norm_sq]
  nlinarith [sq_nonneg (p 1)]

lemma oval_pos {p : Vec 2} (hp : p ≠ 0) : 0 < ovalGauge p :=
  lt_of_lt_of_le (by have := norm_pos_iff.mpr hp; positivity) (oval_ge p)

lemma oval_smul {s : ℝ} (hs : 0 ≤ s) (p : Vec 2) : ovalGauge (s • p) = s * ovalGauge p := by
  unfold ovalGauge
  rw [show ((s • p) 0 / 2) ^ 2 + ((s • p) 1) ^ 2 = s ^ 2 * ((p 0 / 2) ^ 2 + (p 1) ^ 2) by simp; ring,
    Real.sqrt_mul (sq_nonneg s), Real.sqrt_sq hs]

lemma oval_gradient {p : Vec 2} (hp : p ≠ 0) : HasGradientAt ovalGauge (ovalGrad p) p := by
  have hpos := oval_pos hp
  have h0 : HasFDerivAt (fun q : Vec 2 => q 0) (EuclideanSpace.proj (𝕜 := ℝ) (0 : Fin 2)) p :=
    (EuclideanSpace.proj (𝕜 := ℝ) (0 : Fin 2)).hasFDerivAt
  have h1 : HasFDerivAt (fun q : Vec 2 => q 1) (EuclideanSpace.proj (𝕜 := ℝ) (1 : Fin 2)) p :=
    (EuclideanSpace.proj (𝕜 := ℝ) (1 : Fin 2)).hasFDerivAt
  have hq : (p 0 / 2) ^ 2 + (p 1) ^ 2 ≠ 0 := by rw [← oval_sq]; positivity
  have h2 := (((h0.mul_const (1 / 2)).pow 2).add (h1.pow 2)).sqrt (by simpa [div_eq_mul_inv] using hq)
  rw [hasGradientAt_iff_hasFDerivAt]
  have e : (fun q : Vec 2 => √((q 0 * (1 / 2)) ^ 2 + (q 1) ^ 2)) = ovalGauge := by
    funext q; unfold ovalGauge; congr 2; ring
  have h3 : HasFDerivAt ovalGauge _ p := e ▸ h2
  refine h3.congr_fderiv (ContinuousLinearMap.ext fun w => ?_)
  symm
  rw [InnerProductSpace.toDual_apply_apply]
  unfold ovalGrad
  rw [real_inner_smul_left]
  have hin : ⟪(!₂[p 0 / 4, p 1] : Vec 2), w⟫ = p 0 / 4 * w 0 + p 1 * w 1 := by
    simp [PiLp.inner_apply, Fin.sum_univ_two]; ring
  rw [hin]
  have hg : √(((fun q : Vec 2 => (q 0 * (1 / 2)) ^ 2) + (fun q : Vec 2 => q 1 ^ 2) : Vec 2 → ℝ) p) = ovalGauge p := congrFun e p
  rw [hg]
  simp only [ContinuousLinearMap.smul_apply, ContinuousLinearMap.add_apply, smul_eq_mul, nsmul_eq_mul]
  rw [show EuclideanSpace.proj (𝕜 := ℝ) (0 : Fin 2) w = w 0 from rfl,
    show EuclideanSpace.proj (𝕜 := ℝ) (1 : Fin 2) w = w 1 from rfl]
  field_simp
  push_cast
  ring

lemma ovalGrad_le {p : Vec 2} (hp : p ≠ 0) : ‖ovalGrad p‖ ≤ 1 := by
  have hpos := oval_pos hp
  unfold ovalGrad
  rw [norm_smul, Real.norm_of_nonneg (by positivity), one_div, inv_mul_le_iff₀ hpos, mul_one]
  refine abs_le_of_sq_le_sq' ?_ hpos.le |>.2
  rw [oval_norm_sq, oval_sq]
  simp
  nlinarith [sq_nonneg (p 0)]

/-- The ellipse is a star-shaped region. -/
lemma oval_region (c : Vec 2) :
    StarRegion (oval c) c (fun p => ovalGauge (p - c)) (fun p => ovalGrad (p - c)) 1 1 where
  homogeneous := by
    intro s p hs
    rw [add_sub_cancel_left, add_sub_cancel_left, oval_smul hs.le]
  positive := fun p hp => oval_pos (sub_ne_zero.mpr hp)
  gradient := by
    intro p hp
    have := oval_gradient (sub_ne_zero.mpr hp)
    rw [hasGradientAt_iff_hasFDerivAt] at this ⊢
    have h1 : HasFDerivAt (fun q : Vec 2 => q - c) (ContinuousLinearMap.id ℝ (Vec 2)) p :=
      (hasFDerivAt_id p).sub_const c
    exact this.comp p h1
  steep := fun p hp => ovalGrad_le (sub_ne_zero.mpr hp)
  scale := zero_le_one
  outside := by
    intro p hp
    refine ⟨hp, ?_⟩
    change ovalGauge (p - c) ≤ _
    linarith
  inside := fun p => ⟨Real.sqrt_nonneg _, fun h => h⟩
  normal := fun p _ => rfl
  normal_center := by
    change ‖unit (ovalGrad (c - c))‖ ≤ 1
    have : ovalGrad (c - c) = 0 := by
      rw [sub_self]
      unfold ovalGrad ovalGauge
      simp
    rw [this]
    simp [unit]
  reference := fun p => rfl
  center := rfl
  surface := by
    intro v _
    change some (c + (1 / ovalGauge v) • v) = _
    rw [add_sub_cancel_left]
  smooth := rfl

/-- A ball is a star-shaped region. -/
lemma ball_region {d : ℕ} {o : Obstacle d} {c : Vec d} {r κ : ℝ} (h : IsBall o c r κ) :
    StarRegion o c (fun p => ‖p - c‖ / r) (fun p => (1 / r) • unit (p - c)) (κ * r) (1 / r) := by
  have hr := h.radius_pos
  have hκ := h.scale_pos
  have hun : ∀ {v : Vec d} {s : ℝ}, 0 < s → unit (s • v) = unit v := by
    intro v s hs
    unfold unit
    rw [norm_smul, Real.norm_of_nonneg hs.le, smul_smul]
    congr 1
    field_simp
  have huu : ∀ {v : Vec d}, v ≠ 0 → unit (unit v) = unit v := fun hv => unit_of_norm_one (unit_norm hv)
  refine ⟨?_, ?_, ?_, ?_, by positivity, ?_, ?_, ?_, ?_, ?_, h.center, ?_, h.smooth⟩
  · intro s p hs
    rw [add_sub_cancel_left, add_sub_cancel_left, norm_smul, Real.norm_of_nonneg hs.le]; ring
  · intro p hp
    have := norm_pos_iff.mpr (sub_ne_zero.mpr hp)
    positivity
  · intro p hp
    have hp' := sub_ne_zero.mpr hp
    have hn := norm_pos_iff.mpr hp'
    rw [hasGradientAt_iff_hasFDerivAt]
    have h1 : HasFDerivAt (fun q : Vec d => q - c) (ContinuousLinearMap.id ℝ (Vec d)) p :=
      (hasFDerivAt_id p).sub_const c
    have h2 := (h1.norm_sq.sqrt (by positivity)).mul_const (1 / r)
    have e : (fun q : Vec d => √(‖q - c‖ ^ 2) * (1 / r)) = fun q => ‖q - c‖ / r := by
      funext q
      rw [Real.sqrt_sq (norm_nonneg _)]; ring
    have h3 : HasFDerivAt (fun q => ‖q - c‖ / r) _ p := e ▸ h2
    refine h3.congr_fderiv (ContinuousLinearMap.ext fun w => ?_)
    symm
    rw [InnerProductSpace.toDual_apply_apply]
    unfold unit
    rw [real_inner_smul_left, real_inner_smul_left, Real.sqrt_sq hn.le]
    simp only [ContinuousLinearMap.smul_apply, ContinuousLinearMap.comp_apply, ContinuousLinearMap.id_apply,
      innerSL_apply_apply, smul_eq_mul, nsmul_eq_mul]
    field_simp
    norm_num
  · intro p hp
    rw [norm_smul, unit_norm (sub_ne_zero.mpr hp), mul_one, Real.norm_of_nonneg (by positivity)]
  · intro p hp
    rw [one_lt_div hr] at hp
    have := h.outside p hp.le
    constructor
    · rw [this]
      have : 0 < κ * (‖p - c‖ - r) := mul_pos hκ (by linarith)
      linarith
    · rw [this]
      apply le_of_eq
      field_simp
  · intro p
    by_cases hp : r ≤ ‖p - c‖
    · have := h.outside p hp
      have h2 : 0 ≤ κ * (‖p - c‖ - r) := mul_nonneg hκ.le (by linarith)
      exact ⟨by linarith, fun h3 => absurd ((div_lt_one hr).mp h3) (not_lt.mpr hp)⟩
    · obtain ⟨h1, h2⟩ := h.inside p (not_le.mp hp)
      exact ⟨h1, fun _ => h2⟩
  · intro p hp
    rw [h.normal, hun (by positivity), huu (sub_ne_zero.mpr hp)]
  · rw [h.normal, sub_self]
    simp [unit]
  · exact h.reference
  · intro v hv
    have hn := norm_pos_iff.mpr hv
    rw [h.surface v hv, add_sub_cancel_left]
    unfold unit
    rw [smul_smul]
    congr 3
    field_simp

/-- The ellipse with the description of its region. -/
noncomputable def ovalR (c : Vec 2) : Region 2 :=
  ⟨oval c, c, fun p => ovalGauge (p - c), fun p => ovalGrad (p - c), 1, 1⟩

/-- A static obstacle with the ellipse as its only component. -/
noncomputable def ovalTree (c : Vec 2) : ObstacleTree 2 where
  components := [oval c]
  rootIdx := 0
  parentIdx := fun _ => none
  position := c

/-- The ellipses in the way of a motion with the constant velocity `v`. -/
noncomputable def straightOvals (v : Vec 2) (cs : List (Vec 2)) : Avoider 2 where
  initial := { evaluate := fun _ => v, attractorPosition := none }
  convergence := convergenceWithoutSingularity (fun _ => v) (fun _ => v)
  trees := cs.map ovalTree

lemma straightOvals_create (projected : Vec 2 → Convergence 2) (v : Vec 2) (cs : List (Vec 2)) :
    createAvoider projected (cs.map ovalTree) { evaluate := fun _ => v, attractorPosition := none } (some fun _ => v)
      = .ok (straightOvals v cs) := rfl

lemma ovals_obstacles (cs : List (Vec 2)) :
    List.Forall₂ (fun (t : ObstacleTree 2) (r : Region 2) => t.rootIdx = 0 ∧ Static t ∧ t.components = [r.obstacle]
      ∧ StarRegion r.obstacle r.center r.gauge r.grad r.scale r.slope) (cs.map ovalTree) (cs.map ovalR) := by
  induction cs with
  | nil => exact .nil
  | cons c cs ih => exact .cons ⟨rfl, ⟨rfl, rfl⟩, rfl, oval_region c⟩ ih

lemma ovals_parent (cs : List (Vec 2)) : ∀ t ∈ cs.map ovalTree, t.parentIdx 0 = none := by
  intro t ht
  obtain ⟨c, _, rfl⟩ := List.mem_map.mp ht
  rfl

lemma straightOvals_regions {ext : Ext 2 1} (has : ArgsortSpec ext.argsort) {v : Vec 2} (hv : ‖v‖ = 1)
    {cs : List (Vec 2)} (hcs : cs ≠ []) :
    RegionsAvoider (straightOvals v cs) (cs.map ovalR) ∧ (straightOvals v cs).power = 0.3
      ∧ (∀ x, (straightOvals v cs).magnitude x = ‖v‖)
      ∧ ∀ x w, OutsideAll (cs.map ovalR) x → (ConvergenceDirection ext (straightOvals v cs) x w ↔ w = v) :=
  straight_regions (ext := ext) (projected := fun _ => (straightOvals v cs).convergence)
    (initial := { evaluate := fun _ => v, attractorPosition := none }) (ref := fun _ => v) (u := v)
    has rfl rfl (straight_const hv) (straight_const hv) (straightOvals_create _ v cs) (ovals_parent cs)
    (ovals_obstacles cs) (fun h0 => hcs (List.map_eq_nil_iff.mp h0))

lemma ovals_separated {c c' : Vec 2} (h : 8 ≤ ‖c - c'‖) : Separated 1 ([c, c'].map ovalR) := by
  have key : ∀ (x a b : Vec 2), 8 ≤ ‖a - b‖ → ovalGauge (x - a) < 1 + 1 → 1 + 1 ≤ ovalGauge (x - b) := by
    intro x a b hab hx
    have h1 := oval_ge (x - a)
    have h2 := oval_ge (x - b)
    have h3 : ‖a - b‖ ≤ ‖x - b‖ + ‖x - a‖ := by
      have : a - b = (x - b) - (x - a) := by abel
      rw [this]; exact norm_sub_le _ _
    linarith
  intro x i j r r' hij hi hj hr
  have hi' := (List.getElem?_eq_some_iff.mp hi).choose
  have hj' := (List.getElem?_eq_some_iff.mp hj).choose
  have hi2 : i = 0 ∨ i = 1 := by simp at hi'; omega
  have hj2 : j = 0 ∨ j = 1 := by simp at hj'; omega
  rcases hi2 with rfl | rfl <;> rcases hj2 with rfl | rfl
  · exact absurd rfl hij
  · cases hi; cases hj; exact key x c c' h hr
  · cases hi; cases hj; exact key x c' c (by rwa [norm_sub_rev]) hr
  · exact absurd rfl hij

lemma oval_single (c : Vec 2) : Separated 1 ([c].map ovalR) := by
  intro x i j r r' hij hi hj hr
  have hi' := (List.getElem?_eq_some_iff.mp hi).choose
  have hj' := (List.getElem?_eq_some_iff.mp hj).choose
  simp at hi' hj'
  omega

/-- The direction of the long axis. -/
noncomputable def longAxis : Vec 2 := !₂[1, 0]

lemma longAxis_norm : ‖longAxis‖ = 1 := by
  have := oval_norm_sq longAxis
  have h : ‖longAxis‖ ^ 2 = 1 := by rw [this]; simp [longAxis]
  nlinarith [norm_nonneg longAxis]

lemma oval_axis_gauge (s : ℝ) : ovalGauge (s • longAxis) = |s| / 2 := by
  unfold ovalGauge longAxis
  have : ((s • (!₂[1, 0] : Vec 2)) 0 / 2) ^ 2 + ((s • (!₂[1, 0] : Vec 2)) 1) ^ 2 = (|s| / 2) ^ 2 := by
    rw [div_pow, div_pow, sq_abs]; simp
  rw [this, Real.sqrt_sq (by positivity)]

lemma unit_scale {d : ℕ} {s : ℝ} (hs : 0 < s) (v : Vec d) : unit (s • v) = unit v := by
  unfold unit
  rw [norm_smul, Real.norm_of_nonneg hs.le, smul_smul]
  congr 1
  field_simp

lemma oval_axis_normal {s : ℝ} (hs : s ≠ 0) : unit (ovalGrad (s • longAxis)) = unit (s • longAxis) := by
  have h1 := oval_axis_gauge s
  have h2 : 0 < |s| := abs_pos.mpr hs
  have : ovalGrad (s • longAxis) = (1 / (|s| / 2) * (1 / 4)) • (s • longAxis) := by
    unfold ovalGrad
    rw [h1, mul_smul]
    congr 1
    ext i
    fin_cases i <;> simp [longAxis]
    ring
  rw [this]
  exact unit_scale (by positivity) _

/-- The hypotheses of `C124_defined` and `C124_rate` are met by two ellipses, at every position outside of them at which
the motion is slanted, e.g. half way between them for a motion along the gap. -/
example (argsort : List ℤ → List ℕ) (has : ArgsortSpec argsort) (v x c' : Vec 2) (hv : ‖v‖ = 1) (hc : c' = !₂[0, 10])
    (hx : OutsideAll ([0, c'].map ovalR) x) (φ : ℝ) (hob : Slanted φ ([0, c'].map ovalR) x v) :
    (RegionsAvoider (straightOvals v [0, c']) ([0, c'].map ovalR) ∧ Separated 1 ([0, c'].map ovalR)
    ∧ 0 ≤ (straightOvals v [0, c']).magnitude x ∧ max 1 ((straightOvals v [0, c']).magnitude x) ≤ 1
    ∧ (∀ w, ConvergenceDirection (planeExt argsort) (straightOvals v [0, c']) x w →
      ‖w‖ = 1 ∧ Slanted φ ([0, c'].map ovalR) x w)
    ∧ ConvergenceDirection (planeExt argsort) (straightOvals v [0, c']) x v
    ∧ ∃ vel, (straightOvals v [0, c']).evaluate (planeExt argsort) x = .ok vel)
    ∧ OutsideAll ([0, c'].map ovalR) !₂[0, 5] ∧ Slanted (Real.pi / 2) ([0, c'].map ovalR) !₂[0, 5] longAxis := by
  obtain ⟨h1, _, h3, h4⟩ := straightOvals_regions (ext := planeExt argsort) has hv (cs := [0, c']) (by simp)
  refine ⟨⟨h1, ovals_separated ?_, by rw [h3]; exact norm_nonneg _, by rw [h3, hv, max_self], ?_, (h4 x v hx).mpr rfl, ?_⟩,
    ?_, ?_⟩
  · have : ‖0 - c'‖ ^ 2 = 10 ^ 2 := by rw [oval_norm_sq, hc]; norm_num
    nlinarith [norm_nonneg (0 - c')]
  · intro w hw
    rw [(h4 x w hx).mp hw]
    exact ⟨hv, hob⟩
  · exact C124_defined _ (planeExt_space argsort) has _ _ h1 x v hx ((h4 x v hx).mpr rfl) hv
  · intro r hr
    simp only [List.map_cons, List.map_nil, List.mem_cons, List.not_mem_nil, or_false] at hr
    rcases hr with rfl | rfl
    · change 1 < √((((!₂[0, 5] - 0 : Vec 2)) 0 / 2) ^ 2 + ((!₂[0, 5] - 0 : Vec 2) 1) ^ 2)
      refine Real.lt_sqrt_of_sq_lt ?_
      simp
    · change 1 < √((((!₂[0, 5] - c' : Vec 2)) 0 / 2) ^ 2 + ((!₂[0, 5] - c' : Vec 2) 1) ^ 2)
      refine Real.lt_sqrt_of_sq_lt ?_
      rw [hc]
      simp; norm_num
  · have key : ∀ w : Vec 2, w 0 = 0 → Real.pi / 2 ≤ InnerProductGeometry.angle w longAxis := by
      intro w hw
      apply le_of_eq
      symm
      rw [← InnerProductGeometry.inner_eq_zero_iff_angle_eq_pi_div_two]
      simp [PiLp.inner_apply, Fin.sum_univ_two, longAxis, hw]
    intro r hr
    simp only [List.map_cons, List.map_nil, List.mem_cons, List.not_mem_nil, or_false] at hr
    rcases hr with rfl | rfl
    · exact ⟨key _ (by simp [ovalR]), fun _ => key _ (by simp [ovalR])⟩
    · exact ⟨key _ (by simp [ovalR, hc]), fun _ => key _ (by simp [ovalR, hc])⟩

lemma oval_behind {t : ℝ} (ht : 0 ≤ t) : OutsideAll ([0].map ovalR) ((4 : ℝ) • longAxis + t • longAxis) := by
  intro r hr
  simp only [List.map_cons, List.map_nil, List.mem_cons, List.not_mem_nil, or_false] at hr
  subst hr
  change 1 < ovalGauge ((4 : ℝ) • longAxis + t • longAxis - 0)
  rw [sub_zero, ← add_smul, oval_axis_gauge, abs_of_pos (by linarith)]
  linarith

/-- The hypotheses of `C124_trajectory_partial`, `C124_never_partial` and `C124_straight_partial` are met by the motion
away from an ellipse along its long axis. -/
example (argsort : List ℤ → List ℕ) (has : ArgsortSpec argsort) (T : ℝ) :
    RegionsAvoider (straightOvals longAxis [0]) ([0].map ovalR) ∧ Separated 1 ([0].map ovalR)
    ∧ Trajectory (planeExt argsort) (straightOvals longAxis [0]) T (fun t => (4 : ℝ) • longAxis + t • longAxis)
    ∧ OutsideAll ([0].map ovalR) ((4 : ℝ) • longAxis + (0 : ℝ) • longAxis)
    ∧ ∀ t ∈ Icc 0 T, Slanted (Real.pi / 2) ([0].map ovalR) ((4 : ℝ) • longAxis + t • longAxis) longAxis
      ∧ ∀ r ∈ [0].map ovalR, closeness 2 < |⟪unit (r.grad ((4 : ℝ) • longAxis + t • longAxis)), longAxis⟫| := by
  have hv := longAxis_norm
  have hv0 : longAxis ≠ 0 := by intro h; rw [h, norm_zero] at hv; norm_num at hv
  have hpi := Real.pi_pos
  obtain ⟨h1, _, h3, h4⟩ := straightOvals_regions (ext := planeExt argsort) has hv (cs := [0]) (by simp)
  refine ⟨h1, oval_single 0, ?_, oval_behind le_rfl, ?_⟩
  · refine C124_head_on (planeExt argsort) (planeExt_space argsort) has (fun _ => (straightOvals longAxis [0]).convergence)
      ([0].map ovalTree) ([0].map ovalR) { evaluate := fun _ => longAxis, attractorPosition := none }
      (fun _ => longAxis) longAxis _ rfl rfl (straight_const hv) (straight_const hv) (straightOvals_create _ _ _)
      (ovals_parent _) (ovals_obstacles _) (by simp) _ T (fun t ht => oval_behind ht.1) ?_ ?_
    · intro r hr
      simp only [List.map_cons, List.map_nil, List.mem_cons, List.not_mem_nil, or_false] at hr
      subst hr
      exact ⟨4, sub_zero _⟩
    · intro t ht r hr
      simp only [List.map_cons, List.map_nil, List.mem_cons, List.not_mem_nil, or_false] at hr
      subst hr
      change unit (ovalGrad ((4 : ℝ) • longAxis + t • longAxis - 0)) = unit ((4 : ℝ) • longAxis + t • longAxis - 0)
      rw [sub_zero, ← add_smul]
      exact oval_axis_normal (by linarith [ht.1])
  · intro t ht
    have hs : 0 < 4 + t := by linarith [ht.1]
    constructor
    · intro r hr
      simp only [List.map_cons, List.map_nil, List.mem_cons, List.not_mem_nil, or_false] at hr
      subst hr
      refine ⟨?_, fun h => by simp at h⟩
      change Real.pi / 2 ≤ InnerProductGeometry.angle (0 - ((4 : ℝ) • longAxis + t • longAxis)) longAxis
      rw [zero_sub, ← add_smul, InnerProductGeometry.angle_neg_left, InnerProductGeometry.angle_smul_left_of_pos _ _ hs,
        InnerProductGeometry.angle_self hv0]
      linarith
    · intro r hr
      simp only [List.map_cons, List.map_nil, List.mem_cons, List.not_mem_nil, or_false] at hr
      subst hr
      change closeness 2 < |⟪unit (ovalGrad ((4 : ℝ) • longAxis + t • longAxis - 0)), longAxis⟫|
      rw [sub_zero, ← add_smul, oval_axis_normal hs.ne', unit_scale hs, unit_of_norm_one hv, real_inner_self_eq_norm_sq, hv]
      norm_num
      exact closeness_plane.trans_lt (by norm_num)

/-- The remaining hypothesis of `C124_trajectory_partial` is met for a positive time. -/
example (L E : Region 2 → ℝ) (hL : ∀ r, 0 < L r) (hE : ∀ r, 0 < E r) :
    ∀ t ∈ Icc (0 : ℝ) (1 / (2 * (L (ovalR 0) + E (ovalR 0)))), ∀ r ∈ [0].map ovalR,
      0 < (r.gauge ((4 : ℝ) • longAxis + (0 : ℝ) • longAxis) - 1 + E r / L r) * Real.exp (-(L r * t)) - E r / L r := by
  intro t ht r hr
  simp only [List.map_cons, List.map_nil, List.mem_cons, List.not_mem_nil, or_false] at hr
  subst hr
  have hg : (ovalR 0).gauge ((4 : ℝ) • longAxis + (0 : ℝ) • longAxis) = 2 := by
    change ovalGauge _ = 2
    rw [sub_zero, ← add_smul, oval_axis_gauge]; norm_num
  rw [hg]
  have hL := hL (ovalR 0)
  have hE := hE (ovalR 0)
  generalize L (ovalR 0) = L at *
  generalize E (ovalR 0) = E at *
  have hexp : 1 - L * t ≤ Real.exp (-(L * t)) := by linarith [Real.add_one_le_exp (-(L * t))]
  have h5 : (2 - 1 + E / L) * (1 - L * t) ≤ (2 - 1 + E / L) * Real.exp (-(L * t)) :=
    mul_le_mul_of_nonneg_left hexp (by positivity)
  have h6 : (2 - 1 + E / L) * (1 - L * t) = 1 - L * t + E / L - E * t := by field_simp; ring
  have h7 : (L + E) * t ≤ 1 / 2 := by
    calc (L + E) * t ≤ (L + E) * (1 / (2 * (L + E))) := mul_le_mul_of_nonneg_left ht.2 (by positivity)
      _ = 1 / 2 := by field_simp
  linarith

/-- The hypotheses of `C124_head_on` are met by the motion towards two ellipses along their common axis. -/
example : (∀ τ ∈ Icc (0 : ℝ) 1, OutsideAll ([0, (10 : ℝ) • longAxis].map ovalR) ((-4 : ℝ) • longAxis + τ • longAxis))
    ∧ (∀ r ∈ [0, (10 : ℝ) • longAxis].map ovalR, ∃ s : ℝ, (-4 : ℝ) • longAxis - r.center = s • longAxis)
    ∧ ∀ τ ∈ Icc (0 : ℝ) 1, ∀ r ∈ [0, (10 : ℝ) • longAxis].map ovalR,
      unit (r.grad ((-4 : ℝ) • longAxis + τ • longAxis)) = unit ((-4 : ℝ) • longAxis + τ • longAxis - r.center) := by
  have h0 : ∀ τ : ℝ, (-4 : ℝ) • longAxis + τ • longAxis - 0 = (-4 + τ) • longAxis := by intro τ; module
  have h1 : ∀ τ : ℝ, (-4 : ℝ) • longAxis + τ • longAxis - (10 : ℝ) • longAxis = (-14 + τ) • longAxis := by
    intro τ; module
  refine ⟨?_, ?_, ?_⟩
  · intro τ hτ r hr
    simp only [List.map_cons, List.map_nil, List.mem_cons, List.not_mem_nil, or_false] at hr
    rcases hr with rfl | rfl
    · change 1 < ovalGauge ((-4 : ℝ) • longAxis + τ • longAxis - 0)
      rw [h0, oval_axis_gauge, abs_of_neg (by linarith [hτ.2])]; linarith [hτ.2]
    · change 1 < ovalGauge ((-4 : ℝ) • longAxis + τ • longAxis - (10 : ℝ) • longAxis)
      rw [h1, oval_axis_gauge, abs_of_neg (by linarith [hτ.2])]; linarith [hτ.2]
  · intro r hr
    simp only [List.map_cons, List.map_nil, List.mem_cons, List.not_mem_nil, or_false] at hr
    rcases hr with rfl | rfl
    · exact ⟨-4, sub_zero _⟩
    · exact ⟨-14, by change (-4 : ℝ) • longAxis - (10 : ℝ) • longAxis = _; module⟩
  · intro τ hτ r hr
    simp only [List.map_cons, List.map_nil, List.mem_cons, List.not_mem_nil, or_false] at hr
    rcases hr with rfl | rfl
    · change unit (ovalGrad ((-4 : ℝ) • longAxis + τ • longAxis - 0)) = unit ((-4 : ℝ) • longAxis + τ • longAxis - 0)
      rw [h0]; exact oval_axis_normal (by linarith [hτ.2])
    · change unit (ovalGrad ((-4 : ℝ) • longAxis + τ • longAxis - (10 : ℝ) • longAxis))
        = unit ((-4 : ℝ) • longAxis + τ • longAxis - (10 : ℝ) • longAxis)
      rw [h1]; exact oval_axis_normal (by linarith [hτ.2])

end Verif
