import Verif.Props.RotationalAvoider
import Verif.Props.AvoiderExamples
import Verif.Props.Flows

/-!
# C93 and C94 are not vacuous: a planar angle space, and the unit disc
-/

open scoped RealInnerProductSpace
open Verif.Spec

namespace Verif.Rotational

/-- The vector turned by a right angle. -/
noncomputable def perp (v : Vec 2) : Vec 2 := !₂[-(v 1), v 0]

lemma perp_inner (v : Vec 2) : ⟪v, perp v⟫ = 0 := by
  rw [vec2_inner]; simp [perp]; ring

lemma perp_norm (v : Vec 2) : ‖perp v‖ = ‖v‖ := by
  have : ‖perp v‖ ^ 2 = ‖v‖ ^ 2 := by
    rw [vec2_norm_sq, vec2_norm_sq]; simp [perp]; ring
  exact (pow_left_inj₀ (norm_nonneg _) (norm_nonneg _) (by norm_num)).mp this

open Classical in
/-- The share of the contacts if there are any, otherwise equal shares. -/
noncomputable def shares (gs : List ℝ) : List ℝ :=
  if gs.countP (fun g => decide (g ≤ 1)) = 0 then gs.map (fun _ => 1 / (gs.length : ℝ))
  else gs.map (fun g => (if g ≤ 1 then 1 else 0) / (gs.countP (fun g => decide (g ≤ 1)) : ℝ))

open Classical in
/-- External functions in the plane. -/
noncomputable def planar : Ext 2 1 where
  toAngle b v := EuclideanSpace.single 0
    ((if 0 ≤ ⟪perp b.first, v⟫ then 1 else -1) * InnerProductGeometry.angle b.first v)
  ofAngle b a := Real.cos (a 0) • b.first + Real.sin (a 0) • perp b.first
  circleFar _ v r := some (EuclideanSpace.single 0 (if 0 ≤ v 0 then r else -r))
  weights := shares
  mean n ws ds :=
    if (List.zipWith (fun w (v : Vec 2) => w • unit v) ws ds).sum = 0 then n
    else unit (List.zipWith (fun w (v : Vec 2) => w • unit v) ws ds).sum
  relative _ _ := 0
  argsort := Classical.choose argsort_exists

lemma vec1_norm (a : Vec 1) : ‖a‖ = |a 0| := by
  rw [EuclideanSpace.norm_eq]; simp [Real.sqrt_sq_eq_abs]

lemma zipWith_append_sum (z z' : List ℝ) (pre : List (Vec 2)) (v : Vec 2) (post : List (Vec 2))
    (hz : ∀ w ∈ z, w = 0) (hz' : ∀ w ∈ z', w = 0) (hl : z.length = pre.length) :
    (List.zipWith (fun w (v : Vec 2) => w • unit v) (z ++ 1 :: z') (pre ++ v :: post)).sum = unit v := by
  have zero : ∀ (l : List ℝ) (m : List (Vec 2)), (∀ w ∈ l, w = 0) →
      (List.zipWith (fun w (v : Vec 2) => w • unit v) l m).sum = 0 := by
    intro l
    induction l with
    | nil => intro m _; simp
    | cons w l ih =>
      intro m hm
      cases m with
      | nil => simp
      | cons y m =>
        rw [List.zipWith_cons_cons, List.sum_cons, hm w List.mem_cons_self,
          ih m (fun w hw => hm w (List.mem_cons_of_mem _ hw))]
        simp
  rw [List.zipWith_append hl, List.sum_append, zero _ _ hz, List.zipWith_cons_cons, List.sum_cons,
    zero _ _ hz']
  simp

lemma convex_one {z z' : List ℝ} (h : Convex (z ++ 1 :: z')) : (∀ w ∈ z, w = 0) ∧ ∀ w ∈ z', w = 0 := by
  have h1 : 0 ≤ z.sum := List.sum_nonneg (fun w hw => h.1 w (by simp [hw]))
  have h2 : 0 ≤ z'.sum := List.sum_nonneg (fun w hw => h.1 w (by simp [hw]))
  have h3 := h.2
  rw [List.sum_append, List.sum_cons] at h3
  have z1 : z.sum = 0 := by linarith
  have z2 : z'.sum = 0 := by linarith
  have key : ∀ l : List ℝ, (∀ w ∈ l, 0 ≤ w) → l.sum = 0 → ∀ w ∈ l, w = 0 := by
    intro l hl hs w hw
    have := List.single_le_sum hl w hw
    exact le_antisymm (by linarith) (hl w hw)
  exact ⟨key z (fun w hw => h.1 w (by simp [hw])) z1, key z' (fun w hw => h.1 w (by simp [hw])) z2⟩

lemma count_sum (gs : List ℝ) (c : ℝ) (p : ℝ → Prop) [DecidablePred p] :
    (gs.map (fun g => (if p g then (1 : ℝ) else 0) / c)).sum = gs.countP (fun g => decide (p g)) / c := by
  induction gs with
  | nil => simp
  | cons g gs ih =>
    rw [List.map_cons, List.sum_cons, ih, List.countP_cons]
    by_cases h : p g
    · simp [h]; ring
    · simp [h]

lemma shares_convex (gs : List ℝ) (h : gs ≠ []) : Convex (shares gs) ∧ (shares gs).length = gs.length := by
  classical
  unfold shares
  split_ifs with hc
  · have hl : (gs.length : ℝ) ≠ 0 := by
      simpa using h
    refine ⟨⟨?_, ?_⟩, by simp⟩
    · intro w hw
      obtain ⟨g, _, rfl⟩ := List.mem_map.mp hw
      positivity
    · simp [hl]
  · refine ⟨⟨?_, ?_⟩, by simp⟩
    · intro w hw
      obtain ⟨g, _, rfl⟩ := List.mem_map.mp hw
      split_ifs <;> positivity
    · have := count_sum gs (gs.countP (fun g => decide (g ≤ 1))) (fun g => g ≤ 1)
      rw [this, div_self]
      exact_mod_cast hc

lemma shares_contact (pre post : List ℝ) (g : ℝ) (hg : g ≤ 1) (h : ∀ y ∈ pre ++ post, 1 < y) :
    shares (pre ++ g :: post) = pre.map (fun _ => 0) ++ 1 :: post.map (fun _ => 0) := by
  classical
  have h1 : pre.countP (fun g => decide (g ≤ 1)) = 0 := by
    rw [List.countP_eq_zero]
    intro y hy
    have := h y (List.mem_append_left _ hy)
    simpa using this
  have h2 : post.countP (fun g => decide (g ≤ 1)) = 0 := by
    rw [List.countP_eq_zero]
    intro y hy
    have := h y (List.mem_append_right _ hy)
    simpa using this
  have hc : (pre ++ g :: post).countP (fun g => decide (g ≤ 1)) = 1 := by
    rw [List.countP_append, List.countP_cons, h1, h2]; simp [hg]
  unfold shares
  rw [hc, if_neg (by norm_num), List.map_append, List.map_cons]
  congr 1
  · apply List.map_congr_left
    intro y hy
    rw [if_neg (not_le.mpr (h y (List.mem_append_left _ hy)))]; simp
  · congr 1
    · simp [hg]
    · apply List.map_congr_left
      intro y hy
      rw [if_neg (not_le.mpr (h y (List.mem_append_right _ hy)))]; simp

lemma turned_norm {u : Vec 2} (hu : ‖u‖ = 1) (φ : ℝ) : ‖Real.cos φ • u + Real.sin φ • perp u‖ = 1 := by
  have h : ‖Real.cos φ • u + Real.sin φ • perp u‖ ^ 2 = 1 := by
    rw [norm_add_sq_real, norm_smul, norm_smul, perp_norm, hu, inner_smul_left, inner_smul_right, perp_inner]
    have := Real.cos_sq_add_sin_sq φ
    simp
  nlinarith [norm_nonneg (Real.cos φ • u + Real.sin φ • perp u)]

lemma turned_angle {u : Vec 2} (hu : ‖u‖ = 1) {φ : ℝ} (hφ : |φ| ≤ Real.pi) :
    InnerProductGeometry.angle u (Real.cos φ • u + Real.sin φ • perp u) = |φ| := by
  unfold InnerProductGeometry.angle
  rw [turned_norm hu, hu, inner_add_right, inner_smul_right, inner_smul_right, perp_inner,
    real_inner_self_eq_norm_sq, hu]
  have : Real.cos φ * 1 ^ 2 + Real.sin φ * 0 = Real.cos |φ| := by rw [Real.cos_abs]; ring
  rw [this, mul_one, div_one, Real.arccos_cos (abs_nonneg _) hφ]

/-- The planar functions meet the contracts. -/
lemma planar_sane : SaneAngles planar where
  toAngle_norm := by
    intro b v _ _
    have h0 := InnerProductGeometry.angle_nonneg b.first v
    change ‖EuclideanSpace.single 0 _‖ = _
    rw [PiLp.norm_single, norm_mul, Real.norm_of_nonneg h0]
    split_ifs <;> simp
  ofAngle_unit := by
    intro b a hb
    exact turned_norm (first_norm hb) _
  ofAngle_angle := by
    intro b a hb ha
    rw [vec1_norm] at ha ⊢
    exact turned_angle (first_norm hb) ha
  circle := by
    intro s v r a hr h
    change some _ = some a at h
    injection h with h
    rw [← h, PiLp.norm_single]
    split_ifs
    · exact Real.norm_of_nonneg hr
    · rw [norm_neg]; exact Real.norm_of_nonneg hr
  weights_convex := shares_convex
  weights_contact := by
    intro pre g post hg h
    exact ⟨_, _, by simp, shares_contact pre post g hg h⟩
  mean_unit := by
    intro n ws ds hn _ _
    change ‖if _ then _ else _‖ = 1
    split_ifs with h
    · exact hn
    · exact unit_norm h
  mean_one := by
    intro n z z' pre v post _ hv _ hl _ hc
    obtain ⟨h1, h2⟩ := convex_one hc
    change (if _ then _ else _) = _
    rw [zipWith_append_sum z z' pre v post h1 h2 hl, if_neg (unit_ne_zero hv), unit_unit hv]
  argsort := Classical.choose_spec argsort_exists

/-! ## The unit disc -/

lemma neighbours_of_coord {u v : Vec 2} (i : Fin 2) (hi : ¬ isclose (u i) (v i))
    (h : ⟪u, v⟫ ≥ 0) (hu : u ≠ 0) : Neighbours u v := by
  refine ⟨?_, Or.inr (fun hc => hi (hc i))⟩
  rintro ⟨c, hc, rfl⟩
  rw [inner_smul_right, real_inner_self_eq_norm_sq] at h
  have : 0 < ‖u‖ := norm_pos_iff.mpr hu
  nlinarith [sq_nonneg ‖u‖, pow_pos this 2]

lemma disc_inward (x : Vec 2) (hx : ‖x‖ ≠ 0) : inward disc x = -((1 / ‖x‖) • x) := by
  have : ‖(1 / ‖x‖) • x‖ = 1 := unit_norm (norm_ne_zero_iff.mp hx)
  unfold inward
  change (if false = true then _ else -unit ((1 / ‖x‖) • x)) = _
  rw [if_neg (by simp), unit_of_norm_one this]

lemma disc_towards (x : Vec 2) : towards disc x = -((1 / ‖x‖) • x) := by
  unfold towards
  change (if false = true then _ else (-(1 / ‖x‖)) • x) = _
  rw [if_neg (by simp), neg_smul]

lemma norm_e0 : ‖(!₂[1, 0] : Vec 2)‖ = 1 := by
  rw [EuclideanSpace.norm_eq]; simp
lemma norm_e1 : ‖(!₂[0, 1] : Vec 2)‖ = 1 := by
  rw [EuclideanSpace.norm_eq]; simp

/-- C93 is not vacuous: on the surface of the unit disc, heading for the centre with speed two, and with a
convergence direction along the surface, the hypotheses of `C93_slide_partial` are met: the result slides along
the surface with speed two. -/
example : (avoid planar (create (d := 2)) !₂[1, 0] (some !₂[-2, 0]) (some ⟨[disc], none, none⟩)
    (some !₂[0, 1])).2 = .ok !₂[0, 2] := by
  have hn0 : ‖(!₂[-2, 0] : Vec 2)‖ = 2 := by
    rw [EuclideanSpace.norm_eq]; simp
  have hne : (!₂[-2, 0] : Vec 2) ≠ 0 := by intro h; rw [h] at hn0; simp at hn0
  have hu : unit (!₂[0, 1] : Vec 2) = !₂[0, 1] := unit_of_norm_one norm_e1
  have hui : unit (!₂[-2, 0] : Vec 2) = !₂[-1, 0] := by
    unfold unit; rw [hn0]; ext i; fin_cases i <;> simp
  have hnormal : disc.normal (!₂[1, 0] : Vec 2) = !₂[1, 0] := by
    change (1 / ‖_‖) • _ = _; rw [norm_e0]; simp
  have hfirst : (⟨disc.normal !₂[1, 0], true⟩ : NullBase 2).first = !₂[-1, 0] := by
    simp only [NullBase.first, hnormal, norm_e0]
    ext i; fin_cases i <;> simp
  have hc0 : (!₂[0, 1] : Vec 2) ≠ 0 := by intro h; have := norm_e1; rw [h] at this; simp at this
  have hcl : ∀ a b : ℝ, a = 0 → b = -1 → ¬ isclose a b := by
    rintro a b rfl rfl
    unfold isclose; norm_num
  have hcl' : ∀ a b : ℝ, a = -1 → b = 0 → ¬ isclose a b := by
    rintro a b rfl rfl
    unfold isclose; norm_num
  have := C93_slide_partial planar planar_sane (create (d := 2)) disc !₂[1, 0] !₂[-2, 0] !₂[0, 1] !₂[0, 1] rfl
    (by change (1 : ℝ) < 1e6; norm_num) (by change ‖_‖ ≤ 1; rw [norm_e0]) rfl
    (by rw [hnormal]; intro h; have := norm_e0; rw [h] at this; simp at this)
    (by
      rw [disc_towards, disc_inward _ (by rw [norm_e0]; norm_num)]
      exact real_inner_self_nonneg)
    hc0 hne rfl ?_ ?_ ?_
  · rw [this, hn0, hu]
    congr 1
    ext i; fin_cases i <;> simp
  · unfold pseudoTangent
    rw [if_pos]
    refine ⟨?_, rfl⟩
    rw [planar_sane.toAngle_norm _ _ (by
      change disc.normal _ ≠ 0
      rw [hnormal]; intro h; have := norm_e0; rw [h] at this; simp at this) hc0, hfirst]
    change _ ≥ Real.pi / 2
    apply ge_of_eq
    rw [← InnerProductGeometry.inner_eq_zero_iff_angle_eq_pi_div_two, vec2_inner]
    simp
  · rintro ⟨a, ha, h⟩
    have := congrArg (fun y : Vec 2 => y 1) h
    simp at this
  · unfold Admissible
    rw [hfirst, hu, hui]
    refine ⟨neighbours_of_coord 0 (hcl _ _ (by simp) (by simp)) (by rw [vec2_inner]; simp) hc0,
      neighbours_of_coord 0 (hcl _ _ (by simp) (by simp)) (by rw [vec2_inner]; simp) hc0,
      fun _ => neighbours_of_coord 0 (hcl' _ _ (by simp) (by simp)) (by rw [vec2_inner]; simp) ?_, ?_⟩
    · intro h
      have := congrArg (fun y : Vec 2 => y 0) h
      simp at this
    · intro h
      norm_num at h
      linarith [Real.pi_pos]

/-- The violation in `C93_enters` occurs: in front of the unit disc, with a convergence direction that leaves
it, the speed towards the disc is at least 6/25 at every distance up to the surface. -/
example (r : ℝ) (hr : 1 < r) (hr' : r < 1e6) (v : Vec 2)
    (hv : (avoid planar (create (d := 2)) !₂[r, 0] (some !₂[-3 / 5, 4 / 5]) (some ⟨[disc], none, none⟩)
      (some !₂[1, 1])).2 = .ok v) : 6 / 25 ≤ -(v 0) := by
  have hr0 : 0 < r := by linarith
  have hx : ‖(!₂[r, 0] : Vec 2)‖ = r := by
    rw [EuclideanSpace.norm_eq]; simp [Real.sqrt_sq hr0.le]
  have hi : ‖(!₂[-3 / 5, 4 / 5] : Vec 2)‖ = 1 := by
    rw [EuclideanSpace.norm_eq]; simp; norm_num
  have hin : inward disc !₂[r, 0] = !₂[-1, 0] := by
    rw [disc_inward _ (by rw [hx]; exact hr0.ne'), hx]
    ext i; fin_cases i <;> simp [hr0.ne']
  have hto : towards disc !₂[r, 0] = !₂[-1, 0] := by
    rw [disc_towards, hx]
    ext i; fin_cases i <;> simp [hr0.ne']
  have hn : disc.normal !₂[r, 0] ≠ 0 := by
    change (1 / ‖_‖) • _ ≠ 0
    rw [hx]
    intro h
    have := congrArg (fun y : Vec 2 => y 0) h
    simp [hr0.ne'] at this
  obtain ⟨_, h⟩ := C93_enters planar planar_sane (create (d := 2)) disc !₂[r, 0] !₂[-3 / 5, 4 / 5] !₂[1, 1] v
    rfl rfl (by change 1 < ‖_‖; rw [hx]; exact hr) (by change ‖_‖ < 1e6; rw [hx]; exact hr') hn
    (by rw [hto, hin, vec2_inner]; simp) (by rw [hin, vec2_inner]; simp) rfl (3 / 5)
    (by rw [unit_of_norm_one hi, hin, vec2_inner]; simp; norm_num) (by norm_num) (by norm_num) hv
  rw [hi, hin, vec2_inner] at h
  simp at h
  linarith

/-- `C93_full_speed` in front of the unit disc at rest: the speed is the one of the initial velocity. -/
example (v : Vec 2) (hv : (avoid planar (create (d := 2)) !₂[2, 0] (some !₂[-3 / 5, 4 / 5])
    (some ⟨[disc], none, none⟩) (some !₂[1, 1]) false).2 = .ok v) : ‖v‖ = 1 := by
  have hx : ‖(!₂[2, 0] : Vec 2)‖ = 2 := by
    rw [EuclideanSpace.norm_eq]; simp
  have hi : ‖(!₂[-3 / 5, 4 / 5] : Vec 2)‖ = 1 := by
    rw [EuclideanSpace.norm_eq]; simp; norm_num
  rw [← hi]
  refine C93_full_speed planar planar_sane create _ !₂[2, 0] _ v _ _ rfl ?_ hv
  intro o ho
  rw [List.mem_singleton] at ho
  rw [ho]
  change 1 < ‖_‖
  rw [hx]; norm_num

/-- The hypotheses of `C94_custom_radius_ignored` are met by different radii. -/
example : List.Forall₂ SameSide [Real.pi * 0.6, Real.pi * 0.1] [Real.pi * 0.9, Real.pi * 0.5] := by
  have := Real.pi_pos
  refine List.Forall₂.cons ?_ (List.Forall₂.cons ?_ List.Forall₂.nil)
  · unfold SameSide; constructor <;> intro _ <;> norm_num <;> linarith
  · unfold SameSide
    constructor
    · intro h; norm_num at h; linarith
    · intro h; norm_num at h

/-- The hypotheses of `C94_first_convergence` are met: the disc in contact. -/
example : CloseTo (create (d := 2)).cutOffGamma (!₂[1, 0] : Vec 2) disc := by
  left
  change 1 ≤ ‖_‖ ∧ ‖_‖ < 1e6
  rw [norm_e0]; norm_num

end Verif.Rotational
