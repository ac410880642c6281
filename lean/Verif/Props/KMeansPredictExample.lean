import Verif.Props.KMeansPredict
import Verif.Props.RotationalExample

/-!
# C110 is not vacuous: three regions in a row in the plane
-/

open scoped RealInnerProductSpace

namespace Verif.KMeans
open Spec Obs
open Verif.Projected (floatMax)

/-- The first coordinates of the centres. -/
noncomputable def laneX (i : Fin 3) : ℝ := if i = 0 then 0 else if i = 1 then 2 else -2

@[simp] lemma laneX_zero : laneX 0 = 0 := rfl
@[simp] lemma laneX_one : laneX 1 = 2 := rfl
@[simp] lemma laneX_two : laneX 2 = -2 := rfl

/-- The motion leads from cluster 1 over cluster 0 to cluster 2, which contains the attractor `(a, 0)`. -/
noncomputable def lane (a : ℝ) : Learner 3 2 where
  centers := fun i => !₂[laneX i, 0]
  radius := 3 / 2
  graph := ⟨[(2, 0), (0, 1), (1, 2)], [(0, 2), (1, 0)]⟩
  dynamics := fun i =>
    if i = 2 then ⟨fun x => !₂[a, 0] - x, fun x => !₂[a, 0] - x, attractorDirection !₂[a, 0]⟩
    else ⟨fun _ => !₂[-1, 0], fun _ => !₂[-1, 0], fun _ => !₂[-1, 0]⟩
  outside := fun x => -x

/-- The label is a closest centre. -/
noncomputable def laneExt : PredictExt 3 2 1 where
  rot := Rotational.planar
  normal := ⟨tangentMean, fun _ => [0]⟩
  label := fun x => (Finite.exists_min (fun i => ‖x - (lane 0).centers i‖)).choose

lemma lane_sq (a p q : ℝ) (i : Fin 3) : ‖!₂[p, q] - (lane a).centers i‖ ^ 2 = (p - laneX i) ^ 2 + q ^ 2 := by
  rw [vec2_norm_sq]; simp [lane]

lemma lane_line (a p : ℝ) (i : Fin 3) : ‖!₂[p, 0] - (lane a).centers i‖ = |p - laneX i| := by
  rw [← abs_norm, ← sq_eq_sq_iff_abs_eq_abs, lane_sq]; ring

lemma lane_centre (a : ℝ) (i j : Fin 3) : ‖(lane a).centers i - (lane a).centers j‖ = |laneX i - laneX j| :=
  lane_line a (laneX i) j

lemma lane_label (x : Vec 2) (i : Fin 3) (h : ∀ j, j ≠ i → ‖x - (lane 0).centers i‖ < ‖x - (lane 0).centers j‖) :
    laneExt.label x = i := by
  have hs := (Finite.exists_min (fun i => ‖x - (lane 0).centers i‖)).choose_spec i
  by_contra hne
  exact absurd hs (not_le.mpr (h _ hne))

lemma lane_good (a : ℝ) (i : Fin 3) : GoodClusters (lane a).centers (lane a).radius i := by
  refine ⟨by norm_num [lane], ?_⟩
  intro j hj
  rw [lane_centre]
  fin_cases i <;> fin_cases j <;> first | exact absurd rfl hj | norm_num [laneX, lane]

lemma lane_chain (a : ℝ) : ChainLearner (lane a) := by
  refine ⟨lane_good a, ?_, ?_⟩
  · intro i
    fin_cases i
    · exact Or.inr ⟨2, rfl, by decide, by rw [lane_centre]; norm_num [lane]⟩
    · exact Or.inr ⟨0, rfl, by decide, by rw [lane_centre]; norm_num [lane]⟩
    · exact Or.inl rfl
  · intro i
    fin_cases i
    · exact Or.inr ⟨1, rfl, by decide, by rw [lane_centre]; norm_num [lane]⟩
    · exact Or.inl rfl
    · exact Or.inr ⟨0, rfl, by decide, by rw [lane_centre]; change |laneX 2 - laneX 0| < _; norm_num [lane]⟩

lemma lane_sane (a : ℝ) : SanePredict laneExt (lane a) where
  angles := Rotational.planar_sane
  mean := tangentMean_sane
  label := fun x j => (Finite.exists_min (fun i => ‖x - (lane 0).centers i‖)).choose_spec j
  rest := fun _ _ => rfl

/-- `C110_outside`: far from all regions. -/
example : (lane 0).predict laneExt 2 !₂[0, 10] = .ok !₂[0, -10] := by
  have hd : ∀ i, 10 ≤ ‖!₂[0, 10] - (lane 0).centers i‖ := by
    intro i
    have := lane_sq 0 0 10 i
    nlinarith [norm_nonneg (!₂[0, 10] - (lane 0).centers i), sq_nonneg (0 - laneX i)]
  rw [(C110_outside laneExt (lane 0) (lane_chain 0) (lane_sane 0) 2 !₂[0, 10] ?_).2.1 ?_]
  · congr 1
    ext i; fin_cases i <;> simp [lane]
  · rintro ⟨h, -⟩
    have := hd (laneExt.label !₂[0, 10])
    norm_num [lane] at h this
    linarith
  · intro i
    have := hd i
    have : (lane 0).radius = 3 / 2 := rfl
    linarith

/-- `C110_outside_near`: beyond the end of the lane, closer than four radii to the last centre only. -/
example : ∃ i : Fin 3, ‖!₂[-15 / 2, 0] - (lane 0).centers i‖ < 4 * (lane 0).radius
    ∧ (∀ j, j ≠ i → 4 * (lane 0).radius ≤ ‖!₂[-15 / 2, 0] - (lane 0).centers j‖)
    ∧ !₂[-15 / 2, 0] ∉ Cell (lane 0).centers (lane 0).radius (laneExt.label !₂[-15 / 2, 0])
    ∧ (lane 0).outside !₂[-15 / 2, 0] ≠ 0
    ∧ InnerProductGeometry.angle ((lane 0).centers i - !₂[-15 / 2, 0]) ((lane 0).outside !₂[-15 / 2, 0]) ≠ Real.pi := by
  have hr : (lane 0).radius = 3 / 2 := rfl
  refine ⟨2, ?_, ?_, ?_, ?_, ?_⟩
  · rw [lane_line, hr]; change |-15 / 2 - laneX 2| < _; rw [laneX_two]; norm_num [abs_lt]
  · intro j hj
    rw [lane_line, hr]
    fin_cases j
    · change _ ≤ |-15 / 2 - laneX 0|; norm_num [laneX, abs_of_neg]
    · change _ ≤ |-15 / 2 - laneX 1|; norm_num [laneX, abs_of_neg]
    · exact absurd rfl hj
  · rintro ⟨h, -⟩
    rw [lane_line, hr] at h
    have : ∀ i, 3 / 2 < |-15 / 2 - laneX i| := by
      intro i; fin_cases i <;> norm_num [laneX, abs_of_neg]
    exact absurd h (not_le.mpr (this _))
  · intro h
    have := congrArg (fun v : Vec 2 => v 0) h
    norm_num [lane] at this
  · intro h
    have h1 := InnerProductGeometry.inner_eq_neg_mul_norm_of_angle_eq_pi h
    rw [vec2_inner] at h1
    have h2 := norm_nonneg ((lane 0).centers 2 - !₂[-15 / 2, 0])
    have h3 := norm_nonneg ((lane 0).outside !₂[-15 / 2, 0])
    have h4 := mul_nonneg h2 h3
    have e1 : ((lane 0).centers 2 - !₂[-15 / 2, 0] : Vec 2) 0 = 11 / 2 := by
      change laneX 2 - -15 / 2 = 11 / 2
      rw [laneX_two]; norm_num
    have e2 : ((lane 0).centers 2 - !₂[-15 / 2, 0] : Vec 2) 1 = 0 := by simp [lane]
    have e3 : ((lane 0).outside !₂[-15 / 2, 0]) 0 = 15 / 2 := by norm_num [lane]
    rw [e1, e2, e3] at h1
    linarith

/-- `C110_free`: at the centre of the middle region the prediction is the local velocity. -/
example : (lane (-5 / 4)).predict laneExt 2 !₂[0, 0] = .ok !₂[-1, 0] := by
  have hlab : laneExt.label !₂[0, 0] = 0 := by
    apply lane_label
    intro j hj
    rw [lane_line, lane_line]
    fin_cases j <;> first | exact absurd rfl hj | norm_num [laneX]
  obtain ⟨w, p, hw, -, -, h⟩ := C110_free laneExt (lane (-5 / 4)) (lane_chain _) 2 !₂[0, 0]
    (Or.inl (by rw [hlab]; simp [lane, laneX]))
  rw [h ?_, hlab]
  · rfl
  · rw [hlab] at hw ⊢
    have e := C54_own_partial (lane (-5 / 4)).graph ((lane (-5 / 4)).region 0) 2 !₂[0, 0] 0.5 2.0 (by norm_num) 1
      (by decide) (by
        intro h
        have := congrArg (fun v : Vec 2 => v 0) h
        simp [lane, laneX, Learner.region, center] at this) (by
        change 0.5 * (‖(lane (-5 / 4)).centers 0 - (lane (-5 / 4)).centers 1‖ / 2)
          ≤ ⟪(1 / ‖(lane (-5 / 4)).centers 0 - (lane (-5 / 4)).centers 1‖)
            • ((lane (-5 / 4)).centers 0 - (lane (-5 / 4)).centers 1), _⟫
        rw [lane_centre, vec2_inner]
        simp [lane, laneX, Learner.region, center]
        norm_num)
    rw [e] at hw
    injection hw with hw
    intro j hj
    rw [← hw]
    change (Pi.single (0 : Fin 3) (1 : ℝ) : Fin 3 → ℝ) j ≤ 0
    rw [Pi.single_eq_of_ne hj]

/-! ### The attractor -/

lemma lane_unit {a p : ℝ} (hp : -2 < p) : unit (!₂[p, 0] - (lane a).centers 2) = !₂[1, 0] := by
  unfold unit
  rw [lane_line, laneX_two, abs_of_pos (by linarith)]
  ext i
  fin_cases i
  · have : p + 2 ≠ 0 := by linarith
    simp [lane]
    field_simp
  · simp [lane]

/-- The position `(-5/4, 0)` in the last region, with mirror image `(-2/3, 0)` beyond the wall to the middle
region. -/
lemma lane_mirror (a : ℝ) :
    Mirror (lane a).centers (lane a).radius 2 (!₂[-5 / 4, 0]) (!₂[-2 / 3, 0]) := by
  refine ⟨!₂[-1, 0], ⟨1, one_pos, ?_, ?_⟩, ?_, ?_⟩
  · rw [lane_unit (by norm_num)]
    ext i; fin_cases i <;> simp [lane]; norm_num
  · intro t ht
    rw [lane_unit (by norm_num)]
    have e : (lane a).centers 2 + t • (!₂[1, 0] : Vec 2) = !₂[-2 + t, 0] := by
      ext i; fin_cases i <;> simp [lane]
    rw [e]
    constructor
    · rintro ⟨-, h⟩
      have := h 0
      rw [lane_line, lane_line, laneX_two, laneX_zero, ← sq_le_sq] at this
      nlinarith
    · intro h
      refine ⟨?_, ?_⟩
      · rw [lane_line, laneX_two, abs_of_nonneg (by linarith)]
        norm_num [lane]
        linarith
      · intro j
        rw [lane_line, lane_line, ← sq_le_sq, laneX_two]
        fin_cases j
        · change _ ≤ (-2 + t - laneX 0) ^ 2
          rw [laneX_zero]; nlinarith
        · change _ ≤ (-2 + t - laneX 1) ^ 2
          rw [laneX_one]; nlinarith
        · exact le_refl _
  · have : (!₂[-2 / 3, 0] - (lane a).centers 2 : Vec 2)
        = (16 / 9 : ℝ) • (!₂[-5 / 4, 0] - (lane a).centers 2 : Vec 2) := by
      ext i; fin_cases i <;> simp [lane]; norm_num
    rw [this]
    exact SameRay.sameRay_nonneg_smul_right _ (by norm_num)
  · rw [lane_line, lane_line, lane_line, laneX_two]
    norm_num [abs_of_pos]

lemma lane_inside (a : ℝ) : (!₂[-5 / 4, 0] : Vec 2) ∈ OpenCell (lane a).centers (lane a).radius 2 := by
  refine ⟨?_, ?_⟩
  · rw [lane_line, laneX_two]; norm_num [lane, abs_of_pos]
  · intro j hj
    rw [lane_line, lane_line]
    fin_cases j
    · change _ < |_ - laneX 0|
      rw [laneX_zero, laneX_two]; norm_num [abs_of_pos, abs_of_neg]
    · change _ < |_ - laneX 1|
      rw [laneX_one, laneX_two]; norm_num [abs_of_pos, abs_of_neg]
    · exact absurd rfl hj

lemma lane_beyond (a : ℝ) : ‖!₂[-2 / 3, 0] - (lane a).centers 2‖ ≤ (lane a).radius
    ∧ ‖!₂[-2 / 3, 0] - (lane a).centers 0‖ < ‖!₂[-2 / 3, 0] - (lane a).centers 2‖
    ∧ ∀ m, m ≠ 0 → ‖!₂[-2 / 3, 0] - (lane a).centers 2‖ ≤ ‖!₂[-2 / 3, 0] - (lane a).centers m‖ := by
  refine ⟨?_, ?_, ?_⟩
  · rw [lane_line, laneX_two]; norm_num [lane, abs_of_pos]
  · rw [lane_line, lane_line, laneX_two, laneX_zero]; norm_num [abs_of_pos, abs_of_neg]
  · intro m hm
    rw [lane_line, lane_line]
    fin_cases m
    · exact absurd rfl hm
    · change _ ≤ |_ - laneX 1|
      rw [laneX_one, laneX_two]; norm_num [abs_of_pos, abs_of_neg]
    · exact le_refl _

lemma lane_ne (a : ℝ) : (!₂[-5 / 4, 0] : Vec 2) ≠ (lane a).centers 2 := by
  intro h
  have := congrArg (fun v : Vec 2 => v 0) h
  norm_num [lane] at this

lemma lane_label_two : laneExt.label !₂[-5 / 4, 0] = 2 :=
  lane_label _ _ (lane_inside 0).2

/-- In the transition zone the middle cluster has a weight. -/
lemma lane_weights (a : ℝ) : ∃ w : Fin 3 → ℝ,
    sequenceWeights (lane a).graph ((lane a).region 2) 2 !₂[-5 / 4, 0] = .ok w
      ∧ 0 < w 0 ∧ w 1 = 0 ∧ 0 < w 2 ∧ w 2 < 1 := by
  obtain ⟨w, hw⟩ := weights_exist (lane_chain a) 2 2 !₂[-5 / 4, 0]
  have h2 := own_weight (lane_chain a) 2 2 _ w hw
  obtain ⟨b1, b2, b3⟩ := lane_beyond a
  have hg := C80_transparent_front ((lane a).region 2) (lane_good a 2) rfl 2 0 !₂[-5 / 4, 0] !₂[-2 / 3, 0]
    (lane_ne a) (lane_inside a) (lane_mirror a) b1 b3
  have ht : transitionWeight ((lane a).region 2).center (((lane a).region 2).centers 0) !₂[-5 / 4, 0] 0.5
      = 1 / 2 := by
    unfold transitionWeight
    have hn : ‖((lane a).region 2).center - ((lane a).region 2).centers 0‖ = 2 := by
      change ‖(lane a).centers 2 - (lane a).centers 0‖ = 2
      rw [lane_centre]; norm_num
    simp only [hn, vec2_inner]
    simp [lane, Learner.region, center]
    norm_num
  have hcut : 0 < cutoffFactor floatMax 2.0 := by
    have := floatMax_large
    unfold cutoffFactor
    have h3 : (1 : ℝ) ≤ max (floatMax - 2.0) 0 := le_max_of_le_left (by norm_num at this ⊢; linarith)
    have : 1 / (1 + max (floatMax - 2.0) 0) < 1 := by
      rw [div_lt_one (by linarith)]; linarith
    linarith
  have e : w = pairWeights 2 0 (1 / 2 * cutoffFactor floatMax 2.0) := by
    have h := hw
    unfold sequenceWeights at h
    change (if ‖(lane a).centers 2 - (lane a).centers 0‖ = 0 then _ else _) = _ at h
    rw [if_neg (by rw [lane_centre]; norm_num)] at h
    simp only [ht, hg] at h
    rw [if_pos (by norm_num)] at h
    injection h with h
    exact h.symm
  obtain ⟨e1, e2, e3, -⟩ := pairWeights_spec (show (2 : Fin 3) ≠ 0 by decide)
    (1 / 2 * cutoffFactor floatMax 2.0)
  refine ⟨w, hw, ?_, ?_, h2, ?_⟩
  · rw [e, e2]; positivity
  · rw [e, e3 1 (by decide) (by decide)]
  · rw [e, e1]
    have : 0 < 1 / 2 * cutoffFactor floatMax 2.0 := by positivity
    linarith

lemma lane_used {w : Fin 3 → ℝ} (h0 : 0 < w 0) (h1 : w 1 = 0) (h2 : 0 < w 2) : Learner.used w = [0, 2] := by
  unfold Learner.used
  have : List.finRange 3 = [0, 1, 2] := rfl
  rw [this]
  simp [h0, h1, h2]

lemma left_unit : unit (!₂[-1, 0] : Vec 2) = !₂[-1, 0] := by
  apply unit_of_norm_one
  rw [EuclideanSpace.norm_eq]; simp

lemma planar_left (v : Vec 2) {w0 w2 : ℝ} (h : 0 < w0) :
    Rotational.planar.mean v [w0, w2] [!₂[-1, 0], 0] = !₂[-1, 0] := by
  have hs : (List.zipWith (fun w (v : Vec 2) => w • unit v) [w0, w2] [!₂[-1, 0], 0]).sum = w0 • !₂[-1, 0] := by
    have h0 : unit (0 : Vec 2) = 0 := by simp [unit]
    simp [left_unit, h0]
  change (if _ then _ else _) = _
  rw [hs, if_neg]
  · unfold unit
    rw [norm_smul, Real.norm_of_nonneg h.le, smul_smul]
    have : ‖(!₂[-1, 0] : Vec 2)‖ = 1 := by rw [EuclideanSpace.norm_eq]; simp
    rw [this, mul_one, one_div_mul_cancel h.ne', one_smul]
  · intro h0
    have := congrArg (fun v : Vec 2 => v 0) h0
    simp at this
    exact h.ne' this

/-- With the attractor at `(-5/4, 0)` both directions there are the ones of the middle region. -/
lemma lane_initial {w : Fin 3 → ℝ} (h0 : 0 < w 0) (h1 : w 1 = 0) (h2 : 0 < w 2) :
    (lane (-5 / 4)).initial laneExt !₂[-5 / 4, 0] 2 w = .ok (!₂[-1, 0], !₂[-1, 0]) := by
  unfold Learner.initial Learner.averagedLyapunov Learner.initialDirection
  rw [lane_used h0 h1 h2, if_pos (by simp)]
  have e1 : ((lane (-5 / 4)).dynamics 0).lyapunov !₂[-5 / 4, 0] = !₂[-1, 0] := rfl
  have e2 : ((lane (-5 / 4)).dynamics 2).lyapunov !₂[-5 / 4, 0] = 0 := by
    change attractorDirection _ _ = 0
    unfold attractorDirection
    rw [sub_self, norm_zero, if_pos rfl]
  have e3 : ((lane (-5 / 4)).dynamics 0).unchecked !₂[-5 / 4, 0] = !₂[-1, 0] := rfl
  have e4 : ((lane (-5 / 4)).dynamics 2).unchecked !₂[-5 / 4, 0] = 0 := sub_self _
  simp only [List.map_cons, List.map_nil, e1, e2, e3, e4, bind, Except.bind]
  change Except.ok (Rotational.planar.mean _ _ _, Rotational.planar.mean _ _ _) = _
  rw [planar_left _ h0, planar_left _ h0]

/-- `C110_entry`: at the attractor, in the transition zone of the last region, the prediction is the velocity
of the middle region. -/
lemma lane_entry : (lane (-5 / 4)).predict laneExt 2 !₂[-5 / 4, 0] = .ok !₂[-1, 0] := by
  obtain ⟨w, hw, h0, h1, h2, h3⟩ := lane_weights (-5 / 4)
  obtain ⟨b1, b2, b3⟩ := lane_beyond (-5 / 4)
  have hpi := Real.pi_pos
  have hp : (!₂[-1, 0] : Vec 2) ≠ 0 := by
    intro h
    have := congrArg (fun v : Vec 2 => v 0) h
    simp at this
  have hd : (lane (-5 / 4)).centers 0 - (lane (-5 / 4)).centers 2 = (!₂[2, 0] : Vec 2) := by
    ext i; fin_cases i <;> simp [lane]
  refine C110_entry laneExt (lane (-5 / 4)) (lane_chain _) (lane_sane _) 2 2 0 !₂[-5 / 4, 0] !₂[-2 / 3, 0]
    lane_label_two (lane_ne _) (lane_inside _) (lane_mirror _) b1 b2 b3 w hw (!₂[-1, 0], !₂[-1, 0])
    (lane_initial h0 h1 h2) hp ?_ ?_
  · have : (!₂[-1, 0] : Vec 2) = (-(1 / 2) : ℝ) • !₂[2, 0] := by
      ext i; fin_cases i <;> simp
    rw [hd]
    change _ < InnerProductGeometry.angle _ (!₂[-1, 0] : Vec 2)
    rw [this, InnerProductGeometry.angle_smul_right_of_neg _ _ (by norm_num),
      InnerProductGeometry.angle_self_neg_of_nonzero]
    · nlinarith
    · intro h
      have := congrArg (fun v : Vec 2 => v 0) h
      simp at this
  · have : (!₂[-5 / 4, 0] - (lane (-5 / 4)).centers 2 : Vec 2) = (3 / 8 : ℝ) • !₂[2, 0] := by
      ext i; fin_cases i <;> simp [lane]; norm_num
    rw [hd, this, InnerProductGeometry.angle_smul_right_of_pos _ _ (by norm_num),
      InnerProductGeometry.angle_self]
    · positivity
    · intro h
      have := congrArg (fun v : Vec 2 => v 0) h
      simp at this

/-- `C110_attractor_moves` and `C110_speed`: the hypotheses are met at this attractor. -/
example : (!₂[-1, 0] : Vec 2) ≠ ((lane (-5 / 4)).dynamics (laneExt.label !₂[-5 / 4, 0])).evaluate !₂[-5 / 4, 0]
    ∧ ‖(!₂[-1, 0] : Vec 2)‖ = 1 := by
  obtain ⟨w, hw, h0, h1, h2, h3⟩ := lane_weights (-5 / 4)
  refine C110_attractor_moves laneExt (lane (-5 / 4)) (lane_chain _) (lane_sane _) 2 !₂[-5 / 4, 0] !₂[-1, 0]
    (by rw [lane_label_two]; exact lane_inside _) w (by rw [lane_label_two]; exact hw)
    ⟨0, by rw [lane_label_two]; decide, h0⟩ ?_ (by rw [lane_label_two]; exact sub_self _) lane_entry
  intro j hj hm
  have : j = 0 := by
    by_contra hne
    exact absurd h0 (not_lt.mpr (hm 0 (Fin.pos_of_ne_zero hne)))
  rw [this]
  change ‖(!₂[-1, 0] : Vec 2)‖ = 1
  rw [EuclideanSpace.norm_eq]; simp

/-- `C110_attractor`: with the attractor at `(-5/2, 0)` the motion stops there. -/
example : (lane (-5 / 2)).predict laneExt 2 !₂[-5 / 2, 0] = .ok 0 := by
  have hin : ∀ a, (!₂[-5 / 2, 0] : Vec 2) ∈ OpenCell (lane a).centers (lane a).radius 2 := by
    intro a
    refine ⟨?_, ?_⟩
    · rw [lane_line, laneX_two]; norm_num [lane, abs_of_neg]
    · intro j hj
      rw [lane_line, lane_line]
      fin_cases j
      · change _ < |_ - laneX 0|
        rw [laneX_zero, laneX_two]; norm_num [abs_of_neg]
      · change _ < |_ - laneX 1|
        rw [laneX_one, laneX_two]; norm_num [abs_of_neg]
      · exact absurd rfl hj
  have hlab : laneExt.label !₂[-5 / 2, 0] = 2 := lane_label _ _ (hin 0).2
  have e := C54_own_partial (lane (-5 / 2)).graph ((lane (-5 / 2)).region 2) 2 !₂[-5 / 2, 0] 0.5 2.0
    (by norm_num) 0 rfl (by
      intro h
      have := congrArg (fun v : Vec 2 => v 0) h
      simp [lane, Learner.region, center] at this) (by
      change 0.5 * (‖(lane (-5 / 2)).centers 2 - (lane (-5 / 2)).centers 0‖ / 2)
        ≤ ⟪(1 / ‖(lane (-5 / 2)).centers 2 - (lane (-5 / 2)).centers 0‖)
          • ((lane (-5 / 2)).centers 2 - (lane (-5 / 2)).centers 0), _⟫
      rw [lane_centre, vec2_inner]
      simp [lane, Learner.region, center]
      norm_num)
  refine C110_attractor laneExt (lane (-5 / 2)) (lane_chain _) (lane_sane _) 2 !₂[-5 / 2, 0]
    (by rw [hlab]; exact hin _) _ (by rw [hlab]; exact e) ?_ (by rw [hlab]; exact sub_self _)
  intro j hj
  rw [hlab] at hj
  change (Pi.single (2 : Fin 3) (1 : ℝ) : Fin 3 → ℝ) j ≤ 0
  rw [Pi.single_eq_of_ne hj]

/-- `C110_surface_partial`: on the spherical surface of the middle region the motion, which locally runs along
the surface, is turned to the centre. -/
example : (lane (-5 / 4)).predict laneExt 2 !₂[0, 3 / 2] = .ok !₂[0, -1] := by
  have hnorm : ‖(!₂[-1, 0] : Vec 2)‖ = 1 := by rw [EuclideanSpace.norm_eq]; simp
  have hx0 : ∀ a, ‖!₂[0, 3 / 2] - (lane a).centers 0‖ = 3 / 2 := by
    intro a
    have := lane_sq a 0 (3 / 2) 0
    rw [laneX_zero] at this
    nlinarith [norm_nonneg (!₂[0, 3 / 2] - (lane a).centers 0)]
  have hxj : ∀ a, ∀ j, j ≠ 0 → ‖!₂[0, 3 / 2] - (lane a).centers j‖ = 5 / 2 := by
    intro a j hj
    have := lane_sq a 0 (3 / 2) j
    have h4 : (0 - laneX j) ^ 2 = 4 := by
      fin_cases j
      · exact absurd rfl hj
      · change (0 - laneX 1) ^ 2 = 4; norm_num
      · change (0 - laneX 2) ^ 2 = 4; norm_num
    rw [h4] at this
    nlinarith [norm_nonneg (!₂[0, 3 / 2] - (lane a).centers j)]
  have hlab : laneExt.label !₂[0, 3 / 2] = 0 := lane_label _ _ (by
    intro j hj
    rw [hx0, hxj 0 j hj]; norm_num)
  have hdir : !₂[0, 3 / 2] - (lane (-5 / 4)).centers 0 = (!₂[0, 3 / 2] : Vec 2) := by
    ext i; fin_cases i <;> simp [lane]
  have hup : unit (!₂[0, 3 / 2] : Vec 2) = !₂[0, 1] := by
    have := hx0 (-5 / 4)
    rw [hdir] at this
    unfold unit
    rw [this]
    ext i; fin_cases i <;> simp
  have h := C110_surface_partial laneExt (lane (-5 / 4)) (lane_chain _) (lane_sane _) one_pos (by norm_num)
    (fun s v r _ => ⟨_, rfl⟩) 2 0 !₂[0, 3 / 2] hlab ⟨by rw [hx0]; exact le_refl _, ?_⟩ ?_ ?_ ?_ ?_ ?_ ?_ ?_ ?_ ?_ ?_
    ?_
  · rw [h]
    change Except.ok (‖(!₂[-1, 0] : Vec 2)‖ • unit ((lane (-5 / 4)).centers 0 - !₂[0, 3 / 2])) = _
    rw [hnorm, one_smul, ← neg_unit, hdir, hup]
    congr 1
    ext i; fin_cases i <;> simp
  · intro j
    by_cases hj : j = 0
    · rw [hj]
    · rw [hx0, hxj _ j hj]; norm_num
  · rintro ⟨h, -⟩
    rw [hx0] at h
    norm_num [lane] at h
  · intro j hj
    have hj : [(2 : Fin 3)] = [j] := hj
    have : j ≠ 0 := by
      rintro rfl
      exact absurd hj (by decide)
    rw [hx0, hxj _ j this]; norm_num
  · intro j hj
    have hj : [(1 : Fin 3)] = [j] := hj
    have : j ≠ 0 := by
      rintro rfl
      exact absurd hj (by decide)
    rw [hx0, hxj _ j this]; norm_num
  · intro f
    exact List.cons_ne_nil _ _
  · have hr : ∀ j : Fin 3, j ≠ 0 → ((lane (-5 / 4)).region 0).Relevant j := by
      intro j hj
      refine ⟨hj, ?_⟩
      change ‖(lane (-5 / 4)).centers 0 - (lane (-5 / 4)).centers j‖ < 2 * (3 / 2)
      rw [lane_centre]
      fin_cases j
      · exact absurd rfl hj
      · change |laneX 0 - laneX 1| < _; norm_num
      · change |laneX 0 - laneX 2| < _; norm_num
    have h1 := mem_indRelevant.mpr (hr 1 (by decide))
    have h2 := mem_indRelevant.mpr (hr 2 (by decide))
    match hl : ((lane (-5 / 4)).region 0).indRelevant, h1, h2 with
    | [], h1, _ => simp at h1
    | [a], h1, h2 =>
      simp at h1 h2
      rw [← h1] at h2
      exact absurd h2 (by decide)
    | _ :: _ :: l, _, _ => simp
  · intro j hj
    rw [lane_centre]
    fin_cases j
    · exact absurd rfl hj
    · change _ ≤ |laneX 1 - laneX 0|; norm_num [lane]
    · change _ ≤ |laneX 2 - laneX 0|; norm_num [lane]
  · intro h
    have h : (!₂[-1, 0] : Vec 2) = 0 := h
    rw [h, norm_zero] at hnorm
    norm_num at hnorm
  · intro h
    have h : (!₂[-1, 0] : Vec 2) = 0 := h
    rw [h, norm_zero] at hnorm
    norm_num at hnorm
  · refine ⟨?_, Or.inl rfl⟩
    change ¬ Opposite (unit !₂[-1, 0]) (unit (!₂[-1, 0] : Vec 2))
    rw [left_unit]
    rintro ⟨c, hc, h⟩
    have := congrArg (fun v : Vec 2 => v 0) h
    simp at this
    linarith
  · change Neighbours (unit !₂[-1, 0]) _
    rw [left_unit, hdir, hup]
    refine Rotational.neighbours_of_coord 0 ?_ (by rw [vec2_inner]; simp) ?_
    · simp [isclose]; norm_num
    · intro h
      rw [h, norm_zero] at hnorm
      norm_num at hnorm
  · change ¬ Opposite (!₂[-1, 0] : Vec 2) _
    rintro ⟨c, hc, h⟩
    have := congrArg (fun v : Vec 2 => v 0) h
    simp [lane] at this
    linarith

/-- `C110_surface_fails`: a learner with a single cluster. -/
example : (⟨fun _ => 0, 1, ⟨[(0, 0)], []⟩, fun _ => ⟨fun x => -x, fun x => -x, fun x => -x⟩, fun x => -x⟩ :
      Learner 1 2).predict ⟨Rotational.planar, ⟨tangentMean, fun _ => []⟩, fun _ => 0⟩ 0 !₂[1, 0]
    = .error .indexError := by
  refine C110_surface_fails _ _ ⟨?_, fun i => Or.inl rfl, fun i => Or.inl rfl⟩ 0 !₂[1, 0] ⟨?_, ?_⟩ ?_ ?_
  · intro i
    exact ⟨one_pos, fun j hj => absurd (Subsingleton.elim j i) hj⟩
  · simp only [sub_zero]
    rw [Rotational.norm_e0]
  · intro j; exact le_refl _
  · rintro ⟨h, -⟩
    simp only [sub_zero] at h
    rw [Rotational.norm_e0] at h
    exact lt_irrefl _ h
  · intro j hj
    exact absurd (Subsingleton.elim j _) hj

/-- `C110_fitted`: the fit leads to the learner of these examples. -/
example : IsArgsort (averageSequence [((1 : Fin 3), (0 : ℝ)), (0, 1), (2, 2)]) [1, 0, 2]
    ∧ ∃ ds, fitHierarchy {} (lane (-5 / 4)).centers !₂[-5 / 4, 0] [1, 0, 2] = .ok ((lane (-5 / 4)).graph, ds)
      ∧ regionRadius (3 / 4) ds (lane (-5 / 4)).centers [!₂[0, 0]] = .ok (lane (-5 / 4)).radius := by
  have h0 : ‖(lane (-5 / 4)).centers 2 - !₂[-5 / 4, 0]‖ = 3 / 4 := by
    rw [norm_sub_rev, lane_line, laneX_two]; norm_num [abs_of_pos]
  have h1 : ‖(lane (-5 / 4)).centers 0 - (lane (-5 / 4)).centers 2‖ = 2 := by
    rw [lane_centre]; norm_num
  have h2 : ‖(lane (-5 / 4)).centers 1 - (lane (-5 / 4)).centers 0‖ = 2 := by
    rw [lane_centre]; norm_num
  refine ⟨⟨by decide, ?_⟩, [3 / 4 * 2.0, 2, 2], ?_, ?_⟩
  · simp [averageSequence]
  · unfold fitHierarchy
    simp only [List.reverse_cons, List.reverse_nil, List.nil_append, List.cons_append]
    rw [h0, if_neg (by norm_num)]
    simp only [hierarchyLoop, hierarchyStep]
    rw [h1, if_neg (by norm_num)]
    simp only [Graph.level, Graph.addNode, Graph.addEdge]
    have hg : (lane (-5 / 4)).graph = ⟨[(2, 0), (0, 1), (1, 2)], [(0, 2), (1, 0)]⟩ := rfl
    have h3 : (lane (-5 / 4)).centers 1 - (lane (-5 / 4)).centers 0 ≠ 0 := by
      intro h
      rw [h, norm_zero] at h2
      norm_num at h2
    rw [hg]
    simp [h2, h3]
  · unfold regionRadius
    have hm : npMax [(3 / 4 * 2.0 : ℝ), 2, 2] = .ok 2 := by
      unfold npMax
      simp [List.max?]
      norm_num
    have hf : farthestData (lane (-5 / 4)).centers [!₂[0, 0]] = .ok 0 := by
      unfold farthestData
      have e : (List.finRange 3).map (fun i => ‖(lane (-5 / 4)).centers i - !₂[0, 0]‖) = [0, 2, 2] := by
        change [‖(lane (-5 / 4)).centers 0 - !₂[0, 0]‖, ‖(lane (-5 / 4)).centers 1 - !₂[0, 0]‖,
          ‖(lane (-5 / 4)).centers 2 - !₂[0, 0]‖] = _
        rw [norm_sub_rev, lane_line, norm_sub_rev, lane_line, norm_sub_rev, lane_line]
        norm_num
      simp [e, npMax]
    rw [hm, hf]
    norm_num [lane]

end Verif.KMeans
