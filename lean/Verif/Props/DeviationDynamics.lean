import Verif.Model.LocalDynamics
import Verif.Props.LocalDynamics

/-!
# C90: `ObstacleRotatedDynamics`; C91: `nonlinear_deviation.py`
-/

open scoped RealInnerProductSpace
open Verif.Spec

namespace Verif.LocalDynamics

variable {d : ℕ} [h2 : Fact (2 ≤ d)]

/-! ### C90 -/

/-- **C90** A returned velocity is that of the initial dynamics, or it has the speed of the linear
dynamics. -/
theorem C90_speed (obs : List (ℝ × Vec d × Vec d)) (initial zero v : Vec d)
    (h : obstacleRotated true obs initial zero = .ok v) : v = initial ∨ ‖v‖ = ‖zero‖ := by
  classical
  unfold obstacleRotated at h
  simp only at h
  cases hw : rotatedWeights (obs.map (fun o => o.1)) with
  | none => rw [hw] at h; cases h
  | some ws =>
    rw [hw] at h
    simp only at h
    by_cases h0 : ‖(centerSums ws obs).1‖ = 0 ∨ ‖(centerSums ws obs).2‖ = 0
    · rw [if_pos h0, Except.ok.injEq] at h
      exact Or.inl h.symm
    · rw [if_neg h0] at h
      cases hr : fromDirections ((1 / ‖(centerSums ws obs).1‖) • (centerSums ws obs).1)
        ((1 / ‖(centerSums ws obs).2‖) • (centerSums ws obs).2) with
      | none => rw [hr] at h; cases h
      | some r =>
        rw [hr] at h
        simp only [Except.ok.injEq] at h
        obtain ⟨-, -, hon, -, -⟩ := fromDirections_some hr
        right
        rw [← h, C01_rotate_norm _ hon]

/-- **C90** Without obstacles the initial dynamics are followed. -/
theorem C90_no_obstacles (initial zero : Vec d) : obstacleRotated true [] initial zero = .ok initial := by
  classical
  unfold obstacleRotated rotatedWeights centerSums
  simp

/-- **C90** Outside of all obstacles the weights are not negative and sum at most to one. -/
theorem C90_weights_outside (gammas : List ℝ) (h : ∀ g ∈ gammas, 1 < g) :
    ∃ ws, rotatedWeights gammas = some ws ∧ ws.length = gammas.length ∧ (∀ w ∈ ws, 0 ≤ w)
      ∧ ws.sum ≤ 1 := by
  classical
  have hno : ¬ gammas.any (fun g => decide (g ≤ 1)) = true := by
    rw [List.any_eq_true]
    rintro ⟨g, hg, h1⟩
    rw [decide_eq_true_eq] at h1
    linarith [h g hg]
  have hpos : ∀ w ∈ gammas.map (fun g => 1 / (g - 1)), 0 ≤ w := by
    intro w hw
    obtain ⟨g, hg, rfl⟩ := List.mem_map.mp hw
    apply div_nonneg zero_le_one
    linarith [h g hg]
  unfold rotatedWeights
  rw [if_neg hno]
  by_cases hs : 1 ≤ (gammas.map (fun g => 1 / (g - 1))).sum
  · rw [if_pos hs]
    refine ⟨_, rfl, by simp, ?_, ?_⟩
    · intro w hw
      obtain ⟨g, hg, rfl⟩ := List.mem_map.mp hw
      exact div_nonneg (hpos _ (List.mem_map.mpr ⟨g, hg, rfl⟩)) (by linarith)
    · simp only [div_eq_mul_inv _ (List.sum _)]
      rw [List.sum_map_mul_right, mul_inv_cancel₀ (by linarith)]
  · rw [if_neg hs]
    exact ⟨_, rfl, by simp, hpos, (not_le.mp hs).le⟩

/-- **C90 (violated)** Without the update of the centre dynamics every call fails. -/
theorem C90_no_update (obs : List (ℝ × Vec d × Vec d)) (initial zero : Vec d) :
    obstacleRotated false obs initial zero = .error .unboundLocal := rfl

/-- **C90 (violated)** In an obstacle the weights are proportional to gamma: the obstacle that contains the
position has less weight than all those that do not. -/
theorem C90_weights_inside (gammas : List ℝ) (hpos : ∀ g ∈ gammas, 0 < g) (i j : ℕ) (gi gj : ℝ)
    (hi : gammas[i]? = some gi) (hj : gammas[j]? = some gj) (hin : gi ≤ 1) (hout : 1 < gj) :
    ∃ ws wi wj, rotatedWeights gammas = some ws ∧ ws[i]? = some wi ∧ ws[j]? = some wj ∧ wi < wj := by
  classical
  have hany : gammas.any (fun g => decide (g ≤ 1)) = true := by
    rw [List.any_eq_true]
    exact ⟨gi, List.mem_of_getElem? hi, by simpa using hin⟩
  have hsum : 0 < gammas.sum := by
    apply List.sum_pos _ hpos
    rintro rfl
    simp at hi
  unfold rotatedWeights
  rw [if_pos hany, if_neg hsum.ne']
  refine ⟨_, gi / gammas.sum, gj / gammas.sum, rfl, ?_, ?_, ?_⟩
  · rw [List.getElem?_map, hi]; rfl
  · rw [List.getElem?_map, hj]; rfl
  · exact div_lt_div_of_pos_right (by linarith) hsum

/-- **C90 (violated)** Far away from the obstacles the linear dynamics are followed, not the initial
dynamics: for one obstacle in whose centre both agree, at every distance. -/
theorem C90_far (gamma : ℝ) (hg : 1 < gamma) (c initial zero : Vec d) (hc : c ≠ 0) :
    obstacleRotated true [(gamma, c, c)] initial zero = .ok zero := by
  classical
  have hw : ∃ w : ℝ, 0 < w ∧ rotatedWeights [gamma] = some [w] := by
    unfold rotatedWeights
    rw [if_neg (by simpa using hg)]
    have hp : 0 < 1 / (gamma - 1) := by apply div_pos one_pos; linarith
    by_cases hs : 1 ≤ ([gamma].map (fun g => 1 / (g - 1))).sum
    · rw [if_pos hs]
      refine ⟨1 / (gamma - 1) / ([gamma].map (fun g => 1 / (g - 1))).sum, ?_, rfl⟩
      exact div_pos hp (by linarith)
    · rw [if_neg hs]
      exact ⟨1 / (gamma - 1), hp, rfl⟩
  obtain ⟨w, hw0, hw⟩ := hw
  unfold obstacleRotated
  simp only [List.map_cons, List.map_nil]
  rw [hw]
  simp only
  have hsum : centerSums [w] [(gamma, c, c)] = (w • c, w • c) := by
    unfold centerSums
    simp [show gamma ≠ 0 by linarith]
  rw [hsum]
  have hne : w • c ≠ 0 := smul_ne_zero hw0.ne' hc
  have hn : ‖w • c‖ ≠ 0 := norm_ne_zero_iff.mpr hne
  rw [if_neg (by simpa using ⟨hw0.ne', hc⟩)]
  have hu : unit (w • c) ≠ 0 := unit_ne_zero hne
  have hr := fromDirections_close hu hu (allclose_refl (unit (unit (w • c))))
  have hr' : fromDirections ((1 / ‖w • c‖) • w • c) ((1 / ‖w • c‖) • w • c)
      = some ⟨⟨unit (unit (w • c)), parallelPerp (unit (unit (w • c)))⟩,
        InnerProductGeometry.angle (unit (w • c)) (unit (w • c))⟩ := hr
  simp only
  rw [hr']
  simp only [Rot.rotate, rotateDirection_eq, InnerProductGeometry.angle_self hu, mul_zero,
    planeRot_zero]

/-! ### C91 -/

/-- **C91** A limited deviation is at most as long as the limit, a non-negative multiple of the predicted
deviation, and the predicted deviation itself if that was within the limit. -/
theorem C91_clamp {n : ℕ} (limit : ℝ) (hl : 0 ≤ limit) (a : Vec n) :
    ‖clampDeviation limit a‖ ≤ limit ∧ (∃ c : ℝ, 0 ≤ c ∧ clampDeviation limit a = c • a)
      ∧ (‖a‖ ≤ limit → clampDeviation limit a = a) := by
  classical
  unfold clampDeviation
  by_cases h : ‖a‖ > limit
  · rw [if_pos h]
    have hp : 0 < ‖a‖ := lt_of_le_of_lt hl h
    refine ⟨?_, ⟨limit * (1 / ‖a‖), by positivity, by rw [smul_smul]⟩, fun h' => absurd h' (not_le.mpr h)⟩
    rw [norm_smul, norm_smul, Real.norm_of_nonneg hl, Real.norm_of_nonneg (by positivity),
      one_div_mul_cancel hp.ne', mul_one]
  · rw [if_neg h]
    exact ⟨not_lt.mp h, ⟨1, zero_le_one, (one_smul _ _).symm⟩, fun _ => rfl⟩

omit h2 in
/-- **C91** Whatever the regressor predicts, the velocity has the speed of the reference velocity and makes
progress along it.  `hinv` is the contract of `get_angle_space_inverse`: a unit vector at the given angle
from the reference direction. -/
theorem C91_constant_flow {n : ℕ} (reference : Vec d) (href : reference ≠ 0) (inverse : Vec n → Vec d)
    (hinv : ∀ a, ‖a‖ ≤ Real.pi →
      ‖inverse a‖ = 1 ∧ InnerProductGeometry.angle reference (inverse a) = ‖a‖)
    (predict : Vec d → Vec n) (position : Vec d) :
    ‖constantFlow reference inverse predict position‖ = ‖reference‖
      ∧ 0 < ⟪constantFlow reference inverse predict position, reference⟫ := by
  have hpi := Real.pi_pos
  obtain ⟨h1, -, -⟩ := C91_clamp (0.99 * Real.pi / 2) (by positivity) (predict position)
  set a := clampDeviation (0.99 * Real.pi / 2) (predict position) with ha
  obtain ⟨h3, h4⟩ := hinv a (by linarith)
  have hn : 0 < ‖reference‖ := norm_pos_iff.mpr href
  have hv : constantFlow reference inverse predict position = ‖reference‖ • inverse a := rfl
  rw [hv]
  constructor
  · rw [norm_smul, norm_norm, h3, mul_one]
  · have hcos : ⟪reference, inverse a⟫ = Real.cos ‖a‖ * ‖reference‖ := by
      rw [← h4, InnerProductGeometry.cos_angle, h3]
      field_simp
    rw [inner_smul_left, real_inner_comm, hcos]
    simp only [conj_trivial]
    have : 0 < Real.cos ‖a‖ := by
      apply Real.cos_pos_of_mem_Ioo
      constructor
      · have := norm_nonneg a; linarith
      · linarith
    positivity

/-- **C91** The checks of `fit` accept exactly consistent data. -/
theorem C91_fit_checks (dimension samplesX samplesY outputs : ℕ) :
    fitChecks dimension samplesX samplesY outputs = .ok () ↔
      samplesY = samplesX ∧ (outputs : ℤ) + 1 = dimension := by
  unfold fitChecks
  by_cases h1 : samplesY = samplesX
  · by_cases h2 : (outputs : ℤ) = dimension - 1
    · rw [if_neg (by simpa using h1), if_neg (by simpa using h2)]
      simp [h1, h2]
    · rw [if_neg (by simpa using h1), if_pos h2]
      simp only [reduceCtorEq, false_iff, not_and]
      intro _ h
      exact h2 (by omega)
  · rw [if_pos h1]
    simp [h1]

omit h2 in
/-- **C91** The weights of the axes are not negative and sum to one away from the attractor. -/
theorem C91_axis_weights (relative : Vec d) (h : relative ≠ 0) :
    (∀ i, 0 ≤ axisWeights relative i) ∧ ∑ i, axisWeights relative i = 1 := by
  have hnn : 0 ≤ ∑ j, |relative j| := Finset.sum_nonneg (fun _ _ => abs_nonneg _)
  have hne : ∑ j, |relative j| ≠ 0 := by
    intro h0
    apply h
    rw [Finset.sum_eq_zero_iff_of_nonneg (fun _ _ => abs_nonneg _)] at h0
    ext i
    simpa using h0 i (Finset.mem_univ _)
  constructor
  · intro i; exact div_nonneg (abs_nonneg _) hnn
  · unfold axisWeights
    rw [← Finset.sum_div, div_self hne]

omit h2 in
/-- **C91** The speed of `PerpendicularDeviatoinOfLinearDS` is the distance to the attractor, at most one;
`hmean`: the directional mean of unit vectors is a unit vector. -/
theorem C91_speed {n : ℕ} (attractor : Vec d) (predict : Fin d → Bool → Vec d → Vec n)
    (inverse : Fin d → Bool → Vec n → Vec d)
    (mean : Vec d → (Fin d → Vec d) → (Fin d → ℝ) → Vec d)
    (hinv : ∀ i s a, ‖a‖ ≤ Real.pi → ‖inverse i s a‖ = 1)
    (hmean : ∀ null dirs ws, ‖null‖ = 1 → (∀ i, ‖dirs i‖ = 1) → (∀ i, 0 ≤ ws i) → ∑ i, ws i = 1 →
      ‖mean null dirs ws‖ = 1)
    (position : Vec d) :
    ‖perpendicular attractor predict inverse mean position‖ = min 1 ‖position - attractor‖ := by
  classical
  have hpi := Real.pi_pos
  unfold perpendicular
  simp only
  by_cases h0 : ‖position - attractor‖ = 0
  · rw [if_pos h0, norm_zero, h0, min_eq_right zero_le_one]
  · rw [if_neg h0]
    have hne : position - attractor ≠ 0 := norm_ne_zero_iff.mp h0
    obtain ⟨w0, w1⟩ := C91_axis_weights _ hne
    rw [norm_smul, hmean _ _ _ ?_ ?_ w0 w1]
    · unfold velocityFactor
      rw [div_one, mul_one, mul_one, Real.norm_of_nonneg (le_min zero_le_one (norm_nonneg _))]
    · rw [norm_smul, norm_neg, norm_one, one_mul]
      exact unit_norm hne
    · intro i
      apply hinv
      have := (C91_clamp (Real.pi * 0.49) (by positivity)
        (predict i (decide (¬ (position - attractor) i < 0)) (position - attractor))).1
      linarith

/-- **C91 (violated)** `evaluate_convergence_velocity` has no limited speed. -/
theorem C91_convergence_speed (attractor : Vec d) (M : ℝ) :
    ∃ position, M < ‖convergenceVelocity attractor position‖ := by
  refine ⟨attractor - (|M| + 1) • EuclideanSpace.single i0 1, ?_⟩
  unfold convergenceVelocity
  rw [sub_sub_cancel, norm_smul, PiLp.norm_single, norm_one, mul_one,
    Real.norm_of_nonneg (by positivity)]
  have := le_abs_self M
  linarith

/-- **C91 (violated)** `fit_from_velocities` fails in every space which is not a plane. -/
theorem C91_fit_dimension (dimension : ℕ) (h0 : 0 < dimension) :
    (dimension = 2 → fitAccesses dimension = .ok ())
      ∧ (dimension ≠ 2 → fitAccesses dimension = .error .indexError) := by
  constructor
  · rintro rfl; rfl
  · intro h
    rcases Nat.lt_or_ge dimension 2 with h1 | h1
    · have : dimension = 1 := by omega
      subst this; rfl
    · obtain ⟨k, rfl⟩ : ∃ k, dimension = k + 3 := ⟨dimension - 3, by omega⟩
      have hr : List.range (k + 3) = 0 :: 1 :: 2 :: (List.range k).map (fun i => i + 3) := by
        rw [List.range_succ_eq_map, List.range_succ_eq_map, List.range_succ_eq_map]
        simp [Function.comp_def]
      unfold fitAccesses
      rw [hr]
      have h00 : nullMatrixAccess (k + 3) 0 0 = .ok () := by
        unfold nullMatrixAccess; rw [if_pos (by omega)]
      have h01 : nullMatrixAccess (k + 3) 0 1 = .ok () := by
        unfold nullMatrixAccess; rw [if_pos (by omega)]
      have h10 : nullMatrixAccess (k + 3) 1 0 = .ok () := by
        unfold nullMatrixAccess; rw [if_pos (by omega)]
      have h11 : nullMatrixAccess (k + 3) 1 1 = .ok () := by
        unfold nullMatrixAccess; rw [if_pos (by omega)]
      have h20 : nullMatrixAccess (k + 3) 2 0 = .error .indexError := by
        unfold nullMatrixAccess; rw [if_neg (by omega)]
      simp only [List.forM_eq_forM, List.forM_cons, h00, h01, h10, h11, h20]
      rfl

/-- A rotation of the plane. -/
noncomputable def turn (θ : ℝ) (v : Vec 2) : Vec 2 :=
  !₂[Real.cos θ * v 0 - Real.sin θ * v 1, Real.sin θ * v 0 + Real.cos θ * v 1]

lemma turn_turn (α β : ℝ) (v : Vec 2) : turn α (turn β v) = turn (α + β) v := by
  ext i
  fin_cases i <;> simp [turn, Real.cos_add, Real.sin_add] <;> ring

/-- The axis of a regressor: towards the attractor. -/
noncomputable def axis (i : Fin 2) (s : Bool) : Vec 2 := EuclideanSpace.single i (if s then -1 else 1)

/-- **C91 (violated)** The limit on the deviation of the single axes does not make the mean converge: for
some regressors the velocity leads away from the attractor.  `hinv`, `hmean`: the angle space of the
plane, in which directions are signed angles. -/
theorem C91_diverges (inverse : Fin 2 → Bool → Vec 1 → Vec 2)
    (mean : Vec 2 → (Fin 2 → Vec 2) → (Fin 2 → ℝ) → Vec 2)
    (hinv : ∀ i s a, |a 0| ≤ Real.pi → inverse i s a = turn (a 0) (axis i s))
    (hmean : ∀ (null : Vec 2) (ang ws : Fin 2 → ℝ), (∀ i, |ang i| < Real.pi) → (∀ i, 0 ≤ ws i) →
      ∑ i, ws i = 1 → mean null (fun i => turn (ang i) null) ws = turn (∑ i, ws i * ang i) null) :
    ∃ (predict : Fin 2 → Bool → Vec 2 → Vec 1) (position : Vec 2),
      ⟪perpendicular (0 : Vec 2) predict inverse mean position, (0 : Vec 2) - position⟫ < 0 := by
  classical
  have hpi := Real.pi_pos
  have h3 : Real.sqrt 3 ^ 2 = 3 := Real.sq_sqrt (by norm_num)
  have h3p : 0 < Real.sqrt 3 := Real.sqrt_pos.mpr (by norm_num)
  set pos : Vec 2 := !₂[Real.sqrt 3 / 2, 1 / 2] with hpos
  have hnorm : ‖pos‖ = 1 := by
    rw [EuclideanSpace.norm_eq, Real.sqrt_eq_one]
    simp [hpos, Fin.sum_univ_two]
    rw [div_pow, h3]; norm_num
  set pred : Fin 2 → Bool → Vec 2 → Vec 1 :=
    fun _ _ _ => EuclideanSpace.single 0 (Real.pi * 0.49) with hpred
  refine ⟨pred, pos, ?_⟩
  set Θ := Real.pi * 0.49 + (Real.sqrt 3 * (-(Real.pi / 6)) + Real.pi / 3) / (Real.sqrt 3 + 1) with hΘ
  have hw : axisWeights pos = ![Real.sqrt 3 / (Real.sqrt 3 + 1), 1 / (Real.sqrt 3 + 1)] := by
    funext i
    unfold axisWeights
    have e0 : pos 0 = Real.sqrt 3 / 2 := rfl
    have e1 : pos 1 = 1 / 2 := rfl
    rw [Fin.sum_univ_two, e0, e1, abs_of_pos (by positivity : 0 < Real.sqrt 3 / 2),
      abs_of_pos (by norm_num : (0 : ℝ) < 1 / 2)]
    fin_cases i
    · simp only [Fin.zero_eta, e0, abs_of_pos (by positivity : 0 < Real.sqrt 3 / 2)]
      simp
      field_simp
    · simp only [Fin.mk_one, e1, abs_of_pos (by norm_num : (0 : ℝ) < 1 / 2)]
      simp
      field_simp
  have hdirs : ∀ i, turn (Real.pi * 0.49) (axis i true)
      = turn (![Real.pi * 0.49 + -(Real.pi / 6), Real.pi * 0.49 + Real.pi / 3] i) (-pos) := by
    intro i
    fin_cases i
    · change turn (Real.pi * 0.49) (axis 0 true) = turn (Real.pi * 0.49 + -(Real.pi / 6)) (-pos)
      rw [← turn_turn]
      congr 1
      ext j
      fin_cases j
      · simp [turn, axis, hpos, Real.cos_neg, Real.sin_neg]
        nlinarith [h3]
      · simp [turn, axis, hpos, Real.cos_neg, Real.sin_neg]
        ring
    · change turn (Real.pi * 0.49) (axis 1 true) = turn (Real.pi * 0.49 + Real.pi / 3) (-pos)
      rw [← turn_turn]
      congr 1
      ext j
      fin_cases j
      · simp [turn, axis, hpos]
        ring
      · simp [turn, axis, hpos]
        nlinarith [h3]
  have hres : perpendicular (0 : Vec 2) pred inverse mean pos = turn Θ (-pos) := by
    unfold perpendicular
    simp only [sub_zero]
    rw [if_neg (by rw [hnorm]; norm_num), hnorm]
    have hdec : ∀ i, decide (¬ pos i < 0) = true := by
      intro i
      rw [decide_eq_true_eq, not_lt]
      fin_cases i
      · exact (by positivity : 0 ≤ Real.sqrt 3 / 2)
      · exact (by norm_num : (0 : ℝ) ≤ 1 / 2)
    have hcl : ∀ i s, clampDeviation (Real.pi * 0.49) (pred i s pos)
        = EuclideanSpace.single 0 (Real.pi * 0.49) := by
      intro i s
      apply (C91_clamp (Real.pi * 0.49) (by positivity) _).2.2
      simp only [hpred, PiLp.norm_single]
      rw [Real.norm_of_nonneg (by positivity)]
    simp only [hdec, hcl]
    have hfun : (fun i => inverse i true (EuclideanSpace.single 0 (Real.pi * 0.49)))
        = fun i => turn (![Real.pi * 0.49 + -(Real.pi / 6), Real.pi * 0.49 + Real.pi / 3] i) (-pos) := by
      funext i
      rw [hinv i true _ (by
        simp only [PiLp.single_apply, if_true]
        rw [abs_of_nonneg (by positivity)]; linarith)]
      simp only [PiLp.single_apply, if_true]
      exact hdirs i
    rw [hfun]
    have hnull : (-1 : ℝ) • ((1 / 1 : ℝ) • pos) = -pos := by simp
    rw [hnull, hmean]
    · rw [hw, Fin.sum_univ_two]
      unfold velocityFactor
      simp only [Matrix.cons_val_zero, Matrix.cons_val_one, div_one, min_self, mul_one, one_smul]
      congr 1
      rw [hΘ]
      field_simp
      ring
    · intro i
      fin_cases i
      · change |Real.pi * 0.49 + -(Real.pi / 6)| < Real.pi
        rw [abs_of_nonneg (by linarith)]; linarith
      · change |Real.pi * 0.49 + Real.pi / 3| < Real.pi
        rw [abs_of_nonneg (by linarith)]; linarith
    · exact (C91_axis_weights pos (by rw [← norm_ne_zero_iff, hnorm]; norm_num)).1
    · exact (C91_axis_weights pos (by rw [← norm_ne_zero_iff, hnorm]; norm_num)).2
  rw [hres]
  have hin : ⟪turn Θ (-pos), (0 : Vec 2) - pos⟫ = Real.cos Θ := by
    simp [turn, hpos, PiLp.inner_apply, Fin.sum_univ_two]
    linear_combination (Real.cos Θ / 4) * h3
  rw [hin]
  have hlt : Real.sqrt 3 < 1.74 := by
    rw [Real.sqrt_lt' (by norm_num)]; norm_num
  have hfrac : (Real.sqrt 3 * (-(Real.pi / 6)) + Real.pi / 3) / (Real.sqrt 3 + 1)
      = Real.pi * ((2 - Real.sqrt 3) / (6 * (Real.sqrt 3 + 1))) := by
    field_simp
    ring
  have hq1 : 0.01 < (2 - Real.sqrt 3) / (6 * (Real.sqrt 3 + 1)) := by
    rw [lt_div_iff₀ (by positivity)]
    linarith
  have hq2 : (2 - Real.sqrt 3) / (6 * (Real.sqrt 3 + 1)) < 1 := by
    rw [div_lt_one (by positivity)]
    linarith
  apply Real.cos_neg_of_pi_div_two_lt_of_lt
  · rw [hΘ, hfrac]; nlinarith
  · rw [hΘ, hfrac]; nlinarith

/-- The hypotheses of `C90_weights_inside` and `C90_weights_outside` are met. -/
example : (∀ g ∈ [(1 / 2 : ℝ), 10], 0 < g) ∧ (∀ g ∈ [(3 / 2 : ℝ), 10], 1 < g) := by
  norm_num

lemma turn_inner (θ : ℝ) (v : Vec 2) : ⟪v, turn θ v⟫ = Real.cos θ * ‖v‖ ^ 2 := by
  rw [EuclideanSpace.norm_sq_eq]
  simp [turn, PiLp.inner_apply, Fin.sum_univ_two]
  ring

lemma turn_norm (θ : ℝ) (v : Vec 2) : ‖turn θ v‖ = ‖v‖ := by
  rw [← sq_eq_sq₀ (norm_nonneg _) (norm_nonneg _), EuclideanSpace.norm_sq_eq,
    EuclideanSpace.norm_sq_eq]
  simp only [turn, Fin.sum_univ_two, Real.norm_eq_abs, sq_abs]
  simp
  linear_combination (v 0 ^ 2 + v 1 ^ 2) * Real.sin_sq_add_cos_sq θ

/-- The contract of `C91_constant_flow` is met by the rotation of the plane. -/
example (reference : Vec 2) (href : reference ≠ 0) (a : Vec 1) (ha : ‖a‖ ≤ Real.pi) :
    ‖turn (a 0) (unit reference)‖ = 1
      ∧ InnerProductGeometry.angle reference (turn (a 0) (unit reference)) = ‖a‖ := by
  have hn : ‖a‖ = |a 0| := by
    rw [EuclideanSpace.norm_eq]; simp [Real.sqrt_sq_eq_abs]
  have h1 := unit_norm href
  have hp : 0 < ‖reference‖ := norm_pos_iff.mpr href
  refine ⟨by rw [turn_norm, h1], ?_⟩
  have hsm : reference = ‖reference‖ • unit reference := by
    unfold unit; rw [smul_smul, mul_one_div_cancel hp.ne', one_smul]
  have hin : ⟪reference, turn (a 0) (unit reference)⟫ = ‖reference‖ * Real.cos (a 0) := by
    conv_lhs => rw [hsm]
    rw [inner_smul_left]
    simp only [conj_trivial]
    have hu : unit (‖reference‖ • unit reference) = unit reference := by rw [← hsm]
    rw [hu, turn_inner, h1]; ring
  unfold InnerProductGeometry.angle
  rw [turn_norm, h1, hin, mul_one, mul_div_cancel_left₀ _ hp.ne', ← Real.cos_abs, ← hn,
    Real.arccos_cos (norm_nonneg _) ha]

/-- The contract of `C91_diverges` is met: signed angles in `(-π, π)` are determined by the direction. -/
example : ∃ mean : Vec 2 → (Fin 2 → Vec 2) → (Fin 2 → ℝ) → Vec 2,
    ∀ (null : Vec 2) (ang ws : Fin 2 → ℝ), (∀ i, |ang i| < Real.pi) → (∀ i, 0 ≤ ws i) →
      ∑ i, ws i = 1 → mean null (fun i => turn (ang i) null) ws = turn (∑ i, ws i * ang i) null := by
  classical
  let P : Vec 2 → (Fin 2 → Vec 2) → (Fin 2 → ℝ) → Prop := fun null dirs ang =>
    (∀ i, |ang i| < Real.pi) ∧ dirs = fun i => turn (ang i) null
  refine ⟨fun null dirs ws => if h : ∃ ang, P null dirs ang then
    turn (∑ i, ws i * h.choose i) null else 0, ?_⟩
  intro null ang ws hang _ _
  have hex : ∃ ang', P null (fun i => turn (ang i) null) ang' := ⟨ang, hang, rfl⟩
  simp only [dif_pos hex]
  obtain ⟨h1, h2⟩ := hex.choose_spec
  by_cases hn : null = 0
  · have h0 : ∀ θ, turn θ null = 0 := by
      intro θ; rw [hn]; ext i; fin_cases i <;> simp [turn]
    rw [h0, h0]
  · have : hex.choose = ang := by
      funext i
      have he : turn (ang i) null = turn (hex.choose i) null := congrFun h2 i
      have he2 : turn (-(ang i)) (turn (ang i) null) = turn (-(ang i)) (turn (hex.choose i) null) := by
        rw [he]
      rw [turn_turn, turn_turn] at he2
      have he3 := congrArg (fun w => ⟪null, w⟫) he2
      simp only [turn_inner] at he3
      rw [neg_add_cancel, Real.cos_zero] at he3
      have hp : ‖null‖ ^ 2 ≠ 0 := pow_ne_zero _ (norm_ne_zero_iff.mpr hn)
      have hc := mul_right_cancel₀ hp he3
      have a1 := abs_lt.mp (hang i)
      have a2 := abs_lt.mp (h1 i)
      have := (Real.cos_eq_one_iff_of_lt_of_lt (by linarith) (by linarith)).mp hc.symm
      linarith
    rw [this]

end Verif.LocalDynamics
