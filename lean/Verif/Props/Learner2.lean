import Verif.Props.Learner

/-!
# C106, C107: integration and learned dynamics
-/

namespace Verif.Learner

open Verif.Spec

variable {d : ℕ}

/-! ## C106: integration -/

lemma half_eq : (0.5 : ℝ) = 1 / 2 := by norm_num

lemma sixth_eq : (1.0 / 6 : ℝ) = 1 / 6 := by norm_num

/-- C106: a Runge-Kutta step of a linear system is the Taylor polynomial of degree four of its solution. -/
theorem C106_linear (A : Vec d →ₗ[ℝ] Vec d) (dt kf : ℝ) (x : Vec d) :
    rk4 dt x A kf = ∑ j ∈ Finset.range 5, ((dt * kf) ^ j / (j.factorial : ℝ)) • (A ^ j) x := by
  unfold rk4
  simp only [half_eq, sixth_eq, map_add, map_smul, Finset.sum_range_succ, Finset.sum_range_zero, pow_succ, pow_zero,
    Module.End.mul_apply, Module.End.one_apply, Nat.factorial, smul_add, smul_smul]
  push_cast
  module

/-- C106: it is exact for a constant velocity. -/
theorem C106_constant (dt kf : ℝ) (x v : Vec d) : rk4 dt x (fun _ => v) kf = x + (dt * kf) • v := by
  unfold rk4
  simp only [half_eq, sixth_eq, smul_smul]
  module

/-- C106: a position without velocity is kept. -/
theorem C106_rest (dt kf : ℝ) (ds : Vec d → Vec d) (x : Vec d) (h : ds x = 0) : rk4 dt x ds kf = x := by
  unfold rk4
  simp [h]

/-- C106: the factor of the velocity acts like a factor of the time step. -/
theorem C106_factor (dt kf : ℝ) (ds : Vec d → Vec d) (x : Vec d) : rk4 dt x ds kf = rk4 (dt * kf) x ds 1 := by
  unfold rk4
  simp only [smul_smul, mul_one]

/-- C106: the step with fixed velocity is the step of the system with this velocity, and the second result is the
way. -/
theorem C106_position_velocity (dt kf : ℝ) (ds : Vec d → Vec d → Vec d) (pos vel : Vec d) :
    (rk4PosVel dt pos vel ds kf).1 = rk4 dt pos (fun x => ds x vel) kf
    ∧ (rk4PosVel dt pos vel ds kf).1 = pos + (rk4PosVel dt pos vel ds kf).2 := ⟨rfl, rfl⟩

/-- The factor of a step towards a linear attractor. -/
noncomputable def contraction (h : ℝ) : ℝ := 1 - h + h ^ 2 / 2 - h ^ 3 / 6 + h ^ 4 / 24

lemma rk4_attractor (dt : ℝ) (a x : Vec d) : rk4 dt x (fun y => a - y) 1 - a = contraction dt • (x - a) := by
  unfold rk4 contraction
  simp only [half_eq, sixth_eq, smul_smul]
  module

lemma contraction_bounds {h : ℝ} (h0 : 0 < h) (h2 : h ≤ 2) : 0 < contraction h ∧ contraction h < 1 := by
  unfold contraction
  constructor
  · nlinarith [sq_nonneg (h ^ 2 - 2 * h), sq_nonneg (h - 1), sq_nonneg (h ^ 2 - 3 * h), sq_nonneg (h ^ 2 - 2),
      sq_nonneg h]
  · have : -1 + h / 2 - h ^ 2 / 6 + h ^ 3 / 24 < 0 := by
      nlinarith [mul_nonneg (sq_nonneg h) (sub_nonneg.mpr h2), sq_nonneg h]
    nlinarith

/-- C106: towards a linear attractor a step of at most two reduces the distance by a factor that differs from the
exact one by at most a hundredth of the fifth power of the step (steps up to one). -/
theorem C106_contraction (dt : ℝ) (h0 : 0 < dt) (h2 : dt ≤ 2) (a x : Vec d) (hx : x ≠ a) :
    ‖rk4 dt x (fun y => a - y) 1 - a‖ < ‖x - a‖
    ∧ (dt ≤ 1 → ‖(rk4 dt x (fun y => a - y) 1 - a) - Real.exp (-dt) • (x - a)‖ ≤ dt ^ 5 / 100 * ‖x - a‖) := by
  have hpos : 0 < ‖x - a‖ := norm_pos_iff.mpr (sub_ne_zero.mpr hx)
  obtain ⟨c0, c1⟩ := contraction_bounds h0 h2
  rw [rk4_attractor]
  constructor
  · rw [norm_smul, Real.norm_of_nonneg c0.le]
    nlinarith
  · intro h1
    rw [← sub_smul, norm_smul]
    gcongr
    have hb := Real.exp_bound (x := -dt) (by rw [abs_neg, abs_of_pos h0]; exact h1) (n := 5) (by norm_num)
    rw [abs_neg, abs_of_pos h0] at hb
    have e : ∑ j ∈ Finset.range 5, (-dt) ^ j / (j.factorial : ℝ) = contraction dt := by
      unfold contraction
      simp only [Finset.sum_range_succ, Finset.sum_range_zero, Nat.factorial]
      push_cast
      ring
    rw [e] at hb
    rw [Real.norm_eq_abs, abs_sub_comm]
    refine hb.trans (le_of_eq ?_)
    simp only [Nat.factorial]
    push_cast
    ring

/-- C106: the limited magnitudes of an array of vectors.

Missing: single vectors (`C106_magnitude_vector`). -/
theorem C106_magnitude_partial (xs : List (Vec d)) (k maxMag : ℝ) :
    magLinearMaximum (.matrix xs) k maxMag = .ok (xs.map fun x => min (k * ‖x‖) maxMag) := by
  unfold magLinearMaximum
  simp only [Columns.norms, List.map_map]
  cases xs with
  | nil => rfl
  | cons x xs =>
    change Except.ok _ = _
    congr 1
    apply List.map_congr_left
    intro x _
    simp only [Function.comp_apply]
    by_cases h : ‖x‖ * k > maxMag
    · rw [if_pos h, min_eq_right (by linarith)]
    · rw [if_neg h, min_eq_left (by linarith), mul_comm]

/-- C106, violated by the code: for a single vector `mag_linear_maximum` raises. -/
theorem C106_magnitude_vector (x : Vec d) (k maxMag : ℝ) :
    magLinearMaximum (.vector x) k maxMag = .error .indexError := rfl

/-- The `j`-th Runge-Kutta step from a position. -/
noncomputable def steps (dt : ℝ) (ds : Vec d → Vec d) (x : Vec d) (j : ℕ) : Vec d :=
  (fun y => rk4 dt y ds 1)^[j] x

lemma steps_succ (dt : ℝ) (ds : Vec d → Vec d) (x : Vec d) (j : ℕ) :
    steps dt ds x (j + 1) = steps dt ds (rk4 dt x ds 1) j := rfl

lemma integrateFrom_get (dt margin : ℝ) (ds : Vec d → Vec d) (fuel : ℕ) : ∀ (x : Vec d),
    (integrateFrom dt margin ds x fuel).length = fuel
    ∧ ∀ j, j < fuel →
      ((∀ i, 1 ≤ i → i ≤ j → margin ≤ ‖steps dt ds x i‖) →
        (integrateFrom dt margin ds x fuel)[j]? = some (steps dt ds x (j + 1)))
      ∧ ((∃ i, 1 ≤ i ∧ i ≤ j ∧ ‖steps dt ds x i‖ < margin) →
        (integrateFrom dt margin ds x fuel)[j]? = some 0) := by
  classical
  induction fuel with
  | zero => intro x; exact ⟨rfl, fun j hj => absurd hj (Nat.not_lt_zero j)⟩
  | succ fuel ih =>
    intro x
    have h1 : steps dt ds x 1 = rk4 dt x ds 1 := rfl
    unfold integrateFrom
    simp only
    by_cases h : ‖rk4 dt x ds 1‖ < margin
    · rw [if_pos h]
      refine ⟨by simp, ?_⟩
      intro j hj
      cases j with
      | zero =>
        refine ⟨fun _ => rfl, ?_⟩
        rintro ⟨i, h2, h3, -⟩
        omega
      | succ j =>
        refine ⟨?_, ?_⟩
        · intro h'
          have := h' 1 le_rfl (by omega)
          rw [h1] at this
          linarith
        · intro _
          rw [List.getElem?_cons_succ, List.getElem?_replicate, if_pos (by omega)]
    · rw [if_neg h]
      obtain ⟨hl, hi⟩ := ih (rk4 dt x ds 1)
      refine ⟨by simp [hl], ?_⟩
      intro j hj
      cases j with
      | zero =>
        refine ⟨fun _ => rfl, ?_⟩
        rintro ⟨i, h2, h3, -⟩
        omega
      | succ j =>
        obtain ⟨a, b⟩ := hi j (by omega)
        rw [List.getElem?_cons_succ]
        refine ⟨?_, ?_⟩
        · intro h'
          exact a fun i h2 h3 => h' (i + 1) (by omega) (by omega)
        · rintro ⟨i, h2, h3, h4⟩
          apply b
          cases i with
          | zero => omega
          | succ i =>
            cases i with
            | zero => rw [h1] at h4; exact absurd h4 h
            | succ i => exact ⟨i + 1, by omega, by omega, h4⟩

/-- C106 (partial): without `starting_points` there is one trajectory per recording: it has the given number of
positions, starts at the first recorded position, and each position is one Runge-Kutta step after the one before, up
to and with the first position that is closer to the origin than the margin; the rest is zero.

Missing: given starting points (`C106_start_ignored`). -/
theorem C106_trajectory_partial (nSteps : ℕ) (hn : 1 ≤ nSteps) (dt margin : ℝ) (ds : Vec d → Vec d)
    (recorded : List (Vec d)) :
    List.Forall₂ (fun x t => t.length = nSteps ∧ ∀ j, j < nSteps →
        ((∀ i, 1 ≤ i → i < j → margin ≤ ‖steps dt ds x i‖) → t[j]? = some (steps dt ds x j))
        ∧ ((∃ i, 1 ≤ i ∧ i < j ∧ ‖steps dt ds x i‖ < margin) → t[j]? = some 0))
      recorded (integrateTrajectory nSteps dt margin ds recorded none) := by
  unfold integrateTrajectory
  simp only
  rw [List.forall₂_map_right_iff, List.forall₂_same]
  intro x _
  obtain ⟨hl, hi⟩ := integrateFrom_get dt margin ds (nSteps - 1) x
  refine ⟨by simp [hl]; omega, ?_⟩
  intro j hj
  cases j with
  | zero =>
    refine ⟨fun _ => rfl, ?_⟩
    rintro ⟨i, h1, h2, -⟩
    omega
  | succ j =>
    obtain ⟨a, b⟩ := hi j (by omega)
    rw [List.getElem?_cons_succ]
    refine ⟨fun h => a fun i h1 h2 => h i h1 (by omega), ?_⟩
    rintro ⟨i, h1, h2, h3⟩
    exact b ⟨i, h1, by omega, h3⟩

/-- C106: the trajectories of the linear system with its attractor in the origin reach every margin. -/
theorem C106_converges (dt : ℝ) (h0 : 0 < dt) (h2 : dt ≤ 2) (margin : ℝ) (hm : 0 < margin) (x : Vec d) :
    ∃ j0, ∀ nSteps, j0 < nSteps → ∃ t, integrateTrajectory nSteps dt margin (fun y => 0 - y) [x] none = [t]
      ∧ ∃ p ∈ t, ‖p‖ < margin := by
  obtain ⟨c0, c1⟩ := contraction_bounds h0 h2
  have hstep : ∀ j, ‖steps dt (fun y => 0 - y) x j‖ = contraction dt ^ j * ‖x‖ := by
    intro j
    unfold steps
    induction j with
    | zero => simp
    | succ j ih =>
      rw [Function.iterate_succ_apply']
      have := rk4_attractor dt 0 ((fun y => rk4 dt y (fun y => 0 - y) 1)^[j] x)
      rw [sub_zero, sub_zero] at this
      rw [this, norm_smul, Real.norm_of_nonneg c0.le, ih]
      ring
  have hlim : Filter.Tendsto (fun j : ℕ => contraction dt ^ j * ‖x‖) Filter.atTop (nhds 0) := by
    have := (tendsto_pow_atTop_nhds_zero_of_lt_one c0.le c1).mul_const ‖x‖
    simpa using this
  obtain ⟨j0, hj0⟩ := (hlim.eventually (gt_mem_nhds hm)).exists
  refine ⟨j0, fun nSteps hn => ?_⟩
  have hf := C106_trajectory_partial nSteps (by omega) dt margin (fun y => 0 - y) [x]
  have ht : integrateTrajectory nSteps dt margin (fun y => 0 - y) [x] none
      = [x :: integrateFrom dt margin (fun y => 0 - y) x (nSteps - 1)] := rfl
  rw [ht] at hf ⊢
  obtain ⟨h1, -⟩ := List.forall₂_cons.mp hf
  refine ⟨_, rfl, ?_⟩
  by_cases h : ∃ i, 1 ≤ i ∧ i < j0 ∧ ‖steps dt (fun y => 0 - y) x i‖ < margin
  · exact ⟨0, List.mem_of_getElem? ((h1.2 j0 hn).2 h), by simpa using hm⟩
  · push Not at h
    refine ⟨_, List.mem_of_getElem? ((h1.2 j0 hn).1 h), ?_⟩
    rw [hstep]
    exact hj0

/-- C106, violated by the code: given starting points are not used: all trajectories start at the origin. -/
theorem C106_start_ignored (nSteps : ℕ) (dt margin : ℝ) (ds : Vec d → Vec d) (recorded starts : List (Vec d)) :
    integrateTrajectory nSteps dt margin ds recorded (some starts)
      = starts.map fun _ => 0 :: integrateFrom dt margin ds 0 (nSteps - 1) := by
  unfold integrateTrajectory
  simp only [List.map_map]
  rfl

/-- C106, violated by the code: convergence is tested at the origin, not at the attractor: for every attractor there
is a trajectory of the linear system that ends at the origin. -/
theorem C106_stops_at_origin (a : Vec d) (margin : ℝ) (hm : 0 < margin) (nSteps : ℕ) :
    integrateTrajectory (nSteps + 2) 1 margin (fun y => a - y) [(-(5 / 3) : ℝ) • a] none
      = [((-(5 / 3) : ℝ) • a) :: 0 :: List.replicate nSteps 0] := by
  have h : rk4 1 ((-(5 / 3) : ℝ) • a) (fun y => a - y) 1 = 0 := by
    have h1 := rk4_attractor 1 a ((-(5 / 3) : ℝ) • a)
    have h2 : contraction 1 • ((-(5 / 3) : ℝ) • a - a) = -a := by
      unfold contraction
      module
    rw [h2] at h1
    have := congrArg (· + a) h1
    simpa using this
  unfold integrateTrajectory
  simp only [List.map_cons, List.map_nil]
  have e : nSteps + 2 - 1 = nSteps + 1 := rfl
  rw [e]
  unfold integrateFrom
  simp only
  rw [h, if_pos (by simpa using hm)]

/-- C106, violated by the code: `DirectionalGMM.integrate_trajectory` raises as soon as there is a trajectory. -/
theorem C106_mixture_fails (numSteps : ℕ) (dt margin : ℝ) (predict : Vec d → Vec d) (recorded : List (Vec d))
    (starts : Option (List (Vec d))) (h : starts = none ∧ recorded ≠ [] ∨ ∃ x xs, starts = some (x :: xs)) :
    gmmIntegrateTrajectory numSteps dt margin predict recorded starts = .error .attributeError := by
  have ht : ∀ x, gmmTrajectory numSteps dt margin predict x = .error .attributeError := by
    intro x
    unfold gmmTrajectory callMethod
    rw [if_neg (by decide)]
    rfl
  unfold gmmIntegrateTrajectory
  rcases h with ⟨h, h'⟩ | ⟨x, xs, h⟩
  · rw [h]
    cases recorded with
    | nil => exact absurd rfl h'
    | cons x xs =>
      simp only [List.mapM_cons]
      rw [ht]
      rfl
  · rw [h]
    simp only [List.map_cons, List.mapM_cons]
    rw [ht]
    rfl

/-- Case: a step of the spiral `(x, y) ↦ (-y, x)` from `(1, 0)` with step one: close to `(cos 1, sin 1)`. -/
example : ∃ A : Vec 2 →ₗ[ℝ] Vec 2, (∀ x, A x = !₂[-x 1, x 0]) ∧ rk4 1 !₂[1, 0] A 1 = !₂[13 / 24, 5 / 6] := by
  let A : Vec 2 →ₗ[ℝ] Vec 2 :=
    { toFun := fun x => !₂[-x 1, x 0]
      map_add' := fun x y => by ext i; fin_cases i <;> simp <;> ring
      map_smul' := fun c x => by ext i; fin_cases i <;> simp }
  refine ⟨A, fun x => rfl, ?_⟩
  unfold rk4
  have hA : ∀ x, A x = !₂[-x 1, x 0] := fun x => rfl
  ext i
  fin_cases i <;> simp [hA] <;> norm_num

/-- Case: towards the attractor `(2, 0)` with step one half. -/
example : ‖rk4 0.5 (!₂[5, 1] : Vec 2) (fun y => !₂[2, 0] - y) 1 - !₂[2, 0]‖ < ‖(!₂[5, 1] : Vec 2) - !₂[2, 0]‖ :=
  (C106_contraction 0.5 (by norm_num) (by norm_num) _ _ (by
    intro h
    have := congrFun (congrArg (fun x : Vec 2 => x.ofLp) h) 1
    simp at this)).1

/-- Case: two recorded trajectories of three positions with constant velocity. -/
example : integrateTrajectory 3 1 0.1 (fun _ => !₂[1, 0]) [!₂[1, 0], !₂[-1, 0]] none
    = [[!₂[1, 0], !₂[2, 0], !₂[3, 0]], [(!₂[-1, 0] : Vec 2), 0, 0]] := by
  have hz : (!₂[-1, 0] : Vec 2) + (1 * 1 : ℝ) • !₂[1, 0] = 0 := by
    ext i; fin_cases i <;> simp
  have h2 : (!₂[1, 0] : Vec 2) + (1 * 1 : ℝ) • !₂[1, 0] = !₂[2, 0] := by
    ext i; fin_cases i <;> simp <;> norm_num
  have h3 : (!₂[2, 0] : Vec 2) + (1 * 1 : ℝ) • !₂[1, 0] = !₂[3, 0] := by
    ext i; fin_cases i <;> simp <;> norm_num
  have n2 : ¬ ‖(!₂[2, 0] : Vec 2)‖ < 0.1 := by
    rw [EuclideanSpace.norm_eq]; simp [Fin.sum_univ_two]; norm_num
  have n3 : ¬ ‖(!₂[3, 0] : Vec 2)‖ < 0.1 := by
    rw [EuclideanSpace.norm_eq]; simp [Fin.sum_univ_two]; norm_num
  unfold integrateTrajectory
  simp only [List.map_cons, List.map_nil]
  simp only [integrateFrom, C106_constant, hz, h2, h3, if_neg n2, if_neg n3]
  rw [if_pos (by simp; norm_num)]
  rfl

/-! ## C107: learned dynamics -/

lemma foldl_add_smul (c : ℝ) (demos : List (Demo d)) : ∀ a : Vec d,
    demos.foldl (fun a o => a + c • o.last) a = a + c • (demos.map Demo.last).sum := by
  induction demos with
  | nil => intro a; simp
  | cons o demos ih =>
    intro a
    rw [List.foldl_cons, ih, List.map_cons, List.sum_cons, smul_add]
    abel

/-- C107: the attractor of `DirectionalGMM` is the mean of the ends of the demonstrations. -/
theorem C107_attractor (demos : List (Demo d)) : gmmLoadAttractor demos none = .ok (meanEnd demos) := by
  change Except.ok (gmmAttractor demos) = _
  unfold gmmAttractor
  rw [foldl_add_smul, zero_add]
  rfl

/-- C107, violated by `DirectionalGMM`: an attractor cannot be given. -/
theorem C107_attractor_argument (demos : List (Demo d)) (a : Vec d) :
    gmmLoadAttractor demos (some a) = .error .unboundLocal := rfl

/-- C107, violated by `DirectionalGPR` and `DirectionalSVR`: the end of the first demonstration is missing in the mean,
so that the attractor is the mean of the ends only if the first demonstration ends at the origin. -/
theorem C107_attractor_first (demos : List (Demo d)) (first : Demo d) :
    gprAttractor (first :: demos)
      = meanEnd (first :: demos) - (1 / ((first :: demos).length : ℝ)) • first.last
    ∧ (gprAttractor (first :: demos) = meanEnd (first :: demos) ↔ first.last = 0) := by
  have h : gprAttractor (first :: demos)
      = meanEnd (first :: demos) - (1 / ((first :: demos).length : ℝ)) • first.last := by
    unfold gprAttractor meanEnd
    rw [List.drop_one, List.tail_cons, foldl_add_smul, List.map_cons, List.sum_cons, smul_add]
    abel
  refine ⟨h, ?_⟩
  rw [h, sub_eq_self, smul_eq_zero]
  constructor
  · rintro (h1 | h1)
    · exfalso
      have : ((first :: demos).length : ℝ) ≠ 0 := by
        simp only [List.length_cons]
        positivity
      exact (one_div_ne_zero this) h1
    · exact h1
  · exact Or.inr

/-- C107 (partial): if the regressor reproduces the training data and the attractor is the origin, the prediction at a
demonstrated position is the demonstrated direction.

Missing: other attractors (`C107_not_reproduced`), and `DirectionalSVR` (`C107_function_fails`). -/
theorem C107_reproduces_partial (ext : AngleSpace d) (he : AngleSpec ext) (regressor : Vec d → Fin (d - 1) → ℝ)
    (s : Vec d × Vec d) (hreg : regressor s.1 = trainingAngles ext s) (hp : s.1 ≠ 0) (hv : s.2 ≠ 0) :
    predict ext regressor (.system 0) s.1 = .ok (‖s.2‖⁻¹ • s.2) := by
  unfold predict
  have : NullDs.evaluate (.system 0) s.1 = .ok (0 - s.1) := rfl
  rw [this, hreg]
  change Except.ok _ = _
  congr 1
  exact he.inverse _ _ hv (by rw [zero_sub]; exact neg_ne_zero.mpr hp)

/-- C107, violated by the code: a demonstrated velocity that leads straight to the origin is predicted to lead
straight to the attractor, although the regressor reproduces the data: the directions are encoded relative to the
origin and decoded relative to the attractor. -/
theorem C107_not_reproduced (ext : AngleSpace d) (he : AngleSpec ext) (regressor : Vec d → Fin (d - 1) → ℝ)
    (p a : Vec d) (c : ℝ) (hc : 0 < c) (hp : p ≠ 0) (hpa : p ≠ a)
    (hreg : regressor p = trainingAngles ext (p, c • (0 - p))) :
    predict ext regressor (.system a) p = .ok (‖a - p‖⁻¹ • (a - p)) := by
  unfold predict
  have : NullDs.evaluate (.system a) p = .ok (a - p) := rfl
  rw [this, hreg]
  unfold trainingAngles
  rw [he.zero _ c (by rw [zero_sub]; exact neg_ne_zero.mpr hp) hc]
  change Except.ok _ = _
  congr 1
  exact he.null _ (sub_ne_zero.mpr (Ne.symm hpa))

/-- C107, violated by `DirectionalSVR`: its convergence dynamics are a plain function, so that every prediction
raises. -/
theorem C107_function_fails (ext : AngleSpace d) (regressor : Vec d → Fin (d - 1) → ℝ) (a x : Vec d) :
    predict ext regressor (.function a) x = .error .attributeError := rfl

/-- Case: two demonstrations ending at `(2, 0)` and `(4, 2)`: the mean of the ends is `(3, 1)`, but the attractor of the
other learners is `(2, 1)`. -/
example : gmmLoadAttractor [⟨[], !₂[2, 0]⟩, ⟨[], !₂[4, 2]⟩] none = .ok (!₂[3, 1] : Vec 2)
    ∧ gprAttractor [⟨[], !₂[2, 0]⟩, ⟨[], !₂[4, 2]⟩] = (!₂[2, 1] : Vec 2) := by
  constructor
  · rw [C107_attractor]
    congr 1
    unfold meanEnd
    ext i
    fin_cases i <;> simp <;> norm_num
  · rw [(C107_attractor_first _ _).1]
    unfold meanEnd
    ext i
    fin_cases i <;> simp <;> norm_num

/-- The signed angle in the plane. -/
noncomputable def planeAngles : AngleSpace 2 where
  space := fun v n => fun _ => Complex.arg (⟨v 0, v 1⟩ / ⟨n 0, n 1⟩)
  inverse := fun a n =>
    let z : ℂ := (‖(⟨n 0, n 1⟩ : ℂ)‖⁻¹ : ℝ) * ⟨n 0, n 1⟩ * Complex.exp (a 0 * Complex.I)
    !₂[z.re, z.im]

lemma complex_norm (v : Vec 2) : ‖(⟨v 0, v 1⟩ : ℂ)‖ = ‖v‖ := by
  rw [Complex.norm_eq_sqrt_sq_add_sq, EuclideanSpace.norm_eq, Fin.sum_univ_two]
  simp

lemma complex_ne {v : Vec 2} (h : v ≠ 0) : (⟨v 0, v 1⟩ : ℂ) ≠ 0 := by
  rw [← norm_ne_zero_iff, complex_norm]
  exact norm_ne_zero_iff.mpr h

lemma planeAngles_spec : AngleSpec planeAngles where
  inverse := by
    intro v n hv hn
    have zn := complex_ne hn
    have zv := complex_ne hv
    have e : ((‖(⟨n 0, n 1⟩ : ℂ)‖⁻¹ : ℝ) : ℂ) * ⟨n 0, n 1⟩
        * Complex.exp ((Complex.arg (⟨v 0, v 1⟩ / ⟨n 0, n 1⟩) : ℝ) * Complex.I)
        = ((‖(⟨v 0, v 1⟩ : ℂ)‖⁻¹ : ℝ) : ℂ) * ⟨v 0, v 1⟩ := by
      have h := Complex.norm_mul_exp_arg_mul_I ((⟨v 0, v 1⟩ : ℂ) / ⟨n 0, n 1⟩)
      have nn : ((‖(⟨n 0, n 1⟩ : ℂ)‖ : ℝ) : ℂ) ≠ 0 := by
        exact_mod_cast norm_ne_zero_iff.mpr zn
      have nv : ((‖(⟨v 0, v 1⟩ : ℂ)‖ : ℝ) : ℂ) ≠ 0 := by
        exact_mod_cast norm_ne_zero_iff.mpr zv
      rw [norm_div] at h
      push_cast at h ⊢
      have h2 : Complex.exp ((Complex.arg (⟨v 0, v 1⟩ / ⟨n 0, n 1⟩) : ℂ) * Complex.I)
          = (⟨v 0, v 1⟩ : ℂ) / ⟨n 0, n 1⟩ * (‖(⟨n 0, n 1⟩ : ℂ)‖ / ‖(⟨v 0, v 1⟩ : ℂ)‖) := by
        generalize Complex.exp ((Complex.arg (⟨v 0, v 1⟩ / ⟨n 0, n 1⟩) : ℂ) * Complex.I) = w at h ⊢
        rw [← h]
        field_simp
      rw [h2]
      field_simp
    ext i
    fin_cases i
    · have := congrArg Complex.re e
      rw [Complex.re_ofReal_mul, complex_norm v] at this
      exact this
    · have := congrArg Complex.im e
      rw [Complex.im_ofReal_mul, complex_norm v] at this
      exact this
  zero := by
    intro n c hn hc
    funext i
    change Complex.arg (⟨(c • n) 0, (c • n) 1⟩ / ⟨n 0, n 1⟩) = 0
    have zn := complex_ne hn
    have : (⟨(c • n) 0, (c • n) 1⟩ : ℂ) = (c : ℂ) * ⟨n 0, n 1⟩ := by
      apply Complex.ext <;> simp
    rw [this, mul_div_assoc, div_self zn, mul_one]
    exact Complex.arg_ofReal_of_nonneg hc.le
  null := by
    intro n hn
    ext i
    fin_cases i
    · change (((‖(⟨n 0, n 1⟩ : ℂ)‖⁻¹ : ℝ) : ℂ) * ⟨n 0, n 1⟩ * Complex.exp (((0 : ℝ) : ℂ) * Complex.I)).re = _
      rw [Complex.ofReal_zero, zero_mul, Complex.exp_zero, mul_one, Complex.re_ofReal_mul, complex_norm]
      rfl
    · change (((‖(⟨n 0, n 1⟩ : ℂ)‖⁻¹ : ℝ) : ℂ) * ⟨n 0, n 1⟩ * Complex.exp (((0 : ℝ) : ℂ) * Complex.I)).im = _
      rw [Complex.ofReal_zero, zero_mul, Complex.exp_zero, mul_one, Complex.im_ofReal_mul, complex_norm]
      rfl

/-- Case: the velocity `(0, 2)` demonstrated at `(1, 0)` is reproduced with the attractor in the origin. -/
example : predict planeAngles (fun _ => trainingAngles planeAngles (!₂[1, 0], !₂[0, 2])) (.system 0) !₂[1, 0]
    = .ok !₂[0, 1] := by
  have h1 : (!₂[1, 0] : Vec 2) ≠ 0 := by
    intro h; have := congrFun (congrArg (fun x : Vec 2 => x.ofLp) h) 0; simp at this
  have h2 : (!₂[0, 2] : Vec 2) ≠ 0 := by
    intro h; have := congrFun (congrArg (fun x : Vec 2 => x.ofLp) h) 1; simp at this
  have hn : ‖(!₂[0, 2] : Vec 2)‖ = 2 := by
    rw [EuclideanSpace.norm_eq]; simp [Fin.sum_univ_two]
  rw [C107_reproduces_partial planeAngles planeAngles_spec _ (!₂[1, 0], !₂[0, 2]) rfl h1 h2]
  congr 1
  rw [hn]
  ext i
  fin_cases i <;> simp

/-- Case: the velocity `(-1, 0)` demonstrated at `(1, 0)`, with the attractor `(1, 5)`: the prediction is `(0, 1)`. -/
example : predict planeAngles (fun _ => trainingAngles planeAngles (!₂[1, 0], (1 : ℝ) • (0 - !₂[1, 0])))
    (.system !₂[1, 5]) !₂[1, 0] = .ok !₂[0, 1] := by
  have h1 : (!₂[1, 0] : Vec 2) ≠ 0 := by
    intro h; have := congrFun (congrArg (fun x : Vec 2 => x.ofLp) h) 0; simp at this
  have h2 : (!₂[1, 0] : Vec 2) ≠ !₂[1, 5] := by
    intro h; have := congrFun (congrArg (fun x : Vec 2 => x.ofLp) h) 1; simp at this
  have hn : (!₂[1, 5] : Vec 2) - !₂[1, 0] = (5 : ℝ) • !₂[0, 1] := by
    ext i; fin_cases i <;> simp
  have hu : ‖(!₂[0, 1] : Vec 2)‖ = 1 := by
    rw [EuclideanSpace.norm_eq]; simp [Fin.sum_univ_two]
  rw [C107_not_reproduced planeAngles planeAngles_spec _ _ _ 1 (by norm_num) h1 h2 rfl]
  congr 1
  rw [hn, norm_smul, hu, smul_smul]
  norm_num

end Verif.Learner
