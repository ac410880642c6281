import Verif.Props.Learner2
import Mathlib.Analysis.Calculus.MeanValue
import Mathlib.Analysis.SpecialFunctions.Exponential

/-!
# C106: the integrated trajectories approach the solutions of the differential equation

For every Lipschitz continuous velocity field, not only linear ones.
-/

namespace Verif.Learner

variable {d : ℕ}

/-- Two Runge-Kutta steps separate at most as fast as two solutions. -/
lemma rk4_lipschitz (f : Vec d → Vec d) (L : ℝ) (hL : 0 ≤ L) (hf : ∀ x y, ‖f x - f y‖ ≤ L * ‖x - y‖)
    (h : ℝ) (h0 : 0 ≤ h) (x y : Vec d) :
    ‖rk4 h x f 1 - rk4 h y f 1‖ ≤ Real.exp (h * L) * ‖x - y‖ := by
  have hz : 0 ≤ h * L := mul_nonneg h0 hL
  unfold rk4
  simp only [half_eq, sixth_eq, one_smul]
  set a1 := h • f x with ha1
  set a2 := h • f (x + (1 / 2 : ℝ) • a1) with ha2
  set a3 := h • f (x + (1 / 2 : ℝ) • a2) with ha3
  set a4 := h • f (x + a3) with ha4
  set b1 := h • f y with hb1
  set b2 := h • f (y + (1 / 2 : ℝ) • b1) with hb2
  set b3 := h • f (y + (1 / 2 : ℝ) • b2) with hb3
  set b4 := h • f (y + b3) with hb4
  have step : ∀ u v : Vec d, ‖h • f u - h • f v‖ ≤ h * L * ‖u - v‖ := by
    intro u v
    rw [← smul_sub, norm_smul, Real.norm_of_nonneg h0, mul_assoc]
    exact mul_le_mul_of_nonneg_left (hf u v) h0
  have e1 : ‖a1 - b1‖ ≤ h * L * ‖x - y‖ := step x y
  have half : ∀ a b : Vec d, ‖x + (1 / 2 : ℝ) • a - (y + (1 / 2 : ℝ) • b)‖ ≤ ‖x - y‖ + 1 / 2 * ‖a - b‖ := by
    intro a b
    have : x + (1 / 2 : ℝ) • a - (y + (1 / 2 : ℝ) • b) = (x - y) + (1 / 2 : ℝ) • (a - b) := by module
    rw [this]
    refine (norm_add_le _ _).trans ?_
    rw [norm_smul, Real.norm_of_nonneg (by norm_num)]
  have e2 : ‖a2 - b2‖ ≤ h * L * (‖x - y‖ + 1 / 2 * (h * L * ‖x - y‖)) := by
    refine (step _ _).trans (mul_le_mul_of_nonneg_left ((half _ _).trans ?_) hz)
    linarith
  have e3 : ‖a3 - b3‖ ≤ h * L * (‖x - y‖ + 1 / 2 * (h * L * (‖x - y‖ + 1 / 2 * (h * L * ‖x - y‖)))) := by
    refine (step _ _).trans (mul_le_mul_of_nonneg_left ((half _ _).trans ?_) hz)
    linarith
  have e4 : ‖a4 - b4‖ ≤ h * L * (‖x - y‖
      + h * L * (‖x - y‖ + 1 / 2 * (h * L * (‖x - y‖ + 1 / 2 * (h * L * ‖x - y‖))))) := by
    refine (step _ _).trans (mul_le_mul_of_nonneg_left ?_ hz)
    have : x + a3 - (y + b3) = (x - y) + (a3 - b3) := by module
    rw [this]
    exact (norm_add_le _ _).trans (by linarith)
  have hsplit : x + (1 / 6 : ℝ) • (a1 + (2 : ℝ) • a2 + (2 : ℝ) • a3 + a4)
      - (y + (1 / 6 : ℝ) • (b1 + (2 : ℝ) • b2 + (2 : ℝ) • b3 + b4))
      = (x - y) + (1 / 6 : ℝ) • ((a1 - b1) + (2 : ℝ) • (a2 - b2) + (2 : ℝ) • (a3 - b3) + (a4 - b4)) := by module
  have hsum : ‖(x - y) + (1 / 6 : ℝ) • ((a1 - b1) + (2 : ℝ) • (a2 - b2) + (2 : ℝ) • (a3 - b3) + (a4 - b4))‖
      ≤ ‖x - y‖ + 1 / 6 * (‖a1 - b1‖ + 2 * ‖a2 - b2‖ + 2 * ‖a3 - b3‖ + ‖a4 - b4‖) := by
    refine (norm_add_le _ _).trans ?_
    rw [norm_smul, Real.norm_of_nonneg (by norm_num)]
    have t1 := norm_add_le ((a1 - b1) + (2 : ℝ) • (a2 - b2) + (2 : ℝ) • (a3 - b3)) (a4 - b4)
    have t2 := norm_add_le ((a1 - b1) + (2 : ℝ) • (a2 - b2)) ((2 : ℝ) • (a3 - b3))
    have t3 := norm_add_le (a1 - b1) ((2 : ℝ) • (a2 - b2))
    rw [norm_smul, Real.norm_of_nonneg (by norm_num)] at t2 t3
    linarith
  rw [hsplit]
  refine hsum.trans ?_
  have hexp := Real.sum_le_exp_of_nonneg hz 5
  simp only [Finset.sum_range_succ, Finset.sum_range_zero, Nat.factorial] at hexp
  push_cast at hexp
  generalize h * L = z at *
  have hpoly : ‖x - y‖ + 1 / 6 * (‖a1 - b1‖ + 2 * ‖a2 - b2‖ + 2 * ‖a3 - b3‖ + ‖a4 - b4‖)
      ≤ (1 + z + z ^ 2 / 2 + z ^ 3 / 6 + z ^ 4 / 24) * ‖x - y‖ := by
    nlinarith [e1, e2, e3, e4]
  refine hpoly.trans (mul_le_mul_of_nonneg_right ?_ (norm_nonneg _))
  linarith

/-- A Runge-Kutta step differs from a straight step by a term of second order. -/
lemma rk4_straight (f : Vec d → Vec d) (L : ℝ) (hL : 0 ≤ L) (hf : ∀ x y, ‖f x - f y‖ ≤ L * ‖x - y‖)
    (h : ℝ) (h0 : 0 ≤ h) (x : Vec d) :
    ‖rk4 h x f 1 - (x + h • f x)‖ ≤ h * L / 2 * Real.exp (h * L) * (h * ‖f x‖) := by
  have hz : 0 ≤ h * L := mul_nonneg h0 hL
  unfold rk4
  simp only [half_eq, sixth_eq, one_smul]
  set a1 := h • f x with ha1
  set a2 := h • f (x + (1 / 2 : ℝ) • a1) with ha2
  set a3 := h • f (x + (1 / 2 : ℝ) • a2) with ha3
  set a4 := h • f (x + a3) with ha4
  have hn1 : ‖a1‖ = h * ‖f x‖ := by rw [ha1, norm_smul, Real.norm_of_nonneg h0]
  have step : ∀ u : Vec d, ‖h • f (x + u) - a1‖ ≤ h * L * ‖u‖ := by
    intro u
    rw [ha1, ← smul_sub, norm_smul, Real.norm_of_nonneg h0, mul_assoc]
    refine mul_le_mul_of_nonneg_left ?_ h0
    have := hf (x + u) x
    rwa [add_sub_cancel_left] at this
  have hhalf : ∀ u : Vec d, ‖(1 / 2 : ℝ) • u‖ = 1 / 2 * ‖u‖ := by
    intro u
    rw [norm_smul, Real.norm_of_nonneg (by norm_num)]
  have e2 : ‖a2 - a1‖ ≤ h * L * (1 / 2 * ‖a1‖) := by
    have := step ((1 / 2 : ℝ) • a1)
    rwa [hhalf] at this
  have n2 : ‖a2‖ ≤ ‖a1‖ + h * L * (1 / 2 * ‖a1‖) := by
    have := norm_add_le (a2 - a1) a1
    rw [sub_add_cancel] at this
    linarith
  have e3 : ‖a3 - a1‖ ≤ h * L * (1 / 2 * (‖a1‖ + h * L * (1 / 2 * ‖a1‖))) := by
    have := step ((1 / 2 : ℝ) • a2)
    rw [hhalf] at this
    refine this.trans (mul_le_mul_of_nonneg_left ?_ hz)
    linarith
  have n3 : ‖a3‖ ≤ ‖a1‖ + h * L * (1 / 2 * (‖a1‖ + h * L * (1 / 2 * ‖a1‖))) := by
    have := norm_add_le (a3 - a1) a1
    rw [sub_add_cancel] at this
    linarith
  have e4 : ‖a4 - a1‖ ≤ h * L * (‖a1‖ + h * L * (1 / 2 * (‖a1‖ + h * L * (1 / 2 * ‖a1‖)))) :=
    (step a3).trans (mul_le_mul_of_nonneg_left n3 hz)
  have hsplit : x + (1 / 6 : ℝ) • (a1 + (2 : ℝ) • a2 + (2 : ℝ) • a3 + a4) - (x + a1)
      = (1 / 6 : ℝ) • ((2 : ℝ) • (a2 - a1) + (2 : ℝ) • (a3 - a1) + (a4 - a1)) := by module
  rw [hsplit, norm_smul, Real.norm_of_nonneg (by norm_num), ← hn1]
  have t1 := norm_add_le ((2 : ℝ) • (a2 - a1) + (2 : ℝ) • (a3 - a1)) (a4 - a1)
  have t2 := norm_add_le ((2 : ℝ) • (a2 - a1)) ((2 : ℝ) • (a3 - a1))
  rw [norm_smul, norm_smul, Real.norm_of_nonneg (by norm_num)] at t2
  have hexp := Real.sum_le_exp_of_nonneg hz 3
  simp only [Finset.sum_range_succ, Finset.sum_range_zero, Nat.factorial] at hexp
  push_cast at hexp
  have ha := norm_nonneg a1
  generalize h * L = z at *
  have hpoly : 1 / 6 * ‖(2 : ℝ) • (a2 - a1) + (2 : ℝ) • (a3 - a1) + (a4 - a1)‖
      ≤ z / 2 * (1 + z / 3 + z ^ 2 / 12) * ‖a1‖ := by nlinarith [e2, e3, e4]
  refine hpoly.trans (mul_le_mul_of_nonneg_right (mul_le_mul_of_nonneg_left ?_ (by positivity)) ha)
  nlinarith [sq_nonneg z]

/-- A solution differs from a straight step by a term of second order. -/
lemma solution_straight (f : Vec d → Vec d) (L : ℝ) (hL : 0 ≤ L) (hf : ∀ x y, ‖f x - f y‖ ≤ L * ‖x - y‖)
    (φ : ℝ → Vec d) (T M : ℝ) (hφ : ∀ t ∈ Set.Icc 0 T, HasDerivWithinAt φ (f (φ t)) (Set.Icc 0 T) t)
    (hM : ∀ t ∈ Set.Icc 0 T, ‖f (φ t)‖ ≤ M) (t h : ℝ) (ht : 0 ≤ t) (h0 : 0 ≤ h) (hT : t + h ≤ T) :
    ‖φ (t + h) - (φ t + h • f (φ t))‖ ≤ L * M * h ^ 2 := by
  have hsub : Set.Icc t (t + h) ⊆ Set.Icc 0 T := Set.Icc_subset_Icc ht hT
  have hM0 : 0 ≤ M := (norm_nonneg _).trans (hM t ⟨ht, by linarith⟩)
  have hspeed : ∀ s ∈ Set.Icc t (t + h), ‖φ s - φ t‖ ≤ M * (s - t) := by
    refine norm_image_sub_le_of_norm_deriv_le_segment' (fun s hs => (hφ s (hsub hs)).mono hsub) ?_
    intro s hs
    exact hM s (hsub ⟨hs.1, hs.2.le⟩)
  have hder : ∀ s ∈ Set.Icc t (t + h), HasDerivWithinAt (fun s => φ s - (s - t) • f (φ t))
      (f (φ s) - f (φ t)) (Set.Icc t (t + h)) s := by
    intro s hs
    have h1 := (hφ s (hsub hs)).mono hsub
    have h2 : HasDerivWithinAt (fun s : ℝ => (s - t) • f (φ t)) ((1 : ℝ) • f (φ t)) (Set.Icc t (t + h)) s :=
      ((hasDerivWithinAt_id s _).sub_const t).smul_const _
    rw [one_smul] at h2
    exact h1.sub h2
  have hbound : ∀ s ∈ Set.Ico t (t + h), ‖f (φ s) - f (φ t)‖ ≤ L * M * h := by
    intro s hs
    refine (hf _ _).trans ?_
    have h1 := hspeed s ⟨hs.1, hs.2.le⟩
    have h2 : M * (s - t) ≤ M * h := mul_le_mul_of_nonneg_left (by linarith [hs.2]) hM0
    calc L * ‖φ s - φ t‖ ≤ L * (M * h) := mul_le_mul_of_nonneg_left (h1.trans h2) hL
      _ = L * M * h := by ring
  have := norm_image_sub_le_of_norm_deriv_le_segment' hder hbound (t + h) ⟨by linarith, le_refl _⟩
  simp only [sub_self, zero_smul, sub_zero, add_sub_cancel_left] at this
  have e : φ (t + h) - (φ t + h • f (φ t)) = φ (t + h) - h • f (φ t) - φ t := by module
  rw [e]
  refine this.trans (le_of_eq ?_)
  ring

/-- **C106** Runge-Kutta steps stay close to the solution of the differential equation: for a velocity field with
Lipschitz constant `L` and a solution of speed at most `M` up to the time `T`, the error after any number of steps
up to this time is at most proportional to the step. -/
theorem C106_global_error (f : Vec d → Vec d) (L : ℝ) (hL : 0 ≤ L) (hf : ∀ x y, ‖f x - f y‖ ≤ L * ‖x - y‖)
    (φ : ℝ → Vec d) (T M : ℝ) (hφ : ∀ t ∈ Set.Icc 0 T, HasDerivWithinAt φ (f (φ t)) (Set.Icc 0 T) t)
    (hM : ∀ t ∈ Set.Icc 0 T, ‖f (φ t)‖ ≤ M) (dt : ℝ) (h0 : 0 ≤ dt) (n : ℕ) (hn : n * dt ≤ T) :
    ‖(fun y => rk4 dt y f 1)^[n] (φ 0) - φ (n * dt)‖ ≤ 3 / 2 * L * M * T * Real.exp (L * T) * dt := by
  have hT : 0 ≤ T := (by positivity : (0 : ℝ) ≤ n * dt).trans hn
  have hM0 : 0 ≤ M := (norm_nonneg _).trans (hM 0 ⟨le_refl _, hT⟩)
  have hz : 0 ≤ dt * L := mul_nonneg h0 hL
  have hE : 1 ≤ Real.exp (dt * L) := Real.one_le_exp hz
  have key : ∀ m : ℕ, m ≤ n → ‖(fun y => rk4 dt y f 1)^[m] (φ 0) - φ (m * dt)‖
      ≤ m * Real.exp (dt * L) ^ m * (3 / 2 * L * M * dt ^ 2) := by
    intro m
    induction m with
    | zero => intro _; simp
    | succ m ih =>
      intro hm
      have ih := ih (by omega)
      have hmn : ((m : ℝ) + 1) * dt ≤ T := by
        have : ((m + 1 : ℕ) : ℝ) ≤ n := by exact_mod_cast hm
        push_cast at this
        exact (mul_le_mul_of_nonneg_right this h0).trans hn
      have ht0 : 0 ≤ (m : ℝ) * dt := by positivity
      have ht1 : (m : ℝ) * dt + dt ≤ T := by linarith
      rw [Function.iterate_succ_apply']
      set y := (fun y => rk4 dt y f 1)^[m] (φ 0) with hy
      set x := φ (m * dt) with hx
      have a1 := rk4_lipschitz f L hL hf dt h0 y x
      have a2 := rk4_straight f L hL hf dt h0 x
      have a3 := solution_straight f L hL hf φ T M hφ hM (m * dt) dt ht0 h0 ht1
      have hfx : ‖f x‖ ≤ M := hM _ ⟨ht0, by linarith⟩
      rw [← hx] at a3
      have hcast : ((m + 1 : ℕ) : ℝ) * dt = m * dt + dt := by push_cast; ring
      rw [hcast]
      have hsplit : rk4 dt y f 1 - φ (m * dt + dt) = (rk4 dt y f 1 - rk4 dt x f 1)
          + (rk4 dt x f 1 - (x + dt • f x)) - (φ (m * dt + dt) - (x + dt • f x)) := by module
      have hnorm : ‖rk4 dt y f 1 - φ (m * dt + dt)‖ ≤ ‖rk4 dt y f 1 - rk4 dt x f 1‖
          + ‖rk4 dt x f 1 - (x + dt • f x)‖ + ‖φ (m * dt + dt) - (x + dt • f x)‖ := by
        rw [hsplit]
        have hadd := norm_add_le (rk4 dt y f 1 - rk4 dt x f 1) (rk4 dt x f 1 - (x + dt • f x))
        exact (norm_sub_le _ _).trans (by linarith)
      have b2 : ‖rk4 dt x f 1 - (x + dt • f x)‖ ≤ Real.exp (dt * L) * (1 / 2 * L * M * dt ^ 2) := by
        refine a2.trans ?_
        have : dt * ‖f x‖ ≤ dt * M := mul_le_mul_of_nonneg_left hfx h0
        calc dt * L / 2 * Real.exp (dt * L) * (dt * ‖f x‖) ≤ dt * L / 2 * Real.exp (dt * L) * (dt * M) :=
              mul_le_mul_of_nonneg_left this (by positivity)
          _ = _ := by ring
      have b3 : ‖φ (m * dt + dt) - (x + dt • f x)‖ ≤ Real.exp (dt * L) * (L * M * dt ^ 2) := by
        refine a3.trans ?_
        have : 0 ≤ L * M * dt ^ 2 := by positivity
        nlinarith
      have b1 : ‖rk4 dt y f 1 - rk4 dt x f 1‖
          ≤ Real.exp (dt * L) * (m * Real.exp (dt * L) ^ m * (3 / 2 * L * M * dt ^ 2)) :=
        a1.trans (mul_le_mul_of_nonneg_left ih (by positivity))
      have hC : 0 ≤ 3 / 2 * L * M * dt ^ 2 := by positivity
      have hpow : Real.exp (dt * L) ≤ Real.exp (dt * L) ^ (m + 1) := by
        rw [pow_succ]
        exact le_mul_of_one_le_left (Real.exp_pos _).le (one_le_pow₀ hE)
      calc ‖rk4 dt y f 1 - φ (m * dt + dt)‖
          ≤ m * Real.exp (dt * L) ^ (m + 1) * (3 / 2 * L * M * dt ^ 2)
            + Real.exp (dt * L) * (3 / 2 * L * M * dt ^ 2) := by
            refine hnorm.trans ?_
            rw [pow_succ]
            linarith
        _ ≤ m * Real.exp (dt * L) ^ (m + 1) * (3 / 2 * L * M * dt ^ 2)
            + Real.exp (dt * L) ^ (m + 1) * (3 / 2 * L * M * dt ^ 2) := by
            linarith [mul_le_mul_of_nonneg_right hpow hC]
        _ = _ := by push_cast; ring
  refine (key n le_rfl).trans ?_
  rw [← Real.exp_nat_mul]
  have hexp : Real.exp (n * (dt * L)) ≤ Real.exp (L * T) := by
    apply Real.exp_le_exp.mpr
    calc (n : ℝ) * (dt * L) = L * (n * dt) := by ring
      _ ≤ L * T := mul_le_mul_of_nonneg_left hn hL
  calc (n : ℝ) * Real.exp (n * (dt * L)) * (3 / 2 * L * M * dt ^ 2)
      = (n * dt) * Real.exp (n * (dt * L)) * (3 / 2 * L * M * dt) := by ring
    _ ≤ T * Real.exp (L * T) * (3 / 2 * L * M * dt) := by
        refine mul_le_mul_of_nonneg_right ?_ (by positivity)
        exact mul_le_mul hn hexp (Real.exp_pos _).le hT
    _ = _ := by ring

/-- **C106** The trajectories returned by `integrate_trajectory` approach the solution of the differential equation
which starts at the recorded position, for every Lipschitz continuous velocity field: up to every time and as long
as no position has come within the margin of the origin, all returned positions have an error at most proportional
to the time step. -/
theorem C106_approximates (f : Vec d → Vec d) (L : ℝ) (hf : ∀ x y, ‖f x - f y‖ ≤ L * ‖x - y‖)
    (φ : ℝ → Vec d) (T : ℝ) (hφ : ∀ t ∈ Set.Icc 0 T, HasDerivWithinAt φ (f (φ t)) (Set.Icc 0 T) t) :
    ∃ C : ℝ, ∀ (nSteps : ℕ) (dt margin : ℝ), 1 ≤ nSteps → 0 < dt →
      ∃ t, integrateTrajectory nSteps dt margin f [φ 0] none = [t] ∧ t.length = nSteps
        ∧ ∀ (j : ℕ) (p : Vec d), t[j]? = some p → (j : ℝ) * dt ≤ T →
          (∀ (i : ℕ) (q : Vec d), 1 ≤ i → i < j → t[i]? = some q → margin ≤ ‖q‖) →
          ‖p - φ (j * dt)‖ ≤ C * dt := by
  have hf' : ∀ x y, ‖f x - f y‖ ≤ max L 0 * ‖x - y‖ := fun x y =>
    (hf x y).trans (mul_le_mul_of_nonneg_right (le_max_left _ _) (norm_nonneg _))
  have hfc : Continuous f := by
    have : LipschitzWith (Real.toNNReal L) f := by
      refine LipschitzWith.of_dist_le_mul fun x y => ?_
      rw [dist_eq_norm, dist_eq_norm, Real.coe_toNNReal']
      exact hf' x y
    exact this.continuous
  have hcont : ContinuousOn (fun t => ‖f (φ t)‖) (Set.Icc 0 T) := by
    have hc : ContinuousOn φ (Set.Icc 0 T) := fun t ht => (hφ t ht).continuousWithinAt
    exact (hfc.comp_continuousOn hc).norm
  obtain ⟨M, hM⟩ : ∃ M, ∀ t ∈ Set.Icc 0 T, ‖f (φ t)‖ ≤ M := by
    obtain ⟨M, hM⟩ := isCompact_Icc.bddAbove_image hcont
    exact ⟨M, fun t ht => hM ⟨t, ht, rfl⟩⟩
  refine ⟨3 / 2 * max L 0 * M * T * Real.exp (max L 0 * T), fun nSteps dt margin hn hdt => ?_⟩
  have htraj := C106_trajectory_partial nSteps hn dt margin f [φ 0]
  rw [List.forall₂_cons_left_iff] at htraj
  obtain ⟨t, rest, ⟨hlen, hget⟩, hrest, heq⟩ := htraj
  rw [List.forall₂_nil_left_iff] at hrest
  subst hrest
  refine ⟨t, heq, hlen, fun j p hp hj hstop => ?_⟩
  have hsteps : ∀ j, j < nSteps → (∀ (i : ℕ) (q : Vec d), 1 ≤ i → i < j → t[i]? = some q → margin ≤ ‖q‖) →
      (∀ i, 1 ≤ i → i < j → margin ≤ ‖steps dt f (φ 0) i‖) := by
    intro j
    induction j with
    | zero => intro _ _ i _ hi; omega
    | succ j ih =>
      intro hj hs i h1 hi
      have hprev := ih (by omega) (fun i q h1 h2 => hs i q h1 (by omega))
      rcases Nat.lt_succ_iff_lt_or_eq.mp hi with h | h
      · exact hprev i h1 h
      · subst h
        exact hs i _ h1 (by omega) ((hget i (by omega)).1 hprev)
  have hjn : j < nSteps := by
    rw [← hlen]
    exact (List.getElem?_eq_some_iff.mp hp).1
  have hpj := (hget j hjn).1 (hsteps j hjn hstop)
  rw [hp, Option.some.injEq] at hpj
  rw [hpj]
  exact C106_global_error f (max L 0) (le_max_right _ _) hf' φ T M hφ hM dt hdt.le j hj

/-- The nonlinear field `(1, sin x)` with the solution `(t, 1 - cos t)`. -/
example : ∃ C : ℝ, ∀ (nSteps : ℕ) (dt margin : ℝ), 1 ≤ nSteps → 0 < dt →
    ∃ t, integrateTrajectory nSteps dt margin (fun y : Vec 2 => !₂[1, Real.sin (y 0)])
      [(!₂[0, 1 - Real.cos 0] : Vec 2)] none = [t] ∧ t.length = nSteps
      ∧ ∀ (j : ℕ) (p : Vec 2), t[j]? = some p → (j : ℝ) * dt ≤ 5 →
        (∀ (i : ℕ) (q : Vec 2), 1 ≤ i → i < j → t[i]? = some q → margin ≤ ‖q‖) →
        ‖p - (!₂[j * dt, 1 - Real.cos (j * dt)] : Vec 2)‖ ≤ C * dt := by
  refine C106_approximates (fun y : Vec 2 => !₂[1, Real.sin (y 0)]) 1 ?_
    (fun t => (!₂[t, 1 - Real.cos t] : Vec 2)) 5 ?_
  · intro x y
    rw [one_mul, EuclideanSpace.norm_eq, EuclideanSpace.norm_eq]
    apply Real.sqrt_le_sqrt
    have h := Real.abs_sin_sub_sin_le (x 0) (y 0)
    have h2 := sq_le_sq' (by linarith [abs_nonneg (Real.sin (x 0) - Real.sin (y 0)), abs_nonneg (x 0 - y 0)]) h
    simp only [Fin.sum_univ_two, Real.norm_eq_abs, sq_abs] at h2 ⊢
    simp only [PiLp.sub_apply, PiLp.toLp_apply, Matrix.cons_val_zero, Matrix.cons_val_one, sub_self]
    nlinarith [sq_nonneg (x 1 - y 1)]
  · intro t _
    apply HasDerivAt.hasDerivWithinAt
    have e : (fun t : ℝ => (!₂[t, 1 - Real.cos t] : Vec 2))
        = fun t => t • (!₂[1, 0] : Vec 2) + (1 - Real.cos t) • (!₂[0, 1] : Vec 2) := by
      funext t
      ext i
      fin_cases i <;> simp
    have h := ((hasDerivAt_id t).smul_const (!₂[1, 0] : Vec 2)).add
      (((Real.hasDerivAt_cos t).const_sub 1).smul_const (!₂[0, 1] : Vec 2))
    rw [e]
    refine h.congr_deriv ?_
    ext i
    fin_cases i <;> simp

/-- The exponential motion away from the origin, `x' = x`: the hypotheses hold with a solution that moves. -/
example : ∃ C : ℝ, ∀ (nSteps : ℕ) (dt margin : ℝ), 1 ≤ nSteps → 0 < dt →
    ∃ t, integrateTrajectory nSteps dt margin (fun y : Vec 2 => y) [Real.exp 0 • (!₂[1, 2] : Vec 2)] none = [t]
      ∧ t.length = nSteps
      ∧ ∀ (j : ℕ) (p : Vec 2), t[j]? = some p → (j : ℝ) * dt ≤ 3 →
        (∀ (i : ℕ) (q : Vec 2), 1 ≤ i → i < j → t[i]? = some q → margin ≤ ‖q‖) →
        ‖p - Real.exp (j * dt) • (!₂[1, 2] : Vec 2)‖ ≤ C * dt := by
  refine C106_approximates (fun y => y) 1 (fun x y => by rw [one_mul])
    (fun t => Real.exp t • (!₂[1, 2] : Vec 2)) 3 fun t _ => ?_
  exact ((Real.hasDerivAt_exp t).smul_const _).hasDerivWithinAt

end Verif.Learner
