import Verif.Spec.Comparison
import Verif.Lemmas.Monad
import Verif.Lemmas.Sphere

/-!
# C121: simulated trajectories

`integrate_trajectory`, `create_start_positions` and `evaluate_trajectories` of the comparison.
-/

open scoped RealInnerProductSpace

namespace Verif
open Spec Comparison

variable {d : ℕ}

lemma simulates_single (f : Vec d → Except PyErr (Vec d)) (dt margin : ℝ) (c : Option (Vec d → Bool)) (x : Vec d) :
    Simulates f dt margin c [x] := by
  intro i p q _ h
  simp at h

lemma simulates_append {f : Vec d → Except PyErr (Vec d)} {dt margin : ℝ} {c : Option (Vec d → Bool)}
    {acc : List (Vec d)} {last next : Vec d} (h : Simulates f dt margin c acc) (hlast : acc.getLast? = some last)
    (hs : SimulationStep f dt margin c last next) : Simulates f dt margin c (acc ++ [next]) := by
  intro i p q hp hq
  by_cases hi : i + 1 < acc.length
  · rw [List.getElem?_append_left (by omega)] at hp
    rw [List.getElem?_append_left hi] at hq
    exact h i p q hp hq
  · have hl : i + 1 < (acc ++ [next]).length := (List.getElem?_eq_some_iff.mp hq).choose
    rw [List.length_append, List.length_singleton] at hl
    have hi' : i + 1 = acc.length := by omega
    rw [List.getElem?_append_left (by omega)] at hp
    rw [List.getElem?_append_right (by omega), hi', Nat.sub_self] at hq
    simp only [List.getElem?_cons_zero, Option.some.injEq] at hq
    subst hq
    rw [List.getLast?_eq_getElem?, ← hi', Nat.add_sub_cancel, hp] at hlast
    cases hlast
    exact hs

lemma simulates_dropLast {f : Vec d → Except PyErr (Vec d)} {dt margin : ℝ} {c : Option (Vec d → Bool)}
    {acc : List (Vec d)} (h : Simulates f dt margin c acc) : Simulates f dt margin c acc.dropLast := by
  intro i p q hp hq
  have hl : i + 1 < acc.dropLast.length := (List.getElem?_eq_some_iff.mp hq).choose
  rw [List.length_dropLast] at hl
  rw [List.getElem?_dropLast, if_pos (by omega)] at hp hq
  exact h i p q hp hq

lemma integrateLoop_spec {f : Vec d → Except PyErr (Vec d)} {dt margin : ℝ} {c : Option (Vec d → Bool)} (start : Vec d)
    (fuel : ℕ) {acc : List (Vec d)} {last : Vec d} {traj : List (Vec d)} (hh : acc.head? = some start)
    (hl : acc.getLast? = some last) (hs : Simulates f dt margin c acc)
    (h : integrateLoop f dt margin c fuel acc last = .ok traj) :
    (traj = [] ∨ traj.head? = some start) ∧ Simulates f dt margin c traj ∧ traj.length ≤ acc.length + fuel
      ∧ ((traj.length = acc.length + fuel)
        ∨ (∃ g p v, c = some g ∧ traj.getLast? = some p ∧ f p = .ok v ∧ g (p + dt • unit v) = true)
        ∨ (∃ p v, f p = .ok v ∧ ‖v‖ < margin ∧ (traj ++ [p]).head? = some start
          ∧ Simulates f dt margin c (traj ++ [p]))) := by
  classical
  induction fuel generalizing acc last with
  | zero =>
    cases h
    exact ⟨Or.inr hh, hs, by omega, Or.inl (by omega)⟩
  | succ fuel ih =>
    have hne : acc ≠ [] := by rintro rfl; simp at hh
    unfold integrateLoop at h
    obtain ⟨v, hv, h⟩ := bind_ok.mp h
    by_cases h1 : ‖v‖ < margin
    · rw [if_pos h1] at h
      cases h
      have hre : acc.dropLast ++ [last] = acc := by
        have := List.dropLast_append_getLast hne
        rw [List.getLast?_eq_some_getLast hne] at hl
        cases hl
        exact this
      refine ⟨?_, simulates_dropLast hs, by rw [List.length_dropLast]; omega, Or.inr (Or.inr ⟨last, v, hv, h1, ?_, ?_⟩)⟩
      · by_cases hd : acc.dropLast = []
        · exact Or.inl hd
        · right
          have hh' : (acc.dropLast ++ [last]).head? = some start := by rw [hre]; exact hh
          cases hdl : acc.dropLast with
          | nil => exact absurd hdl hd
          | cons a l =>
            rw [hdl] at hh'
            simpa using hh'
      · rw [hre]; exact hh
      · rw [hre]; exact hs
    · rw [if_neg h1] at h
      by_cases h2 : ‖v‖ = 0
      · rw [if_pos h2] at h; cases h
      rw [if_neg h2] at h
      have hv0 : v ≠ 0 := by rintro rfl; simp at h2
      have hnext : dt • ((1 / ‖v‖) • v) + last = last + dt • unit v := by rw [add_comm]; rfl
      simp only [hnext] at h
      have step : ∀ (hfree : ∀ g, c = some g → g (last + dt • unit v) = false), 
          integrateLoop f dt margin c fuel (acc ++ [last + dt • unit v]) (last + dt • unit v) = .ok traj → _ := 
        fun hfree h' => ih (acc := acc ++ [last + dt • unit v]) (last := last + dt • unit v)
          (by
            cases acc with
            | nil => exact absurd rfl hne
            | cons a l => simpa using hh)
          (by simp)
          (simulates_append hs hl ⟨v, hv, hv0, not_lt.mp h1, rfl, hfree⟩) h'
      cases c with
      | none =>
        obtain ⟨a1, a2, a3, a4⟩ := step (by intro g hg; cases hg) h
        refine ⟨a1, a2, by rw [List.length_append, List.length_singleton] at a3; omega, ?_⟩
        rcases a4 with a4 | a4
        · left; rw [List.length_append, List.length_singleton] at a4; omega
        · exact Or.inr a4
      | some g =>
        simp only at h
        by_cases h3 : g (last + dt • unit v) = true
        · rw [if_pos h3] at h
          cases h
          exact ⟨Or.inr hh, hs, by omega, Or.inr (Or.inl ⟨g, last, v, rfl, hl, hv, h3⟩)⟩
        · rw [if_neg h3] at h
          obtain ⟨a1, a2, a3, a4⟩ := step (by intro g' hg; cases hg; simpa using h3) h
          refine ⟨a1, a2, by rw [List.length_append, List.length_singleton] at a3; omega, ?_⟩
          rcases a4 with a4 | a4
          · left; rw [List.length_append, List.length_singleton] at a4; omega
          · exact Or.inr a4

/-- C121 (partial): the trajectory starts at the start position, every position follows from the one before by a step
of length `delta_time` in the direction of the velocity, and no position after the start is in collision.  It is
complete: either it has the maximal number of positions, or the next step leads to a collision, or to a position at
which the motion is at rest (up to the margin).

Missing: the position of rest is not part of the result (`C121_rest_lost`), and the start position is not tested for
collisions (`C121_start_untested`). -/
theorem C121_trajectory_partial (f : Vec d → Except PyErr (Vec d)) (start : Vec d) (itMax : ℕ) (dt margin : ℝ)
    (c : Option (Vec d → Bool)) (traj : List (Vec d)) (h : integrateTrajectory f start itMax dt margin c = .ok traj) :
    (traj = [] ∨ traj.head? = some start) ∧ Simulates f dt margin c traj ∧ traj.length ≤ itMax ∧ 2 ≤ itMax
      ∧ (traj.length = itMax
        ∨ (∃ g p v, c = some g ∧ traj.getLast? = some p ∧ f p = .ok v ∧ g (p + dt • unit v) = true)
        ∨ (∃ p v, f p = .ok v ∧ ‖v‖ < margin ∧ (traj ++ [p]).head? = some start
          ∧ Simulates f dt margin c (traj ++ [p]))) := by
  match itMax, h with
  | 0, h => cases h
  | 1, h => cases h
  | fuel + 2, h =>
    unfold integrateTrajectory at h
    obtain ⟨a1, a2, a3, a4⟩ := integrateLoop_spec start (fuel + 1) (acc := [start]) rfl rfl
      (simulates_single f dt margin c start) h
    have e : [start].length + (fuel + 1) = fuel + 2 := by simp; omega
    rw [e] at a3 a4
    exact ⟨a1, a2, a3, by omega, a4⟩

/-- C121: the simulation always comes to an end with a trajectory, provided that the velocity is defined everywhere,
that the margin is positive and that at least two iterations are allowed. -/
theorem C121_defined (f : Vec d → Except PyErr (Vec d)) (start : Vec d) (itMax : ℕ) (dt margin : ℝ)
    (c : Option (Vec d → Bool)) (hf : ∀ p, ∃ v, f p = .ok v) (hm : 0 < margin) (hit : 2 ≤ itMax) :
    ∃ traj, integrateTrajectory f start itMax dt margin c = .ok traj := by
  classical
  have key : ∀ (fuel : ℕ) (acc : List (Vec d)) (last : Vec d),
      ∃ traj, integrateLoop f dt margin c fuel acc last = .ok traj := by
    intro fuel
    induction fuel with
    | zero => intro acc last; exact ⟨acc, rfl⟩
    | succ fuel ih =>
      intro acc last
      obtain ⟨v, hv⟩ := hf last
      unfold integrateLoop
      by_cases h1 : ‖v‖ < margin
      · exact ⟨_, bind_ok.mpr ⟨v, hv, if_pos h1⟩⟩
      · have h2 : ¬ ‖v‖ = 0 := by linarith [not_lt.mp h1]
        cases c with
        | none =>
          obtain ⟨traj, ht⟩ := ih (acc ++ [dt • ((1 / ‖v‖) • v) + last]) (dt • ((1 / ‖v‖) • v) + last)
          refine ⟨traj, bind_ok.mpr ⟨v, hv, ?_⟩⟩
          rw [if_neg h1, if_neg h2]
          exact ht
        | some g =>
          by_cases h3 : g (dt • ((1 / ‖v‖) • v) + last) = true
          · refine ⟨acc, bind_ok.mpr ⟨v, hv, ?_⟩⟩
            rw [if_neg h1, if_neg h2]
            exact if_pos h3
          · obtain ⟨traj, ht⟩ := ih (acc ++ [dt • ((1 / ‖v‖) • v) + last]) (dt • ((1 / ‖v‖) • v) + last)
            refine ⟨traj, bind_ok.mpr ⟨v, hv, ?_⟩⟩
            rw [if_neg h1, if_neg h2]
            exact (if_neg h3).trans ht
  obtain ⟨fuel, rfl⟩ : ∃ fuel, itMax = fuel + 2 := ⟨itMax - 2, by omega⟩
  exact key (fuel + 1) [start] start

/-- C121: consecutive positions are exactly `delta_time` apart, and the whole trajectory stays within the distance
`delta_time` times the number of steps of the start. -/
theorem C121_reach (f : Vec d → Except PyErr (Vec d)) (start : Vec d) (itMax : ℕ) (dt margin : ℝ)
    (c : Option (Vec d → Bool)) (traj : List (Vec d)) (hdt : 0 ≤ dt)
    (h : integrateTrajectory f start itMax dt margin c = .ok traj) :
    (∀ (i : ℕ) (p q : Vec d), traj[i]? = some p → traj[i + 1]? = some q → ‖q - p‖ = dt)
      ∧ ∀ (i : ℕ) (p : Vec d), traj[i]? = some p → ‖p - start‖ ≤ i * dt := by
  obtain ⟨h1, h2, _⟩ := C121_trajectory_partial f start itMax dt margin c traj h
  have hstep : ∀ (i : ℕ) (p q : Vec d), traj[i]? = some p → traj[i + 1]? = some q → ‖q - p‖ = dt := by
    intro i p q hp hq
    obtain ⟨v, _, hv0, _, rfl, _⟩ := h2 i p q hp hq
    rw [add_sub_cancel_left, norm_smul, unit_norm hv0, mul_one, Real.norm_of_nonneg hdt]
  refine ⟨hstep, ?_⟩
  intro i
  induction i with
  | zero =>
    intro p hp
    rcases h1 with rfl | h1
    · simp at hp
    · rw [List.head?_eq_getElem?, hp] at h1
      cases h1
      simp
  | succ i ih =>
    intro q hq
    have hil : i + 1 < traj.length := (List.getElem?_eq_some_iff.mp hq).choose
    have hp : traj[i]? = some traj[i] := List.getElem?_eq_getElem (by omega)
    have e : q - start = (q - traj[i]) + (traj[i] - start) := by abel
    rw [e]
    refine (norm_add_le _ _).trans ?_
    rw [hstep i _ q hp hq]
    push_cast
    linarith [ih _ hp]

/-- C121, negative result: the position at which the motion comes to rest is missing from the trajectory, so that a
motion which rests at the start has no position at all. -/
theorem C121_rest_lost (f : Vec d → Except PyErr (Vec d)) (start v : Vec d) (itMax : ℕ) (dt margin : ℝ)
    (c : Option (Vec d → Bool)) (hv : f start = .ok v) (hm : ‖v‖ < margin) (hit : 2 ≤ itMax) :
    integrateTrajectory f start itMax dt margin c = .ok [] := by
  classical
  obtain ⟨fuel, rfl⟩ : ∃ fuel, itMax = fuel + 2 := ⟨itMax - 2, by omega⟩
  unfold integrateTrajectory integrateLoop
  exact bind_ok.mpr ⟨v, hv, if_pos hm⟩

/-- C121, negative result: the start position belongs to the trajectory even if it is in collision. -/
theorem C121_start_untested (f : Vec d → Except PyErr (Vec d)) (start v : Vec d) (dt margin : ℝ) (g : Vec d → Bool)
    (hv : f start = .ok v) (hv0 : v ≠ 0) (hm : margin ≤ ‖v‖) (hg : g start = true) (hfree : g (start + dt • unit v) = false) :
    ∃ traj, integrateTrajectory f start 2 dt margin (some g) = .ok traj ∧ ∃ p ∈ traj, g p = true := by
  classical
  refine ⟨[start, start + dt • unit v], ?_, start, by simp, hg⟩
  unfold integrateTrajectory integrateLoop
  refine bind_ok.mpr ⟨v, hv, ?_⟩
  rw [if_neg (not_lt.mpr hm), if_neg (norm_ne_zero_iff.mpr hv0)]
  have e : dt • ((1 / ‖v‖) • v) + start = start + dt • unit v := by rw [add_comm]; rfl
  simp only [e]
  rw [if_neg (by rw [hfree]; simp)]
  rfl

/-- C121, negative result: fewer than two iterations end with an exception. -/
theorem C121_iterations (f : Vec d → Except PyErr (Vec d)) (start : Vec d) (itMax : ℕ) (dt margin : ℝ)
    (c : Option (Vec d → Bool)) (hit : itMax < 2) :
    ∃ e, integrateTrajectory f start itMax dt margin c = .error e := by
  match itMax, hit with
  | 0, _ => exact ⟨_, rfl⟩
  | 1, _ => exact ⟨_, rfl⟩

/-- C121: the start positions are exactly the points of the regular grid (with the limits as first and last
coordinates) outside of all obstacles. -/
theorem C121_starts (n : ℕ) (hn : 2 ≤ n) (xLim yLim : ℝ × ℝ) (gamma : Vec 2 → ℝ) (p : Vec 2) :
    p ∈ startPositions n xLim yLim gamma ↔ 1 < gamma p ∧ ∃ i j : ℕ, i < n ∧ j < n
      ∧ p 0 = xLim.1 + (xLim.2 - xLim.1) * (i / (n - 1)) ∧ p 1 = yLim.1 + (yLim.2 - yLim.1) * (j / (n - 1)) := by
  classical
  have hn1 : ((n : ℝ) - 1) ≠ 0 := by
    have : (2 : ℝ) ≤ n := by exact_mod_cast hn
    linarith
  have hlin : ∀ (a b y : ℝ), y ∈ linspace a b n ↔ ∃ i : ℕ, i < n ∧ y = a + (b - a) * (i / (n - 1)) := by
    intro a b y
    unfold linspace
    rw [List.mem_map]
    constructor
    · rintro ⟨i, hi, rfl⟩
      refine ⟨i, List.mem_range.mp hi, ?_⟩
      rw [if_neg (by omega)]
      field_simp
    · rintro ⟨i, hi, rfl⟩
      refine ⟨i, List.mem_range.mpr hi, ?_⟩
      rw [if_neg (by omega)]
      field_simp
  unfold startPositions
  rw [List.mem_filter, List.mem_flatMap]
  constructor
  · rintro ⟨⟨y, hy, hp⟩, hg⟩
    obtain ⟨x, hx, rfl⟩ := List.mem_map.mp hp
    obtain ⟨j, hj, ej⟩ := (hlin _ _ _).mp hy
    obtain ⟨i, hi, ei⟩ := (hlin _ _ _).mp hx
    exact ⟨by simpa using hg, i, j, hi, hj, by simpa using ei, by simpa using ej⟩
  · rintro ⟨hg, i, j, hi, hj, e0, e1⟩
    refine ⟨⟨p 1, (hlin _ _ _).mpr ⟨j, hj, e1⟩, List.mem_map.mpr ⟨p 0, (hlin _ _ _).mpr ⟨i, hi, e0⟩, ?_⟩⟩, by simpa using hg⟩
    ext s
    fin_cases s <;> rfl

/-- C121 (partial): one trajectory is stored for every start position, in their order.

Missing: a single start position (`C121_single_start`). -/
theorem C121_files_partial (f : Vec d → Except PyErr (Vec d)) (starts : List (Vec d)) (itMax : ℕ) (dt margin : ℝ)
    (c : Option (Vec d → Bool)) (hn : 2 ≤ starts.length) (hf : ∀ p, ∃ v, f p = .ok v) (hm : 0 < margin)
    (hit : 2 ≤ itMax) :
    ∃ out, evaluateTrajectories f starts itMax dt margin c = .ok out ∧ out.length = starts.length
      ∧ ∀ (i : ℕ) (s : Vec d) (t : List (Vec d)), starts[i]? = some s → out[i]? = some t →
        integrateTrajectory f s itMax dt margin c = .ok t := by
  choose traj htraj using fun s => C121_defined f s itMax dt margin c hf hm hit
  have hall : List.Forall₂ (fun s t => integrateTrajectory f s itMax dt margin c = .ok t) starts (starts.map traj) := by
    clear hn
    induction starts with
    | nil => exact .nil
    | cons s l ih => exact .cons (htraj s) ih
  refine ⟨starts.map traj, ?_, by simp, ?_⟩
  · match starts, hn with
    | a :: b :: l, _ => exact mapM_ok.mpr hall
  · intro i s t hs ht
    rw [List.getElem?_map, hs] at ht
    cases ht
    exact htraj s

/-- C121, negative result: a file with a single start position cannot be evaluated. -/
theorem C121_single_start (f : Vec d → Except PyErr (Vec d)) (s : Vec d) (itMax : ℕ) (dt margin : ℝ)
    (c : Option (Vec d → Bool)) : evaluateTrajectories f [s] itMax dt margin c = .error .indexError := rfl

/-! ## Examples -/

/-- The hypotheses of `C121_trajectory_partial`, `C121_reach` and `C121_defined` are met by a motion with constant
velocity, which is stopped by a wall. -/
example : ∃ traj, integrateTrajectory (fun _ => .ok (!₂[1, 0] : Vec 2)) 0 10 0.01 1e-3 (some fun _ => true) = .ok traj
    ∧ traj = [0] := by
  classical
  have hn : ‖(!₂[1, 0] : Vec 2)‖ = 1 := by simp [EuclideanSpace.norm_eq]
  refine ⟨_, ?_, rfl⟩
  unfold integrateTrajectory integrateLoop
  refine bind_ok.mpr ⟨_, rfl, ?_⟩
  rw [if_neg (by rw [hn]; norm_num), if_neg (by rw [hn]; norm_num)]
  rfl

/-- The hypotheses of `C121_rest_lost` and `C121_start_untested` are met. -/
example : (∃ v : Vec 2, (fun p : Vec 2 => (.ok p : Except PyErr (Vec 2))) 0 = .ok v ∧ ‖v‖ < (1e-3 : ℝ))
    ∧ ∃ (v : Vec 2) (g : Vec 2 → Bool), (fun _ : Vec 2 => (.ok (!₂[1, 0]) : Except PyErr (Vec 2))) 0 = .ok v ∧ v ≠ 0
      ∧ (1e-3 : ℝ) ≤ ‖v‖ ∧ g 0 = true ∧ g (0 + (0.01 : ℝ) • unit v) = false := by
  classical
  have hn : ‖(!₂[1, 0] : Vec 2)‖ = 1 := by simp [EuclideanSpace.norm_eq]
  have h0 : (!₂[1, 0] : Vec 2) ≠ 0 := by intro h; rw [h] at hn; simp at hn
  refine ⟨⟨0, rfl, by rw [norm_zero]; norm_num⟩, !₂[1, 0], fun p => decide (p = 0), rfl, h0, by rw [hn]; norm_num,
    by simp, ?_⟩
  rw [zero_add, decide_eq_false_iff_not]
  intro h
  have := congrArg norm h
  rw [norm_smul, unit_norm h0] at this
  norm_num at this

/-- A grid of four points around a disc: the hypotheses of `C121_starts` are met, and there are start positions. -/
example : (!₂[2, 2] : Vec 2) ∈ startPositions 2 (-2, 2) (-2, 2) (fun p => ‖p‖) := by
  refine (C121_starts 2 le_rfl _ _ _ _).mpr ⟨?_, 1, 1, by norm_num, by norm_num, by norm_num, by norm_num⟩
  rw [EuclideanSpace.norm_eq, Fin.sum_univ_two, Real.lt_sqrt (by norm_num)]
  simp
  norm_num

/-- The hypotheses of `C121_files_partial` are met by two start positions. -/
example : 2 ≤ [(0 : Vec 2), !₂[1, 1]].length ∧ ∀ p : Vec 2, ∃ v, (fun q => (.ok (-q) : Except PyErr (Vec 2))) p = .ok v :=
  ⟨by simp, fun p => ⟨-p, rfl⟩⟩

end Verif
