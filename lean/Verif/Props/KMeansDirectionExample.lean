import Verif.Props.KMeansDirection
import Verif.Props.KMeansPredictExample

/-!
# C111 is not vacuous: the first region of a row of three
-/

open scoped RealInnerProductSpace

namespace Verif.KMeans
open Spec Obs

lemma norm_pair {p q : ℝ} (h : p ^ 2 + q ^ 2 = 1) : ‖(!₂[p, q] : Vec 2)‖ = 1 := by
  have := vec2_norm_sq (!₂[p, q])
  simp only [PiLp.toLp_apply, Matrix.cons_val_zero, Matrix.cons_val_one] at this
  nlinarith [norm_nonneg (!₂[p, q] : Vec 2)]

lemma lane_cell (p q t : ℝ) (h : p ^ 2 + q ^ 2 = 1) (ht : 0 ≤ t) :
    (lane 0).centers 1 + t • !₂[p, q] ∈ Cell (lane 0).centers (lane 0).radius 1 ↔ t ≤ 3 / 2 ∧ -1 ≤ t * p := by
  have e : (lane 0).centers 1 + t • !₂[p, q] = !₂[2 + t * p, t * q] := by
    ext i; fin_cases i <;> simp [lane]
  have hsq : ∀ i, ‖!₂[2 + t * p, t * q] - (lane 0).centers i‖ ^ 2 = (2 + t * p - laneX i) ^ 2 + (t * q) ^ 2 :=
    lane_sq 0 _ _
  have h1 : ‖!₂[2 + t * p, t * q] - (lane 0).centers 1‖ = t := by
    have h2 := hsq 1
    rw [laneX_one] at h2
    have h3 : ‖!₂[2 + t * p, t * q] - (lane 0).centers 1‖ ^ 2 = t ^ 2 := by
      rw [h2]; linear_combination t ^ 2 * h
    exact (sq_eq_sq₀ (norm_nonneg _) ht).mp h3
  have hle : ∀ i, t ≤ ‖!₂[2 + t * p, t * q] - (lane 0).centers i‖
      ↔ t ^ 2 ≤ (2 + t * p - laneX i) ^ 2 + (t * q) ^ 2 := by
    intro i
    rw [← hsq, sq_le_sq₀ ht (norm_nonneg _)]
  have hq : (t * p) ^ 2 + (t * q) ^ 2 = t ^ 2 := by linear_combination t ^ 2 * h
  rw [e]
  unfold Cell
  simp only [Set.mem_ofPred_eq, h1, hle]
  change t ≤ 3 / 2 ∧ _ ↔ _
  refine and_congr_right fun hR => ⟨fun hc => ?_, fun hc i => ?_⟩
  · have := hc 0
    rw [laneX_zero] at this
    nlinarith
  · fin_cases i
    · change _ ≤ (2 + t * p - laneX 0) ^ 2 + _
      rw [laneX_zero]; nlinarith
    · change _ ≤ (2 + t * p - laneX 1) ^ 2 + _
      rw [laneX_one]; nlinarith
    · change _ ≤ (2 + t * p - laneX 2) ^ 2 + _
      rw [laneX_two]; nlinarith

lemma lane_exit {p q s : ℝ} (h : p ^ 2 + q ^ 2 = 1) (hs : 0 < s)
    (hiff : ∀ t : ℝ, 0 ≤ t → (t ≤ 3 / 2 ∧ -1 ≤ t * p ↔ t ≤ s)) :
    Exit (lane 0).centers (lane 0).radius 1 ((lane 0).centers 1 + !₂[p, q])
      ((lane 0).centers 1 + s • !₂[p, q]) := by
  have hn := norm_pair h
  unfold Exit
  rw [add_sub_cancel_left, unit_of_norm_one hn]
  exact ⟨s, hs, rfl, fun t ht => (lane_cell p q t h ht).trans (hiff t ht)⟩

/-- Directions with a first coordinate of at most `-2/3` lead from region 1 to region 0. -/
lemma lane_leads {p q : ℝ} (h : p ^ 2 + q ^ 2 = 1) (hp : p ≤ -2 / 3) :
    LeadsTo (lane 0).centers (lane 0).radius 1 0 !₂[p, q] := by
  have hp0 : p < 0 := by linarith
  refine ⟨_, lane_exit (s := -1 / p) h (div_pos_of_neg_of_neg (by norm_num) hp0) ?_, ?_⟩
  · intro t ht
    rw [le_div_iff_of_neg hp0]
    constructor
    · rintro ⟨_, h2⟩; exact h2
    · intro h2
      exact ⟨by nlinarith, h2⟩
  · have e : (lane 0).centers 1 + (-1 / p) • !₂[p, q] = !₂[1, -q / p] := by
      ext i
      fin_cases i
      · simp [lane, neg_div]; rw [inv_mul_cancel₀ hp0.ne]; norm_num
      · simp [lane]; ring
    rw [e, ← abs_norm, ← abs_norm (!₂[1, -q / p] - (lane 0).centers 0), ← sq_eq_sq_iff_abs_eq_abs, lane_sq, lane_sq,
      laneX_one, laneX_zero]
    ring

/-- Directions with a first coordinate of at least `-3/5` miss the wall between the regions 1 and 0. -/
lemma lane_misses {p q : ℝ} (h : p ^ 2 + q ^ 2 = 1) (hp : -3 / 5 ≤ p) :
    Misses (lane 0).centers (lane 0).radius 1 0 !₂[p, q] := by
  refine ⟨_, lane_exit (s := 3 / 2) h (by norm_num) ?_, ?_⟩
  · intro t ht
    constructor
    · exact fun h => h.1
    · intro h2
      exact ⟨h2, by nlinarith⟩
  · have e : (lane 0).centers 1 + (3 / 2 : ℝ) • !₂[p, q] = !₂[2 + 3 / 2 * p, 3 / 2 * q] := by
      ext i; fin_cases i <;> simp [lane]
    rw [e]
    have h1 := lane_sq 0 (2 + 3 / 2 * p) (3 / 2 * q) 1
    have h0 := lane_sq 0 (2 + 3 / 2 * p) (3 / 2 * q) 0
    rw [laneX_one] at h1
    rw [laneX_zero] at h0
    have n1 : ‖!₂[2 + 3 / 2 * p, 3 / 2 * q] - (lane 0).centers 1‖ = 3 / 2 := by
      nlinarith [norm_nonneg (!₂[2 + 3 / 2 * p, 3 / 2 * q] - (lane 0).centers 1)]
    have n0 : 8 / 5 < ‖!₂[2 + 3 / 2 * p, 3 / 2 * q] - (lane 0).centers 0‖ := by
      nlinarith [norm_nonneg (!₂[2 + 3 / 2 * p, 3 / 2 * q] - (lane 0).centers 0)]
    rw [n1, abs_of_neg (by linarith)]
    linarith

/-- Region 2 is not a neighbour of region 1: every direction misses the wall to it. -/
lemma lane_misses_far {p q : ℝ} (h : p ^ 2 + q ^ 2 = 1) :
    Misses (lane 0).centers (lane 0).radius 1 2 !₂[p, q] := by
  have key : ∀ s : ℝ, 0 < s → s ≤ 3 / 2 →
      1e-8 + 1e-5 * ‖(lane 0).centers 1 + s • !₂[p, q] - (lane 0).centers 2‖
        < |‖(lane 0).centers 1 + s • !₂[p, q] - (lane 0).centers 1‖
          - ‖(lane 0).centers 1 + s • !₂[p, q] - (lane 0).centers 2‖| := by
    intro s hs hs2
    have e : (lane 0).centers 1 + s • !₂[p, q] = !₂[2 + s * p, s * q] := by
      ext i; fin_cases i <;> simp [lane]
    rw [e]
    have h1 := lane_sq 0 (2 + s * p) (s * q) 1
    have h2 := lane_sq 0 (2 + s * p) (s * q) 2
    rw [laneX_one] at h1
    rw [laneX_two] at h2
    have hq : (s * p) ^ 2 + (s * q) ^ 2 = s ^ 2 := by linear_combination s ^ 2 * h
    have hsp : -s ≤ s * p := by nlinarith [sq_nonneg q, sq_nonneg (p + 1), sq_nonneg (p - 1)]
    have n1 : ‖!₂[2 + s * p, s * q] - (lane 0).centers 1‖ ≤ 3 / 2 := by
      nlinarith [norm_nonneg (!₂[2 + s * p, s * q] - (lane 0).centers 1)]
    have n0 : 2 ≤ ‖!₂[2 + s * p, s * q] - (lane 0).centers 2‖ := by
      nlinarith [norm_nonneg (!₂[2 + s * p, s * q] - (lane 0).centers 2)]
    rw [abs_of_neg (by linarith)]
    linarith
  by_cases hp : p < -2 / 3
  · refine ⟨_, lane_exit (s := -1 / p) h (div_pos_of_neg_of_neg (by norm_num) (by linarith)) ?_, key _ ?_ ?_⟩
    · intro t ht
      rw [le_div_iff_of_neg (show p < 0 by linarith)]
      constructor
      · rintro ⟨_, h2⟩; exact h2
      · intro h2
        exact ⟨by nlinarith, h2⟩
    · exact div_pos_of_neg_of_neg (by norm_num) (by linarith)
    · rw [div_le_iff_of_neg (by linarith)]; linarith
  · refine ⟨_, lane_exit (s := 3 / 2) h (by norm_num) ?_, key _ (by norm_num) le_rfl⟩
    intro t ht
    constructor
    · exact fun h => h.1
    · intro h2
      exact ⟨h2, by nlinarith⟩

lemma lane_good_first : GoodClusters ((lane 0).region 1).centers ((lane 0).region 1).radius
    ((lane 0).region 1).index := lane_good 0 1

lemma lane_toward (i : Fin 3) (hi : i ≠ 1) : unit ((lane 0).centers i - (lane 0).centers 1) = !₂[-1, 0] := by
  unfold unit
  rw [lane_centre]
  fin_cases i
  · ext j
    fin_cases j
    · change (1 / |laneX 0 - laneX 1|) * ((lane 0).centers 0 - (lane 0).centers 1) 0 = _
      norm_num [lane, laneX]
    · simp [lane]
  · exact absurd rfl hi
  · ext j
    fin_cases j
    · change (1 / |laneX 2 - laneX 1|) * (laneX 2 - laneX 1) = -1
      norm_num
    · simp [lane]

lemma lane_away : unit ((lane 0).centers 1 - (lane 0).centers 0) = !₂[1, 0] := by
  have := lane_toward 0 (by decide)
  rw [← neg_unit, this]
  ext i; fin_cases i <;> simp

lemma unit_pair {p q : ℝ} (h : p ^ 2 + q ^ 2 = 1) : unit (!₂[p, q] : Vec 2) = !₂[p, q] := by
  exact unit_of_norm_one (norm_pair h)

lemma pair_ne {p q : ℝ} (h : q ≠ 0) : (!₂[p, q] : Vec 2) ≠ 0 := by
  intro h0
  have := congrArg (fun v : Vec 2 => v 1) h0
  exact h (by simpa using this)

/-- A mean with the contract `Bisects`. -/
noncomputable def halfMean (u v : Vec 2) : Vec 2 := unit (u + v)

lemma halfMean_bisects : Bisects halfMean := fun _ _ _ _ _ => rfl

lemma halfway_pair : unit ((!₂[7 / 25, 24 / 25] : Vec 2) + !₂[-1, 0]) = !₂[-3 / 5, 4 / 5] := by
  have e : (!₂[7 / 25, 24 / 25] : Vec 2) + !₂[-1, 0] = (6 / 5 : ℝ) • !₂[-3 / 5, 4 / 5] := by
    ext i; fin_cases i <;> simp <;> norm_num
  have hn := norm_pair (p := -3 / 5) (q := 4 / 5) (by norm_num)
  rw [e]
  unfold unit
  rw [norm_smul, hn, smul_smul]
  norm_num

lemma not_close_pair : ¬ isclose ⟪(!₂[-1, 0] : Vec 2), !₂[7 / 25, 24 / 25]⟫ (-1) := by
  rw [vec2_inner]
  unfold isclose
  simp
  norm_num [abs_of_pos]

/-- `C111_kept`: data moving in direction `(-4/5, 3/5)`. -/
example : ((lane 0).region 1).towardsParent halfMean 0 !₂[-4 / 5, 3 / 5] 10 = .ok !₂[-4 / 5, 3 / 5] := by
  have e := unit_pair (p := -4 / 5) (q := 3 / 5) (by norm_num)
  rw [C111_kept halfMean _ lane_good_first 0 rfl (by decide) 0 _ (pair_ne (by norm_num)) 10
    (Or.inl (by rw [e]; exact lane_leads (by norm_num) (by norm_num))), e]

/-- `C111_halfway`: data moving in direction `(0, 1)` at the same distance of the direction `(-1, 0)` to the next
centre; the result leads to the next region. -/
example : ∃ v, ((lane 0).region 1).towardsParent halfMean 0 !₂[0, 1] 10 = .ok v
    ∧ LeadsTo (lane 0).centers (lane 0).radius 1 0 v := by
  have e := unit_pair (p := 0) (q := 1) (by norm_num)
  have et := lane_toward 0 (by decide)
  have hs : unit ((!₂[0, 1] : Vec 2) + !₂[-1, 0]) = !₂[-1 / Real.sqrt 2, 1 / Real.sqrt 2] := by
    have hn : ‖(!₂[0, 1] : Vec 2) + !₂[-1, 0]‖ = Real.sqrt 2 := by
      rw [EuclideanSpace.norm_eq]
      congr 1
      simp
      norm_num
    unfold unit
    rw [hn]
    ext i; fin_cases i <;> simp
    ring
  have h2 : (0 : ℝ) < Real.sqrt 2 := Real.sqrt_pos.mpr (by norm_num)
  have h22 : Real.sqrt 2 ^ 2 = 2 := Real.sq_sqrt (by norm_num)
  have hlt : Real.sqrt 2 < 3 / 2 := by rw [Real.sqrt_lt' (by norm_num)]; norm_num
  obtain ⟨v, h1, h3, -⟩ := C111_halfway halfMean halfMean_bisects _ lane_good_first 0 rfl (by decide) 0
    (!₂[0, 1] : Vec 2) (pair_ne (by norm_num)) 10 (by rw [e]; exact lane_misses (by norm_num) (by norm_num))
    (by
      change LeadsTo _ _ 1 0 (unit ((lane 0).centers 0 - (lane 0).centers 1))
      rw [et]; exact lane_leads (by norm_num) (by norm_num))
    (by
      change LeadsTo _ _ 1 0 (unit (_ + unit ((lane 0).centers 0 - (lane 0).centers 1)))
      rw [e, et, hs]
      refine lane_leads ?_ ?_
      · rw [div_pow, div_pow, h22]; norm_num
      · rw [div_le_iff₀ h2]; linarith)
    (by
      change unit _ + unit ((lane 0).centers 0 - (lane 0).centers 1) ≠ 0
      rw [e, et]
      intro h0
      have := congrArg (fun v : Vec 2 => v 1) h0
      simp at this)
  exact ⟨v, h1, h3⟩

/-- `C111_opposite`: no mean velocity, and the stored direction points away from the next centre. -/
example : ((lane 0).region 1).towardsParent halfMean !₂[1, 0] 0 10 = .ok !₂[-1, 0] := by
  have h := C111_opposite halfMean _ lane_good_first 0 rfl (by decide) 0 10 (Or.inl rfl) (by
    change Misses _ _ 1 0 (unit ((lane 0).centers 1 - (lane 0).centers 0))
    rw [lane_away]; exact lane_misses (by norm_num) (by norm_num))
  have h1 := h.1 (by
    change LeadsTo _ _ 1 0 (unit ((lane 0).centers 0 - (lane 0).centers 1))
    rw [lane_toward 0 (by decide)]; exact lane_leads (by norm_num) (by norm_num))
  change towardsParent halfMean _ (unit ((lane 0).centers 1 - (lane 0).centers 0)) 0 10
    = .ok (unit ((lane 0).centers 0 - (lane 0).centers 1)) at h1
  rwa [lane_away, lane_toward 0 (by decide)] at h1

/-- `C111_misses`: data moving in direction `(7/25, 24/25)`. -/
example : ∃ v, ((lane 0).region 1).towardsParent halfMean 0 !₂[7 / 25, 24 / 25] 10 = .ok v
    ∧ Misses (lane 0).centers (lane 0).radius 1 0 v := by
  have e := unit_pair (p := 7 / 25) (q := 24 / 25) (by norm_num)
  have et := lane_toward 0 (by decide)
  refine (C111_misses halfMean halfMean_bisects _ lane_good_first 0 rfl (by decide) ?_ ?_ 0
    (!₂[7 / 25, 24 / 25] : Vec 2) (pair_ne (by norm_num)) 10 ?_ ?_ ?_).2
  · change ‖(lane 0).centers 1 - (lane 0).centers 0‖ < _
    rw [lane_centre]; norm_num [lane, Learner.region]
  · intro m h1 h0
    fin_cases m
    · exact absurd rfl h0
    · exact absurd rfl h1
    · change _ ≤ ‖(lane 0).centers 1 - (lane 0).centers 2‖
      rw [lane_centre]; norm_num [lane, Learner.region]
  · rw [e]; exact lane_misses (by norm_num) (by norm_num)
  · change Misses _ _ 1 0 (unit (_ + unit ((lane 0).centers 0 - (lane 0).centers 1)))
    rw [e, et, halfway_pair]
    exact lane_misses (by norm_num) (by norm_num)
  · change ¬ isclose ⟪unit ((lane 0).centers 0 - (lane 0).centers 1), _⟫ _
    rw [e, et]; exact not_close_pair

/-- `C111_gives_up`: a parent that is not a neighbour. -/
example : ({ (lane 0).region 1 with successor := [2] } : Obs 3 2).towardsParent halfMean 0 !₂[7 / 25, 24 / 25] 10
    = .ok !₂[7 / 25, 24 / 25] := by
  have e := unit_pair (p := 7 / 25) (q := 24 / 25) (by norm_num)
  have et := lane_toward 2 (by decide)
  rw [C111_gives_up halfMean halfMean_bisects { (lane 0).region 1 with successor := [2] } lane_good_first 2 rfl
    (by decide) 0 (!₂[7 / 25, 24 / 25] : Vec 2) (pair_ne (by norm_num)) 10 ?_ ?_ ?_ ?_, e]
  · rw [e]; exact lane_misses_far (by norm_num)
  · change Misses _ _ 1 2 (unit ((lane 0).centers 2 - (lane 0).centers 1))
    rw [et]; exact lane_misses_far (by norm_num)
  · change Misses _ _ 1 2 (unit (_ + unit ((lane 0).centers 2 - (lane 0).centers 1)))
    rw [e, et, halfway_pair]
    exact lane_misses_far (by norm_num)
  · change ¬ isclose ⟪unit ((lane 0).centers 2 - (lane 0).centers 1), _⟫ _
    rw [e, et]; exact not_close_pair

/-- `C111_unit`, for a mean velocity of zero. -/
example : (∃ v, ((lane 0).region 1).towardsParent (fun u _ => u) !₂[0, 1] 0 10 = .ok v ∧ ‖v‖ = 1)
    ∨ ((lane 0).region 1).towardsParent (fun u _ => u) !₂[0, 1] 0 10 = .error .notImplemented :=
  C111_unit _ (fun _ _ h _ => h) _ lane_good_first 0 rfl (by decide) _ _ (norm_pair (by norm_num)) 10

/-- `C111_fit`: cluster 1 of the row, with data moving in direction `(-4, 3)`; cluster 2 contains the
attractor. -/
example (root : LocalFlow 2) (flow : Vec 2 → LocalFlow 2) :
    (lane 0).fitDynamics halfMean root flow (fun _ => 0) [(1, !₂[-4, 3]), (0, !₂[-1, 0])] 1
      = .ok (flow !₂[-4 / 5, 3 / 5])
    ∧ (lane 0).fitDynamics halfMean root flow (fun _ => 0) [(1, !₂[-4, 3])] 2 = .ok root
    ∧ (lane 0).fitDynamics halfMean root flow (fun _ => 0) [(1, !₂[-4, 3])] 0 = .error .nan := by
  have e : unit (!₂[-4, 3] : Vec 2) = !₂[-4 / 5, 3 / 5] := by
    have h1 : (!₂[-4, 3] : Vec 2) = (5 : ℝ) • !₂[-4 / 5, 3 / 5] := by
      ext i; fin_cases i <;> simp <;> norm_num
    rw [h1]
    unfold unit
    rw [norm_smul, norm_pair (by norm_num), smul_smul]
    norm_num
  have hm : (1 / (([!₂[-4, 3]] : List (Vec 2)).length : ℝ)) • ([!₂[-4, 3]] : List (Vec 2)).sum = !₂[-4, 3] := by
    simp
  refine ⟨?_, (C111_fit halfMean (lane 0) root flow _ _ 2).1 rfl,
    (C111_fit halfMean (lane 0) root flow _ _ 0).2.1 0 rfl (by decide)⟩
  have h := ((C111_fit halfMean (lane 0) root flow (fun _ => 0) [(1, !₂[-4, 3]), (0, !₂[-1, 0])] 1).2.2 1 0 rfl
    lane_good_first rfl (by decide) !₂[-4, 3] ([!₂[-4, 3]]) rfl (by simp) (by simp)).1 (pair_ne (by norm_num))
    (Or.inl (by rw [e]; exact lane_leads (by norm_num) (by norm_num)))
  rw [h, e]

/-- `C111_breakpoint`: the last region has no parent. -/
example : ((lane 0).region 2).towardsParent halfMean 0 !₂[0, 1] 10 = .error .breakpoint :=
  C111_breakpoint halfMean _ (by decide) 0 _ 10

end Verif.KMeans
