import Verif.Props.KMeansExclusive
import Verif.Props.KMeansPredictExample

/-!
# C127 is not vacuous: three regions in a row in the plane
-/

open scoped RealInnerProductSpace

namespace Verif.KMeans
open Spec Obs

/-- Sorting the indices by insertion. -/
noncomputable def insertionArgsort {n : ℕ} (f : Fin n → ℝ) : List (Fin n) :=
  open Classical in (List.finRange n).insertionSort (fun i j => f i ≤ f j)

lemma insertionArgsort_sorts {n : ℕ} : SortsIndices (insertionArgsort (n := n)) := by
  intro f
  classical
  haveI : Std.Total (fun i j : Fin n => f i ≤ f j) := ⟨fun i j => le_total _ _⟩
  haveI : IsTrans (Fin n) (fun i j : Fin n => f i ≤ f j) := ⟨fun i j k => le_trans⟩
  exact ⟨List.perm_insertionSort _ _, List.pairwise_insertionSort _ _⟩

/-- The lane with other dynamics outside. -/
noncomputable def laneWith (v : Vec 2) : Learner 3 2 := { lane 0 with outside := fun _ => v }

lemma lane_two (p : ℝ) (i : Fin 3) : ‖!₂[p, 0] - (lane 0).centers i‖ = |p - laneX i| := lane_line 0 p i

/-- At `(p, 0)` left of the last centre: the closest two centres. -/
lemma lane_left {p : ℝ} (hp : p < -2) : ClosestTwo (lane 0).centers !₂[p, 0] 2 0
    ∧ ‖!₂[p, 0] - (lane 0).centers 2‖ = -2 - p ∧ ‖!₂[p, 0] - (lane 0).centers 0‖ = -p := by
  have h2 : ‖!₂[p, 0] - (lane 0).centers 2‖ = -2 - p := by
    rw [lane_two, laneX_two, abs_of_neg (by linarith)]; ring
  have h0 : ‖!₂[p, 0] - (lane 0).centers 0‖ = -p := by
    rw [lane_two, laneX_zero, abs_of_neg (by linarith)]; ring
  have h1 : ‖!₂[p, 0] - (lane 0).centers 1‖ = 2 - p := by
    rw [lane_two, laneX_one, abs_of_neg (by linarith)]; ring
  refine ⟨⟨by decide, by rw [h2, h0]; linarith, ?_⟩, h2, h0⟩
  intro m hm
  fin_cases m
  · exact le_rfl
  · change ‖!₂[p, 0] - (lane 0).centers 0‖ ≤ ‖!₂[p, 0] - (lane 0).centers 1‖
    rw [h0, h1]; linarith
  · exact absurd rfl hm

lemma lane_angle {p c : ℝ} (hp : p < -2) (hc : 0 < c) :
    InnerProductGeometry.angle ((lane 0).centers 2 - !₂[p, 0]) (!₂[c, 0] : Vec 2) ≠ Real.pi := by
  intro h
  have h1 := InnerProductGeometry.inner_eq_neg_mul_norm_of_angle_eq_pi h
  rw [vec2_inner] at h1
  have h2 : (0 : ℝ) ≤ ‖(lane 0).centers 2 - !₂[p, 0]‖ * ‖(!₂[c, 0] : Vec 2)‖ := by positivity
  have h3 : ((lane 0).centers 2 - !₂[p, 0]) 0 = -2 - p := by simp [lane]
  have h4 : ((lane 0).centers 2 - !₂[p, 0]) 1 = 0 := by simp [lane]
  rw [h3, h4] at h1
  have h5 : (!₂[c, 0] : Vec 2) 0 = c := by simp
  rw [h5] at h1
  have : 0 < (-2 - p) * c := mul_pos (by linarith) hc
  linarith

/-- `C127_far`. -/
example : predictExclusive Rotational.planar.mean insertionArgsort (lane 0) !₂[0, 10] = .ok ((lane 0).outside !₂[0, 10]) := by
  refine C127_far _ _ insertionArgsort_sorts (by norm_num) _ _ _ _ ?_
  intro i
  have h := lane_sq 0 0 10 i
  have hr : (lane 0).radius = 3 / 2 := rfl
  rw [hr]
  nlinarith [norm_nonneg (!₂[0, 10] - (lane 0).centers i), sq_nonneg (0 - laneX i)]

/-- `C127_between`: on the wall between the first two clusters. -/
example : predictExclusive Rotational.planar.mean insertionArgsort (lane 0) !₂[1, 0] = .ok ((lane 0).outside !₂[1, 0]) := by
  have h0 : ‖!₂[1, 0] - (lane 0).centers 0‖ = 1 := by rw [lane_two, laneX_zero]; norm_num
  have h1 : ‖!₂[1, 0] - (lane 0).centers 1‖ = 1 := by rw [lane_two, laneX_one]; norm_num
  have h2 : ‖!₂[1, 0] - (lane 0).centers 2‖ = 3 := by rw [lane_two, laneX_two]; norm_num
  refine C127_between _ _ insertionArgsort_sorts _ _ _ _ (by norm_num [lane]) (by norm_num) (by norm_num) 0 1
    ⟨by decide, by rw [h0, h1], ?_⟩ (by rw [h0, h1])
  intro m hm
  fin_cases m
  · exact absurd rfl hm
  · exact le_rfl
  · change ‖!₂[1, 0] - (lane 0).centers 1‖ ≤ ‖!₂[1, 0] - (lane 0).centers 2‖
    rw [h1, h2]; norm_num

/-- `C127_near` and `C127_surface_fails`: beyond the end of the lane, and on its surface. -/
example :
    (∃ w : ℝ, 0 < w ∧ w ≤ 1 ∧ predictExclusive Rotational.planar.mean insertionArgsort (laneWith !₂[2, 0]) !₂[-15 / 2, 0]
      = .ok (Rotational.planar.mean !₂[2, 0] [w, 1 - w] [unit ((lane 0).centers 2 - !₂[-15 / 2, 0]), !₂[2, 0]]))
    ∧ ∃ w : ℝ, 0 < w ∧ w < 1 ∧ predictExclusive Rotational.planar.mean insertionArgsort (laneWith !₂[2, 0]) !₂[-7 / 2, 0]
      = .ok (Rotational.planar.mean !₂[2, 0] [w, 1 - w] [unit ((lane 0).centers 2 - !₂[-7 / 2, 0]), !₂[2, 0]]) := by
  have hr : (laneWith !₂[2, 0]).radius = 3 / 2 := rfl
  have hv : (!₂[2, 0] : Vec 2) ≠ 0 := by
    intro h
    have := congrArg (fun v : Vec 2 => v 0) h
    norm_num at this
  constructor
  · obtain ⟨hc, h2, h0⟩ := lane_left (p := -15 / 2) (by norm_num)
    exact ⟨_, (C127_near Rotational.planar.mean insertionArgsort insertionArgsort_sorts (laneWith !₂[2, 0])
      !₂[-15 / 2, 0] 4 1 (by rw [hr]; norm_num) (by norm_num) (by norm_num) 2 0 hc
      (by change ‖_ - (lane 0).centers 2‖ < ‖_ - (lane 0).centers 0‖; rw [h2, h0]; norm_num)
      (by change ‖_ - (lane 0).centers 2‖ < _; rw [h2, hr]; norm_num)
      (by change _ ≤ ‖_ - (lane 0).centers 2‖; rw [h2, hr]; norm_num) hv _ rfl).1
      (lane_angle (by norm_num) (by norm_num))⟩
  · obtain ⟨hc, h2, h0⟩ := lane_left (p := -7 / 2) (by norm_num)
    exact C127_surface_fails Rotational.planar.mean insertionArgsort insertionArgsort_sorts (laneWith !₂[2, 0])
      !₂[-7 / 2, 0] 4 1 (by rw [hr]; norm_num) (by norm_num) (by norm_num) 2 0 hc
      (by change ‖_ - (lane 0).centers 2‖ = _; rw [h2, hr]; norm_num)
      (by change _ < ‖_ - (lane 0).centers 0‖; rw [h0, hr]; norm_num)
      (by change ‖_ - (lane 0).centers 0‖ < _; rw [h0, hr]; norm_num) hv
      (lane_angle (by norm_num) (by norm_num))

/-- `C127_surface_partial`, with the cut-off distance of two radii. -/
example : predictExclusive laneExt.rot.mean insertionArgsort (laneWith !₂[1, 0]) !₂[-7 / 2, 0] 2
    = .ok (unit ((lane 0).centers 2 - !₂[-7 / 2, 0])) := by
  have hr : (laneWith !₂[1, 0]).radius = 3 / 2 := rfl
  obtain ⟨hc, h2, h0⟩ := lane_left (p := -7 / 2) (by norm_num)
  refine C127_surface_partial laneExt Rotational.planar_sane insertionArgsort insertionArgsort_sorts (laneWith !₂[1, 0])
      !₂[-7 / 2, 0] 2 1 (by rw [hr]; norm_num) (by norm_num) (by norm_num) 2 0 hc
      (by change ‖_ - (lane 0).centers 2‖ = _; rw [h2, hr]; norm_num)
      (by change _ ≤ ‖_ - (lane 0).centers 0‖; rw [h0, hr]; norm_num) ?_
      (lane_angle (by norm_num) (by norm_num))
  change ‖(!₂[1, 0] : Vec 2)‖ = 1
  rw [EuclideanSpace.norm_eq, Fin.sum_univ_two]
  norm_num

/-- `C127_rest`: no motion outside. -/
example : predictExclusive Rotational.planar.mean insertionArgsort (laneWith 0) !₂[-15 / 2, 0] = .error .nan := by
  have hr : (laneWith 0).radius = 3 / 2 := rfl
  obtain ⟨hc, h2, h0⟩ := lane_left (p := -15 / 2) (by norm_num)
  exact C127_rest Rotational.planar.mean insertionArgsort insertionArgsort_sorts (laneWith 0)
      !₂[-15 / 2, 0] 4 1 (by rw [hr]; norm_num) (by norm_num) (by norm_num) 2 0 hc
      (by change ‖_ - (lane 0).centers 2‖ < ‖_ - (lane 0).centers 0‖; rw [h2, h0]; norm_num)
      (by change ‖_ - (lane 0).centers 2‖ < _; rw [h2, hr]; norm_num) rfl

end Verif.KMeans
