import Verif.Model.Projected
import Verif.Spec.Projected

/-!
# C49: deflating and inflating an obstacle
-/

namespace Verif
open Spec Projected

section
variable {d : ℕ}

lemma relative_eq (ref : Option (Vec d)) (p : Vec d) : relative ref p = p - centre ref := by
  cases ref <;> simp [relative, centre]

lemma absolute_eq (ref : Option (Vec d)) (p : Vec d) : absolute ref p = centre ref + p := by
  cases ref <;> simp [absolute, centre, add_comm]

lemma deflate_eq (radius : Vec d → ℝ) (ref : Option (Vec d)) (p : Vec d) (w : ℝ) :
    deflate radius ref p w =
      (open Classical in
      if ‖p - centre ref‖ < radius p then some (centre ref)
      else if ‖p - centre ref‖ = 0 then none
      else some (centre ref + ((‖p - centre ref‖ - radius p * w) / ‖p - centre ref‖)
        • (p - centre ref))) := by
  unfold deflate
  simp only [relative_eq, absolute_eq, add_zero]

lemma inflate_eq [Fact (2 ≤ d)] (radius : Vec d → ℝ) (ref : Option (Vec d)) (p : Vec d) (w : ℝ)
    (hp : p ≠ centre ref) :
    inflate radius ref p w = centre ref + ((‖p - centre ref‖ + radius p * w) / ‖p - centre ref‖)
        • (p - centre ref) := by
  have h : ‖p - centre ref‖ ≠ 0 := by simpa [sub_eq_zero] using hp
  unfold inflate nudged
  simp only [relative_eq, absolute_eq, if_neg h]

/-- C49: positions inside the obstacle, and, for the full weight, on its surface, are deflated to
the centre. -/
theorem C49_centre (radius : Vec d → ℝ) (ref : Option (Vec d)) (p : Vec d) (w : ℝ)
    (hr : 0 < radius p)
    (h : ‖p - centre ref‖ < radius p ∨ (‖p - centre ref‖ = radius p ∧ w = 1)) :
    deflate radius ref p w = some (centre ref) := by
  classical
  rw [deflate_eq]
  rcases h with h | ⟨h, rfl⟩
  · rw [if_pos h]
  · rw [if_neg (by rw [h]; exact lt_irrefl _), if_neg (by rw [h]; exact hr.ne'), h]
    simp

/-- C49: outside the surface, deflating moves a position straight towards the centre, and its
distance to the centre shrinks by exactly the weighted radius. -/
theorem C49_shrinks (radius : Vec d → ℝ) (ref : Option (Vec d)) (p : Vec d) (w : ℝ)
    (hr : 0 ≤ radius p) (hw1 : w ≤ 1) (h : radius p < ‖p - centre ref‖) :
    ∃ q, deflate radius ref p w = some q
      ∧ ‖q - centre ref‖ = ‖p - centre ref‖ - radius p * w
      ∧ ∃ t : ℝ, 0 < t ∧ q = centre ref + t • (p - centre ref) := by
  classical
  have hn : 0 < ‖p - centre ref‖ := lt_of_le_of_lt hr h
  have hd : 0 < ‖p - centre ref‖ - radius p * w := by nlinarith
  refine ⟨_, by rw [deflate_eq, if_neg (not_lt.mpr h.le), if_neg hn.ne'], ?_,
    (‖p - centre ref‖ - radius p * w) / ‖p - centre ref‖, by positivity, rfl⟩
  rw [add_sub_cancel_left, norm_smul, Real.norm_eq_abs, abs_of_pos (by positivity)]
  field_simp

variable [Fact (2 ≤ d)]

/-- C49: away from the centre, inflating moves a position straight away from the centre, by exactly
the weighted radius. -/
theorem C49_grows (radius : Vec d → ℝ) (ref : Option (Vec d)) (p : Vec d) (w : ℝ)
    (hr : 0 ≤ radius p) (hw0 : 0 ≤ w) (h : p ≠ centre ref) :
    ‖inflate radius ref p w - centre ref‖ = ‖p - centre ref‖ + radius p * w
      ∧ ∃ t : ℝ, 0 < t ∧ inflate radius ref p w = centre ref + t • (p - centre ref) := by
  have hn : 0 < ‖p - centre ref‖ := by simpa [sub_eq_zero] using h
  have hd : 0 < ‖p - centre ref‖ + radius p * w := by positivity
  rw [inflate_eq radius ref p w h]
  refine ⟨?_, (‖p - centre ref‖ + radius p * w) / ‖p - centre ref‖, by positivity, rfl⟩
  rw [add_sub_cancel_left, norm_smul, Real.norm_eq_abs, abs_of_pos (by positivity)]
  field_simp

/-- C49: for a radius that depends only on the direction, inflating a deflated position outside
the obstacle gives back the position. -/
theorem C49_round_trip (radius : Vec d → ℝ) (ref : Option (Vec d))
    (hd : DirectionOnly (centre ref) radius) (p : Vec d) (w : ℝ)
    (hr : 0 ≤ radius p) (hw1 : w ≤ 1) (h : radius p < ‖p - centre ref‖) :
    ∃ q, deflate radius ref p w = some q ∧ inflate radius ref q w = p := by
  have hn : 0 < ‖p - centre ref‖ := lt_of_le_of_lt hr h
  obtain ⟨q, h1, h2, t, ht, h3⟩ := C49_shrinks radius ref p w hr hw1 h
  have hpos : 0 < ‖p - centre ref‖ - radius p * w := by nlinarith
  refine ⟨q, h1, ?_⟩
  have hq : q ≠ centre ref := by
    intro h0; rw [h0] at h2; simp at h2; linarith
  have hrad : radius q = radius p := by
    rw [h3, hd _ t ht]; congr 1; abel
  rw [inflate_eq radius ref q w hq, hrad, h2]
  have ht' : t = (‖p - centre ref‖ - radius p * w) / ‖p - centre ref‖ := by
    have h4 : ‖q - centre ref‖ = t * ‖p - centre ref‖ := by
      rw [h3, add_sub_cancel_left, norm_smul, Real.norm_eq_abs, abs_of_pos ht]
    rw [h2] at h4; field_simp; linarith
  have h5 : q - centre ref = t • (p - centre ref) := by rw [h3]; abel
  rw [h5, smul_smul, ht']
  have : (‖p - centre ref‖ - radius p * w + radius p * w) / (‖p - centre ref‖ - radius p * w) *
      ((‖p - centre ref‖ - radius p * w) / ‖p - centre ref‖) = 1 := by
    field_simp; ring
  rw [this, one_smul]; abel

/-- C49: for a radius that depends only on the direction, deflating an inflated position (with the
full weight) gives back the position, wherever it is. -/
theorem C49_round_trip_inflated (radius : Vec d → ℝ) (ref : Option (Vec d))
    (hd : DirectionOnly (centre ref) radius) (p : Vec d)
    (hr : 0 ≤ radius p) (h : p ≠ centre ref) :
    deflate radius ref (inflate radius ref p) = some p := by
  classical
  have hn : 0 < ‖p - centre ref‖ := by simpa [sub_eq_zero] using h
  obtain ⟨h1, t, ht, h2⟩ := C49_grows radius ref p 1 hr zero_le_one h
  have hrad : radius (inflate radius ref p) = radius p := by
    rw [h2, hd _ t ht]; congr 1; abel
  have hpos : 0 < ‖p - centre ref‖ + radius p := by positivity
  have ht' : t = (‖p - centre ref‖ + radius p) / ‖p - centre ref‖ := by
    have h4 : ‖inflate radius ref p - centre ref‖ = t * ‖p - centre ref‖ := by
      rw [h2, add_sub_cancel_left, norm_smul, Real.norm_eq_abs, abs_of_pos ht]
    rw [h1] at h4; field_simp; linarith
  rw [deflate_eq, hrad, h1, if_neg (by linarith), if_neg (by linarith)]
  have h5 : inflate radius ref p - centre ref = t • (p - centre ref) := by rw [h2]; abel
  rw [h5, smul_smul, ht']
  have : (‖p - centre ref‖ + radius p * 1 - radius p * 1) / (‖p - centre ref‖ + radius p * 1) *
      ((‖p - centre ref‖ + radius p) / ‖p - centre ref‖) = 1 := by
    field_simp; ring
  rw [this, one_smul]; congr 1; abel

/-- C49: the centre itself has no direction; inflating it gives a point on the first axis, a
millionth outside the radius at the centre. -/
theorem C49_inflated_centre (radius : Vec d → ℝ) (ref : Option (Vec d)) (w : ℝ) :
    inflate radius ref (centre ref) w
      = centre ref + EuclideanSpace.single i0 (1e-6 + radius (centre ref) * w) := by
  unfold inflate nudged
  simp only [relative_eq, absolute_eq, sub_self, norm_zero, if_true]
  rw [EuclideanSpace.norm_single, Real.norm_eq_abs, abs_of_pos (by norm_num)]
  congr 1
  ext i
  by_cases hi : i = i0
  · subst hi; simp; ring
  · simp [hi]

end

/-- C49 is not vacuous: a disc of radius one around `(3, 0)` in the plane and a position at
distance two. -/
example : ∃ (radius : Vec 2 → ℝ) (ref : Option (Vec 2)) (p : Vec 2),
    DirectionOnly (centre ref) radius ∧ 0 < radius p ∧ radius p < ‖p - centre ref‖ := by
  refine ⟨fun _ => 1, some !₂[3, 0], !₂[3, 2], fun _ _ _ => rfl, one_pos, ?_⟩
  have : (!₂[3, 2] : Vec 2) - centre (some !₂[3, 0]) = EuclideanSpace.single 1 2 := by
    ext i; fin_cases i <;> simp [centre]
  rw [this]; simp

end Verif
