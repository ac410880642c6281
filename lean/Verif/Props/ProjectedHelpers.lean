import Verif.Model.ProjectedHelpers
import Verif.Props.Rotation

/-!
# C148: gradients and rotations of the projected dynamics
-/

open scoped RealInnerProductSpace

namespace Verif.Projected

open Verif.Spec

variable {d : ℕ} [Fact (2 ≤ d)]

/-- C148: the gradient is zero at the attractor and otherwise a unit vector; following it brings the position straight to
the attractor: after the way `t` the distance to the attractor has decreased by `t`. -/
theorem C148_gradient (attractor position : Vec d) :
    (position = attractor → lyapunovGradient attractor position = 0)
    ∧ (position ≠ attractor → ‖lyapunovGradient attractor position‖ = 1)
    ∧ ∀ t, 0 ≤ t → t ≤ dist position attractor →
      dist (position + t • lyapunovGradient attractor position) attractor = dist position attractor - t := by
  refine ⟨?_, ?_, ?_⟩
  · rintro rfl
    simp [lyapunovGradient]
  · intro h
    have h1 : ‖attractor - position‖ ≠ 0 := norm_ne_zero_iff.mpr (sub_ne_zero.mpr h.symm)
    unfold lyapunovGradient
    simp only
    rw [if_neg h1, norm_smul, norm_div, norm_one, norm_norm, one_div, inv_mul_cancel₀ h1]
  · intro t h0 ht
    by_cases h : position = attractor
    · subst h
      rw [dist_self] at ht
      have : t = 0 := le_antisymm ht h0
      simp [this, lyapunovGradient]
    · have h1 : 0 < ‖attractor - position‖ := norm_pos_iff.mpr (sub_ne_zero.mpr (Ne.symm h))
      rw [dist_comm, dist_eq_norm] at ht
      unfold lyapunovGradient
      simp only
      rw [if_neg h1.ne', dist_comm, dist_comm position, dist_eq_norm, dist_eq_norm]
      have : attractor - (position + t • ((1 / ‖attractor - position‖) • (attractor - position)))
          = (1 - t / ‖attractor - position‖) • (attractor - position) := by
        rw [sub_smul, one_smul, smul_smul, mul_one_div, ← sub_sub]
      rw [this, norm_smul, Real.norm_of_nonneg (by rw [sub_nonneg, div_le_one h1]; exact ht), sub_mul, one_mul,
        div_mul_cancel₀ _ h1.ne']

/-- C148: the gradient of the projected dynamics is the gradient at the reference point of the obstacle, the same
everywhere. -/
theorem C148_projected_gradient (attractor reference p : Vec d) :
    projectedLyapunovGradient attractor reference p = lyapunovGradient attractor reference := rfl

lemma trivial_rotate (v : Vec d) (f : ℝ) : (trivialRotation : Rot (Vec d)).rotate v f = v := by
  simp [Rot.rotate, rotateDirection_eq, trivialRotation]

lemma norm_one_div_smul {v : Vec d} (hv : v ≠ 0) : ‖(1 / ‖v‖) • v‖ = 1 := by
  have := norm_ne_zero_iff.mpr hv
  rw [norm_smul, norm_div, norm_one, norm_norm, one_div, inv_mul_cancel₀ this]

/-- C148: the rotation of the modulation exists unless the avoided velocity is opposite to the velocity.  It is a rotation
by the angle between them, in a plane with the velocity, and it turns the velocity to the avoided velocity (unless their
directions differ by less than the tolerance of `np.allclose`). -/
theorem C148_modulation (avoid : Vec d → Vec d → Except PyErr (Vec d)) (p v m : Vec d)
    (havoid : avoid p v = .ok m) (hv : v ≠ 0) (hm : m ≠ 0) (hop : ¬ Opposite v m) (hd : d ≤ 10 ^ 15) :
    ∃ r, modulationRotation avoid p v = .ok r ∧ OrthonormalPair r.base.b0 r.base.b1
      ∧ r.angle = InnerProductGeometry.angle v m ∧ r.getFirstVector = unit v
      ∧ (¬ allclose (unit v) (unit m) ∨ unit v = unit m → r.rotate v = ‖v‖ • unit m) := by
  have hvn : 0 < ‖v‖ := norm_pos_iff.mpr hv
  have hmn : 0 < ‖m‖ := norm_pos_iff.mpr hm
  have huv : (1 / ‖v‖) • v ≠ 0 := smul_ne_zero (one_div_ne_zero hvn.ne') hv
  have hum : (1 / ‖m‖) • m ≠ 0 := smul_ne_zero (one_div_ne_zero hmn.ne') hm
  have hop' : ¬ Opposite ((1 / ‖v‖) • v) ((1 / ‖m‖) • m) := fun h => hop ((opposite_unit_iff hv hm).mp h)
  obtain ⟨r, hr⟩ := (C05_from_directions_defined_iff hd _ _).mpr ⟨huv, hum, hop'⟩
  obtain ⟨hon, hfirst, hang, -, -⟩ := C05_from_directions_valid _ _ _ hr
  have e1 : unit ((1 / ‖v‖) • v) = unit v := unit_unit hv
  have e2 : unit ((1 / ‖m‖) • m) = unit m := unit_unit hm
  refine ⟨r, ?_, hon, ?_, ?_, ?_⟩
  · unfold modulationRotation
    rw [if_neg hvn.ne', havoid]
    simp only
    rw [if_neg hmn.ne', hr]
  · rw [hang, InnerProductGeometry.angle_smul_left_of_pos _ _ (by positivity),
      InnerProductGeometry.angle_smul_right_of_pos _ _ (by positivity)]
  · rw [hfirst, e1]
  · intro hc
    have h3 := (C06_maps_first_to_second _ _ r hr (by rw [e1, e2]; exact hc)).1
    rw [e1, e2] at h3
    have h4 : r.rotate v = ‖v‖ • r.rotate (unit v) := by
      have hs : ∀ w : Vec d, r.rotate (‖v‖ • w) = ‖v‖ • r.rotate w := by
        intro w
        simp only [Rot.rotate, rotateDirection_eq, planeRot, inner_smul_right]
        module
      rw [← hs, norm_smul_unit]
    rw [h4, h3]

/-- C148: without a velocity, or if the avoidance stops, the rotation leaves every direction as it is. -/
theorem C148_modulation_rest (avoid : Vec d → Vec d → Except PyErr (Vec d)) (p v : Vec d)
    (h : v = 0 ∨ avoid p v = .ok 0) (f : ℝ) (w : Vec d) :
    ∃ r, modulationRotation avoid p v = .ok r ∧ r.rotate w f = w := by
  refine ⟨trivialRotation, ?_, trivial_rotate w f⟩
  unfold modulationRotation
  by_cases hv : ‖v‖ = 0
  · rw [if_pos hv]
  · rw [if_neg hv]
    rcases h with rfl | h
    · simp at hv
    · rw [h]
      simp

/-- C148, violated: an avoided velocity opposite to the velocity gives `nan`. -/
theorem C148_modulation_opposite (avoid : Vec d → Vec d → Except PyErr (Vec d)) (p v m : Vec d)
    (havoid : avoid p v = .ok m) (hv : v ≠ 0) (hm : m ≠ 0) (hop : Opposite v m) (hd : d ≤ 10 ^ 15) :
    modulationRotation avoid p v = .error .nan := by
  have hvn : 0 < ‖v‖ := norm_pos_iff.mpr hv
  have hmn : 0 < ‖m‖ := norm_pos_iff.mpr hm
  have hop' : Opposite ((1 / ‖v‖) • v) ((1 / ‖m‖) • m) := (opposite_unit_iff hv hm).mpr hop
  have hnone : fromDirections ((1 / ‖v‖) • v) ((1 / ‖m‖) • m) = none := by
    cases hc : fromDirections ((1 / ‖v‖) • v) ((1 / ‖m‖) • m) with
    | none => rfl
    | some r => exact absurd hop' ((C05_from_directions_defined_iff hd _ _).mp ⟨r, hc⟩).2.2
  unfold modulationRotation
  rw [if_neg hvn.ne', havoid]
  simp only
  rw [if_neg hmn.ne', hnone]

/-- C148, violated by the code: `get_projected_gamma` never gives a number below `max_gamma`: it gives `max_gamma`, or
`None`, or raises an `AttributeError`; and it raises everywhere between the two limits except at the attractor. -/
theorem C148_projected_gamma_fails (gamma : Vec d → ℝ) (minGamma maxGamma : ℝ) (attractor p : Vec d) :
    (∀ x, projectedGamma gamma minGamma maxGamma attractor p = .ok (some x) → x = maxGamma)
    ∧ (minGamma ≤ gamma p → gamma p < maxGamma → p ≠ attractor →
      projectedGamma gamma minGamma maxGamma attractor p = .error .attributeError)
    ∧ (gamma p < minGamma → gamma p < maxGamma → projectedGamma gamma minGamma maxGamma attractor p = .ok none) := by
  refine ⟨?_, ?_, ?_⟩
  · intro x h
    unfold projectedGamma at h
    split_ifs at h
    · cases h
      rfl
    · cases h
    · cases h
  · intro h1 h2 h3
    unfold projectedGamma
    rw [if_neg (not_le.mpr h2), if_pos h1, if_neg]
    rw [norm_eq_zero, sub_eq_zero]
    exact h3.symm
  · intro h1 h2
    unfold projectedGamma
    rw [if_neg (not_le.mpr h2), if_neg (not_le.mpr h1)]

/-- C148, violated by the code: the rotation of the shrunk position raises a `TypeError` at every position. -/
theorem C148_shrunk_fails (radius : Vec d → ℝ) (ref : Option (Vec d)) (attractor p : Vec d) (obstacle : Obstacle d) :
    shrunkPositionRotation radius ref attractor p obstacle = .error .typeError := by
  unfold shrunkPositionRotation deflateCall
  simp
  rfl

local instance : Fact (2 ≤ 2) := ⟨le_rfl⟩

/-- Case: an avoidance that turns `(1, 0)` to `(0, 2)`. -/
example : ∃ r, modulationRotation (fun _ _ => .ok !₂[0, 2]) 0 (!₂[1, 0] : Vec 2) = .ok r
    ∧ r.rotate !₂[1, 0] = ‖(!₂[1, 0] : Vec 2)‖ • unit !₂[0, 2] := by
  have h1 : (!₂[1, 0] : Vec 2) ≠ 0 := by
    intro h; have := congrFun (congrArg (fun x : Vec 2 => x.ofLp) h) 0; simp at this
  have h2 : (!₂[0, 2] : Vec 2) ≠ 0 := by
    intro h; have := congrFun (congrArg (fun x : Vec 2 => x.ofLp) h) 1; simp at this
  obtain ⟨r, hr, -, -, -, h⟩ := C148_modulation (fun _ _ => .ok !₂[0, 2]) 0 (!₂[1, 0] : Vec 2) !₂[0, 2] rfl h1 h2
    (by
      rintro ⟨c, -, h⟩
      have := congrFun (congrArg (fun x : Vec 2 => x.ofLp) h) 1
      simp at this) (by norm_num)
  refine ⟨r, hr, h (Or.inl ?_)⟩
  intro hc
  have n1 : ‖(!₂[1, 0] : Vec 2)‖ = 1 := by
    rw [EuclideanSpace.norm_eq]; simp [Fin.sum_univ_two]
  have n2 : ‖(!₂[0, 2] : Vec 2)‖ = 2 := by
    rw [EuclideanSpace.norm_eq]; simp [Fin.sum_univ_two]
  have := hc 0
  simp [isclose, unit, n1, n2] at this
  norm_num at this

/-- Case: the gradient at `(3, 0)` for the attractor in the origin. -/
example : dist (!₂[3, 0] + (2 : ℝ) • lyapunovGradient 0 (!₂[3, 0] : Vec 2)) 0 = dist (!₂[3, 0] : Vec 2) 0 - 2 := by
  refine (C148_gradient 0 (!₂[3, 0] : Vec 2)).2.2 2 (by norm_num) ?_
  rw [dist_zero_right, EuclideanSpace.norm_eq]
  simp [Fin.sum_univ_two]
  norm_num

end Verif.Projected
