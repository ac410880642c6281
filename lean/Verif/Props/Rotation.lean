import Verif.Lemmas.FromDirections
import Mathlib.Analysis.SpecialFunctions.Trigonometric.Bounds

/-!
# Property theorems C01 – C09: rotations between directions

Model: `Verif.Model.VectorRotation` (vector_rotation.py:31-213).
Specification vocabulary: `Verif.Spec.Geometry`.
-/

open scoped RealInnerProductSpace
open Verif.Spec

namespace Verif

section Generic
variable {V : Type*} [NormedAddCommGroup V] [InnerProductSpace ℝ V]

/-! ## C01 -/

/-- C01: rotating keeps the length of every vector. -/
theorem C01_rotate_norm (r : Rot V) (h : OrthonormalPair r.base.b0 r.base.b1) (v : V) (f : ℝ) :
    ‖r.rotate v f‖ = ‖v‖ := by
  rw [Rot.rotate, rotateDirection_eq, planeRot_norm h]

/-- C01: rotating keeps all dot products, hence all angles. -/
theorem C01_rotate_inner (r : Rot V) (h : OrthonormalPair r.base.b0 r.base.b1) (v w : V) (f : ℝ) :
    ⟪r.rotate v f, r.rotate w f⟫ = ⟪v, w⟫
    ∧ InnerProductGeometry.angle (r.rotate v f) (r.rotate w f) = InnerProductGeometry.angle v w := by
  have key : ⟪r.rotate v f, r.rotate w f⟫ = ⟪v, w⟫ := by
    rw [Rot.rotate, Rot.rotate, rotateDirection_eq, rotateDirection_eq, planeRot_inner h]
  refine ⟨key, ?_⟩
  rw [InnerProductGeometry.angle, InnerProductGeometry.angle, key, C01_rotate_norm r h,
    C01_rotate_norm r h]

/-- C01: the zero vector is returned unchanged (for any base whatsoever). -/
theorem C01_rotate_zero (r : Rot V) (f : ℝ) : r.rotate (0 : V) f = 0 := by
  rw [Rot.rotate, rotateDirection_eq, planeRot_zero_vec]

/-! ## C02 -/

/-- C02: `inverse_rotate` undoes `rotate` and conversely; `inv()` is the same map;
inverting twice gives back the rotation. -/
theorem C02_inverse (r : Rot V) (h : OrthonormalPair r.base.b0 r.base.b1) (v : V) :
    r.inverseRotate (r.rotate v) = v ∧ r.rotate (r.inverseRotate v) = v
    ∧ r.inv.rotate v = r.inverseRotate v ∧ r.inv.inv = r := by
  refine ⟨?_, ?_, ?_, ?_⟩
  · simp only [Rot.inverseRotate, Rot.rotate, rotateDirection_eq, planeRot_planeRot h]
    simp
  · simp only [Rot.inverseRotate, Rot.rotate, rotateDirection_eq, planeRot_planeRot h]
    simp
  · simp [Rot.inverseRotate, Rot.rotate, Rot.inv]
  · ext <;> simp [Rot.inv]

/-! ## C03 -/

/-- C03: rotation factors add up. -/
theorem C03_rotate_add (r : Rot V) (h : OrthonormalPair r.base.b0 r.base.b1) (v : V) (a b : ℝ) :
    r.rotate (r.rotate v a) b = r.rotate v (a + b) ∧ r.rotate v 0 = v := by
  constructor
  · simp only [Rot.rotate, rotateDirection_eq, planeRot_planeRot h]
    congr 1; ring
  · simp [Rot.rotate, rotateDirection_eq]

/-- C03: `n` equal partial rotations compose to the full rotation. -/
theorem C03_rotate_parts (r : Rot V) (h : OrthonormalPair r.base.b0 r.base.b1) (v : V)
    (n : ℕ) (hn : 0 < n) :
    (fun x => r.rotate x (1 / n))^[n] v = r.rotate v := by
  have gen : ∀ k : ℕ, (fun x => r.rotate x (1 / n))^[k] v = r.rotate v (k * (1 / n)) := by
    intro k
    induction k with
    | zero => simp [(C03_rotate_add r h v 0 0).2]
    | succ k ih =>
      rw [Function.iterate_succ_apply', ih, (C03_rotate_add r h v _ _).1]
      congr 1; push_cast; ring
  rw [gen n]
  have : (n : ℝ) ≠ 0 := by positivity
  congr 1; field_simp

/-! ## C04 -/

/-- C04: `rotate` is the rotation by `f * angle` in the oriented plane of its base. -/
theorem C04_rotate_isPlaneRotation (r : Rot V) (h : OrthonormalPair r.base.b0 r.base.b1) (f : ℝ) :
    IsPlaneRotation r.base.b0 r.base.b1 (f * r.angle) (fun v => r.rotate v f) := by
  constructor
  · intro v w; simp only [Rot.rotate, rotateDirection_eq, planeRot_add_vec]
  · intro c v; simp only [Rot.rotate, rotateDirection_eq, planeRot_smul]
  · simp only [Rot.rotate, rotateDirection_eq, planeRot_b0 h]
  · simp only [Rot.rotate, rotateDirection_eq, planeRot_b1 h]
  · intro v h0 h1; simp only [Rot.rotate, rotateDirection_eq, planeRot_orth _ _ _ h0 h1]

/-! ## C09 -/

/-- C09: on non-zero columns `rotate_array` rotates each normalised column like
`rotate_direction`; every returned column is a unit vector. -/
theorem C09_rotateArray (cols : List V) (hc : ∀ v ∈ cols, v ≠ 0) (B : Base V)
    (h : OrthonormalPair B.b0 B.b1) (θ : ℝ) :
    ∃ out, rotateArray cols B θ = some out
      ∧ out = cols.map (fun v => rotateDirection (unit v) B θ)
      ∧ ∀ w ∈ out, ‖w‖ = 1 := by
  refine ⟨cols.map (fun v => rotateDirection (unit v) B θ), ?_, rfl, ?_⟩
  · unfold rotateArray
    induction cols with
    | nil => rfl
    | cons v cols ih =>
      rw [List.mapM_cons, ih (fun w hw => hc w (List.mem_cons_of_mem _ hw)),
        rotateColumn_eq v (hc v List.mem_cons_self)]
      simp [rotateDirection_eq, unit]
  · intro w hw
    obtain ⟨v, hv, rfl⟩ := List.mem_map.mp hw
    rw [rotateDirection_eq, planeRot_norm h, unit_norm (hc v hv)]

/-- C09: for unit columns `rotate_array` is `rotate_direction` column by column. -/
theorem C09_rotateArray_unit (cols : List V) (hc : ∀ v ∈ cols, ‖v‖ = 1) (B : Base V)
    (h : OrthonormalPair B.b0 B.b1) (θ : ℝ) :
    rotateArray cols B θ = some (cols.map (fun v => rotateDirection v B θ)) := by
  obtain ⟨out, h1, h2, _⟩ := C09_rotateArray cols
    (fun v hv h0 => by have := hc v hv; rw [h0] at this; simp at this) B h θ
  rw [h1, h2]
  congr 1
  apply List.map_congr_left
  intro v hv; rw [unit_of_norm_one (hc v hv)]

/-- C09: a zero column makes the result not-a-number. -/
theorem C09_rotateArray_zero (cols : List V) (hc : (0 : V) ∈ cols) (B : Base V) (θ : ℝ) :
    rotateArray cols B θ = none := by
  unfold rotateArray
  induction cols with
  | nil => simp at hc
  | cons v cols ih =>
    rw [List.mapM_cons]
    rcases List.mem_cons.mp hc with h0 | h0
    · subst h0; simp [rotateColumn_zero]
    · rw [ih h0]; cases rotateColumn B θ v <;> rfl

/-- C09: the length of a column that is not a unit vector is *not* restored, in
contrast to `rotate_direction`. -/
theorem C09_rotateArray_drops_length (v : V) (h0 : v ≠ 0) (h1 : ‖v‖ ≠ 1) (B : Base V)
    (h : OrthonormalPair B.b0 B.b1) (θ : ℝ) :
    rotateArray [v] B θ ≠ some [rotateDirection v B θ] := by
  obtain ⟨out, e, _, hn⟩ := C09_rotateArray [v] (by simpa using h0) B h θ
  rw [e]
  intro hh
  have : out = [rotateDirection v B θ] := by simpa using hh
  have := hn (rotateDirection v B θ) (by rw [this]; simp)
  rw [rotateDirection_eq, planeRot_norm h] at this
  exact h1 this

end Generic

section Coordinates
variable {d : ℕ} [h2 : Fact (2 ≤ d)]

/-! ## C05 -/

/-- C05: whenever `from_directions` returns numbers, the base is orthonormal,
starts at the first direction, and the angle is the angle between the inputs. -/
theorem C05_from_directions_valid (u v : Vec d) (r : Rot (Vec d))
    (h : fromDirections u v = some r) :
    OrthonormalPair r.base.b0 r.base.b1 ∧ r.getFirstVector = unit u
    ∧ r.angle = InnerProductGeometry.angle u v ∧ 0 ≤ r.angle ∧ r.angle ≤ Real.pi := by
  obtain ⟨_, _, h1, h2, h3⟩ := fromDirections_some h
  exact ⟨h1, h2, h3, h3 ▸ InnerProductGeometry.angle_nonneg _ _,
    h3 ▸ InnerProductGeometry.angle_le_pi _ _⟩

/-- C05: `from_directions` returns numbers exactly for non-zero inputs that are
not exactly opposite (in every dimension a computer can hold). -/
theorem C05_from_directions_defined_iff (hd : d ≤ 10 ^ 15) (u v : Vec d) :
    (∃ r, fromDirections u v = some r) ↔ u ≠ 0 ∧ v ≠ 0 ∧ ¬ Opposite u v := by
  constructor
  · rintro ⟨r, hr⟩
    obtain ⟨hu, hv, _⟩ := fromDirections_some hr
    refine ⟨hu, hv, fun ho => ?_⟩
    rw [fromDirections_opposite hu hv (opposite_not_allclose hd hu hv ho) ho] at hr
    cases hr
  · rintro ⟨hu, hv, ho⟩
    by_cases hc : allclose (unit u) (unit v)
    · exact ⟨_, fromDirections_close hu hv hc⟩
    · exact ⟨_, fromDirections_far hu hv hc ho⟩

/-! ## C06 -/

/-- C06: outside the tolerance (or for equal directions) the rotation built from
`(u, v)` turns `u` into the direction of `v`. -/
theorem C06_maps_first_to_second (u v : Vec d) (r : Rot (Vec d))
    (h : fromDirections u v = some r)
    (hc : ¬ allclose (unit u) (unit v) ∨ unit u = unit v) :
    r.rotate (unit u) = unit v ∧ r.getSecondVector = unit v ∧ r.rotate u = ‖u‖ • unit v := by
  obtain ⟨hu, hv, hon, h0, ha⟩ := fromDirections_some h
  have key : r.rotate (unit u) = unit v := by
    rw [Rot.rotate, rotateDirection_eq, one_mul, ← h0, planeRot_b0 hon]
    rcases hc with hc | hc
    · exact fromDirections_far_maps h hc
    · have : r.angle = 0 := by
        rw [ha, ← Real.arccos_cos (InnerProductGeometry.angle_nonneg u v)
          (InnerProductGeometry.angle_le_pi u v), ← inner_unit_unit_eq_cos, hc,
          real_inner_self_eq_norm_sq, unit_norm hv]
        simp
      rw [this, h0, hc]; simp
  refine ⟨key, ?_, ?_⟩
  · have h2 := key
    rw [Rot.rotate, one_mul, ← h0] at h2
    exact h2
  · have e : u = ‖u‖ • unit u := (norm_smul_unit u).symm
    conv_lhs => rw [e]
    rw [Rot.rotate, rotateDirection_eq, planeRot_smul, ← rotateDirection_eq]
    rw [Rot.rotate] at key
    rw [key]

/-- C06: within the tolerance the result misses the direction of `v` by at most
twice the distance of the two directions. -/
theorem C06_error_within_tolerance (u v : Vec d) (r : Rot (Vec d))
    (h : fromDirections u v = some r) :
    ‖r.rotate (unit u) - unit v‖ ≤ 2 * ‖unit u - unit v‖ := by
  obtain ⟨hu, hv, hon, h0, ha⟩ := fromDirections_some h
  have e1 : ‖r.rotate (unit u) - unit u‖ = ‖unit u - unit v‖ := by
    rw [← sq_eq_sq₀ (norm_nonneg _) (norm_nonneg _), norm_sub_sq_real, norm_sub_sq_real,
      C01_rotate_norm r hon, unit_norm hu, unit_norm hv, inner_unit_unit_eq_cos, ← ha,
      Rot.rotate, rotateDirection_eq, one_mul, ← h0, planeRot_b0 hon, inner_add_left,
      inner_smul_left, inner_smul_left, hon.i00, hon.i10]
    simp
  calc ‖r.rotate (unit u) - unit v‖ = ‖(r.rotate (unit u) - unit u) + (unit u - unit v)‖ := by
        congr 1; abel
    _ ≤ ‖r.rotate (unit u) - unit u‖ + ‖unit u - unit v‖ := norm_add_le _ _
    _ = 2 * ‖unit u - unit v‖ := by rw [e1]; ring

end Coordinates

/-! ## Concrete instances used for the non-vacuity checks -/

instance : Fact (2 ≤ 2) := ⟨le_refl _⟩
instance : Fact (2 ≤ 3) := ⟨by norm_num⟩

/-- The first coordinate vectors of three-dimensional space. -/
noncomputable def e3 (i : Fin 3) : Vec 3 := EuclideanSpace.single i 1

lemma e3_on {i j : Fin 3} (h : i ≠ j) : OrthonormalPair (e3 i) (e3 j) :=
  ⟨by simp [e3], by simp [e3], by simp [e3, EuclideanSpace.inner_single_left, h]⟩

/-- C01–C04, C09 are not vacuous: an orthonormal base in 3D with a non-trivial
angle, acting on a vector outside its plane. -/
example : OrthonormalPair (⟨⟨e3 0, e3 1⟩, Real.pi / 3⟩ : Rot (Vec 3)).base.b0 (e3 1)
    ∧ e3 2 ≠ 0 ∧ ‖(2 : ℝ) • e3 0‖ ≠ 1 :=
  ⟨e3_on (by decide), by intro h; have := congrArg (fun v : Vec 3 => v 2) h; simp [e3] at this,
    by simp [e3, norm_smul]⟩

lemma e3_not_allclose {i j : Fin 3} (h : i ≠ j) : ¬ allclose (e3 i) (e3 j) := by
  intro hc
  have := hc i
  simp [isclose, e3, h] at this
  norm_num at this

lemma e3_unit (i : Fin 3) : unit (e3 i) = e3 i := unit_of_norm_one (by simp [e3])

lemma e3_ne_zero (i : Fin 3) : e3 i ≠ 0 := by
  intro h; have := congrArg (fun v : Vec 3 => v i) h; simp [e3] at this

lemma e3_not_opposite {i j : Fin 3} (h : i ≠ j) : ¬ Opposite (e3 i) (e3 j) := by
  rw [opposite_iff_inner (e3_ne_zero i) (e3_ne_zero j), e3_unit, e3_unit, (e3_on h).orth]
  norm_num

/-- C05–C08: two perpendicular directions in 3D meet all hypotheses. -/
example : ∃ r, fromDirections (e3 0) (e3 2) = some r ∧ ¬ allclose (unit (e3 0)) (unit (e3 2)) := by
  have h := (C05_from_directions_defined_iff (d := 3) (by norm_num) (e3 0) (e3 2)).mpr
    ⟨e3_ne_zero _, e3_ne_zero _, e3_not_opposite (by decide)⟩
  obtain ⟨r, hr⟩ := h
  exact ⟨r, hr, by rw [e3_unit, e3_unit]; exact e3_not_allclose (by decide)⟩

/-- C05: opposite inputs, one of the two rejected classes, exist. -/
example : fromDirections (e3 0) (-(e3 0)) = none := by
  have ho : Opposite (e3 0) (-(e3 0)) := ⟨1, one_pos, by simp⟩
  have hn : -(e3 0) ≠ (0 : Vec 3) := neg_ne_zero.mpr (e3_ne_zero _)
  exact fromDirections_opposite (e3_ne_zero _) hn
    (opposite_not_allclose (by norm_num) (e3_ne_zero _) hn ho) ho

/-- C06: inside the tolerance the rotation is not exact: from `(1,0)` to
`(cos t, sin t)` with `t = 1e-9` the rotation turns the wrong way. -/
theorem C06_inexact_within_tolerance :
    ∃ (u v : Vec 2) (r : Rot (Vec 2)), fromDirections u v = some r
      ∧ r.rotate (unit u) ≠ unit v := by
  have hs0 : 0 < Real.sin 1e-9 := Real.sin_pos_of_pos_of_lt_pi (by norm_num)
    (by have := Real.two_le_pi; norm_num; linarith)
  have hs1 : Real.sin 1e-9 ≤ 1e-9 := Real.sin_le (by norm_num)
  have hc1 : Real.cos 1e-9 ≤ 1 := Real.cos_le_one _
  have hc0 : 1 - 1e-9 ≤ Real.cos 1e-9 := by
    have := Real.one_sub_sq_div_two_le_cos (x := 1e-9)
    norm_num at this ⊢; linarith
  let u : Vec 2 := !₂[1, 0]
  let v : Vec 2 := !₂[Real.cos 1e-9, Real.sin 1e-9]
  have hu1 : ‖u‖ = 1 := by simp [u, EuclideanSpace.norm_eq]
  have hv1 : ‖v‖ = 1 := by simp [v, EuclideanSpace.norm_eq, Real.cos_sq_add_sin_sq]
  have hu0 : u ≠ 0 := by intro h; rw [h] at hu1; simp at hu1
  have hv0 : v ≠ 0 := by intro h; rw [h] at hv1; simp at hv1
  have hcl : allclose (unit u) (unit v) := by
    rw [unit_of_norm_one hu1, unit_of_norm_one hv1]
    intro i
    fin_cases i
    · simp only [isclose, u, v]
      simp
      have h3 := abs_nonneg (Real.cos 1e-9)
      rw [abs_le]
      norm_num at h3 hc0 hc1 ⊢
      have h3 := abs_nonneg (Real.cos (1 / 1000000000))
      constructor <;> linarith
    · simp only [isclose, u, v]
      simp
      rw [abs_of_pos hs0]
      norm_num at *; linarith
  refine ⟨u, v, _, fromDirections_close hu0 hv0 hcl, ?_⟩
  intro he
  have hon : OrthonormalPair (unit u) (parallelPerp (unit u)) :=
    ⟨unit_norm hu0, parallelPerp_norm _, parallelPerp_orth _⟩
  have hang : InnerProductGeometry.angle u v = 1e-9 := by
    rw [InnerProductGeometry.angle, hu1, hv1]
    have : ⟪u, v⟫ = Real.cos 1e-9 := by
      simp [u, v, PiLp.inner_apply]
    rw [this, one_mul, div_one, Real.arccos_cos (by norm_num)
      (by have := Real.two_le_pi; norm_num; linarith)]
  have he' : Real.cos 1e-9 • unit u + Real.sin 1e-9 • parallelPerp (unit u) = unit v := by
    rw [Rot.rotate, rotateDirection_eq, one_mul] at he
    have h4 := planeRot_b0 (B := ⟨unit u, parallelPerp (unit u)⟩) hon
      (InnerProductGeometry.angle u v)
    rw [hang] at h4 he
    rw [← h4]; exact he
  have hp : parallelPerp (unit u) (1 : Fin 2) = -1 := by
    rw [unit_of_norm_one hu1]
    simp [parallelPerp, u, i0, i1]
  have := congrArg (fun w : Vec 2 => w 1) he'
  rw [unit_of_norm_one hu1] at this hp
  rw [unit_of_norm_one hv1] at this
  simp [hp] at this
  simp [u, v] at this
  linarith

section Coordinates2
variable {d : ℕ} [h2 : Fact (2 ≤ d)]

/-! ## C07 -/

/-- C07: for a weight in `[0,1]` the partially rotated vector is at angle `w·θ`
from the first direction and, if it is not within tolerance (or equal), at
`(1-w)·θ` from the second. -/
theorem C07_partial_rotation_angles (u v : Vec d) (r : Rot (Vec d))
    (h : fromDirections u v = some r) (w : ℝ) (hw0 : 0 ≤ w) (hw1 : w ≤ 1) :
    InnerProductGeometry.angle (unit u) (r.rotate (unit u) w)
        = w * InnerProductGeometry.angle u v
    ∧ ((¬ allclose (unit u) (unit v) ∨ unit u = unit v) →
      InnerProductGeometry.angle (r.rotate (unit u) w) (unit v)
        = (1 - w) * InnerProductGeometry.angle u v) := by
  obtain ⟨hu, hv, hon, h0, ha⟩ := fromDirections_some h
  have hθ0 := InnerProductGeometry.angle_nonneg u v
  have hθ1 := InnerProductGeometry.angle_le_pi u v
  have hθw : w * InnerProductGeometry.angle u v ≤ InnerProductGeometry.angle u v := by nlinarith
  have hrot : ∀ x, r.rotate (unit u) x
      = Real.cos (x * r.angle) • r.base.b0 + Real.sin (x * r.angle) • r.base.b1 := by
    intro x; rw [Rot.rotate, rotateDirection_eq, ← h0, planeRot_b0 hon]
  constructor
  · rw [InnerProductGeometry.angle, C01_rotate_norm r hon, unit_norm hu, hrot, ← h0,
      inner_add_right, inner_smul_right, inner_smul_right, hon.i00, hon.i01, ha]
    rw [show (Real.cos (w * InnerProductGeometry.angle u v) * 1
      + Real.sin (w * InnerProductGeometry.angle u v) * 0) / (1 * 1)
      = Real.cos (w * InnerProductGeometry.angle u v) by ring]
    exact Real.arccos_cos (by positivity) (by linarith)
  · intro hc
    have h1 := (C06_maps_first_to_second u v r h hc).1
    rw [← h1, InnerProductGeometry.angle, C01_rotate_norm r hon, C01_rotate_norm r hon,
      unit_norm hu, hrot, hrot, inner_add_left, inner_add_right, inner_add_right]
    simp only [inner_smul_left, inner_smul_right, hon.i00, hon.i11, hon.i01, hon.i10,
      RCLike.conj_to_real]
    rw [← ha]
    rw [show ∀ a b c e : ℝ, (a * (b * 1) + c * (b * 0) + (a * (e * 0) + c * (e * 1))) / (1 * 1)
      = a * b + c * e from fun a b c e => by ring]
    rw [← Real.cos_sub, ← sub_mul]
    refine Real.arccos_cos ?_ ?_
    · rw [ha]; apply mul_nonneg _ hθ0; linarith
    · rw [ha]; nlinarith

/-- C07: the partially rotated vector is the spherical linear interpolation. -/
theorem C07_slerp (u v : Vec d) (r : Rot (Vec d)) (h : fromDirections u v = some r)
    (hc : ¬ allclose (unit u) (unit v)) (w : ℝ) :
    Real.sin (InnerProductGeometry.angle u v) • r.rotate (unit u) w
      = Real.sin ((1 - w) * InnerProductGeometry.angle u v) • unit u
        + Real.sin (w * InnerProductGeometry.angle u v) • unit v := by
  obtain ⟨hu, hv, hon, h0, ha⟩ := fromDirections_some h
  have h1 := fromDirections_far_maps h hc
  rw [Rot.rotate, rotateDirection_eq, ← h0, planeRot_b0 hon, ← h1, ← ha]
  rw [sub_mul, one_mul, Real.sin_sub]
  module

/-! ## C08 -/

/-- C08: zero arguments. -/
theorem C08_addition_zero (v : Vec d) (w : ℝ) :
    directionalVectorAddition 0 v w = some (w • v)
    ∧ (v ≠ 0 → directionalVectorAddition v 0 w = some ((1 - w) • v)) := by
  constructor
  · simp [directionalVectorAddition]
  · intro h; simp [directionalVectorAddition, h]

/-- The defining equation of the third branch of `directional_vector_addition`. -/
lemma directionalVectorAddition_eq {v1 v2 : Vec d} (h1 : v1 ≠ 0) (h2 : v2 ≠ 0) {w : ℝ}
    {out : Vec d} :
    directionalVectorAddition v1 v2 w = some out ↔
      ∃ r, fromDirections (unit v1) (unit v2) = some r
        ∧ out = ((1 - w) * ‖v1‖ + w * ‖v2‖) • r.rotate (unit v1) w := by
  unfold directionalVectorAddition
  rw [if_neg (by simpa using h1), if_neg (by simpa using h2)]
  change (match fromDirections (unit v1) (unit v2) with
    | none => none
    | some r => some (((1 - w) * ‖v1‖ + w * ‖v2‖) • r.rotate (unit v1) w)) = _ ↔ _
  cases fromDirections (unit v1) (unit v2) with
  | none => simp
  | some r => simp [eq_comm]

/-- C08: the length is interpolated linearly. -/
theorem C08_addition_norm (v1 v2 : Vec d) (h1 : v1 ≠ 0) (h2 : v2 ≠ 0) (w : ℝ)
    (hw0 : 0 ≤ w) (hw1 : w ≤ 1) (out : Vec d)
    (h : directionalVectorAddition v1 v2 w = some out) :
    ‖out‖ = (1 - w) * ‖v1‖ + w * ‖v2‖ := by
  obtain ⟨r, hr, rfl⟩ := (directionalVectorAddition_eq h1 h2).mp h
  obtain ⟨_, _, hon, _, _⟩ := fromDirections_some hr
  rw [norm_smul, C01_rotate_norm r hon, unit_norm h1, mul_one, Real.norm_eq_abs, abs_of_nonneg]
  have := norm_nonneg v1; have := norm_nonneg v2
  have : 0 ≤ (1 - w) * ‖v1‖ := mul_nonneg (by linarith) (norm_nonneg _)
  positivity

/-- C08: weight zero returns the first vector, weight one the second. -/
theorem C08_addition_endpoints (v1 v2 : Vec d) (h1 : v1 ≠ 0) (h2 : v2 ≠ 0)
    (hc : ¬ allclose (unit v1) (unit v2) ∨ unit v1 = unit v2) (ho : ¬ Opposite v1 v2) :
    directionalVectorAddition v1 v2 0 = some v1
    ∧ directionalVectorAddition v1 v2 1 = some v2 := by
  have hu1 := unit_ne_zero h1
  have hu2 := unit_ne_zero h2
  have hex : ∃ r, fromDirections (unit v1) (unit v2) = some r := by
    by_cases hcl : allclose (unit (unit v1)) (unit (unit v2))
    · exact ⟨_, fromDirections_close hu1 hu2 hcl⟩
    · exact ⟨_, fromDirections_far hu1 hu2 hcl (by rwa [opposite_unit_iff h1 h2])⟩
  obtain ⟨r, hr⟩ := hex
  obtain ⟨_, _, hon, _, _⟩ := fromDirections_some hr
  constructor
  · rw [directionalVectorAddition_eq h1 h2]
    refine ⟨r, hr, ?_⟩
    rw [(C03_rotate_add r hon _ 0 0).2]
    simp [norm_smul_unit]
  · rw [directionalVectorAddition_eq h1 h2]
    refine ⟨r, hr, ?_⟩
    have := (C06_maps_first_to_second _ _ r hr (by rwa [unit_unit h1, unit_unit h2])).1
    rw [unit_unit h1, unit_unit h2] at this
    rw [this]
    simp [norm_smul_unit]

/-- C08: swapping the vectors and complementing the weight gives the same vector. -/
theorem C08_addition_symmetric (v1 v2 : Vec d) (h1 : v1 ≠ 0) (h2 : v2 ≠ 0)
    (hc : ¬ allclose (unit v1) (unit v2)) (hc' : ¬ allclose (unit v2) (unit v1))
    (ho : ¬ Opposite v1 v2) (w : ℝ) :
    ∃ out, directionalVectorAddition v1 v2 w = some out
      ∧ directionalVectorAddition v2 v1 (1 - w) = some out := by
  have hu1 := unit_ne_zero h1
  have hu2 := unit_ne_zero h2
  have ho' : ¬ Opposite v2 v1 := by
    rw [opposite_iff_inner h2 h1, real_inner_comm, ← opposite_iff_inner h1 h2]; exact ho
  have e1 := unit_unit h1
  have e2 := unit_unit h2
  obtain ⟨r, hr⟩ : ∃ r, fromDirections (unit v1) (unit v2) = some r :=
    ⟨_, fromDirections_far hu1 hu2 (by rwa [e1, e2]) (by rwa [opposite_unit_iff h1 h2])⟩
  obtain ⟨s, hs⟩ : ∃ r, fromDirections (unit v2) (unit v1) = some r :=
    ⟨_, fromDirections_far hu2 hu1 (by rwa [e1, e2]) (by rwa [opposite_unit_iff h2 h1])⟩
  refine ⟨_, (directionalVectorAddition_eq h1 h2).mpr ⟨r, hr, rfl⟩,
    (directionalVectorAddition_eq h2 h1).mpr ⟨s, hs, ?_⟩⟩
  have a1 := C07_slerp _ _ r hr (by rwa [e1, e2]) w
  have a2 := C07_slerp _ _ s hs (by rwa [e1, e2]) (1 - w)
  rw [e1, e2] at a1 a2
  rw [InnerProductGeometry.angle_comm (unit v2) (unit v1)] at a2
  set θ := InnerProductGeometry.angle (unit v1) (unit v2) with hθ
  have hsin : Real.sin θ ≠ 0 := by
    intro h0
    have hb := inner_unit_unit_eq_cos (u := unit v1) (v := unit v2)
    rw [e1, e2, ← hθ] at hb
    have h3 := Real.sin_sq_add_cos_sq θ
    rw [h0, ← hb] at h3
    have h4 : (⟪unit v1, unit v2⟫ - 1) * (⟪unit v1, unit v2⟫ + 1) = 0 := by linarith
    rcases mul_eq_zero.mp h4 with h | h
    · have := eq_of_inner_eq_one (unit_norm h1) (unit_norm h2) (by linarith)
      rw [this] at hc; exact hc (allclose_refl _)
    · exact ho ((opposite_iff_inner h1 h2).mpr (by linarith))
  have h5 : r.rotate (unit v1) w = s.rotate (unit v2) (1 - w) := by
    have : Real.sin θ • r.rotate (unit v1) w = Real.sin θ • s.rotate (unit v2) (1 - w) := by
      rw [a1, a2]; simp only [sub_sub_cancel]; abel
    exact smul_right_injective _ hsin this
  rw [h5]; congr 1; ring

/-- C08 is not vacuous: two perpendicular vectors of different length. -/
example : e3 0 ≠ 0 ∧ (3 : ℝ) • e3 2 ≠ 0 ∧ ¬ allclose (unit (e3 0)) (unit ((3 : ℝ) • e3 2))
    ∧ ¬ allclose (unit ((3 : ℝ) • e3 2)) (unit (e3 0)) ∧ ¬ Opposite (e3 0) ((3 : ℝ) • e3 2) := by
  have h3 : (3 : ℝ) • e3 2 ≠ 0 := smul_ne_zero (by norm_num) (e3_ne_zero _)
  have hu : unit ((3 : ℝ) • e3 2) = e3 2 := by
    rw [unit, norm_smul, smul_smul]; simp [e3]
  refine ⟨e3_ne_zero _, h3, ?_, ?_, ?_⟩
  · rw [hu, e3_unit]; exact e3_not_allclose (by decide)
  · rw [hu, e3_unit]; exact e3_not_allclose (by decide)
  · rw [opposite_iff_inner (e3_ne_zero _) h3, hu, e3_unit, (e3_on (by decide)).orth]; norm_num

end Coordinates2
end Verif
