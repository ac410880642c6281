import Verif.Model.Num

/-!
# Model of `nonlinear_avoidance/vector_rotation.py`, lines 31–213

Free functions `directional_vector_addition`, `rotate_direction`, `rotate_array`
and the class `VectorRotationXd`.
-/

open scoped RealInnerProductSpace

namespace Verif

section Generic

variable {V : Type*} [NormedAddCommGroup V] [InnerProductSpace ℝ V]

/-- The `[dimension x 2]` array `base` of a rotation
(vector_rotation.py:107), as the pair of its columns. -/
@[ext] structure Base (V : Type*) where
  b0 : V
  b1 : V

/-- `VectorRotationXd` (vector_rotation.py:96-108): fields `base` and
`rotation_angle`. -/
@[ext] structure Rot (V : Type*) where
  base : Base V
  angle : ℝ

/-- `rotate_direction` (vector_rotation.py:48-67).  The zero test is line 52,
the normalisation line 56, `dot_prods` line 58, `angle` line 59, the in-plane
part lines 62-63, the orthogonal part line 66, the length line 67. -/
noncomputable def rotateDirection (direction : V) (base : Base V) (rotationAngle : ℝ) : V :=
  open Classical in
  if ‖direction‖ = 0 then direction
  else
    let dirNorm := ‖direction‖
    let direction := (1 / dirNorm) • direction
    let p0 := ⟪base.b0, direction⟫
    let p1 := ⟪base.b1, direction⟫
    let angle := atan2 p1 p0 + rotationAngle
    let out := Real.cos angle • base.b0 + Real.sin angle • base.b1
    let out := Real.sqrt (p0 ^ 2 + p1 ^ 2) • out
    let out := out + (direction - (p0 • base.b0 + p1 • base.b1))
    dirNorm • out

/-- One column of `rotate_array` (vector_rotation.py:78-93).  The division by
the column norm (line 78) produces `nan` for a zero column: `none`.  In contrast
to `rotate_direction` the length of the column is not restored. -/
noncomputable def rotateColumn (base : Base V) (rotationAngle : ℝ) (direction : V) : Option V :=
  open Classical in
  if ‖direction‖ = 0 then none
  else
    let direction := (1 / ‖direction‖) • direction
    let p0 := ⟪base.b0, direction⟫
    let p1 := ⟪base.b1, direction⟫
    let angle := atan2 p1 p0 + rotationAngle
    let out := Real.cos angle • base.b0 + Real.sin angle • base.b1
    let out := Real.sqrt (p0 ^ 2 + p1 ^ 2) • out
    some (out + (direction - (p0 • base.b0 + p1 • base.b1)))

/-- `rotate_array` (vector_rotation.py:70-93); the `[dimension x n]` array is the
list of its columns.  `none` if some column contains `nan`. -/
noncomputable def rotateArray (directions : List V) (base : Base V) (rotationAngle : ℝ) :
    Option (List V) :=
  directions.mapM (rotateColumn base rotationAngle)

namespace Rot

/-- `VectorRotationXd.inv` (vector_rotation.py:156-160). -/
def inv (r : Rot V) : Rot V := { r with angle := (-1) * r.angle }

/-- `VectorRotationXd.get_first_vector` (vector_rotation.py:162-163), also the
property `base0` (lines 144-146). -/
def getFirstVector (r : Rot V) : V := r.base.b0

/-- `VectorRotationXd.get_second_vector` (vector_rotation.py:165-171). -/
noncomputable def getSecondVector (r : Rot V) : V :=
  rotateDirection r.base.b0 r.base r.angle

/-- `VectorRotationXd.rotate` (vector_rotation.py:173-180). -/
noncomputable def rotate (r : Rot V) (direction : V) (rotFactor : ℝ := 1) : V :=
  rotateDirection direction r.base (rotFactor * r.angle)

/-- `VectorRotationXd.inverse_rotate` (vector_rotation.py:208-213). -/
noncomputable def inverseRotate (r : Rot V) (direction : V) : V :=
  rotateDirection direction r.base ((-1) * r.angle)

/-- The base of `rotation` with both columns sent through `rotate_array`. -/
noncomputable def rotateBase (by' : Base V) (angle : ℝ) (b : Base V) : Option (Base V) := do
  let c0 ← rotateColumn by' angle b.b0
  let c1 ← rotateColumn by' angle b.b1
  pure ⟨c0, c1⟩

/-- `VectorRotationXd.rotate_vector_rotation` (vector_rotation.py:197-206).
Note line 203: the rotation is performed with `base=rotation.base`, the base of
the argument, not with `self.base`. -/
noncomputable def rotateVectorRotation (self rotation : Rot V) (rotFactor : ℝ := 1) :
    Option (Rot V) := do
  let b ← rotateBase rotation.base (rotFactor * self.angle) rotation.base
  pure { rotation with base := b }

end Rot
end Generic

section Coordinates

variable {d : ℕ} [h2 : Fact (2 ≤ d)]

/-- Index of the first coordinate. -/
def i0 : Fin d := ⟨0, by have := h2.out; omega⟩
/-- Index of the second coordinate. -/
def i1 : Fin d := ⟨1, by have := h2.out; omega⟩

/-- The "random perpendicular vector" of lines 125-131 (the same code is repeated
at lines 280-286): zero except in the first two coordinates.  If the first two
coordinates of `vec_init` vanish it is the first unit vector, otherwise
`(v[1], -v[0])` normalised. -/
noncomputable def parallelPerp (v : Vec d) : Vec d :=
  open Classical in
  if Real.sqrt (v i0 ^ 2 + v i1 ^ 2) = 0 then
    EuclideanSpace.single i0 1
  else
    let n := Real.sqrt ((v i1) ^ 2 + (v i0 * (-1)) ^ 2)
    EuclideanSpace.single i0 (v i1 / n) + EuclideanSpace.single i1 (v i0 * (-1) / n)

/-- `VectorRotationXd.from_directions` (vector_rotation.py:110-137).
`none` models a base containing `nan`, which results from the divisions at lines
116, 117 (zero input) and 134 (zero perpendicular part).  The warning at lines
120-121 has no effect on the result. -/
noncomputable def fromDirections (vecInit vecRot : Vec d) : Option (Rot (Vec d)) :=
  open Classical in
  if ‖vecInit‖ = 0 ∨ ‖vecRot‖ = 0 then none
  else
    let vecInit := (1 / ‖vecInit‖) • vecInit
    let vecRot := (1 / ‖vecRot‖) • vecRot
    let dotProd := ⟪vecInit, vecRot⟫
    let angle := Real.arccos (min (max dotProd (-1)) 1)
    if allclose vecInit vecRot then
      some ⟨⟨vecInit, parallelPerp vecInit⟩, angle⟩
    else
      let vecPerp := vecRot - dotProd • vecInit
      if ‖vecPerp‖ = 0 then none
      else some ⟨⟨vecInit, (1 / ‖vecPerp‖) • vecPerp⟩, angle⟩

/-- `directional_vector_addition` (vector_rotation.py:31-45).  `none` when
`from_directions` is not defined. -/
noncomputable def directionalVectorAddition (v1 v2 : Vec d) (weight : ℝ) : Option (Vec d) :=
  open Classical in
  if ‖v1‖ = 0 then some (weight • v2)
  else if ‖v2‖ = 0 then some ((1 - weight) • v1)
  else
    let norm1 := ‖v1‖
    let norm2 := ‖v2‖
    let v1 := (1 / norm1) • v1
    let v2 := (1 / norm2) • v2
    match fromDirections v1 v2 with
    | none => none
    | some r => some (((1 - weight) * norm1 + weight * norm2) • r.rotate v1 weight)

end Coordinates
end Verif
