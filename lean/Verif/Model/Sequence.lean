import Verif.Model.VectorRotation

/-!
# Model of `VectorRotationSequence` (vector_rotation.py:182-375) and of
`dynamics/sequenced_dynamics.py`

The two parallel arrays `basis_array` (`[dimension x n x 2]`) and
`rotation_angles` (`[n]`) are modelled by one list of `Rot`s.  All methods of the
class that create or change a sequence keep the two arrays at the same length;
direct construction of the dataclass with arrays of different lengths is not
modelled.
-/

open scoped RealInnerProductSpace

namespace Verif

/-- `VectorRotationSequence` (vector_rotation.py:216-248). -/
abbrev RotSeq (V : Type*) := List (Rot V)

section Generic
variable {V : Type*} [NormedAddCommGroup V] [InnerProductSpace ℝ V]

/-- `VectorRotationSequence.create_empty` (vector_rotation.py:250-252). -/
def RotSeq.createEmpty : RotSeq V := []

/-- `append_from_base_and_angle` (vector_rotation.py:312-316). -/
def RotSeq.appendFromBaseAndAngle (s : RotSeq V) (base : Base V) (angle : ℝ) : RotSeq V :=
  s ++ [⟨base, angle⟩]

/-- `push_root_from_base_and_angle` (vector_rotation.py:318-322). -/
def RotSeq.pushRootFromBaseAndAngle (s : RotSeq V) (base : Base V) (angle : ℝ) : RotSeq V :=
  [⟨base, angle⟩] ++ s

/-- `get_end_vector` (vector_rotation.py:327-332); indexing `[:, -1, :]` of an
empty array raises `IndexError`. -/
noncomputable def RotSeq.getEndVector (s : RotSeq V) : Except PyErr V :=
  match s.getLast? with
  | none => .error .indexError
  | some r => .ok (r.rotate r.base.b0)

/-- `np.cumsum(weights[::-1])[::-1]` (vector_rotation.py:351): the list of suffix
sums. -/
noncomputable def cumulated : List ℝ → List ℝ
  | [] => []
  | w :: ws => (w + (cumulated ws).headD 0) :: cumulated ws

/-- The loop of vector_rotation.py:361-366.  It runs from the second-last index
down to `0`; step `ii` sends all bases above `ii` through `rotate_array` with the
(still unchanged) base `ii` and the angle `rotation_angles[ii] * (1 -
cumulated_weights[ii])`.  As step `ii` only touches the entries above `ii`, the
loop is a recursion on the list which treats the tail first. -/
noncomputable def tempBases : List (Rot V × ℝ) → Option (List (Base V))
  | [] => some []
  | (r, c) :: rest => do
    let bs ← tempBases rest
    let bs ← bs.mapM (Rot.rotateBase r.base (r.angle * (1 - c)))
    pure (r.base :: bs)

/-- The loop of vector_rotation.py:369-374. -/
noncomputable def rotateAlong (direction : V) : List (Base V × ℝ) → V
  | [] => direction
  | (b, a) :: rest => rotateAlong (rotateDirection direction b a) rest

/-- The body of `rotate_weighted` (vector_rotation.py:356-375) for cumulated weights
`cs`, one for each rotation. -/
noncomputable def rotateCumulated (s : RotSeq V) (direction : V) (cs : List ℝ) : Except PyErr V :=
  match tempBases (s.zip cs) with
  | none => .error .nan
  | some bs => .ok (rotateAlong direction (bs.zip (List.zipWith (fun r c => r.angle * c) s cs)))

/-- `rotate_weighted` (vector_rotation.py:340-375).  An empty weight list raises
`IndexError` at line 353.  For weight lists of a wrong length the product of line
357 broadcasts if one of the two lengths is one and raises `ValueError`
otherwise; a single weight for three or more rotations raises `IndexError` at
line 365.  The warning of line 354 has no effect on the result. -/
noncomputable def RotSeq.rotateWeighted (s : RotSeq V) (direction : V) (weights : List ℝ) :
    Except PyErr V :=
  match cumulated weights with
  | [] => .error .indexError
  | c0 :: cs =>
    if s.length = cs.length + 1 then rotateCumulated s direction (c0 :: cs)
    else if s.length = 1 then rotateCumulated s direction [c0]
    else if cs.length = 0 then
      match s.length with
      | 0 => .ok direction
      | 2 => rotateCumulated s direction [c0, c0]
      | _ => .error .indexError
    else .error .valueError

/-- `VectorRotationSequence.rotate` (vector_rotation.py:334-338); `weights[-1] = ..`
raises `IndexError` for the empty sequence. -/
noncomputable def RotSeq.rotate (s : RotSeq V) (direction : V) (rotFactor : ℝ := 1) :
    Except PyErr V :=
  match s.length with
  | 0 => .error .indexError
  | n + 1 => s.rotateWeighted direction (List.replicate n 0 ++ [rotFactor])

/-- `VectorRotationXd.rotate_sequence` (vector_rotation.py:182-195). -/
noncomputable def Rot.rotateSequence (self : Rot V) (s : RotSeq V) (rotationFactor : ℝ := 1) :
    Option (RotSeq V) :=
  s.mapM (fun r => do
    let b ← Rot.rotateBase self.base (self.angle * rotationFactor) r.base
    pure { r with base := b })

end Generic

section Coordinates
variable {d : ℕ} [h2 : Fact (2 ≤ d)]

/-- One entry of the result of `create_from_vector_array`
(vector_rotation.py:266-293) for two neighbouring normalised vectors.  `none`: the
division of line 273 gives `nan`. -/
noncomputable def neighbourRotation (a b : Vec d) : Option (Rot (Vec d)) :=
  open Classical in
  if allclose a b then some ⟨⟨a, parallelPerp a⟩, 0⟩
  else
    let dotProd := ⟪b, a⟫
    let vecPerp := b - dotProd • a
    if ‖vecPerp‖ = 0 then none
    else some ⟨⟨a, (1 / ‖vecPerp‖) • vecPerp⟩, Real.arccos (max dotProd (-1))⟩

/-- `create_from_vector_array` (vector_rotation.py:254-293): the zero check is line
257, the check for antiparallel neighbours line 263. -/
noncomputable def createFromVectorArray (vectors : List (Vec d)) : Except PyErr (RotSeq (Vec d)) :=
  open Classical in
  if ∃ v ∈ vectors, isclose ‖v‖ 0 then .error .valueError
  else
    let us := vectors.map (fun v => (1 / ‖v‖) • v)
    let pairs := us.zip us.tail
    if ∃ p ∈ pairs, ⟪p.2, p.1⟫ = -1 then .error .valueError
    else
      match pairs.mapM (fun p => neighbourRotation p.1 p.2) with
      | none => .error .nan
      | some s => .ok s

/-- `append_from_direction` (vector_rotation.py:306-310).  Note line 308: the new
rotation starts at `basis_array[:, -1, -1]`, the *second* base vector of the last
rotation. -/
noncomputable def RotSeq.appendFromDirection (s : RotSeq (Vec d)) (direction : Vec d) :
    Except PyErr (RotSeq (Vec d)) :=
  match s.getLast? with
  | none => .error .indexError
  | some r =>
    match fromDirections r.base.b1 direction with
    | none => .error .nan
    | some q => .ok (s.appendFromBaseAndAngle q.base q.angle)

/-- What `evaluate_dynamics_sequence` uses of a `Dynamics` object
(sequenced_dynamics.py:9-40): `evaluate`, the optional attribute
`attractor_position` and the optional method `evaluate_dynamics_sequence`. -/
structure Dynamics (d : ℕ) where
  evaluate : Vec d → Vec d
  attractorPosition : Option (Vec d) := none
  ownSequence : Option (Vec d → Except PyErr (Option (RotSeq (Vec d)))) := none

/-- `evaluate_dynamics_sequence` (sequenced_dynamics.py:9-40). -/
noncomputable def evaluateDynamicsSequence (position : Vec d) (dynamics : Dynamics d)
    (default : Option (Dynamics d) := none) : Except PyErr (Option (RotSeq (Vec d))) :=
  open Classical in
  match dynamics.ownSequence with
  | some f => f position
  | none =>
    let final := dynamics.evaluate position
    let base :=
      match default with
      | some dd => dd.evaluate position
      | none =>
        match dynamics.attractorPosition with
        | some a => a - position
        | none => final
    if ‖base‖ = 0 ∨ ‖final‖ = 0 then .ok none
    else
      match createFromVectorArray [base, final] with
      | .error e => .error e
      | .ok s => .ok (some s)

end Coordinates
end Verif
