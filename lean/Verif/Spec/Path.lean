import Verif.Model.VectorRotation

/-!
# Specification of connected partial rotations (C13)

Uses only the data type `Rot` and `rotate_direction` of the model.
-/

namespace Verif.Spec

variable {V : Type*} [NormedAddCommGroup V] [InnerProductSpace ℝ V]

/-- The partial rotations of a sequence when the fraction `c` of each rotation is
applied: the first rotation is applied to its fraction, and everything after it is
carried back by the part `(c - 1) * angle` of that rotation that was left out. -/
noncomputable def carriedPartial : List (Rot V × ℝ) → List (Rot V)
  | [] => []
  | (r, c) :: rest =>
    ⟨r.base, c * r.angle⟩ ::
      (carriedPartial rest).map (fun q =>
        ⟨⟨rotateDirection q.base.b0 r.base ((c - 1) * r.angle),
          rotateDirection q.base.b1 r.base ((c - 1) * r.angle)⟩, q.angle⟩)

/-- Apply rotations one after the other. -/
noncomputable def applyAll (v : V) : List (Rot V) → V
  | [] => v
  | r :: rest => applyAll (r.rotate v) rest

/-- Consecutive rotations are connected: each one starts where the previous ends. -/
def Connected (s : List (Rot V)) : Prop :=
  s.IsChain (fun r q => r.getSecondVector = q.getFirstVector)

/-- The rotations lead from `a` to `b`: the first one starts at `a`, each one starts where the
previous ends, and the last one ends at `b`. -/
def Leads : V → List (Rot V) → V → Prop
  | a, [], b => a = b
  | a, r :: rest, b => r.getFirstVector = a ∧ Leads r.getSecondVector rest b

/-- All rotations lead from a unit vector to a unit vector. -/
def UnitVectors (s : List (Rot V)) : Prop :=
  ∀ q ∈ s, ‖q.getFirstVector‖ = 1 ∧ ‖q.getSecondVector‖ = 1

/-- Neighbouring directions of a list of vectors are equal or further apart than the
tolerance of `np.allclose`. -/
def Distinguishable {d : ℕ} (vs : List (Vec d)) : Prop :=
  vs.IsChain (fun a b => (1 / ‖a‖) • a = (1 / ‖b‖) • b
    ∨ ¬ allclose ((1 / ‖a‖) • a) ((1 / ‖b‖) • b))

end Verif.Spec
