import Verif.Model.Flows

/-!
# Model of `create_from_direction` of both spiraling dynamics (dynamics/spiral_dynamics.py)
-/

namespace Verif.Flows

/-- `SpiralingDynamics3D.create_from_direction` (spiral_dynamics.py:30-45); `basis direction` is the rotation with the
matrix `get_orthogonal_basis(direction)` (vartools, external). -/
noncomputable def Spiral.createFromDirection (basis : Vec 3 → Vec 3 ≃ₗᵢ[ℝ] Vec 3) (center direction : Vec 3)
    (radius : ℝ := 1) (speed : ℝ := 1) : Spiral where
  pose := ⟨center, basis direction⟩
  direction := direction
  circular := { pose := .trivial, radius := radius }
  speed := speed

/-- `SpiralingAttractorDynamics3D.create_from_direction` (spiral_dynamics.py:88-103), with the fields of `Spiral`. -/
noncomputable def Spiral.createAttractorFromDirection (basis : Vec 3 → Vec 3 ≃ₗᵢ[ℝ] Vec 3) (center direction : Vec 3)
    (radius : ℝ := 1) (speed : ℝ := 1) : Spiral where
  pose := ⟨center, basis direction⟩
  direction := direction
  circular := { pose := .trivial, radius := radius }
  speed := speed

end Verif.Flows
