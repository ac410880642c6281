import Verif.Model.LocalDynamics

/-!
# Model of `get_lyapunov_gradient_direction` of the local dynamics (dynamics/nonlinear_deviation.py)
-/

namespace Verif.LyapunovDirection

variable {d : ℕ}

open Classical in
/-- `get_lyapunov_gradient_direction` of `DeviationOfLinearDS` (nonlinear_deviation.py:177-184) and of
`PerpendicularDeviatoinOfLinearDS` (nonlinear_deviation.py:227-234). -/
noncomputable def ofLinear (attractor position : Vec d) : Vec d :=
  if ‖attractor - position‖ = 0 then 0
  else (1 / ‖attractor - position‖) • (attractor - position)

/-- `get_lyapunov_gradient_direction` of `DeviationOfConstantFlow` (nonlinear_deviation.py:98-101). -/
def ofConstantFlow (referenceVelocity _position : Vec d) : Vec d := referenceVelocity

end Verif.LyapunovDirection
