import Verif.Model.Avoider

/-!
# Model of `dynamics/constant_value.py`
-/

namespace Verif

variable {d : ℕ} [Fact (2 ≤ d)]

/-- `ConstantValueWithSequence` (dynamics/constant_value.py:8-25): `evaluate` ignores its arguments and returns the
stored velocity (lines 14-16), `evaluate_dynamics_sequence` builds the sequence from the velocity to itself (lines
18-25).  The initialiser of the base class is not called (line 12), so no attractor is stored: `attractorPosition` is
`none`. -/
noncomputable def constantValueWithSequence (velocity : Vec d) : Dynamics d where
  evaluate _ := velocity
  attractorPosition := none
  ownSequence := some (fun _ =>
    match createFromVectorArray [velocity, velocity] with
    | .error e => .error e
    | .ok s => .ok (some s))

end Verif
