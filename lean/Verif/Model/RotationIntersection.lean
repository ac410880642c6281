import Verif.Model.RotationContainer

/-!
# Model of `RotationContainer.get_intersection_position` (rotation_container.py:124-132)
-/

namespace Verif.RotationContainer

variable {d k : ℕ}

/-- The attribute `attractor_position` of the stored objects: `none` if there is no such attribute, `some none` for the
value `None`.  `LinearSystem` and `LocallyRotated` have the attractor they were created with; what a `ConstantValue`
(vartools) and dynamics of the caller have is a parameter. -/
def Convergence.attractorAttribute (ofConstant : Option (Option (Vec d)))
    (ofGiven : (Vec d → Vec d) → Option (Option (Vec d))) : Convergence d k → Option (Option (Vec d))
  | .given f => ofGiven f
  | .constant _ => ofConstant
  | .linear a => some (some a)
  | .locallyRotated _ _ _ a => some (some a)

/-- `get_intersection_position` (rotation_container.py:124-132): `None` has no attribute `attractor_position`, so an
entry `None` raises `NotImplementedError` as well. -/
def getIntersectionPosition (ofConstant : Option (Option (Vec d)))
    (ofGiven : (Vec d → Vec d) → Option (Option (Vec d))) (c : Container d k) (i : ℕ) :
    Except PyErr (Option (Vec d)) :=
  match c.dynamics[i]? with
  | none => .error .indexError
  | some none => .error .notImplemented
  | some (some g) =>
    match g.attractorAttribute ofConstant ofGiven with
    | none => .error .notImplemented
    | some a => .ok a

end Verif.RotationContainer
