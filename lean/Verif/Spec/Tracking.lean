import Verif.Model.Tracking

/-!
# Specification for C134: which measurement belongs to which component
-/

namespace Verif.Spec

variable {d : ℕ}

/-- The poses measured for the number `u`, in order. -/
def measuredFor (u : ℤ) (ms : List (Measurement d)) : List (Pose d) := (ms.filter (fun m => m.obsId = u)).map (·.pose)

/-- Component `j` is the first one with the update number `u`. -/
def FirstWith (ids : List (Option ℤ)) (j : ℕ) (u : ℤ) : Prop := ids[j]? = some (some u) ∧ ∀ i < j, ids[i]? ≠ some (some u)

end Verif.Spec
