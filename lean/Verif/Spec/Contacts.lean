import Verif.Spec.Avoider

/-! # Specification: several obstacles in contact -/

namespace Verif.Spec

variable {d : ℕ}

open Classical in
/-- At most `n` of the obstacles are in contact. -/
def AtMostContacts (n : ℕ) (x : Vec d) (ts : List (ObstacleTree d)) : Prop :=
  (ts.filter (fun t => InContact x t)).length ≤ n

/-- One of the obstacles in contact consists of a single component. -/
def SingleInContact (x : Vec d) (ts : List (ObstacleTree d)) : Prop :=
  ∃ t ∈ ts, ∃ o, t.rootIdx = 0 ∧ t.components = [o] ∧ o.gamma x ≤ 1

end Verif.Spec
