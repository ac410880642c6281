import Verif.Model.Comparison
import Verif.Spec.Geometry

/-!
# Specification: simulated trajectories
-/

open scoped RealInnerProductSpace

namespace Verif.Spec

variable {d : ℕ}

/-- One step of the simulation from `p` to `q`: in the direction of the velocity at `p`, of length `dt`; the motion is
not at rest at `p`, and `q` is not in collision. -/
def SimulationStep (evaluate : Vec d → Except PyErr (Vec d)) (dt margin : ℝ) (collision : Option (Vec d → Bool))
    (p q : Vec d) : Prop :=
  ∃ v, evaluate p = .ok v ∧ v ≠ 0 ∧ margin ≤ ‖v‖ ∧ q = p + dt • unit v ∧ ∀ c, collision = some c → c q = false

/-- The positions of the list follow each other by steps of the simulation. -/
def Simulates (evaluate : Vec d → Except PyErr (Vec d)) (dt margin : ℝ) (collision : Option (Vec d → Bool))
    (trajectory : List (Vec d)) : Prop :=
  ∀ (i : ℕ) (p q : Vec d), trajectory[i]? = some p → trajectory[i + 1]? = some q →
    SimulationStep evaluate dt margin collision p q

end Verif.Spec
