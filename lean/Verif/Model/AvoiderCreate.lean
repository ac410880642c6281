import Verif.Model.Avoider

/-!
# Construction of the avoider (multi_obstacle_avoider.py)
-/

namespace Verif

variable {d : ℕ} [Fact (2 ≤ d)]

/-- `create_local_convergence_dynamics` (multi_obstacle_avoider.py:257-284).  `projected` is
`ProjectedRotationDynamics` for an attractor.  The missing attribute `attractor_position` is `none`; the attribute with
the value `None`, which leads to `breakpoint()` (lines 269-270), is not modelled.  The arguments of
`ConvergenceDynamicsWithoutSingularity` are positional: the initial dynamics becomes its `convergence_dynamics`. -/
noncomputable def createLocalConvergence (projected : Vec d → Convergence d) (initial : Dynamics d)
    (reference : Option (Vec d → Vec d)) : Except PyErr (Convergence d) :=
  match initial.attractorPosition with
  | some A => .ok (projected A)
  | none =>
    match reference with
    | none => .error .valueError
    | some ref => .ok (convergenceWithoutSingularity initial.evaluate ref)

/-- `create_with_convergence_dynamics` (multi_obstacle_avoider.py:238-255), with the defaults of the constructor. -/
noncomputable def createAvoider (projected : Vec d → Convergence d) (trees : List (ObstacleTree d))
    (initial : Dynamics d) (reference : Option (Vec d → Vec d)) : Except PyErr (Avoider d) := do
  let convergence ← createLocalConvergence projected initial reference
  .ok { initial := initial, convergence := convergence, trees := trees }

end Verif
