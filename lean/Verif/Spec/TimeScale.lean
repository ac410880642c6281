import Verif.Model.Avoider

/-!
# Specification: the same scene, run faster or slower

All velocities are multiplied by `c`: the initial dynamics, its speed, and the linear, angular and deformation velocity
of the obstacles.
-/

namespace Verif.Spec

variable {d : ℕ}

/-- The dynamics with `c` times the velocity. -/
noncomputable def fasterDynamics (c : ℝ) (f : Dynamics d) : Dynamics d where
  evaluate y := c • f.evaluate y
  attractorPosition := f.attractorPosition
  ownSequence := f.ownSequence

/-- The obstacle with `c` times the velocity. -/
noncomputable def fasterTree (c : ℝ) (t : ObstacleTree d) : ObstacleTree d where
  components := t.components
  rootIdx := t.rootIdx
  parentIdx := t.parentIdx
  position := t.position
  twist := t.twist.map (fun w => (c • w.1, w.2.map (fun a => c * a)))
  deformationRate := t.deformationRate.map (fun r => c * r)

/-- The scene with `c` times the velocities. -/
noncomputable def fasterAvoider (c : ℝ) (a : Avoider d) : Avoider d where
  initial := fasterDynamics c a.initial
  evaluateMagnitude := a.evaluateMagnitude.map (fun m y => c * m y)
  default := a.default.map (fasterDynamics c)
  convergence := a.convergence
  convergenceRadius := a.convergenceRadius
  gammaMaximumRepulsion := a.gammaMaximumRepulsion
  power := a.power
  trees := a.trees.map (fasterTree c)

/-- At `y` the dynamics rests, or it is faster than `1e-8` with both time scales. -/
def NotSlow (c : ℝ) (f : Dynamics d) (y : Vec d) : Prop :=
  f.ownSequence = none → f.evaluate y = 0 ∨ (1e-8 < ‖f.evaluate y‖ ∧ 1e-8 < ‖c • f.evaluate y‖)

end Verif.Spec
