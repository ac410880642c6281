import Verif.Model.Flows
import Mathlib.Analysis.Calculus.Deriv.Basic

/-!
# Specification: trajectories of a dynamical system
-/

namespace Verif.Spec

variable {d : ℕ}

/-- `x` is a trajectory of the dynamical system for all times from `0` on: at every time the system has a velocity
at the position, and this is the velocity of `x`. -/
def Follows (velocity : Vec d → Except PyErr (Vec d)) (x : ℝ → Vec d) : Prop :=
  ∀ t, 0 ≤ t → ∃ v, velocity (x t) = .ok v ∧ HasDerivWithinAt x v (Set.Ici 0) t

/-- The coordinates of a position in a frame. -/
noncomputable def coordinate (frame : Pose d) (p : Vec d) (i : Fin d) : ℝ :=
  frame.orientation.symm (p - frame.position) i

/-- The distance of a position from the axis of a frame: the length of its first two coordinates. -/
noncomputable def axisDistance [Fact (2 ≤ d)] (frame : Pose d) (p : Vec d) : ℝ :=
  √(coordinate frame p i0 ^ 2 + coordinate frame p i1 ^ 2)

/-- The height of a position above the plane of a frame: the length of its other coordinates. -/
noncomputable def height [Fact (2 ≤ d)] (frame : Pose d) (p : Vec d) : ℝ :=
  √(∑ i with i ≠ i0 ∧ i ≠ i1, coordinate frame p i ^ 2)

end Verif.Spec
