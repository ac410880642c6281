import Verif.Model.NonlinearAvoider
import Verif.Spec.Path
import Verif.Spec.Rotational

/-!
# Notions for the statements about `SingularityConvergenceDynamics`
-/

namespace Verif.Spec

/-- A sequence of rotations that can be put into a tree with root direction `u`: non-empty, connected, with
unit vectors and admissible neighbouring directions, starting at `u`, with at most `M` rotations. -/
structure ProperFrom {d : ℕ} (u : Vec d) (M : ℕ) (s : RotSeq (Vec d)) : Prop where
  ne : s ≠ []
  units : UnitVectors s
  connected : Connected s
  pairs : ∀ q ∈ s, Neighbours q.getFirstVector q.getSecondVector
  first : (s.head ne).getFirstVector = u
  length : s.length ≤ M

/-- What is assumed about the convergence directions of the obstacles: every obstacle has a weight, and an
obstacle with a positive weight has a sequence that fits into a tree with root direction `u`. -/
def ProperConvergence {d : ℕ} (c : Nonlinear.ObstacleConvergence d) (x : Vec d) (initial : RotSeq (Vec d))
    (u : Vec d) (M : ℕ) (obstacles : List (Obstacle d)) : Prop :=
  ∀ o ∈ obstacles, ∃ w, c.projectedWeight x o = .ok w
    ∧ (0 < w → ∃ s, c.sequenceAround x o initial = .ok (some s) ∧ ProperFrom u M s)

/-- The weight of an obstacle (zero if it raises). -/
noncomputable def weightOf {d : ℕ} (c : Nonlinear.ObstacleConvergence d) (x : Vec d) (o : Obstacle d) : ℝ :=
  match c.projectedWeight x o with
  | .ok w => w
  | .error _ => 0

/-- The obstacles with positive weight, with their numbers. -/
noncomputable def activeFrom {d : ℕ} (c : Nonlinear.ObstacleConvergence d) (x : Vec d)
    (l : List (Obstacle d × ℕ)) : List (Obstacle d × ℕ) :=
  open Classical in l.filter (fun p => 0 < weightOf c x p.1)

end Verif.Spec
