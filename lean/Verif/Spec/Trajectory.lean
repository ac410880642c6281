import Verif.Spec.Avoider
import Verif.Spec.DirectionSpace
import Mathlib.Analysis.Calculus.Deriv.Basic

/-!
# Specification: balls, and the trajectories of an avoider
-/

open scoped RealInnerProductSpace

namespace Verif.Spec

variable {d k : ℕ}

/-- The obstacle is the ball of radius `r` around `c`, with its centre as the reference point; the distance
function grows by `κ` per unit of length (`κ = 1 / r` for a distance function relative to the radius). -/
structure IsBall (o : Obstacle d) (c : Vec d) (r κ : ℝ) : Prop where
  radius_pos : 0 < r
  scale_pos : 0 < κ
  outside : ∀ p, r ≤ ‖p - c‖ → o.gamma p = 1 + κ * (‖p - c‖ - r)
  inside : ∀ p, ‖p - c‖ < r → 0 ≤ o.gamma p ∧ o.gamma p < 1
  normal : ∀ p, o.normal p = unit (p - c)
  reference : ∀ p, o.reference p = -unit (p - c)
  center : o.referencePoint = c
  surface : ∀ v, v ≠ 0 → o.intersection c v = some (c + r • unit v)
  smooth : o.isCuboid = false

/-- The avoider has to avoid exactly one obstacle, a ball which does not move, with the default convergence radius
`π / 2` and any non-negative smoothness power. -/
structure BallAvoider (a : Avoider d) (c : Vec d) (r κ : ℝ) : Prop where
  obstacle : ∃ t o, a.trees = [t] ∧ t.rootIdx = 0 ∧ t.components = [o] ∧ Static t ∧ IsBall o c r κ
  radius : a.convergenceRadius = Real.pi * 0.5
  power : 0 ≤ a.power

/-- `v` is the direction in which the avoider would move at `x` before it avoids: the last direction of the
convergence sequence. -/
def ConvergenceDirection [Fact (2 ≤ d)] (ext : Ext d k) (a : Avoider d) (x v : Vec d) : Prop :=
  ∃ s conv, evaluateDynamicsSequence x a.initial = .ok (some s)
    ∧ computeConvergenceSequence ext a x s = .ok conv ∧ conv.getEndVector = .ok v

/-- `x` is a trajectory of the avoider for the times from `0` to `T`: at every time its velocity is the one which
`evaluate` returns at the position. -/
def Trajectory [Fact (2 ≤ d)] (ext : Ext d k) (a : Avoider d) (T : ℝ) (x : ℝ → Vec d) : Prop :=
  ∀ t ∈ Set.Icc 0 T, ∃ v, a.evaluate ext (x t) = .ok v ∧ HasDerivWithinAt x v (Set.Icc 0 T) t

/-- The largest distance of two unit vectors which `np.allclose` cannot distinguish. -/
noncomputable def closeness (d : ℕ) : ℝ := 1e-5 + 1e-8 * √d

end Verif.Spec
