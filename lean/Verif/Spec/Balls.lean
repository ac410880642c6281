import Verif.Spec.Trajectory

/-!
# Specification: several balls
-/

open scoped RealInnerProductSpace

namespace Verif.Spec

variable {d k : ℕ}

/-- A ball: its centre, its radius, the growth of its distance function per unit of length, and whether it has a tail
effect (also motions away from it are influenced). -/
structure Ball (d : ℕ) where
  center : Vec d
  radius : ℝ
  scale : ℝ
  tail : Bool

/-- The distance of the position from the surface of the ball. -/
noncomputable def clearance (b : Ball d) (x : Vec d) : ℝ := ‖x - b.center‖ - b.radius

/-- The position is outside of all balls. -/
def FreeOf (balls : List (Ball d)) (x : Vec d) : Prop := ∀ b ∈ balls, 0 < clearance b x

/-- The avoider has to avoid exactly these balls, none of which moves, with the default convergence radius `π / 2` and
any non-negative smoothness power. -/
structure BallsAvoider (a : Avoider d) (balls : List (Ball d)) : Prop where
  obstacles : List.Forall₂ (fun t b => t.rootIdx = 0 ∧ Static t ∧ ∃ o, t.components = [o] ∧ o.tailEffect = b.tail
    ∧ IsBall o b.center b.radius b.scale) a.trees balls
  some_ball : balls ≠ []
  radius : a.convergenceRadius = Real.pi * 0.5
  power : 0 ≤ a.power

/-- The motion `v` at `x` is not head-on: its angle to the direction of the centre of every ball is at least `φ`, and
for balls with a tail effect also its angle to the opposite direction. -/
def Oblique (φ : ℝ) (balls : List (Ball d)) (x v : Vec d) : Prop :=
  ∀ b ∈ balls, φ ≤ InnerProductGeometry.angle (b.center - x) v
    ∧ (b.tail = true → φ ≤ InnerProductGeometry.angle (x - b.center) v)

/-- The surfaces of different balls are at least `gap` away from each other. -/
def Apart (gap : ℝ) (balls : List (Ball d)) : Prop :=
  balls.Pairwise (fun b b' => b.radius + b'.radius + gap ≤ ‖b.center - b'.center‖)

end Verif.Spec
