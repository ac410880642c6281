import Verif.Spec.Trajectory
import Mathlib.Analysis.Calculus.Gradient.Basic

/-!
# Specification: star-shaped obstacles with a smooth surface
-/

open scoped RealInnerProductSpace

namespace Verif.Spec

variable {d k : ℕ}

/-- The obstacle is the region `gauge ≤ 1`, star-shaped with respect to its reference point `c`.

* `gauge` is the distance from `c` relative to the surface in the same direction (`1` on the surface, `2` twice as far
  away); it is differentiable with gradient `grad`, and grows by at most `M` per unit of length
* the distance value of the obstacle is larger than `1` outside, and grows by at most `κ` per unit of `gauge`
  (`κ = 1` if the distance value is relative to the surface; for one which grows by `σ` per unit of length, `κ` is
  `σ` times the largest distance of the surface from `c`)
* the normal is the direction of the gradient, the reference direction points to `c`, and the intersection of a ray
  from `c` with the surface is found -/
structure StarRegion (o : Obstacle d) (c : Vec d) (gauge : Vec d → ℝ) (grad : Vec d → Vec d) (κ M : ℝ) : Prop where
  homogeneous : ∀ (s : ℝ) (p : Vec d), 0 < s → gauge (c + s • p) = s * gauge (c + p)
  positive : ∀ p, p ≠ c → 0 < gauge p
  gradient : ∀ p, p ≠ c → HasGradientAt gauge (grad p) p
  steep : ∀ p, p ≠ c → ‖grad p‖ ≤ M
  scale : 0 ≤ κ
  outside : ∀ p, 1 < gauge p → 1 < o.gamma p ∧ o.gamma p ≤ 1 + κ * (gauge p - 1)
  inside : ∀ p, 0 ≤ o.gamma p ∧ (gauge p < 1 → o.gamma p < 1)
  normal : ∀ p, p ≠ c → o.normal p = unit (grad p)
  normal_center : ‖o.normal c‖ ≤ 1
  reference : ∀ p, o.reference p = -unit (p - c)
  center : o.referencePoint = c
  surface : ∀ v, v ≠ 0 → o.intersection c v = some (c + (1 / gauge (c + v)) • v)
  smooth : o.isCuboid = false

/-- An obstacle together with the description of its region. -/
structure Region (d : ℕ) where
  obstacle : Obstacle d
  center : Vec d
  gauge : Vec d → ℝ
  grad : Vec d → Vec d
  scale : ℝ
  slope : ℝ

/-- The position is outside of all regions. -/
def OutsideAll (regions : List (Region d)) (x : Vec d) : Prop := ∀ r ∈ regions, 1 < r.gauge x

/-- The avoider has to avoid exactly these star-shaped regions, none of which moves, with the default convergence radius
`π / 2` and any non-negative smoothness power. -/
structure RegionsAvoider (a : Avoider d) (regions : List (Region d)) : Prop where
  obstacles : List.Forall₂ (fun t r => t.rootIdx = 0 ∧ Static t ∧ t.components = [r.obstacle]
    ∧ StarRegion r.obstacle r.center r.gauge r.grad r.scale r.slope) a.trees regions
  some_region : regions ≠ []
  radius : a.convergenceRadius = Real.pi * 0.5
  power : 0 ≤ a.power

/-- The motion `v` at `x` is not head-on: its angle to the direction of the reference point of every region is at least
`φ`, and if there are several regions also its angle to the opposite direction. -/
def Slanted (φ : ℝ) (regions : List (Region d)) (x v : Vec d) : Prop :=
  ∀ r ∈ regions, φ ≤ InnerProductGeometry.angle (r.center - x) v
    ∧ (1 < regions.length → φ ≤ InnerProductGeometry.angle (x - r.center) v)

/-- At every position the distance value of at most one of the regions is below `1 + m`. -/
def Separated (m : ℝ) (regions : List (Region d)) : Prop :=
  ∀ (x : Vec d) (i j : ℕ) (r r' : Region d), i ≠ j → regions[i]? = some r → regions[j]? = some r' →
    r.obstacle.gamma x < 1 + m → 1 + m ≤ r'.obstacle.gamma x

end Verif.Spec
