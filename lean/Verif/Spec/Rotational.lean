import Verif.Model.RotationalAvoider
import Verif.Spec.Avoider
import Verif.Spec.Tree

/-!
# Contracts of the external functions used by `RotationalAvoider`
-/

open scoped RealInnerProductSpace

namespace Verif.Spec

variable {d k : ℕ}

/-- What the external angle space, weights and directional mean guarantee.

* the length of an angle is the angle to the first column of the base, and vice versa up to `pi`
* an intersection with a circle is on the circle
* the importance weights are non-negative with sum one, one entry per obstacle; if exactly one obstacle is
  in contact (gamma at most one) it has the full weight
* the directional mean is a unit vector, and the full weight on one direction returns this direction,
  unless it is opposite to the null direction
* `np.argsort` sorts -/
structure SaneAngles (ext : Rotational.Ext d k) : Prop where
  toAngle_norm : ∀ b v, b.normal ≠ 0 → v ≠ 0 →
    ‖ext.toAngle b v‖ = InnerProductGeometry.angle b.first v
  ofAngle_unit : ∀ b a, b.normal ≠ 0 → ‖ext.ofAngle b a‖ = 1
  ofAngle_angle : ∀ b a, b.normal ≠ 0 → ‖a‖ ≤ Real.pi →
    InnerProductGeometry.angle b.first (ext.ofAngle b a) = ‖a‖
  circle : ∀ s v r a, 0 ≤ r → ext.circleFar s v r = some a → ‖a‖ = r
  weights_convex : ∀ gs, gs ≠ [] → Convex (ext.weights gs) ∧ (ext.weights gs).length = gs.length
  weights_contact : ∀ pre g post, g ≤ 1 → (∀ y ∈ pre ++ post, 1 < y) →
    ∃ z z' : List ℝ, z.length = pre.length ∧ ext.weights (pre ++ g :: post) = z ++ 1 :: z'
  mean_unit : ∀ n ws ds, ‖n‖ = 1 → Convex ws → ws.length = ds.length → ‖ext.mean n ws ds‖ = 1
  mean_one : ∀ n (z z' : List ℝ) pre v post, ‖n‖ = 1 → v ≠ 0 → ¬ Opposite n v → z.length = pre.length →
    z'.length = post.length → Convex (z ++ 1 :: z') →
    ext.mean n (z ++ 1 :: z') (pre ++ v :: post) = unit v
  argsort : ArgsortSpec ext.argsort

/-- The direction into the obstacle (for a boundary: into the wall), and the direction to the reference
point of the obstacle (for a boundary: away from it). -/
noncomputable def inward (o : Obstacle d) (x : Vec d) : Vec d :=
  if o.isBoundary then unit (o.normal x) else -unit (o.normal x)

/-- See `inward`. -/
noncomputable def towards (o : Obstacle d) (x : Vec d) : Vec d :=
  if o.isBoundary then -o.reference x else o.reference x

/-- The obstacle takes part in the avoidance at `x`: its gamma (at least one for obstacles) is from one up to
the cut-off value. -/
def CloseTo (cutOff : ℝ) (x : Vec d) (o : Obstacle d) : Prop :=
  (1 ≤ o.gamma x ∧ o.gamma x < cutOff) ∨ (o.isBoundary = false ∧ o.gamma x < 1 ∧ 1 < cutOff)

/-- Two directions are admissible neighbours in a direction tree: not opposite, and equal or further apart
than the tolerance of `np.allclose`. -/
def Neighbours (u v : Vec d) : Prop := ¬ Opposite u v ∧ (u = v ∨ ¬ allclose u v)

/-- The neighbouring directions in the tree of `directional_convergence_summing` are admissible: convergence
and initial velocity, convergence and inward direction, inward direction and tangent (for a radius above
`pi / 2` via the intermediate direction). -/
def Admissible (ext : Rotational.Ext d k) (conv ref tangent nonlinear : Vec d) (b : Rotational.NullBase d)
    (R : ℝ) : Prop :=
  Neighbours (unit conv) (unit nonlinear) ∧ Neighbours (unit conv) b.first
    ∧ (R ≤ Real.pi * 0.5 → Neighbours b.first (unit tangent))
    ∧ (Real.pi * 0.5 < R → ∀ i, Rotational.intermediateDirection ext conv ref b = .ok i →
      Neighbours b.first i ∧ Neighbours i (unit tangent))

end Verif.Spec
