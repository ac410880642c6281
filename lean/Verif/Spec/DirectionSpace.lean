import Verif.Model.Avoider
import Verif.Spec.Geometry

/-!
# The direction space of the avoiders

Specification of the external functions `get_angle_from_vector`, `get_vector_from_angle` and
`get_intersection_with_circle`, and of the tangent in the direction space.
-/

open scoped RealInnerProductSpace

namespace Verif.Spec

variable {d k : ℕ}

/-- The contract of the external functions.

* `chart`: the angles around a unit vector `n` are the coordinates of the tangent plane of the sphere
  at `n` (in some orthonormal basis): the angle of a unit vector is its logarithm, and the vector of an
  angle is the exponential map
* `circle`: the intersection with a circle is the furthest point of the line on the circle
* `circle_some`: it is found if the line meets the circle -/
structure DirectionSpace (ext : Ext d k) : Prop where
  chart : ∀ n : Vec d, ‖n‖ = 1 → ∃ E : Vec k →ₗᵢ[ℝ] Vec d, (∀ a, ⟪n, E a⟫ = 0)
    ∧ (∀ v, ‖v‖ = 1 → ¬ Opposite n v → E (ext.angleOf n v) = sphereLog n v)
    ∧ (∀ a, ext.vectorOf n a = sphereExp n (E a))
  circle : ∀ (s v : Vec k) (r : ℝ) (a : Vec k), v ≠ 0 → 0 ≤ r → ext.circleFar s v r = some a →
    ∃ t : ℝ, a = s + t • v ∧ ‖a‖ = r ∧ ∀ t' : ℝ, ‖s + t' • v‖ = r → t' ≤ t
  circle_some : ∀ (s v : Vec k) (r : ℝ), v ≠ 0 → (∃ t : ℝ, ‖s + t • v‖ = r) →
    ext.circleFar s v r ≠ none

/-- `τ` is a unit vector with the angle `R` to `m`.  In the direction space around `m` it is on the
straight line from `ref` through `v`, beyond `v`. -/
def TangentAt (m ref v τ : Vec d) (R : ℝ) : Prop :=
  ‖τ‖ = 1 ∧ InnerProductGeometry.angle m τ = R
    ∧ ∃ t : ℝ, 1 ≤ t ∧ sphereLog m τ = sphereLog m ref + t • (sphereLog m v - sphereLog m ref)

end Verif.Spec
