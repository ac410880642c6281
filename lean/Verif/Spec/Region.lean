import Verif.Spec.Cell
import Verif.Spec.Geometry

/-!
# Normals of the region of a cluster, and the contract of the directional mean
-/

open scoped RealInnerProductSpace

namespace Verif.Spec

variable {d n : ℕ}

/-- The contract of `get_directional_weighted_sum` (vartools) with `total_weight` equal to the sum of the
weights: for weights with a sum of at most one, and directions with a weight in the open half space of the
null direction, the result is a unit vector in this half space; it is the single direction with full weight,
and the null direction without any weight. -/
structure SaneMean (mean : Vec d → (Fin n → ℝ) → (Fin n → Vec d) → ℝ → Vec d) : Prop where
  unit : ∀ u w ds, ‖u‖ = 1 → (∀ i, 0 ≤ w i) → ∑ i, w i ≤ 1 → (∀ i, 0 < w i → 0 < ⟪u, ds i⟫) →
    ‖mean u w ds (∑ i, w i)‖ = 1
  half : ∀ u w ds, ‖u‖ = 1 → (∀ i, 0 ≤ w i) → ∑ i, w i ≤ 1 → (∀ i, 0 < w i → 0 < ⟪u, ds i⟫) →
    0 < ⟪u, mean u w ds (∑ i, w i)⟫
  one : ∀ u w ds k, ‖u‖ = 1 → w k = 1 → (∀ i, i ≠ k → w i = 0) → 0 < ⟪u, ds k⟫ →
    mean u w ds (∑ i, w i) = Spec.unit (ds k)
  none : ∀ u w ds, ‖u‖ = 1 → (∀ i, w i = 0) → mean u w ds (∑ i, w i) = u

/-- `p` is the last point of the region of cluster `k` on the ray from its centre through `x`. -/
def Exit (centers : Fin n → Vec d) (radius : ℝ) (k : Fin n) (x p : Vec d) : Prop :=
  ∃ s : ℝ, 0 < s ∧ p = centers k + s • Spec.unit (x - centers k)
    ∧ ∀ t : ℝ, 0 ≤ t → (centers k + t • Spec.unit (x - centers k) ∈ Cell centers radius k ↔ t ≤ s)

/-- `y` is the mirror image of the inner point `x` at the surface: on the same ray from the centre, and the
distance of the surface point is the geometric mean of the distances of `x` and `y`. -/
def Mirror (centers : Fin n → Vec d) (radius : ℝ) (k : Fin n) (x y : Vec d) : Prop :=
  ∃ p, Exit centers radius k x p ∧ SameRay ℝ (x - centers k) (y - centers k)
    ∧ ‖x - centers k‖ * ‖y - centers k‖ = ‖p - centers k‖ ^ 2

end Verif.Spec
