import Verif.Model.Num

/-!
# The region of a cluster

The region of a cluster: the part of the ball around its centre whose points are not closer to
another centre.
-/

namespace Verif.Spec

variable {d n : ℕ}

/-- The closed region of cluster `k`. -/
def Cell (centers : Fin n → Vec d) (radius : ℝ) (k : Fin n) : Set (Vec d) :=
  {x | ‖x - centers k‖ ≤ radius ∧ ∀ j, ‖x - centers k‖ ≤ ‖x - centers j‖}

/-- Its interior points. -/
def OpenCell (centers : Fin n → Vec d) (radius : ℝ) (k : Fin n) : Set (Vec d) :=
  {x | ‖x - centers k‖ < radius ∧ ∀ j, j ≠ k → ‖x - centers k‖ < ‖x - centers j‖}

/-- Clusters as k-means returns them: a positive radius, and no centre so close to the centre of
cluster `k` that the tolerance `1e-9` of the code could hide the wall between them. -/
structure GoodClusters (centers : Fin n → Vec d) (radius : ℝ) (k : Fin n) : Prop where
  radius_pos : 0 < radius
  separated : ∀ j, j ≠ k → 0 < ‖centers j - centers k‖
    ∧ 1e-9 * radius ≤ ‖centers j - centers k‖ / 2

end Verif.Spec
