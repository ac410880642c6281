import Verif.Spec.Region

/-!
# Directions that lead to the next region
-/

namespace Verif.Spec

variable {d n : ℕ}

/-- The way from the centre of region `k` in direction `u` leaves the region through the wall to cluster `j`. -/
def LeadsTo (centers : Fin n → Vec d) (radius : ℝ) (k j : Fin n) (u : Vec d) : Prop :=
  ∃ p, Exit centers radius k (centers k + u) p ∧ ‖p - centers k‖ = ‖p - centers j‖

/-- The way from the centre of region `k` in direction `u` misses the wall to cluster `j`, by more than the
numerical tolerance of the code. -/
def Misses (centers : Fin n → Vec d) (radius : ℝ) (k j : Fin n) (u : Vec d) : Prop :=
  ∃ p, Exit centers radius k (centers k + u) p
    ∧ 1e-8 + 1e-5 * ‖p - centers j‖ < |‖p - centers k‖ - ‖p - centers j‖|

/-- The contract of `get_directional_weighted_sum` with two equal weights: the direction half-way. -/
def Bisects (mean : Vec d → Vec d → Vec d) : Prop :=
  ∀ u v, ‖u‖ = 1 → ‖v‖ = 1 → ¬ Opposite u v → mean u v = unit (u + v)

end Verif.Spec
