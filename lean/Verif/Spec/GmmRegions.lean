import Verif.Spec.GmmGradient

/-!
# Boundaries of ellipses
-/

open scoped RealInnerProductSpace

namespace Verif.Spec

variable {d : ℕ}

/-- The points exactly `factor` standard deviations away from the mean: `δᵀ Σ⁻¹ δ = factor²`. -/
def AtDeviations (mean : Vec d) (covariance : Matrix (Fin d) (Fin d) ℝ) (factor : ℝ) (x : Vec d) : Prop :=
  ∃ y : Vec d, covariance.mulVec y.ofLp = (x - mean).ofLp ∧ ⟪x - mean, y⟫ = factor ^ 2

/-- The boundary of an ellipse of the plane with full axes `l`, turned by the angle `θ`. -/
def OnEllipse (center : Vec 2) (θ : ℝ) (l : Fin 2 → ℝ) (x : Vec 2) : Prop :=
  ((Real.cos θ * (x 0 - center 0) + Real.sin θ * (x 1 - center 1)) / (l 0 / 2)) ^ 2
    + ((-Real.sin θ * (x 0 - center 0) + Real.cos θ * (x 1 - center 1)) / (l 1 / 2)) ^ 2 = 1

end Verif.Spec
