import Verif.Model.Num
import Mathlib.Analysis.InnerProductSpace.PiL2
import Mathlib.Analysis.SpecialFunctions.Trigonometric.Basic
import Mathlib.LinearAlgebra.Matrix.DotProduct

/-!
# Ellipses of a covariance

The region a Gaussian obstacle is meant to occupy, and the one of an analytic ellipse in the plane.
-/

open scoped RealInnerProductSpace

namespace Verif.Spec

variable {d : ℕ}

/-- What `numpy.linalg.eigh` gives for the symmetric matrix `m`: the columns of `v` are orthonormal
eigenvectors to the eigenvalues `e`. -/
def Diagonalises (m : Matrix (Fin d) (Fin d) ℝ) (e : Fin d → ℝ) (v : Matrix (Fin d) (Fin d) ℝ) : Prop :=
  v * v.transpose = 1 ∧ m = v * Matrix.diagonal e * v.transpose

/-- The points at most `factor` standard deviations away from the mean: `δᵀ Σ⁻¹ δ ≤ factor²`. -/
def WithinDeviations (mean : Vec d) (covariance : Matrix (Fin d) (Fin d) ℝ) (factor : ℝ) (x : Vec d) : Prop :=
  ∃ y : Vec d, covariance.mulVec y.ofLp = (x - mean).ofLp ∧ ⟪x - mean, y⟫ ≤ factor ^ 2

/-- The points of an ellipse of the plane with full axes `l`, turned by the angle `θ`. -/
def InEllipse (center : Vec 2) (θ : ℝ) (l : Fin 2 → ℝ) (x : Vec 2) : Prop :=
  ((Real.cos θ * (x 0 - center 0) + Real.sin θ * (x 1 - center 1)) / (l 0 / 2)) ^ 2
    + ((-Real.sin θ * (x 0 - center 0) + Real.cos θ * (x 1 - center 1)) / (l 1 / 2)) ^ 2 ≤ 1

end Verif.Spec
