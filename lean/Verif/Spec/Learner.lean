import Verif.Model.Learner
import Mathlib.LinearAlgebra.Matrix.PosDef

/-!
# Notions for the statements about learners
-/

namespace Verif.Spec

open Learner
open scoped Matrix

variable {d D n m k N : ℕ}

/-- What is assumed about the pseudo inverse: it is the inverse of an invertible matrix. -/
def PinvSpec (pinv : Pinv) : Prop := ∀ (m : ℕ) (M : Matrix (Fin m) (Fin m) ℝ), M.det ≠ 0 → pinv m M = M⁻¹

/-- The squared Mahalanobis distance. -/
noncomputable def mahalanobis (mean : Fin m → ℝ) (cov : Matrix (Fin m) (Fin m) ℝ) (x : Fin m → ℝ) : ℝ :=
  (x - mean) ⬝ᵥ (cov⁻¹ *ᵥ (x - mean))

/-- The density of the normal distribution. -/
noncomputable def normalDensity (mean : Fin m → ℝ) (cov : Matrix (Fin m) (Fin m) ℝ) (x : Fin m → ℝ) : ℝ :=
  1 / ((2 * Real.pi) ^ ((m : ℝ) / 2) * Real.sqrt cov.det) * Real.exp (-(mahalanobis mean cov x) / 2)

/-- The covariance of the error `y - B x` if a linear predictor `B` is used, for features with joint covariance
`cov`. -/
noncomputable def errorCovariance (cov : Matrix (Fin D) (Fin D) ℝ) (featIn : Fin m → Fin D) (featOut : Fin k → Fin D)
    (B : Matrix (Fin k) (Fin m) ℝ) : Matrix (Fin k) (Fin k) ℝ :=
  cov.submatrix featOut featOut - B * cov.submatrix featIn featOut - cov.submatrix featOut featIn * Bᵀ
    + B * cov.submatrix featIn featIn * Bᵀ

/-- What is assumed about the angle space: the inverse gives back the direction, and the angle of the null direction
itself is zero. -/
structure AngleSpec (ext : AngleSpace d) : Prop where
  inverse : ∀ v n : Vec d, v ≠ 0 → n ≠ 0 → ext.inverse (ext.space v n) n = ‖v‖⁻¹ • v
  zero : ∀ (n : Vec d) (c : ℝ), n ≠ 0 → 0 < c → ext.space (c • n) n = 0
  null : ∀ n : Vec d, n ≠ 0 → ext.inverse 0 n = ‖n‖⁻¹ • n

/-- The mean of the ends of the demonstrations. -/
noncomputable def meanEnd (demos : List (Demo d)) : Vec d := (1 / (demos.length : ℝ)) • (demos.map Demo.last).sum

end Verif.Spec
