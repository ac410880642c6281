import Verif.Model.MixtureRegression
import Verif.Spec.Learner

/-!
# Notions for the regression of direction_space.py
-/

namespace Verif.Spec
open Learner
open scoped Matrix

variable {D n m : ℕ}

/-- The mean of the normalisation; zero without normalisation. -/
noncomputable def centreOf (mu : Option (Fin D → ℝ)) : Fin D → ℝ := mu.getD fun _ => 0

/-- The width of the normalisation; one without normalisation. -/
noncomputable def widthOf (var : Option (Fin D → ℝ)) : Fin D → ℝ := var.getD fun _ => 1

/-- The input in normalised coordinates. -/
noncomputable def scaledInput (mu var : Option (Fin D → ℝ)) (featIn : Fin m → Fin D) (x : Fin m → ℝ) : Fin m → ℝ :=
  fun a => (x a - centreOf mu (featIn a)) / widthOf var (featIn a)

/-- The mean of the feature `b` under the condition that the input features have the values `x`, for the normal
distribution `i` of the mixture. -/
noncomputable def conditionalMean (g : Mixture D n) (featIn : Fin m → Fin D) (x : Fin m → ℝ) (i : Fin n) (b : Fin D) : ℝ :=
  g.means i b + (fun a => g.covariances i b (featIn a))
    ⬝ᵥ (((g.covariances i).submatrix featIn featIn)⁻¹ *ᵥ (x - fun a => g.means i (featIn a)))

/-- The mixture is proper for the input features: positive priors, and covariances with positive determinant. -/
structure ProperMixture (g : Mixture D n) (featIn : Fin m → Fin D) : Prop where
  weights : ∀ i, 0 < g.weights i
  det : ∀ i, 0 < ((g.covariances i).submatrix featIn featIn).det

end Verif.Spec
