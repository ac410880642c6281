import Verif.Model.GmmObstacle
import Verif.Model.Weights
import Mathlib.Analysis.SpecialFunctions.Complex.Arg
import Mathlib.LinearAlgebra.Matrix.Determinant.Basic

/-!
# Model of the derivatives, the shared points and the analytic ellipses of a Gaussian mixture

`nonlinear_avoidance/gmm_obstacle.py` (`_get_gauss_derivative`, `get_gamma_derivative`,
`get_intersection_of_ellipses`, `evaluate_axes_length_and_direction`, `transform_to_analytic_ellipses`,
`project_point_on_surface_with_offcenter_point`) and `nonlinear_avoidance/multivariant_gaussian.py`.

External: `numpy.linalg.eigh` (a parameter), `get_intersection_with_circle` (a parameter), and the class
`Ellipse` of the obstacle library, of which only the attributes are kept.
-/

open scoped RealInnerProductSpace

namespace Verif.Gmm

variable {d : ℕ}

/-! ## Derivatives -/

/-- `get_gamma_derivative` (gmm_obstacle.py:500-516).  `none` stands for `nan` or infinite entries.
Simplification: the variance factor is a positive number, so its power is defined. -/
noncomputable def gammaDerivative (factor : ℝ) (g : Gauss d) (position : Vec d) (powerfactor : ℝ) :
    Option (Vec d) :=
  (npPow (quad g position) (powerfactor / 2 - 1)).map (fun q =>
    (powerfactor / 2 * q * factor ^ (-1 * powerfactor)) • apply g.cholesky (position - g.mean))

/-- `_get_gauss_derivative` (gmm_obstacle.py:477-493): `means_` has two axes, so `means_[index, :, :]` in
line 484 raises before anything else can happen.  Simplification: the determinant of line 482 is evaluated
before but raises nothing. -/
def gaussDerivative (_g : Gauss d) (_position : Vec d) (_powerfactor : ℝ) : Except PyErr (Vec d) :=
  .error .indexError

/-- An object of the class `MultiVariantGaussian` (multivariant_gaussian.py:25-37): `assigned` is the
attribute `mean`, which the constructor does not set; `precision` is `_precision_cholesky`. -/
structure Normal (d : ℕ) where
  ownMean : Vec d
  covariance : Matrix (Fin d) (Fin d) ℝ
  precision : Matrix (Fin d) (Fin d) ℝ
  fraction : Option ℝ
  assigned : Option (Vec d)

/-- `MultiVariantGaussian.__init__` (multivariant_gaussian.py:25-37); `pinv` is the pseudo-inverse of numpy.
The fraction is `none` for `nan` and infinite values. -/
noncomputable def Normal.create
    (pinv : Matrix (Fin d) (Fin d) ℝ → Matrix (Fin d) (Fin d) ℝ)
    (mean : Vec d) (covariance : Matrix (Fin d) (Fin d) ℝ)
    (precision : Option (Matrix (Fin d) (Fin d) ℝ) := none) : Normal d :=
  open Classical in
  { ownMean := mean
    covariance := covariance
    precision := match precision with
      | none => pinv covariance
      | some p => p
    fraction := if (2 * Real.pi) ^ d * covariance.det ≤ 0 then none
      else some (1 / Real.sqrt ((2 * Real.pi) ^ d * covariance.det))
    assigned := none }

/-- `evaluate` (multivariant_gaussian.py:47-52). -/
noncomputable def Normal.evaluate (n : Normal d) (position : Vec d) : Except PyErr ℝ :=
  match n.assigned with
  | none => .error .attributeError
  | some mean =>
    match n.fraction with
    | none => .error .nan
    | some f => .ok (f * Real.exp ((-0.5) * ⟪position - mean, apply n.precision (position - mean)⟫))

/-- `evaluate_derivative` (multivariant_gaussian.py:54-64). -/
noncomputable def Normal.evaluateDerivative (n : Normal d) (position : Vec d) : Except PyErr (Vec d) :=
  match n.assigned with
  | none => .error .attributeError
  | some mean =>
    match n.fraction with
    | none => .error .nan
    | some f => .ok ((f * Real.exp ((-0.5) * ⟪position - mean, apply n.precision (position - mean)⟫))
        • ((-0.5 : ℝ) • apply n.precision (position - mean)))

/-! ## Shared point of two Gaussians -/

/-- The sum of the derivatives over the indices (gmm_obstacle.py:638-642). -/
noncomputable def gradientSum (factor : ℝ) (powerfactor : ℝ) (x : Vec d) : List (Gauss d) → Option (Vec d)
  | [] => some 0
  | g :: gs =>
    match gammaDerivative factor g x powerfactor, gradientSum factor powerfactor x gs with
    | some a, some b => some (a + b)
    | _, _ => none

/-- The loop of `get_intersection_of_ellipses` (gmm_obstacle.py:637-655).  A `nan` in the gradient stays in
the position for all further rounds (`none`).  With a zero gradient line 646 gives `nan`, but line 649 leaves
the loop before it is used. -/
noncomputable def intersectLoop (factor powerfactor absTol stepSize : ℝ) (gs : List (Gauss d)) :
    ℕ → Vec d → Option (Vec d)
  | 0, x => some x
  | n + 1, x =>
    match gradientSum factor powerfactor x gs with
    | none => none
    | some grad =>
      open Classical in
      if ‖grad‖ ^ (1 / powerfactor) < absTol then some x
      else if ‖grad‖ = 0 then none
      else intersectLoop factor powerfactor absTol stepSize gs n
        (x - stepSize • ((‖grad‖ ^ (1 / powerfactor)) • ((1 / ‖grad‖) • grad)))

/-- `get_intersection_of_ellipses` (gmm_obstacle.py:602-657) for two indices. -/
noncomputable def intersectionOfEllipses (factor : ℝ) (g₁ g₂ : Gauss d) (powerfactor : ℝ := 5)
    (itMax : ℕ := 100) (rtol : ℝ := 1e-1) (stepSize : ℝ := 0.05) : Option (Vec d) :=
  open Classical in
  if rtol * ‖g₁.mean - g₂.mean‖ = 0 then some g₁.mean
  else intersectLoop factor powerfactor (rtol * ‖g₁.mean - g₂.mean‖) stepSize [g₁, g₂] itMax
    ((1 / 2 : ℝ) • (g₁.mean + g₂.mean))

/-! ## Axes and analytic ellipses -/

/-- `evaluate_axes_length_and_direction` (gmm_obstacle.py:407-418) for one Gaussian with the given
covariance; `eigh` is the external function (eigenvalues, matrix with the eigenvectors as columns).  A
negative eigenvalue gives `nan` (`none`).  Simplification: the type of covariance is `full`. -/
noncomputable def axes (eigh : Matrix (Fin d) (Fin d) ℝ → (Fin d → ℝ) × Matrix (Fin d) (Fin d) ℝ)
    (factor : ℝ) (mean : Vec d) (covariance cholesky : Matrix (Fin d) (Fin d) ℝ) : Option (Gauss d) :=
  open Classical in
  if ∃ i, (eigh covariance).1 i < 0 then none
  else some ⟨mean, cholesky, (eigh covariance).2,
    fun i => 2 * Real.sqrt ((eigh covariance).1 i) * factor⟩

/-- The attributes of an analytic `Ellipse`. -/
structure AnalyticEllipse (d : ℕ) where
  center : Vec d
  orientation : ℝ
  axesLength : Fin d → ℝ

/-- One round of `transform_to_analytic_ellipses` (gmm_obstacle.py:430-443) in the plane:
`_axes_directions[:, :, ii][0]` is the first row of the matrix of the directions. -/
noncomputable def toAnalytic (g : Gauss 2) : Except PyErr (AnalyticEllipse 2) :=
  open Classical in
  let row : Vec 2 := WithLp.toLp 2 (fun j => g.directions 0 j)
  if ‖row‖ = 0 then .error .nan
  else .ok ⟨g.mean, Complex.arg ⟨row 0 / ‖row‖, row 1 / ‖row‖⟩, g.lengths⟩

/-- `transform_to_analytic_ellipses` (gmm_obstacle.py:420-445): the axes of all Gaussians are evaluated
before.  Simplification: with a `nan` angle the external constructor is taken to fail. -/
noncomputable def transformToAnalytic : {d : ℕ} → List (Gauss d) → Except PyErr (List (AnalyticEllipse d))
  | 2, gs => gs.mapM toAnalytic
  | _, _ => .error .notImplemented

/-- `project_point_on_surface_with_offcenter_point` (gmm_obstacle.py:559-569); `circle start direction radius`
is the external `get_intersection_with_circle` (`none`: no intersection, on which the transformation fails
with a `TypeError`). -/
noncomputable def projectOffcenter (circle : Vec d → Vec d → ℝ → Option (Vec d)) (g : Gauss d)
    (position offcenter : Vec d) : Except PyErr (Vec d) :=
  match circle (toUnit g offcenter) (toUnit g position - toUnit g offcenter) 0.5 with
  | none => .error .typeError
  | some q => .ok (fromUnit g q)

end Verif.Gmm
