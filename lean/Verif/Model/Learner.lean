import Verif.Model.Num
import Mathlib.Analysis.SpecialFunctions.Pow.Real
import Mathlib.Analysis.SpecialFunctions.Trigonometric.Basic
import Mathlib.LinearAlgebra.Matrix.NonsingularInverse

/-!
# Model of `gmm_learner/`: `math_tools.py`, `learner/base.py`, `learner/directional_gmm.py`, `gpr_directional.py`,
`svr_directional.py`

Arrays of samples are functions `Fin N → Fin m → ℝ` (row, column).  The training of the regressors (sklearn) is not
modelled: a mixture is given by its weights, means and covariances; the other regressors are functions.
`np.linalg.pinv`, `get_angle_space` and `get_angle_space_inverse` (vartools) are parameters.
Plots and messages are left out.
-/

namespace Verif.Learner

open scoped Matrix

variable {d : ℕ}

/-! ## `math_tools.py` -/

/-- `rk4` (math_tools.py:60-83).  `x0` is not used by the code. -/
noncomputable def rk4 (dt : ℝ) (x : Vec d) (ds : Vec d → Vec d) (kf : ℝ) : Vec d :=
  let k1 := dt • kf • ds x
  let k2 := dt • kf • ds (x + (0.5 : ℝ) • k1)
  let k3 := dt • kf • ds (x + (0.5 : ℝ) • k2)
  let k4 := dt • kf • ds (x + k3)
  x + (1.0 / 6 : ℝ) • (k1 + (2 : ℝ) • k2 + (2 : ℝ) • k3 + k4)

/-- `rk4_pos_vel` (math_tools.py:24-57); `ds` gets position and velocity (stacked in the code). -/
noncomputable def rk4PosVel (dt : ℝ) (pos0 vel0 : Vec d) (ds : Vec d → Vec d → Vec d) (kf : ℝ) : Vec d × Vec d :=
  let k1 := dt • kf • ds pos0 vel0
  let k2 := dt • kf • ds (pos0 + (0.5 : ℝ) • k1) vel0
  let k3 := dt • kf • ds (pos0 + (0.5 : ℝ) • k2) vel0
  let k4 := dt • kf • ds (pos0 + k3) vel0
  let xd := (1.0 / 6 : ℝ) • (k1 + (2 : ℝ) • k2 + (2 : ℝ) • k3 + k4)
  (pos0 + xd, xd)

/-- The argument of `mag_linear_maximum`: one vector, or the columns of a matrix. -/
inductive Columns (d : ℕ) where
  | vector (x : Vec d)
  | matrix (xs : List (Vec d))

/-- `np.linalg.norm(x, axis=0).shape`. -/
def Columns.shape : Columns d → List ℕ
  | .vector _ => []
  | .matrix xs => [xs.length]

/-- `np.linalg.norm(x, axis=0)`, as a list of the values. -/
noncomputable def Columns.norms : Columns d → List ℝ
  | .vector x => [‖x‖]
  | .matrix xs => xs.map (‖·‖)

/-- `mag_linear_maximum` (math_tools.py:15-21). -/
noncomputable def magLinearMaximum (x : Columns d) (k maxMag : ℝ) : Except PyErr (List ℝ) :=
  let magnitude := x.norms.map (· * k)
  match x.shape[0]? with
  | none => .error .indexError
  | some 0 => .ok magnitude
  | some (_ + 1) => .ok (magnitude.map fun m => if m > maxMag then maxMag else m)

/-! ## Mixtures -/

/-- A fitted mixture `dpgmm` over `D` features with `n` components. -/
structure Mixture (D n : ℕ) where
  weights : Fin n → ℝ
  means : Fin n → Fin D → ℝ
  covariances : Fin n → Matrix (Fin D) (Fin D) ℝ

variable {D n m k N : ℕ}

/-- `np.linalg.pinv`. -/
abbrev Pinv := ∀ m : ℕ, Matrix (Fin m) (Fin m) ℝ → Matrix (Fin m) (Fin m) ℝ

/-- The exponent and the factor of `get_gaussian_probability` for one sample and one component
(directional_gmm.py:476-493).  Without positive determinant the factor is inf or nan. -/
noncomputable def gaussianProbability (pinv : Pinv) (g : Mixture D n) (featIn : Fin m → Fin D) (x : Fin m → ℝ)
    (i : Fin n) : Except PyErr ℝ :=
  let covariance := (g.covariances i).submatrix featIn featIn
  let dx : Fin m → ℝ := fun a => x a - g.means i (featIn a)
  if 0 < covariance.det then
    .ok (1 / ((2 * Real.pi) ^ ((m : ℝ) * 0.5) * covariance.det ^ (0.5 : ℝ))
      * Real.exp (-(dx ⬝ᵥ (pinv m covariance *ᵥ dx))))
  else .error .nan

/-- `get_mixing_weights` for one sample (directional_gmm.py:407-445): `alpha` times probability, normalised to sum one
(`normalize_probability`), or scaled by the largest weight and `weight_factor ** dim_in` and limited to sum one. -/
noncomputable def mixingWeights (weights prob : Fin n → ℝ) (maxWeight : ℝ) (dimIn : ℕ) (normalize : Bool)
    (weightFactor : ℝ) : Except PyErr (Fin n → ℝ) :=
  let alphaTimesProb : Fin n → ℝ := fun i => weights i * prob i
  if normalize then
    if ∑ i, alphaTimesProb i = 0 then .error .nan
    else .ok fun i => alphaTimesProb i / ∑ j, alphaTimesProb j
  else
    let beta : Fin n → ℝ := fun i => alphaTimesProb i / maxWeight * weightFactor ^ dimIn
    if ∑ i, beta i > 1 then .ok fun i => beta i / ∑ j, beta j else .ok beta

/-- `get_mean_yx` for one sample and one component (directional_gmm.py:547-556).  The comparison with the looped
product (directional_gmm.py:558-572) is left out: both are the same. -/
noncomputable def meanYX (pinv : Pinv) (g : Mixture D n) (featIn : Fin m → Fin D) (featOut : Fin k → Fin D)
    (x : Fin m → ℝ) (i : Fin n) : Fin k → ℝ :=
  let matrixMult := (g.covariances i).submatrix featOut featIn * pinv m ((g.covariances i).submatrix featIn featIn)
  fun b => g.means i (featOut b) + (matrixMult *ᵥ fun a => x a - g.means i (featIn a)) b

/-- `get_covariance_out` for one component (directional_gmm.py:515-522). -/
noncomputable def covarianceOut (pinv : Pinv) (g : Mixture D n) (featIn : Fin m → Fin D) (featOut : Fin k → Fin D)
    (i : Fin n) : Matrix (Fin k) (Fin k) ℝ :=
  (g.covariances i).submatrix featOut featOut
    - (g.covariances i).submatrix featOut featIn * pinv m ((g.covariances i).submatrix featIn featIn)
      * (g.covariances i).submatrix featIn featOut

/-- The default of `feat_out` (directional_gmm.py:340-342): `dim_gmm - 1 - np.arange(dim_space - 1)`. -/
def defaultFeatOut (D s : ℕ) (h : s ≤ D) (i : Fin s) : Fin D := ⟨D - 1 - i.1, by omega⟩

/-- The weight of the attractor and the weights of the components, normalised with the 2-norm
(directional_gmm.py:372-391), for one sample at the given distance from the attractor. -/
noncomputable def attractorWeights (beta : Fin n → ℝ) (dist pBeta betaMin betaR : ℝ) : Fin (n + 1) → ℝ :=
  if dist = 0 then Fin.snoc (fun _ => 0) 1
  else
    let raw : Fin (n + 1) → ℝ := Fin.snoc beta ((dist / betaR) ^ (-pBeta) + betaMin)
    fun i => raw i / Real.sqrt (∑ j, raw j ^ 2)

/-- The regression of `_predict` for a batch of samples (directional_gmm.py:396-399): `beta_norm` is the sum of the
weights of *all* samples. -/
noncomputable def regression (beta : Fin N → Fin n → ℝ) (mu : Fin N → Fin n → Fin k → ℝ) (betaPower : ℝ) :
    Except PyErr (Fin N → Fin k → ℝ) :=
  let betaNorm := ∑ s, ∑ i, beta s i
  if betaNorm = 0 then .error .nan
  else .ok fun s b => ∑ i, beta s i / betaNorm * betaNorm ^ betaPower * mu s i b

/-- `_predict` (directional_gmm.py:324-405) for normalised samples, after `get_mixing_weights`: with `some dist` the
weights are extended by the attractor at these distances, its conditional mean is zero. -/
noncomputable def predictRegression (beta : Fin N → Fin n → ℝ) (mu : Fin N → Fin n → Fin k → ℝ)
    (dist : Option (Fin N → ℝ)) (pBeta betaMin betaR betaPower : ℝ) : Except PyErr (Fin N → Fin k → ℝ) :=
  match dist with
  | none => regression beta mu betaPower
  | some dist =>
    regression (fun s => attractorWeights (beta s) (dist s) pBeta betaMin betaR)
      (fun s => Fin.snoc (mu s) (fun _ => 0)) betaPower

/-- The argument `convergence_attractor` of a call: left out, `None`, or given. -/
inductive FlagArgument where
  | leftOut
  | isNone
  | given (b : Bool)

/-- The attribute `convergence_attractor` after the assignment (directional_gmm.py:360-361); the default of the
argument is `False` (directional_gmm.py:330). -/
def FlagArgument.store (stored : Bool) : FlagArgument → Bool
  | .leftOut => false
  | .isNone => stored
  | .given b => b

/-- A call of `_predict` on a learner with the given attribute: the result, and the attribute after the call. -/
noncomputable def predictCall (stored : Bool) (argument : FlagArgument) (beta : Fin N → Fin n → ℝ)
    (mu : Fin N → Fin n → Fin k → ℝ) (dist : Fin N → ℝ) (pBeta betaMin betaR betaPower : ℝ) :
    Except PyErr (Fin N → Fin k → ℝ) × Bool :=
  let flag := argument.store stored
  (predictRegression beta mu (if flag then some dist else none) pBeta betaMin betaR betaPower, flag)

/-! ## Normalisation -/

/-- The settings `mean_x`, `scale_x` (already indexed with `dims_ind`), `crop_vel` and `dim_space`. -/
structure Normal (m : ℕ) where
  mean : Option (Fin m → ℝ)
  scale : Option (Fin m → ℝ)
  crop : Option ℝ
  dimSpace : ℕ

/-- The Euclidean length of a row. -/
noncomputable def rowNorm (v : Fin m → ℝ) : ℝ := Real.sqrt (∑ j, v j ^ 2)

/-- Subtraction of the mean and division by the scale (directional_gmm.py:109-115). -/
noncomputable def shiftScale (s : Normal m) (values : Fin N → Fin m → ℝ) : Fin N → Fin m → ℝ := fun i j =>
  let a := match s.mean with
    | some mean => values i j - mean j
    | none => values i j
  match s.scale with
  | some scale => a / scale j
  | none => a

/-- The row `i` after the limitation of velocities (directional_gmm.py:117-129): the code takes *rows* `dim_space` to
`2 dim_space - 1` for the velocities. -/
noncomputable def cropRow (s : Normal m) (i : ℕ) (row : Fin m → ℝ) : Fin m → ℝ :=
  match s.crop with
  | none => row
  | some c => if s.dimSpace ≤ i ∧ i < 2 * s.dimSpace ∧ rowNorm row > c then fun j => row j / rowNorm row else row

/-- `transform_initial_to_normalized` (directional_gmm.py:107-130): the result, and the array of the caller after the
call.  Without mean and scale the rows for the velocities are a view of the array of the caller, which is overwritten
(directional_gmm.py:124). -/
noncomputable def transformInitialToNormalized (s : Normal m) (values : Fin N → Fin m → ℝ) :
    (Fin N → Fin m → ℝ) × (Fin N → Fin m → ℝ) :=
  let result : Fin N → Fin m → ℝ := fun i => cropRow s i.1 (shiftScale s values i)
  (result, if s.mean.isNone ∧ s.scale.isNone then result else values)

/-- `transform_normalized_to_initial` (directional_gmm.py:132-142). -/
noncomputable def transformNormalizedToInitial (s : Normal m) (values : Fin N → Fin m → ℝ) : Fin N → Fin m → ℝ :=
  fun i j =>
    let a := match s.scale with
      | some scale => values i j * scale j
      | none => values i j
    match s.mean with
    | some mean => a + mean j
    | none => a

/-- The speed of a row: the norm of the columns `ind_vel`. -/
noncomputable def speed (vel : Finset (Fin D)) (row : Fin D → ℝ) : ℝ := Real.sqrt (∑ j ∈ vel, row j ^ 2)

/-- `normalize_velocity` (directional_gmm.py:144-170) for at least one sample; `crop` tells whether `self.crop_vel` is
set, `cropVel` is the argument. -/
noncomputable def normalizeVelocity (vel : Finset (Fin D)) (crop : Bool) (cropVel : ℝ) (X : Fin N → Fin D → ℝ) :
    Except PyErr (Fin N → Fin D → ℝ) :=
  open Classical in
  let meanVel := (∑ i, speed vel (X i)) / N
  let mag : Fin N → ℝ := fun i => if crop then max (meanVel * cropVel) (speed vel (X i)) else speed vel (X i)
  if ∃ i, mag i = 0 then .error .nan
  else .ok fun i j => if j ∈ vel then X i j / mag i else X i j

/-! ## Learner -/

/-- The external functions `get_angle_space` and `get_angle_space_inverse` (vartools). -/
structure AngleSpace (d : ℕ) where
  space : Vec d → Vec d → Fin (d - 1) → ℝ
  inverse : (Fin (d - 1) → ℝ) → Vec d → Vec d

/-- `null_ds`: an object with `evaluate` (`LinearSystem`) or a plain function (`DirectionalSVR`,
svr_directional.py:112-114). -/
inductive NullDs (d : ℕ) where
  | system (attractor : Vec d)
  | function (attractor : Vec d)

/-- `null_ds.evaluate`: `LinearSystem(attractor_position)` leads to the attractor. -/
noncomputable def NullDs.evaluate (s : NullDs d) (x : Vec d) : Except PyErr (Vec d) :=
  match s with
  | .system a => .ok (a - x)
  | .function _ => .error .attributeError

/-- `Learner.predict` (learner/base.py:57-87). -/
noncomputable def predict (ext : AngleSpace d) (regressor : Vec d → Fin (d - 1) → ℝ) (nullDs : NullDs d) (x : Vec d) :
    Except PyErr (Vec d) := do
  let nullDirection ← nullDs.evaluate x
  .ok (ext.inverse (regressor x) nullDirection)

/-- A demonstration: positions and velocities; the last position is its end. -/
structure Demo (d : ℕ) where
  samples : List (Vec d × Vec d)
  last : Vec d

/-- The attractor from the demonstrations in `DirectionalGMM.load_data_from_mat` (directional_gmm.py:212-220). -/
noncomputable def gmmAttractor (demos : List (Demo d)) : Vec d :=
  demos.foldl (fun a o => a + (1 / (demos.length : ℝ)) • o.last) 0

/-- The attractor in `DirectionalGPR` and `DirectionalSVR` (gpr_directional.py:81-97, svr_directional.py:101-109): the
loop starts at 1. -/
noncomputable def gprAttractor (demos : List (Demo d)) : Vec d :=
  (demos.drop 1).foldl (fun a o => a + (1 / (demos.length : ℝ)) • o.last) 0

/-- The local variable `pos_attractor` of `DirectionalGMM.load_data_from_mat` (directional_gmm.py:210-235): it is only
set without attractor argument.  (`attractor=False` needs an undefined name and is left out.) -/
noncomputable def localAttractor (demos : List (Demo d)) (attractor : Option (Vec d)) : Option (Vec d) :=
  match attractor with
  | none => some (gmmAttractor demos)
  | some _ => none

/-- The attribute `pos_attractor` after `DirectionalGMM.load_data_from_mat`: the local variable is assigned to it at the
end (directional_gmm.py:272). -/
noncomputable def gmmLoadAttractor (demos : List (Demo d)) (attractor : Option (Vec d)) : Except PyErr (Vec d) :=
  match localAttractor demos attractor with
  | some a => .ok a
  | none => .error .unboundLocal

/-- What `DirectionalSVR.load_data_from_mat` stores (svr_directional.py:100-127). -/
noncomputable def svrLoadAttractor (demos : List (Demo d)) (attractor : Option (Vec d)) : Except PyErr (Vec d) :=
  match attractor with
  | none => .ok (gprAttractor demos)
  | some a => .ok a

/-- The training targets of `DirectionalGMM` and `DirectionalGPR`: angles relative to the linear system with attractor
zero (directional_gmm.py:197-201, gpr_directional.py:118-139). -/
noncomputable def trainingAngles (ext : AngleSpace d) (s : Vec d × Vec d) : Fin (d - 1) → ℝ :=
  ext.space s.2 (0 - s.1)

/-- The training targets of `DirectionalSVR`: angles relative to `null_ds` (svr_directional.py:139-155). -/
noncomputable def svrTrainingAngles (ext : AngleSpace d) (attractor : Vec d) (s : Vec d × Vec d) : Fin (d - 1) → ℝ :=
  ext.space s.2 (attractor - s.1)

/-! ## Trajectories -/

/-- One trajectory of `Learner.integrate_trajectory` (learner/base.py:154-162): `current` is the position at the last
index, `fuel` the number of remaining steps; the array is filled with zeros. -/
noncomputable def integrateFrom (dt margin : ℝ) (ds : Vec d → Vec d) (current : Vec d) : ℕ → List (Vec d)
  | 0 => []
  | fuel + 1 =>
    let next := rk4 dt current ds 1
    open Classical in
    if ‖next‖ < margin then next :: List.replicate fuel 0
    else next :: integrateFrom dt margin ds next fuel

/-- `Learner.integrate_trajectory` (learner/base.py:122-164) with `n_steps ≥ 1`: the start is the first position of the
recording; with `starting_points` the array of zeros is used as it is (learner/base.py:150-152). -/
noncomputable def integrateTrajectory (nSteps : ℕ) (dt margin : ℝ) (ds : Vec d → Vec d) (recorded : List (Vec d))
    (starts : Option (List (Vec d))) : List (List (Vec d)) :=
  let first : List (Vec d) := match starts with
    | none => recorded
    | some s => s.map fun _ => 0
  first.map fun x => x :: integrateFrom dt margin ds x (nSteps - 1)

/-- The methods of `DirectionalGMM` and of its base classes that are called with a position
(learner/base.py, directional_gmm.py, learner/visualizer.py). -/
def gmmMethods : List String := ["evaluate", "predict", "_predict", "predict_array", "regress_gmm"]

/-- Calling a method by name. -/
def callMethod (name : String) (value : Vec d) : Except PyErr (Vec d) :=
  if name ∈ gmmMethods then .ok value else .error .attributeError

open Classical in
/-- The steps after the first one (directional_gmm.py:604-630); `velocity_based=False`. -/
noncomputable def gmmSteps (dt margin : ℝ) (predict : Vec d → Vec d) (current : Vec d) : ℕ →
    Except PyErr (List (Vec d))
  | 0 => .ok []
  | fuel + 1 => do
    let xd ← callMethod "predict" (predict current)
    if ‖current + dt • xd‖ < margin then .ok ((current + dt • xd) :: List.replicate fuel 0)
    else do
      let rest ← gmmSteps dt margin predict (current + dt • xd) fuel
      .ok ((current + dt • xd) :: rest)

/-- One trajectory of `DirectionalGMM.integrate_trajectory` with `num_steps ≥ 2` (directional_gmm.py:597-630): the first
step calls `predict2`. -/
noncomputable def gmmTrajectory (numSteps : ℕ) (dt margin : ℝ) (predict : Vec d → Vec d) (start : Vec d) :
    Except PyErr (List (Vec d)) := do
  let xd ← callMethod "predict2" (predict start)
  let rest ← gmmSteps dt margin predict (start + dt • xd) (numSteps - 2)
  .ok (start :: (start + dt • xd) :: rest)

/-- `DirectionalGMM.integrate_trajectory` (directional_gmm.py:575-633); given starting points are replaced by zeros
here as well (directional_gmm.py:591-592). -/
noncomputable def gmmIntegrateTrajectory (numSteps : ℕ) (dt margin : ℝ) (predict : Vec d → Vec d)
    (recorded : List (Vec d)) (starts : Option (List (Vec d))) : Except PyErr (List (List (Vec d))) :=
  let first : List (Vec d) := match starts with
    | none => recorded
    | some s => s.map fun _ => 0
  first.mapM (gmmTrajectory numSteps dt margin predict)

end Verif.Learner
