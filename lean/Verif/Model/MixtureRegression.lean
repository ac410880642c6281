import Verif.Model.Learner

/-!
# Model of `gmm_learner/direction_space.py`

The module-level regression with a mixture.  A batch of samples is processed column by column without interaction; the
model is for one sample.  `np.linalg.pinv` is a parameter.
-/

namespace Verif.MixtureRegression
open Learner

variable {D n m : ℕ}

/-- `guassian_function` (direction_space.py:31-60): `deltaKappa_dir` is read before its first assignment (line 47). -/
def guassianFunction : Except PyErr Unit := .error .unboundLocal

/-- `orthonormal_matrix` (direction_space.py:63-98): raises before doing anything. -/
def orthonormalMatrix : Except PyErr Unit := .error .valueError

/-- `velocity_reduction` (direction_space.py:101-152): raises before doing anything. -/
def velocityReduction : Except PyErr Unit := .error .valueError

/-- `velocity_reconstruction` (direction_space.py:155-182): raises before doing anything. -/
def velocityReconstruction : Except PyErr Unit := .error .valueError

/-- `dims_output` (direction_space.py:191, 254): the dimensions which are not inputs, in increasing order. -/
noncomputable def dimsOutput (dimsInput : Fin m → Fin D) : List (Fin D) :=
  open Classical in (List.finRange D).filter fun g => ¬ ∃ a, dimsInput a = g

/-- `get_gaussianProbability` (direction_space.py:297-324) for one sample and one component: the same formula as
`get_gaussian_probability` of directional_gmm.py. -/
noncomputable def getGaussianProbability (pinv : Pinv) (g : Mixture D n) (dimsInput : Fin m → Fin D) (x : Fin m → ℝ)
    (i : Fin n) : Except PyErr ℝ :=
  gaussianProbability pinv g dimsInput x i

/-- The probabilities of all components (the loop of direction_space.py:309-323). -/
noncomputable def probabilities (pinv : Pinv) (g : Mixture D n) (dimsInput : Fin m → Fin D) (x : Fin m → ℝ) :
    Except PyErr (Fin n → ℝ) :=
  open Classical in
  if h : ∀ i, ∃ p, getGaussianProbability pinv g dimsInput x i = .ok p then .ok fun i => (h i).choose
  else .error .nan

/-- `get_mixing_weights` (direction_space.py:220-233) for one sample; `0 / 0` gives nan. -/
noncomputable def getMixingWeights (pinv : Pinv) (g : Mixture D n) (dimsInput : Fin m → Fin D) (x : Fin m → ℝ) :
    Except PyErr (Fin n → ℝ) :=
  open Classical in do
  let prob ← probabilities pinv g dimsInput x
  let alphaTimesProb : Fin n → ℝ := fun i => g.weights i * prob i
  if ∑ i, alphaTimesProb i = 0 then .error .nan
  else .ok fun i => alphaTimesProb i / ∑ j, alphaTimesProb j

/-- `get_mean_yx` (direction_space.py:185-217) for one sample and one component. -/
noncomputable def getMeanYX (pinv : Pinv) (g : Mixture D n) (dimsInput : Fin m → Fin D) (x : Fin m → ℝ) (i : Fin n) :
    Fin (dimsOutput dimsInput).length → ℝ :=
  meanYX pinv g dimsInput (dimsOutput dimsInput).get x i

/-- The weights with the attractor (direction_space.py:266-283) for one sample at the distance `dist`: normalised with
the 2-norm (line 281). -/
noncomputable def addAttractor (beta : Fin n → ℝ) (dist pBeta betaMin betaR : ℝ) : Except PyErr (Fin (n + 1) → ℝ) :=
  open Classical in
  if dist = 0 then .ok (Fin.snoc (fun _ => 0) 1)
  else
    let raw : Fin (n + 1) → ℝ := Fin.snoc beta ((dist / betaR) ^ (-pBeta) + betaMin)
    if ∑ j, raw j ^ 2 = 0 then .error .nan
    else .ok fun i => raw i / Real.sqrt (∑ j, raw j ^ 2)

/-- The normalisation of a sample (direction_space.py:256-260); `mu`, `var` are `none` for the empty list.  A division
by zero gives nan or inf. -/
noncomputable def normalise (dimsInput : Fin m → Fin D) (mu var : Option (Fin D → ℝ)) (x : Fin m → ℝ) :
    Except PyErr (Fin m → ℝ) :=
  open Classical in
  let x : Fin m → ℝ := match mu with
    | none => x
    | some mu => fun a => x a - mu (dimsInput a)
  match var with
  | none => .ok x
  | some var => if ∃ a, var (dimsInput a) = 0 then .error .nan else .ok fun a => x a / var (dimsInput a)

/-- The way back for the result (direction_space.py:289-292). -/
noncomputable def denormalise (dimsInput : Fin m → Fin D) (mu var : Option (Fin D → ℝ))
    (value : Fin (dimsOutput dimsInput).length → ℝ) : Fin (dimsOutput dimsInput).length → ℝ :=
  let value := match var with
    | none => value
    | some var => fun b => value b * var ((dimsOutput dimsInput).get b)
  match mu with
  | none => value
  | some mu => fun b => value b + mu ((dimsOutput dimsInput).get b)

/-- `dist_attr` (direction_space.py:266-269) for one normalised sample. -/
noncomputable def distAttr (attractor : Option (Fin m → ℝ)) (x : Fin m → ℝ) : ℝ :=
  match attractor with
  | none => ‖(WithLp.toLp 2 x : Vec m)‖
  | some z => ‖(WithLp.toLp 2 x : Vec m) - WithLp.toLp 2 z‖

/-- `regress_gmm` (direction_space.py:236-294) for one sample; `attractor` is `none` for the empty list.  The attractor is
compared with the sample after its normalisation. -/
noncomputable def regressGmm (pinv : Pinv) (g : Mixture D n) (dimsInput : Fin m → Fin D) (x : Fin m → ℝ)
    (mu : Option (Fin D → ℝ) := none) (var : Option (Fin D → ℝ) := none) (convergenceAttractor : Bool := true)
    (attractor : Option (Fin m → ℝ) := none) (pBeta : ℝ := 2) (betaMin : ℝ := 0.5) (betaR : ℝ := 0.3) :
    Except PyErr (Fin (dimsOutput dimsInput).length → ℝ) := do
  let x ← normalise dimsInput mu var x
  let beta ← getMixingWeights pinv g dimsInput x
  let muYX := getMeanYX pinv g dimsInput x
  if convergenceAttractor then do
    let beta ← addAttractor beta (distAttr attractor x) pBeta betaMin betaR
    let muYX : Fin (n + 1) → Fin (dimsOutput dimsInput).length → ℝ := Fin.snoc muYX (fun _ => 0)
    pure (denormalise dimsInput mu var fun b => ∑ i, beta i * muYX i b)
  else pure (denormalise dimsInput mu var fun b => ∑ i, beta i * muYX i b)

end Verif.MixtureRegression
