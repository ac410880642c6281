import Verif.Model.Num
import Mathlib.Analysis.SpecialFunctions.Exp
import Mathlib.Order.WithBot

/-!
# Model of `gmm_learner/learner/directional.py`

`DirectionalGaussian` inherits from `sklearn.mixture.BayesianGaussianMixture`.  What it inherits is a parameter
(`Library`): the parameters of the mixture are an arbitrary type `S`, the random state an arbitrary type `ρ`, the
statistics of the M-step an arbitrary type `G`.  The data is fixed: `N` samples, `K` components.  Infinite and nan
bounds are not modelled, except for the initial `-inf`, which is `⊥`.
-/

namespace Verif.DirectionalFit

variable {S ρ G : Type} {N K : ℕ}

/-- The inherited functions, for the given data. -/
structure Library (S ρ G : Type) (N K : ℕ) where
  /-- `_check_initial_parameters(X)` -/
  checkInitialParameters : Except PyErr Unit
  /-- `_initialize_parameters(X, random_state)` -/
  initializeParameters : S → ρ → S × ρ
  /-- `_estimate_log_prob_resp(X)` -/
  estimateLogProbResp : S → (Fin N → ℝ) × (Fin N → Fin K → ℝ)
  /-- `_estimate_gaussian_parameters(X, resp, reg_covar, covariance_type)` -/
  estimateGaussianParameters : (Fin N → Fin K → ℝ) → G
  /-- `_estimate_weights(nk)` -/
  estimateWeights : G → S → S
  /-- `_estimate_means(nk, xk)` -/
  estimateMeans : G → S → S
  /-- `_estimate_precisions(nk, xk, sk)` -/
  estimatePrecisions : G → S → S
  /-- `_compute_lower_bound(log_resp, log_prob_norm)` -/
  computeLowerBound : S → (Fin N → Fin K → ℝ) → ℝ → ℝ

/-- The attributes set by the constructor of the base class.  The constructor of `DirectionalGaussian`
(directional.py:83-84) does not set them. -/
structure Config where
  nInit : ℕ
  maxIter : ℕ
  tol : ℝ
  warmStart : Bool

/-- The attributes set by a fit; `none` for a missing attribute. -/
structure Fitted (S : Type) where
  params : S
  converged : Option Bool
  lowerBound : Option ℝ
  nIter : Option ℕ

/-- `_e_step` (directional.py:208-222). -/
noncomputable def eStep (lib : Library S ρ G N K) (s : S) : ℝ × (Fin N → Fin K → ℝ) :=
  ((∑ n, (lib.estimateLogProbResp s).1 n) / N, (lib.estimateLogProbResp s).2)

/-- `_m_step` (directional.py:224-243). -/
noncomputable def mStep (lib : Library S ρ G N K) (s : S) (logResp : Fin N → Fin K → ℝ) : S :=
  let g := lib.estimateGaussianParameters fun n k => Real.exp (logResp n k)
  lib.estimatePrecisions g (lib.estimateMeans g (lib.estimateWeights g s))

/-- The loop over the iterations (directional.py:170-185): the remaining and the finished iterations, the parameters and
`lower_bound`.  Gives the parameters, `lower_bound`, the last `n_iter` and whether the loop was left by `break`. -/
noncomputable def emLoop (lib : Library S ρ G N K) (tol : ℝ) : ℕ → ℕ → S → WithBot ℝ → S × WithBot ℝ × ℕ × Bool
  | 0, k, s, lb => (s, lb, k, false)
  | r + 1, k, s, prev =>
    open Classical in
    let logResp := (eStep lib s).2
    let s' := mStep lib s logResp
    let lb := lib.computeLowerBound s' logResp (eStep lib s).1
    if ∃ p : ℝ, prev = ↑p ∧ |lb - p| < tol then (s', ↑lb, k + 1, true)
    else emLoop lib tol r (k + 1) s' ↑lb

/-- The variables of the loop over the restarts. -/
structure Search (S ρ : Type) where
  params : S
  rng : ρ
  converged : Bool
  maxLowerBound : WithBot ℝ
  best : Option (S × ℕ)

/-- One restart (directional.py:162-192); `lowerBound` is the attribute `lower_bound_`, which is read if `doInit` is
false. -/
noncomputable def restart (lib : Library S ρ G N K) (cfg : Config) (doInit : Bool) (lowerBound : WithBot ℝ)
    (v : Search S ρ) : Search S ρ :=
  open Classical in
  let init := if doInit then lib.initializeParameters v.params v.rng else (v.params, v.rng)
  let run := emLoop lib cfg.tol cfg.maxIter 0 init.1 (if doInit then ⊥ else lowerBound)
  let v : Search S ρ := { v with params := run.1, rng := init.2, converged := v.converged || run.2.2.2 }
  if v.maxLowerBound < run.2.1 ∨ v.maxLowerBound = ⊥ then
    { v with maxLowerBound := run.2.1, best := some (run.1, run.2.2.1) }
  else v

/-- The restarts. -/
noncomputable def restarts (lib : Library S ρ G N K) (cfg : Config) (doInit : Bool) (lowerBound : WithBot ℝ) :
    ℕ → Search S ρ → Search S ρ
  | 0, v => v
  | n + 1, v => restarts lib cfg doInit lowerBound n (restart lib cfg doInit lowerBound v)

/-- A stored bound as a number, `-inf` if there is none. -/
noncomputable def toBot : Option ℝ → WithBot ℝ
  | none => ⊥
  | some b => ↑b

/-- `argmax` of a row: the first largest entry. -/
noncomputable def argmaxRow (hK : 0 < K) (f : Fin K → ℝ) : Fin K :=
  open Classical in ((List.finRange K).find? fun k => ∀ j, f j ≤ f k).getD ⟨0, hK⟩

/-- The end of `fit_predict` (directional.py:194-206): the best parameters are restored, the labels are those of a last
E-step.  The warning is left out. -/
noncomputable def finish (lib : Library S ρ G N K) (v : Search S ρ) : Except PyErr (Fitted S × (Fin N → Fin K)) :=
  match v.best, v.maxLowerBound with
  | some (best, nIter), some bound =>
    if hK : 0 < K then
      .ok (⟨best, some v.converged, some bound, some nIter⟩, fun n => argmaxRow hK ((eStep lib best).2 n))
    else .error .valueError
  | _, _ => .error .unboundLocal

/-- `fit_predict` (directional.py:115-206); `cfg` is `none` for an object as constructed.  `_validate_data` raises for
less than two samples.  Without restart or without iteration `init`, `best_params` or `n_iter` are not assigned.  The
messages and the warning are left out. -/
noncomputable def fitPredict (lib : Library S ρ G N K) (cfg : Option Config) (obj : Fitted S) (rng : ρ) :
    Except PyErr (Fitted S × (Fin N → Fin K)) :=
  if N < 2 then .error .valueError
  else match cfg with
  | none => .error .attributeError
  | some cfg =>
    if N < K then .error .valueError
    else match lib.checkInitialParameters with
    | .error e => .error e
    | .ok _ =>
      let doInit := !(cfg.warmStart && obj.converged.isSome)
      let nInit := if doInit then cfg.nInit else 1
      if doInit = false ∧ obj.lowerBound = none then .error .attributeError
      else if nInit = 0 ∨ cfg.maxIter = 0 then .error .unboundLocal
      else
        finish lib (restarts lib cfg doInit (toBot obj.lowerBound) nInit
          ⟨obj.params, rng, false, ⊥, none⟩)

/-- `fit` (directional.py:89-113). -/
noncomputable def fit (lib : Library S ρ G N K) (cfg : Option Config) (obj : Fitted S) (rng : ρ) :
    Except PyErr (Fitted S) := do
  let r ← fitPredict lib cfg obj rng
  pure r.1

end Verif.DirectionalFit
