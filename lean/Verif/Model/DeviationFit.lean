import Verif.Model.LocalDynamics

/-!
# Model of learning a deviation from samples: `PerpendicularDeviatoinOfLinearDS` (dynamics/nonlinear_deviation.py)

`fit_from_velocities`, `velocity_to_direction`, `ConstantRegressor`, `MultiOutputSVR` and `predict`.  External: the
regression itself (`sklearn`), a map from samples to a function, and the angle space functions of `vartools`.
-/

namespace Verif.DeviationFit

open Verif.LocalDynamics

variable {d n : ℕ}

/-- An entry of `regressors` (nonlinear_deviation.py:217-219, 259-262): a copy of the regressor given to the constructor,
with the function it has learned if it was fitted, or a `ConstantRegressor` (nonlinear_deviation.py:43-48). -/
inductive Regressor (d n : ℕ) where
  | given (learned : Option (Vec d → Vec n))
  | constant (value : Vec n)

/-- `predict` of a regressor on one position; `sklearn` raises `NotFittedError` before the fit. -/
def Regressor.predict (r : Regressor d n) (x : Vec d) : Except PyErr (Vec n) :=
  match r with
  | .given (some f) => .ok (f x)
  | .given none => .error .exception
  | .constant v => .ok v

/-- `fit` of a regressor: `regress` is what `sklearn` learns from the samples.  `ConstantRegressor` has no `fit`. -/
def Regressor.fit (regress : List (Vec d × Vec n) → Vec d → Vec n) (samples : List (Vec d × Vec n))
    (r : Regressor d n) : Except PyErr (Regressor d n) :=
  match r with
  | .given _ => .ok (.given (some (regress samples)))
  | .constant _ => .error .attributeError

/-- `sign` (nonlinear_deviation.py:251): the side `false` is the first one, `-1`. -/
def sideSign (side : Bool) : ℝ := if side then 1 else -1

/-- `null_axis` (nonlinear_deviation.py:253-254). -/
noncomputable def nullAxis (dd : Fin d) (side : Bool) : Vec d := EuclideanSpace.single dd ((-1) * sideSign side)

/-- `X_relative[ind_good, :]` with the velocities of these rows (nonlinear_deviation.py:244, 257, 265-268).  A row of `X`
and the row of `y` are one pair. -/
noncomputable def goodSamples (attractor : Vec d) (dd : Fin d) (side : Bool) (data : List (Vec d × Vec d)) :
    List (Vec d × Vec d) :=
  open Classical in
  (data.map (fun s => (s.1 - attractor, s.2))).filter (fun s => decide (s.1 dd * sideSign side ≥ 0))

/-- `velocity_to_direction` (nonlinear_deviation.py:275-279): the angles of the velocities.  `space v a` is
`get_angle_space(v, get_orthogonal_basis(a))`. -/
def velocityToDirection (space : Vec d → Vec d → Vec n) (null : Vec d) (samples : List (Vec d × Vec d)) :
    List (Vec d × Vec n) :=
  samples.map (fun s => (s.1, space s.2 null))

/-- The body of the two loops of `fit_from_velocities` for one regressor (nonlinear_deviation.py:257-273). -/
noncomputable def fitSide (regress : List (Vec d × Vec n) → Vec d → Vec n) (space : Vec d → Vec d → Vec n)
    (attractor : Vec d) (data : List (Vec d × Vec d)) (dd : Fin d) (side : Bool) (r : Regressor d n) :
    Except PyErr (Regressor d n) :=
  let good := goodSamples attractor dd side data
  if good.length = 0 then .ok (.constant 0)
  else r.fit regress (velocityToDirection space (nullAxis dd side) good)

/-- One round of the loops, with the access to `_null_matrices` (nonlinear_deviation.py:250-273). -/
noncomputable def fitStep (regress : List (Vec d × Vec n) → Vec d → Vec n) (space : Vec d → Vec d → Vec n)
    (attractor : Vec d) (data : List (Vec d × Vec d)) (dd : Fin d) (regs : Fin d → Bool → Regressor d n)
    (side : Bool) : Except PyErr (Fin d → Bool → Regressor d n) := do
  nullMatrixAccess d dd (if side then 1 else 0)
  let r ← fitSide regress space attractor data dd side (regs dd side)
  .ok (Function.update regs dd (Function.update (regs dd) side r))

/-- `fit_from_velocities` (nonlinear_deviation.py:240-273): the regressors afterwards.  After an exception the ones
treated before it have been replaced already; this state is not modelled. -/
noncomputable def fitFromVelocities (regress : List (Vec d × Vec n) → Vec d → Vec n) (space : Vec d → Vec d → Vec n)
    (attractor : Vec d) (data : List (Vec d × Vec d)) (regs : Fin d → Bool → Regressor d n) :
    Except PyErr (Fin d → Bool → Regressor d n) :=
  (List.finRange d).foldlM
    (fun regs dd => [false, true].foldlM (fitStep regress space attractor data dd) regs) regs

/-- The regressors of a new object (nonlinear_deviation.py:217-219). -/
def newRegressors : Fin d → Bool → Regressor d n := fun _ _ => .given none

/-- `self.regressors[dd][ii].predict(...)` where it has been fitted. -/
noncomputable def Regressor.value (r : Regressor d n) (x : Vec d) : Vec n :=
  match r.predict x with
  | .ok v => v
  | .error _ => 0

/-- `PerpendicularDeviatoinOfLinearDS.evaluate` (nonlinear_deviation.py:284-315) with the given regressors: `perpendicular`
(`Verif.LocalDynamics`), where the regressors of the sides of the position are called. -/
noncomputable def evaluate [Fact (2 ≤ d)] (inverse : Vec n → Vec d → Vec d)
    (mean : Vec d → (Fin d → Vec d) → (Fin d → ℝ) → Vec d) (attractor : Vec d)
    (regs : Fin d → Bool → Regressor d n) (position : Vec d) : Except PyErr (Vec d) :=
  open Classical in
  if ‖position - attractor‖ = 0 then .ok 0
  else if ∃ i, ∃ e, (regs i (decide (¬ (position - attractor) i < 0))).predict (position - attractor) = .error e then
    .error .exception
  else .ok (perpendicular attractor (fun i s => (regs i s).value) (fun i s a => inverse a (nullAxis i s)) mean position)

/-- `MultiOutputSVR.fit` and `predict` (nonlinear_deviation.py:51-68): one `SVR` per column of the outputs. -/
noncomputable def multiOutput (svr : List (Vec d × ℝ) → Vec d → ℝ) (samples : List (Vec d × Vec n)) (x : Vec d) :
    Vec n :=
  WithLp.toLp 2 (fun i => svr (samples.map (fun s => (s.1, s.2 i))) x)

/-- One row of `predict` (nonlinear_deviation.py:337-352) in the plane, where `np.cross` is a number; `f` is `evaluate`,
`none` is `nan`. -/
noncomputable def predictDeviation (f : Vec 2 → Vec 2) (p : Vec 2) : Option ℝ :=
  open Classical in
  if ‖p‖ = 0 then some 0
  else if ‖p‖ * ‖f p‖ = 0 then none
  else some ((p 0 * f p 1 - p 1 * f p 0) / (‖p‖ * ‖f p‖))

end Verif.DeviationFit
