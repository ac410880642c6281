import Verif.Model.VectorRotation

/-!
# Model of `dynamics/locally_rotated_linear_dynamics.py`, `dynamics/deviation_dynamics.py` and
`dynamics/nonlinear_deviation.py`

External: the gamma functions of the obstacles, the underlying dynamics, the regressors, and the angle
space functions of `vartools`.  Not modelled: plotting, the fitting of the regressors (`sklearn`), and
`DeviationOfLinearDS.get_distance`, which reads the undefined name `position`.
-/

open scoped RealInnerProductSpace

namespace Verif.LocalDynamics

variable {d : ℕ} [h2 : Fact (2 ≤ d)]

/-- The attributes of `LocallyRotatedFromObtacle`.  `base0` is the first column of `rotation.base`,
`rotation` is `none` if the second column is `nan`; `configured` is `none` if the constructor returned
early, so that `rotation`, `min_gamma`, `max_gamma` and `attractor_influence` do not exist. -/
structure Local (d : ℕ) where
  attractor : Vec d
  maximumVelocity : ℝ
  configured : Option (Vec d × Option (Rot (Vec d)) × ℝ × ℝ)

/-- `LocallyRotatedFromObtacle.__init__` (locally_rotated_linear_dynamics.py:44-72). -/
noncomputable def create (center attractor reference : Vec d) (minGamma maxGamma : ℝ) :
    Except PyErr (Local d) :=
  open Classical in
  if ‖reference‖ = 0 then .error .valueError
  else if ‖attractor - center‖ = 0 then .ok ⟨attractor, ‖reference‖, none⟩
  else
    let base0 := (1 / ‖attractor - center‖) • (attractor - center)
    .ok ⟨attractor, ‖reference‖, some (base0,
      fromDirections base0 ((1 / ‖reference‖) • reference), minGamma, maxGamma)⟩

/-- The first weight of `evaluate` (locally_rotated_linear_dynamics.py:202-208). -/
noncomputable def gammaWeight (minGamma maxGamma gamma : ℝ) : ℝ :=
  open Classical in
  if gamma ≤ minGamma then 1
  else if gamma > maxGamma then 0
  else (maxGamma - gamma) / (maxGamma - minGamma)

/-- `attr_weight` (locally_rotated_linear_dynamics.py:221-228) with `attractor_influence = 3`. -/
noncomputable def attractorWeight (weight dist : ℝ) : ℝ :=
  open Classical in
  if weight < 1 then
    1 / (1 - weight) / (1 / (1 - weight) + max (3 / dist) 0)
  else 1

/-- `weight ** (2.0 / (1 + dot_product))` (locally_rotated_linear_dynamics.py:230): for an exactly
opposite direction the exponent is infinite. -/
noncomputable def powerWeight (weight dot : ℝ) : ℝ :=
  open Classical in
  if 1 + dot = 0 then (if weight = 1 then 1 else 0)
  else weight ^ (2 / (1 + dot))

/-- `LocallyRotatedFromObtacle.evaluate` (locally_rotated_linear_dynamics.py:200-241); `gamma` is the
gamma function of the obstacle in the global frame.  `rotate_vector_rotation` only uses the angle of
`global_rotation`, which is a number also for opposite directions. -/
noncomputable def evaluate (l : Local d) (gamma : Vec d → ℝ) (position : Vec d) :
    Except PyErr (Vec d) :=
  open Classical in
  match l.configured with
  | none => .error .attributeError
  | some (base0, rotation, minGamma, maxGamma) =>
    let weight := gammaWeight minGamma maxGamma (gamma position)
    let dist := ‖l.attractor - position‖
    if dist = 0 then .ok 0
    else
      let dir := (1 / dist) • (l.attractor - position)
      let dot := ⟪dir, base0⟫
      if dot = 0 ∨ weight = 0 then .ok (min dist l.maximumVelocity • dir)
      else
        match rotation with
        | none => .error .nan
        | some r =>
          match (Rot.mk r.base (Real.arccos (min (max ⟪base0, dir⟫ (-1)) 1))).rotateVectorRotation r with
          | none => .error .nan
          | some localRotation =>
            .ok (min dist l.maximumVelocity
              • localRotation.rotate dir (powerWeight weight dot * attractorWeight weight dist))

/-! ## `ObstacleRotatedDynamics` -/

/-- The weights of the obstacles (deviation_dynamics.py:67-83).  The walrus binds `ind_zero` to the gammas
themselves, not to the comparison.  `none`: a division by zero (`nan`). -/
noncomputable def rotatedWeights (gammas : List ℝ) : Option (List ℝ) :=
  open Classical in
  if gammas.any (fun g => decide (g ≤ 1)) then
    if gammas.sum = 0 then none else some (gammas.map (fun g => g / gammas.sum))
  else if 1 ≤ (gammas.map (fun g => 1 / (g - 1))).sum then
    some (gammas.map (fun g => 1 / (g - 1) / (gammas.map (fun g => 1 / (g - 1))).sum))
  else some (gammas.map (fun g => 1 / (g - 1)))

/-- One obstacle as it enters the sums: gamma, the initial dynamics at its centre (stored in
`center_dynamics`), and the zero dynamics there; obstacles with gamma zero keep a zero column in
`zero_dynamics` (deviation_dynamics.py:85-94). -/
noncomputable def centerSums (weights : List ℝ) (obs : List (ℝ × Vec d × Vec d)) : Vec d × Vec d :=
  open Classical in
  ((List.zipWith (fun w o => w • (if o.1 = 0 then (0 : Vec d) else o.2.2)) weights obs).sum,
   (List.zipWith (fun w o => w • o.2.1) weights obs).sum)

/-- `ObstacleRotatedDynamics.evaluate` (deviation_dynamics.py:63-160).  `obs` lists for every obstacle its
gamma at the position, the column of `center_dynamics` (for gamma zero the old one, otherwise the initial
dynamics at the centre) and the zero dynamics at the centre.  `initial` and `zero` are the values of the
two dynamics at the position.  Without `update_center_dynamics` the local variable `zero_dynamics` is
unbound.  The value of `average_velocity` (external function) is not used. -/
noncomputable def obstacleRotated (update : Bool) (obs : List (ℝ × Vec d × Vec d))
    (initial zero : Vec d) : Except PyErr (Vec d) :=
  open Classical in
  match update with
  | false => .error .unboundLocal
  | true =>
    match rotatedWeights (obs.map (fun o => o.1)) with
    | none => .error .nan
    | some weights =>
      let base0 := (centerSums weights obs).1
      let base1 := (centerSums weights obs).2
      if ‖base0‖ = 0 ∨ ‖base1‖ = 0 then .ok initial
      else
        match fromDirections ((1 / ‖base0‖) • base0) ((1 / ‖base1‖) • base1) with
        | none => .error .nan
        | some r =>
          let weight := min (min ‖base0‖ ‖base1‖ / 1) 1
          let dotWeight := min (5 * (⟪(1 / ‖base1‖) • base1, (1 / ‖base1‖) • base1⟫ + 1)) 1
          .ok (r.rotate zero (weight * dotWeight))

/-! ## `nonlinear_deviation.py` -/

/-- Limiting a predicted deviation (nonlinear_deviation.py:144-145 with `0.99 * pi / 2` and
nonlinear_deviation.py:297-298 with `0.49 * pi`). -/
noncomputable def clampDeviation {n : ℕ} (limit : ℝ) (deviation : Vec n) : Vec n :=
  open Classical in
  if ‖deviation‖ > limit then limit • ((1 / ‖deviation‖) • deviation) else deviation

/-- `DeviationOfConstantFlow.evaluate` (nonlinear_deviation.py:133-146): `inverse` is
`get_angle_space_inverse` with the base of the reference velocity, `predict` the regressor. -/
noncomputable def constantFlow {n : ℕ} (reference : Vec d) (inverse : Vec n → Vec d)
    (predict : Vec d → Vec n) (position : Vec d) : Vec d :=
  ‖reference‖ • inverse (clampDeviation (0.99 * Real.pi / 2) (predict position))

/-- `DeviationOfConstantFlow.fit` (nonlinear_deviation.py:111-124): the checks on the shapes of the data
(`X` has `samplesX` rows, `y` has `samplesY` rows and `outputs` columns). -/
def fitChecks (dimension samplesX samplesY outputs : ℕ) : Except PyErr Unit :=
  if samplesY ≠ samplesX then .error .valueError
  else if (outputs : ℤ) ≠ dimension - 1 then .error .valueError
  else .ok ()

/-- `get_weights` (nonlinear_deviation.py:328-332). -/
noncomputable def axisWeights (relative : Vec d) : Fin d → ℝ :=
  fun i => |relative i| / ∑ j, |relative j|

/-- `get_velocity_factor` (nonlinear_deviation.py:317-318) with the values of the constructor. -/
noncomputable def velocityFactor (distance : ℝ) : ℝ := min 1 (distance / 1) * 1

/-- `PerpendicularDeviatoinOfLinearDS.evaluate` (nonlinear_deviation.py:284-315).  `predict i s` is the
regressor of axis `i` and side `s` (`false`: negative), `inverse i s` the angle space of its null matrix,
`mean null directions weights` is `get_directional_weighted_sum`. -/
noncomputable def perpendicular {n : ℕ} (attractor : Vec d)
    (predict : Fin d → Bool → Vec d → Vec n) (inverse : Fin d → Bool → Vec n → Vec d)
    (mean : Vec d → (Fin d → Vec d) → (Fin d → ℝ) → Vec d) (position : Vec d) : Vec d :=
  open Classical in
  let relative := position - attractor
  if ‖relative‖ = 0 then 0
  else
    velocityFactor ‖relative‖ • mean ((-1 : ℝ) • ((1 / ‖relative‖) • relative))
      (fun i => inverse i (decide (¬ relative i < 0))
        (clampDeviation (Real.pi * 0.49) (predict i (decide (¬ relative i < 0)) relative)))
      (axisWeights relative)

/-- `evaluate_convergence_velocity` (nonlinear_deviation.py:320-326): the scaled vector is stored in
`dir_norm`, and the unscaled one is returned. -/
noncomputable def convergenceVelocity (attractor position : Vec d) : Vec d := attractor - position

/-- The index accesses of `fit_from_velocities` (nonlinear_deviation.py:246-255): `_null_matrices` has the
shape `(dimension, dimension, 2, dimension)` and is indexed with `[:, :, dd, ii]`. -/
def nullMatrixAccess (dimension dd ii : ℕ) : Except PyErr Unit :=
  if dd < 2 ∧ ii < dimension then .ok () else .error .indexError

/-- The two loops of `fit_from_velocities` (nonlinear_deviation.py:250-273) as far as the array accesses
are concerned. -/
def fitAccesses (dimension : ℕ) : Except PyErr Unit :=
  (List.range dimension).forM (fun dd =>
    [0, 1].forM (fun ii => nullMatrixAccess dimension dd ii))

end Verif.LocalDynamics
