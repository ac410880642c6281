import Verif.Model.Obstacle

/-!
# Model of the weight functions

`multi_obstacle_avoider.py`, `avoidance/rotational_avoider.py`,
`nonlinear_rotation_avoider.py` and `dynamics/projected_rotation_dynamics.py`.  One-dimensional
numpy arrays are `List ℝ`.
-/

open scoped RealInnerProductSpace

namespace Verif

/-- `a ** b` for numpy floats: `none` stands for `nan` (negative base, exponent not an
integer) and `inf` (base zero, negative exponent). -/
noncomputable def npPow (a b : ℝ) : Option ℝ :=
  open Classical in
  if a < 0 ∧ ¬ ∃ n : ℤ, (n : ℝ) = b then none
  else if a = 0 ∧ b < 0 then none
  else some (a ^ b)

/-- `w / np.sum(w)`. -/
noncomputable def normalised (ws : List ℝ) : List ℝ := ws.map (· / ws.sum)

/-- A boolean mask as numbers: `mask * 1.0`. -/
noncomputable def indicator (p : ℝ → Prop) (xs : List ℝ) : List ℝ :=
  open Classical in xs.map (fun x => if p x then 1 else 0)

/-! ## multi_obstacle_avoider.py -/

/-- `get_limited_weights_to_max_sum` (multi_obstacle_avoider.py:57-75): the new weights and
the total. -/
noncomputable def getLimitedWeightsToMaxSum (weights : List ℝ) : List ℝ × ℝ :=
  open Classical in
  if weights.sum < 1 then (weights, weights.sum)
  else if ∃ w ∈ weights, w ≥ 1 then (indicator (· ≥ 1) weights, 1)
  else (normalised (weights.map (fun w => 1 / (1 - w) - 1)), 1)

/-- `compute_gamma_weights` (multi_obstacle_avoider.py:78-102).  The base of the power is
positive at line 97. -/
noncomputable def computeGammaWeights (distances : List ℝ) (minDistance : ℝ := 1)
    (powerFactor : ℝ := 1) : List ℝ :=
  open Classical in
  let critical := indicator (· ≤ minDistance) distances
  if critical.sum ≠ 0 then
    if critical.sum ≥ 2 then critical.map (fun c => c * 1 / critical.sum)
    else critical
  else
    let weights := (distances.map (· - minDistance)).map (fun x => (1 / x) ^ powerFactor)
    if weights.sum ≤ 1 then weights else normalised weights

/-- `compute_weights_from_distances` (multi_obstacle_avoider.py:815-830).  The check for
infinite weights (line 827) never fires, since all distances exceed the minimum at this
point. -/
noncomputable def computeWeightsFromDistances (distances : List ℝ) (distanceMin : ℝ := 1)
    (normalize : Bool := true) : List ℝ :=
  open Classical in
  let low := indicator (· ≤ distanceMin) distances
  if low.sum ≠ 0 then normalised low
  else
    let weights := distances.map (fun x => 1 / (x - distanceMin))
    if normalize ∧ weights.sum > 1 then normalised weights else weights

/-- `compute_tree_weight` (multi_obstacle_avoider.py:478-500); the argument is the gamma of
the obstacle tree at the attractor, `none` if there is no attractor (`singularity is
None`). -/
noncomputable def computeTreeWeight (attractorGamma : Option ℝ)
    (gammaDecreasingInfluence : ℝ := 2) : ℝ :=
  open Classical in
  match attractorGamma with
  | none => 1
  | some g =>
    if g ≤ 1 then 0
    else if g ≥ gammaDecreasingInfluence then 1
    else (g - 1) / (gammaDecreasingInfluence - 1)

/-- `slowfactor_from_convergence` (multi_obstacle_avoider.py:366-377) for the stored lists
`_rotation_weights` and `_convergence_reference_proximity`, given as pairs.  The third
argument of `np.logical_and` at line 370 is the output array, not a third condition.
`np.min` of an empty array raises `ValueError`; `nan` (proximity above one) is an error. -/
noncomputable def slowfactorFromConvergence (l : List (ℝ × ℝ)) (powerFactor : ℝ := 0.2) :
    Except PyErr ℝ :=
  open Classical in
  match l.mapM (fun p => if p.1 > 0 ∧ 0 < p.2 then npPow ((1 - p.2) / p.1) powerFactor
    else some 1) with
  | none => .error .nan
  | some scaling =>
    match scaling.min? with
    | none => .error .valueError
    | some m => .ok (min m 1)

/-- The constructor check of the convergence radius (multi_obstacle_avoider.py:192-195). -/
noncomputable def checkConvergenceRadius (r : ℝ) : Except PyErr Unit :=
  open Classical in
  if Real.pi * 0.5 ≤ r ∧ r ≤ Real.pi then .ok () else .error .valueError

/-- The radius of one component: body of the loop at multi_obstacle_avoider.py:1029-1051,
with `radius` the configured radius and `gm` the attribute `gamma_maximum_repulsion`.
`none`: `nan` (surface point equal to the centre) or a missing surface point. -/
noncomputable def componentRadius {d : ℕ} (radius gm inside : ℝ) (position : Vec d)
    (component : Obstacle d) : Option ℝ :=
  open Classical in
  if allclose position component.center then some inside
  else
    match component.intersection component.center (position - component.center) with
    | none => none
    | some surface =>
      if ‖surface - component.center‖ = 0 then none
      else
        let insideGamma := ‖position - component.center‖ / ‖surface - component.center‖
        if insideGamma < gm then some inside
        else
          let weight := (insideGamma - gm) / (1 - gm)
          some (radius * weight + inside * (1 - weight))

/-- `compute_convergence_radiuses` (multi_obstacle_avoider.py:1008-1057).  The components
are given with their entry of `gamma_values`. -/
noncomputable def computeConvergenceRadiuses {d : ℕ} (radius : ℝ) (gammaMax : Option ℝ)
    (position : Vec d) (components : List (Obstacle d × ℝ)) (inside : ℝ := Real.pi) :
    Except PyErr (List ℝ) :=
  open Classical in
  match gammaMax with
  | none => .ok (components.map (fun _ => radius))
  | some gm =>
    match components.mapM (fun c => if c.2 < 1 then componentRadius radius gm inside position c.1
      else some radius) with
    | none => .error .nan
    | some l => .ok l

/-- One entry of `compute_parent_occlusion_weight` (multi_obstacle_avoider.py:1094-1127);
`parent` is `none` for the root.  A missing surface point makes `get_gamma(None)` fail
(`typeError`); the division by zero at line 1116 gives `nan`, which leads to
`breakpoint()`. -/
noncomputable def parentOcclusionWeight {d : ℕ} (position : Vec d) (component : Obstacle d)
    (parent : Option (Obstacle d)) : Except PyErr ℝ :=
  open Classical in
  match parent with
  | none => .ok 1
  | some parent =>
    let dir := component.reference position
    let dir := if component.gamma position < 1 then (-1 : ℝ) • dir else dir
    match component.intersection position dir with
    | none => .error .typeError
    | some surf =>
      let occlusionGamma := parent.gamma surf
      if occlusionGamma ≥ 1 then .ok 1
      else
        let vecPos := position - component.referencePoint
        let vecParent := parent.referencePoint - component.referencePoint
        if ‖vecPos‖ * ‖vecParent‖ = 0 then .error .breakpoint
        else
          let dotProd := ⟪vecParent, vecPos⟫ / (‖vecPos‖ * ‖vecParent‖)
          if dotProd ≥ 1 then .ok 0
          else
            match npPow occlusionGamma (1 / (1 - dotProd)) with
            | none => .error .breakpoint
            | some w => .ok w

/-- `compute_single_occlusion_weight` (multi_obstacle_avoider.py:1185-1192). -/
noncomputable def computeSingleOcclusionWeight (gamma : ℝ) (powerFactor : ℝ := 1 / 4) : ℝ :=
  open Classical in
  if gamma ≤ 1 then gamma - 1 else ((gamma - 1) / gamma) ^ powerFactor

/-- `compute_occlusion_weights` (multi_obstacle_avoider.py:1132-1183) from line 1164 on, for the
list of the gamma values of the other components at the surface points.  Note line 1165:
`np.maximum` makes `max_gamma` a lower bound.  `np.max` of an empty array raises
`ValueError`. -/
noncomputable def computeOcclusionWeights (gammas : List ℝ) (gammaMargin : ℝ := 0.1)
    (maxGamma : Option ℝ := some 2) : Except PyErr (List ℝ) :=
  open Classical in
  let gammas := match maxGamma with
    | none => gammas
    | some m => gammas.map (fun g => max g m)
  if ∃ g ∈ gammas, g > 1 + gammaMargin then
    .ok (normalised (gammas.map (fun g => if g > 1 then (g - 1) / g else 0)))
  else
    match gammas.max? with
    | none => .error .valueError
    | some m => .ok (normalised (gammas.map (fun g => max (g - m + gammaMargin) 0)))

/-- `evaluate_occlusion_array` (multi_obstacle_avoider.py:1194-1214).  The loop
`range(n - 1, 0)` at line 1209 is empty; `final_weights[-1]` raises `IndexError` for an empty
array. -/
noncomputable def evaluateOcclusionArray (weights : List ℝ) : Except PyErr (List ℝ) :=
  open Classical in
  if ∃ w ∈ weights, w > 0 then
    let s := (weights.filter (fun w => w > 0)).sum
    .ok (weights.map (fun w => if w > 0 then w / s else 0))
  else
    match weights with
    | [] => .error .indexError
    | _ :: _ => .ok (normalised (List.replicate (weights.length - 1) 0 ++ [1]))

/-! ## avoidance/rotational_avoider.py -/

/-- `get_rotation_weight` (rotational_avoider.py:928-975).  The parameter `angleOf n v` stands
for the external `get_angle_from_vector(v, base=get_orthogonal_basis(n))` (vartools); the
model makes no assumption about it.  `ref_radius / delta_angle` is infinite if `delta_angle`
is zero; the result is then `(1 / gamma) ** inf = 0`, except for `smooth_continuation_power =
0` (`inf ** 0 = 1`), and a negative power gives `inf ** p = 0 < 1`, i.e. `breakpoint()`. -/
noncomputable def getRotationWeight {d k : ℕ} (angleOf : Vec d → Vec d → Vec k)
    (normal reference convergence : Vec d) (gamma : ℝ) (convergenceRadius : ℝ := Real.pi * 0.5)
    (power : ℝ := 1) (radiusBase : ℝ := Real.pi * 0.5) : Except PyErr ℝ :=
  open Classical in
  if gamma ≤ 1 then .ok 1
  else
    let angles :=
      if ⟪convergence, normal⟫ > Real.cos convergenceRadius then
        (angleOf normal ((-1 : ℝ) • reference), angleOf normal convergence)
      else
        (angleOf ((-1 : ℝ) • normal) reference, angleOf ((-1 : ℝ) • normal) convergence)
    let deltaAngle := ‖angles.1 - angles.2‖
    let refRadius := min radiusBase convergenceRadius - ‖angles.1‖
    if refRadius ≤ deltaAngle then .ok (1 / gamma)
    else if deltaAngle = 0 then
      if power > 0 then .ok 0
      else if power = 0 then .ok ((1 / gamma) ^ (1 : ℝ))
      else .error .breakpoint
    else
      let rotationPower := (refRadius / deltaAngle) ^ power
      if rotationPower < 1 then .error .breakpoint
      else .ok ((1 / gamma) ^ rotationPower)

/-- `compute_safe_scaling` (rotational_avoider.py:471-496). -/
noncomputable def computeSafeScaling {d : ℕ} (velocity averagedNormal : Vec d) (gamma : ℝ)
    (dotScaling : ℝ := 0.8) (powerRoot : ℝ := 3) : Except PyErr ℝ :=
  open Classical in
  if ‖velocity‖ = 0 then .ok 1
  else
    let dotProduct := ⟪velocity, averagedNormal⟫
    let normalNorm := ‖averagedNormal‖
    if dotProduct > 0 ∨ isclose normalNorm 0 then .ok 1
    else if gamma ≤ 1 then
      if dotProduct < -1e-3 then .ok 0 else .ok 1
    else
      let powerFactor := (1 / (gamma - 1) * normalNorm) ^ (1 / powerRoot)
      match npPow (1 + dotScaling * dotProduct) powerFactor with
      | none => .error .nan
      | some s => .ok s

/-- `compute_safe_magnitude` (rotational_avoider.py:498-536). -/
noncomputable def computeSafeMagnitude {d : ℕ} (rotatedVelocity : Vec d) (initialNorm : ℝ)
    (averagedNormal : Vec d) (gamma : ℝ) (dotScaling : ℝ := 0.8) (powerRoot : ℝ := 3) :
    Except PyErr (Vec d) :=
  open Classical in
  if ‖rotatedVelocity‖ = 0 then .ok rotatedVelocity
  else
    let rotatedNorm := ‖rotatedVelocity‖
    let dotProduct := ⟪rotatedVelocity, averagedNormal⟫
    let normalNorm := ‖averagedNormal‖
    let finish (scaling : Option ℝ) : Except PyErr (Vec d) :=
      match scaling with
      | none => .error .valueError
      | some s =>
        if s > 1 then .error .valueError
        else .ok (s • initialNorm • (1 / rotatedNorm) • rotatedVelocity)
    if dotProduct > 0 ∨ normalNorm = 0 then finish (some 1)
    else if gamma ≤ 1 then
      if dotProduct < -1e-3 then .ok 0 else finish (some 1)
    else
      let powerFactor := (1 / (gamma - 1) * normalNorm) ^ (1 / powerRoot)
      finish (npPow (1 + dotScaling * dotProduct) powerFactor)

/-- The loop of `_limit_magnitude` (rotational_avoider.py:452-458): the smallest negative
dot product with the gamma of its obstacle. -/
noncomputable def limitLoop {d : ℕ} (velocity : Vec d) :
    List (ℝ × Vec d) → Option (ℝ × ℝ) → Option (ℝ × ℝ)
  | [], best => best
  | (gamma, normal) :: rest, best =>
    open Classical in
    let dotProd := ⟪velocity, normal⟫
    let minDot := match best with
      | none => 0
      | some b => b.2
    if dotProd < minDot then limitLoop velocity rest (some (gamma, dotProd))
    else limitLoop velocity rest best

/-- `_limit_magnitude` (rotational_avoider.py:444-469); the arrays `gammas` and `normals` are
given as a list of pairs.  (A gamma of zero, impossible after `compute_obstacle_gamma`,
would give an infinite factor.) -/
noncomputable def limitMagnitude {d : ℕ} (velocity : Vec d) (initialMagnitude : ℝ)
    (obstacles : List (ℝ × Vec d)) : Vec d :=
  match limitLoop velocity obstacles none with
  | none => initialMagnitude • velocity
  | some (gamma, minDot) => (1 + 1 / gamma * minDot) • initialMagnitude • velocity

/-- `_get_directional_deviation_weight` (rotational_avoider.py:538-551). -/
noncomputable def getDirectionalDeviationWeight (weight weightDeviation : ℝ)
    (powerFactor : ℝ := 3) : Option ℝ :=
  open Classical in
  if weightDeviation ≤ 0 then some 0
  else if weightDeviation ≥ 1 ∨ weight ≥ 1 then some 1
  else npPow weight (1 / (weightDeviation * powerFactor))

/-- `_get_nonlinear_inverted_weight` (rotational_avoider.py:553-572). -/
noncomputable def getNonlinearInvertedWeight (convNorm nonlinearNorm radius weight : ℝ) : ℝ :=
  open Classical in
  if nonlinearNorm ≤ radius then 0
  else if convNorm ≤ radius then weight
  else
    let deltaNonl := nonlinearNorm - radius
    let deltaConv := convNorm - radius
    weight * deltaNonl / (deltaNonl + deltaConv)

/-- `get_smooth_continuation_weight` (rotational_avoider.py:977-1013).  `dirReference` and
`dirConvergence` are the angles returned by the external `UnitDirection`.  Dividing by a zero
`radius_factor` gives `inf` or `nan`, modelled as an error.  For `gamma = 0` (a numpy float)
the quotient is `inf`, which is at least one. -/
noncomputable def getSmoothContinuationWeight {k : ℕ} (gamma convergenceRadius power : ℝ)
    (dirReference dirConvergence : Vec k) : Except PyErr ℝ :=
  open Classical in
  let weight := 1 / gamma
  if gamma = 0 then .ok 1
  else if weight ≤ 0 then .ok 0
  else if weight ≥ 1 then .ok 1
  else if ‖dirConvergence‖ ≥ convergenceRadius then .ok weight
  else
    let radiusFactor := min (convergenceRadius - ‖dirReference‖) (Real.pi * 0.5)
    if radiusFactor = 0 then .error .nan
    else
      let c := ‖dirConvergence - dirReference‖ / radiusFactor
      if c ≤ 0 then .ok 0
      else .ok (weight ^ (1 / (min c 1) ^ power))

/-- `compute_obstacle_gamma` (rotational_avoider.py:96-114). -/
noncomputable def computeObstacleGamma {d : ℕ} (position : Vec d) (obstacles : List (Obstacle d)) :
    List ℝ :=
  open Classical in
  obstacles.map (fun o => if o.gamma position < 1 ∧ o.isBoundary = false then 1
    else o.gamma position)

/-! ## nonlinear_rotation_avoider.py and projected_rotation_dynamics.py -/

/-- `get_convergence_weight` (nonlinear_rotation_avoider.py:52-55).  `math.isclose(gamma, 0)`
has relative tolerance only and holds just for `gamma = 0`. -/
noncomputable def getConvergenceWeight (gamma : ℝ) : ℝ :=
  open Classical in if gamma = 0 then 1 else min (1 / gamma) 1

/-- `ConvergenceDynamicsWithoutSingularity.evaluate_projected_weight`
(nonlinear_rotation_avoider.py:97-105), for the gamma of the obstacle at the position. -/
noncomputable def projectedWeightWithoutSingularity (gamma : ℝ) : ℝ :=
  open Classical in if gamma ≥ 1 then 1 / gamma else 1

/-- `ProjectedRotationDynamics.evaluate_projected_weight`
(projected_rotation_dynamics.py:583-598), for the gammas at the projected position and at the
position. -/
noncomputable def projectedWeight (projGamma gamma : ℝ) (weightPower : ℝ := 1 / 2) : ℝ :=
  open Classical in
  if projGamma ≤ 1 ∨ gamma ≤ 1 then 1
  else min ((1 / ((projGamma - 1) * (gamma - 1) + 1)) ^ weightPower) 1

/-- `SingularityConvergenceDynamics.compute_gamma_weights`
(nonlinear_rotation_avoider.py:257-300): the array `self.weights` after the call.  `none` in an
entry would stand for `nan` or `inf` (the bases of the power are positive below the cut-off,
so it does not occur for `gammaMin < cutOff`; theorem C34).  If no obstacle is below the
cut-off the weights stay zero. -/
noncomputable def importanceWeights (gammas : List ℝ) (cutOff : ℝ) (gammaMin : ℝ := 1)
    (power : ℝ := 2) : List ℝ :=
  open Classical in
  let close := indicator (· ≤ gammaMin) gammas
  if close.sum ≠ 0 then gammas.map (fun g => if g ≤ gammaMin then 1 / close.sum else 0)
  else
    let raw := fun g : ℝ => (1 / (g - gammaMin) - 1 / (cutOff - gammaMin)) ^ power
    let s := ((gammas.filter (fun g => g < cutOff)).map raw).sum
    gammas.map (fun g => if g < cutOff then (if s > 0 then raw g / s else raw g) else 0)

end Verif
