import Verif.Model.Num
import Mathlib.Data.List.MinMax

/-!
# Model of the comparison of avoiders

`comparison/comparison_multiobstacle_vectorfield.py` (simulation), `comparison/evaluation_trajectories.py` and
`comparison/evaluation_trajectories_with_std.py` (metrics; the second file differs in `mean_squared_error_to_path`),
`comparison/evaluation_path_following.py` (statistics).  A trajectory is the list of the columns of the array.

Not modelled: plots and tables, and `TrajectoryEvaluator.run` of the two files with metrics, which calls `os` without
importing it and therefore raises `NameError` in its first statement.
-/

open scoped RealInnerProductSpace

namespace Verif.Comparison

variable {d : ℕ}

open Classical in
/-- The loop of `integrate_trajectory` (comparison_multiobstacle_vectorfield.py:65-80) with `fuel` iterations left;
`acc` are the columns `0, …, ii - 1` and `last` is column `ii - 1`.  A velocity of length zero (only possible with
`conv_margin ≤ 0`) makes all following positions `nan`. -/
noncomputable def integrateLoop (evaluate : Vec d → Except PyErr (Vec d)) (dt margin : ℝ)
    (collision : Option (Vec d → Bool)) : ℕ → List (Vec d) → Vec d → Except PyErr (List (Vec d))
  | 0, acc, _ => .ok acc
  | fuel + 1, acc, last => do
    let velocity ← evaluate last
    if ‖velocity‖ < margin then .ok acc.dropLast
    else if ‖velocity‖ = 0 then .error .nan
    else
      let next := dt • ((1 / ‖velocity‖) • velocity) + last
      match collision with
      | none => integrateLoop evaluate dt margin collision fuel (acc ++ [next]) next
      | some c =>
        if c next = true then .ok acc
        else integrateLoop evaluate dt margin collision fuel (acc ++ [next]) next

/-- `integrate_trajectory` (comparison_multiobstacle_vectorfield.py:54-83).  With `it_max = 0` the first assignment to
`positions[:, 0]` fails; with `it_max = 1` the message after the loop (line 82) uses the loop variable before it was
assigned. -/
noncomputable def integrateTrajectory (evaluate : Vec d → Except PyErr (Vec d)) (start : Vec d) (itMax : ℕ)
    (dt : ℝ := 0.01) (margin : ℝ := 1e-3) (collision : Option (Vec d → Bool) := none) :
    Except PyErr (List (Vec d)) :=
  match itMax with
  | 0 => .error .indexError
  | 1 => .error .unboundLocal
  | fuel + 2 => integrateLoop evaluate dt margin collision (fuel + 1) [start] start

/-- `np.linspace(a, b, n)` (numpy documentation). -/
noncomputable def linspace (a b : ℝ) (n : ℕ) : List ℝ :=
  (List.range n).map fun (i : ℕ) => if n = 1 then a else a + i * ((b - a) / ((n : ℝ) - 1))

open Classical in
/-- What `create_start_positions` (comparison_multiobstacle_vectorfield.py:289-313) writes to the file: `np.meshgrid`
flattened row by row (the first coordinate runs fastest), restricted to the positions of minimal gamma above one. -/
noncomputable def startPositions (nGrid : ℕ) (xLim yLim : ℝ × ℝ) (minimumGamma : Vec 2 → ℝ) : List (Vec 2) :=
  ((linspace yLim.1 yLim.2 nGrid).flatMap fun y =>
    (linspace xLim.1 xLim.2 nGrid).map fun x => (!₂[x, y] : Vec 2)).filter fun p => 1 < minimumGamma p

/-- `evaluate_trajectories` (comparison_multiobstacle_vectorfield.py:316-355): the trajectories which are written, one
for each start position of the file.  `np.loadtxt` returns a one-dimensional array for a file with a single row, which
has no second axis (`IndexError` at line 340); a file without rows has none either. -/
noncomputable def evaluateTrajectories (evaluate : Vec d → Except PyErr (Vec d)) (starts : List (Vec d)) (itMax : ℕ)
    (dt margin : ℝ) (collision : Option (Vec d → Bool)) : Except PyErr (List (List (Vec d))) :=
  match starts with
  | [] => .error .indexError
  | [_] => .error .indexError
  | starts => starts.mapM fun s => integrateTrajectory evaluate s itMax dt margin collision

/-! ## Metrics -/

/-- `np.mean` of a list; the mean of nothing is `nan`. -/
noncomputable def mean (l : List ℝ) : Except PyErr ℝ :=
  if l = [] then .error .nan else .ok (l.sum / l.length)

/-- `(trajectory[:, 1:] - trajectory[:, :-1]) / delta_time` (evaluation_trajectories.py:56). -/
noncomputable def velocities (trajectory : List (Vec d)) (dt : ℝ) : List (Vec d) :=
  List.zipWith (fun b a => (1 / dt) • (b - a)) trajectory.tail trajectory

open Classical in
/-- `normalize_velocities` (evaluation_trajectories.py:34-44): columns of length zero are dropped. -/
noncomputable def normalizeVelocities (vs : List (Vec d)) : Except PyErr (List (Vec d)) :=
  let moving := vs.filter fun v => 0 < ‖v‖
  if moving = [] then .error .valueError else .ok (moving.map fun v => (1 / ‖v‖) • v)

/-- `mean_squared_error_to_path` (evaluation_trajectories.py:47-52). -/
noncomputable def meanSquaredErrorToPath (trajectory : List (Vec d)) (center : Vec d) (radius : ℝ) : Except PyErr ℝ :=
  mean (trajectory.map fun p => ‖p - center‖ ^ 2 - radius ^ 2)

/-- `mean_squared_error_to_path` (evaluation_trajectories_with_std.py:48-53), with the absolute value. -/
noncomputable def meanSquaredErrorToPathStd (trajectory : List (Vec d)) (center : Vec d) (radius : ℝ) :
    Except PyErr ℝ :=
  mean (trajectory.map fun p => |‖p - center‖ ^ 2 - radius ^ 2|)

/-- `mean_squared_acceleration` (evaluation_trajectories.py:55-60). -/
noncomputable def meanSquaredAcceleration (trajectory : List (Vec d)) (dt : ℝ) : Except PyErr ℝ :=
  mean ((velocities (velocities trajectory dt) dt).map fun a => ‖a‖ ^ 2)

/-- `dot_product_acceleration` (evaluation_trajectories.py:63-71). -/
noncomputable def dotProductAcceleration (trajectory : List (Vec d)) (dt : ℝ) : Except PyErr ℝ := do
  let vs ← normalizeVelocities (velocities trajectory dt)
  mean (List.zipWith (fun b a => ⟪b, a⟫) vs.tail vs)

/-- `mean_squared_velocity_deviation` (evaluation_trajectories.py:74-85): the `ii`-th remaining velocity is compared
with the dynamics at the `ii`-th position. -/
noncomputable def meanSquaredVelocityDeviation (trajectory : List (Vec d)) (dynamics : Vec d → Vec d) (dt : ℝ) :
    Except PyErr ℝ := do
  let vs ← normalizeVelocities (velocities trajectory dt)
  mean (List.zipWith (fun v p => ‖v - dynamics p‖ ^ 2) vs trajectory)

open Classical in
/-- `dot_product_velocity_deviation` (evaluation_trajectories.py:88-102). -/
noncomputable def dotProductVelocityDeviation (trajectory : List (Vec d)) (dynamics : Vec d → Vec d) (dt : ℝ) :
    Except PyErr ℝ := do
  let vs ← normalizeVelocities (velocities trajectory dt)
  mean (List.zipWith (fun v p => ⟪v, if ‖dynamics p‖ = 0 then 0 else (1 / ‖dynamics p‖) • dynamics p⟫) vs trajectory)

/-- The value in the table (evaluation_trajectories.py:215, evaluation_trajectories_with_std.py:209 and 216). -/
noncomputable def nics (dotProduct : ℝ) : ℝ := (1 - dotProduct) * 0.5

/-! ## Statistics of the path following -/

/-- One row of the table of runs (evaluation_path_following.py: columns converged, distance, free_fraction, gammas). -/
structure Run where
  converged : ℝ
  distance : ℝ
  freeFraction : ℝ
  gammas : ℝ

/-- `TrajectoryEvaluator.get_converged` (evaluation_path_following.py:18-20). -/
noncomputable def converged (runs : List Run) : List Bool := runs.map fun r => decide (r.converged > 0)

/-- `get_converged` (evaluation_path_following.py:47-52): the product of boolean columns of the same length is their
conjunction. -/
noncomputable def commonConverged (tables : List (List Run)) : Except PyErr (List Bool) :=
  match tables with
  | [] => .error .indexError
  | first :: _ => .ok (tables.foldl (fun c t => List.zipWith and c (converged t)) (converged first))

/-- `Series.var` (pandas documentation: normalised by `n - 1`, `nan` for less than two values). -/
noncomputable def sampleVar (l : List ℝ) : Except PyErr ℝ := do
  let m ← mean l
  if l.length = 1 then .error .nan else .ok ((l.map fun y => (y - m) ^ 2).sum / ((l.length : ℝ) - 1))

/-- `np.std` (numpy documentation: normalised by `n`). -/
noncomputable def std (l : List ℝ) : Except PyErr ℝ := do
  let m ← mean l
  let v ← mean (l.map fun y => (y - m) ^ 2)
  .ok (√v)

/-- The attributes which `run` sets. -/
structure Statistics where
  fracConverged : ℝ
  distanceMean : Except PyErr ℝ
  distanceVar : Except PyErr ℝ
  occupiedMean : Except PyErr ℝ
  occupiedStd : Except PyErr ℝ
  gammasMean : Except PyErr ℝ
  gammasVar : Except PyErr ℝ

/-- `TrajectoryEvaluator.run` (evaluation_path_following.py:22-44).  `loaded` says whether `get_converged` was called
before: `df` is not initialised, line 29 raises `AttributeError` otherwise.  Means and variances of nothing are `nan`,
without an exception. -/
noncomputable def run (loaded : Bool) (runs : List Run) (selected : List Bool) : Except PyErr Statistics :=
  if loaded = false then .error .attributeError
  else if runs = [] then .error .zeroDivision
  else
    let df := ((runs.zip selected).filter fun p => p.2).map Prod.fst
    let occupied := df.map fun r => 1 - r.freeFraction
    .ok {
      fracConverged := (runs.countP fun r => decide (r.converged > 0)) / runs.length
      distanceMean := mean (df.map Run.distance)
      distanceVar := sampleVar (df.map Run.distance)
      occupiedMean := mean occupied
      occupiedStd := do
        let m ← mean occupied
        std [m]
      gammasMean := mean (df.map Run.gammas)
      gammasVar := sampleVar (df.map Run.gammas) }

end Verif.Comparison
