import Verif.Model.KMeansNormal
import Verif.Model.RotationalAvoider
import Verif.Model.LocalDynamics

/-!
# Model of `KMeansMotionLearner.predict` (kmeans_learner/kmeans_motion_learner.py:505-756)

The learner after `fit`.  Not modelled: the branch of `_predict_initial_direction` with
`simplified_calculation=False`, which no caller selects and which reads undefined names.
-/

open scoped RealInnerProductSpace

namespace Verif.KMeans

variable {d n k : ℕ}

/-- The interface of the local dynamics (`DeviationOfConstantFlow`, `PerpendicularDeviatoinOfLinearDS`):
`evaluate`, `evaluate_without_lyapunov_check` and `get_lyapunov_gradient_direction`. -/
structure LocalFlow (d : ℕ) where
  evaluate : Vec d → Vec d
  unchecked : Vec d → Vec d
  lyapunov : Vec d → Vec d

/-- `DeviationOfConstantFlow` (nonlinear_deviation.py:85-159): `inverse` is `get_angle_space_inverse` with
the base of the reference velocity, `predict` the regressor. -/
noncomputable def LocalFlow.constant {m : ℕ} [Fact (2 ≤ d)] (reference : Vec d) (inverse : Vec m → Vec d)
    (predict : Vec d → Vec m) : LocalFlow d where
  evaluate := LocalDynamics.constantFlow reference inverse predict
  unchecked := fun x => ‖reference‖ • inverse (predict x)
  lyapunov := fun _ => reference

/-- The gradient direction of the local dynamics around the attractor (nonlinear_deviation.py:227-234). -/
noncomputable def attractorDirection (attractor x : Vec d) : Vec d :=
  open Classical in
  if ‖attractor - x‖ = 0 then 0 else (1 / ‖attractor - x‖) • (attractor - x)

/-- The external functions: those of the rotational avoidance, those of the normal directions, and the label
of a position, `KMeans.predict` (sklearn). -/
structure PredictExt (n d k : ℕ) where
  rot : Rotational.Ext d k
  normal : Obs.NormalExt n d
  label : Vec d → Fin n

/-- The attributes of a fitted `KMeansMotionLearner`. -/
structure Learner (n d : ℕ) where
  centers : Fin n → Vec d
  radius : ℝ
  graph : Graph n
  dynamics : Fin n → LocalFlow d
  outside : Vec d → Vec d

namespace Learner

/-- `region_obstacles[i]` (kmeans_motion_learner.py:175-183 and 952-967). -/
def region (l : Learner n d) (i : Fin n) : Obs n d where
  centers := l.centers
  radius := l.radius
  index := i
  isBoundary := true
  successor := l.graph.successors i

/-- The clusters with a positive weight (`indexes_absolute`, kmeans_motion_learner.py:576 and 606). -/
noncomputable def used (w : Fin n → ℝ) : List (Fin n) :=
  open Classical in (List.finRange n).filter (fun i => decide (0 < w i))

/-- `predict_averaged_lyapunov` (kmeans_motion_learner.py:566-594). -/
noncomputable def averagedLyapunov (ext : PredictExt n d k) (l : Learner n d) (x : Vec d) (w : Fin n → ℝ) :
    Except PyErr (Vec d) :=
  match (used w).map (fun i => (l.dynamics i).lyapunov x) with
  | [] => .error .indexError
  | v :: vs => .ok (ext.rot.mean v ((used w).map w) (v :: vs))

/-- `_predict_initial_direction` (kmeans_motion_learner.py:596-622). -/
noncomputable def initialDirection (ext : PredictExt n d k) (l : Learner n d) (x lyapunov : Vec d)
    (w : Fin n → ℝ) : Vec d :=
  ext.rot.mean lyapunov ((used w).map w) ((used w).map (fun i => (l.dynamics i).unchecked x))

/-- `_predict_outside_of_obstacle` (kmeans_motion_learner.py:646-756).  A velocity of zero outside makes all
products `nan`, no index remains, and the velocity is returned. -/
noncomputable def predictOutside (ext : PredictExt n d k) (l : Learner n d) (x : Vec d) : Vec d :=
  open Classical in
  let v := l.outside x
  if ‖v‖ = 0 then v
  else
    match outsideWeights (List.ofFn l.centers) l.radius v x with
    | none => v
    | some ws =>
      let relevant := (List.ofFn l.centers).filter (fun c => decide (‖x - c‖ < l.radius * 4.0))
      let nonzero := relevant.filter (fun c => decide (outsideDot x v c - Real.cos Real.pi > 0))
      ext.rot.mean v ws (nonzero.map (fun c => (1 / ‖c - x‖) • (c - x)) ++ [v])

/-- The initial velocity and the Lyapunov direction of `predict` (kmeans_motion_learner.py:525-547). -/
noncomputable def initial (ext : PredictExt n d k) (l : Learner n d) (x : Vec d) (i : Fin n)
    (w : Fin n → ℝ) : Except PyErr (Vec d × Vec d) :=
  if (used w).length > 1 then do
    let lyapunov ← l.averagedLyapunov ext x w
    .ok (l.initialDirection ext x lyapunov w, lyapunov)
  else .ok ((l.dynamics i).evaluate x, (l.dynamics i).lyapunov x)

/-- A region as the avoidance sees it at the position with value `gamma` and normal `normal`. -/
noncomputable def asObstacle (o : Obs n d) (gamma : ℝ) (normal : Vec d) : Obstacle d where
  gamma := fun _ => gamma
  normal := fun _ => normal
  reference := fun y => o.referenceDirection y true
  referencePoint := o.center
  center := o.center
  intersection := fun _ _ => none
  tailEffect := false
  isBoundary := o.isBoundary

/-- The normal of the region, which `avoid` only asks for with `1 <= gamma < cut_off_gamma`
(rotational_avoider.py:307-321). -/
noncomputable def neededNormal [NeZero d] (ext : PredictExt n d k) (o : Obs n d) (x : Vec d) (gamma : ℝ) :
    Except PyErr (Vec d) :=
  open Classical in
  if 1 ≤ gamma ∧ gamma < 1e6 then (o.normalDirection ext.normal x true).1 else .ok 0

/-- `predict` (kmeans_motion_learner.py:508-564); `last` is the cluster with the highest number. -/
noncomputable def predict [NeZero d] [Fact (2 ≤ d)] (ext : PredictExt n d k) (l : Learner n d) (last : Fin n)
    (x : Vec d) : Except PyErr (Vec d) :=
  open Classical in do
  let o := l.region (ext.label x)
  match ← o.getGamma last x true with
  | none => .error .typeError
  | some gamma =>
    if gamma < 1 then .ok (l.predictOutside ext x)
    else do
      let w ← sequenceWeights l.graph o last x
      let v ← l.initial ext x (ext.label x) w
      let normal ← neededNormal ext o x gamma
      let r ← (Rotational.avoid ext.rot Rotational.create x (some v.1)
        (some ⟨[asObstacle o gamma normal], none, none⟩) (some v.2) false
        (some (Real.pi * w (ext.label x)))).2
      if ∑ i, w i < 1 then .error .notImplemented else .ok r

end Learner

end Verif.KMeans
