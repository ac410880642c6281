import Verif.Model.KMeansPredict

/-!
# Model of the local directions of a learned motion (kmeans_learner/kmeans_motion_learner.py:364-505)

`mean u v` is `get_directional_weighted_sum(u, [0.5, 0.5], [u, v])` (vartools, external).
-/

open scoped RealInnerProductSpace

namespace Verif.KMeans

variable {d n : ℕ}

namespace Obs

/-- `_is_pointing_towards_parent` (kmeans_motion_learner.py:491-505) for the region `o` of the node. -/
def pointing [NeZero d] (o : Obs n d) (direction : Vec d) (parent : Fin n) : Prop :=
  let s := (o.getPointOnSurface (o.center + direction) true).1
  isclose ‖s - o.center‖ ‖s - o.centers parent‖

/-- The loop of `_enforces_direction_is_towards_parent` (kmeans_motion_learner.py:476-487). -/
noncomputable def bisect [NeZero d] (mean : Vec d → Vec d → Vec d) (o : Obs n d) (parent : Fin n) :
    ℕ → Vec d → Vec d → Vec d
  | 0, direction, _ => direction
  | k + 1, direction, parentDirection =>
    open Classical in
    if o.pointing parentDirection parent then
      bisect mean o parent k direction (mean direction parentDirection)
    else bisect mean o parent k (mean direction parentDirection) parentDirection

/-- `_enforces_direction_is_towards_parent` (kmeans_motion_learner.py:416-489).  `velocity` is the mean velocity
of the data of the cluster, `nodeDirection` the attribute `direction` of its node, and `o.successor` are
its successors in the graph. -/
noncomputable def towardsParent [NeZero d] (mean : Vec d → Vec d → Vec d) (o : Obs n d)
    (nodeDirection velocity : Vec d) (itMax : ℕ := 10) : Except PyErr (Vec d) :=
  open Classical in
  let direction := if ‖velocity‖ = 0 then nodeDirection else (1 / ‖velocity‖) • velocity
  match o.successor with
  | [parent] =>
    if o.pointing direction parent then .ok direction
    else
      let toParent := o.centers parent - o.center
      if ‖toParent‖ = 0 then .error .valueError
      else
        let parentDirection := (1 / ‖toParent‖) • toParent
        if isclose ⟪parentDirection, direction⟫ (-1) then
          if o.pointing parentDirection parent then .ok parentDirection else .error .notImplemented
        else
          let m := mean direction parentDirection
          if o.pointing parentDirection parent then
            .ok (bisect mean o parent itMax m parentDirection)
          else if ¬ o.pointing m parent then .ok direction
          else .ok (bisect mean o parent itMax direction m)
  | _ => .error .breakpoint

end Obs

/-- The mean velocity of the data of a cluster (kmeans_motion_learner.py:379-383); `nan` for a cluster without
data. -/
noncomputable def meanVelocity (data : List (Fin n × Vec d)) (i : Fin n) : Except PyErr (Vec d) :=
  let own := (data.filter (fun e => e.1 = i)).map Prod.snd
  if own = [] then .error .nan else .ok ((1 / (own.length : ℝ)) • own.sum)

/-- The choice of the local dynamics of cluster `i` in `_fit_local_dynamics` (kmeans_motion_learner.py:368-400):
`root` are the dynamics around the attractor, `flow v` those with the reference velocity `v`.  The fit of the
regressors is not modelled. -/
noncomputable def Learner.fitDynamics [NeZero d] (mean : Vec d → Vec d → Vec d) (l : Learner n d)
    (root : LocalFlow d) (flow : Vec d → LocalFlow d) (nodeDirection : Fin n → Vec d)
    (data : List (Fin n × Vec d)) (i : Fin n) : Except PyErr (LocalFlow d) :=
  match l.graph.level i with
  | none => .error .keyError
  | some 0 => .ok root
  | some (_ + 1) => do
    let v ← meanVelocity data i
    let direction ← (l.region i).towardsParent mean (nodeDirection i) v
    .ok (flow direction)

end Verif.KMeans
