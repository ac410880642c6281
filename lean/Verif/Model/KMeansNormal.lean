import Verif.Model.KMeans

/-!
# Model of `KMeansObstacle.get_normal_direction` (kmeans_learner/kmeans_obstacle.py:369-511)
-/

open scoped RealInnerProductSpace

namespace Verif.KMeans

variable {d n : ℕ}

namespace Obs

/-- The external functions: `mean null weights directions total` is
`get_directional_weighted_sum(null, weights, directions, total_weight=total)` (vartools), `argsort` is
`np.argsort` of an array with one entry for each coordinate. -/
structure NormalExt (n d : ℕ) where
  mean : Vec d → (Fin n → ℝ) → (Fin n → Vec d) → ℝ → Vec d
  argsort : (Fin d → ℝ) → List (Fin d)

/-- The sign of the normal (kmeans_obstacle.py:380, 419, 429 and 504). -/
noncomputable def signed (o : Obs n d) (v : Vec d) : Vec d := if o.isBoundary then (-1 : ℝ) • v else v

/-- `LA.norm(centers[ind_relevant] - center, axis=0)` (kmeans_obstacle.py:402-408): one norm for each
coordinate, not for each cluster. -/
noncomputable def axisNorms (o : Obs n d) (j : Fin d) : ℝ :=
  Real.sqrt ((o.indRelevant.map (fun i => (o.centers i j - o.center j) ^ 2)).sum)

/-- A position on the surface (kmeans_obstacle.py:398-430): the numbers of coordinates are used as numbers
of clusters. -/
noncomputable def normalOnSurface (ext : NormalExt n d) (o : Obs n d) (relative : Vec d) :
    Except PyErr (Vec d) :=
  open Classical in
  match ext.argsort o.axisNorms with
  | [] => .error .indexError
  | i :: rest =>
    match o.indRelevant[(i : ℕ)]? with
    | none => .error .indexError
    | some a =>
      if ‖o.centers a - o.center‖ ≥ o.radius then .ok (o.signed ((1 / ‖relative‖) • relative))
      else
        match rest with
        | [] => .error .indexError
        | j :: _ =>
          match o.indRelevant[(j : ℕ)]? with
          | none => .error .indexError
          | some b =>
            .ok (o.signed ((1 / ‖o.centers a - o.centers b‖) • (o.centers a - o.centers b)))

/-- The rest of `get_normal_direction` (kmeans_obstacle.py:436-507) for the projected position. -/
noncomputable def normalFrom (ext : NormalExt n d) (o : Obs n d) (relative projPosition : Vec d)
    (projNorm : ℝ) : Except PyErr (Vec d) :=
  match surfaceWeights (o.distances projPosition projNorm) with
  | none => .error .nan
  | some w =>
    let w := Function.update w o.index 0
    .ok (o.signed (ext.mean ((1 / ‖relative‖) • relative) w o.normal (∑ i, w i)))

/-- `get_normal_direction` (kmeans_obstacle.py:369-511): the result, and the array of the caller after the
call.  At the centre line 382 writes to the array of the caller (in the global frame) and returns it. -/
noncomputable def normalDirection [NeZero d] (ext : NormalExt n d) (o : Obs n d) (position : Vec d)
    (inGlobalFrame : Bool := false) : Except PyErr (Vec d) × Vec d :=
  open Classical in
  let global := if inGlobalFrame then position else position + o.center
  let relative := global - o.center
  if ‖relative‖ = 0 then
    let changed := global + EuclideanSpace.single 0 (1 - global 0)
    (.ok (o.signed changed), if inGlobalFrame then changed else position)
  else
    let surf := (o.getPointOnSurface global true).1
    let surfNorm := ‖surf - o.center‖
    if ‖relative‖ < surfNorm then
      let proj := ((surfNorm / ‖relative‖) ^ 2) • relative
      (o.normalFrom ext relative (proj + o.center) ‖proj‖, position)
    else if ‖relative‖ = surfNorm then (o.normalOnSurface ext relative, position)
    else (o.normalFrom ext relative global ‖relative‖, position)

/-- `get_reference_direction` (kmeans_obstacle.py:163-172). -/
noncomputable def referenceDirection (o : Obs n d) (position : Vec d) (inGlobalFrame : Bool := false) :
    Vec d :=
  open Classical in
  let direction := if inGlobalFrame then o.center - position else (-1 : ℝ) • position
  if ‖direction‖ = 0 then direction else (1 / ‖direction‖) • direction

end Obs

end Verif.KMeans
