import Verif.Model.Num
import Verif.Model.Projected
import Mathlib.Data.List.FinRange

/-!
# Model of `nonlinear_avoidance/kmeans_learner/kmeans_obstacle.py` and of the clusters,
hierarchy and weights of `kmeans_learner/kmeans_motion_learner.py`

`sklearn.cluster.KMeans` is external: the model starts from the cluster centres and labels it
returns.  `KMeans.predict` is the index of the closest centre.
-/

open scoped RealInnerProductSpace

namespace Verif.KMeans

open Verif.Projected (floatMax)

variable {d n : ℕ}

/-- `KMeansObstacle` (kmeans_obstacle.py:24-97): the centres of all clusters, the radius, the
index of this cluster, whether it is a boundary, and `successor_index`. -/
structure Obs (n d : ℕ) where
  centers : Fin n → Vec d
  radius : ℝ
  index : Fin n
  isBoundary : Bool := true
  successor : List (Fin n) := []

namespace Obs

/-- `center_position` (kmeans_obstacle.py:141-143). -/
def center (o : Obs n d) : Vec d := o.centers o.index

/-- Membership in `ind_relevant` (kmeans_obstacle.py:49-62). -/
def Relevant (o : Obs n d) (i : Fin n) : Prop :=
  i ≠ o.index ∧ ‖o.centers o.index - o.centers i‖ < 2 * o.radius

/-- `ind_relevant` (kmeans_obstacle.py:49-62). -/
noncomputable def indRelevant (o : Obs n d) : List (Fin n) :=
  open Classical in (List.finRange n).filter (fun i => decide (o.Relevant i))

/-- Row `i` of `inbetween_points` (kmeans_obstacle.py:64-70 and 124-127). -/
noncomputable def inbetween (o : Obs n d) (i : Fin n) : Vec d :=
  open Classical in
  if o.Relevant i then (0.5 : ℝ) • (o.centers o.index + o.centers i) else 0

/-- Row `i` of `normal_directions` (kmeans_obstacle.py:78-95 and 116-121).  Two equal centres
give a row of `nan` in the code; the theorems exclude this. -/
noncomputable def normal (o : Obs n d) (i : Fin n) : Vec d :=
  open Classical in
  if o.Relevant i then
    (1 / ‖o.centers i - o.centers o.index‖) • (o.centers i - o.centers o.index)
  else 0

/-- `vartools.math.get_intersection_between_line_and_plane(..., positive_only=True)` (external):
the intersection of a line with a plane that is not parallel to it, `None` if it is behind the
start of the line. -/
noncomputable def linePlane (linePos lineDir planePos planeNormal : Vec d) : Option (Vec d) :=
  open Classical in
  let factor := ⟪planeNormal, planePos - linePos⟫ / ⟪planeNormal, lineDir⟫
  if factor < 0 then none else some (linePos + factor • lineDir)

/-- One pass of the loop in `get_point_on_surface` (kmeans_obstacle.py:549-565): the distance
to the surface and the boundary position. -/
noncomputable def surfaceStep (o : Obs n d) (direction : Vec d) (s : ℝ × Vec d) (i : Fin n) :
    ℝ × Vec d :=
  open Classical in
  match linePlane o.center direction (o.inbetween i) (o.normal i) with
  | none => s
  | some x => if ‖o.center - x‖ < s.1 then (‖o.center - x‖, x) else s

/-- The part of `get_point_on_surface` after the normalisation (kmeans_obstacle.py:532-565). -/
noncomputable def surfaceAlong (o : Obs n d) (direction : Vec d) : Vec d :=
  open Classical in
  ((o.indRelevant.filter (fun i => decide (|⟪o.normal i, direction⟫| > 1e-9))).foldl
    (o.surfaceStep direction) (o.radius, o.center + o.radius • direction)).2

/-- The direction used by `get_point_on_surface` (kmeans_obstacle.py:520-530). -/
noncomputable def surfaceDirection [NeZero d] (direction : Vec d) : Vec d :=
  open Classical in
  if ‖direction‖ ≠ 0 then (1 / ‖direction‖) • direction
  else EuclideanSpace.single 0 1

/-- `get_point_on_surface` (kmeans_obstacle.py:516-570): the result, and the array of the caller
after the call.  In the local frame `direction` is the array of the caller, and line 530 writes
to it. -/
noncomputable def getPointOnSurface [NeZero d] (o : Obs n d) (position : Vec d)
    (inGlobalFrame : Bool) : Vec d × Vec d :=
  open Classical in
  if inGlobalFrame then
    (o.surfaceAlong (surfaceDirection (position - o.center)), position)
  else
    (o.surfaceAlong (surfaceDirection position) - o.center,
      if ‖position‖ ≠ 0 then position else EuclideanSpace.single 0 1)

/-- The argument `ind_transparent` of `get_gamma`: `None`, `-1`, or the index of a cluster.
Further negative values and values that are too large are not modelled. -/
inductive Transparent (n : ℕ) where
  | unset
  | minusOne
  | cluster (i : Fin n)

/-- The array `distances_surface` (kmeans_obstacle.py:277-278 and 572-589). -/
noncomputable def distances (o : Obs n d) (projPosition : Vec d) (projNorm : ℝ) (i : Fin n) : ℝ :=
  open Classical in
  if i = o.index then projNorm - o.radius
  else ⟪o.normal i, projPosition - o.inbetween i⟫

/-- `weights` (kmeans_obstacle.py:281-282); `none` if the sum is zero (`nan` in the code). -/
noncomputable def surfaceWeights (dist : Fin n → ℝ) : Option (Fin n → ℝ) :=
  open Classical in
  if ∑ i, max (dist i) 0 = 0 then none
  else some (fun i => max (dist i) 0 / ∑ j, max (dist j) 0)

/-- The gamma of a position on the surface (kmeans_obstacle.py:252-271).  `last` is the row that
the index `-1` selects. -/
noncomputable def gammaOnSurface (o : Obs n d) (surfPosition : Vec d) (last : Fin n)
    (t : Transparent n) : ℝ :=
  open Classical in
  let check (i : Fin n) : ℝ :=
    if ⟪surfPosition - o.inbetween i, o.normal i⟫ ≠ 0 then 1 else floatMax
  match t with
  | .unset => match o.successor with
    | [s] => check s
    | _ => 1
  | .minusOne => check last
  | .cluster i => check i

/-- The gamma through the transparent wall (kmeans_obstacle.py:343-354). -/
noncomputable def gammaTransparent (weights radii : Fin n → ℝ) (positionNorm : ℝ) (t : Fin n) : ℝ :=
  open Classical in
  if weights t > 0 then
    let reduced : Fin n → ℝ := fun i => max (weights i - weights t) 0
    let wt := 1 - ∑ i, reduced i
    if wt ≥ 1 then floatMax
    else (∑ i, if i = t then wt * (radii t / (1 - wt)) else reduced i * radii i) / positionNorm
  else (∑ i, weights i * radii i) / positionNorm

/-- The case `is_boundary` of `get_gamma` (kmeans_obstacle.py:326-354). -/
noncomputable def gammaBoundary (o : Obs n d) (dist : Fin n → ℝ) (projNorm positionNorm : ℝ)
    (t : Transparent n) : Except PyErr ℝ :=
  let radii : Fin n → ℝ := fun i => projNorm - dist i
  let plain (w : Fin n → ℝ) : ℝ := (∑ i, w i * radii i) / positionNorm
  match t with
  | .unset =>
    match o.successor with
    | [] => match surfaceWeights dist with
      | none => .error .nan
      | some w => .ok (plain w)
    | [s] => match surfaceWeights dist with
      | none => .error .nan
      | some w => .ok (gammaTransparent w radii positionNorm s)
    | _ :: _ :: _ => .error .notImplemented
  | .minusOne => match surfaceWeights dist with
    | none => .error .nan
    | some w => .ok (plain w)
  | .cluster s => match surfaceWeights dist with
    | none => .error .nan
    | some w => .ok (gammaTransparent w radii positionNorm s)

/-- The other case of `get_gamma` (kmeans_obstacle.py:356-367).  `none` is Python's `None`: line
363 has no `return`. -/
noncomputable def gammaObstacle (o : Obs n d) (dist : Fin n → ℝ) (positionNorm : ℝ) :
    Except PyErr (Option ℝ) :=
  open Classical in
  match o.successor with
  | _ :: _ => .error .notImplemented
  | [] => match surfaceWeights dist with
    | none => .error .nan
    | some w =>
      let meanDist := ∑ i, w i * dist i
      if meanDist > 0 then .ok none else .ok (some (positionNorm / (positionNorm - meanDist)))

/-- `get_gamma` (kmeans_obstacle.py:221-367).  `last` is the row that the index `-1` selects;
`proj` (lines 247-253 and 272-275) is the position itself or its reflection at the surface. -/
noncomputable def getGamma [NeZero d] (o : Obs n d) (last : Fin n) (position : Vec d)
    (inGlobalFrame : Bool := false) (t : Transparent n := .unset) : Except PyErr (Option ℝ) :=
  open Classical in
  let relative := if inGlobalFrame then position - o.center else position
  let position := if inGlobalFrame then position else position + o.center
  let positionNorm := ‖relative‖
  if positionNorm = 0 then .ok (some (if o.isBoundary then floatMax else 0))
  else
    let surf := (o.getPointOnSurface position true).1
    let surfNorm := ‖surf - o.center‖
    if positionNorm = surfNorm then .ok (some (o.gammaOnSurface surf last t))
    else
      let projRel := if positionNorm < surfNorm then ((surfNorm / positionNorm) ^ 2) • relative
        else relative
      let projPosition := if positionNorm < surfNorm then projRel + o.center else position
      let dist := o.distances projPosition ‖projRel‖
      if o.isBoundary then (o.gammaBoundary dist ‖projRel‖ positionNorm t).map some
      else o.gammaObstacle dist positionNorm

/-- `is_inside` (kmeans_obstacle.py:182-186); comparing `None` with a number raises
`TypeError`. -/
noncomputable def isInside [NeZero d] (o : Obs n d) (last : Fin n) (position : Vec d)
    (inGlobalFrame : Bool := false) : Except PyErr Prop :=
  match o.getGamma last position inGlobalFrame .minusOne with
  | .error e => .error e
  | .ok none => .error .typeError
  | .ok (some g) => .ok (g > 1)

/-- `_get_gamma_without_transition` (kmeans_obstacle.py:188-213). -/
noncomputable def gammaWithoutTransition [NeZero d] (o : Obs n d) (position : Vec d)
    (inGlobalFrame : Bool := false) : ℝ :=
  open Classical in
  let position := if inGlobalFrame then position else position + o.center
  let distancePosition := ‖position - o.center‖
  if distancePosition = 0 then (if o.isBoundary then floatMax else 0)
  else
    let distanceSurface := ‖(o.getPointOnSurface position true).1 - o.center‖
    if o.isBoundary then distanceSurface / distancePosition
    else if distancePosition > distanceSurface then distancePosition - distanceSurface
    else distanceSurface / distancePosition

end Obs

/-! ### The learner -/

/-- The `networkx.DiGraph` of the learner: the nodes with their attribute `level` in the order in
which they were added, and the edges. -/
structure Graph (n : ℕ) where
  nodes : List (Fin n × ℕ) := []
  edges : List (Fin n × Fin n) := []

namespace Graph

/-- `add_node` (networkx): a new node is appended, the attribute of an old node is replaced. -/
def addNode (g : Graph n) (i : Fin n) (level : ℕ) : Graph n :=
  if i ∈ g.nodes.map Prod.fst then
    { g with nodes := g.nodes.map (fun e => if e.1 = i then (i, level) else e) }
  else { g with nodes := g.nodes ++ [(i, level)] }

/-- `add_edge` (networkx): an edge that exists is not added again. -/
def addEdge (g : Graph n) (i j : Fin n) : Graph n :=
  if (i, j) ∈ g.edges then g else { g with edges := g.edges ++ [(i, j)] }

/-- `nodes[i]["level"]`. -/
def level (g : Graph n) (i : Fin n) : Option ℕ :=
  (g.nodes.find? (fun e => e.1 = i)).map Prod.snd

/-- `get_predecessors` (kmeans_motion_learner.py:128-129). -/
def predecessors (g : Graph n) (i : Fin n) : List (Fin n) :=
  (g.edges.filter (fun e => e.2 = i)).map Prod.fst

/-- `get_successors` (kmeans_motion_learner.py:131-132). -/
def successors (g : Graph n) (i : Fin n) : List (Fin n) :=
  (g.edges.filter (fun e => e.1 = i)).map Prod.snd

end Graph

/-- `average_sequence[i]` (kmeans_motion_learner.py:298-301) from the labels and sequence values of
the data; a cluster without data gives `nan` in the code, the theorems exclude this. -/
noncomputable def averageSequence (samples : List (Fin n × ℝ)) (i : Fin n) : ℝ :=
  ((samples.filter (fun e => e.1 = i)).map Prod.snd).sum
    / ((samples.filter (fun e => e.1 = i)).length : ℝ)

/-- One pass of the loop of `_fit_cluster_hierarchy` (kmeans_motion_learner.py:323-344) for the
cluster `node` after the cluster `parent`: the graph and `distances_parent`.  The attribute
`direction` of the nodes is not modelled. -/
noncomputable def hierarchyStep (centers : Fin n → Vec d) (s : Graph n × List ℝ)
    (parent node : Fin n) : Except PyErr (Graph n × List ℝ) :=
  open Classical in
  if ‖centers node - centers parent‖ = 0 then .error .valueError
  else match s.1.level parent with
    | none => .error .keyError
    | some l =>
      .ok ((s.1.addNode node (l + 1)).addEdge node parent,
        s.2 ++ [‖centers node - centers parent‖])

/-- The loop of `_fit_cluster_hierarchy` (kmeans_motion_learner.py:323-344). -/
noncomputable def hierarchyLoop (centers : Fin n → Vec d) :
    Graph n × List ℝ → Fin n → List (Fin n) → Except PyErr (Graph n × List ℝ)
  | s, _, [] => .ok s
  | s, parent, node :: rest =>
    match hierarchyStep centers s parent node with
    | .error e => .error e
    | .ok s => hierarchyLoop centers s node rest

/-- `_fit_cluster_hierarchy` (kmeans_motion_learner.py:291-344), from the result `ascending` of
`np.argsort(average_sequence)`: the graph and `distances_parent`. -/
noncomputable def fitHierarchy (g : Graph n) (centers : Fin n → Vec d) (attractor : Vec d)
    (ascending : List (Fin n)) : Except PyErr (Graph n × List ℝ) :=
  open Classical in
  match ascending.reverse with
  | [] => .error .indexError
  | root :: rest =>
    if ‖centers root - attractor‖ = 0 then .error .notImplemented
    else hierarchyLoop centers (g.addNode root 0, [‖centers root - attractor‖ * 2.0]) root rest

/-- `np.max` of a list; `ValueError` for an empty array. -/
noncomputable def npMax (l : List ℝ) : Except PyErr ℝ :=
  match l.max? with
  | none => .error .valueError
  | some m => .ok m

/-- The largest distance of a data point to the closest centre
(kmeans_motion_learner.py:188-200: `np.max(np.min(dists, axis=0))`). -/
noncomputable def farthestData (centers : Fin n → Vec d) (positions : List (Vec d)) :
    Except PyErr ℝ :=
  match positions.mapM (fun p => ((List.finRange n).map (fun i => ‖centers i - p‖)).min?) with
  | none => .error .valueError
  | some l => npMax l

/-- `_fit_region_radius` (kmeans_motion_learner.py:185-202). -/
noncomputable def regionRadius (radiusFactor : ℝ) (distancesParent : List ℝ)
    (centers : Fin n → Vec d) (positions : List (Vec d)) : Except PyErr ℝ :=
  match npMax distancesParent with
  | .error e => .error e
  | .ok m =>
    match farthestData centers positions with
    | .error e => .error e
    | .ok f => .ok (max (2 * radiusFactor * f) (radiusFactor * m))

/-- The weight of the other cluster from the position alone
(kmeans_motion_learner.py:909-926). -/
noncomputable def transitionWeight (own other position : Vec d) (parentFactor : ℝ) : ℝ :=
  let center := (0.5 : ℝ) • (own + other)
  let normDist := (1 / ‖own - other‖) • (own - other)
  let posDist := ⟪normDist, position - center⟫
  let centerDist := ⟪normDist, own - center⟫
  max (1 - max posDist 0 / (centerDist * parentFactor)) 0

/-- The factor from gamma (kmeans_motion_learner.py:937). -/
noncomputable def cutoffFactor (gamma gammaCutoff : ℝ) : ℝ :=
  1 - 1 / (1 + max (gamma - gammaCutoff) 0)

/-- `weights` (kmeans_motion_learner.py:939-942). -/
noncomputable def pairWeights (label parent : Fin n) (w : ℝ) : Fin n → ℝ :=
  Function.update (Function.update (fun _ => 0) parent w) label
    (1 - ∑ i, Function.update (fun _ => (0 : ℝ)) parent w i)

/-- `_predict_sequence_weights` (kmeans_motion_learner.py:873-942) for the cluster
`obs.index`.  Equal centres (a division by zero) give `nan`. -/
noncomputable def sequenceWeights [NeZero d] (g : Graph n) (o : Obs n d) (last : Fin n)
    (position : Vec d) (parentFactor : ℝ := 0.5) (gammaCutoff : ℝ := 2.0) :
    Except PyErr (Fin n → ℝ) :=
  open Classical in
  match g.predecessors o.index with
  | _ :: _ :: _ => .error .notImplemented
  | [] => .ok (Pi.single o.index 1)
  | [parent] =>
    if ‖o.center - o.centers parent‖ = 0 then .error .nan
    else
      let w := transitionWeight o.center (o.centers parent) position parentFactor
      if w > 0 then
        match o.getGamma last position true (.cluster parent) with
        | .error e => .error e
        | .ok none => .error .typeError
        | .ok (some gamma) =>
          .ok (pairWeights o.index parent (w * cutoffFactor gamma gammaCutoff))
      else .ok (pairWeights o.index parent w)

/-! ### Sparse clusters -/

/-- `KMeans.predict` (sklearn, external) for one point: the index of the first closest centre. -/
noncomputable def closest (centers : List (Vec d)) (p : Vec d) : ℕ :=
  open Classical in
  match (centers.map (fun c => ‖c - p‖)).min? with
  | none => 0
  | some m => centers.findIdx (fun c => decide (‖c - p‖ = m))

/-- The state of `_fit_remove_sparse_clusters`: the data points with their labels, the centres and
`n_delta_label`. -/
structure Sparse (d : ℕ) where
  data : List (Vec d × ℕ)
  centers : List (Vec d)
  delta : ℕ

/-- One pass of the loop (kmeans_motion_learner.py:235-258).  The number of clusters is the number
of centres. -/
noncomputable def sparseStep (minSamples : ℝ) (s : Sparse d) (ii : ℕ) : Sparse d :=
  open Classical in
  if ((s.data.countP (fun e => e.2 = ii) : ℕ) : ℝ) < minSamples then
    let centers := s.centers.eraseIdx (ii - s.delta)
    { data := s.data.map (fun e => if e.2 = ii then (e.1, closest centers e.1) else e)
      centers := centers
      delta := s.delta + 1 }
  else if s.delta ≠ 0 then
    { s with data := s.data.map (fun e => if e.2 = ii then (e.1, e.2 - s.delta) else e) }
  else s

/-- `_fit_remove_sparse_clusters` (kmeans_motion_learner.py:228-258). -/
noncomputable def removeSparse (data : List (Vec d × ℕ)) (centers : List (Vec d))
    (removalFactor : ℝ := 0.2) : Sparse d :=
  (List.range centers.length).foldl
    (sparseStep (removalFactor * data.length / centers.length)) ⟨data, centers, 0⟩

/-! ### Outside of all clusters -/

/-- `all_weights` of `_predict_outside_of_obstacle` (kmeans_motion_learner.py:733-737): the weights
of the clusters and, last, of the velocity outside. -/
noncomputable def allWeights (weightsSurf : List ℝ) : List ℝ :=
  open Classical in
  if weightsSurf.sum > 10 then weightsSurf.map (fun w => w / weightsSurf.sum) ++ [0]
  else (weightsSurf ++ [1 - weightsSurf.sum]).map (fun w => w / 10)

/-- `dot_prod` for one cluster (kmeans_motion_learner.py:689-700). -/
noncomputable def outsideDot (position outsideVelocity center : Vec d) : ℝ :=
  ⟪(1 / ‖center - position‖) • (center - position), (1 / ‖outsideVelocity‖) • outsideVelocity⟫

/-- The weights of `_predict_outside_of_obstacle` (kmeans_motion_learner.py:666-737); `none` if the
velocity outside is returned as it is.  The convergence radius is always `math.pi`
(kmeans_motion_learner.py:87). -/
noncomputable def outsideWeights (centers : List (Vec d)) (regionRadius : ℝ)
    (outsideVelocity position : Vec d) (cutOffRatio : ℝ := 4.0) : Option (List ℝ) :=
  open Classical in
  let maxRadius := regionRadius * cutOffRatio
  let relevant := centers.filter (fun c => decide (‖position - c‖ < maxRadius))
  if relevant = [] then none
  else
    let weight (c : Vec d) : ℝ := (maxRadius - regionRadius) / (‖position - c‖ - regionRadius)
    if ∀ c ∈ relevant, weight c ≤ 0 then none
    else
      let pow (c : Vec d) : ℝ := outsideDot position outsideVelocity c - Real.cos Real.pi
      let nonzero := relevant.filter (fun c => decide (pow c > 0))
      if nonzero = [] then none
      else some (allWeights (nonzero.map (fun c => weight c ^ (pow c / (1 - Real.cos Real.pi)))))

end Verif.KMeans
