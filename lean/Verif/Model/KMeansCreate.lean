import Verif.Model.KMeans

/-!
# Model of the first and last steps of fitting a `KMeansMotionLearner` (kmeans_learner/kmeans_motion_learner.py)

`_fit_kmeans`, `from_centers` and `compute_distances_to_neighbours`.  External: the iterations of `sklearn.cluster.KMeans`.
-/

namespace Verif.KMeans

variable {d n : ℕ}

/-- `cluster_centers[ii, :]` of `_fit_kmeans` (kmeans_motion_learner.py:215-219): the mean of the positions with the label
`i` of the clustering with velocities; `nan` without positions. -/
noncomputable def startCenter (samples : List (Vec d × ℕ)) (i : ℕ) : Except PyErr (Vec d) :=
  let own := (samples.filter (fun s => s.2 = i)).map Prod.fst
  if own.length = 0 then .error .nan
  else .ok ((1 / (own.length : ℝ)) • own.sum)

/-- `init` of the second clustering in `_fit_kmeans` (kmeans_motion_learner.py:214-224). -/
noncomputable def startCenters (samples : List (Vec d × ℕ)) (clusters : ℕ) : Except PyErr (List (Vec d)) :=
  (List.range clusters).mapM (startCenter samples)

/-- The position of the next cluster (kmeans_motion_learner.py:350-356); `e` is a node with its level. -/
def successorPosition (g : Graph n) (centers : Fin n → Vec d) (attractor : Vec d) (e : Fin n × ℕ) :
    Except PyErr (Vec d) :=
  if e.2 = 0 then .ok attractor
  else
    match g.successors e.1 with
    | [] => .error .indexError
    | s :: _ => .ok (centers s)

/-- The loop of `compute_distances_to_neighbours` over the nodes of the graph (kmeans_motion_learner.py:349-360). -/
noncomputable def neighbourLoop (g : Graph n) (centers : Fin n → Vec d) (attractor : Vec d) :
    List (Fin n × ℕ) → Except PyErr (List ℝ)
  | [] => .ok []
  | e :: rest => do
    let p ← successorPosition g centers attractor e
    let l ← neighbourLoop g centers attractor rest
    .ok (‖centers e.1 - p‖ :: l)

/-- `compute_distances_to_neighbours` (kmeans_motion_learner.py:346-362) for a graph with all clusters, as it is after a
fit: all entries of the array are written. -/
noncomputable def neighbourDistances (g : Graph n) (centers : Fin n → Vec d) (attractor : Vec d) :
    Except PyErr (List ℝ) :=
  neighbourLoop g centers attractor g.nodes

/-- How a learner was made: by `fit` (kmeans_motion_learner.py:152-173) or by `from_centers`
(kmeans_motion_learner.py:90-107). -/
inductive Origin where
  | fit
  | fromCenters

/-- The attribute `outside_dynamics` (kmeans_motion_learner.py:169-173): only `fit` sets it.  `linear attractor` is
`LinearSystem(attractor_position=attractor, maximum_velocity=1.0).evaluate`. -/
def outsideDynamics (linear : Vec d → Vec d → Vec d) (attractor : Vec d) : Origin → Option (Vec d → Vec d)
  | .fit => some (linear attractor)
  | .fromCenters => none

/-- `self.outside_dynamics.evaluate(position)` (kmeans_motion_learner.py:672, 685): evaluated for every position outside of
the clusters. -/
def outsideVelocity (linear : Vec d → Vec d → Vec d) (attractor : Vec d) (o : Origin) (position : Vec d) :
    Except PyErr (Vec d) :=
  match outsideDynamics linear attractor o with
  | none => .error .attributeError
  | some f => .ok (f position)

end Verif.KMeans
