import Mathlib.Analysis.SpecialFunctions.Pow.Real
import Verif.Model.Composite

/-!
# Model of `nonlinear_avoidance/multi_hull_and_obstacle.py`

Modelled: weights, attractor handling, the assignment of local attractors along a path, `evaluate`
and the container.  External: the element obstacles (`Elem`), the search of a shortest path
(`networkx`, `Search`), `get_directional_weighted_sum` (`directionalSum`), plotting.
`gamma_normal_gradient_descent` is external, so the construction of the graph
(multi_hull_and_obstacle.py:526-606) is not modelled: graphs are arbitrary.
The methods `get_gamma` and `get_normal_direction` raise `NotImplementedError`.
-/

open scoped RealInnerProductSpace

namespace Verif
namespace Hull

variable {d : ℕ}

/-- The external interface of an element obstacle that is used here; positions are in the frame of
the `MultiHullAndObstacle` (the code passes `in_global_frame=True`).

* `gamma`: `get_gamma`
* `inside`: `is_inside`
* `surface`: `get_point_on_surface`
* `normal`: `get_normal_direction`
* `reference`: `get_reference_direction` -/
structure Elem (d : ℕ) where
  gamma : Vec d → ℝ
  inside : Vec d → Bool
  surface : Vec d → Vec d
  normal : Vec d → Vec d
  reference : Vec d → Vec d

/-- Nodes of the graph: `inl i` is the inner obstacle number `i` (a python object), `inr k` is the
entrance `k` (a python `int`). -/
abbrev Node := ℕ ⊕ ℕ

/-- The attributes `local_attractor` and `contains_attractor` of an inner obstacle. -/
structure NodeAttr (d : ℕ) where
  localAttractor : Option (Vec d)
  contains : Bool

/-- The `networkx.Graph`; `attr i` is `none` as long as the attributes are not set.  An edge has the
attributes `distance` and `intersection`. -/
structure HullGraph (d : ℕ) where
  attr : ℕ → Option (NodeAttr d)
  edges : List (Node × Node × ℝ × Vec d)

/-- `MultiHullAndObstacle` (multi_hull_and_obstacle.py:64-91).  `None` as value of
`_attractor_is_outside` is `false`. -/
structure MultiHull (d : ℕ) where
  inner : List (Elem d)
  outer : Elem d
  pose : Pose d
  graph : Option (HullGraph d) := none
  outsideAttractor : Option (Vec d) := none
  isOutside : Bool := false
  entrances : ℕ := 0

/-- `np.argmin`: the first index with the smallest value; `ValueError` for an empty list. -/
noncomputable def argmin (l : List ℝ) : Except PyErr ℕ :=
  open Classical in
  match l.min? with
  | none => .error .valueError
  | some m => .ok (l.findIdx (fun x => x = m))

namespace MultiHull

/-- `all_obstacles` (multi_hull_and_obstacle.py:97-99). -/
def allObstacles (m : MultiHull d) : List (Elem d) := m.inner ++ [m.outer]

/-- `gamma_list` (multi_hull_and_obstacle.py:413-417). -/
def gammaList (m : MultiHull d) (position : Vec d) : List ℝ :=
  m.allObstacles.map (fun o => o.gamma position)

/-- `_evaluate_weights` (multi_hull_and_obstacle.py:406-425). -/
noncomputable def evaluateWeights (m : MultiHull d) (position : Vec d) : List ℝ :=
  open Classical in
  let weights := (m.gammaList position).map (fun g => max (g - 1) 0)
  let weightSum := weights.sum
  if weightSum > 0 then weights.map (fun w => w / weightSum) else weights

/-- `is_inside` (multi_hull_and_obstacle.py:172-183). -/
def isInside (m : MultiHull d) (position : Vec d) : Bool :=
  let inFreeSpace := !m.outer.inside position
  let inFreeSpace := m.inner.foldl (fun f o => if !o.inside position then true else f) inFreeSpace
  !inFreeSpace

/-- Setting the attributes of one node. -/
def setNode (g : HullGraph d) (i : ℕ) (a : NodeAttr d) : HullGraph d :=
  { g with attr := fun j => if j = i then some a else g.attr j }

/-- One pass of the loop of `set_attractor` (multi_hull_and_obstacle.py:144-154): the graph and
`in_free_space`.  `None.nodes` raises `AttributeError`. -/
def setAttractorStep (position : Vec d) (s : Option (HullGraph d) × Bool) (e : Elem d × ℕ) :
    Except PyErr (Option (HullGraph d) × Bool) :=
  match s.1 with
  | none => .error .attributeError
  | some g =>
    if e.1.inside position then .ok (some (setNode g e.2 ⟨none, false⟩), s.2)
    else .ok (some (setNode g e.2 ⟨some position, true⟩), true)

/-- `set_attractor` (multi_hull_and_obstacle.py:118-170).  The object after an exception is not
modelled. -/
noncomputable def setAttractor (m : MultiHull d) (position : Vec d) (inGlobalFrame : Bool := false) :
    Except PyErr (MultiHull d) := do
  let position := if inGlobalFrame then m.pose.toRelative position else position
  let outside := !m.outer.inside position
  let m := { m with
    outsideAttractor := if outside then some position else none
    isOutside := outside }
  let (graph, inFreeSpace) ←
    m.inner.zipIdx.foldlM (setAttractorStep position) (m.graph, outside)
  let m := { m with graph := graph }
  if inFreeSpace then pure m
  else do
    let ind ← argmin (m.evaluateWeights position)
    if ind = m.inner.length then
      pure { m with outsideAttractor := some position, isOutside := true }
    else
      match m.graph with
      | none => throw .attributeError
      | some g => pure { m with graph := some (setNode g ind ⟨some position, true⟩) }

/-- The loop of `get_attractor` (multi_hull_and_obstacle.py:505-507). -/
def findAttractor (g : HullGraph d) : List ℕ → Except PyErr (Option (Vec d))
  | [] => .ok none
  | i :: rest =>
    match g.attr i with
    | none => .error .keyError
    | some a => if a.contains then .ok a.localAttractor else findAttractor g rest

/-- `get_attractor` (multi_hull_and_obstacle.py:500-507). -/
def getAttractor (m : MultiHull d) : Except PyErr (Option (Vec d)) :=
  if m.isOutside then .ok m.outsideAttractor
  else
    match m.graph with
    | none => if m.inner = [] then .ok none else .error .attributeError
    | some g => findAttractor g (List.range m.inner.length)

/-- `self._graph.edges[a, b]["intersection"]`: edges are undirected; `KeyError` without edge. -/
def edgeIntersection (g : HullGraph d) (a b : Node) : Except PyErr (Vec d) :=
  match g.edges.find? (fun e => (e.1 = a ∧ e.2.1 = b) ∨ (e.1 = b ∧ e.2.1 = a)) with
  | none => .error .keyError
  | some e => .ok e.2.2.2

/-- `get_property_of_node_edge(graph, ii, "intersection")` (multi_hull_and_obstacle.py:43-49):
`IndexError` without an edge. -/
def nodeIntersection (g : HullGraph d) (n : Node) : Except PyErr (Vec d) :=
  match g.edges.find? (fun e => e.1 = n ∨ e.2.1 = n) with
  | none => .error .indexError
  | some e => .ok e.2.2.2

/-- `ind0` and `ind1` (multi_hull_and_obstacle.py:379-385 and 394): every entrance is replaced by
entrance 0. -/
def key : Node → Node
  | .inl i => .inl i
  | .inr _ => .inr 0

/-- `_assign_local_attractors_along_path` (multi_hull_and_obstacle.py:374-404). -/
def assignAlongPath (m : MultiHull d) : List Node → Except PyErr (MultiHull d)
  | [] => .ok m
  | [_] => .ok m
  | a :: b :: rest =>
    match m.graph with
    | none => .error .attributeError
    | some g =>
      match a with
      | .inr k =>
        match m.outsideAttractor with
        | some _ => .ok m
        | none => do
          let x ← edgeIntersection g (key (.inr k)) (key b)
          assignAlongPath { m with outsideAttractor := some (m.outer.surface x) } (b :: rest)
      | .inl i =>
        match g.attr i, m.inner[i]? with
        | some at', some o =>
          match at'.localAttractor with
          | some _ => .ok m
          | none => do
            let x ← edgeIntersection g (key (.inl i)) (key b)
            assignAlongPath { m with
              graph := some (setNode g i ⟨some (o.surface x), at'.contains⟩) } (b :: rest)
        | _, _ => .error .keyError

/-- The external searches of `networkx` in a graph: `length source target` is the entry of
`shortest_path_length(graph, source)` (`none`: no entry), `path source target` is `shortest_path`
(`none`: `NetworkXNoPath`). -/
structure Search (d : ℕ) where
  length : HullGraph d → Node → Node → Option ℝ
  path : HullGraph d → Node → Node → Option (List Node)

/-- `np.argmin(closest_dist)` (multi_hull_and_obstacle.py:363): the entries `none` are dictionaries
(line 349 appends the whole dictionary), which cannot be compared. -/
noncomputable def argminMixed (l : List (Option ℝ)) : Except PyErr ℕ :=
  match l with
  | [] => .error .valueError
  | [_] => .ok 0
  | l => if l.any Option.isNone then .error .typeError else argmin (l.filterMap id)

/-- The candidates of `update_shortest_attractor_path` among the inner obstacles
(multi_hull_and_obstacle.py:341-350). -/
def innerCandidates (g : HullGraph d) : List ℕ → Except PyErr (List (Option ℝ × Node))
  | [] => .ok []
  | i :: rest =>
    match g.attr i with
    | none => .error .keyError
    | some a => do
      let l ← innerCandidates g rest
      if a.contains then pure ((none, .inl i) :: l) else pure l

/-- The candidates among the entrances (multi_hull_and_obstacle.py:352-360). -/
noncomputable def outerCandidate (S : Search d) (g : HullGraph d) (source : Node) (attractor : Option (Vec d))
    (k : ℕ) : Except PyErr (Option ℝ × Node) := do
  let x ← nodeIntersection g (.inr k)
  match attractor with
  | none => throw .typeError
  | some a =>
    match S.length g source (.inr k) with
    | none => throw .keyError
    | some l => pure (some (l + ‖x - a‖), .inr k)

/-- All candidates among the entrances (multi_hull_and_obstacle.py:352-360). -/
noncomputable def outerCandidates (S : Search d) (m : MultiHull d) (g : HullGraph d)
    (source : Node) : Except PyErr (List (Option ℝ × Node)) :=
  if m.isOutside then (List.range m.entrances).mapM (outerCandidate S g source m.outsideAttractor)
  else .ok []

/-- `update_shortest_attractor_path` (multi_hull_and_obstacle.py:333-373). -/
noncomputable def updatePath (S : Search d) (m : MultiHull d) (i : ℕ) : Except PyErr (MultiHull d) := do
  match m.graph with
  | none => throw .attributeError
  | some g =>
    let inner ← innerCandidates g (List.range m.inner.length)
    let outer ← outerCandidates S m g (.inl i)
    let candidates := inner ++ outer
    let ind ← argminMixed (candidates.map Prod.fst)
    match candidates[ind]? with
    | none => throw .indexError
    | some c =>
      match S.path g (.inl i) c.2 with
      | none => throw .exception
      | some p => m.assignAlongPath p

/-- The candidates of `update_shortest_attractor_path_starting_from_outside`
(multi_hull_and_obstacle.py:305-317): line 315 reads the distance of the entrance to itself. -/
noncomputable def entranceCandidates (S : Search d) (g : HullGraph d) (n : ℕ) (position : Vec d) (k : ℕ) :
    Except PyErr (List (ℝ × Node × Node)) := do
  let x ← nodeIntersection g (.inr k)
  match S.length g (.inr k) (.inr k) with
  | none => throw .keyError
  | some l => pure ((List.range n).map (fun i => (l + ‖position - x‖, .inr k, .inl i)))

/-- `update_shortest_attractor_path_starting_from_outside` (multi_hull_and_obstacle.py:301-331).
Without candidates `breakpoint()` is called (line 322). -/
noncomputable def updatePathFromOutside (S : Search d) (m : MultiHull d) (position : Vec d) :
    Except PyErr (MultiHull d) := do
  match m.graph with
  | none => if m.entrances = 0 then throw .breakpoint else throw .attributeError
  | some g =>
    let lists ← (List.range m.entrances).mapM (entranceCandidates S g m.inner.length position)
    let candidates := lists.flatten
    match argmin (candidates.map (fun c => c.1)) with
    | .error _ => throw .breakpoint
    | .ok ind =>
      match candidates[ind]? with
      | none => throw .indexError
      | some c =>
        match S.path g c.2.1 c.2.2 with
        | none => throw .exception
        | some p => m.assignAlongPath p

/-- The velocity without its part in reference direction (multi_hull_and_obstacle.py:277-283):
`basis` is invertible with first column `reference` and all others orthogonal to `normal`, so
`pinv` is the inverse and the result is the only vector orthogonal to `normal` that differs from
`velocity` by a multiple of `reference` (`⟪reference, normal⟫ ≠ 0`). -/
noncomputable def tangentVelocity (normal reference velocity : Vec d) : Vec d :=
  velocity - (⟪velocity, normal⟫ / ⟪reference, normal⟫) • reference

/-- `_get_local_dynamics` (multi_hull_and_obstacle.py:254-299): the scaled `linear_velocity` of
lines 294-297 is computed and dropped, line 299 returns `mean_direction`. -/
noncomputable def localDynamics (directionalSum : Vec d → List (Vec d) → List ℝ → Vec d)
    (o : Elem d) (attractor : Option (Vec d)) (position : Vec d) (gamma : ℝ) :
    Except PyErr (Vec d) :=
  match attractor with
  | none => .error .typeError
  | some a =>
    let linear := a - position
    let tangent := tangentVelocity (o.normal position) (o.reference position) linear
    let weight := 1 / gamma
    .ok (directionalSum (o.reference position) [linear, tangent] [1 - weight, weight])

/-- Lines 206-207 and 220-221 (multi_hull_and_obstacle.py): a missing local attractor is computed. -/
noncomputable def ensureLocal (S : Search d) (m : MultiHull d) (i : ℕ) (a : NodeAttr d) :
    Except PyErr (MultiHull d) :=
  if a.localAttractor.isNone then updatePath S m i else .ok m

@[inherit_doc ensureLocal]
noncomputable def ensureOutside (S : Search d) (m : MultiHull d) (position : Vec d) :
    Except PyErr (MultiHull d) :=
  if m.outsideAttractor.isNone then updatePathFromOutside S m position else .ok m

/-- `self._graph.nodes[obs]`: `None.nodes` raises `AttributeError`, a missing attribute `KeyError`. -/
def nodeAttr (m : MultiHull d) (i : ℕ) : Except PyErr (NodeAttr d) :=
  match m.graph with
  | none => .error .attributeError
  | some g =>
    match g.attr i with
    | none => .error .keyError
    | some a => .ok a

/-- One pass of the loop over the inner obstacles (multi_hull_and_obstacle.py:200-215): the state is
the object and the lists of weights and velocities.  (The weights are those at the beginning of the
call: the elements do not change.) -/
noncomputable def evaluateStep (directionalSum : Vec d → List (Vec d) → List ℝ → Vec d)
    (S : Search d) (position : Vec d) (s : MultiHull d × List (ℝ × Vec d))
    (e : Elem d × ℕ) : Except PyErr (MultiHull d × List (ℝ × Vec d)) :=
  open Classical in
  let w := (s.1.evaluateWeights position).getD e.2 0
  if w = 0 then .ok s
  else do
    let a ← s.1.nodeAttr e.2
    let m ← ensureLocal S s.1 e.2 a
    let a ← m.nodeAttr e.2
    let v ← localDynamics directionalSum e.1 a.localAttractor position (e.1.gamma position)
    .ok (m, s.2 ++ [(w, v)])

/-- The part of `evaluate` for the outer obstacle (multi_hull_and_obstacle.py:217-230). -/
noncomputable def evaluateOuter (directionalSum : Vec d → List (Vec d) → List ℝ → Vec d)
    (S : Search d) (position : Vec d) (s : MultiHull d × List (ℝ × Vec d)) :
    Except PyErr (MultiHull d × List (ℝ × Vec d)) :=
  open Classical in
  let w := (s.1.evaluateWeights position).getD s.1.inner.length 0
  if w = 0 then .ok s
  else do
    let m ← ensureOutside S s.1 position
    let v ← localDynamics directionalSum m.outer m.outsideAttractor position
      (m.outer.gamma position)
    .ok (m, s.2 ++ [(w, v)])

/-- The mean of direction and magnitude (multi_hull_and_obstacle.py:232-247): `breakpoint()` if the
directions cancel out, `0 / 0` if all of them are zero. -/
noncomputable def combine (l : List (ℝ × Vec d)) : Except PyErr (Vec d) :=
  open Classical in
  let meanDirection := (l.map (fun e => e.1 • e.2)).sum
  let meanMagnitude := (l.map (fun e => e.1 * ‖e.2‖)).sum
  if ‖meanDirection‖ = 0 then
    if meanMagnitude ≠ 0 then .error .breakpoint else .error .nan
  else .ok ((meanMagnitude / ‖meanDirection‖) • meanDirection)

/-- `evaluate` (multi_hull_and_obstacle.py:185-252) at a position in the frame of the obstacle. -/
noncomputable def evaluateLocal (directionalSum : Vec d → List (Vec d) → List ℝ → Vec d)
    (S : Search d) (m : MultiHull d) (position : Vec d) : Except PyErr (MultiHull d × Vec d) :=
  open Classical in
  if (m.evaluateWeights position).sum = 0 then .ok (m, 0)
  else do
    let s ← m.inner.zipIdx.foldlM (evaluateStep directionalSum S position) (m, [])
    let s ← evaluateOuter directionalSum S position s
    let v ← combine s.2
    .ok (s.1, v)

/-- `evaluate` (multi_hull_and_obstacle.py:185-252).  `transform_global2relative_dir` (line 250) is
the inverse of the orientation. -/
noncomputable def evaluate (directionalSum : Vec d → List (Vec d) → List ℝ → Vec d) (S : Search d)
    (m : MultiHull d) (position : Vec d) (inGlobalFrame : Bool := true) :
    Except PyErr (MultiHull d × Vec d) :=
  if inGlobalFrame then do
    let r ← m.evaluateLocal directionalSum S (m.pose.toRelative position)
    .ok (r.1, m.pose.orientation.symm r.2)
  else m.evaluateLocal directionalSum S position

end MultiHull

/-- `get_boundary_intersection_weight` (multi_hull_and_obstacle.py:609-637). -/
noncomputable def boundaryIntersectionWeight (position : Vec d) (inner outer : Elem d)
    (powerFactor : ℝ := 1.5) : ℝ :=
  open Classical in
  let gammaOuter := outer.gamma position
  let gammaInner := inner.gamma position
  if gammaInner ≤ 1 ∨ gammaOuter ≥ 1 then 0
  else
    let gammaProjected := inner.gamma (outer.surface position)
    if gammaProjected ≤ 1 then 1
    else (1 / gammaProjected) ^ (gammaOuter * powerFactor)

/-- `MultiRotationalContainer` (multi_hull_and_obstacle.py:640-680). -/
structure HullContainer (d : ℕ) where
  obstacles : List (MultiHull d)
  attractor : Option (Vec d) := none

namespace HullContainer

/-- `append` (multi_hull_and_obstacle.py:647-654): only warns. -/
def append (c : HullContainer d) (m : MultiHull d) : HullContainer d :=
  { c with obstacles := c.obstacles ++ [m] }

/-- `set_attractor` (multi_hull_and_obstacle.py:662-672).  `build` is the (external)
`evaluate_hirarchy_and_reference_points`, which makes the graph. -/
noncomputable def setAttractor (build : MultiHull d → MultiHull d) (c : HullContainer d)
    (attractor : Vec d) : Except PyErr (HullContainer d) :=
  open Classical in do
  if (∀ a, c.attractor = some a → ¬ allclose a attractor) then
    let obs ← c.obstacles.mapM (fun m => (build m).setAttractor attractor true)
    pure { obstacles := obs, attractor := some attractor }
  else pure c

/-- `evaluate` (multi_hull_and_obstacle.py:674-680): the mean over the obstacles (`NaN` without
obstacles). -/
noncomputable def evaluate (directionalSum : Vec d → List (Vec d) → List ℝ → Vec d) (S : MultiHull.Search d)
    (c : HullContainer d) (position : Vec d) : Except PyErr (HullContainer d × Vec d) :=
  open Classical in do
  let r ← c.obstacles.mapM (fun m => m.evaluate directionalSum S position)
  if r.length = 0 then throw .nan
  else
    pure ({ c with obstacles := r.map Prod.fst },
      (1 / (r.length : ℝ)) • (r.map Prod.snd).sum)

end HullContainer
end Hull
end Verif
