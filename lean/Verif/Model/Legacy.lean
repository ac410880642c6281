import Verif.Model.Avoider

/-!
# Model of the averaged normal and of the older evaluation of `MultiObstacleAvoider`

`compute_averaged_normal_and_gamma`, `evaluate_avoidance_direction` (also called `get_tangent_direction`),
`evaluate_avoidance_sequence` and `evaluate_old` (multi_obstacle_avoider.py).
-/

open scoped RealInnerProductSpace

namespace Verif

variable {d k : ℕ}

/-- The components of all obstacles, in the order of the two loops at
multi_obstacle_avoider.py:428-429. -/
def allComponents (trees : List (ObstacleTree d)) : List (Obstacle d) :=
  trees.flatMap (fun t => t.components)

/-- The weights of `compute_averaged_normal_and_gamma` (multi_obstacle_avoider.py:437-444); `m` is the smallest
gamma.  All gammas are above one at line 442. -/
noncomputable def averagedNormalWeights (gammas : List ℝ) (m weightPower : ℝ) : List ℝ :=
  open Classical in
  if m ≤ 1 then normalised (indicator (· ≤ 1) gammas)
  else
    let weights := gammas.map (fun g => 1 / g ^ weightPower)
    if weights.sum > 1 then normalised weights else weights

/-- `compute_averaged_normal_and_gamma` (multi_obstacle_avoider.py:422-451).  `min` of an empty list raises
`ValueError`. -/
noncomputable def computeAveragedNormalAndGamma (trees : List (ObstacleTree d)) (position : Vec d)
    (weightPower : ℝ := 2) : Except PyErr (Vec d × ℝ) :=
  let gammas := (allComponents trees).map (fun o => o.gamma position)
  let normals := (allComponents trees).map (fun o => o.normal position)
  match gammas.min? with
  | none => .error .valueError
  | some m =>
    .ok ((List.zipWith (fun (n : Vec d) w => w • n) normals (averagedNormalWeights gammas m weightPower)).sum, m)

section Legacy
variable [Fact (2 ≤ d)]

/-- `compute_gamma_and_weights` (multi_obstacle_avoider.py:916-965) together with the two attributes
`_rotation_weights` and `_convergence_reference_proximity`, which `__init__` only annotates (lines 216-219):
`none` while they have not been assigned, so that `append` at line 954 raises `AttributeError`. -/
noncomputable def legacyGammaAndWeights (ext : Ext d k) (power : ℝ) (position : Vec d)
    (ot : ObstacleTree d) (v : Vec d) (stored : Option (List (ℝ × ℝ))) :
    Except PyErr (List ℝ × List ℝ × List (ℝ × ℝ)) :=
  match stored with
  | none => do
    let root ← ot.getComponent ot.rootIdx
    let gamma ← ot.gamma position
    let _ ← getRotationWeight ext.angleOf (root.normal position) (root.reference position) v gamma
      (power := power)
    .error .attributeError
  | some l => do
    let (gammas, gw, slow) ← computeGammaAndWeights ext power position ot v
    .ok (gammas, gw, l ++ [slow])

/-- One pass of the loop of `_update_tangent_branch` (multi_obstacle_avoider.py:1442-1458); `e.1` is the entry `ii`,
`e.2` the entry `ii + 1`. -/
noncomputable def legacyBranchStep (ext : Ext d k) (iTree comp : ℕ) (radius : ℝ) (st : Tree NodeId d × Vec d)
    (e : BranchEntry d × BranchEntry d) : Except PyErr (Tree NodeId d × Vec d) := do
  let tangent ← projectedTangent ext st.2 e.1.normal e.1.reference radius
  let t ← orRaise (st.1.addNode (.key iTree comp e.1.idx) tangent (some (.key iTree comp e.2.idx)))
  .ok (t, tangent)

/-- `_update_tangent_branch` (multi_obstacle_avoider.py:1393-1463). -/
noncomputable def legacyBranch (ext : Ext d k) (position : Vec d) (comp : ℕ) (v : Vec d) (ot : ObstacleTree d)
    (iTree : ℕ) (radius : ℝ) (t : Tree NodeId d) : Except PyErr (Tree NodeId d) := do
  let entries ← computeBranch position comp ot
  match entries.getLast? with
  | none => .error .indexError
  | some e => do
    let tangent ← projectedTangent ext v e.normal e.reference (Real.pi * 0.5)
    let t ← orRaise (t.addNode (.key iTree comp e.idx) tangent (some (.key iTree (-1) (-1))))
    let (t, _) ← ((entries.zip entries.tail).reverse).foldlM (legacyBranchStep ext iTree comp radius) (t, tangent)
    .ok t

/-- One pass of the loop of `populate_tangent_tree` (multi_obstacle_avoider.py:1080-1087). -/
noncomputable def legacyPopulateStep (ext : Ext d k) (position v : Vec d) (ot : ObstacleTree d) (iTree : ℕ)
    (radius : ℝ) (st : Tree NodeId d × List NodeId) (c : ℕ × ℝ) : Except PyErr (Tree NodeId d × List NodeId) :=
  open Classical in
  if c.2 ≤ 0 then .ok st
  else do
    let t ← legacyBranch ext position c.1 v ot iTree radius st.1
    .ok (t, st.2 ++ [.key iTree c.1 c.1])

/-- `populate_tangent_tree` (multi_obstacle_avoider.py:1059-1088) with the default `start_id`. -/
noncomputable def legacyPopulate (ext : Ext d k) (radius : ℝ) (position v : Vec d) (ot : ObstacleTree d) (iTree : ℕ)
    (weights : List ℝ) (st : Tree NodeId d × List NodeId) : Except PyErr (Tree NodeId d × List NodeId) := do
  let t ← orRaise (st.1.addNode (.key iTree (-1) (-1)) v (some (.key (-1) (-1) (-1))))
  ((List.range ot.components.length).zip weights).foldlM (legacyPopulateStep ext position v ot iTree radius)
    (t, st.2)

/-- The loop variables of `evaluate_avoidance_sequence`. -/
structure LegacyState (d : ℕ) where
  tree : Tree NodeId d
  nodes : List NodeId
  componentWeights : List (List ℝ)
  gammas : List ℝ
  stored : Option (List (ℝ × ℝ))

/-- `local_velocity` (multi_obstacle_avoider.py:854-862).  `around p o` is the method
`evaluate_convergence_around_obstacle` of the convergence dynamics. -/
noncomputable def legacyVelocity (around : Vec d → Obstacle d → Except PyErr (Vec d)) (position : Vec d)
    (linearized : Option (Vec d)) (ot : ObstacleTree d) : Except PyErr (Vec d) :=
  match linearized with
  | some v => .ok v
  | none => do
    let root ← ot.getComponent ot.rootIdx
    around position root

/-- One pass of the loop over the obstacles in `evaluate_avoidance_sequence`
(multi_obstacle_avoider.py:853-895). -/
noncomputable def legacyStep (ext : Ext d k) (a : Avoider d)
    (around : Vec d → Obstacle d → Except PyErr (Vec d)) (position : Vec d) (linearized : Option (Vec d))
    (st : LegacyState d) (p : ObstacleTree d × ℕ) : Except PyErr (LegacyState d) :=
  open Classical in do
  let v ← legacyVelocity around position linearized p.1
  let (gammas, weights, stored) ← legacyGammaAndWeights ext a.power position p.1 v st.stored
  let (t, nodes) ← legacyPopulate ext a.convergenceRadius position v p.1 p.2 weights (st.tree, st.nodes)
  let positive := weights.filter (fun w => w > 0)
  let component := if positive = [] then [0] else positive
  if component.sum > 1 + 1e-6 then .error .breakpoint
  else
    match gammas.min? with
    | none => .error .valueError
    | some g => .ok ⟨t, nodes, st.componentWeights ++ [component], st.gammas ++ [g], some stored⟩

/-- `evaluate_avoidance_sequence` (multi_obstacle_avoider.py:832-914).  `weightsOf` is the external
`compute_weights`.  `np.concatenate` of an empty list raises `ValueError`. -/
noncomputable def evaluateAvoidanceSequence (ext : Ext d k) (weightsOf : List ℝ → List ℝ) (a : Avoider d)
    (around : Vec d → Obstacle d → Except PyErr (Vec d)) (stored : Option (List (ℝ × ℝ))) (position v : Vec d)
    (linearized : Option (Vec d)) : Except PyErr (RotSeq (Vec d)) := do
  let t ← (Tree.empty : Tree NodeId d).setRoot (.key (-1) (-1) (-1)) v
  let st ← a.trees.zipIdx.foldlM (legacyStep ext a around position linearized) ⟨t, [], [], [], stored⟩
  let parts := List.zipWith (fun ww (cc : List ℝ) => cc.map (fun c => ww * c)) (weightsOf st.gammas)
    st.componentWeights
  if parts = [] then .error .valueError
  else
    st.tree.reduceWeightedToSequence ext.argsort NodeState.init (st.nodes ++ [.key (-1) (-1) (-1)])
      (avoidanceWeights parts.flatten)

/-- `evaluate_avoidance_direction` (multi_obstacle_avoider.py:456-471), also available as
`get_tangent_direction` (453-454). -/
noncomputable def evaluateAvoidanceDirection (ext : Ext d k) (weightsOf : List ℝ → List ℝ) (a : Avoider d)
    (around : Vec d → Obstacle d → Except PyErr (Vec d)) (stored : Option (List (ℝ × ℝ))) (position v : Vec d)
    (linearized : Option (Vec d)) : Except PyErr (Vec d) :=
  open Classical in
  if ‖v‖ = 0 then .ok v
  else do
    let s ← evaluateAvoidanceSequence ext weightsOf a around stored position v linearized
    s.getEndVector

/-- The direction in `evaluate_old` (multi_obstacle_avoider.py:392-404).  `around = none` stands for an avoider without
convergence dynamics. -/
noncomputable def oldDirection (ext : Ext d k) (weightsOf : List ℝ → List ℝ) (a : Avoider d)
    (around : Option (Vec d → Obstacle d → Except PyErr (Vec d))) (stored : Option (List (ℝ × ℝ)))
    (position : Vec d) : Except PyErr (Vec d) :=
  let v := a.initial.evaluate position
  match around with
  | none => evaluateAvoidanceDirection ext weightsOf a (fun _ _ => .error .attributeError) stored position v (some v)
  | some f => evaluateAvoidanceDirection ext weightsOf a f stored position v none

/-- `evaluate_old` (multi_obstacle_avoider.py:379-420). -/
noncomputable def evaluateOld (ext : Ext d k) (weightsOf : List ℝ → List ℝ) (a : Avoider d)
    (around : Option (Vec d → Obstacle d → Except PyErr (Vec d))) (stored : Option (List (ℝ × ℝ)))
    (position : Vec d) : Except PyErr (Vec d) := do
  let relative ← relativeVelocity position a.trees
  let final ← oldDirection ext weightsOf a around stored position
  let final := final + relative
  let (normal, gamma) ← computeAveragedNormalAndGamma a.trees position
  computeSafeMagnitude final ‖a.initial.evaluate position‖ normal gamma

end Legacy
end Verif
