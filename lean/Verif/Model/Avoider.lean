import Verif.Model.Tree
import Verif.Model.Weights

/-!
# Model of `MultiObstacleAvoider` (multi_obstacle_avoider.py)

The evaluation pipeline of `MultiObstacleAvoider.evaluate` / `evaluate_sequence` with the
functions it calls.  An exception (or `breakpoint()`) anywhere ends the evaluation, so that the
intermediate states of the two direction trees need not be kept; both trees and all lists are
created anew in every call.
-/

open scoped RealInnerProductSpace

namespace Verif

/-- Identifiers of tree nodes used by the avoider: integers, pairs `(a, i)` (also the
intermediate nodes of `add_sequence`), and triples of integers.  The named tuple `NodeKey`
(multi_obstacle_avoider.py:45) is equal to the plain triple. -/
inductive NodeId where
  | num (z : ℤ)
  | pair (a : NodeId) (i : ℕ)
  | key (obstacle component level : ℤ)
  deriving DecidableEq

/-- The external functions used by the avoider.

* `angleOf n v`: `get_angle_from_vector(v, base=get_orthogonal_basis(n))`
* `vectorOf n a`: `get_vector_from_angle(a, base=get_orthogonal_basis(n))`
* `circleFar s v r`: `get_intersection_with_circle(s, v, r, intersection_type=FAR)`
* `argsort`: `np.argsort` -/
structure Ext (d k : ℕ) where
  angleOf : Vec d → Vec d → Vec k
  vectorOf : Vec d → Vec k → Vec d
  circleFar : Vec k → Vec k → ℝ → Option (Vec k)
  argsort : List ℤ → List ℕ

/-- What the avoider uses of a `HierarchyObstacle` (`MultiObstacle` and others): the components,
`root_idx`, `get_parent_idx`, the position of the pose, the optional attributes `twist` (linear
part and angular part, `none` for a missing or zero angular velocity) and
`deformation_rate`. -/
structure ObstacleTree (d : ℕ) where
  components : List (Obstacle d)
  rootIdx : ℕ
  parentIdx : ℕ → Option ℕ
  position : Vec d
  twist : Option (Vec d × Option ℝ) := none
  deformationRate : Option ℝ := none

namespace ObstacleTree
variable {d : ℕ}

/-- `get_component` (multi_obstacle.py:127-128): list indexing. -/
def getComponent (t : ObstacleTree d) (i : ℕ) : Except PyErr (Obstacle d) :=
  match t.components[i]? with
  | none => .error .indexError
  | some o => .ok o

/-- `get_gamma` (multi_obstacle.py:91-98): the minimum over the components, `ValueError` for an
obstacle without components. -/
def gamma (t : ObstacleTree d) (p : Vec d) : Except PyErr ℝ :=
  match (t.components.map (fun o => o.gamma p)).min? with
  | none => .error .valueError
  | some g => .ok g

end ObstacleTree

/-- The methods of a convergence-dynamics object called by `MultiObstacleAvoider`
(`evaluate_projected_weight`, `evaluate_rotation_position_to_transform`,
`evaluate_rotation_start_to_end`; the third argument of the last is the singularity). -/
structure Convergence (d : ℕ) where
  projectedWeight : Vec d → Obstacle d → Except PyErr ℝ
  positionToTransform : Vec d → Obstacle d → Except PyErr (Option (Rot (Vec d)))
  startToEnd : Vec d → Vec d → Option (Vec d) → Except PyErr (Option (Rot (Vec d)))

/-- The attributes of a `MultiObstacleAvoider` (multi_obstacle_avoider.py:166-221).
`evaluateMagnitude` is the optional method of the initial dynamics. -/
structure Avoider (d : ℕ) where
  initial : Dynamics d
  evaluateMagnitude : Option (Vec d → ℝ) := none
  default : Option (Dynamics d) := none
  convergence : Convergence d
  convergenceRadius : ℝ := Real.pi * 0.5
  gammaMaximumRepulsion : Option ℝ := some 0.8
  power : ℝ := 0.3
  trees : List (ObstacleTree d)

/-! ## Moving obstacles -/

section Relative
variable {d : ℕ}

/-- `np.cross([0, 0, w], [x, y, 0])[:2]` (multi_obstacle_avoider.py:133-136, 146). -/
noncomputable def crossZ (w : ℝ) (x : Vec d) (h : d = 2) : Vec d :=
  WithLp.toLp 2 (fun i => if i.val = 0 then -w * x ⟨1, by omega⟩ else w * x ⟨0, by omega⟩)

/-- The angular contribution (multi_obstacle_avoider.py:131-147).  In three dimensions the result
is cut to two coordinates (`angular_velocity[:2]`) and cannot be added to a vector of length three:
`ValueError`; in higher dimensions `angular_velocity` is unbound. -/
noncomputable def angularVelocity (w : ℝ) (x : Vec d) : Except PyErr (Vec d) :=
  if h : d = 2 then .ok (crossZ w x h)
  else if d = 3 then .error .valueError
  else .error .unboundLocal

/-- The contribution of one obstacle to the relative velocity
(multi_obstacle_avoider.py:124-153). -/
noncomputable def relativeStep (position : Vec d) (acc : Vec d)
    (p : ObstacleTree d × ℝ × ℝ) : Except PyErr (Vec d) :=
  open Classical in
  let t := p.1
  let gamma := p.2.1
  let weight := p.2.2
  if weight ≤ 0 then .ok acc
  else
    let influence := Real.exp (-1 * (max gamma 1 - 1))
    let linear : Except PyErr (Vec d) :=
      match t.twist with
      | none => .ok acc
      | some (lin, none) => .ok (acc + weight • lin)
      | some (lin, some w) =>
        match angularVelocity w (position - t.position) with
        | .error e => .error e
        | .ok a => .ok (acc + weight • lin + (weight * influence) • a)
    match linear with
    | .error e => .error e
    | .ok acc =>
      match t.deformationRate with
      | none => .ok acc
      | some r => .ok (acc + (weight * r) • (position - t.position))

/-- `compute_multiobstacle_relative_velocity` (multi_obstacle_avoider.py:105-154). -/
noncomputable def relativeVelocity (position : Vec d) (trees : List (ObstacleTree d)) :
    Except PyErr (Vec d) := do
  let gammas ← trees.mapM (fun t => t.gamma position)
  (trees.zip (gammas.zip (computeGammaWeights gammas 1))).foldlM (relativeStep position) 0

end Relative

/-! ## The convergence sequence -/

section Conv
variable {d k : ℕ} [Fact (2 ≤ d)]

/-- Node attributes of a new tree. -/
def NodeState.init {I : Type} {d : ℕ} : NodeState I d :=
  ⟨fun _ => 0, fun _ => none, fun _ => none, fun _ => none⟩

/-- An update of a tree that may raise. -/
def orRaise {α : Type} : α × Except PyErr Unit → Except PyErr α
  | (_, .error e) => .error e
  | (a, .ok ()) => .ok a

/-- `(node_id, ii)` as a node identifier. -/
def interId (n : NodeId) (i : ℕ) : NodeId := .pair n i

/-- `vector_rotation_reduction` (multi_obstacle_avoider.py:659-685).  `sequence2 = none` is
Python's `None`, whose attribute access raises `AttributeError`. -/
noncomputable def vectorRotationReduction (argsort : List ℤ → List ℕ) (s1 : RotSeq (Vec d))
    (trafo : Option (Rot (Vec d))) (s2 : Option (RotSeq (Vec d))) (weight2 : ℝ) :
    Except PyErr (RotSeq (Vec d)) :=
  open Classical in
  if weight2 ≤ 0 then .ok s1
  else
    match trafo with
    | none => .ok s1
    | some o => do
      let t ← Tree.fromSequence interId (.num 0) (.num 1) s1
      let t ← orRaise (t.addNodeOrientation (.num (-1)) o (.num 0))
      match s2 with
      | none => .error .attributeError
      | some s2 => do
        let t ← orRaise (t.addSequence interId (.num 2) s2 (.num (-1)))
        t.reduceWeightedToSequence argsort NodeState.init [.num 1, .num 2] [1 - weight2, weight2]

/-- The loop over the parents at multi_obstacle_avoider.py:586-616: the tree and the last node.
The first argument is the number of remaining passes of
`range(self.conv_tree.maximum_level)`. -/
noncomputable def parentChain (a : Avoider d) (ot : ObstacleTree d) (iTree iCom : ℕ) :
    ℕ → ℕ → ℕ → NodeId → Vec d → Tree NodeId d → Except PyErr (Tree NodeId d × NodeId)
  | 0, _, _, pred, _, t => .ok (t, pred)
  | fuel + 1, pp, iObs, pred, point, t => do
    let o ← ot.getComponent iObs
    match ← a.convergence.startToEnd point o.referencePoint a.initial.attractorPosition with
    | none => .error .breakpoint
    | some trafo => do
      let n := NodeId.key iTree iCom pp
      let t ← orRaise (t.addNodeOrientation n trafo pred)
      match ot.parentIdx iObs with
      | none => .ok (t, n)
      | some parent => parentChain a ot iTree iCom fuel (pp + 1) parent n o.referencePoint t

/-- The loop variables of `compute_convergence_sequence`. -/
structure ConvState (d : ℕ) where
  tree : Tree NodeId d
  nodes : List NodeId
  weights : List ℝ

/-- One pass of the loop over the components (multi_obstacle_avoider.py:569-630).  Every
exception of `add_sequence` leads to `breakpoint()` (lines 620-627). -/
noncomputable def convComponent (a : Avoider d) (position : Vec d) (iTree : ℕ)
    (ot : ObstacleTree d) (treeWeight : ℝ) (conv : Option (RotSeq (Vec d))) (st : ConvState d)
    (c : Obstacle d × ℕ) : Except PyErr (ConvState d) :=
  open Classical in
  if c.2 = ot.rootIdx then .ok st
  else do
    let weight ← a.convergence.projectedWeight position c.1
    if weight ≤ 1e-2 then .ok st
    else do
      let (t, pred) ← parentChain a ot iTree c.2 100 0 c.2 (.num (-10)) position st.tree
      match conv with
      | none => .error .breakpoint
      | some s =>
        match t.addSequence interId (.pair (.num iTree) c.2) s pred with
        | (_, .error _) => .error .breakpoint
        | (t, .ok ()) =>
          .ok ⟨t, st.nodes ++ [.pair (.num iTree) c.2], st.weights ++ [weight * treeWeight]⟩

/-- `compute_tree_weight` of the avoider: the attractor of the initial dynamics is the
singularity (multi_obstacle_avoider.py:223-228, 478-500). -/
noncomputable def treeWeight (a : Avoider d) (ot : ObstacleTree d) : Except PyErr ℝ :=
  match a.initial.attractorPosition with
  | none => .ok (computeTreeWeight none)
  | some c => do
    let g ← ot.gamma c
    .ok (computeTreeWeight (some g))

/-- One pass of the loop over the obstacle trees (multi_obstacle_avoider.py:520-630).  Every
exception of `vector_rotation_reduction` leads to `breakpoint()` (lines 548-553). -/
noncomputable def convTree (ext : Ext d k) (a : Avoider d) (position : Vec d)
    (initialSeq : RotSeq (Vec d)) (st : ConvState d) (p : ObstacleTree d × ℕ) :
    Except PyErr (ConvState d) :=
  open Classical in do
  let ot := p.1
  let tw ← treeWeight a ot
  if tw ≤ 1e-6 then .ok st
  else do
    let root ← ot.getComponent ot.rootIdx
    let weight ← a.convergence.projectedWeight position root
    let trafo ← a.convergence.positionToTransform position root
    let conv ← evaluateDynamicsSequence root.referencePoint (a.default.getD a.initial)
    match vectorRotationReduction ext.argsort initialSeq trafo conv weight with
    | .error _ => .error .breakpoint
    | .ok continuous => do
      let n := NodeId.pair (.num p.2) ot.rootIdx
      let t ← orRaise (st.tree.addSequence interId n continuous (.num (-10)))
      let st : ConvState d :=
        if weight > 1e-6 then ⟨t, st.nodes ++ [n], st.weights ++ [weight * tw]⟩
        else ⟨t, st.nodes, st.weights⟩
      ot.components.zipIdx.foldlM (convComponent a position p.2 ot tw conv) st

/-- `weight_list[-1] = weight_list[-1] + x`. -/
noncomputable def addToLast (x : ℝ) : List ℝ → List ℝ
  | [] => []
  | [w] => [w + x]
  | w :: w' :: rest => w :: addToLast x (w' :: rest)

/-- The final weights of `compute_convergence_sequence` (multi_obstacle_avoider.py:640-648) for
the weights of the obstacles; the last entry belongs to the initial dynamics. -/
noncomputable def convergenceWeights (weights : List ℝ) : List ℝ :=
  let l := getLimitedWeightsToMaxSum (weights ++ [0])
  addToLast (1 - l.2) l.1

/-- `compute_convergence_sequence` (multi_obstacle_avoider.py:502-657). -/
noncomputable def computeConvergenceSequence (ext : Ext d k) (a : Avoider d) (position : Vec d)
    (initialSeq : RotSeq (Vec d)) : Except PyErr (RotSeq (Vec d)) := do
  let t ← Tree.fromSequence interId (.num (-10)) (.num (-1)) initialSeq
  let st ← a.trees.zipIdx.foldlM (convTree ext a position initialSeq) ⟨t, [], []⟩
  st.tree.reduceWeightedToSequence ext.argsort NodeState.init (st.nodes ++ [.num (-1)])
    (convergenceWeights st.weights)

end Conv

/-! ## The avoidance directions -/

section Avoid
variable {d k : ℕ} [Fact (2 ≤ d)]

/-- `RotationalAvoider.get_projected_tangent_from_vectors` (rotational_avoider.py:778-818). -/
noncomputable def projectedTangent (ext : Ext d k) (v normal reference : Vec d) (radius : ℝ) :
    Except PyErr (Vec d) :=
  open Classical in
  let find (n ref : Vec d) (r : ℝ) : Except PyErr (Vec d) :=
    let angleRef := ext.angleOf n ref
    let angleInit := ext.angleOf n v
    if ‖angleInit - angleRef‖ = 0 then .ok v
    else
      match ext.circleFar angleRef (angleInit - angleRef) r with
      | none => .error .valueError
      | some s => .ok (ext.vectorOf n s)
  if ⟪v, (-1 : ℝ) • normal⟫ > Real.cos radius then find ((-1 : ℝ) • normal) reference radius
  else find normal ((-1 : ℝ) • reference) (Real.pi - radius)

/-- `compute_gamma_and_weights` (multi_obstacle_avoider.py:916-965): gammas, weights, and the
entries appended to `_rotation_weights` and `_convergence_reference_proximity`. -/
noncomputable def computeGammaAndWeights (ext : Ext d k) (power : ℝ) (position : Vec d)
    (ot : ObstacleTree d) (v : Vec d) : Except PyErr (List ℝ × List ℝ × ℝ × ℝ) :=
  open Classical in do
  let gammas := ot.components.map (fun o => o.gamma position)
  let gw := computeWeightsFromDistances gammas 1 false
  let root ← ot.getComponent ot.rootIdx
  let gamma ← ot.gamma position
  let rw ← getRotationWeight ext.angleOf (root.normal position) (root.reference position) v gamma
    (power := power)
  if ‖v‖ = 0 then .error .nan
  else
    let proximity := ⟪(1 / ‖v‖) • v, root.reference position⟫
    if gw.sum = 0 ∨ rw = 0 then
      .ok (gw.map (fun _ => 1), gw.map (fun _ => 0), rw, proximity)
    else .ok (gammas, gw.map (fun w => w / gw.sum * rw), rw, proximity)

/-- `compute_parent_occlusion_weight` (multi_obstacle_avoider.py:1090-1130).  `get_component(None)`
raises `TypeError`. -/
noncomputable def computeParentOcclusionWeight (position : Vec d) (ot : ObstacleTree d) :
    Except PyErr (List ℝ) :=
  ot.components.zipIdx.mapM (fun c =>
    if c.2 = ot.rootIdx then .ok 1
    else
      match ot.parentIdx c.2 with
      | none => .error .typeError
      | some p => do
        let parent ← ot.getComponent p
        parentOcclusionWeight position c.1 (some parent))

/-- `get_normal_at_distance` (multi_obstacle_avoider.py:1465-1478). -/
noncomputable def getNormalAtDistance (o : Obstacle d) (surface : Vec d) (distance : ℝ) :
    Except PyErr (Vec d) :=
  open Classical in
  if o.isCuboid then
    let direction := surface - o.center
    if ‖direction‖ = 0 then .error .valueError
    else .ok (o.normal (surface + (distance / ‖direction‖) • direction))
  else .ok (o.normal surface)

/-- One entry of the three parallel lists `parents_tree`, `normal_directions`,
`reference_directions`. -/
structure BranchEntry (d : ℕ) where
  idx : ℕ
  normal : Vec d
  reference : Vec d

/-- The loop of `_compute_normal_and_reference_of_branch` (multi_obstacle_avoider.py:1251-1292);
`count` is the length of `parents_tree`.  `get_component(None)` (line 1257) raises `TypeError`; a
missing intersection leads to `breakpoint()`. -/
noncomputable def branchLoop (ot : ObstacleTree d) (distance : ℝ) :
    ℕ → ℕ → ℕ → Vec d → Except PyErr (List (BranchEntry d))
  | 0, _, _, _ => .ok []
  | fuel + 1, count, idx, surface =>
    if idx = ot.rootIdx then .ok []
    else do
      let o ← ot.getComponent idx
      match ot.parentIdx idx with
      | none => .error .typeError
      | some p => do
        let parent ← ot.getComponent p
        if count + 1 > 10 then .error .exception
        else
          match parent.intersection o.referencePoint (surface - o.referencePoint) with
          | none => .error .breakpoint
          | some s => do
            let n ← getNormalAtDistance parent s distance
            let rest ← branchLoop ot distance fuel (count + 1) p s
            .ok (⟨p, n, parent.reference s⟩ :: rest)

/-- `_compute_normal_and_reference_of_branch` (multi_obstacle_avoider.py:1216-1298).  A missing
surface point (`None`) raises `TypeError` in the following computation. -/
noncomputable def computeBranch (position : Vec d) (comp : ℕ) (ot : ObstacleTree d) :
    Except PyErr (List (BranchEntry d)) :=
  open Classical in do
  let o ← ot.getComponent comp
  let reference := o.reference position
  let start := if o.gamma position > 1 then o.referencePoint else position
  match o.intersection start ((-1 : ℝ) • reference) with
  | none => .error .typeError
  | some s => do
    let distance := if o.gamma position > 1 then ‖position - s‖ else 0
    let n ← getNormalAtDistance o s distance
    let rest ← branchLoop ot distance 100 1 comp s
    .ok (⟨comp, n, reference⟩ :: rest)

/-- One pass of the loop of `_simple_tangent_branch_update`
(multi_obstacle_avoider.py:1319-1332); `e.1` is the entry `ii - 1`, `e.2` the entry `ii`. -/
noncomputable def branchStep (iTree comp : ℕ) (st : Tree NodeId d × Vec d × NodeId)
    (e : BranchEntry d × BranchEntry d) : Except PyErr (Tree NodeId d × Vec d × NodeId) :=
  match fromDirections e.2.reference e.1.reference with
  | none => .error .nan
  | some rotation => do
    let velocity := rotation.rotate st.2.1
    let n := NodeId.key iTree comp e.2.idx
    let t ← orRaise (st.1.addNode n velocity (some st.2.2))
    .ok (t, velocity, n)

/-- The intermediate node for a convergence radius above `pi / 2`
(multi_obstacle_avoider.py:1338-1352): the tree and the parent of the next node. -/
noncomputable def intermediateNode (ext : Ext d k) (velocity : Vec d) (e0 : BranchEntry d)
    (iTree comp : ℕ) (radius : ℝ) (t : Tree NodeId d) (parent : NodeId) :
    Except PyErr (Tree NodeId d × NodeId) :=
  open Classical in
  if radius > Real.pi * 0.5 then do
    let tangent ← projectedTangent ext velocity e0.normal e0.reference (Real.pi * 0.5)
    let t ← orRaise (t.addNode (.key iTree comp (-1)) tangent (some parent))
    .ok (t, .key iTree comp (-1))
  else .ok (t, parent)

/-- `_simple_tangent_branch_update` (multi_obstacle_avoider.py:1300-1391): the tree and the normal
appended to `_normal_vectors`. -/
noncomputable def tangentBranch (ext : Ext d k) (position : Vec d) (comp : ℕ) (v : Vec d)
    (ot : ObstacleTree d) (iTree : ℕ) (radius : ℝ) (t : Tree NodeId d) :
    Except PyErr (Tree NodeId d × Vec d) :=
  open Classical in do
  let entries ← computeBranch position comp ot
  match entries with
  | [] => .error .indexError
  | e0 :: rest => do
    let (t, velocity, parent) ← ((entries.zip rest).reverse).foldlM (branchStep iTree comp)
      (t, v, NodeId.key iTree (-1) (-1))
    let o ← ot.getComponent comp
    if o.tailEffect = true ∨ ⟪e0.normal, velocity⟫ < 0 then do
      let (t, parent) ← intermediateNode ext velocity e0 iTree comp radius t parent
      let avoidance ← projectedTangent ext velocity e0.normal e0.reference radius
      let t ← orRaise (t.addNode (.key iTree comp e0.idx) avoidance (some parent))
      .ok (t, e0.normal)
    else do
      let t ← orRaise (t.addNode (.key iTree comp e0.idx) velocity (some parent))
      .ok (t, e0.normal)

/-- The loop variables of `evaluate_avoidance_from_sequence` and the lists it fills. -/
structure TangentState (d : ℕ) where
  tree : Tree NodeId d
  nodes : List NodeId
  normals : List (Vec d)
  slow : List (ℝ × ℝ)
  influence : List ℝ
  componentWeights : List (List ℝ)

/-- One pass of the loop of `simple_population_tangent_tree`
(multi_obstacle_avoider.py:993-1005) for the component with index, weight and radius. -/
noncomputable def populateStep (ext : Ext d k) (position v : Vec d) (ot : ObstacleTree d)
    (iTree : ℕ) (st : Tree NodeId d × List NodeId × List (Vec d)) (c : ℕ × ℝ × ℝ) :
    Except PyErr (Tree NodeId d × List NodeId × List (Vec d)) :=
  open Classical in
  if c.2.1 ≤ 0 then .ok st
  else do
    let (t, n) ← tangentBranch ext position c.1 v ot iTree c.2.2 st.1
    .ok (t, st.2.1 ++ [.key iTree c.1 c.1], st.2.2 ++ [n])

/-- `simple_population_tangent_tree` (multi_obstacle_avoider.py:967-1006). -/
noncomputable def populateTangentTree (ext : Ext d k) (a : Avoider d) (position v : Vec d)
    (ot : ObstacleTree d) (iTree : ℕ) (weights gammas : List ℝ)
    (st : Tree NodeId d × List NodeId × List (Vec d)) :
    Except PyErr (Tree NodeId d × List NodeId × List (Vec d)) := do
  let t ← orRaise (st.1.addNode (.key iTree (-1) (-1)) v (some (.key (-1) (-1) (-1))))
  let radii ← computeConvergenceRadiuses a.convergenceRadius a.gammaMaximumRepulsion position
    (ot.components.zip gammas)
  ((List.range ot.components.length).zip (weights.zip radii)).foldlM
    (populateStep ext position v ot iTree) (t, st.2.1, st.2.2)

/-- One pass of the loop over the obstacle trees in `evaluate_avoidance_from_sequence`
(multi_obstacle_avoider.py:749-786). -/
noncomputable def tangentStep (ext : Ext d k) (a : Avoider d) (position v : Vec d)
    (st : TangentState d) (p : ObstacleTree d × ℕ) : Except PyErr (TangentState d) :=
  open Classical in do
  let ot := p.1
  let (gammas, gw, slow) ← computeGammaAndWeights ext a.power position ot v
  let occlusion ← computeParentOcclusionWeight position ot
  let weights := List.zipWith (· * ·) gw occlusion
  let (t, nodes, normals) ← populateTangentTree ext a position v ot p.2 weights gammas
    (st.tree, st.nodes, st.normals)
  .ok { tree := t
        nodes := nodes
        normals := normals
        slow := st.slow ++ [slow]
        influence := st.influence ++ [weights.sum]
        componentWeights := st.componentWeights ++ [normalised (weights.filter (fun w => w > 0))] }

/-- What `evaluate_avoidance_from_sequence` prepares for the final averaging: the tangent tree,
the nodes, and the attributes `_normal_vectors`, `_cluster_weights`, `_rotation_weights` and
`_convergence_reference_proximity`. -/
structure Prepared (d : ℕ) where
  tree : Tree NodeId d
  nodes : List NodeId
  normals : List (Vec d)
  slow : List (ℝ × ℝ)
  cluster : List ℝ

/-- `np.concatenate([wo * wc for wo, wc in zip(..)])` (multi_obstacle_avoider.py:796-798). -/
noncomputable def clusterWeights (influence : List ℝ) (componentWeights : List (List ℝ)) :
    List ℝ :=
  (List.zipWith (fun wo wc => wc.map (fun w => wo * w))
    (getLimitedWeightsToMaxSum influence).1 componentWeights).flatten

/-- `evaluate_avoidance_from_sequence` (multi_obstacle_avoider.py:727-804), up to the final
averaging.  The argument `v` is the end vector of the convergence sequence. -/
noncomputable def prepareAvoidance (ext : Ext d k) (a : Avoider d) (position v : Vec d) :
    Except PyErr (Prepared d) := do
  let t ← (Tree.empty : Tree NodeId d).setRoot (.key (-1) (-1) (-1)) v
  let st ← a.trees.zipIdx.foldlM (tangentStep ext a position v) ⟨t, [], [], [], [], []⟩
  .ok { tree := st.tree
        nodes := st.nodes ++ [.key (-1) (-1) (-1)]
        normals := st.normals
        slow := st.slow
        cluster := clusterWeights st.influence st.componentWeights }

/-- The weights handed to the averaging: the cluster weights and the rest for the initial
velocity (multi_obstacle_avoider.py:802-804). -/
noncomputable def avoidanceWeights (cluster : List ℝ) : List ℝ := cluster ++ [1 - cluster.sum]

/-- The end vector of the sequence returned by `evaluate_avoidance_from_sequence`
(multi_obstacle_avoider.py:805-813, 329). -/
noncomputable def avoidanceDirection (ext : Ext d k) (pr : Prepared d) : Except PyErr (Vec d) :=
  pr.tree.getWeightedMean ext.argsort NodeState.init pr.nodes (avoidanceWeights pr.cluster)

/-- `initial_magnitude` (multi_obstacle_avoider.py:294-299). -/
noncomputable def Avoider.magnitude (a : Avoider d) (position : Vec d) : ℝ :=
  match a.evaluateMagnitude with
  | some f => f position
  | none => ‖a.initial.evaluate position‖

/-- Lines 331-364 of `evaluate_sequence`: slowing down. -/
noncomputable def slowDown (magnitude : ℝ) (relative final : Vec d) (pr : Prepared d) :
    Except PyErr (Vec d) :=
  open Classical in
  match pr.cluster.max? with
  | none => .ok (final + relative)
  | some m => do
    let averaged := (List.zipWith (fun (n : Vec d) w => w • n) pr.normals pr.cluster).sum
    let proximity ← computeSafeScaling final averaged (1 / m)
    let convergence ← slowfactorFromConvergence pr.slow
    if ‖final‖ = 0 then .error .nan
    else .ok ((magnitude * min convergence proximity / ‖final‖) • final + relative)

/-- `evaluate_sequence` (multi_obstacle_avoider.py:293-364). -/
noncomputable def evaluateSequence (ext : Ext d k) (a : Avoider d) (position : Vec d) :
    Except PyErr (Vec d) := do
  match ← evaluateDynamicsSequence position a.initial with
  | none => .ok 0
  | some initialSeq =>
    if a.trees = [] then do
      let v ← initialSeq.getEndVector
      .ok (a.magnitude position • v)
    else do
      let relative ← relativeVelocity position a.trees
      let conv ← computeConvergenceSequence ext a position initialSeq
      let v ← conv.getEndVector
      let pr ← prepareAvoidance ext a position v
      let final ← avoidanceDirection ext pr
      slowDown (a.magnitude position) relative final pr

/-- `evaluate` (multi_obstacle_avoider.py:290-291). -/
noncomputable def Avoider.evaluate (ext : Ext d k) (a : Avoider d) (position : Vec d) :
    Except PyErr (Vec d) := evaluateSequence ext a position

end Avoid

/-! ## Convergence dynamics without singularity -/

/-- `ConvergenceDynamicsWithoutSingularity` (nonlinear_rotation_avoider.py:68-116); the two
arguments are `convergence_dynamics.evaluate` and `initial_dynamics.evaluate`. -/
noncomputable def convergenceWithoutSingularity {d : ℕ} [Fact (2 ≤ d)]
    (convergence initial : Vec d → Vec d) : Convergence d where
  projectedWeight p o := .ok (projectedWeightWithoutSingularity (o.gamma p))
  positionToTransform p _ :=
    match fromDirections (convergence p) (convergence p) with
    | none => .error .nan
    | some r => .ok (some r)
  startToEnd s _ _ :=
    match fromDirections (initial s) (initial s) with
    | none => .error .nan
    | some r => .ok (some r)

end Verif
