import Verif.Model.GraphHandler
import Mathlib.Analysis.InnerProductSpace.PiL2

/-!
# Model of `nonlinear_avoidance/multi_obstacle.py`

A composite obstacle is a list of components with their poses in the frame of the obstacle and a
directed graph of component numbers.  `vartools.states.Pose` is external: a pose is a position
together with a linear isometry, and `transform_pose_from_relative` composes rigid motions.
`networkx.DiGraph` is an insertion-ordered list of nodes with their attribute `indeces_children` and
an insertion-ordered list of edges.
-/

namespace Verif

/-- `vartools.states.Pose` (external): a position and an orientation. -/
@[ext] structure Pose (d : ℕ) where
  position : Vec d
  orientation : Vec d ≃ₗᵢ[ℝ] Vec d

namespace Pose

variable {d : ℕ}

/-- `Pose.create_trivial` (external). -/
noncomputable def trivial : Pose d := ⟨0, .refl ℝ _⟩

/-- `Pose.transform_position_from_relative` (external). -/
noncomputable def fromRelative (p : Pose d) (x : Vec d) : Vec d := p.orientation x + p.position

/-- `Pose.transform_position_to_relative` (external). -/
noncomputable def toRelative (p : Pose d) (x : Vec d) : Vec d :=
  p.orientation.symm (x - p.position)

/-- `Pose.transform_pose_from_relative` (external). -/
noncomputable def poseFromRelative (p q : Pose d) : Pose d :=
  ⟨p.fromRelative q.position, q.orientation.trans p.orientation⟩

end Pose

/-- What the composite obstacle stores and changes of a component: its pose, the reference point in
its own frame and `axes_length`. -/
@[ext] structure Part (d : ℕ) where
  pose : Pose d
  reference : Vec d
  axes : Vec d

/-- `get_reference_point(in_global_frame=True)` (external). -/
noncomputable def Part.globalReference {d : ℕ} (p : Part d) : Vec d := p.pose.fromRelative p.reference

/-- Reading `l[i]` for an `int` of python: negative indices count from the end. -/
def pyGetInt {β : Type} (l : List β) (i : ℤ) : Except PyErr β :=
  if 0 ≤ i then GraphHandler.pyGet l i.toNat
  else if -(l.length : ℤ) ≤ i then GraphHandler.pyGet l (i + l.length).toNat
  else .error .indexError

/-- The attributes of `MultiObstacle` (multi_obstacle.py:16-27): `_pose`, `_local_poses`,
`_obstacle_list`, `_graph` (nodes with `indeces_children`, edges) and `_root_idx`. -/
structure MultiObstacle (d : ℕ) where
  pose : Pose d
  localPoses : List (Pose d)
  parts : List (Part d)
  nodes : List (ℤ × List ℤ)
  edges : List (ℤ × ℤ)
  rootIdx : ℤ

namespace MultiObstacle

variable {d : ℕ}

/-- `MultiObstacle(pose)` (multi_obstacle.py:16-27). -/
def create (pose : Pose d) : MultiObstacle d := ⟨pose, [], [], [], [], 0⟩

/-- `n_components` (multi_obstacle.py:33-35). -/
def nComponents (m : MultiObstacle d) : ℕ := m.parts.length

/-- `nx.DiGraph.add_node` with the attribute `indeces_children=[]`: a new node is appended, the
attribute of an existing one is overwritten (external; used at multi_obstacle.py:139, 179). -/
def addNode (nodes : List (ℤ × List ℤ)) (n : ℤ) : List (ℤ × List ℤ) :=
  if n ∈ nodes.map Prod.fst then nodes.map (fun e => if e.1 = n then (n, []) else e)
  else nodes ++ [(n, [])]

/-- `set_root` (multi_obstacle.py:133-142). -/
noncomputable def setRoot (m : MultiObstacle d) (o : Part d) : MultiObstacle d × ℤ :=
  ({ m with
      localPoses := m.localPoses ++ [o.pose]
      parts := m.parts ++ [{ o with pose := m.pose.poseFromRelative o.pose }]
      rootIdx := 0
      nodes := addNode m.nodes 0 }, 0)

/-- The reference point of a new component (multi_obstacle.py:152-164).  `intersect` is
`get_intersection_of_obstacles` (external: shapely). -/
noncomputable def chooseReference (intersect : Part d → Part d → Option (Vec d)) (m : MultiObstacle d)
    (o : Part d) (parent : ℤ) (reference : Option (Vec d)) : Except PyErr (Vec d) :=
  match reference with
  | some r => .ok r
  | none =>
    match pyGetInt m.parts parent with
    | .error e => .error e
    | .ok c =>
      match intersect o c with
      | none => .error .valueError
      | some g => .ok (o.pose.toRelative g)

/-- The second half of `add_component` (multi_obstacle.py:166-192).  The obstacle and its node are
added before the parent is looked up in the graph. -/
noncomputable def insertComponent (m : MultiObstacle d) (o : Part d) (parent : ℤ) (r : Vec d) :
    MultiObstacle d × Except PyErr ℤ :=
  let newId : ℤ := m.parts.length
  let m1 : MultiObstacle d := { m with
    localPoses := m.localPoses ++ [o.pose]
    parts := m.parts ++ [{ o with reference := r, pose := m.pose.poseFromRelative o.pose }]
    nodes := addNode m.nodes newId }
  if parent ∈ m1.nodes.map Prod.fst then
    ({ m1 with
        nodes := m1.nodes.map (fun e => if e.1 = parent then (e.1, e.2 ++ [newId]) else e)
        edges := if (parent, newId) ∈ m1.edges then m1.edges else m1.edges ++ [(parent, newId)] },
      .ok newId)
  else (m1, .error .keyError)

/-- `add_component` (multi_obstacle.py:144-192). -/
noncomputable def addComponent (intersect : Part d → Part d → Option (Vec d)) (m : MultiObstacle d)
    (o : Part d) (parent : ℤ) (reference : Option (Vec d)) : MultiObstacle d × Except PyErr ℤ :=
  match chooseReference intersect m o parent reference with
  | .error e => (m, .error e)
  | .ok r => insertComponent m o parent r

/-- `DiGraph.predecessors` (external): in the order of insertion. -/
def predecessors (m : MultiObstacle d) (i : ℤ) : List ℤ :=
  (m.edges.filter (fun e => e.2 = i)).map Prod.fst

/-- `get_parent_idx` (multi_obstacle.py:121-125); asking for an unknown node raises
`NetworkXError` (modelled by `PyErr.exception`). -/
def getParentIdx (m : MultiObstacle d) (i : ℤ) : Except PyErr (Option ℤ) :=
  if i = m.rootIdx then .ok none
  else if i ∈ m.nodes.map Prod.fst then
    match m.predecessors i with
    | [] => .error .indexError
    | p :: _ => .ok (some p)
  else .error .exception

/-- The node attribute `indeces_children`, read by the users of the graph. -/
def childrenOf (m : MultiObstacle d) (i : ℤ) : Except PyErr (List ℤ) :=
  match m.nodes.find? (fun e => e.1 = i) with
  | none => .error .keyError
  | some e => .ok e.2

/-- `update_pose` (multi_obstacle.py:72-75). -/
noncomputable def updatePose (m : MultiObstacle d) (p : Pose d) : MultiObstacle d :=
  { m with
      pose := p
      parts := List.zipWith (fun l o => { o with pose := p.poseFromRelative l }) m.localPoses m.parts
        ++ m.parts.drop m.localPoses.length }

/-- `update_deformation` (multi_obstacle.py:77-86); `rate` is `none` if the attribute
`deformation_rate` does not exist. -/
noncomputable def updateDeformation (m : MultiObstacle d) (rate : Option ℝ) (dt : ℝ) :
    MultiObstacle d :=
  match rate with
  | none => m
  | some r =>
    let f := 1 + r * dt
    let lp := m.localPoses.map (fun l => { l with position := f • l.position })
    { m with
        localPoses := lp
        parts := List.zipWith (fun l o => { o with axes := f • o.axes, pose := m.pose.poseFromRelative l })
          lp m.parts ++ m.parts.drop m.localPoses.length }

end MultiObstacle

end Verif
