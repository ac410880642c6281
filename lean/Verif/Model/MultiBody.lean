import Verif.Model.Composite

/-!
# Model of `nonlinear_avoidance/multi_body_human.py`

A body is a list of obstacles, of which only the pose is modelled, and a `networkx.DiGraph` whose
nodes are numbered consecutively in the order of their creation.
-/

namespace Verif

/-- The attributes of a node of the graph (multi_body_human.py:170-176, 223-230).  The root has no
`local_reference`. -/
structure LimbNode (d : ℕ) where
  name : String
  updateId : Option ℤ
  localReference : Option (Vec d)
  indecesChildren : List ℕ
  referencesChildren : List (Vec d)

/-- `MultiBodyObstacle` (multi_body_human.py:104-127): `_obstacle_list` (poses), the nodes and edges of
`_graph` and `root_idx`, which is not defined before `set_root`.  `_id_counter` is the number of
nodes.  Simplification: filters, visualisation and the robot are not modelled. -/
structure MultiBody (d : ℕ) where
  poses : List (Pose d)
  nodes : List (LimbNode d)
  edges : List (ℕ × ℕ)
  rootIdx : Option ℕ

namespace MultiBody

variable {d : ℕ}

/-- `MultiBodyObstacle()` (multi_body_human.py:104-127). -/
def create : MultiBody d := ⟨[], [], [], none⟩

/-- `set_root` (multi_body_human.py:163-181). -/
def setRoot (m : MultiBody d) (pose : Pose d) (name : String) (updateId : Option ℤ) : MultiBody d :=
  { m with
      poses := m.poses ++ [pose]
      nodes := m.nodes ++ [⟨name, updateId, none, [], []⟩]
      rootIdx := some 0 }

/-- `get_obstacle_id_from_name` (multi_body_human.py:135-136). -/
def idFromName (m : MultiBody d) (name : String) : Except PyErr ℕ :=
  match m.nodes.findIdx? (fun n => n.name = name) with
  | none => .error .indexError
  | some i => .ok i

/-- `add_component` (multi_body_human.py:209-243): the obstacle is appended before the parent is looked
up. -/
def addComponent (m : MultiBody d) (pose : Pose d) (name : String) (reference : Vec d)
    (parentName : String) (parentReference : Vec d) (updateId : Option ℤ) :
    MultiBody d × Except PyErr Unit :=
  let m1 : MultiBody d := { m with poses := m.poses ++ [pose] }
  match m1.idFromName parentName with
  | .error e => (m1, .error e)
  | .ok p =>
    let new : ℕ := m.nodes.length
    let nodes1 := m.nodes ++ [⟨name, updateId, some reference, [], []⟩]
    let nodes2 := nodes1.modify p (fun n => { n with
      referencesChildren := n.referencesChildren ++ [parentReference]
      indecesChildren := n.indecesChildren ++ [new] })
    ({ m1 with nodes := nodes2, edges := m.edges ++ [(p, new)] }, .ok ())

/-- `list(_graph.predecessors(i))` (external, networkx). -/
def predecessors (m : MultiBody d) (i : ℕ) : List ℕ :=
  (m.edges.filter (fun e => e.2 = i)).map Prod.fst

/-- `list(_graph.successors(i))` (external, networkx). -/
def successors (m : MultiBody d) (i : ℕ) : List ℕ :=
  (m.edges.filter (fun e => e.1 = i)).map Prod.snd

/-- `get_parent_idx` (multi_body_human.py:149-153); asking for an unknown node raises `NetworkXError` (modelled by
`PyErr.exception`). -/
def getParentIdx (m : MultiBody d) (i : ℕ) : Except PyErr (Option ℕ) :=
  match m.rootIdx with
  | none => .error .attributeError
  | some r =>
    if i = r then .ok none
    else if i < m.nodes.length then
      match m.predecessors i with
      | [] => .error .indexError
      | p :: _ => .ok (some p)
    else .error .exception

/-- The attachment point of component `i` in the global frame, as stored in its parent
(multi_body_human.py:413-420, 452-460). -/
noncomputable def referenceParent (m : MultiBody d) (i : ℕ) : Except PyErr (Vec d) :=
  match m.predecessors i with
  | [] => .error .indexError
  | p :: _ =>
    match m.nodes[p]? with
    | none => .error .keyError
    | some n =>
      match GraphHandler.pyIndex n.indecesChildren i with
      | .error e => .error e
      | .ok k =>
        match n.referencesChildren[k]? with
        | none => .error .indexError
        | some r =>
          match m.poses[p]? with
          | none => .error .indexError
          | some pose => .ok (pose.fromRelative r)

/-- The reference point of component `i` in the global frame (multi_body_human.py:447-449). -/
noncomputable def referenceObstacle (m : MultiBody d) (i : ℕ) : Except PyErr (Vec d) :=
  match m.poses[i]?, m.nodes[i]? with
  | some pose, some n =>
    match n.localReference with
    | none => .error .keyError
    | some r => .ok (pose.fromRelative r)
  | none, _ => .error .indexError
  | _, none => .error .keyError

/-- `align_position_with_parent` (multi_body_human.py:442-464). -/
noncomputable def alignWithParent (m : MultiBody d) (i : ℕ) : Except PyErr (MultiBody d) :=
  match m.referenceObstacle i with
  | .error e => .error e
  | .ok ro =>
    match m.referenceParent i with
    | .error e => .error e
    | .ok rp =>
      .ok { m with poses := m.poses.modify i (fun p => { p with position := p.position + (rp - ro) }) }

/-- The loop of `align_obstacle_tree` and of `update_using_optitrack` (multi_body_human.py:340-378),
with the update `visit` of a component before its position is aligned.  `obs_indeces` is a queue; the
index `it_node` is its head.  `none`: the loop has not ended after `fuel` rounds. -/
noncomputable def alignLoop (visit : ℕ → MultiBody d → Except PyErr (MultiBody d)) :
    ℕ → List ℕ → MultiBody d → Option (Except PyErr (MultiBody d))
  | _, [], m => some (.ok m)
  | 0, _ :: _, _ => none
  | fuel + 1, i :: queue, m =>
    match visit i m with
    | .error e => some (.error e)
    | .ok m1 =>
      match m1.alignWithParent i with
      | .error e => some (.error e)
      | .ok m2 => alignLoop visit fuel (queue ++ m.successors i) m2

/-- `align_obstacle_tree` (multi_body_human.py:368-378). -/
noncomputable def alignTree (m : MultiBody d) (fuel : ℕ) : Option (Except PyErr (MultiBody d)) :=
  match m.rootIdx with
  | none => some (.error .attributeError)
  | some r => alignLoop (fun _ m => .ok m) fuel (m.successors r) m

/-- The update of one component in `update_using_optitrack` (multi_body_human.py:351-361): without
measurement the orientation of the parent is copied, with measurement the pose is replaced and the
orientation adapted by `orient` (`update_orientation_based_on_position`). -/
noncomputable def visitMeasured (measured : List (Option (Pose d)))
    (orient : ℕ → MultiBody d → Except PyErr (MultiBody d)) (i : ℕ) (m : MultiBody d) :
    Except PyErr (MultiBody d) :=
  match measured[i]? with
  | none => .error .indexError
  | some none =>
    match m.predecessors i with
    | [] => .error .indexError
    | p :: _ =>
      match m.poses[p]? with
      | none => .error .indexError
      | some pose =>
        .ok { m with poses := m.poses.modify i (fun q => { q with orientation := pose.orientation }) }
  | some (some pose) => orient i { m with poses := m.poses.set i pose }

/-- The update of the root (multi_body_human.py:328-336).  `level` is the treatment of the measured root
pose (height 0.2, rotation about the vertical only). -/
def setMeasuredRoot (m : MultiBody d) (r : ℕ) (level : Pose d → Pose d) (root : Option (Pose d)) :
    MultiBody d :=
  match root with
  | none => m
  | some pose => { m with poses := m.poses.set r (level pose) }

/-- The part of `update_using_optitrack` after filtering (multi_body_human.py:328-366). -/
noncomputable def updateMeasured (measured : List (Option (Pose d))) (level : Pose d → Pose d)
    (orient : ℕ → MultiBody d → Except PyErr (MultiBody d)) (m : MultiBody d) (fuel : ℕ) :
    Option (Except PyErr (MultiBody d)) :=
  match m.rootIdx with
  | none => some (.error .attributeError)
  | some r =>
    match measured[r]? with
    | none => some (.error .indexError)
    | some root =>
      let m1 := m.setMeasuredRoot r level root
      alignLoop (visitMeasured measured orient) fuel (m1.successors r) m1

/-- The arguments of a call of `add_component`. -/
structure Call (d : ℕ) where
  pose : Pose d
  name : String
  reference : Vec d
  parentName : String
  parentReference : Vec d
  updateId : Option ℤ

/-- One call of `add_component`, with the state it leaves behind and its result. -/
def step (m : MultiBody d) (c : Call d) : MultiBody d × Except PyErr Unit :=
  m.addComponent c.pose c.name c.reference c.parentName c.parentReference c.updateId

/-- A history of calls; exceptions are caught by the caller. -/
def run (m : MultiBody d) (cs : List (Call d)) : MultiBody d := cs.foldl (fun m c => (m.step c).1) m

end MultiBody

end Verif
