import Verif.Model.Sequence

/-!
# Model of `VectorRotationTree` (vector_rotation.py:378-913)

The `networkx.DiGraph` is modelled by the insertion-ordered list of its nodes, the
insertion-ordered list of its edges and the node attributes `level` and
`direction` as partial functions (`none`: the key is missing, or the value is
`None`).  The attributes `weight`, `orientation`, `part_direction` and
`part_orientation`, which every reduction overwrites, are kept apart in `NodeState`.

Node identifiers are an arbitrary type `I` with decidable equality (Python:
hashable objects).
-/

open scoped RealInnerProductSpace

namespace Verif

/-- The graph of a `VectorRotationTree` together with `_root_idx`. -/
structure Tree (I : Type) (d : ℕ) where
  nodes : List I
  edges : List (I × I)
  level : I → Option ℤ
  dir : I → Option (Vec d)
  root : Option I

/-- The numeric node attributes `weight`, `orientation`, `part_direction`,
`part_orientation`. -/
structure NodeState (I : Type) (d : ℕ) where
  weight : I → ℝ
  orient : I → Option (Rot (Vec d))
  partDir : I → Option (Vec d)
  part : I → Option (Rot (Vec d))

variable {I : Type} [DecidableEq I] {d : ℕ}

namespace Tree

/-- `VectorRotationTree()` without arguments (vector_rotation.py:399-405). -/
def empty : Tree I d := ⟨[], [], fun _ => none, fun _ => none, none⟩

/-- `graph.add_node(n)`: no effect on the node list if `n` exists. -/
def touch (t : Tree I d) (n : I) : Tree I d :=
  if n ∈ t.nodes then t else { t with nodes := t.nodes ++ [n] }

/-- `graph.add_edge(u, v)`: missing end points are created without attributes,
first `u`, then `v`; an existing edge is kept. -/
def addEdge (t : Tree I d) (u v : I) : Tree I d :=
  let t := (t.touch u).touch v
  if (u, v) ∈ t.edges then t else { t with edges := t.edges ++ [(u, v)] }

/-- `graph.successors(n)`, in insertion order. -/
def successors (t : Tree I d) (n : I) : List I :=
  (t.edges.filter (fun e => e.1 = n)).map Prod.snd

/-- `graph.predecessors(n)`, in insertion order. -/
def predecessors (t : Tree I d) (n : I) : List I :=
  (t.edges.filter (fun e => e.2 = n)).map Prod.fst

/-- The `while` loop of `get_all_childs_children` (vector_rotation.py:644-648); the
first argument bounds the number of iterations, `none` means that it did not
suffice. -/
def childsLoop (succ : I → List I) : ℕ → List I → ℕ → Option (List I)
  | 0, _, _ => none
  | fuel + 1, list, ii =>
    if h : ii < list.length then childsLoop succ fuel (list ++ succ list[ii]) (ii + 1)
    else some list

/-- `get_all_childs_children` (vector_rotation.py:640-650).  The number of iterations is
bounded by the number of nodes plus one, which is enough for every tree (theorem
`C19_descendants`); on a cyclic graph the Python loop does not end and the model
returns `none`. -/
def getAllChildsChildren (t : Tree I d) (n : I) : Option (List I) :=
  childsLoop t.successors (t.nodes.length + 1) (t.successors n) 0

/-- Node attributes written by `graph.add_node(n, level=.., direction=..)`. -/
def setAttr (t : Tree I d) (n : I) (level : ℤ) (dir : Option (Vec d)) : Tree I d :=
  { t.touch n with
    level := Function.update t.level n (some level)
    dir := Function.update t.dir n dir }

/-- `set_root_orientation` (vector_rotation.py:407-419). -/
def setRootOrientation (t : Tree I d) (rootId : I) (orientation : Rot (Vec d)) : Tree I d :=
  { t.setAttr rootId 0 (some orientation.base.b0) with root := some rootId }

/-- `set_root` (vector_rotation.py:421-424).  A zero direction gives a root full of
`nan`, modelled as an error. -/
noncomputable def setRoot [Fact (2 ≤ d)] (t : Tree I d) (rootId : I) (direction : Vec d) :
    Except PyErr (Tree I d) :=
  match fromDirections direction direction with
  | none => .error .nan
  | some o => .ok (t.setRootOrientation rootId o)

/-- `set_direction` (vector_rotation.py:557-564).  Line 558 raises `KeyError` for an
unknown node.  If the node has successors, line 564 assigns to an item of an
*identifier*, which raises `TypeError` (after the direction has been stored). -/
def setDirection (t : Tree I d) (n : I) (direction : Vec d) : Tree I d × Except PyErr Unit :=
  if n ∈ t.nodes then
    let t' := { t with dir := Function.update t.dir n (some direction) }
    match t.successors n with
    | [] => (t', .ok ())
    | _ :: _ => (t', .error .typeError)
  else (t, .error .keyError)

/-- The class attribute `maximum_level` (vector_rotation.py:397). -/
def maximumLevel : ℤ := 100

/-- Lines 485-500 of `add_node`, after the level is known. -/
def addNodeFinish (t : Tree I d) (n : I) (direction : Vec d) (level : ℤ) :
    Tree I d × Except PyErr Unit :=
  if level ≥ maximumLevel then (t, .error .valueError)
  else (t.setAttr n level none).setDirection n direction

/-- `add_node` (vector_rotation.py:454-502): the tree after the call and the outcome.
`direction` is required (`np.linalg.norm(None)` raises).  In the branch of lines
476-478 the arguments of `set_direction` are swapped, so that an array is used as
a node identifier: `TypeError`, after the edge has been added. -/
noncomputable def addNode (t : Tree I d) (n : I) (direction : Vec d) (parent : Option I := none)
    (child : Option I := none) (level : Option ℤ := none) : Tree I d × Except PyErr Unit :=
  open Classical in
  if ‖direction‖ = 0 then (t, .error .valueError)
  else
    let direction := (1 / ‖direction‖) • direction
    if n ∈ t.nodes then (t, .error .valueError)
    else
      match parent with
      | some p =>
        let t' := t.addEdge p n
        match t'.level p with
        | none => (t', .error .keyError)
        | some l => t'.addNodeFinish n direction (l + 1)
      | none =>
        match child with
        | some c => (t.addEdge n c, .error .typeError)
        | none =>
          match level with
          | none => (t, .error .valueError)
          | some l => t.addNodeFinish n direction l

/-- `add_node_orientation` (vector_rotation.py:447-452). -/
noncomputable def addNodeOrientation (t : Tree I d) (n : I) (orientation : Rot (Vec d))
    (parent : I) : Tree I d × Except PyErr Unit :=
  t.addNode n (orientation.rotate orientation.base.b0) (some parent)

/-- The loop of `add_sequence` (vector_rotation.py:540-547) from index `ii` on:
`inter n ii` is the tuple `(node_id, ii)`.  Returns the parent of the next node. -/
noncomputable def addSequenceLoop (inter : I → ℕ → I) (n : I) :
    RotSeq (Vec d) → ℕ → I → Tree I d → Tree I d × Except PyErr I
  | [], _, parent, t => (t, .ok parent)
  | r :: rest, ii, parent, t =>
    match t.addNode (inter n ii) r.base.b0 (some parent) with
    | (t', .error e) => (t', .error e)
    | (t', .ok ()) => addSequenceLoop inter n rest (ii + 1) (inter n ii) t'

/-- `add_sequence` (vector_rotation.py:520-555).  With `common_parent=True` the first
vector of the sequence must be `allclose` to the direction of the parent (line
530-535, `IndexError` for the empty sequence, `KeyError` for an unknown parent). -/
noncomputable def addSequence (inter : I → ℕ → I) (t : Tree I d) (n : I) (s : RotSeq (Vec d))
    (parent : I) (commonParent : Bool := true) : Tree I d × Except PyErr Unit :=
  open Classical in
  let run (start : ℕ) : Tree I d × Except PyErr Unit :=
    match addSequenceLoop inter n (s.drop start) start parent t with
    | (t', .error e) => (t', .error e)
    | (t', .ok p) =>
      match s.getEndVector with
      | .error e => (t', .error e)
      | .ok final => t'.addNode n final (some p)
  if commonParent then
    match s with
    | [] => (t, .error .indexError)
    | r :: _ =>
      match t.dir parent with
      | none => (t, .error .keyError)
      | some v => if allclose r.base.b0 v then run 1 else (t, .error .valueError)
  else run 0

/-- `from_sequence` (vector_rotation.py:504-518). -/
noncomputable def fromSequence [Fact (2 ≤ d)] (inter : I → ℕ → I) (rootId n : I)
    (s : RotSeq (Vec d)) : Except PyErr (Tree I d) :=
  match s with
  | [] => .error .indexError
  | r :: _ =>
    match (empty : Tree I d).setRoot rootId r.base.b0 with
    | .error e => .error e
    | .ok t =>
      match t.addSequence inter n s rootId true with
      | (_, .error e) => .error e
      | (t', .ok ()) => .ok t'

/-- `get_nodes_ascending` (vector_rotation.py:634-638); `argsort` is `np.argsort`. -/
def getNodesAscending (argsort : List ℤ → List ℕ) (t : Tree I d) : Except PyErr (List I) :=
  match t.nodes.mapM t.level with
  | none => .error .keyError
  | some levels => .ok ((argsort levels).filterMap (fun i => t.nodes[i]?))

/-- Lines 681-685 of `update_partial_rotations`: all weights are reset to zero, then the
given weights are stored one after the other; `KeyError` for an unknown node. -/
def assignWeights (t : Tree I d) (st : NodeState I d) (nodeList : List I) (weights : List ℝ) :
    Except PyErr (NodeState I d) :=
  (nodeList.zip weights).foldlM
    (fun st p =>
      if p.1 ∈ t.nodes then .ok { st with weight := Function.update st.weight p.1 p.2 }
      else .error .keyError)
    { st with weight := fun _ => 0 }

/-- One pass of the inner loop of `evaluate_all_orientations`
(vector_rotation.py:588-622 with `pi_margin=None`) for the edge `(n, c)`.  A `nan` in
the orientation leads to `breakpoint()` (line 598). -/
noncomputable def orientStep [Fact (2 ≤ d)] (t : Tree I d) (st : NodeState I d) (e : I × I) :
    Except PyErr (NodeState I d) :=
  match st.partDir e.1, t.dir e.2 with
  | some u, some v =>
    match fromDirections u v with
    | none => .error .breakpoint
    | some o =>
      .ok { st with
        orient := Function.update st.orient e.2 (some o)
        partDir := Function.update st.partDir e.2 (some v) }
  | _, _ => .error .keyError

/-- `evaluate_all_orientations(sorted_list)` (vector_rotation.py:566-622) with
`pi_margin=None`, the only way it is called.  `nan` in the orientation of the root
leads to `breakpoint()` at line 690. -/
noncomputable def evaluateAllOrientations [Fact (2 ≤ d)] (t : Tree I d) (st : NodeState I d)
    (sorted : List I) : Except PyErr (NodeState I d) :=
  match sorted with
  | [] => .error .indexError
  | r :: _ =>
    match t.dir r with
    | none => .error .keyError
    | some v =>
      match fromDirections v v with
      | none => .error .breakpoint
      | some o =>
        (t.nodes.flatMap (fun n => (t.successors n).map (fun c => (n, c)))).foldlM
          (orientStep t)
          { st with
            partDir := Function.update st.partDir r (some v)
            orient := Function.update st.orient r (some o) }

/-- Rotating the `part_orientation.base` of the nodes `ds` by `rotate_array`
(vector_rotation.py:725-752 and 824-839, 849-863).  The Python code rotates the bases
collected in one array and then stores them; `nan` leads to `breakpoint()`. -/
noncomputable def rotateParts (part : I → Option (Rot (Vec d))) (ds : List I) (base : Base (Vec d))
    (angle : ℝ) : Except PyErr (I → Option (Rot (Vec d))) :=
  ds.foldlM
    (fun part m =>
      match part m with
      | none => .error .keyError
      | some p =>
        match Rot.rotateBase base angle p.base with
        | none => .error .breakpoint
        | some b => .ok (Function.update part m (some ⟨b, p.angle⟩)))
    part

/-- One pass of the loop over `reversed(sorted_list)` of `update_partial_rotations`
(vector_rotation.py:692-756).  (`not self._graph.successors(node_id)` at line 714 tests
an iterator and is never true.)  The outer `none` of `getAllChildsChildren` stands for a
non-terminating loop. -/
noncomputable def partialStep (t : Tree I d) (st : NodeState I d) (n : I) :
    Except PyErr (NodeState I d) :=
  open Classical in
  let weight := (t.predecessors n).foldl
    (fun w p => Function.update w p (w p + w n)) st.weight
  match st.orient n with
  | none => .error .attributeError
  | some o =>
    let part := Function.update st.part n (some ⟨o.base, o.angle * weight n⟩)
    if weight n ≤ 0 ∨ weight n ≥ 1 then .ok { st with weight := weight, part := part }
    else
      match t.getAllChildsChildren n with
      | none => .error .exception
      | some ds =>
        match rotateParts part ds o.base (o.angle * weight n - o.angle) with
        | .error e => .error e
        | .ok part => .ok { st with weight := weight, part := part }

/-- `update_partial_rotations` (vector_rotation.py:674-756).  The warning of line 678 has
no effect on the result. -/
noncomputable def updatePartialRotations [Fact (2 ≤ d)] (t : Tree I d) (st : NodeState I d)
    (nodeList : List I) (weights : List ℝ) (sorted : List I) : Except PyErr (NodeState I d) := do
  let st ← assignWeights t st nodeList weights
  let st ← evaluateAllOrientations t st sorted
  sorted.reverse.foldlM (partialStep t) st

/-- The local variables of `evaluate_graph_summing` that survive one pass of its loop:
the `part_orientation`s, `vector_sequence`, and (`last`) the variables
`shared_first_basis`, `averaged_direction` and `new_angle`, which are unbound before the
first level with a weighted node. -/
structure SumState (I : Type) (d : ℕ) where
  part : I → Option (Rot (Vec d))
  seq : RotSeq (Vec d)
  last : Option (Rot (Vec d))

/-- The lists `successors` of all nodes in `ids` (lines 816-838): `all_successors`. -/
def allSuccessors (t : Tree I d) (ids : List I) : Option (List I) :=
  (ids.mapM t.getAllChildsChildren).map List.flatten

/-- Lines 816-839: the descendants of every node in `ids` are rotated back by the
(partial) rotation of that node. -/
noncomputable def unrotate (t : Tree I d) (part : I → Option (Rot (Vec d))) (ids : List I) :
    Except PyErr (I → Option (Rot (Vec d))) :=
  ids.foldlM
    (fun part n =>
      match part n, t.getAllChildsChildren n with
      | some p, some ds => rotateParts part ds p.base ((-1) * p.angle)
      | _, _ => .error .exception)
    part

/-- The weighted sum of lines 788-803: `Σ angle * base[:, 1]` over the nodes `ids`. -/
noncomputable def localMean (part : I → Option (Rot (Vec d))) (ids : List I) : Vec d :=
  (ids.map (fun n => match part n with
    | none => 0
    | some p => p.angle • p.base.b1)).sum

/-- One pass of the loop over the levels in `evaluate_graph_summing`
(vector_rotation.py:771-863).  `get_orthogonal_basis(v)[:, 0]` (vartools) is the
normalised vector `v`.  The back-rotated bases are collected in `all_basis` and stored
at the end of the pass, here they are stored immediately; no node is the descendant of
two nodes of the same level, and no node of the level is a descendant of another. -/
noncomputable def sumLevel (t : Tree I d) (weight : I → ℝ) (sorted : List I)
    (s : SumState I d) (level : ℤ) : Except PyErr (SumState I d) :=
  open Classical in
  let ids := sorted.filter (fun n => t.level n = some level ∧ weight n ≠ 0)
  match ids with
  | [] => .ok s
  | n0 :: _ =>
    match s.part n0 with
    | none => .error .keyError
    | some p0 =>
      let first := p0.base.b0
      let mean := localMean s.part ids
      let newAngle := ‖mean‖
      let averaged := if newAngle = 0 then (1 / ‖first‖) • first else (1 / newAngle) • mean
      let base : Base (Vec d) := ⟨first, averaged⟩
      match unrotate t s.part ids, allSuccessors t ids with
      | .error e, _ => .error e
      | .ok _, none => .error .exception
      | .ok part, some all =>
        if all = [] then .ok { s with last := some ⟨base, newAngle⟩ }
        else if newAngle = 0 then .ok { part := part, seq := s.seq, last := some ⟨base, newAngle⟩ }
        else
          match rotateParts part all base newAngle with
          | .error e => .error e
          | .ok part =>
            .ok { part := part
                  seq := s.seq.appendFromBaseAndAngle base newAngle
                  last := some ⟨base, newAngle⟩ }

/-- The distinct levels in the order in which `set(level_list)` (line 771) is traversed:
ascending (CPython iterates a set of contiguous small integers in ascending order). -/
def levelSet (t : Tree I d) (sorted : List I) : List ℤ :=
  (sorted.filterMap t.level).dedup

/-- `evaluate_graph_summing` (vector_rotation.py:758-872).  If no level has a weighted
node, line 866 raises `UnboundLocalError`. -/
noncomputable def evaluateGraphSumming (t : Tree I d) (st : NodeState I d) (sorted : List I) :
    Except PyErr (RotSeq (Vec d)) := do
  let s ← (levelSet t sorted).foldlM (sumLevel t st.weight sorted)
    { part := st.part, seq := RotSeq.createEmpty, last := none }
  match s.last with
  | none => .error .unboundLocal
  | some r => .ok (s.seq.appendFromBaseAndAngle r.base r.angle)

/-- `reduce_weighted_to_sequence` (vector_rotation.py:662-672).  `st` are the node
attributes left behind by earlier calls. -/
noncomputable def reduceWeightedToSequence [Fact (2 ≤ d)] (argsort : List ℤ → List ℕ)
    (t : Tree I d) (st : NodeState I d) (nodeList : List I) (weights : List ℝ) :
    Except PyErr (RotSeq (Vec d)) :=
  if nodeList.length ≠ weights.length then .error .valueError
  else do
    let sorted ← t.getNodesAscending argsort
    let st ← t.updatePartialRotations st nodeList weights sorted
    t.evaluateGraphSumming st sorted

/-- `get_weighted_mean` (vector_rotation.py:652-660). -/
noncomputable def getWeightedMean [Fact (2 ≤ d)] (argsort : List ℤ → List ℕ)
    (t : Tree I d) (st : NodeState I d) (nodeList : List I) (weights : List ℝ) :
    Except PyErr (Vec d) := do
  let s ← t.reduceWeightedToSequence argsort st nodeList weights
  s.getEndVector

/-- `get_parent` (vector_rotation.py:439-441): subscripting the iterator returned by
`predecessors` raises `TypeError` for every existing node (unknown nodes raise
`NetworkXError`). -/
def getParent (t : Tree I d) (n : I) : Except PyErr I :=
  if n ∈ t.nodes then .error .typeError else .error .exception

/-- `rotate` and `inverse_rotate` (vector_rotation.py:874-906) call
`get_weighted_mean()` without its two required arguments: `TypeError`. -/
def rotate (_t : Tree I d) (_v : Vec d) (_nodeList : List I) (_weights : List ℝ) :
    Except PyErr (Vec d) := .error .typeError

end Tree
end Verif
