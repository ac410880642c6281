import Verif.Model.Avoider
import Verif.Model.Composite

/-!
# Model of the obstacle containers

`multi_obstacle.py` (distance functions), `multi_obstacle_container.py`, `multi_ellipse_obstacle.py`
(root and parents) and `multiboundary_container.py` (graph).
-/

namespace Verif

/-- The position meant by an `int` index in a list of length `n`: negative indices count from the
end. -/
def pyIdx (n : ℕ) (i : ℤ) : Option ℕ :=
  if 0 ≤ i then (if i < n then some i.toNat else none)
  else if -(n : ℤ) ≤ i then some (i + n).toNat else none

/-! ## Distance functions -/

namespace ObstacleTree

variable {d : ℕ}

/-- `MultiObstacle.is_collision_free` (multi_obstacle.py:88-89). -/
noncomputable def isCollisionFree (t : ObstacleTree d) (p : Vec d) : Except PyErr Bool :=
  open Classical in
  match t.gamma p with
  | .error e => .error e
  | .ok g => .ok (decide (g > 1))

/-- `get_gamma_except_components` (multi_obstacle.py:100-119), global frame. -/
noncomputable def gammaExcept (t : ObstacleTree d) (p : Vec d) (excluded : List ℕ) :
    Except PyErr ℝ :=
  let gammas := (t.components.zipIdx.filter (fun e => e.2 ∉ excluded)).map (fun e => e.1.gamma p)
  match gammas.min? with
  | none => .error .valueError
  | some g => .ok g

end ObstacleTree

/-- `MultiObstacleContainer` (multi_obstacle_container.py:27-29). -/
abbrev TreeContainer (d : ℕ) := List (ObstacleTree d)

namespace TreeContainer

variable {d : ℕ}

/-- `MultiObstacleContainer.is_collision_free` (multi_obstacle_container.py:31-37). -/
noncomputable def isCollisionFree (p : Vec d) : TreeContainer d → Except PyErr Bool
  | [] => .ok true
  | t :: ts => do
    let free ← t.isCollisionFree p
    if free then isCollisionFree p ts else .ok false

/-- `MultiObstacleContainer.get_gamma` (multi_obstacle_container.py:39-47), global frame. -/
noncomputable def getGamma (c : TreeContainer d) (p : Vec d) : Except PyErr ℝ := do
  let gammas : List ℝ ← List.mapM (fun t : ObstacleTree d => t.gamma p) c
  match gammas.min? with
  | none => .error .valueError
  | some g => .ok g

end TreeContainer

/-! ## Multi-ellipse obstacles -/

/-- The graph attributes of `MultiEllipseObstacle` (multi_ellipse_obstacle.py:71-77). -/
structure MultiEllipse where
  nComponents : ℕ
  root : Option ℤ
  parents : List (Option ℤ)
  children : List (List ℤ)

/-- The truth value of an `Optional[int]` in python: `None` and `0` are false. -/
def truthy : Option ℤ → Bool
  | none => false
  | some i => i ≠ 0

namespace MultiEllipse

/-- `MultiEllipseObstacle()` (multi_ellipse_obstacle.py:72-77). -/
def create : MultiEllipse := ⟨0, none, [], []⟩

/-- `append` (multi_ellipse_obstacle.py:124-127). -/
def append (m : MultiEllipse) : MultiEllipse :=
  { m with
      nComponents := m.nComponents + 1
      children := m.children ++ [[]]
      parents := m.parents ++ [none] }

/-- `set_root` (multi_ellipse_obstacle.py:99-103). -/
def setRoot (m : MultiEllipse) (i : ℤ) : MultiEllipse × Except PyErr Unit :=
  if truthy m.root then (m, .error .notImplemented)
  else
    let m1 := { m with root := some i }
    match pyIdx m.parents.length i with
    | none => (m1, .error .indexError)
    | some k => ({ m1 with parents := m.parents.set k (some (-1)) }, .ok ())

/-- `set_parent` (multi_ellipse_obstacle.py:105-122).  Simplification: the computation of the
intersection and of the reference point of the component (shapely) is not modelled. -/
def setParent (m : MultiEllipse) (i p : ℤ) : MultiEllipse × Except PyErr Unit :=
  match pyIdx m.parents.length i with
  | none => (m, .error .indexError)
  | some k =>
    if truthy (m.parents.getD k none) then (m, .error .notImplemented)
    else
      let m1 := { m with parents := m.parents.set k (some p) }
      match pyIdx m.children.length p with
      | none => (m1, .error .indexError)
      | some l => ({ m1 with children := m.children.set l (m.children.getD l [] ++ [i]) }, .ok ())

/-- `get_parent_idx` (multi_ellipse_obstacle.py:132-133). -/
def getParentIdx (m : MultiEllipse) (i : ℤ) : Except PyErr (Option ℤ) := pyGetInt m.parents i

/-- The mutating calls. -/
inductive Call where
  | append
  | setRoot (i : ℤ)
  | setParent (i p : ℤ)

/-- One call, with the state it leaves behind and its result. -/
def step (m : MultiEllipse) : Call → MultiEllipse × Except PyErr Unit
  | .append => (m.append, .ok ())
  | .setRoot i => m.setRoot i
  | .setParent i p => m.setParent i p

/-- A history of calls; exceptions are caught by the caller. -/
def run (m : MultiEllipse) (cs : List Call) : MultiEllipse := cs.foldl (fun m c => (m.step c).1) m

end MultiEllipse

/-! ## Multi-boundary containers -/

/-- The graph attributes `_parent_array` and `_children_list` of `MultiBoundaryContainer`
(multiboundary_container.py:45-57). -/
structure MultiBoundary where
  parents : List ℤ
  children : List (List ℤ)

namespace MultiBoundary

/-- `MultiBoundaryContainer()` (multiboundary_container.py:45-57). -/
def create : MultiBoundary := ⟨[], []⟩

/-- `n_obstacles` (external base class). -/
def nObstacles (m : MultiBoundary) : ℕ := m.parents.length

/-- `set_parent` (multiboundary_container.py:116-117). -/
def setParent (m : MultiBoundary) (it parent : ℤ) : Except PyErr MultiBoundary :=
  match pyIdx m.parents.length it with
  | none => .error .indexError
  | some k => .ok { m with parents := m.parents.set k parent }

/-- `add_children` (multiboundary_container.py:119-122). -/
def addChildren (m : MultiBoundary) (it : ℤ) (cs : List ℤ) : Except PyErr MultiBoundary :=
  match pyIdx m.children.length it with
  | none => .error .indexError
  | some k => .ok { m with children := m.children.set k (m.children.getD k [] ++ cs) }

/-- `extend_graph` (multiboundary_container.py:98-101), with the state it leaves behind. -/
def extendGraph (m : MultiBoundary) (child parent : ℤ) : MultiBoundary × Except PyErr Unit :=
  match m.setParent child parent with
  | .error e => (m, .error e)
  | .ok m1 =>
    match m1.addChildren parent [child] with
    | .error e => (m1, .error e)
    | .ok m2 => (m2, .ok ())

/-- `append` (multiboundary_container.py:59-73): the argument `parent` has an effect only if it is
`-1`. -/
def append (m : MultiBoundary) (parent : Option ℤ) : MultiBoundary × Except PyErr Unit :=
  let m1 : MultiBoundary := ⟨m.parents ++ [-1], m.children ++ [[]]⟩
  if parent = some (-1) then
    m1.extendGraph (m1.nObstacles - 1) (m1.nObstacles - 2)
  else (m1, .ok ())

/-- `get_root(return_multi_values=True)` (multiboundary_container.py:103-109). -/
def getRoots (m : MultiBoundary) : List ℤ :=
  ((List.range m.parents.length).filter (fun i => m.parents.getD i 0 < 0)).map (fun i : ℕ => (i : ℤ))

/-- `get_root()` (multiboundary_container.py:103-114). -/
def getRoot (m : MultiBoundary) : Except PyErr ℤ :=
  match m.getRoots with
  | [] => .error .indexError
  | r :: _ => .ok r

/-- `get_parent` (multiboundary_container.py:91-93). -/
def getParent (m : MultiBoundary) (i : ℤ) : Except PyErr ℤ := pyGetInt m.parents i

/-- `get_children` (multiboundary_container.py:95-96). -/
def getChildren (m : MultiBoundary) (i : ℤ) : Except PyErr (List ℤ) := pyGetInt m.children i

/-- The inner loop of `get_level_numbers` (multiboundary_container.py:133-136). -/
def levelPass (m : MultiBoundary) (level : ℤ) :
    List ℤ → List ℤ × List ℤ → Except PyErr (List ℤ × List ℤ)
  | [], st => .ok st
  | p :: ps, (values, next) =>
    match pyIdx values.length p with
    | none => .error .indexError
    | some k =>
      match m.getChildren p with
      | .error e => .error e
      | .ok c => levelPass m level ps (values.set k level, next ++ c)

/-- The outer loop of `get_level_numbers` (multiboundary_container.py:131-138).  `none`: the loop has
not ended after `fuel` rounds. -/
def levelLoop (m : MultiBoundary) : ℕ → ℤ → List ℤ → List ℤ → Option (Except PyErr (List ℤ))
  | _, _, [], values => some (.ok values)
  | 0, _, _ :: _, _ => none
  | fuel + 1, level, frontier, values =>
    match levelPass m level frontier (values, []) with
    | .error e => some (.error e)
    | .ok (values', next) => levelLoop m fuel (level + 1) next values'

/-- `get_level_numbers` (multiboundary_container.py:123-139), run for at most `fuel` rounds. -/
def getLevelNumbers (m : MultiBoundary) (fuel : ℕ) : Option (Except PyErr (List ℤ)) :=
  levelLoop m fuel 0 m.getRoots (m.parents.map (fun _ => -1))

/-- The mutating calls. -/
inductive Call where
  | append (parent : Option ℤ)
  | extendGraph (child parent : ℤ)

/-- One call, with the state it leaves behind and its result. -/
def step (m : MultiBoundary) : Call → MultiBoundary × Except PyErr Unit
  | .append p => m.append p
  | .extendGraph c p => m.extendGraph c p

/-- A history of calls; exceptions are caught by the caller. -/
def run (m : MultiBoundary) (cs : List Call) : MultiBoundary := cs.foldl (fun m c => (m.step c).1) m

/-- `is_collision_free` (multiboundary_container.py:83-89): free as soon as one boundary contains the
position. -/
noncomputable def isCollisionFree {d : ℕ} (obstacles : List (Obstacle d)) (p : Vec d) : Bool :=
  open Classical in obstacles.any (fun o => decide (o.gamma p > 1))

end MultiBoundary

end Verif
