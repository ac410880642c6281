import Verif.Model.Num
import Mathlib.Data.List.Basic

/-!
# Model of `nonlinear_avoidance/graph_handler.py`

`GraphHandler` stores the nodes in three parallel lists.  Node values are of an arbitrary type with
decidable equality (python `==`, used by `list.index`).  Methods which may raise in the middle
return the state they leave behind together with the result.
-/

namespace Verif

/-- The attributes `_node_values`, `_parent_index` and `_children_indices` of `GraphHandler`
(graph_handler.py:75-85). -/
structure GraphHandler (α : Type) where
  values : List α
  parent : List (Option ℕ)
  children : List (List ℕ)

namespace GraphHandler

variable {α : Type} [DecidableEq α]

/-- `__init__` with `node_values` (graph_handler.py:75-85); the variant with `n_nodes` passes
`0, ..., n - 1`, the one without arguments the empty list. -/
def create (vals : List α) : GraphHandler α where
  values := vals
  parent := vals.map (fun _ => none)
  children := vals.map (fun _ => [])

/-- `n_nodes` (graph_handler.py:87-89). -/
def nNodes (g : GraphHandler α) : ℕ := g.values.length

/-- `list.index` of python: the first position, `ValueError` if there is none. -/
def pyIndex (l : List α) (v : α) : Except PyErr ℕ :=
  match l.findIdx? (· = v) with
  | none => .error .valueError
  | some i => .ok i

/-- Reading `l[i]` for a natural index: `IndexError` if there is no such element. -/
def pyGet {β : Type} (l : List β) (i : ℕ) : Except PyErr β :=
  match l[i]? with
  | none => .error .indexError
  | some x => .ok x

/-- `get_root_indices` (graph_handler.py:95-96). -/
def getRootIndices (g : GraphHandler α) : List ℕ :=
  (List.range g.parent.length).filter (fun i => g.parent[i]? = some none)

/-- The property `roots` (graph_handler.py:91-93): the comprehension collects the parent entries
which are `None`, not their positions. -/
def roots (g : GraphHandler α) : List (Option ℕ) := g.parent.filter (fun p => p = none)

/-- `get_parent` (graph_handler.py:103-107). -/
def getParent (g : GraphHandler α) (v : α) : Except PyErr (Option α) := do
  let i ← pyIndex g.values v
  match ← pyGet g.parent i with
  | none => .ok none
  | some p => do
    let w ← pyGet g.values p
    .ok (some w)

/-- `get_children` (graph_handler.py:109-111). -/
def getChildren (g : GraphHandler α) (v : α) : Except PyErr (List α) := do
  let i ← pyIndex g.values v
  let c ← pyGet g.children i
  c.mapM (fun j => pyGet g.values j)

/-- `set_root` (graph_handler.py:98-101). -/
def setRoot (g : GraphHandler α) (v : α) : GraphHandler α where
  values := g.values ++ [v]
  children := g.children ++ [[]]
  parent := g.parent ++ [none]

/-- `add_element_with_parent` (graph_handler.py:113-122): the element is appended before the parent
is looked up. -/
def addElementWithParent (g : GraphHandler α) (v p : α) : GraphHandler α × Except PyErr Unit :=
  let g1 : GraphHandler α := { g with values := g.values ++ [v], children := g.children ++ [[]] }
  let indNode := g1.values.length - 1
  match pyIndex g1.values p with
  | .error e => (g1, .error e)
  | .ok indParent =>
    match g1.children[indParent]? with
    | none => (g1, .error .indexError)
    | some c =>
      ({ g1 with
          children := g1.children.set indParent (c ++ [indNode])
          parent := g1.parent ++ [some indParent] }, .ok ())

/-- `set_parent_of_element` (graph_handler.py:124-130). -/
def setParentOfElement (g : GraphHandler α) (v p : α) : GraphHandler α × Except PyErr Unit :=
  match pyIndex g.values v with
  | .error e => (g, .error e)
  | .ok indNode =>
    match pyIndex g.values p with
    | .error e => (g, .error e)
    | .ok indParent =>
      match g.children[indParent]? with
      | none => (g, .error .indexError)
      | some c =>
        let g1 := { g with children := g.children.set indParent (c ++ [indNode]) }
        if indNode < g.parent.length then
          ({ g1 with parent := g.parent.set indNode (some indParent) }, .ok ())
        else (g1, .error .indexError)

/-- `get_nodes_hirarchy_descending` (graph_handler.py:132-140): with at least one root the loop
body reads the attribute `children_indices`, which does not exist; without a root the final line
indexes a list with a list. -/
def getNodesHirarchyDescending (g : GraphHandler α) : Except PyErr (List α) :=
  match g.getRootIndices with
  | [] => .error .typeError
  | _ :: _ => .error .attributeError

/-- `delete_element` (graph_handler.py:142-144). -/
def deleteElement (_ : GraphHandler α) (_ : α) : Except PyErr Unit := .error .notImplemented

/-- The mutating calls of the class. -/
inductive Call (α : Type) where
  | setRoot (v : α)
  | add (v p : α)
  | setParent (v p : α)

/-- One call, with the state it leaves behind and its result. -/
def step (g : GraphHandler α) : Call α → GraphHandler α × Except PyErr Unit
  | .setRoot v => (g.setRoot v, .ok ())
  | .add v p => g.addElementWithParent v p
  | .setParent v p => g.setParentOfElement v p

/-- A history of calls; exceptions are caught by the caller. -/
def run (g : GraphHandler α) (cs : List (Call α)) : GraphHandler α :=
  cs.foldl (fun g c => (g.step c).1) g

end GraphHandler

end Verif
