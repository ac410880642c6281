import Verif.Model.MultiHull

/-!
# Model of further queries of the containers

`MultiObstacleContainer.is_in_free_space` (multi_obstacle_container.py) and `get_convergence_boundary_point`,
`__delitem__` of `MultiBoundaryContainer` (multiboundary_container.py).
-/

namespace Verif.ContainerQueries

open Verif.MultiHull

variable {d : ℕ}

/-- What `MultiObstacleContainer.is_in_free_space` asks of an obstacle: its method `is_in_free_space`, `none` if it does
not have one.  It is neither in the protocol of the obstacles (hierarchy_obstacle_protocol.py) nor in `MultiObstacle`
(multi_obstacle.py:16-188), which the repository puts into these containers. -/
structure FreeSpaceTree (d : ℕ) where
  method : Option (Vec d → Bool)

/-- The loop of `is_in_free_space` (multi_obstacle_container.py:71-76). -/
def freeSpaceLoop (p : Vec d) : List (FreeSpaceTree d) → Except PyErr Bool
  | [] => .ok true
  | t :: ts =>
    match t.method with
    | none => .error .attributeError
    | some free => if free p then freeSpaceLoop p ts else .ok false

/-- `MultiObstacleContainer.is_in_free_space` (multi_obstacle_container.py:66-76). -/
def isInFreeSpace (c : List (FreeSpaceTree d)) (p : Vec d) (inGlobalFrame : Bool) : Except PyErr Bool :=
  if !inGlobalFrame then .error .notImplemented else freeSpaceLoop p c

/-- `get_convergence_boundary_point` (multiboundary_container.py:319-336): the index of the intersection point is used
first, the subtraction from `None` (line 332) comes last. -/
def convergenceBoundaryPoint (c : Hulls d) (child : ℤ) (onChild : Bool) (parent : Option ℤ) :
    Except PyErr (Option (Vec d)) := do
  let point ← pyGetInt c.intersections child
  let it ← if onChild then .ok child else
    match parent with
    | none => .error .valueError
    | some j => .ok j
  let o ← pyGetInt c.obstacles it
  match point with
  | none => .error .typeError
  | some q => .ok (o.intersection o.center (q - o.center))

/-- `MultiBoundaryContainer.__delitem__` (multiboundary_container.py:75-81) with the state it leaves behind.  `value` is
a global name of the module, `none` if there is none, as in the code (`NameError`, one of the `exception`s); otherwise
the external `append` adds the value and the method stops at `breakpoint()`. -/
def delItem (value : Option (Obstacle d)) (c : Hulls d) (_key : ℤ) : Hulls d × Except PyErr Unit :=
  match value with
  | none => (c, .error .exception)
  | some o => ({ c with obstacles := c.obstacles ++ [o] }, .error .breakpoint)

end Verif.ContainerQueries
