import Verif.Model.Sequence

/-!
# Model of `nonlinear_avoidance/rotation_container.py`

`BaseContainer` is external: a list of obstacles.  Of an obstacle the container uses `center_position` and
`get_characteristic_length()`.  `get_angle_space` and `LocallyRotated` (vartools) are parameters; `LinearSystem`
moves along the vector to its attractor, `ConstantValue` with its velocity.
-/

namespace Verif.RotationContainer

variable {d k : ℕ}

/-- What the container uses of an obstacle. -/
structure Item (d : ℕ) where
  center : Vec d
  length : ℝ

/-- The functions of vartools: `get_angle_space(direction, null_direction)`, and `evaluate` of a
`LocallyRotated` with rotation, centre, radius and attractor. -/
structure External (d k : ℕ) where
  angleSpace : Vec d → Vec d → Except PyErr (Vec k)
  rotated : Vec k → Vec d → ℝ → Vec d → Vec d → Vec d

/-- The objects that are stored in `_convergence_dynamics`. -/
inductive Convergence (d k : ℕ) where
  | given (f : Vec d → Vec d)
  | constant (velocity : Vec d)
  | linear (attractor : Vec d)
  | locallyRotated (rotation : Vec k) (center : Vec d) (radius : ℝ) (attractor : Vec d)

/-- `evaluate` of the stored objects (external). -/
def Convergence.evaluate (ext : External d k) : Convergence d k → Vec d → Vec d
  | .given f, x => f x
  | .constant v, _ => v
  | .linear a, x => a - x
  | .locallyRotated r c l a, x => ext.rotated r c l a x

/-- The attributes of a `RotationContainer` (rotation_container.py:24-27): `_obstacle_list`,
`_convergence_dynamics` (`none`: the value `None`) and `convergence_radiuses`. -/
structure Container (d k : ℕ) where
  items : List (Item d)
  dynamics : List (Option (Convergence d k))
  radiuses : List ℝ

/-- `RotationContainer(obs_list)` (rotation_container.py:24-27). -/
def create (items : List (Item d)) : Container d k := ⟨items, items.map (fun _ => none), []⟩

/-- `append` (rotation_container.py:29-31); the argument `convergence_radius` is not used. -/
def append (c : Container d k) (o : Item d) (_convergenceRadius : Option ℝ := none) : Container d k :=
  { c with items := c.items ++ [o], dynamics := c.dynamics ++ [none] }

/-- `del container[key]` (rotation_container.py:33-36): the obstacle itself is used as key of the base class,
which indexes a list with it: `TypeError` (`IndexError` if there is no such obstacle); nothing is deleted. -/
def deleteItem (c : Container d k) (key : ℕ) : Container d k × Except PyErr Unit :=
  match c.items[key]? with
  | none => (c, .error .indexError)
  | some _ => (c, .error .typeError)

/-- `container[key] = value` (rotation_container.py:38-40): `__setitem__` of the base class is called without
the value: `TypeError`. -/
def setItem (c : Container d k) (key : ℕ) (_value : Item d) : Container d k × Except PyErr Unit :=
  match c.items[key]? with
  | none => (c, .error .indexError)
  | some _ => (c, .error .typeError)

section Directions
open Classical

/-- The convergence dynamics of one obstacle if the nonlinear dynamics have no attractor
(rotation_container.py:62-74). -/
noncomputable def withoutAttractor (f : Vec d → Vec d) (o : Item d) : Convergence d k :=
  if ‖f o.center‖ ≠ 0 then .constant (f o.center) else .linear o.center

/-- The convergence dynamics of one obstacle if the nonlinear dynamics have an attractor
(rotation_container.py:79-115).  If the local velocity is zero, `dot_prod` is nan, which differs from `-1`. -/
noncomputable def withAttractor (ext : External d k) (f : Vec d → Vec d) (attractor : Vec d) (o : Item d) :
    Except PyErr (Convergence d k) :=
  if ‖o.center‖ = 0 then .ok (.linear attractor)
  else
    if ‖f o.center‖ ≠ 0 ∧ inner ℝ o.center (f o.center) / (‖o.center‖ * ‖f o.center‖) = -1 then
      .ok (.linear attractor)
    else
      match ext.angleSpace (f o.center) (attractor - o.center) with
      | .error e => .error e
      | .ok r => .ok (.locallyRotated r o.center o.length attractor)

/-- The loop over the obstacles (rotation_container.py:79-115): an exception leaves the entries before it
changed. -/
noncomputable def fill (g : Item d → Except PyErr (Convergence d k)) :
    List (Item d) → List (Option (Convergence d k)) → List (Option (Convergence d k)) × Except PyErr Unit
  | [], ds => (ds, .ok ())
  | _ :: _, [] => ([], .error .indexError)
  | o :: os, e :: ds =>
    match g o with
    | .error err => (e :: ds, .error err)
    | .ok c =>
      let r := fill g os ds
      (some c :: r.1, r.2)

/-- `set_convergence_directions` (rotation_container.py:42-115); `nonlinear` is `evaluate` and
`attractor_position` of the nonlinear dynamics.  Without any argument `AttributeError`. -/
noncomputable def setConvergenceDirections (ext : External d k) (c : Container d k)
    (nonlinear : Option ((Vec d → Vec d) × Option (Vec d))) (converging : Option (Vec d → Vec d)) :
    Container d k × Except PyErr Unit :=
  match converging, nonlinear with
  | some f, _ => ({ c with dynamics := c.items.map (fun _ => some (.given f)) }, .ok ())
  | none, none => (c, .error .attributeError)
  | none, some (f, none) =>
    let r := fill (fun o => .ok (withoutAttractor f o)) c.items c.dynamics
    ({ c with dynamics := r.1 }, r.2)
  | none, some (f, some a) =>
    let r := fill (withAttractor ext f a) c.items c.dynamics
    ({ c with dynamics := r.1 }, r.2)

end Directions

/-- `get_convergence_direction` (rotation_container.py:117-120): `AttributeError` for an entry `None`. -/
def getConvergenceDirection (ext : External d k) (c : Container d k) (position : Vec d) (i : ℕ) :
    Except PyErr (Vec d) :=
  match c.dynamics[i]? with
  | none => .error .indexError
  | some none => .error .attributeError
  | some (some g) => .ok (g.evaluate ext position)

/-- The mutating calls. -/
inductive Call (d : ℕ) where
  | append (o : Item d) (radius : Option ℝ)
  | delete (key : ℕ)
  | replace (key : ℕ) (o : Item d)
  | setDirections (nonlinear : Option ((Vec d → Vec d) × Option (Vec d))) (converging : Option (Vec d → Vec d))

/-- The state after one call; exceptions are caught by the caller. -/
noncomputable def step (ext : External d k) (c : Container d k) : Call d → Container d k
  | .append o r => append c o r
  | .delete key => (deleteItem c key).1
  | .replace key o => (setItem c key o).1
  | .setDirections n f => (setConvergenceDirections ext c n f).1

end Verif.RotationContainer
