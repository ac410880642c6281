import Verif.Model.Containers
import Mathlib.Analysis.SpecialFunctions.Pow.Real
import Mathlib.Analysis.Real.Pi.Bounds

/-!
# Model of `nonlinear_avoidance/multihull_convergence.py`

The hulls are the obstacles of a `MultiBoundaryContainer` (multiboundary_container.py): boundaries, with `gamma`
above one inside.  The intersection of two hulls is computed with shapely and is a parameter.
-/

namespace Verif.MultiHull

open scoped RealInnerProductSpace

variable {d : ℕ}

/-- `get_weight_gamma_for_hulls` (multihull_convergence.py:34-43).  `power_value` is not used by the code. -/
noncomputable def getWeightGammaForHulls (gammas : List ℝ) : List ℝ :=
  open Classical in
  let weights := gammas.map (fun g => max (g - 1) 0)
  if weights.sum ≠ 0 then weights.map (fun w => w / weights.sum) else weights

/-- The attributes of `MultiBoundaryContainer` (multiboundary_container.py:45-57): `_obstacle_list`, the graph and
`_parent_intersection_point`. -/
structure Hulls (d : ℕ) where
  obstacles : List (Obstacle d)
  graph : MultiBoundary
  intersections : List (Option (Vec d))

/-- `MultiBoundaryContainer()` (multiboundary_container.py:45-57). -/
def Hulls.create : Hulls d := ⟨[], MultiBoundary.create, []⟩

/-- `append` (multiboundary_container.py:59-73): the new hull has no intersection point. -/
def Hulls.append (c : Hulls d) (o : Obstacle d) (parent : Option ℤ) : Hulls d × Except PyErr Unit :=
  let r := c.graph.append parent
  (⟨c.obstacles ++ [o], r.1, c.intersections ++ [none]⟩, r.2)

/-- `extend_graph` (multiboundary_container.py:98-101): the intersection points are not touched. -/
def Hulls.extendGraph (c : Hulls d) (child parent : ℤ) : Hulls d × Except PyErr Unit :=
  let r := c.graph.extendGraph child parent
  ({ c with graph := r.1 }, r.2)

/-- The loop of `update_intersection_graph` (multiboundary_container.py:176-182) over the remaining indices.
`intersect i p` is `_get_intersection` (multiboundary_container.py:141-161, shapely). -/
def updateLoop (graph : MultiBoundary) (intersect : ℕ → ℤ → Except PyErr (Vec d)) :
    List ℕ → List (Option (Vec d)) → Except PyErr (List (Option (Vec d)))
  | [], points => .ok points
  | i :: rest, points => do
    let parent ← graph.getParent i
    if parent < 0 then updateLoop graph intersect rest (points.set i none)
    else
      let p ← intersect i parent
      updateLoop graph intersect rest (points.set i (some p))

/-- `update_intersection_graph` (multiboundary_container.py:169-182).  The stored attractor is left out. -/
def Hulls.updateIntersectionGraph (c : Hulls d) (intersect : ℕ → ℤ → Except PyErr (Vec d)) :
    Except PyErr (Hulls d) := do
  let points ← updateLoop c.graph intersect (List.range c.obstacles.length) c.intersections
  .ok { c with intersections := points }

/-- The calls that change a container of hulls.  `update` is `update_intersection_graph`; exceptions of the
computation of an intersection are left to the caller. -/
inductive Call (d : ℕ) where
  | append (o : Obstacle d) (parent : Option ℤ)
  | extendGraph (child parent : ℤ)

/-- One call. -/
def Hulls.step (c : Hulls d) : Call d → Hulls d
  | .append o p => (c.append o p).1
  | .extendGraph i p => (c.extendGraph i p).1

/-- The weight of one pair of an intersection point and a hull (multihull_convergence.py:96-113); `none` is nan
(the position or the point is at the centre, or both weights vanish).  Simplification: a vanishing denominator
with a non-zero numerator, which needs a negative weight, is `none` too. -/
noncomputable def pairWeight (position center point : Vec d) (gamma dotprodWeight gammaWeight : ℝ) : Option ℝ :=
  open Classical in
  let deltaPos := position - center
  let deltaIntersec := point - center
  if ‖deltaPos‖ * ‖deltaIntersec‖ = 0 then none
  else
    let dotprod := 1 - ⟪deltaPos, deltaIntersec⟫ / (‖deltaPos‖ * ‖deltaIntersec‖)
    let dotprodHat := dotprod * dotprodWeight
    let gammaHat := (gamma - 1) * gammaWeight
    if dotprodHat + gammaHat = 0 then none
    else some (dotprodHat / (dotprodHat + gammaHat))

/-- Python's `min(old, new)` with `new` possibly nan: `old` unless `new < old`. -/
noncomputable def pyMin (old : ℝ) : Option ℝ → ℝ
  | none => old
  | some new => min old new

/-- The inner loop (multihull_convergence.py:86-113) over the hulls, for one intersection point.  `None` as the
boundary point or as the intersection point raises `TypeError` where it is used. -/
noncomputable def hullLoop (position center : Vec d) (it : ℕ) (boundary point : Option (Vec d))
    (dotprodWeight gammaWeight : ℝ) : List (Obstacle d × ℕ) → ℝ → Except PyErr ℝ
  | [], w => .ok w
  | (o, k) :: rest, w =>
    open Classical in
    if k = it then hullLoop position center it boundary point dotprodWeight gammaWeight rest w
    else
      match boundary with
      | none => .error .typeError
      | some b =>
        if o.gamma b ≤ 1 then hullLoop position center it boundary point dotprodWeight gammaWeight rest w
        else
          match point with
          | none => .error .typeError
          | some q => hullLoop position center it boundary point dotprodWeight gammaWeight rest
              (pyMin w (pairWeight position center q (o.gamma b) dotprodWeight gammaWeight))

/-- The outer loop (multihull_convergence.py:85) over the intersection points. -/
noncomputable def pointLoop (position center : Vec d) (it : ℕ) (boundary : Option (Vec d))
    (dotprodWeight gammaWeight : ℝ) (hulls : List (Obstacle d × ℕ)) :
    List (Option (Vec d)) → ℝ → Except PyErr ℝ
  | [], w => .ok w
  | q :: rest, w => do
    let w' ← hullLoop position center it boundary q dotprodWeight gammaWeight hulls w
    pointLoop position center it boundary dotprodWeight gammaWeight hulls rest w'

/-- The intersection with the parent (multihull_convergence.py:71-74). -/
def ownPoints (c : Hulls d) (it : ℕ) (parent : ℤ) : Except PyErr (List (Option (Vec d))) :=
  if 0 ≤ parent then
    match pyGetInt c.intersections it with
    | .error e => .error e
    | .ok p => .ok [p]
  else .ok []

/-- `get_desired_radius` (multihull_convergence.py:46-115).  The call of `get_intersection_with_surface` without a
start is modelled as starting from the centre. -/
noncomputable def getDesiredRadius (c : Hulls d) (position : Vec d) (gammaValue : ℝ) (it : ℕ)
    (dotprodWeight gammaWeight : ℝ) : Except PyErr ℝ := do
  let radius := Real.pi * (2 : ℝ) ^ (-gammaValue)
  let parent ← c.graph.getParent it
  let own ← ownPoints c it parent
  let children ← c.graph.getChildren it
  let others ← children.mapM (fun i => pyGetInt c.intersections i)
  let o ← GraphHandler.pyGet c.obstacles it
  let boundary := o.intersection o.center (position - o.center)
  let w ← pointLoop position o.center it boundary dotprodWeight gammaWeight c.obstacles.zipIdx (own ++ others) 1
  .ok (radius * w)

/-- The obstacles which are relevant for `multihull_attraction` (multihull_convergence.py:148-156), with their
indices. -/
noncomputable def relevant (c : Hulls d) (position : Vec d) (cutoffHigh cutoffLow : ℝ) : List (Obstacle d × ℕ) :=
  open Classical in
  c.obstacles.zipIdx.filter (fun o => o.1.gamma position < cutoffHigh ∧ cutoffLow < o.1.gamma position)

/-- `multihull_attraction` (multihull_convergence.py:118-242) up to the first call of
`directional_convergence_summing` (multihull_convergence.py:209-218).  The call has the argument `weight`, which
the method (avoidance/rotational_avoider.py:1061-1069) does not have, and lacks the required `gamma`: it raises
`TypeError`.  `convergence` is `get_convergence_direction`. -/
noncomputable def multihullAttraction (c : Hulls d) (convergence : Vec d → ℕ → Except PyErr (Vec d))
    (position initial : Vec d) (cutoffHigh cutoffLow : ℝ) : Except PyErr (Vec d) :=
  match relevant c position cutoffHigh cutoffLow with
  | [] => .ok initial
  | (o, i) :: _ => do
    let _ ← convergence position i
    let _ ← getDesiredRadius c position (o.gamma position) i 1 1
    .error .typeError

end Verif.MultiHull
