import Verif.Model.Containers
import Mathlib.Analysis.SpecialFunctions.Pow.Real

/-!
# Model of the relative references of `nonlinear_avoidance/multiboundary_container.py`

`Obstacle.gamma` is `get_gamma(..., relative_gamma=False)` and `Obstacle.intersection` from the centre is
`_get_intersection_with_surface`.
-/

namespace Verif.RelativeReference

variable {d : ℕ}

/-- The relative reference of an obstacle: reset, set with the relative gamma (`none`: the division by
`dist_point - dist_rel_ref` is a division by zero), or not a number. -/
inductive Outcome (d : ℕ) where
  | reset
  | set (point : Vec d) (gamma : Option ℝ)
  | nan

/-- The weight of another boundary (multiboundary_container.py:225-259) with the distances `dist` of the position
and `surface` of the boundary point.  `none` is nan: `dist = 0` or `dist = surface`.  Simplification: a boundary
point closer than the position, which does not happen inside, is `none` too. -/
noncomputable def boundaryWeight (dist surface gamma : ℝ) : Option ℝ :=
  open Classical in
  if gamma < 1 then some 0
  else if 0 < dist ∧ dist < surface then
    let weight2 := min ((gamma - 1) * 3) 5
    let fGap := surface / (surface - dist)
    let fGamma := surface / dist
    let ff := fGap ^ weight2 * fGamma
    let xHat := (surface - dist * ff) / (1 - ff)
    some (xHat / dist)
  else none

/-- The weights of the close boundaries (multiboundary_container.py:216-264) for the boundary number `ii`: zero for
itself; a value outside of `[0, 1]` stops in the debugger. -/
noncomputable def closeWeights (ii : ℕ) (dist surface : ℝ) (point : Vec d) :
    List (Obstacle d × ℕ) → Except PyErr (List (Option ℝ))
  | [] => .ok []
  | (o, jj) :: rest =>
    open Classical in
    if jj = ii then do
      let ws ← closeWeights ii dist surface point rest
      .ok (some 0 :: ws)
    else
      match boundaryWeight dist surface (o.gamma point) with
      | none => do
        let ws ← closeWeights ii dist surface point rest
        .ok (none :: ws)
      | some w =>
        if w > 1 ∨ w < 0 then .error .breakpoint
        else do
          let ws ← closeWeights ii dist surface point rest
          .ok (some w :: ws)

/-- `np.max(weights)` (multiboundary_container.py:266): `ValueError` for no weights, nan (`none`) if one is nan. -/
noncomputable def npMax (ws : List (Option ℝ)) : Except PyErr (Option ℝ) :=
  if none ∈ ws then .ok none
  else
    match (ws.filterMap id).max? with
    | none => .error .valueError
    | some w => .ok (some w)

/-- The relative reference of the boundary number `ii` (multiboundary_container.py:201-289). -/
noncomputable def relativeReference (close : List (Obstacle d × ℕ)) (position : Vec d) (o : Obstacle d) (ii : ℕ) :
    Except PyErr (Outcome d) :=
  open Classical in
  match o.intersection o.center (position - o.center) with
  | none => .error .typeError
  | some point => do
    let surface := ‖point - o.center‖
    let dist := ‖position - o.center‖
    let ws ← closeWeights ii dist surface point close
    let m ← npMax ws
    match m with
    | none => .ok .nan
    | some w =>
      if w > 1 then .error .breakpoint
      else
        let ref := w • position + (1 - w) • o.referencePoint
        let distRef := ‖ref - o.center‖
        if dist - distRef = 0 then .ok (.set ref none)
        else .ok (.set ref (some ((surface - distRef) / (dist - distRef))))

/-- `update_relative_reference_point` (multiboundary_container.py:184-295).  The code treats the boundaries which
contain the position first and resets the others afterwards; the order matters only if an exception is raised. -/
noncomputable def updateRelativeReferencePoint (obstacles : List (Obstacle d)) (position : Vec d) (margin : ℝ) :
    Except PyErr (List (Outcome d)) :=
  open Classical in
  let close := obstacles.zipIdx.filter (fun o => margin < o.1.gamma position ∧ o.1.isBoundary = true)
  obstacles.zipIdx.mapM (fun o =>
    if 1 < o.1.gamma position ∧ o.1.isBoundary = true then relativeReference close position o.1 o.2
    else .ok .reset)

/-- `get_boundary_list` (multiboundary_container.py:160-163): reads the attribute `is_boubndary`, which does not
exist. -/
def getBoundaryList (obstacles : List (Obstacle d)) : Except PyErr (List (Obstacle d)) :=
  match obstacles with
  | [] => .ok []
  | _ :: _ => .error .attributeError

end Verif.RelativeReference
