import Verif.Model.Avoider

/-!
# Model of `RotationalAvoider` (avoidance/rotational_avoider.py)

The static weight functions of the class are in `Verif.Model.Weights`, and the functions without callers in the
package (`_get_projected_velocity`, `_get_rotated_convergence_direction` and others) in
`Verif.Model.DirectionPull`.  Not modelled: `compute_normal_tensor` and `update_relative_reference_point` of some containers: `obstacles` are the obstacles after this update.
-/

open scoped RealInnerProductSpace

namespace Verif.Rotational

variable {d k : ℕ}

/-- A base matrix: `get_orthogonal_basis(normal)`, multiplied by minus one if `negated`. -/
structure NullBase (d : ℕ) where
  normal : Vec d
  negated : Bool

/-- The first column of the base: `get_orthogonal_basis(v)[:, 0]` is the normalised `v`. -/
noncomputable def NullBase.first (b : NullBase d) : Vec d :=
  (if b.negated then (-1 : ℝ) else 1) • ((1 / ‖b.normal‖) • b.normal)

/-- The external functions.

* `toAngle b v`: `UnitDirection(base).from_vector(v).as_angle()` (vartools)
* `ofAngle b a`: `UnitDirection(base).from_angle(a).as_vector()`
* `circleFar s v r`: `get_intersection_with_circle(s, v, r, intersection_type=FAR)`
* `weights`: `compute_weights` (dynamic_obstacle_avoidance)
* `mean null ws ds`: `get_directional_weighted_sum`
* `relative p os`: `get_relative_obstacle_velocity` for the close obstacles
* `argsort`: `np.argsort` -/
structure Ext (d k : ℕ) where
  toAngle : NullBase d → Vec d → Vec k
  ofAngle : NullBase d → Vec k → Vec d
  circleFar : Vec k → Vec k → ℝ → Option (Vec k)
  weights : List ℝ → List ℝ
  mean : Vec d → List ℝ → List (Vec d) → Vec d
  relative : Vec d → List (Obstacle d) → Vec d
  argsort : List ℤ → List ℕ

/-- The obstacle container: the obstacles, the optional method `get_convergence_direction` and the
optional attribute `convergence_radiuses`. -/
structure Environment (d : ℕ) where
  obstacles : List (Obstacle d)
  localConvergence : Option (Vec d → ℕ → Vec d) := none
  convergenceRadiuses : Option (List ℝ) := none

/-- The attributes of a `RotationalAvoider`. -/
structure Avoider (d : ℕ) where
  initialDynamics : Option (Vec d → Vec d)
  environment : Option (Environment d)
  convergenceSystem : Option (Vec d → Vec d)
  cutOffGamma : ℝ
  power : ℝ
  tailRotation : Bool
  convergenceRadius : ℝ

/-- `RotationalAvoider.__init__` (rotational_avoider.py:52-79). -/
noncomputable def create (initial : Option (Vec d → Vec d) := none)
    (environment : Option (Environment d) := none) (convergence : Option (Vec d → Vec d) := none)
    (cutOff : ℝ := 1e6) (tail : Bool := false) (radius : ℝ := Real.pi / 2) : Avoider d :=
  ⟨initial, environment, convergence.or initial, cutOff, 0.3, tail, radius⟩

/-- `get_tangent_convergence_direction` (rotational_avoider.py:853-881). -/
noncomputable def tangentConvergence (ext : Ext d k) (conv ref : Vec k) (radius : ℝ) :
    Except PyErr (Vec k) :=
  open Classical in
  if ‖conv - ref‖ = 0 then
    if h : 0 < k then .ok (EuclideanSpace.single ⟨0, h⟩ radius) else .error .indexError
  else
    match ext.circleFar ref (conv - ref) radius with
    | none => .error .valueError
    | some a => .ok a

/-- `get_smooth_continuation_weight` (rotational_avoider.py:977-1013) with vectors. -/
noncomputable def continuationWeight (ext : Ext d k) (s : Avoider d) (gamma : ℝ)
    (vectorReference vectorConvergence : Vec d) (base : NullBase d) : Except PyErr ℝ :=
  getSmoothContinuationWeight gamma s.convergenceRadius s.power (ext.toAngle base vectorReference)
    (ext.toAngle base vectorConvergence)

/-- `get_pseudo_tangent` (rotational_avoider.py:1015-1038). -/
noncomputable def pseudoTangent (ext : Ext d k) (s : Avoider d)
    (vectorConvergence vectorReference : Vec d) (base : NullBase d) : Except PyErr (Vec d) :=
  open Classical in
  if ‖ext.toAngle base vectorConvergence‖ ≥ s.convergenceRadius ∧ s.tailRotation = false then
    .ok vectorConvergence
  else
    match tangentConvergence ext (ext.toAngle base vectorConvergence)
      (ext.toAngle base vectorReference) s.convergenceRadius with
    | .error e => .error e
    | .ok a => .ok (ext.ofAngle base a)

/-- `get_intermediate_convergence_direction` (rotational_avoider.py:1040-1060). -/
noncomputable def intermediateDirection (ext : Ext d k) (vectorConvergence vectorReference : Vec d)
    (base : NullBase d) : Except PyErr (Vec d) :=
  match tangentConvergence ext (ext.toAngle base vectorConvergence)
    (ext.toAngle base vectorReference) (Real.pi * 0.5) with
  | .error e => .error e
  | .ok a => .ok (ext.ofAngle base a)

variable [h2 : Fact (2 ≤ d)]

/-- The tree of `directional_convergence_summing` (rotational_avoider.py:1097-1128): root `-1`
(convergence), `0` (initial velocity), `1` (first column of the base), possibly `2` (intermediate), and
`3` (tangent). -/
noncomputable def summingTree (ext : Ext d k) (conv ref tangent nonlinear : Vec d) (base : NullBase d)
    (radius : ℝ) : Except PyErr (Tree NodeId d) :=
  open Classical in do
  let t ← (Tree.empty : Tree NodeId d).setRoot (.num (-1)) conv
  let t ← orRaise (t.addNode (.num 0) nonlinear (some (.num (-1))))
  let t ← orRaise (t.addNode (.num 1) base.first (some (.num (-1))))
  if radius > Real.pi * 0.5 then do
    let i ← intermediateDirection ext conv ref base
    let t ← orRaise (t.addNode (.num 2) i (some (.num 1)))
    orRaise (t.addNode (.num 3) tangent (some (.num 2)))
  else orRaise (t.addNode (.num 3) tangent (some (.num 1)))

/-- `directional_convergence_summing` (rotational_avoider.py:1061-1148).  Lines 1087-1089 pass convergence and
reference vector by position, in the order opposite to the parameters of
`get_smooth_continuation_weight`. -/
noncomputable def convergenceSumming (ext : Ext d k) (s : Avoider d) (conv ref : Vec d)
    (base : NullBase d) (gamma : ℝ) (nonlinear : Vec d) (radius : ℝ) : Except PyErr (Vec d) :=
  open Classical in do
  let weight ← continuationWeight ext s gamma conv ref base
  if weight ≤ 0 then .ok nonlinear
  else do
    let tangent ← pseudoTangent ext s conv ref base
    let t ← summingTree ext conv ref tangent nonlinear base radius
    t.getWeightedMean ext.argsort NodeState.init [.num 0, .num 3] [1 - weight, weight]

/-- Reference direction and base of an obstacle (rotational_avoider.py:177-195 and 343-360). -/
noncomputable def obstacleFrame (o : Obstacle d) (position : Vec d) : Vec d × NullBase d :=
  if o.isBoundary then ((-1 : ℝ) • o.reference position, ⟨o.normal position, false⟩)
  else (o.reference position, ⟨o.normal position, true⟩)

/-- The same with the check of rotational_avoider.py:362-364. -/
noncomputable def alignedFrame (o : Obstacle d) (position : Vec d) : Vec d × NullBase d :=
  open Classical in
  let f := obstacleFrame o position
  if ⟪f.1, f.2.first⟫ < 0 then (f.1, ⟨f.2.normal, !f.2.negated⟩) else f

/-- The local variables of the loop of `avoid`. -/
structure LoopState (d : ℕ) where
  convergence : Option (Vec d)
  radius : ℝ
  directions : List (Vec d)

/-- `convergence_velocity` in one pass (rotational_avoider.py:368-374): once found it is kept for all
later obstacles. -/
noncomputable def convergenceVelocity (s : Avoider d) (env : Environment d) (position : Vec d)
    (itObs : ℕ) (known : Option (Vec d)) : Except PyErr (Vec d) :=
  match known with
  | some c => .ok c
  | none =>
    match s.convergenceSystem with
    | some f => .ok (f position)
    | none =>
      match env.localConvergence with
      | some f => .ok (f position itObs)
      | none => .error .attributeError

/-- The convergence radius of one pass (rotational_avoider.py:385-389). -/
def passRadius (env : Environment d) (itObs : ℕ) (old : ℝ) : Except PyErr ℝ :=
  match env.convergenceRadiuses with
  | none => .ok old
  | some [] => .ok old
  | some (r :: rs) =>
    match (r :: rs)[itObs]? with
    | none => .error .indexError
    | some x => .ok x

/-- One pass of the loop of `avoid` (rotational_avoider.py:336-401) for the obstacle number `p.2` with
gamma `p.1.2`. -/
noncomputable def avoidStep (ext : Ext d k) (s : Avoider d) (env : Environment d)
    (position initial : Vec d) (st : LoopState d) (p : (Obstacle d × ℝ) × ℕ) :
    Except PyErr (LoopState d) :=
  open Classical in do
  let conv ← convergenceVelocity s env position p.2 st.convergence
  if ‖conv‖ = 0 then .ok ⟨some conv, st.radius, st.directions ++ [initial]⟩
  else do
    let radius ← passRadius env p.2 st.radius
    let f := alignedFrame p.1.1 position
    let dir ← convergenceSumming ext s conv f.1 f.2 p.1.2 initial radius
    .ok ⟨some conv, radius, st.directions ++ [dir]⟩

/-- The obstacles with `1 <= gamma < cut_off_gamma`, with gamma and number
(rotational_avoider.py:307-315). -/
noncomputable def closeObstacles (s : Avoider d) (env : Environment d) (position : Vec d) :
    List ((Obstacle d × ℝ) × ℕ) :=
  open Classical in
  ((env.obstacles.zip (computeObstacleGamma position env.obstacles)).zipIdx).filter
    (fun p => p.1.2 < s.cutOffGamma ∧ 1 ≤ p.1.2)

/-- The normalised normal of an obstacle, `normal_orthogonal_matrix[:, 0, it]`. -/
noncomputable def unitNormal (position : Vec d) (p : (Obstacle d × ℝ) × ℕ) : Vec d :=
  (1 / ‖p.1.1.normal position‖) • p.1.1.normal position

/-- The end of `avoid` (rotational_avoider.py:403-442). -/
noncomputable def finishAvoid (ext : Ext d k) (sticky : Bool) (position initial relative : Vec d)
    (normInitial : ℝ) (close : List ((Obstacle d × ℝ) × ℕ)) (directions : List (Vec d)) :
    Except PyErr (Vec d) :=
  open Classical in
  let gammas := close.map (fun p => p.1.2)
  let weights := ext.weights gammas
  let normals := close.map (unitNormal position)
  let rotated := ext.mean ((1 / ‖initial‖) • initial) weights directions
  if sticky then .ok (limitMagnitude rotated ‖initial‖ (gammas.zip normals) + relative)
  else
    match gammas.min? with
    | none => .error .valueError
    | some g => do
      let v ← computeSafeMagnitude rotated ‖initial‖
        (List.zipWith (fun (n : Vec d) w => w • n) normals weights).sum g
      let w := v + relative
      if ‖w‖ = 0 then .ok w else .ok ((normInitial / ‖w‖) • w)

/-- The computation of `avoid` (rotational_avoider.py:293-442) after the arguments are settled. -/
noncomputable def avoidBody (ext : Ext d k) (s : Avoider d) (env : Environment d)
    (position initial : Vec d) (convergence : Option (Vec d)) (sticky : Bool) (radius : ℝ) :
    Except PyErr (Vec d) :=
  open Classical in
  if env.obstacles = [] then .ok initial
  else
    let close := closeObstacles s env position
    if close = [] then .ok initial
    else
      let relative := ext.relative position (close.map (fun p => p.1.1))
      let start := initial - relative
      if ‖start‖ = 0 then .ok (start + relative)
      else do
        let st ← close.foldlM (avoidStep ext s env position start) ⟨convergence, radius, []⟩
        finishAvoid ext sticky position start relative ‖initial‖ close st.directions

/-- `avoid` (rotational_avoider.py:256-442): the avoider after the call and the outcome.  A given
convergence radius and a given obstacle list are stored in the object.  Without initial velocity and
initial dynamics: `AttributeError` (`None.evaluate`). -/
noncomputable def avoid (ext : Ext d k) (s : Avoider d) (position : Vec d)
    (initialVelocity : Option (Vec d) := none) (obstacles : Option (Environment d) := none)
    (convergence : Option (Vec d) := none) (sticky : Bool := true) (radius : Option ℝ := none) :
    Avoider d × Except PyErr (Vec d) :=
  match initialVelocity, s.initialDynamics with
  | none, none => (s, .error .attributeError)
  | some v, _ => run v
  | none, some f => run (f position)
where
  /-- The rest, with the initial velocity. -/
  run (v : Vec d) : Avoider d × Except PyErr (Vec d) :=
    let s1 := { s with convergenceRadius := radius.getD s.convergenceRadius }
    match obstacles with
    | some env =>
      let s2 := { s1 with environment := some env }
      (s2, avoidBody ext s2 env position v convergence sticky s1.convergenceRadius)
    | none =>
      match s.environment with
      | none => (s1, .error .valueError)
      | some env => (s1, avoidBody ext s1 env position v convergence sticky s1.convergenceRadius)

/-! ## `avoid_sequence` -/

/-- The local variables of the loop of `avoid_sequence`. -/
structure SequenceState (d : ℕ) where
  tree : Tree NodeId d
  nodes : List NodeId
  weights : List ℝ

/-- One pass of the loop of `avoid_sequence` (rotational_avoider.py:181-235) for obstacle `p.1.1` with
gamma `p.1.2.1`, importance weight `p.1.2.2` and number `p.2`. -/
noncomputable def sequenceStep (ext : Ext d k) (s : Avoider d) (position endVector : Vec d)
    (st : SequenceState d) (p : (Obstacle d × ℝ × ℝ) × ℕ) : Except PyErr (SequenceState d) :=
  open Classical in do
  let f := obstacleFrame p.1.1 position
  let w ← continuationWeight ext s p.1.2.1 f.1 endVector f.2
  if w ≤ 0 then .ok st
  else do
    let tangent ← pseudoTangent ext s endVector f.1 f.2
    if s.convergenceRadius > Real.pi * 0.5 then do
      let i ← intermediateDirection ext endVector f.1 f.2
      let t ← orRaise (st.tree.addNode (.pair (.num 2) p.2) i (some (.num (-1))))
      let t ← orRaise (t.addNode (.num p.2) tangent (some (.pair (.num 2) p.2)))
      .ok ⟨t, st.nodes ++ [.num p.2], st.weights ++ [w * p.1.2.2]⟩
    else do
      let t ← orRaise (st.tree.addNode (.num p.2) tangent (some (.num (-1))))
      .ok ⟨t, st.nodes ++ [.num p.2], st.weights ++ [w * p.1.2.2]⟩

/-- The weights of the convergence and of the initial dynamics (rotational_avoider.py:237-245). -/
noncomputable def finalWeights (convergenceDefault : Bool) (importance weights : List ℝ) : List ℝ :=
  let ws := if convergenceDefault then weights ++ [importance.sum - weights.sum] else weights
  ws ++ [1 - ws.sum]

/-- The nodes belonging to `finalWeights`. -/
def finalNodes (convergenceDefault : Bool) (nodes : List NodeId) : List NodeId :=
  (if convergenceDefault then nodes ++ [.num (-1)] else nodes) ++ [.num (-2)]

/-- `avoid_sequence` (rotational_avoider.py:144-254).  An empty convergence sequence raises in
`add_sequence`. -/
noncomputable def avoidSequence (ext : Ext d k) (s : Avoider d) (position : Vec d)
    (initial convergence : RotSeq (Vec d)) (convergenceDefault : Bool := true) :
    Except PyErr (RotSeq (Vec d)) :=
  match s.environment with
  | none => .error .attributeError
  | some env =>
    match env.obstacles with
    | [] => .ok initial
    | os => do
      let gammas := computeObstacleGamma position os
      let importance := ext.weights gammas
      let t ← Tree.fromSequence interId (.num (-10)) (.num (-2)) initial
      let t ← orRaise (t.addSequence interId (.num (-1)) convergence (.num (-10)))
      let endVector ← convergence.getEndVector
      let st ← (os.zip (gammas.zip importance)).zipIdx.foldlM
        (sequenceStep ext s position endVector) ⟨t, [], []⟩
      st.tree.reduceWeightedToSequence ext.argsort NodeState.init
        (finalNodes convergenceDefault st.nodes)
        (finalWeights convergenceDefault importance st.weights)

end Verif.Rotational
