import Verif.Model.RotationalAvoider
import Verif.Model.Projected

/-!
# Model of `SingularityConvergenceDynamics` / `NonlinearRotationalAvoider`
(nonlinear_rotation_avoider.py)

The weights of `compute_gamma_weights` are `importanceWeights` in `Verif.Model.Weights`.  The avoider of
rotational_avoider.py that does the work is `Rotational.Avoider`.
-/

open scoped RealInnerProductSpace

namespace Verif.Nonlinear

variable {d k : ℕ}

/-- The methods of the object `obstacle_convergence` that are called: `evaluate_projected_weight`,
`evaluate_convergence_around_obstacle` and `evaluate_convergence_sequence_around_obstacle` (`none`: the value
`None`). -/
structure ObstacleConvergence (d : ℕ) where
  projectedWeight : Vec d → Obstacle d → Except PyErr ℝ
  aroundObstacle : Vec d → Obstacle d → Except PyErr (Vec d)
  sequenceAround : Vec d → Obstacle d → RotSeq (Vec d) → Except PyErr (Option (RotSeq (Vec d)))

/-- The attributes of a `SingularityConvergenceDynamics` (nonlinear_rotation_avoider.py:136-162).
`magnitude` is the optional method `evaluate_magnitude` of the initial dynamics. -/
structure Avoider (d : ℕ) where
  initial : Dynamics d
  magnitude : Option (Vec d → ℝ) := none
  rotation : Rotational.Avoider d
  convergence : ObstacleConvergence d

/-- `SingularityConvergenceDynamics.__init__` (nonlinear_rotation_avoider.py:136-162): the inner avoider gets
the initial dynamics also as convergence dynamics, and the cut-off 10.  The keyword arguments `tail` and
`radius` are passed on. -/
noncomputable def create (initial : Dynamics d) (magnitude : Option (Vec d → ℝ))
    (environment : Rotational.Environment d) (convergence : ObstacleConvergence d)
    (tail : Bool := false) (radius : ℝ := Real.pi / 2) : Avoider d :=
  ⟨initial, magnitude,
    Rotational.create (some initial.evaluate) (some environment) none 10 tail radius, convergence⟩

section Convergences
variable [Fact (2 ≤ d)]

/-- `ConvergenceDynamicsWithoutSingularity` (nonlinear_rotation_avoider.py:68-116). -/
noncomputable def withoutSingularity (initial : Dynamics d) : ObstacleConvergence d where
  projectedWeight p o := .ok (projectedWeightWithoutSingularity (o.gamma p))
  aroundObstacle _ o := .ok (initial.evaluate o.referencePoint)
  sequenceAround _ o _ := evaluateDynamicsSequence o.referencePoint initial

/-- `ProjectedRotationDynamics` as `obstacle_convergence`, which is also the default
(nonlinear_rotation_avoider.py:152-159). -/
noncomputable def projected (directionalSum : Vec d → List (Vec d) → List ℝ → Vec d)
    (basis : Vec d → (Vec d ≃ₗᵢ[ℝ] Vec d)) (geometry : Obstacle d → Geometry d) (initial : Dynamics d)
    (attractor : Vec d) : ObstacleConvergence d where
  projectedWeight p o :=
    match Projected.evaluateProjectedWeight basis (geometry o) attractor p o with
    | none => .error .nan
    | some w => .ok w
  aroundObstacle p o :=
    Projected.convergenceAroundObstacle directionalSum basis (geometry o) initial.evaluate attractor p o
  sequenceAround p o s :=
    match Projected.convergenceSequence initial attractor p o s with
    | .error e => .error e
    | .ok r => .ok (some r)

end Convergences

/-! ## `evaluate_sequence` -/

variable [h2 : Fact (2 ≤ d)]

/-- One pass of the loop of `evaluate_weighted_dynamics_sequence` (nonlinear_rotation_avoider.py:320-341)
for the obstacle number `p.2`; the two loop variables `ii` and `it_obs` are equal.  Adding the sequence
`None` raises `AttributeError`. -/
noncomputable def weightedStep (c : ObstacleConvergence d) (position : Vec d) (initial : RotSeq (Vec d))
    (st : Rotational.SequenceState d) (p : Obstacle d × ℕ) : Except PyErr (Rotational.SequenceState d) :=
  open Classical in do
  let w ← c.projectedWeight position p.1
  if w ≤ 0 then .ok st
  else do
    match ← c.sequenceAround position p.1 initial with
    | none => .error .attributeError
    | some s => do
      let t ← orRaise (st.tree.addSequence interId (.num p.2) s (.num (-10)))
      .ok ⟨t, st.nodes ++ [.num p.2], st.weights ++ [w]⟩

/-- `node_list` and `node_weights` after nonlinear_rotation_avoider.py:349-353. -/
noncomputable def completed (nodes : List NodeId) (weights : List ℝ) : List NodeId × List ℝ :=
  open Classical in
  if weights.sum ≥ 1 then (nodes, weights.map (fun w => w / weights.sum))
  else (nodes ++ [.num (-1)], weights ++ [1 - weights.sum])

/-- `evaluate_weighted_dynamics_sequence` (nonlinear_rotation_avoider.py:302-360). -/
noncomputable def weightedSequence (argsort : List ℤ → List ℕ) (c : ObstacleConvergence d)
    (obstacles : List (Obstacle d)) (position : Vec d) (initial : RotSeq (Vec d)) :
    Except PyErr (RotSeq (Vec d)) := do
  let t ← Tree.fromSequence interId (.num (-10)) (.num (-1)) initial
  let st ← obstacles.zipIdx.foldlM (weightedStep c position initial) ⟨t, [], []⟩
  st.tree.reduceWeightedToSequence argsort NodeState.init (completed st.nodes st.weights).1
    (completed st.nodes st.weights).2

/-- `magnitude` (nonlinear_rotation_avoider.py:220-228). -/
noncomputable def Avoider.speed (a : Avoider d) (position : Vec d) : ℝ :=
  match a.magnitude with
  | some f => f position
  | none => ‖a.initial.evaluate position‖

/-- `evaluate_sequence` (nonlinear_rotation_avoider.py:219-248); without an environment `len(None)` raises
`TypeError`. -/
noncomputable def evaluateSequence (ext : Rotational.Ext d k) (a : Avoider d) (position : Vec d) :
    Except PyErr (Vec d) :=
  open Classical in
  if a.speed position = 0 then .ok 0
  else do
    match ← evaluateDynamicsSequence position a.initial with
    | none => .ok 0
    | some s =>
      match a.rotation.environment with
      | none => .error .typeError
      | some env => do
        let conv ← weightedSequence ext.argsort a.convergence env.obstacles position s
        let r ← Rotational.avoidSequence ext a.rotation position s conv false
        let v ← r.getEndVector
        .ok (a.speed position • v)

/-! ## `evaluate` -/

/-- The obstacles that `compute_gamma_weights` selects (`ind_obs`,
nonlinear_rotation_avoider.py:269-282), as list of numbers in ascending order. -/
noncomputable def relevant (gammas : List ℝ) (cutOff : ℝ) : List ℕ :=
  open Classical in
  let close := (List.range gammas.length).filter (fun i => gammas.getD i 0 ≤ 1)
  if close ≠ [] then close
  else (List.range gammas.length).filter (fun i => gammas.getD i 0 < cutOff)

/-- One pass of the loop of `evaluate_weighted_dynamics` (nonlinear_rotation_avoider.py:384-398): the node
is named after the obstacle `p.1 = it_obs`, but its direction is computed for the obstacle with the running
number `p.2 = ii`. -/
noncomputable def directionStep (c : ObstacleConvergence d) (obstacles : List (Obstacle d))
    (position : Vec d) (t : Tree NodeId d) (p : ℕ × ℕ) : Except PyErr (Tree NodeId d) :=
  open Classical in
  match obstacles[p.2]? with
  | none => .error .indexError
  | some o => do
    let v ← c.aroundObstacle position o
    let t ← orRaise (t.addNode (.num p.1) v (some (.num (-1))))
    if ‖v‖ = 0 then .error .notImplemented else .ok t

/-- `evaluate_weighted_dynamics` (nonlinear_rotation_avoider.py:362-413). -/
noncomputable def weightedDynamics (argsort : List ℤ → List ℕ) (c : ObstacleConvergence d)
    (obstacles : List (Obstacle d)) (cutOff : ℝ) (position initial : Vec d) : Except PyErr (Vec d) :=
  let gammas := obstacles.map (fun o => o.gamma position)
  let ind := relevant gammas cutOff
  if ind = [] then .ok initial
  else do
    let t ← (Tree.empty : Tree NodeId d).setRoot (.num (-1)) initial
    let t ← ind.zipIdx.foldlM (directionStep c obstacles position) t
    t.getWeightedMean argsort NodeState.init (ind.map (fun i => NodeId.num i))
      (ind.map (fun i => (importanceWeights gammas cutOff).getD i 0))

/-- `evaluate` (nonlinear_rotation_avoider.py:199-217): the inner avoider after the call (it stores a given
convergence radius) and the outcome.  `sticky` and `radius` are keyword arguments. -/
noncomputable def evaluate (ext : Rotational.Ext d k) (a : Avoider d) (position : Vec d)
    (sticky : Bool := true) (radius : Option ℝ := none) :
    Rotational.Avoider d × Except PyErr (Vec d) :=
  open Classical in
  let v := a.initial.evaluate position
  if ‖v‖ = 0 then (a.rotation, .ok v)
  else
    match a.rotation.environment with
    | none => (a.rotation, .error .typeError)
    | some env =>
      let u := (1 / ‖v‖) • v
      match weightedDynamics ext.argsort a.convergence env.obstacles a.rotation.cutOffGamma position u with
      | .error e => (a.rotation, .error e)
      | .ok c =>
        match Rotational.avoid ext a.rotation position (some u) none (some (‖v‖ • c)) sticky radius with
        | (r, .error e) => (r, .error e)
        | (r, .ok w) => (r, .ok (‖v‖ • w))

/-- `avoid` (nonlinear_rotation_avoider.py:191-197) calls `evaluate_convergence_dynamics`, which is commented
out: `AttributeError`. -/
def avoid (_ : Avoider d) (_position _initialVelocity : Vec d) : Except PyErr (Vec d) :=
  .error .attributeError

/-- `get_base_convergence` and `evaluate_convergence_around_obstacle`
(nonlinear_rotation_avoider.py:250-255). -/
def baseConvergence (_ : Avoider d) (_position : Vec d) : Except PyErr (Vec d) := .error .notImplemented

end Verif.Nonlinear
