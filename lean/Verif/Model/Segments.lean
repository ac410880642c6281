import Verif.Model.Tree

/-!
# Model of `nonlinear_avoidance/dynamics/segmented_dynamics.py`

`rotate` and `RotationTransformation2D` (an unfinished class without results) are not modelled.
-/

open scoped RealInnerProductSpace

namespace Verif
namespace Segments

variable {d : ℕ}

/-- `DynamicsSegment` (segmented_dynamics.py:23-44), after `__post_init__`.  The unused attribute
`orientation` is left out. -/
structure Segment (d : ℕ) where
  start : Vec d
  finish : Vec d
  direction : Vec d
  length : ℝ

/-- `DynamicsSegment(start, end)` (segmented_dynamics.py:33-44). -/
noncomputable def Segment.create (start finish : Vec d) : Except PyErr (Segment d) :=
  open Classical in
  let direction := finish - start
  let length := ‖direction‖
  if length = 0 then .error .valueError
  else .ok ⟨start, finish, (1 / length) • direction, length⟩

/-- `DynamicsSegment.get_distance` (segmented_dynamics.py:46-51). -/
noncomputable def Segment.getDistance (s : Segment d) (position : Vec d) : ℝ :=
  let tt := ⟪position - s.start, s.direction⟫
  let tt := min s.length (max tt 0)
  let projection := s.start + tt • s.direction
  ‖position - projection‖

/-- `perpendicular_factor` (segmented_dynamics.py:31). -/
def perpendicularFactor : ℝ := 3

/-- `DynamicsSegment.evaluate` (segmented_dynamics.py:53-61).  (The vector that is normalised is
never zero, theorem `C74_evaluate`.) -/
noncomputable def Segment.evaluate (s : Segment d) (position : Vec d) : Vec d :=
  let tt := ⟪position - s.start, s.direction⟫
  let projection := s.start + tt • s.direction
  let dirPerp := projection - position
  let vector := perpendicularFactor • dirPerp + s.direction
  (1 / ‖vector‖) • vector

/-- `WavyPathFollowing` (segmented_dynamics.py:78-87). -/
structure Path (d : ℕ) where
  segments : List (Segment d)
  last : Segment d
  attractor : Vec d
  maximumVelocity : ℝ := 1
  slowdownDistance : ℝ := 1

/-- `WavyPathFollowing(segments)` (segmented_dynamics.py:78-87): `segments[-1]` raises `IndexError`
for an empty list. -/
def Path.create (segments : List (Segment d)) : Except PyErr (Path d) :=
  match segments.getLast? with
  | none => .error .indexError
  | some l => .ok { segments := segments, last := l, attractor := l.finish }

namespace Path

/-- `evaluate_global_dynamics` (segmented_dynamics.py:97-102). -/
noncomputable def globalDynamics (p : Path d) (position : Vec d) : Vec d :=
  open Classical in
  let direction := p.attractor - position
  if ‖direction‖ = 0 then direction else (1 / ‖direction‖) • direction

/-- `get_weights` (segmented_dynamics.py:104-134) with the default `weight_power=2`,
`weight_factor=3` and `dotprod_power=1`. -/
noncomputable def getWeights (p : Path d) (position : Vec d) : List ℝ :=
  open Classical in
  let distances := p.segments.map (fun s => s.getDistance position)
  if ∃ x ∈ distances, x = 0 then
    distances.map (fun x => if x = 0 then 1 else 0) ++ [0]
  else
    let weights := distances.map (fun x => (3 / x) ^ 2)
    let dotProd := ⟪p.globalDynamics position, p.last.direction⟫
    let weights := if dotProd < 0 then weights.map (fun w => w * (1 + dotProd)) else weights
    let weightSum := weights.sum
    if weightSum < 1 then weights ++ [1 - weightSum]
    else weights.map (fun w => w / weightSum) ++ [0]

/-- The identifiers of the direction tree: `inl ii` is `ii`, `inr k` is the tuple `(1, k)`. -/
abbrev Id := ℕ ⊕ ℕ

/-- The two `add_node` calls of one pass of the loop (segmented_dynamics.py:150-164). -/
noncomputable def addSegment (position : Vec d) (t : Tree Id d) (e : Segment d × ℕ) :
    Except PyErr (Tree Id d) :=
  match t.addNode (.inr e.2) e.1.direction (some (.inr (e.2 + 1))) with
  | (_, .error err) => .error err
  | (t, .ok ()) =>
    match t.addNode (.inl e.2) (e.1.evaluate position) (some (.inr e.2)) with
    | (_, .error err) => .error err
    | (t, .ok ()) => .ok t

/-- The tree of `evaluate_dynamics_sequence` (segmented_dynamics.py:141-164). -/
noncomputable def buildTree [Fact (2 ≤ d)] (p : Path d) (position : Vec d) :
    Except PyErr (Tree Id d) := do
  let t ← (Tree.empty : Tree Id d).setRoot (.inr p.segments.length) (p.globalDynamics position)
  p.segments.zipIdx.reverse.foldlM (addSegment position) t

/-- `evaluate_dynamics_sequence` (segmented_dynamics.py:136-170).  A new tree is made in every call:
`st` are the (irrelevant) initial node attributes. -/
noncomputable def evaluateSequence [Fact (2 ≤ d)] (argsort : List ℤ → List ℕ)
    (st : NodeState Id d) (p : Path d) (position : Vec d) : Except PyErr (RotSeq (Vec d)) := do
  let weights := p.getWeights position
  let t ← p.buildTree position
  t.reduceWeightedToSequence argsort st
    ((List.range p.segments.length).map Sum.inl ++ [.inr p.segments.length]) weights

/-- `evaluate_magnitude` (segmented_dynamics.py:172-178). -/
noncomputable def magnitude (p : Path d) (position : Vec d) : ℝ :=
  open Classical in
  let dist := ‖position - p.attractor‖
  if dist > p.slowdownDistance then p.maximumVelocity
  else dist / p.slowdownDistance * p.maximumVelocity

/-- `evaluate` (segmented_dynamics.py:180-186).  Line 183 returns the *number* zero: `inl`. -/
noncomputable def evaluate [Fact (2 ≤ d)] (argsort : List ℤ → List ℕ) (st : NodeState Id d)
    (p : Path d) (position : Vec d) : Except PyErr (ℝ ⊕ Vec d) :=
  open Classical in
  let vel := p.magnitude position
  if |vel| = 0 then .ok (.inl vel)
  else do
    let s ← p.evaluateSequence argsort st position
    let v ← s.getEndVector
    .ok (.inr (vel • v))

end Path

/-- One pass of the loop of `create_segment_from_points` (segmented_dynamics.py:191-203). -/
noncomputable def segmentBetween (margin : ℝ) (point0 point1 : Vec d) : Except PyErr (Segment d) :=
  open Classical in
  let dir := point1 - point0
  if ‖dir‖ = 0 then .error .valueError
  else
    let dir := (1 / ‖dir‖) • dir
    Segment.create (point0 + margin • dir) (point1 - margin • dir)

/-- `create_segment_from_points` (segmented_dynamics.py:189-205). -/
noncomputable def createFromPoints (points : List (Vec d)) (margin : ℝ := 1 / 2) :
    Except PyErr (Path d) := do
  let segments ← (points.zip (points.drop 1)).mapM (fun e => segmentBetween margin e.1 e.2)
  Path.create segments

end Segments
end Verif
