import Verif.Model.MultiBody

/-!
# Model of the conversion of a multi-body obstacle into a composite obstacle

`multi_body_human.py` (`transform_from_multibodyobstacle_to_multiobstacle`, `MultiBodyObstacle.get_gamma`) and
`MultiObstacle.get_gamma` for obstacles which are given by their pose, reference point and axes.
-/

namespace Verif

namespace MultiBody

variable {d : ℕ}

/-- The obstacles of the body (`_obstacle_list`): their poses, and their reference points (in their own frames) and
axes, which the graph of the body does not use. -/
def bodyParts (m : MultiBody d) (shapes : List (Vec d × Vec d)) : List (Part d) :=
  List.zipWith (fun p s => ⟨p, s.1, s.2⟩) m.poses shapes

/-- `get_gamma` (multi_body_human.py:480-491); `gamma` is the `get_gamma` of the obstacles (external), the minimum of
an empty array raises `ValueError`. -/
noncomputable def bodyGamma (gamma : Part d → Vec d → ℝ) (m : MultiBody d) (shapes : List (Vec d × Vec d)) (x : Vec d) :
    Except PyErr ℝ :=
  match ((m.bodyParts shapes).map fun p => gamma p x).min? with
  | none => .error .valueError
  | some g => .ok g

/-- `get_gamma` of the composite obstacle (multi_obstacle.py:91-98), global frame. -/
noncomputable def compositeGamma (gamma : Part d → Vec d → ℝ) (m : MultiObstacle d) (x : Vec d) : Except PyErr ℝ :=
  match (m.parts.map fun p => gamma p x).min? with
  | none => .error .valueError
  | some g => .ok g

/-- The loop of `transform_from_multibodyobstacle_to_multiobstacle` (multi_body_human.py:627-640) over the indices. -/
noncomputable def convertLoop (intersect : Part d → Part d → Option (Vec d)) (m : MultiBody d) (parts : List (Part d)) :
    List ℕ → MultiObstacle d → Except PyErr (MultiObstacle d)
  | [], new => .ok new
  | i :: is, new =>
    match m.getParentIdx i with
    | .error e => .error e
    | .ok none => convertLoop intersect m parts is new
    | .ok (some p) =>
      match parts[i]? with
      | none => .error .indexError
      | some part =>
        match new.addComponent intersect part p (some part.reference) with
        | (_, .error e) => .error e
        | (new', .ok _) => convertLoop intersect m parts is new'

/-- `transform_from_multibodyobstacle_to_multiobstacle` (multi_body_human.py:619-642).  The default for `base` is
`Pose.trivial`. -/
noncomputable def convert (intersect : Part d → Part d → Option (Vec d)) (m : MultiBody d)
    (shapes : List (Vec d × Vec d)) (base : Pose d) : Except PyErr (MultiObstacle d) :=
  let parts := m.bodyParts shapes
  match m.rootIdx with
  | none => .error .attributeError
  | some r =>
    match parts[r]? with
    | none => .error .indexError
    | some root =>
      convertLoop intersect m parts (List.range m.poses.length) ((MultiObstacle.create base).setRoot root).1

/-- The body after the conversion: the obstacles are the same objects, whose poses `set_root` and `add_component`
replace (multi_obstacle.py:135, 172). -/
def afterConversion (m : MultiBody d) (new : MultiObstacle d) : MultiBody d :=
  { m with poses := new.parts.map Part.pose }

end MultiBody

end Verif
