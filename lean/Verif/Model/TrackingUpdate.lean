import Verif.Model.Tracking
import Verif.Model.Containers

/-!
# Model of `MultiBodyObstacle.update_dynamic_obstacle` (multi_body_human.py:388-405)
-/

namespace Verif.Tracker

variable {d : ℕ} {F : Type}

/-- What `update_dynamic_obstacle` changes of a part: `pose` and `linear_velocity`. -/
structure MovingPart (d : ℕ) where
  pose : Pose d
  velocity : Vec d

/-- `update_dynamic_obstacle` (multi_body_human.py:388-405) with the state it leaves behind.  `velocity` is the attribute
of the position filter, `transform_linear_velocity_to_relative` (vartools) turns a velocity into the frame of the pose.
The measurement is not used: the lines with the filters (390-391) are comments. -/
noncomputable def updateDynamicObstacle (ext : FilterExt d F) (velocity : F → Vec d) (t : Tracker d F)
    (parts : List (MovingPart d)) (idx : ℤ) (_measure : Measurement d) : List (MovingPart d) × Except PyErr Unit :=
  match t.robot with
  | none => (parts, .error .attributeError)
  | some (_, r) =>
    match pyGetInt t.filters idx with
    | .error e => (parts, .error e)
    | .ok none => (parts, .error .attributeError)
    | .ok (some f) =>
      match pyIdx parts.length idx with
      | none => (parts, .error .indexError)
      | some k =>
        (parts.set k ⟨⟨r.toRelative (ext.pose f).position, (ext.pose f).orientation.trans r.orientation.symm⟩,
          r.orientation.symm (velocity f)⟩, .ok ())

end Verif.Tracker
