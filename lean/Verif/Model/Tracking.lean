import Verif.Model.MultiBody

/-!
# Model of the measurements of `MultiBodyObstacle` (multi_body_human.py:137-140, 188-205, 248-311)

The filters of vartools are a parameter: a filter of a component is a pair of a position and an orientation filter, with
a state of type `F`.
-/

namespace Verif

variable {d : ℕ} {F : Type}

/-- `PositionFilter` and `SimpleOrientationFilter` (external): the state after construction
(multi_body_human.py:190-202), `run_once`, and the filtered pose. -/
structure FilterExt (d : ℕ) (F : Type) where
  initial : F
  runOnce : F → Pose d → F
  pose : F → Pose d

/-- A `RigidBody` received from the interface (rigid_body.py:9-15). -/
structure Measurement (d : ℕ) where
  obsId : ℤ
  pose : Pose d

/-- The part of the attributes of `MultiBodyObstacle` which takes part in tracking (multi_body_human.py:104-127): the
update numbers stored in the nodes, the number of obstacles, the filters and the robot with its number and pose. -/
structure Tracker (d : ℕ) (F : Type) where
  updateIds : List (Option ℤ)
  nComponents : ℕ
  filters : List (Option F)
  robot : Option (ℤ × Pose d)

namespace Tracker

/-- `create_filters` (multi_body_human.py:188-204). -/
def createFilters (ext : FilterExt d F) (filters : List (Option F)) (isUpdating : Bool) : List (Option F) :=
  if isUpdating then filters ++ [some ext.initial] else filters ++ [none]

/-- What `set_root` and a successful `add_component` do to these attributes (multi_body_human.py:169-180, 222-243). -/
def addPart (ext : FilterExt d F) (t : Tracker d F) (updateId : Option ℤ) : Tracker d F :=
  { t with
      updateIds := t.updateIds ++ [updateId]
      nComponents := t.nComponents + 1
      filters := createFilters ext t.filters updateId.isSome }

/-- What a rejected `add_component` does: the obstacle is appended, then IndexError (multi_body_human.py:218-221). -/
def addRejected (t : Tracker d F) : Tracker d F := { t with nComponents := t.nComponents + 1 }

/-- A body before `set_root`. -/
def empty (robot : Option (ℤ × Pose d)) : Tracker d F := ⟨[], 0, [], robot⟩

/-- A body made of parts. -/
def build (ext : FilterExt d F) (robot : Option (ℤ × Pose d)) (ids : List (Option ℤ)) : Tracker d F :=
  ids.foldl (addPart ext) (empty robot)

/-- `get_obstacle_id_from_optitrackid` (multi_body_human.py:137-140): the attribute `optitrack_id` does not exist
(KeyError) for any node; without nodes the list is empty (IndexError). -/
def obstacleFromOptitrackId (t : Tracker d F) (_ : ℤ) : Except PyErr ℕ :=
  match t.updateIds with
  | [] => .error .indexError
  | _ :: _ => .error .keyError

/-- `optitrack_indeces` (multi_body_human.py:247-254). -/
def optitrackIndeces (t : Tracker d F) : Except PyErr (List ℤ) :=
  (List.range t.nComponents).mapM (fun i =>
    match t.updateIds[i]? with
    | none => .error .keyError
    | some none => .ok (-1)
    | some (some u) => .ok u)

/-- The pose of the robot (multi_body_human.py:264-277): the first measurement with the number of the robot.
Simplification: the assigned `rotation` is the orientation of the pose. -/
def updateRobot (ms : List (Measurement d)) (robot : Option (ℤ × Pose d)) : Option (ℤ × Pose d) :=
  match robot with
  | none => none
  | some (id, pose) =>
    match ms.find? (fun m => m.obsId = id) with
    | none => some (id, pose)
    | some m => some (id, m.pose)

/-- The pose given to a component (multi_body_human.py:296-309). -/
noncomputable def framePose (robot : Option (ℤ × Pose d)) (transform : Bool) (p : Pose d) : Pose d :=
  match robot with
  | none => p
  | some (_, r) =>
    if transform then ⟨r.toRelative p.position, p.orientation.trans r.orientation.symm⟩ else p

/-- The loop over the measurements (multi_body_human.py:280-309) with the filters and `filtered_poses`; the filters
stay changed after an exception. -/
noncomputable def filterLoop (ext : FilterExt d F) (ids : List ℤ) (frame : Pose d → Pose d) :
    List (Measurement d) → List (Option F) → List (Option (Pose d)) →
      List (Option F) × Except PyErr (List (Option (Pose d)))
  | [], fs, out => (fs, .ok out)
  | m :: ms, fs, out =>
    match ids.findIdx? (fun u => u = m.obsId) with
    | none => filterLoop ext ids frame ms fs out
    | some i =>
      match fs[i]? with
      | none => (fs, .error .indexError)
      | some none => (fs, .error .attributeError)
      | some (some f) =>
        let f' := ext.runOnce f m.pose
        filterLoop ext ids frame ms (fs.set i (some f')) (out.set i (some (frame (ext.pose f'))))

/-- `update_using_optitrack` up to the filtered poses (multi_body_human.py:256-309). -/
noncomputable def receive (ext : FilterExt d F) (transform : Bool) (t : Tracker d F) (ms : List (Measurement d)) :
    Tracker d F × Except PyErr (List (Option (Pose d))) :=
  match t.optitrackIndeces with
  | .error e => (t, .error e)
  | .ok ids =>
    let robot := updateRobot ms t.robot
    let r := filterLoop ext ids (framePose robot transform) ms t.filters (List.replicate t.nComponents none)
    ({ t with robot := robot, filters := r.1 }, r.2)

/-- A history of calls; exceptions are caught by the caller. -/
noncomputable def receiveAll (ext : FilterExt d F) (transform : Bool) (t : Tracker d F)
    (history : List (List (Measurement d))) : Tracker d F :=
  history.foldl (fun t ms => (t.receive ext transform ms).1) t

end Tracker

end Verif
