import Verif.Model.Composite
import Mathlib.Analysis.InnerProductSpace.PiL2

/-!
# Model of `nonlinear_avoidance/arch_obstacle.py`

`Cuboid` is external: a component with `axes_length`, without rotation in the frame of the arch.  Its distance
function is a parameter.  `margin_absolut` and `distance_scaling` are passed on to the cuboids only and are left
out.
-/

namespace Verif.Arch

/-- `Cuboid(axes_length=..., pose=Pose(position, orientation=0.0))` (external): the reference point is the
centre. -/
noncomputable def cuboid (axes position : Vec 2) : Part 2 := ⟨⟨position, .refl ℝ _⟩, 0, axes⟩

/-- The root component: the wall (arch_obstacle.py:196-203, and 47-53 for `BlockArchObstacle`). -/
noncomputable def wall (w : ℝ) (axes : Vec 2) : Part 2 := cuboid !₂[w, axes 1] 0

/-- `delta_pos` (arch_obstacle.py:205, 55). -/
noncomputable def deltaPos (w : ℝ) (axes : Vec 2) : Vec 2 := !₂[(axes 0 - w) * 0.5, (axes 1 - w) * 0.5]

/-- The first leg (arch_obstacle.py:209-214, 57-61). -/
noncomputable def upperLeg (w : ℝ) (axes : Vec 2) : Part 2 := cuboid !₂[axes 0, w] (deltaPos w axes)

/-- The second leg (arch_obstacle.py:220-225, 67-71). -/
noncomputable def lowerLeg (w : ℝ) (axes : Vec 2) : Part 2 :=
  cuboid !₂[axes 0, w] !₂[deltaPos w axes 0, -(deltaPos w axes 1)]

/-- A call of `add_component` whose exception would end the constructor. -/
noncomputable def thenAdd (m : MultiObstacle 2) (o : Part 2) (reference : Vec 2) (parent : ℤ) :
    Except PyErr (MultiObstacle 2) :=
  match m.addComponent (fun _ _ => none) o parent (some reference) with
  | (m, .ok _) => .ok m
  | (_, .error e) => .error e

/-- `create_arch_obstacle` (arch_obstacle.py:187-229). -/
noncomputable def create (w : ℝ) (axes : Vec 2) (pose : Pose 2) : Except PyErr (MultiObstacle 2) :=
  let refDist := 0.5 * axes 0 - 0.1 * w
  let m := ((MultiObstacle.create pose).setRoot (wall w axes)).1
  do
  let m ← thenAdd m (upperLeg w axes) !₂[-refDist, 0] 0
  thenAdd m (lowerLeg w axes) !₂[-refDist, 0] 0

/-- `BlockArchObstacle.__init__` (arch_obstacle.py:30-74).  Its methods `set_root` and `add_component`
(arch_obstacle.py:145-179) are copies of those of `MultiObstacle`; the reference position is mandatory. -/
noncomputable def createBlock (w : ℝ) (axes : Vec 2) (pose : Pose 2) : Except PyErr (MultiObstacle 2) :=
  let m := ((MultiObstacle.create pose).setRoot (wall w axes)).1
  do
  let m ← thenAdd m (upperLeg w axes) !₂[-(deltaPos w axes 0), 0] 0
  thenAdd m (lowerLeg w axes) !₂[-(deltaPos w axes 0), 0] 0

/-- Assignment to the public attribute `BlockArchObstacle.pose` (arch_obstacle.py:40). -/
def assignPose (m : MultiObstacle 2) (p : Pose 2) : MultiObstacle 2 := { m with pose := p }

/-- `BlockArchObstacle.update_obstacles` (arch_obstacle.py:181-184).  It assigns the new pose to the attribute
`shape` of the components, which is not part of the model; their attribute `pose` stays. -/
def updateObstacles (m : MultiObstacle 2) (_deltaTime : ℝ) : MultiObstacle 2 := m

/-- `get_gamma` in the global frame (arch_obstacle.py:106-113, multi_obstacle.py:91-98); `gamma` is `get_gamma`
of a component.  Without components `ValueError`. -/
noncomputable def getGamma (gamma : Part 2 → Vec 2 → ℝ) (m : MultiObstacle 2) (p : Vec 2) : Except PyErr ℝ :=
  match (m.parts.map (fun o => gamma o p)).min? with
  | none => .error .valueError
  | some g => .ok g

/-- `BlockArchObstacle.is_collision_free` (arch_obstacle.py:99-104). -/
noncomputable def isCollisionFree (gamma : Part 2 → Vec 2 → ℝ) (m : MultiObstacle 2) (p : Vec 2) : Bool :=
  open Classical in m.parts.all (fun o => decide (¬ gamma o p ≤ 1))

/-- `BlockArchObstacle.get_gamma_except_components` (arch_obstacle.py:115-134).  The local frame reads the
attribute `_pose`, which does not exist. -/
noncomputable def getGammaExcept (gamma : Part 2 → Vec 2 → ℝ) (m : MultiObstacle 2) (p : Vec 2)
    (excluded : List ℕ) (inGlobalFrame : Bool) : Except PyErr ℝ :=
  if inGlobalFrame then
    match ((m.parts.zipIdx.filter (fun e => e.2 ∉ excluded)).map (fun e => gamma e.1 p)).min? with
    | none => .error .valueError
    | some g => .ok g
  else .error .attributeError

end Verif.Arch
