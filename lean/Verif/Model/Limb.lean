import Verif.Model.MultiBody
import Mathlib.Analysis.SpecialFunctions.Trigonometric.Inverse

/-!
# Model of `update_orientation_based_on_position` (multi_body_human.py:407-440)
-/

namespace Verif

/-- A quaternion in the order of scipy: vector part, then scalar part. -/
structure Quat where
  x : ℝ
  y : ℝ
  z : ℝ
  w : ℝ

/-- `Rotation.from_quat(q).apply(v)` for a quaternion of length one (external, scipy):
`v + 2 w (u × v) + 2 u × (u × v)` with the vector part `u`. -/
noncomputable def Quat.apply (q : Quat) (v : Vec 3) : Vec 3 :=
  let c0 := q.y * v 2 - q.z * v 1
  let c1 := q.z * v 0 - q.x * v 2
  let c2 := q.x * v 1 - q.y * v 0
  !₂[v 0 + 2 * q.w * c0 + 2 * (q.y * c2 - q.z * c1),
     v 1 + 2 * q.w * c1 + 2 * (q.z * c0 - q.x * c2),
     v 2 + 2 * q.w * c2 + 2 * (q.x * c1 - q.y * c0)]

namespace MultiBody

/-- The quaternion for a direction of length one (multi_body_human.py:427-436). -/
noncomputable def limbQuat (a : Vec 3) : Quat :=
  open Classical in
  -- np.cross([0, 0, 1], a)
  let rotVec : Vec 3 := !₂[-(a 1), a 0, 0]
  if ‖rotVec‖ ≠ 0 then
    let theta := Real.arcsin ‖rotVec‖
    let u := (1 / ‖rotVec‖) • rotVec
    ⟨u 0 * Real.cos (theta / 2), u 1 * Real.cos (theta / 2), u 2 * Real.cos (theta / 2),
      Real.sin (theta / 2)⟩
  else ⟨0, 0, 0, 1⟩

/-- The new orientation of a limb, from its position and the attachment point of the parent
(multi_body_human.py:421-440); `none`: the orientation is left as it is. -/
noncomputable def limbOrientation (position referenceParent : Vec 3) : Option Quat :=
  open Classical in
  if ‖position - referenceParent‖ = 0 then none
  else some (limbQuat ((1 / ‖position - referenceParent‖) • (position - referenceParent)))

end MultiBody

end Verif
