import Verif.Model.Num
import Mathlib.Analysis.InnerProductSpace.PiL2

/-!
# Rays in the direction space

What the pulling functions of the rotational avoider need from the external intersections with a circle around
the origin.
-/

namespace Verif.Spec

/-- The ray from a point strictly inside the circle leaves the circle at the returned point. -/
def LeavesCircle {k : ℕ} (circle : Vec k → Vec k → ℝ → Option (Vec k)) : Prop :=
  ∀ (s v : Vec k) (r : ℝ), ‖s‖ < r → v ≠ 0 →
    ∃ t : ℝ, 0 < t ∧ circle s v r = some (s + t • v) ∧ ‖s + t • v‖ = r

/-- Inverting the normal turns an angle of size `a` into one of size `π - a`. -/
def InvertsAngle {k : ℕ} (invert : Vec k → Vec k) : Prop :=
  ∀ a : Vec k, ‖a‖ ≤ Real.pi → ‖invert a‖ = Real.pi - ‖a‖

end Verif.Spec
