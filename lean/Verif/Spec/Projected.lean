import Verif.Spec.Geometry
import Verif.Model.Num

/-!
# Specifications for the projected dynamics
-/

namespace Verif.Spec

/-- The centre from which distances to the obstacle are measured: the origin in the obstacle
frame (`none`), the global reference point otherwise. -/
def centre {d : ℕ} (ref : Option (Vec d)) : Vec d := ref.getD 0

/-- The radius depends only on the direction in which one leaves the centre `c`. -/
def DirectionOnly {d : ℕ} (c : Vec d) (radius : Vec d → ℝ) : Prop :=
  ∀ v : Vec d, ∀ t : ℝ, 0 < t → radius (c + t • v) = radius (c + v)

end Verif.Spec
