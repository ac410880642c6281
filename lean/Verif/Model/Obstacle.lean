import Verif.Model.Num

/-!
# The obstacle interface

`Obstacle` objects come from the external package `dynamic_obstacle_avoidance`.  The
repository only calls the methods below; the model quantifies over arbitrary functions in
their place.
-/

namespace Verif

/-- The part of the external `Obstacle` interface that the modelled code calls.  All
positions are in the global frame.

* `gamma p`: `get_gamma(p, in_global_frame=True)`
* `normal p`: `get_normal_direction(p, in_global_frame=True)`
* `reference p`: `get_reference_direction(p, in_global_frame=True)`
* `referencePoint`: `global_reference_point` / `get_reference_point(in_global_frame=True)`
* `center`: `center_position`
* `intersection s v`: `get_intersection_with_surface(s, v, in_global_frame=True)`, `none` is
  Python's `None`
* `tailEffect`: attribute `tail_effect`
* `isBoundary`: attribute `is_boundary`
* `isCuboid`: `isinstance(obs, CuboidXd)` -/
structure Obstacle (d : ℕ) where
  gamma : Vec d → ℝ
  normal : Vec d → Vec d
  reference : Vec d → Vec d
  referencePoint : Vec d
  center : Vec d
  intersection : Vec d → Vec d → Option (Vec d)
  tailEffect : Bool
  isBoundary : Bool
  isCuboid : Bool := false

end Verif
