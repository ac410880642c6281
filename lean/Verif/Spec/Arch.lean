import Verif.Model.Arch

/-!
# Notions for the statements about arch obstacles
-/

namespace Verif.Spec

/-- The arch of wall width `w` and outer size `axes`, in its own frame: a rectangle without the opening on the
right.  The wall is centred at the origin. -/
def archRegion (w : ℝ) (axes : Vec 2) : Set (Vec 2) :=
  {q | -(w / 2) ≤ q 0 ∧ q 0 ≤ axes 0 - w / 2 ∧ |q 1| ≤ axes 1 / 2 ∧ ¬ (w / 2 < q 0 ∧ |q 1| < axes 1 / 2 - w)}

/-- The position is in the interior of the cuboid. -/
def InsideCuboid (o : Part 2) (p : Vec 2) : Prop := ∀ i, |o.pose.toRelative p i| < o.axes i / 2

/-- What is assumed about the distance function of a cuboid: at most one exactly in the cuboid. -/
def CuboidGamma (gamma : Part 2 → Vec 2 → ℝ) : Prop :=
  ∀ o p, gamma o p ≤ 1 ↔ ∀ i, |o.pose.toRelative p i| ≤ o.axes i / 2

end Verif.Spec
