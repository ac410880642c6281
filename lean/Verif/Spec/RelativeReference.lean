import Verif.Model.RelativeReference

/-!
# Notions for the statements about relative references
-/

namespace Verif.Spec

variable {d : ℕ}

/-- The position is in the boundary `o`. -/
def InBoundary (o : Obstacle d) (position : Vec d) : Prop := o.isBoundary = true ∧ 1 < o.gamma position

/-- What is assumed about a boundary around a position: the surface point `s` is on the ray from the centre through
the position, behind it. -/
structure SurfaceAhead (o : Obstacle d) (position s : Vec d) : Prop where
  surface : o.intersection o.center (position - o.center) = some s
  ne : position ≠ o.center
  ahead : ∃ l : ℝ, 1 < l ∧ s = o.center + l • (position - o.center)

/-- The exponent a boundary with value `g` at the surface point contributes: zero on its surface, at most five. -/
noncomputable def passageExponent (g : ℝ) : ℝ := min (3 * (g - 1)) 5

/-- The boundary number `j` is another one that is not too far from the position and contains the point `s`. -/
def PassageAt (obstacles : List (Obstacle d)) (margin : ℝ) (position : Vec d) (i : ℕ) (s : Vec d) (o : Obstacle d) :
    Prop :=
  ∃ j, j ≠ i ∧ obstacles[j]? = some o ∧ o.isBoundary = true ∧ margin < o.gamma position ∧ 1 ≤ o.gamma s

end Verif.Spec
