import Verif.Spec.Tree
import Verif.Spec.Path

/-!
# Specification vocabulary for directions in the plane (C115)
-/

namespace Verif.Spec

variable {I : Type} [DecidableEq I]

/-- Counter-clockwise rotation of the plane by the angle `θ`. -/
noncomputable def turnBy (θ : ℝ) (v : Vec 2) : Vec 2 :=
  !₂[Real.cos θ * v 0 - Real.sin θ * v 1, Real.sin θ * v 0 + Real.cos θ * v 1]

/-- `Θ n` is the signed angle accumulated on the way from the root to the node `n`: every edge
adds the signed angle, strictly between `-π` and `π`, from the direction of the parent to the
direction of the child. -/
structure PathAngles (t : Tree I 2) (r : I) (Θ : I → ℝ) : Prop where
  root : Θ r = 0
  edge : ∀ p c, IsParent t p c → |Θ c - Θ p| < Real.pi
    ∧ dirOf t c = turnBy (Θ c - Θ p) (dirOf t p)

/-- The signed angle, counter-clockwise, from the direction of `u` to the direction of `v`. -/
noncomputable def signedAngle (u v : Vec 2) : ℝ :=
  Complex.arg ⟨u 0 * v 0 + u 1 * v 1, u 0 * v 1 - u 1 * v 0⟩

/-- The total signed angle along a list of directions. -/
noncomputable def turning : List (Vec 2) → ℝ
  | [] => 0
  | [_] => 0
  | u :: v :: l => signedAngle u v + turning (v :: l)

/-- The directions along a sequence of rotations: the first vector of every rotation, then the
second vector of the last one. -/
noncomputable def pathVectors (s : List (Rot (Vec 2))) : List (Vec 2) :=
  s.map Rot.getFirstVector ++ (s.getLast?.map Rot.getSecondVector).toList

/-- The total signed angle along a sequence of rotations. -/
noncomputable def pathTurn (s : List (Rot (Vec 2))) : ℝ := turning (pathVectors s)

end Verif.Spec
