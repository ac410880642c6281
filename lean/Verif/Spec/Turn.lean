import Verif.Spec.Tree

/-!
# Specification: directions in turned coordinates

`R` is a linear isometry of the space: a rotation or a reflection of the axes.
-/

namespace Verif.Spec

variable {I : Type} [DecidableEq I] {d : ℕ}

/-- The rotation, described in the turned coordinates. -/
noncomputable def turnRot (R : Vec d ≃ₗᵢ[ℝ] Vec d) (r : Rot (Vec d)) : Rot (Vec d) :=
  ⟨⟨R r.base.b0, R r.base.b1⟩, r.angle⟩

/-- `p'` is the rotation `p` in turned coordinates; the second base vector does not matter for the angle zero. -/
structure RotTurned (R : Vec d ≃ₗᵢ[ℝ] Vec d) (p p' : Rot (Vec d)) : Prop where
  b0 : p'.base.b0 = R p.base.b0
  angle : p'.angle = p.angle
  b1 : p.angle = 0 ∨ p'.base.b1 = R p.base.b1

/-- The tree with all its directions turned. -/
noncomputable def turnTree (R : Vec d ≃ₗᵢ[ℝ] Vec d) (t : Tree I d) : Tree I d :=
  { t with dir := fun n => (t.dir n).map R }

/-- Two unit vectors are equal, or they are so far apart that `np.allclose` distinguishes them in every coordinate frame:
its tolerance is `1e-8` for each coordinate and additionally `1e-5` of the coordinate. -/
def ClearlyApart (u v : Vec d) : Prop := u = v ∨ 1e-8 * Real.sqrt d + 1e-5 < ‖u - v‖

/-- Neighbouring directions are not opposite, and equal or clearly different. -/
def ClearDirections (t : Tree I d) : Prop :=
  ∀ p c, IsParent t p c → ¬ Opposite (dirOf t p) (dirOf t c) ∧ ClearlyApart (dirOf t p) (dirOf t c)

end Verif.Spec
