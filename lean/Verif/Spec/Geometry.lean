import Mathlib.Analysis.InnerProductSpace.PiL2
import Mathlib.Geometry.Euclidean.Angle.Unoriented.Basic

/-!
# Independent geometric specifications

Nothing in this file refers to the model.
-/

open scoped RealInnerProductSpace

namespace Verif.Spec

variable {V : Type*} [NormedAddCommGroup V] [InnerProductSpace ℝ V]

/-- Two vectors form an orthonormal pair. -/
structure OrthonormalPair (a b : V) : Prop where
  norm_fst : ‖a‖ = 1
  norm_snd : ‖b‖ = 1
  orth : ⟪a, b⟫ = 0

/-- `f` is the rotation by the angle `θ` in the oriented plane spanned by the
orthonormal pair `(a, b)`: it is linear, turns `a` towards `b` by `θ`, turns `b`
by the same angle, and does not move anything orthogonal to the plane. -/
structure IsPlaneRotation (a b : V) (θ : ℝ) (f : V → V) : Prop where
  map_add : ∀ v w, f (v + w) = f v + f w
  map_smul : ∀ (c : ℝ) v, f (c • v) = c • f v
  map_fst : f a = Real.cos θ • a + Real.sin θ • b
  map_snd : f b = (-Real.sin θ) • a + Real.cos θ • b
  map_orth : ∀ v, ⟪a, v⟫ = 0 → ⟪b, v⟫ = 0 → f v = v

/-- The unit vector in the direction of a (non-zero) vector. -/
noncomputable def unit (v : V) : V := (1 / ‖v‖) • v

/-- `v` and `w` point in exactly opposite directions. -/
def Opposite (v w : V) : Prop := ∃ c : ℝ, 0 < c ∧ w = (-c) • v

/-- The rotation vector (logarithm) that leads from the unit vector `p` to the unit vector
`v` on the sphere: perpendicular to `p`, its length is the angle between `p` and `v`. -/
noncomputable def sphereLog (p v : V) : V :=
  InnerProductGeometry.angle p v • unit (v - ⟪p, v⟫ • p)

/-- Walking from the unit vector `p` along the great circle in the direction of `w` for the
length of `w` (exponential map of the sphere). -/
noncomputable def sphereExp (p w : V) : V :=
  Real.cos ‖w‖ • p + Real.sin ‖w‖ • unit w

end Verif.Spec
