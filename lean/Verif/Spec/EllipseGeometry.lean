import Verif.Model.EllipseGeometry

/-!
# Notions for the statements about ellipses
-/

namespace Verif.Spec

open EllipseGeometry
open scoped RealInnerProductSpace

/-- The points of an ellipse with the given half axes at a pose. -/
def ellipseRegion (half : Vec 2) (pose : Pose 2) : Set (Vec 2) :=
  {p | (pose.toRelative p 0 / half 0) ^ 2 + (pose.toRelative p 1 / half 1) ^ 2 ≤ 1}

/-- The half axes of an obstacle, with margin: `Ellipse` stores half axes, `EllipseWithAxes` full axes. -/
noncomputable def halfAxes (o : Body) : Vec 2 :=
  match o.kind with
  | .ellipse => !₂[o.axes 0 + o.margin, o.axes 1 + o.margin]
  | _ => !₂[o.axes 0 / 2 + o.margin, o.axes 1 / 2 + o.margin]

/-- What is assumed about the corners of the intersection of two polygons: they belong to both. -/
def CornersInBoth (corners : Set (Vec 2) → Set (Vec 2) → Except PyErr (List (Vec 2))) : Prop :=
  ∀ s1 s2 ps, corners s1 s2 = .ok ps → ∀ p ∈ ps, p ∈ s1 ∧ p ∈ s2

/-- What is assumed about the intersection of a line with a circle around the origin. -/
structure CircleSpec {d : ℕ} (circle : Vec d → Vec d → ℝ → Option (Vec d)) : Prop where
  on : ∀ s v r q, circle s v r = some q → ‖q‖ = r ∧ ∃ t : ℝ, q = s + t • v
  misses : ∀ s v r, circle s v r = none → ∀ t : ℝ, ‖s + t • v‖ ≠ r

/-- The surface of an ellipsoid with the given axes, in its own frame. -/
def onEllipsoid {d : ℕ} (axes x : Vec d) : Prop := ∑ i, (2 * x i / axes i) ^ 2 = 1

/-- What is assumed about the linear algebra: an orthonormal matrix that starts with the direction of the argument,
and the solution of a linear system with independent columns. -/
structure LinAlgSpec {k : ℕ} (ext : LinAlg k) : Prop where
  orthonormal : ∀ n, n ≠ 0 → Orthonormal ℝ (ext.basis n)
  first : ∀ n, n ≠ 0 → ext.basis n 0 = ‖n‖⁻¹ • n
  solve : ∀ b v, LinearIndependent ℝ b → ∑ i, ext.solve b v i • b i = v

end Verif.Spec
