import Verif.Model.MultiHull
import Mathlib.Geometry.Euclidean.Angle.Unoriented.Basic

/-!
# Notions for the statements about containers of hulls
-/

namespace Verif.Spec

open MultiHull

variable {d : ℕ}

/-- The call as a call on the graph of the container. -/
def graphCall : MultiHull.Call d → MultiBoundary.Call
  | .append _ p => .append p
  | .extendGraph i p => .extendGraph i p

/-- The container after a history of calls. -/
def builtHulls (cs : List (MultiHull.Call d)) : Hulls d := cs.foldl Hulls.step Hulls.create

/-- `q` is the stored intersection point of the hull with its parent or with one of its children. -/
def LinkPoint (c : Hulls d) (it : ℕ) (q : Vec d) : Prop :=
  (∃ p : ℕ, c.graph.getParent it = .ok (p : ℤ) ∧ c.intersections[it]? = some (some q))
    ∨ ∃ k : ℕ, c.graph.getParent k = .ok (it : ℤ) ∧ c.intersections[k]? = some (some q)

/-- `o'` is another hull, and `b` is inside of it. -/
def OtherHullAt (c : Hulls d) (it : ℕ) (b : Vec d) (o' : Obstacle d) : Prop :=
  ∃ k, k ≠ it ∧ c.obstacles[k]? = some o' ∧ 1 < o'.gamma b

/-- How far the direction of the position is from the direction of the link point `q`, against how deep the surface
point is in the other hull: zero if the directions agree, below one always. -/
noncomputable def opening (position center q : Vec d) (gamma wd wg : ℝ) : ℝ :=
  (1 - Real.cos (InnerProductGeometry.angle (position - center) (q - center))) * wd
    / ((1 - Real.cos (InnerProductGeometry.angle (position - center) (q - center))) * wd + (gamma - 1) * wg)

end Verif.Spec
