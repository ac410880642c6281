import Verif.Spec.Avoider

/-!
# Vocabulary: the tangent of an obstacle
-/

open scoped RealInnerProductSpace

namespace Verif.Spec

variable {d k : ℕ}

/-- `n` is the normal of the obstacle that belongs to the position `x`: at the surface point `s` in
the direction away from the reference point (for cuboids, at a point on the ray from the centre
through `s`). -/
def SurfaceNormal (o : Obstacle d) (x n : Vec d) : Prop :=
  ∃ s, o.intersection (open Classical in if 1 < o.gamma x then o.referencePoint else x)
      (-o.reference x) = some s
    ∧ (o.isCuboid = false → n = o.normal s)
    ∧ (o.isCuboid = true → ∃ c : ℝ, n = o.normal (s + c • (s - o.center)))

/-- `τ` is the unit direction which the obstacle imposes on the direction `v`: the projected tangent
if there is a tail effect or `v` points towards the obstacle, else `v` itself. -/
def TangentOf (ext : Ext d k) (radius : ℝ) (o : Obstacle d) (x v τ : Vec d) : Prop :=
  ∃ n τ', SurfaceNormal o x n
    ∧ ((o.tailEffect = true ∨ ⟪n, v⟫ < 0) → projectedTangent ext v n (o.reference x) radius = .ok τ')
    ∧ (¬ (o.tailEffect = true ∨ ⟪n, v⟫ < 0) → τ' = v) ∧ τ = unit τ'

end Verif.Spec

namespace Verif.Spec

variable {d k : ℕ}

/-- Every obstacle has a single component (its root), and the position is outside of it or on its
surface. -/
def SingleOutside (x : Vec d) (ts : List (ObstacleTree d)) : Prop :=
  ∀ t ∈ ts, t.rootIdx = 0 ∧ ∃ o, t.components = [o] ∧ 1 ≤ o.gamma x

/-- The tangents are not opposite to the direction `v`, and equal to it or further away than the
tolerance of `np.allclose`. -/
def GoodTangents (ext : Ext d k) (radius : ℝ) (x v : Vec d) (ts : List (ObstacleTree d)) : Prop :=
  ∀ t ∈ ts, ∀ o, t.components = [o] → ∀ τ, TangentOf ext radius o x v τ →
    ¬ Opposite (unit v) τ ∧ (unit v = τ ∨ ¬ allclose (unit v) τ)

end Verif.Spec

namespace Verif.Spec

variable {d k : ℕ}

/-- The external functions find the tangent: the ray from the reference point (or the position)
meets the surface, and the projection leads to a direction. -/
def HasTangent (ext : Ext d k) (radius : ℝ) (o : Obstacle d) (x v : Vec d) : Prop :=
  o.isCuboid = false
    ∧ ∃ s, o.intersection (open Classical in if 1 < o.gamma x then o.referencePoint else x)
        (-o.reference x) = some s
      ∧ ((o.tailEffect = true ∨ ⟪o.normal s, v⟫ < 0) →
        ∃ τ, projectedTangent ext v (o.normal s) (o.reference x) radius = .ok τ ∧ τ ≠ 0)

end Verif.Spec
