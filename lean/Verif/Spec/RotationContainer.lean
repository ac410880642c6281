import Verif.Model.RotationContainer
import Verif.Spec.Geometry

/-!
# Notions for the statements about `RotationContainer`
-/

namespace Verif.Spec

open RotationContainer

/-- What is assumed about vartools: the angle space coordinates of a direction relative to another one exist, and
dynamics that are locally rotated by these coordinates have at their centre that direction. -/
structure SaneRotated {d k : ℕ} (ext : External d k) : Prop where
  total : ∀ v n : Vec d, v ≠ 0 → n ≠ 0 → ∃ r, ext.angleSpace v n = .ok r
  centre : ∀ (v a c : Vec d) (l : ℝ) (r : Vec k), v ≠ 0 → a - c ≠ 0 → 0 < l → ext.angleSpace v (a - c) = .ok r →
    unit (ext.rotated r c l a c) = unit v

/-- The container after a history of calls. -/
noncomputable def history {d k : ℕ} (ext : External d k) (items : List (Item d)) (calls : List (Call d)) :
    Container d k :=
  calls.foldl (step ext) (RotationContainer.create items)

end Verif.Spec
