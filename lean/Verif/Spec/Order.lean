import Verif.Spec.Tree

/-!
# Specification: well separated directions at the inner nodes of a tree
-/

namespace Verif.Spec

variable {d : ℕ} {I : Type}

/-- No direction is opposite to the direction of its parent, and the directions of nodes with children are equal to
the direction of the parent or further away than the tolerance of `np.allclose`.  (The directions of leaves may be as
close to the direction of the parent as they like.) -/
def InnerDirections (t : Tree I d) : Prop :=
  ∀ p c, IsParent t p c → ¬ Opposite (dirOf t p) (dirOf t c)
    ∧ (dirOf t p = dirOf t c ∨ ¬ allclose (dirOf t p) (dirOf t c) ∨ ∀ e, ¬ IsParent t c e)

end Verif.Spec
