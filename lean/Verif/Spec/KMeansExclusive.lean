import Verif.Spec.KMeansPredict

/-!
# The two closest centres
-/

namespace Verif.Spec

/-- The result of `np.argsort`: all indices, in the order of the values. -/
def SortsIndices {n : ℕ} (argsort : (Fin n → ℝ) → List (Fin n)) : Prop :=
  ∀ f : Fin n → ℝ, (argsort f).Perm (List.finRange n) ∧ (argsort f).Pairwise (fun i j => f i ≤ f j)

/-- `i` is a closest centre, and `j` a closest one among the others. -/
def ClosestTwo {d n : ℕ} (centers : Fin n → Vec d) (x : Vec d) (i j : Fin n) : Prop :=
  i ≠ j ∧ ‖x - centers i‖ ≤ ‖x - centers j‖ ∧ ∀ m, m ≠ i → ‖x - centers j‖ ≤ ‖x - centers m‖

end Verif.Spec
