import Verif.Model.DirectionalFit

/-!
# Notions for the fit by expectation and maximisation
-/

namespace Verif.Spec
open DirectionalFit

variable {S ρ G : Type} {N K : ℕ}

/-- The parameters after one expectation and maximisation. -/
noncomputable def improved (lib : Library S ρ G N K) (s : S) : S :=
  let g := lib.estimateGaussianParameters fun n k => Real.exp ((lib.estimateLogProbResp s).2 n k)
  lib.estimatePrecisions g (lib.estimateMeans g (lib.estimateWeights g s))

/-- The lower bound reported for the parameters `improved lib s`. -/
noncomputable def boundOf (lib : Library S ρ G N K) (s : S) : ℝ :=
  lib.computeLowerBound (improved lib s) (lib.estimateLogProbResp s).2 ((∑ n, (lib.estimateLogProbResp s).1 n) / N)

/-- The lower bound after `j` improvements of `s`; `before` is the one known at the start. -/
noncomputable def boundAfter (lib : Library S ρ G N K) (before : Option ℝ) (s : S) : ℕ → Option ℝ
  | 0 => before
  | j + 1 => some (boundOf lib ((improved lib)^[j] s))

/-- The bound changed by less than the tolerance in the improvement `j + 1`. -/
def Settled (lib : Library S ρ G N K) (tol : ℝ) (before : Option ℝ) (s : S) (j : ℕ) : Prop :=
  ∃ p q, boundAfter lib before s j = some p ∧ boundAfter lib before s (j + 1) = some q ∧ |q - p| < tol

/-- A run of the algorithm: it starts at `start`, does `steps` improvements and ends with the bound `bound`. -/
structure Run (S : Type) where
  start : S
  steps : ℕ
  bound : ℝ

/-- The parameters at the end of the run. -/
noncomputable def Run.last (lib : Library S ρ G N K) (r : Run S) : S := (improved lib)^[r.steps] r.start

/-- The run has stopped because its bound settled. -/
def Run.HasConverged (lib : Library S ρ G N K) (tol : ℝ) (before : Option ℝ) (r : Run S) : Prop :=
  ∃ j, r.steps = j + 1 ∧ Settled lib tol before r.start j

/-- The run follows the rules: one to `maxIter` steps, and it stops at the first step where the bound has settled, and
before the last step only there. -/
structure Run.Proper (lib : Library S ρ G N K) (tol : ℝ) (maxIter : ℕ) (before : Option ℝ) (r : Run S) : Prop where
  pos : 0 < r.steps
  le : r.steps ≤ maxIter
  bound : boundAfter lib before r.start r.steps = some r.bound
  first : ∀ j, j + 1 < r.steps → ¬ Settled lib tol before r.start j
  stop : r.steps < maxIter → r.HasConverged lib tol before

/-- The runs start one after the other from initial parameters drawn with the random state, which advances. -/
def Drawn (lib : Library S ρ G N K) : S → ρ → List (Run S) → Prop
  | _, _, [] => True
  | s, rng, r :: rs => r.start = (lib.initializeParameters s rng).1
      ∧ Drawn lib (r.last lib) (lib.initializeParameters s rng).2 rs

/-- The label is the first component with the largest responsibility for the sample. -/
def IsFirstLargest (f : Fin K → ℝ) (k : Fin K) : Prop := (∀ j, f j ≤ f k) ∧ ∀ j, j < k → f j < f k

end Verif.Spec
