import Mathlib.Analysis.InnerProductSpace.PiL2
import Mathlib.Analysis.SpecialFunctions.Complex.Arg
import Mathlib.Analysis.SpecialFunctions.Trigonometric.Inverse
import Mathlib.Analysis.SpecialFunctions.Pow.Real

/-!
# Numeric conventions shared by the whole model

Floats are modelled by `ℝ`; see DESIGN.md section 2.
-/

namespace Verif

/-- Python exceptions (and the debugger call `breakpoint()`) as values.
`nan` marks a result that numpy would fill with `nan` (a division `0/0`). -/
inductive PyErr where
  | valueError
  | typeError
  | keyError
  | indexError
  | attributeError
  | notImplemented
  | unboundLocal
  | zeroDivision
  | breakpoint
  | nan
  | exception
  deriving DecidableEq, Repr

/-- A numpy vector of dimension `d`. -/
abbrev Vec (d : ℕ) := EuclideanSpace ℝ (Fin d)

/-- `np.isclose(a, b)` with the default tolerances `rtol=1e-5`, `atol=1e-8`
(numpy documentation: `|a - b| <= atol + rtol * |b|`). -/
def isclose (a b : ℝ) : Prop := |a - b| ≤ 1e-8 + 1e-5 * |b|

/-- `np.allclose(a, b)` for two vectors: `isclose` in every coordinate. -/
def allclose {d : ℕ} (a b : Vec d) : Prop := ∀ i, isclose (a i) (b i)

/-- `math.atan2(y, x)`. -/
noncomputable def atan2 (y x : ℝ) : ℝ := Complex.arg ⟨x, y⟩

end Verif
