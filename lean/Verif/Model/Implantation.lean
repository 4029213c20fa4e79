import Verif.Model.Py
import Mathlib.Analysis.SpecialFunctions.Pow.Real
import Mathlib.Analysis.SpecialFunctions.Trigonometric.Basic

/-!
# The implantation source

festim/sources/source_implantation_flux.py.

Simplifications: `flux`, `imp_depth` and `width` are real numbers (their values at the current time when
they are sympy expressions of `t`); the value is the exact function of `x`, which FEniCS interpolates in
each cell with polynomials of degree 2.
-/

namespace Festim.Implantation

/-- `distribution` (source_implantation_flux.py:36-40); Python divides the number `1` by a number. -/
noncomputable def distribution (imp_depth width : ℝ) : Except PyErr (ℝ → ℝ) :=
  let den := width * (2 * Real.pi) ^ (0.5 : ℝ)
  if den = 0 then .error .zeroDivisionError
  else .ok fun x => 1 / den * Real.exp (-0.5 * ((x - imp_depth) / width) ^ 2)

/-- The value given to `Source` (source_implantation_flux.py:32-42), with field `"0"`. -/
noncomputable def value (flux imp_depth width : ℝ) : Except PyErr (ℝ → ℝ) := do
  let f ← distribution imp_depth width
  .ok fun x => flux * f x

end Festim.Implantation
