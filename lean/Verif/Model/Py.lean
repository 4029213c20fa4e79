import Mathlib.Algebra.Order.Field.Rat
import Mathlib.Algebra.Order.AbsoluteValue.Basic

/-!
# Python-level vocabulary used by the whole model

Exceptions are values, floats of the control logic are exact rationals.
-/

namespace Festim

/-- Python exceptions that the modelled code can raise.  The message is the literal message
of the `raise` statement when there is one, otherwise a short description of the implicit error
(e.g. generic_simulation.py:126, 333-342, stepsize.py:100-104, trap.py:62-66). -/
inductive PyErr where
  | valueError (msg : String)
  | typeError (msg : String)
  | attributeError (msg : String)
  | indexError (msg : String)
  | keyError (msg : String)
  | zeroDivisionError
  | fileNotFoundError (msg : String)
  | notImplementedError (msg : String)
  | runtimeError (msg : String)
  deriving DecidableEq, Repr

/-- `numpy.isclose(a, b, atol=0)` with its default `rtol=1e-5`:
`absolute(a - b) <= (atol + rtol * absolute(b))`.
Used with `atol=0` in festim/generic_simulation.py:480-482, 532, festim/stepsize.py:119-121,
festim/exports/xdmf_export.py:158, festim/exports/txt_export.py and
festim/exports/derived_quantities/derived_quantities.py.
Simplified: exact rationals, no `nan`/`inf`. -/
def isclose (a b : ℚ) : Bool := decide (|a - b| ≤ 1 / 100000 * |b|)

/-- Python truthiness of an optional number (`None` and `0` are falsy)
(stepsize.py:53, 75, txt_export.py:51). -/
def truthy : Option ℚ → Bool
  | none => false
  | some q => decide (q ≠ 0)

end Festim
