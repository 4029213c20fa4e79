import Mathlib.Data.Real.Basic
import Mathlib.Algebra.BigOperators.Group.Finset.Basic
import Mathlib.Analysis.Calculus.Deriv.Basic

/-!
# Spec for C115: kinetics at one point, compared with the exact solution

Nothing here refers to the model of the code.
-/

open scoped BigOperators

namespace Festim.Spec

/-- `Y` is a solution, from time zero on, of the ordinary differential equation `Y' = rhs Y`. -/
def Evolves (rhs : ℝ → ℝ) (Y : ℝ → ℝ) : Prop :=
  ∀ t, 0 ≤ t → HasDerivWithinAt Y (rhs (Y t)) (Set.Ici 0) t

/-- The time after the first `i` steps. -/
def elapsed (h : ℕ → ℝ) (i : ℕ) : ℝ := ∑ j ∈ Finset.range i, h j

/-- What a computed value `y`, after `i` steps from `y0`, has to do with the exact value `Y`: both are
on the same side of the equilibrium as `y0`, the computed one lags behind, the error is of first
order in the stepsizes and the equilibrium is approached. -/
structure TracksExact (eq rate : ℝ) (h : ℕ → ℝ) (i : ℕ) (y0 y Y : ℝ) : Prop where
  fromBelow : y0 ≤ eq → y0 ≤ y ∧ y ≤ Y ∧ Y ≤ eq
  fromAbove : eq ≤ y0 → eq ≤ Y ∧ Y ≤ y ∧ y ≤ y0
  error : |y - Y| ≤ |y0 - eq| * rate ^ 2 * ∑ j ∈ Finset.range i, h j ^ 2
  near : |y - eq| ≤ |y0 - eq| / (1 + rate * elapsed h i)

end Festim.Spec
