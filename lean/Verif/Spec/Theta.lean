import Verif.Spec.Forms
import Verif.Model.Theta

/-!
# Vocabulary of the statements about the chemical potential
-/

open scoped BigOperators

namespace Festim.Weak

/-- Pressure of the gas in equilibrium with a concentration `c`: `(c/K_S)²` with Sievert's law,
`c/K_H` with Henry's. -/
noncomputable def partialPressure (mat : Mat) (T c : ℝ) : ℝ :=
  match mat.law with
  | .sievert => (c / arr mat.S_0 mat.E_S T) ^ 2
  | .henry => c / arr mat.S_0 mat.E_S T

/-- A finite element space, given by the values of its functions at the quadrature points. -/
def Linear {Ω : Type} (V : Set (Ω → ℝ)) : Prop := ∀ u ∈ V, ∀ v ∈ V, (fun p => u p - v p) ∈ V

/-- Outcome of `f.solve(F == 0, u)`: `u` belongs to the space and the form vanishes for all the test
functions. -/
structure Solves {Ω Γ : Type} [Fintype Ω] [Fintype Γ] {d : ℕ} (m : Mesh Ω Γ d) (V : Set (Ω → ℝ))
    (F : (Ω → ℝ) → (Ω → ℝ) → Form Ω Γ) (u : Ω → ℝ) : Prop where
  mem : u ∈ V
  zero : ∀ v ∈ V, m.assemble (F u v) = 0

end Festim.Weak
