import Verif.Spec.Accuracy

/-!
# Exact solutions of the steady diffusion equation on a line

Functions of the position with ordinary derivatives.  Nothing here refers to the forms.
-/

open scoped BigOperators

namespace Festim.Weak

section
variable {Ω : Type} [Fintype Ω]

/-- `w` solves `d/dx (K dw/dx) + f = r w`.  The coefficients are constant in the cells and may jump between them; there the flux
is continuous.  `slope i` and `curv i` are the first and second derivatives in the cell `i`. -/
structure Balances (L : Line Ω) (x0 : ℝ) (K r : ℕ → ℝ) (f : ℕ → ℝ → ℝ) (w : ℝ → ℝ) (slope curv : ℕ → ℝ → ℝ) : Prop where
  hasSlope : ∀ i < L.N, ∀ x ∈ L.span x0 i, HasDerivWithinAt w (slope i x) (L.span x0 i) x
  hasCurv : ∀ i < L.N, ∀ x ∈ L.span x0 i, HasDerivWithinAt (slope i) (curv i x) (L.span x0 i) x
  equation : ∀ i < L.N, ∀ x ∈ L.span x0 i, K i * curv i x + f i x = r i * w x
  flux : ∀ i, i + 1 < L.N → K i * slope i (L.node x0 (i + 1)) = K (i + 1) * slope (i + 1) (L.node x0 (i + 1))

/-- How smooth it is: `Mr` and `Mx` bound the second derivatives of `r w` and of the divergence of the flux. -/
structure BalancesBy (L : Line Ω) (x0 : ℝ) (K r : ℕ → ℝ) (w : ℝ → ℝ) (curv : ℕ → ℝ → ℝ) (Mr Mx : ℝ) : Prop where
  bendDecay : ∀ i < L.N, Bend (fun x => r i * w x) (L.span x0 i) Mr
  bendCurv : ∀ i < L.N, Bend (fun x => K i * curv i x) (L.span x0 i) Mx

/-- Length of the domain. -/
def Line.extent (L : Line Ω) : ℝ := ∑ i ∈ Finset.range L.N, L.h i

/-- Resistance of the layers: thicknesses over conductivities. -/
noncomputable def Line.resist (L : Line Ω) (K : ℕ → ℝ) : ℝ := ∑ i ∈ Finset.range L.N, L.h i / K i

end

end Festim.Weak
