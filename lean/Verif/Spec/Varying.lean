import Verif.Spec.SteadyAccuracy

/-!
# Exact solutions of the diffusion equation with conductivities which vary in the cells

As in a temperature gradient.  Functions with ordinary derivatives; nothing here refers to the forms.
-/

open scoped BigOperators

namespace Festim.Weak

section
variable {Ω : Type} [Fintype Ω]

/-- `w t x` solves `cap ∂w/∂t = ∂/∂x (K ∂w/∂x) + f - lam cap w` for the times from `0` to `final`.  The conductivity `K t i x` is any
function of the position in each cell, and may jump between the cells; there the flux is continuous.  `slope t i` is the
derivative of `w` in the cell `i`, `div t i` that of the flux `K slope`, `rate` the derivative with respect to the time. -/
structure Conducts (L : Line Ω) (x0 final : ℝ) (cap : ℕ → ℝ) (K : ℝ → ℕ → ℝ → ℝ) (lam : ℝ → ℕ → ℝ) (f : ℝ → ℕ → ℝ → ℝ)
    (w : ℝ → ℝ → ℝ) (slope div : ℝ → ℕ → ℝ → ℝ) (rate : ℝ → ℝ → ℝ) : Prop where
  hasSlope : ∀ t ∈ Set.Icc 0 final, ∀ i < L.N, ∀ x ∈ L.span x0 i,
    HasDerivWithinAt (w t) (slope t i x) (L.span x0 i) x
  hasDiv : ∀ t ∈ Set.Icc 0 final, ∀ i < L.N, ∀ x ∈ L.span x0 i,
    HasDerivWithinAt (fun y => K t i y * slope t i y) (div t i x) (L.span x0 i) x
  hasRate : ∀ t ∈ Set.Icc 0 final, ∀ i < L.N, ∀ x ∈ L.span x0 i,
    HasDerivWithinAt (fun s => w s x) (rate t x) (Set.Icc 0 final) t
  equation : ∀ t ∈ Set.Icc 0 final, ∀ i < L.N, ∀ x ∈ L.span x0 i,
    cap i * rate t x = div t i x + f t i x - lam t i * (cap i * w t x)
  flux : ∀ t ∈ Set.Icc 0 final, ∀ i, i + 1 < L.N →
    K t i (L.node x0 (i + 1)) * slope t i (L.node x0 (i + 1))
      = K t (i + 1) (L.node x0 (i + 1)) * slope t (i + 1) (L.node x0 (i + 1))

/-- How smooth it is. `Mt`, `Mtx`, `Ml` and `Mx` as in `SmoothBy`; `S1` and `S2` bound the first and second derivatives of `w`, `K1` and
`K2` those of the conductivity. -/
structure ConductsBy (L : Line Ω) (x0 final : ℝ) (cap : ℕ → ℝ) (K : ℝ → ℕ → ℝ → ℝ) (lam : ℝ → ℕ → ℝ) (w : ℝ → ℝ → ℝ)
    (slope div : ℝ → ℕ → ℝ → ℝ) (rate : ℝ → ℝ → ℝ) (Mt Mtx Ml Mx S1 S2 K1 K2 : ℝ) : Prop where
  time : ∀ i < L.N, ∀ x ∈ L.span x0 i, ∀ s ∈ Set.Icc 0 final, ∀ t ∈ Set.Icc 0 final,
    |cap i * rate s x - cap i * rate t x| ≤ Mt * |s - t|
  bendRate : ∀ t ∈ Set.Icc 0 final, ∀ i < L.N, Bend (fun x => cap i * rate t x) (L.span x0 i) Mtx
  bendDecay : ∀ t ∈ Set.Icc 0 final, ∀ i < L.N, Bend (fun x => lam t i * (cap i * w t x)) (L.span x0 i) Ml
  bendDiv : ∀ t ∈ Set.Icc 0 final, ∀ i < L.N, Bend (div t i) (L.span x0 i) Mx
  slope_le : ∀ t ∈ Set.Icc 0 final, ∀ i < L.N, ∀ x ∈ L.span x0 i, |slope t i x| ≤ S1
  slope_lip : ∀ t ∈ Set.Icc 0 final, ∀ i < L.N, ∀ x ∈ L.span x0 i, ∀ y ∈ L.span x0 i,
    |slope t i x - slope t i y| ≤ S2 * |x - y|
  cond_lip : ∀ t ∈ Set.Icc 0 final, ∀ i < L.N, ∀ x ∈ L.span x0 i, ∀ y ∈ L.span x0 i,
    |K t i x - K t i y| ≤ K1 * |x - y|
  bendCond : ∀ t ∈ Set.Icc 0 final, ∀ i < L.N, Bend (K t i) (L.span x0 i) K2

/-- The same in steady state: `d/dx (K dw/dx) + f = r w`. -/
structure Holds (L : Line Ω) (x0 : ℝ) (K : ℕ → ℝ → ℝ) (r : ℕ → ℝ) (f : ℕ → ℝ → ℝ) (w : ℝ → ℝ) (slope div : ℕ → ℝ → ℝ) : Prop where
  hasSlope : ∀ i < L.N, ∀ x ∈ L.span x0 i, HasDerivWithinAt w (slope i x) (L.span x0 i) x
  hasDiv : ∀ i < L.N, ∀ x ∈ L.span x0 i, HasDerivWithinAt (fun y => K i y * slope i y) (div i x) (L.span x0 i) x
  equation : ∀ i < L.N, ∀ x ∈ L.span x0 i, div i x + f i x = r i * w x
  flux : ∀ i, i + 1 < L.N → K i (L.node x0 (i + 1)) * slope i (L.node x0 (i + 1))
    = K (i + 1) (L.node x0 (i + 1)) * slope (i + 1) (L.node x0 (i + 1))

structure HoldsBy (L : Line Ω) (x0 : ℝ) (K : ℕ → ℝ → ℝ) (r : ℕ → ℝ) (w : ℝ → ℝ) (slope div : ℕ → ℝ → ℝ)
    (Mr Mx S1 S2 K1 K2 : ℝ) : Prop where
  bendDecay : ∀ i < L.N, Bend (fun x => r i * w x) (L.span x0 i) Mr
  bendDiv : ∀ i < L.N, Bend (div i) (L.span x0 i) Mx
  slope_le : ∀ i < L.N, ∀ x ∈ L.span x0 i, |slope i x| ≤ S1
  slope_lip : ∀ i < L.N, ∀ x ∈ L.span x0 i, ∀ y ∈ L.span x0 i, |slope i x - slope i y| ≤ S2 * |x - y|
  cond_lip : ∀ i < L.N, ∀ x ∈ L.span x0 i, ∀ y ∈ L.span x0 i, |K i x - K i y| ≤ K1 * |x - y|
  bendCond : ∀ i < L.N, Bend (K i) (L.span x0 i) K2

end

end Festim.Weak
