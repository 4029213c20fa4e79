import Verif.Spec.Line
import Mathlib.Analysis.Calculus.Deriv.Basic
import Mathlib.Analysis.Real.Sqrt

/-!
# Exact solutions of the diffusion equation on a line

What the discrete solutions are compared with: functions of the time and of the position, with ordinary
derivatives.  Nothing here refers to the forms.
-/

open scoped BigOperators

namespace Festim.Weak

section
variable {Ω : Type} [Fintype Ω]

/-- Position of a node, `x0` being the left end. -/
noncomputable def Line.node (L : Line Ω) (x0 : ℝ) (i : ℕ) : ℝ := x0 + ∑ j ∈ Finset.range i, L.h j

/-- A cell. -/
def Line.span (L : Line Ω) (x0 : ℝ) (i : ℕ) : Set ℝ := Set.Icc (L.node x0 i) (L.node x0 (i + 1))

/-- Position of a quadrature point. -/
noncomputable def Line.pos (L : Line Ω) (x0 : ℝ) (p : Ω) : ℝ :=
  L.node x0 (L.cell p) + L.lam p * L.h (L.cell p)

/-- The node at an end. -/
def Line.endNo (L : Line Ω) (q : Bool) : ℕ := if q then L.N else 0

/-- `√ ∫ cap v²`. -/
noncomputable def Line.energy (L : Line Ω) (cap : ℕ → ℝ) (v : ℕ → ℝ) : ℝ :=
  √(∑ p, L.w p * (cap (L.cell p) * (L.p1 v).val p ^ 2))

/-- `√ ∫ 1 / cap`: the square root of the length when `cap = 1`. -/
noncomputable def Line.size (L : Line Ω) (cap : ℕ → ℝ) : ℝ := √(∑ i ∈ Finset.range L.N, L.h i / cap i)

end

/-- `φ` is differentiable on `s` and its derivative is Lipschitz with constant `M` there (as when its second
derivative is bounded by `M`). -/
def Bend (φ : ℝ → ℝ) (s : Set ℝ) (M : ℝ) : Prop :=
  ∃ φ' : ℝ → ℝ, (∀ x ∈ s, HasDerivWithinAt φ (φ' x) s x) ∧ ∀ x ∈ s, ∀ y ∈ s, |φ' x - φ' y| ≤ M * |x - y|

section
variable {Ω : Type} [Fintype Ω]

/-- `w t x` solves `cap ∂w/∂t = ∂/∂x (K ∂w/∂x) + f - lam cap w` for the times from `0` to `final`.  The coefficients
are constant in the cells and may jump between them; there the flux is continuous.  `slope t i` and `curv t i` are the
first and second derivatives in the cell `i`, `rate` is the derivative with respect to the time. -/
structure Diffuses (L : Line Ω) (x0 final : ℝ) (cap : ℕ → ℝ) (K lam : ℝ → ℕ → ℝ) (f : ℝ → ℕ → ℝ → ℝ)
    (w : ℝ → ℝ → ℝ) (slope curv : ℝ → ℕ → ℝ → ℝ) (rate : ℝ → ℝ → ℝ) : Prop where
  hasSlope : ∀ t ∈ Set.Icc 0 final, ∀ i < L.N, ∀ x ∈ L.span x0 i,
    HasDerivWithinAt (w t) (slope t i x) (L.span x0 i) x
  hasCurv : ∀ t ∈ Set.Icc 0 final, ∀ i < L.N, ∀ x ∈ L.span x0 i,
    HasDerivWithinAt (slope t i) (curv t i x) (L.span x0 i) x
  hasRate : ∀ t ∈ Set.Icc 0 final, ∀ i < L.N, ∀ x ∈ L.span x0 i,
    HasDerivWithinAt (fun s => w s x) (rate t x) (Set.Icc 0 final) t
  equation : ∀ t ∈ Set.Icc 0 final, ∀ i < L.N, ∀ x ∈ L.span x0 i,
    cap i * rate t x = K t i * curv t i x + f t i x - lam t i * (cap i * w t x)
  flux : ∀ t ∈ Set.Icc 0 final, ∀ i, i + 1 < L.N →
    K t i * slope t i (L.node x0 (i + 1)) = K t (i + 1) * slope t (i + 1) (L.node x0 (i + 1))

/-- How smooth it is. `Mt` bounds the second time derivative of the content `cap w`, `Mtx` the second space derivative of
its rate, `Ml` that of the decay rate and `Mx` that of the divergence of the flux (fourth derivative of `w`). -/
structure SmoothBy (L : Line Ω) (x0 final : ℝ) (cap : ℕ → ℝ) (K lam : ℝ → ℕ → ℝ) (w : ℝ → ℝ → ℝ)
    (curv : ℝ → ℕ → ℝ → ℝ) (rate : ℝ → ℝ → ℝ) (Mt Mtx Ml Mx : ℝ) : Prop where
  time : ∀ i < L.N, ∀ x ∈ L.span x0 i, ∀ s ∈ Set.Icc 0 final, ∀ t ∈ Set.Icc 0 final,
    |cap i * rate s x - cap i * rate t x| ≤ Mt * |s - t|
  bendRate : ∀ t ∈ Set.Icc 0 final, ∀ i < L.N, Bend (fun x => cap i * rate t x) (L.span x0 i) Mtx
  bendDecay : ∀ t ∈ Set.Icc 0 final, ∀ i < L.N, Bend (fun x => lam t i * (cap i * w t x)) (L.span x0 i) Ml
  bendCurv : ∀ t ∈ Set.Icc 0 final, ∀ i < L.N, Bend (fun x => K t i * curv t i x) (L.span x0 i) Mx

/-- The flux into the domain at the end `q` is `g - β w`. -/
def EndFlux (L : Line Ω) (x0 : ℝ) (K : ℝ → ℕ → ℝ) (w : ℝ → ℝ → ℝ) (slope : ℝ → ℕ → ℝ → ℝ) (t : ℝ) (q : Bool)
    (g β : ℝ) : Prop :=
  K t (L.endCell q) * slope t (L.endCell q) (L.node x0 (L.endNo q)) * Line.normal q 0
    = g - β * w t (L.node x0 (L.endNo q))

end

end Festim.Weak
