import Verif.Spec.Accuracy
import Verif.Spec.Traps

/-!
# Exact solutions of the equations of diffusion and trapping

The equations of McNabb and Foster, for functions of the time and of the position with ordinary derivatives.  Nothing here
refers to the forms.
-/

open scoped BigOperators

namespace Festim.Weak

/-- Rate of trapping minus rate of detrapping: `k c (n - ct) - ν ct`. -/
def trapping (k ν n c ct : ℝ) : ℝ := k * c * (n - ct) - ν * ct

section
variable {Ω : Type} [Fintype Ω]

/-- `z t i x` is the trapped concentration in the cell `i` (it may jump between the cells), `w t x` the unknown of which
`cap i * w t x` is the mobile concentration: `∂z/∂t = k c (n - z) - ν z`. -/
structure Fills (L : Line Ω) (x0 final : ℝ) (cap : ℕ → ℝ) (k ν n : ℝ → ℕ → ℝ → ℝ) (w : ℝ → ℝ → ℝ)
    (z zrate : ℝ → ℕ → ℝ → ℝ) : Prop where
  hasRate : ∀ t ∈ Set.Icc 0 final, ∀ i < L.N, ∀ x ∈ L.span x0 i,
    HasDerivWithinAt (fun s => z s i x) (zrate t i x) (Set.Icc 0 final) t
  equation : ∀ t ∈ Set.Icc 0 final, ∀ i < L.N, ∀ x ∈ L.span x0 i,
    zrate t i x = trapping (k t i x) (ν t i x) (n t i x) (cap i * w t x) (z t i x)

/-- How smooth it is: `Mzt` bounds the second time derivative, `Mz` and `Mzr` the second space derivatives of the trapped
concentration and of its rate. -/
structure FillsBy (L : Line Ω) (x0 final : ℝ) (z zrate : ℝ → ℕ → ℝ → ℝ) (Mzt Mz Mzr : ℝ) : Prop where
  time : ∀ i < L.N, ∀ x ∈ L.span x0 i, ∀ s ∈ Set.Icc 0 final, ∀ t ∈ Set.Icc 0 final,
    |zrate s i x - zrate t i x| ≤ Mzt * |s - t|
  bend : ∀ t ∈ Set.Icc 0 final, ∀ i < L.N, Bend (z t i) (L.span x0 i) Mz
  bendRate : ∀ t ∈ Set.Icc 0 final, ∀ i < L.N, Bend (zrate t i) (L.span x0 i) Mzr

/-- The function which is affine in every cell with the values of `φ` at the ends of the cell. -/
noncomputable def Line.interp (L : Line Ω) (x0 : ℝ) (φ : ℕ → ℝ → ℝ) (p : Ω) : ℝ :=
  (1 - L.lam p) * φ (L.cell p) (L.node x0 (L.cell p)) + L.lam p * φ (L.cell p) (L.node x0 (L.cell p + 1))

/-- Values at the points of the functions of degree 1 in every cell (`"DG"`, degree 1). -/
def Line.dgSpace (L : Line Ω) : Set (Ω → ℝ) :=
  {η | ∃ a b : ℕ → ℝ, ∀ p, η p = (1 - L.lam p) * a (L.cell p) + L.lam p * b (L.cell p)}

/-- The continuous ones (`"CG"`, degree 1). -/
def Line.cgSpace (L : Line Ω) : Set (Ω → ℝ) := {η | ∃ u : ℕ → ℝ, ∀ p, η p = (L.p1 u).val p}

/-- `√ ∫ η²`. -/
noncomputable def Line.norm2 (L : Line Ω) (η : Ω → ℝ) : ℝ := √(∑ p, L.w p * η p ^ 2)

/-- `√ (∫ cap e² + Σ ∫ η²)`, for the unknown `e` and the traps `η`. -/
noncomputable def Line.total (L : Line Ω) (cap : ℕ → ℝ) {m : ℕ} (e : ℕ → ℝ) (η : Fin m → Ω → ℝ) : ℝ :=
  √(L.energy cap e ^ 2 + ∑ j, L.norm2 (η j) ^ 2)

end

section
variable {Ω Γ : Type} {d : ℕ}

/-- The rates and the density of a trap at a point: those given for the material there; no trapping in other materials. -/
def TrapRate (mesh : Mesh Ω Γ d) (T : Temp Ω Γ d) (trap : Trap Ω Γ d) (p : Ω) (A B n : ℝ) : Prop :=
  (∃ i a k Ek ν Ep nn, trap.materials[i]? = some a ∧ mesh.vm p ∈ a.ids ∧ RatesAt trap i k Ek ν Ep nn ∧
      A = arr k Ek (T.T.val p) ∧ B = arr ν Ep (T.T.val p) ∧ n = nn p) ∨
  ((∀ a ∈ trap.materials, mesh.vm p ∉ a.ids) ∧ A = 0 ∧ B = 0)

end

section
variable {Ω : Type} [Fintype Ω]

/-- The elements of the traps: discontinuous, or continuous and then the exact trapped concentrations are continuous. -/
def Elements (L : Line Ω) (x0 final : ℝ) {m : ℕ} (z : Fin m → ℝ → ℕ → ℝ → ℝ) (V : Set (Ω → ℝ)) : Prop :=
  V = L.dgSpace ∨ (V = L.cgSpace ∧ ∀ j, ∀ t ∈ Set.Icc 0 final, ∀ i, i + 1 < L.N →
    z j t i (L.node x0 (i + 1)) = z j t (i + 1) (L.node x0 (i + 1)))

/-- The coupled problem is solved, the values of the unknowns being those in `P`: the Dirichlet conditions hold, and the
residual vanishes for all the test functions `v` of the solute (which vanish at the ends with a Dirichlet condition) and `vt`
of the traps (in the space `V`). -/
structure CoupledSolves (L : Line Ω) (P : Problem Ω Bool 1) (bcs : List (MobBC Bool)) (dir : Bool → Prop) (val : Bool → ℝ)
    (V : Set (Ω → ℝ)) (m : ℕ) : Prop where
  fixed : ∀ q, dir q → P.mv.sol.tr q = val q
  zero : ∀ v : ℕ → ℝ, (∀ q, dir q → (L.p1 v).tr q = 0) → ∀ vt : Fin m → Fld Ω Bool 1, (∀ j, (vt j).val ∈ V) →
    ∃ F, P.form bcs (L.p1 v) (List.ofFn vt) = .ok F ∧ P.mesh.assemble F = 0

end

end Festim.Weak
