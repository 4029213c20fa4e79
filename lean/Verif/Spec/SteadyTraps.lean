import Verif.Spec.Over
import Verif.Spec.Line

/-!
# Traps which live in a part of the domain

Vocabulary of C111.
-/

open scoped BigOperators

namespace Festim.Weak

section
variable {Ω Γ : Type} [Fintype Ω] [Fintype Γ] {d : ℕ}

/-- The equation of trap `t` can be written and holds for all the test functions of the space `Wt`. -/
def TrapHolds (Wt : Fld Ω Γ d → Prop) (P : Problem Ω Γ d) (t : Trap Ω Γ d) : Prop :=
  ∀ w, Wt w → ∃ F, trapForm P.mats P.mv P.T P.dt t w = .ok F ∧ P.mesh.assemble F = 0

/-- The same problem without its traps. -/
def Problem.free (P : Problem Ω Γ d) : Problem Ω Γ d := { P with traps := [] }

/-- Integral of the trapped concentration, times `v`, over the materials where the trap is not defined. -/
noncomputable def trappedOutside (m : Mesh Ω Γ d) (mat : Ω → Mat) (t : Trap Ω Γ d) (v : Ω → ℝ) : ℝ :=
  open Classical in ∑ p, if mat p ∈ t.materials then 0 else m.w p * (t.sol.val p * v p)

/-- The functions of `W`, set to zero outside the materials of the trap, are test functions of the trap.  So it is with
discontinuous elements, and with continuous ones for a trap which is defined everywhere. -/
def Cuts (W Wt : Fld Ω Γ d → Prop) (mat : Ω → Mat) (t : Trap Ω Γ d) : Prop :=
  ∀ v, W v → ∃ w, Wt w ∧ ∀ p, (mat p ∈ t.materials → w.val p = v.val p) ∧ (mat p ∉ t.materials → w.val p = 0)

/-- The materials of the simulation cover the domain, those of the traps are among them, and materials are told apart by
their identity. -/
structure TrapsPlaced (P : Problem Ω Γ d) (mat : Ω → Mat) : Prop where
  cover : Covers P.mesh P.mats mat
  among : ∀ t ∈ P.traps, ∀ a ∈ t.materials, a ∈ P.mats
  told : ∀ a ∈ P.mats, ∀ b ∈ P.mats, a.uid = b.uid → a = b

end

section
variable {Ω : Type} [Fintype Ω]

/-- The continuous piecewise affine functions on a line. -/
def Line.CG (L : Line Ω) (v : Fld Ω Bool 1) : Prop := ∃ x, v = L.p1 x

/-- Those which vanish at the ends where a value is imposed. -/
def Line.CG0 (L : Line Ω) (dir : Bool → Prop) (v : Fld Ω Bool 1) : Prop := ∃ x, v = L.p1 x ∧ ∀ q, dir q → v.tr q = 0

/-- The trap lives in the first `m` cells of the line. -/
def FirstCells (L : Line Ω) (mat : Ω → Mat) (m : ℕ) (t : Trap Ω Bool 1) : Prop :=
  ∀ p, mat p ∈ t.materials ↔ L.cell p < m

end

end Festim.Weak
