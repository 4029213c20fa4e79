import Verif.Spec.Forms

/-! # Vocabulary of the statements about traps -/

open scoped BigOperators

namespace Festim.Weak

section
variable {Ω Γ : Type} {d : ℕ}

/-- The rates and the density the user gave for the `i`-th material of the trap: the `i`-th entry of
every list, or the single numbers and the (first) density for all materials. -/
def RatesAt (trap : Trap Ω Γ d) (i : ℕ) (k Ek p Ep : ℝ) (n : Ω → ℝ) : Prop :=
  (∃ lk lEk lp lEp, trap.k_0 = .list lk ∧ trap.E_k = .list lEk ∧ trap.p_0 = .list lp ∧
      trap.E_p = .list lEp ∧ lk[i]? = some k ∧ lEk[i]? = some Ek ∧ lp[i]? = some p ∧
      lEp[i]? = some Ep ∧ trap.density[i]? = some n) ∨
  (trap.k_0 = .num k ∧ trap.E_k = .num Ek ∧ trap.p_0 = .num p ∧ trap.E_p = .num Ep ∧
      trap.density.head? = some n)

/-- What the sources of the trap give at `p`. -/
def trapSupply (m : Mesh Ω Γ d) (trap : Trap Ω Γ d) (p : Ω) : ℝ :=
  (trap.sources.map fun s => if m.vm p ∈ s.volumes then srcRate s (trap.sol.val p) p else 0).sum

end

section
variable {Ω Γ : Type} [Fintype Ω] [Fintype Γ] {d : ℕ}

/-- The trap equation is solved: its residual vanishes for every test function. -/
def TrapSolved (m : Mesh Ω Γ d) (mats : List Mat) (mv : Mobile Ω Γ d) (T : Temp Ω Γ d)
    (dt : Option ℝ) (trap : Trap Ω Γ d) : Prop :=
  ∀ v, ∃ F, trapForm mats mv T dt trap v = .ok F ∧ m.assemble F = 0

end

end Festim.Weak
