import Verif.Spec.Line

/-!
# The balance of hydrogen as it can be read from the outputs

Vocabulary of C112.
-/

open scoped BigOperators

namespace Festim.Weak

section
variable {Ω Γ : Type} [Fintype Ω] [Fintype Γ] {d : ℕ}

/-- Mobile and trapped hydrogen, counted with the weight `v` (`1`: all of it). -/
noncomputable def held (P : Problem Ω Γ d) (mat : Ω → Mat) (v : Ω → ℝ) : ℝ :=
  volume P.mesh fun p => (P.c mat p + (P.traps.map fun t => t.sol.val p).sum) * v p

/-- The same before the step. -/
noncomputable def heldBefore (P : Problem Ω Γ d) (mat : Ω → Mat) (v : Ω → ℝ) : ℝ :=
  volume P.mesh fun p => (P.cPrev mat p + (P.traps.map fun t => t.prev.val p).sum) * v p

/-- What the volume sources of the solute and of the traps produce per unit time, with the weight `v`. -/
noncomputable def produced (P : Problem Ω Γ d) (mat : Ω → Mat) (v : Ω → ℝ) : ℝ :=
  (P.sources.map fun s => (s.volumes.map fun vol =>
      volumeOf P.mesh vol fun p => srcRate s (P.c mat p) p * v p).sum).sum
  + (P.traps.map fun t => (t.sources.map fun s =>
      volumeIn P.mesh s.volumes fun p => srcRate s (t.sol.val p) p * v p).sum).sum

end

section
variable {Ω : Type} [Fintype Ω]

/-- The node at an end. -/
def Line.endNode (L : Line Ω) (q : Bool) : ℕ := if q then L.N else 0

/-- The affine function which is 1 at the end `q` and 0 from the next node on. -/
noncomputable def Line.atEnd (L : Line Ω) (q : Bool) (p : Ω) : ℝ := (L.p1 (hat (L.endNode q))).val p

/-- What is added over the ends where a concentration is imposed. -/
noncomputable def overEnds (dir : Bool → Prop) (x : Bool → ℝ) : ℝ :=
  open Classical in ∑ q, if dir q then x q else 0

end

end Festim.Weak
