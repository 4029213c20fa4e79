import Verif.Model.Coupled
import Verif.Model.Solve

/-!
# The transient loop with its solver

`Verif.Model.Coupled` leaves the outcome of each solve open.  Here it is what `solve_once` returns for the equations of
the attempt (h_transport_problem.py:341, generic_simulation.py:480-522).  No extrinsic traps.
-/

namespace Festim.Closed

open Newton Solve

variable {U : Type}

/-- The attempt which is made in a state: `solve t dt u_n u` (h_transport_problem.py:339-343). -/
def attempt (solve : ℚ → ℚ → U → U → ℕ × Bool × U) (s : CoupledState U Unit) : Attempt U Unit :=
  let r := solve s.run.t s.run.value s.un s.u
  { out := { nbIt := r.1, converged := r.2.1 }, u := r.2.2, n := some () }

/-- The simulation after `k` solves (generic_simulation.py:480-483, 504-522). -/
def exec (cfg : Stepsize) (final : ℚ) (solve : ℚ → ℚ → U → U → ℕ × Bool × U) (guess init : U) :
    ℕ → CoupledState U Unit
  | 0 => Coupled.start cfg final guess init ()
  | k + 1 =>
    let s := exec cfg final solve guess init k
    Coupled.step cfg final s (attempt solve s)

/-- `solve_once` for equations which contain the time, the stepsize and the previous solution
(h_transport_problem.py:351-369). -/
noncomputable def newton {ι : Type} [Fintype ι] [DecidableEq ι] (sys : ℚ → ℚ → (ι → ℝ) → System ι)
    (lin : Matrix ι ι ℝ → (ι → ℝ) → ι → ℝ) (o : Opts) (t dt : ℚ) (un u : ι → ℝ) : ℕ × Bool × (ι → ℝ) :=
  solveOnce (sys t dt un) lin o u

end Festim.Closed
