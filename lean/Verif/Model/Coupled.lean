import Verif.Model.Run

/-!
# The fields through a transient run

festim/h_transport_problem.py `update`, `update_previous_solutions` and
festim/concentration/traps/traps.py `initialise_extrinsic_traps`, `update_extrinsic_traps_density`,
`solve_extrinsic_traps`: which fields enter the equations of each solve.  `U` is the type of the
concentrations (`u`, all components), `N` the type of the densities of the extrinsic traps.

The Newton solvers are oracles: they may leave anything in `u` and in the densities, and the solver of the
densities may raise (`error_on_nonconvergence` is True, extrinsic_trap.py:79).  Not modelled here: the temperature,
the expressions and the exports (`Verif.Model.Temperature`, `Verif.Model.Simulation`).
-/

namespace Festim

variable {U N : Type}

/-- What the solvers give in one attempt: the outcome of the solve for the concentrations, what it leaves in
`u`, and, looked at only if the attempt is accepted, what the solves for the densities leave in them (`none`: one of them
did not converge) (h_transport_problem.py:351-369, concentration/traps/traps.py:95-106). -/
structure Attempt (U N : Type) where
  out : Outcome
  u : U
  n : Option N

/-- The equations of one accepted step: what they contained and what was found
(h_transport_problem.py:327-349). -/
structure SolveRec (U N : Type) where
  /-- time of the step -/
  t : ℚ
  /-- stepsize in the equations of the concentrations -/
  dtH : ℚ
  /-- concentrations the Newton solver started from -/
  guess : U
  /-- previous concentrations in the equations -/
  prev : U
  /-- densities of the extrinsic traps in the equations of the concentrations -/
  dens : N
  /-- concentrations found -/
  u : U
  /-- stepsize in the equations of the densities -/
  dtN : ℚ
  /-- previous densities in the equations of the densities -/
  prevN : N
  /-- densities found -/
  n : N

/-- State between two Newton solves (h_transport_problem.py:327-349, 371-373). -/
structure CoupledState (U N : Type) where
  run : RunState
  /-- `HTransportProblem.u` -/
  u : U
  /-- `HTransportProblem.u_n` -/
  un : U
  /-- `u_`, local to `update` (h_transport_problem.py:337-338) -/
  saved : U
  /-- `trap.density[0]` of the extrinsic traps -/
  dens : N
  /-- `trap.density_previous_solution` of the extrinsic traps -/
  densPrev : N
  recs : List (SolveRec U N)

/-- At the beginning of `update`, `u` is saved; `u.assign(u_)` before the first attempt changes nothing
(h_transport_problem.py:336-340). -/
def CoupledState.enter (s : CoupledState U N) : CoupledState U N :=
  match s.run.phase with
  | .solving _ _ => { s with saved := s.u }
  | _ => s

/-- `update_previous_solutions` (h_transport_problem.py:371-373, traps.py:108-111). -/
def CoupledState.updatePrevious (s : CoupledState U N) : CoupledState U N :=
  { s with un := s.u, densPrev := s.dens }

/-- `solve_extrinsic_traps` (traps.py:95-106) when the solver leaves `n` in the densities, with the stepsize `v`; `before` is the
state in which the concentrations were solved for.  What the equations contained is recorded. -/
def CoupledState.solveDensities (s before : CoupledState U N) (v : ℚ) (n : N) : CoupledState U N :=
  { s with
    dens := n
    recs := s.recs ++ [{ t := before.run.t, dtH := before.run.value, guess := before.u, prev := before.un,
                         dens := before.dens, u := s.u, dtN := v, prevN := s.densPrev, n := n }] }

/-- One attempt and everything up to the next one (h_transport_problem.py:339-349,
generic_simulation.py:480-483, 504-522): a refused attempt is forgotten (`u.assign(u_)`, line 340); after an
accepted one the concentrations and densities become the previous ones (line 346), and then the
densities are solved for (line 349). -/
def Coupled.step (cfg : Stepsize) (final : ℚ) (s : CoupledState U N) (a : Attempt U N) :
    CoupledState U N :=
  match s.run.phase with
  | .finished => s
  | .raised _ => s
  | .solving nom failed =>
    let s1 := { s with u := a.u }
    match afterSolve cfg s.run.value s.run.t a.out with
    | .error e => { s1 with run := { s.run with phase := .raised e } }
    | .ok v =>
      if a.out.converged then
        let s2 := s1.updatePrevious
        match a.n with
        | none =>
          { s2 with run := { s.run with
            value := v, phase := .raised (.runtimeError "Newton solver did not converge") } }
        | some n =>
          let s3 := s2.solveDensities s v n
          CoupledState.enter { s3 with
            run := loopHead final s.run.t (clipFinal final s.run.t v)
              (s.run.log ++ [{ t := s.run.t, dtNominal := nom, dtUsed := s.run.value,
                               dtExtrinsic := v, nbIt := a.out.nbIt, failed := failed }]) }
      else
        { s1 with
          u := s.saved
          run := { s.run with value := v, phase := .solving nom (failed + 1) } }

/-- State at the first attempt: the densities and their previous values are zero (traps.py:65-71), the previous
concentrations are the initial condition and the first guess is not (h_transport_problem.py:150-152, 190-231). -/
def Coupled.start (cfg : Stepsize) (final : ℚ) (guess init : U) (zero : N) : CoupledState U N :=
  CoupledState.enter
    { run := Run.start cfg final, u := guess, un := init, saved := guess, dens := zero,
      densPrev := zero, recs := [] }

/-- The run after the given attempts (generic_simulation.py:480-483, 504-522). -/
def Coupled.exec (cfg : Stepsize) (final : ℚ) (guess init : U) (zero : N)
    (as : List (Attempt U N)) : CoupledState U N :=
  as.foldl (Coupled.step cfg final) (Coupled.start cfg final guess init zero)

end Festim
