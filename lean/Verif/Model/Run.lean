import Verif.Model.Stepsize

/-!
# Transient driver

festim/generic_simulation.py `run_transient`, `iterate` and
festim/h_transport_problem.py `update`, as a state machine.  One machine step consumes the result
of one Newton solve (`solve_once`) and executes everything up to the next Newton solve.
The Newton solver is an oracle: any iteration count, any convergence flag.

Not modelled here: the fields themselves, the temperature update (it may raise, see
`Verif.Model.Temperature`), the printing of times, and exceptions of post-processing.
-/

namespace Festim

/-- Result of `solve_once` (festim/h_transport_problem.py:351-369). -/
structure Outcome where
  nbIt : ℕ
  converged : Bool
  deriving DecidableEq, Repr

/-- What is observable of one accepted time step (generic_simulation.py:504-522). -/
structure StepRec where
  /-- `Simulation.t` when the step is accepted: the time handed to the exports. -/
  t : ℚ
  /-- increment of `Simulation.t` at the beginning of the step (generic_simulation.py:507) -/
  dtNominal : ℚ
  /-- `dt.value` in the equations when the accepted solve was performed -/
  dtUsed : ℚ
  /-- `dt.value` when the extrinsic trap densities are solved (h_transport_problem.py:349) -/
  dtExtrinsic : ℚ
  /-- iterations of the accepted solve -/
  nbIt : ℕ
  /-- number of diverged solves before the accepted one -/
  failed : ℕ
  deriving DecidableEq, Repr

/-- Where the driver is waiting (h_transport_problem.py:339-343, generic_simulation.py:480-483). -/
inductive Phase where
  /-- about to call the Newton solver for the step of nominal length `dtNominal`, after
  `failed` diverged attempts -/
  | solving (dtNominal : ℚ) (failed : ℕ)
  /-- `run_transient` returned -/
  | finished
  /-- an exception propagated out of `run` -/
  | raised (e : PyErr)
  deriving DecidableEq, Repr

/-- State of the driver (generic_simulation.py:108, stepsize.py:64-67). -/
structure RunState where
  /-- `Simulation.t` -/
  t : ℚ
  /-- `Simulation.dt.value` -/
  value : ℚ
  phase : Phase
  /-- accepted steps, oldest first -/
  log : List StepRec
  deriving DecidableEq, Repr

/-- Guard of the time loop (festim/generic_simulation.py:480-482). -/
def loopGuard (final t : ℚ) : Bool := decide (t < final) && !isclose t final

/-- Evaluation of the loop guard, and if it holds the beginning of `iterate`
(festim/generic_simulation.py:480-483, 507). -/
def loopHead (final t value : ℚ) (log : List StepRec) : RunState :=
  if loopGuard final t then
    { t := t + value, value := value, phase := .solving value 0, log := log }
  else
    { t := t, value := value, phase := .finished, log := log }

/-- "avoid t > final_time" (festim/generic_simulation.py:519-522). -/
def clipFinal (final t value : ℚ) : ℚ := if final < t + value then final - t else value

/-- Call of `adapt` after each solve (festim/h_transport_problem.py:342-343): only if the stepsize
is adaptive or has a milestone list. -/
def afterSolve (cfg : Stepsize) (v t : ℚ) (o : Outcome) : Except PyErr ℚ :=
  if cfg.adaptive.isSome || cfg.milestones.isSome then cfg.adapt v t o.nbIt o.converged
  else .ok v

/-- One Newton solve and everything up to the next one
(festim/h_transport_problem.py:339-349, festim/generic_simulation.py:480-483, 504-522). -/
def Run.step (cfg : Stepsize) (final : ℚ) (s : RunState) (o : Outcome) : RunState :=
  match s.phase with
  | .finished => s
  | .raised _ => s
  | .solving nom failed =>
    match afterSolve cfg s.value s.t o with
    | .error e => { s with phase := .raised e }
    | .ok v =>
      if o.converged then
        loopHead final s.t (clipFinal final s.t v)
          (s.log ++ [{ t := s.t, dtNominal := nom, dtUsed := s.value, dtExtrinsic := v,
                       nbIt := o.nbIt, failed := failed }])
      else
        { s with value := v, phase := .solving nom (failed + 1) }

/-- State at the first Newton solve: `initialise` sets `t = 0` and `dt.value = initial_value`
(festim/generic_simulation.py:326, 344-346, festim/stepsize.py:80-83). -/
def Run.start (cfg : Stepsize) (final : ℚ) : RunState := loopHead final 0 cfg.initialValue []

/-- The run after the Newton outcomes `outs` (generic_simulation.py:480-483, 504-522). -/
def Run.run (cfg : Stepsize) (final : ℚ) (outs : List Outcome) : RunState :=
  outs.foldl (Run.step cfg final) (Run.start cfg final)

/-- Accepted times of a state, oldest first (generic_simulation.py:507, 543). -/
def RunState.times (s : RunState) : List ℚ := s.log.map (·.t)

end Festim
