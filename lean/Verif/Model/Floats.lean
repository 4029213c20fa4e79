import Verif.Model.Run
import Mathlib.Data.Int.Log
import Mathlib.Data.Rat.Floor

/-!
# Transient runs in floating-point arithmetic

The definitions of `Verif.Model.Stepsize` and `Verif.Model.Run` once more, with the rounding `fl`
applied to the result of each arithmetic operation, as Python does.  Comparisons are exact.
With `fl = id` they are the definitions used elsewhere (`Festim.Props.C80_exact`).

Inputs (initial value, ratio, caps, milestones, final time) are rationals; theorems that need them
to be floating-point numbers say so (`fl x = x`).

Not modelled: overflow, underflow, `nan`.
-/

namespace Festim.Fl

/-- Nearest integer, ties to even: IEEE 754 `roundTiesToEven`, the mode in which CPython evaluates
`+`, `-`, `*`, `/` (used at festim/stepsize.py:102-122, festim/generic_simulation.py:480-522). -/
def roundEven (x : ℚ) : ℤ :=
  if x - ⌊x⌋ < 1 / 2 then ⌊x⌋
  else if 1 / 2 < x - ⌊x⌋ then ⌊x⌋ + 1
  else if ⌊x⌋ % 2 = 0 then ⌊x⌋ else ⌊x⌋ + 1

/-- Last place of a positive number with `p` significant bits
(the Python `float` of generic_simulation.py:507, 520-522). -/
def ulp (p : ℕ) (x : ℚ) : ℚ := (2 : ℚ) ^ (Int.log 2 x + 1 - (p : ℤ))

/-- Rounding of a positive number to `p` significant bits
(the Python `float` of generic_simulation.py:507, 520-522). -/
def binaryPos (p : ℕ) (x : ℚ) : ℚ := roundEven (x / ulp p x) * ulp p x

/-- Rounding to `p` significant bits, without bounds on the exponent; `binary 53` is the rounding
of the Python type `float` as long as nothing overflows or underflows
(generic_simulation.py:507, 520-522, stepsize.py:102-122). -/
def binary (p : ℕ) (x : ℚ) : ℚ :=
  if 0 < x then binaryPos p x else if x < 0 then -binaryPos p (-x) else 0

variable (fl : ℚ → ℚ)

/-- `numpy.isclose(a, b, atol=0)`: `absolute(a - b) <= (atol + rtol * absolute(b))` with
`rtol` the float `1e-5` (festim/generic_simulation.py:480-482, festim/stepsize.py:119-121). -/
def isclose (a b : ℚ) : Bool := decide (|fl (a - b)| ≤ fl (fl (1 / 100000) * |b|))

/-- `float(x) / change_ratio` (festim/stepsize.py:102, 108). -/
def pyDiv (v r : ℚ) : Except PyErr ℚ :=
  if r = 0 then .error .zeroDivisionError else .ok (fl (v / r))

/-- Reaction to a diverged solve (festim/stepsize.py:98-104). -/
def onDivergence (a : Adaptive) (v : ℚ) (converged : Bool) : Except PyErr ℚ :=
  if converged then .ok v
  else
    match a.dtMin with
    | none => .error (.valueError "Solver diverged but dt_min is not set.")
    | some m =>
      match pyDiv fl v a.ratio with
      | .error e => .error e
      | .ok v' => if v' < m then .error (.valueError "stepsize reached minimal value") else .ok v'

/-- Scaling by the number of Newton iterations (festim/stepsize.py:105-108). -/
def onIterations (a : Adaptive) (v : ℚ) (nbIt : ℕ) : Except PyErr ℚ :=
  if nbIt < 5 then .ok (fl (v * a.ratio)) else pyDiv fl v a.ratio

/-- Clip to the next milestone (festim/stepsize.py:117-122). -/
def clipMilestone (ms : Option (List ℚ)) (t v : ℚ) : ℚ :=
  match nextMilestone ms t with
  | none => v
  | some m => if m < fl (t + v) ∧ ¬ (isclose fl t m = true) then fl (m - t) else v

/-- The part of `Stepsize.adapt` under `if self.adaptive_stepsize:` (festim/stepsize.py:93-114). -/
def adaptAdaptive (ad : Option Adaptive) (v t : ℚ) (nbIt : ℕ) (converged : Bool) :
    Except PyErr ℚ :=
  match ad with
  | none => .ok v
  | some a =>
    match onDivergence fl a v converged with
    | .error e => .error e
    | .ok v1 =>
      match onIterations fl a v1 nbIt with
      | .error e => .error e
      | .ok v2 => a.cap t v2

/-- `Stepsize.adapt` (festim/stepsize.py:85-122). -/
def adapt (s : Stepsize) (v t : ℚ) (nbIt : ℕ) (converged : Bool) : Except PyErr ℚ :=
  match adaptAdaptive fl s.adaptive v t nbIt converged with
  | .error e => .error e
  | .ok v' => .ok (clipMilestone fl s.milestones t v')

/-- Guard of the time loop (festim/generic_simulation.py:480-482). -/
def loopGuard (final t : ℚ) : Bool := decide (t < final) && !isclose fl t final

/-- Evaluation of the loop guard, and if it holds the beginning of `iterate`
(festim/generic_simulation.py:480-483, 507). -/
def loopHead (final t value : ℚ) (log : List StepRec) : RunState :=
  if loopGuard fl final t then
    { t := fl (t + value), value := value, phase := .solving value 0, log := log }
  else
    { t := t, value := value, phase := .finished, log := log }

/-- "avoid t > final_time" (festim/generic_simulation.py:519-522). -/
def clipFinal (final t value : ℚ) : ℚ :=
  if final < fl (t + value) then fl (final - t) else value

/-- Call of `adapt` after each solve (festim/h_transport_problem.py:342-343). -/
def afterSolve (cfg : Stepsize) (v t : ℚ) (o : Outcome) : Except PyErr ℚ :=
  if cfg.adaptive.isSome || cfg.milestones.isSome then adapt fl cfg v t o.nbIt o.converged
  else .ok v

/-- One Newton solve and everything up to the next one
(festim/h_transport_problem.py:339-349, festim/generic_simulation.py:480-483, 504-522). -/
def step (cfg : Stepsize) (final : ℚ) (s : RunState) (o : Outcome) : RunState :=
  match s.phase with
  | .finished => s
  | .raised _ => s
  | .solving nom failed =>
    match afterSolve fl cfg s.value s.t o with
    | .error e => { s with phase := .raised e }
    | .ok v =>
      if o.converged then
        loopHead fl final s.t (clipFinal fl final s.t v)
          (s.log ++ [{ t := s.t, dtNominal := nom, dtUsed := s.value, dtExtrinsic := v,
                       nbIt := o.nbIt, failed := failed }])
      else
        { s with value := v, phase := .solving nom (failed + 1) }

/-- State at the first Newton solve (festim/generic_simulation.py:326, 344-346,
festim/stepsize.py:80-83). -/
def start (cfg : Stepsize) (final : ℚ) : RunState := loopHead fl final 0 cfg.initialValue []

/-- The run after the Newton outcomes `outs` (generic_simulation.py:480-483, 504-522). -/
def run (cfg : Stepsize) (final : ℚ) (outs : List Outcome) : RunState :=
  outs.foldl (step fl cfg final) (start fl cfg final)

end Festim.Fl
