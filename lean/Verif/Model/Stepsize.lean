import Verif.Model.Py
import Mathlib.Data.List.Sort

/-!
# festim/stepsize.py

`Stepsize` below is the immutable part of a `festim.Stepsize` object after `__init__`
(and after `Simulation.initialise`); the mutable `self.value` (a `fenics.Constant`) is carried
by the state of the run (`Verif.Model.Run`) and passed explicitly to `adapt`.
-/

namespace Festim

/-- The `max_stepsize` entry of `adaptive_stepsize`: `None`, a number, or a callable of time
(festim/stepsize.py:47, 59-63, 110-111).  A callable may raise. -/
inductive MaxStep where
  | none
  | const (v : ℚ)
  | fn (f : ℚ → Except PyErr (Option ℚ))

/-- Value of `max_stepsize` at time `t` (festim/stepsize.py:110-111). -/
def MaxStep.eval : MaxStep → ℚ → Except PyErr (Option ℚ)
  | .none, _ => .ok Option.none
  | .const v, _ => .ok (some v)
  | .fn f, t => f t

/-- The dictionary `adaptive_stepsize` (festim/stepsize.py:59-63). -/
structure Adaptive where
  /-- "stepsize_change_ratio" -/
  ratio : ℚ
  /-- "max_stepsize" -/
  maxStep : MaxStep
  /-- "dt_min" -/
  dtMin : Option ℚ

/-- A `festim.Stepsize` object without its mutable `value` (festim/stepsize.py:51-67). -/
structure Stepsize where
  initialValue : ℚ
  adaptive : Option Adaptive
  milestones : Option (List ℚ)

/-- Arguments of `Stepsize.__init__` (festim/stepsize.py:41-50). -/
structure StepsizeArgs where
  initialValue : ℚ := 0
  changeRatio : Option ℚ := none
  tStop : Option ℚ := none
  stepsizeStopMax : Option ℚ := none
  maxStepsize : MaxStep := .none
  dtMin : Option ℚ := none
  milestones : Option (List ℚ) := none

/-- `sorted(value)` (festim/stepsize.py:76).  Any stable sort gives the same list. -/
def pySorted (l : List ℚ) : List ℚ := l.insertionSort (· ≤ ·)

/-- The `milestones` setter (festim/stepsize.py:73-78): a non-empty list is sorted, `None` and
`[]` (falsy) are stored as they are. -/
def setMilestones : Option (List ℚ) → Option (List ℚ)
  | none => none
  | some [] => some []
  | some (m :: ms) => some (pySorted (m :: ms))

/-- The lambda built from `t_stop`/`stepsize_stop_max` (festim/stepsize.py:58).  `t >= None`
raises `TypeError`. -/
def tStopMax (tStop stopMax : Option ℚ) (t : ℚ) : Except PyErr (Option ℚ) :=
  match tStop with
  | none => .error (.typeError "'>=' not supported between instances of 'float' and 'NoneType'")
  | some ts => if ts ≤ t then .ok stopMax else .ok none

/-- `Stepsize.__init__` (festim/stepsize.py:41-67). -/
def Stepsize.new (a : StepsizeArgs) : Stepsize where
  initialValue := a.initialValue
  adaptive :=
    match a.changeRatio with
    | none => none
    | some r => some
        { ratio := r
          maxStep :=
            if truthy a.tStop || truthy a.stepsizeStopMax then
              .fn (tStopMax a.tStop a.stepsizeStopMax)
            else a.maxStepsize
          dtMin := a.dtMin }
  milestones := setMilestones a.milestones

/-- `float(x) / change_ratio`: Python raises `ZeroDivisionError` on a zero ratio
(festim/stepsize.py:102, 108). -/
def pyDiv (v r : ℚ) : Except PyErr ℚ :=
  if r = 0 then .error .zeroDivisionError else .ok (v / r)

/-- First block of `Stepsize.adapt`: reaction to a diverged solve (festim/stepsize.py:98-104). -/
def Adaptive.onDivergence (a : Adaptive) (v : ℚ) (converged : Bool) : Except PyErr ℚ :=
  if converged then .ok v
  else
    match a.dtMin with
    | none => .error (.valueError "Solver diverged but dt_min is not set.")
    | some m =>
      match pyDiv v a.ratio with
      | .error e => .error e
      | .ok v' => if v' < m then .error (.valueError "stepsize reached minimal value") else .ok v'

/-- Second block of `Stepsize.adapt`: scaling by the number of Newton iterations
(festim/stepsize.py:105-108).  It is executed for diverged solves too. -/
def Adaptive.onIterations (a : Adaptive) (v : ℚ) (nbIt : ℕ) : Except PyErr ℚ :=
  if nbIt < 5 then .ok (v * a.ratio) else pyDiv v a.ratio

/-- Third block of `Stepsize.adapt`: cap by `max_stepsize` (festim/stepsize.py:110-114). -/
def Adaptive.cap (a : Adaptive) (t v : ℚ) : Except PyErr ℚ :=
  match a.maxStep.eval t with
  | .error e => .error e
  | .ok none => .ok v
  | .ok (some m) => if m < v then .ok m else .ok v

/-- `Stepsize.next_milestone` (festim/stepsize.py:124-139): first milestone `> current_time`. -/
def nextMilestone (ms : Option (List ℚ)) (t : ℚ) : Option ℚ :=
  match ms with
  | none => none
  | some l => l.find? (fun m => decide (t < m))

/-- Last block of `Stepsize.adapt`: clip to the next milestone (festim/stepsize.py:117-122). -/
def clipMilestone (ms : Option (List ℚ)) (t v : ℚ) : ℚ :=
  match nextMilestone ms t with
  | none => v
  | some m => if m < t + v ∧ ¬ (isclose t m = true) then m - t else v

/-- The part of `Stepsize.adapt` under `if self.adaptive_stepsize:` (festim/stepsize.py:93-114).
The dictionary is never empty, hence truthy when it is not `None`. -/
def adaptAdaptive (ad : Option Adaptive) (v t : ℚ) (nbIt : ℕ) (converged : Bool) :
    Except PyErr ℚ :=
  match ad with
  | none => .ok v
  | some a =>
    match a.onDivergence v converged with
    | .error e => .error e
    | .ok v1 =>
      match a.onIterations v1 nbIt with
      | .error e => .error e
      | .ok v2 => a.cap t v2

/-- `Stepsize.adapt` (festim/stepsize.py:85-122): new content of `self.value`, or the exception.
Simplified: when it raises, the partially updated `self.value` is not kept (the run is over). -/
def Stepsize.adapt (s : Stepsize) (v t : ℚ) (nbIt : ℕ) (converged : Bool) : Except PyErr ℚ :=
  match adaptAdaptive s.adaptive v t nbIt converged with
  | .error e => .error e
  | .ok v' => .ok (clipMilestone s.milestones t v')

end Festim
