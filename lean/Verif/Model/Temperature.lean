import Verif.Model.Run

/-!
# Temperature, time-dependent expressions, and the whole transient driver

festim/temperature/temperature.py, festim/temperature/temperature_from_xdmf.py,
festim/temperature/temperature_solver.py (`create_functions`, `update`, `is_steady_state`),
festim/helpers.py:7-17, festim/generic_simulation.py `iterate` with the updates that
`Verif.Model.Run` leaves out.

A fenics `Expression` is an object with an attribute `t`; here objects have numbers and `env i` is
the attribute of object `i`.  Fields are elements of an arbitrary type `F`; the heat solver is an
arbitrary function (which may raise) of the expressions, the step, the previous temperature and the
guess.

Not modelled: the reading of XDMF files, the check of their labels.
-/

namespace Festim

/-! ## Expressions -/

/-- `update_expressions` (festim/helpers.py:7-17). -/
def updateExpressions (ids : List ℕ) (t : ℚ) (env : ℕ → ℚ) : ℕ → ℚ :=
  ids.foldl (fun env i => Function.update env i t) env

/-- Sympy expressions as given by the user: numbers (with the way they are printed), symbols, sums,
products, powers, functions of one or two arguments, and choices (`Piecewise`) (temperature.py:29, 41). -/
inductive SExpr where
  | num (text : String) (v : ℚ)
  | sym (name : String)
  | add (a b : SExpr)
  | mul (a b : SExpr)
  | pow (a b : SExpr)
  | fn (name : String) (a : SExpr)
  | fn2 (name : String) (a b : SExpr)
  | ite (op : String) (a b x y : SExpr)
  deriving Repr

/-- `sp.printing.ccode`: every symbol and every function appears by its name.  The exact spacing and
the parentheses are simplified (temperature.py:41, 56, helpers.py:26). -/
def SExpr.ccode : SExpr → String
  | .num s _ => s
  | .sym n => n
  | .add a b => a.ccode ++ " + " ++ b.ccode
  | .mul a b => "(" ++ a.ccode ++ ")*(" ++ b.ccode ++ ")"
  | .pow a b => "pow(" ++ a.ccode ++ ", " ++ b.ccode ++ ")"
  | .fn n a => n ++ "(" ++ a.ccode ++ ")"
  | .fn2 n a b => n ++ "(" ++ a.ccode ++ ", " ++ b.ccode ++ ")"
  | .ite op a b x y =>
    "((" ++ a.ccode ++ op ++ b.ccode ++ ") ? (" ++ x.ccode ++ ") : (" ++ y.ccode ++ "))"

/-- Meaning of the functions, of the powers and of the comparisons
(the C++ code compiled by `Expression`, temperature.py:41). -/
structure Interp where
  fn : String → ℚ → ℚ
  fn2 : String → ℚ → ℚ → ℚ
  pow : ℚ → ℚ → ℚ
  rel : String → ℚ → ℚ → Bool

/-- Value of an expression; `σ` gives the values of the symbols (`x[0]`, `x[1]`, `x[2]`, `t`,
festim/__init__.py:17-18). -/
def SExpr.eval (I : Interp) (σ : String → ℚ) : SExpr → ℚ
  | .num _ v => v
  | .sym n => σ n
  | .add a b => a.eval I σ + b.eval I σ
  | .mul a b => a.eval I σ * b.eval I σ
  | .pow a b => I.pow (a.eval I σ) (b.eval I σ)
  | .fn n a => I.fn n (a.eval I σ)
  | .fn2 n a b => I.fn2 n (a.eval I σ) (b.eval I σ)
  | .ite op a b x y =>
    if I.rel op (a.eval I σ) (b.eval I σ) then x.eval I σ else y.eval I σ

/-- `"t" not in sp.printing.ccode(self.value)` (festim/temperature/temperature.py:55-56). -/
def SExpr.steady (e : SExpr) : Bool := !e.ccode.toList.contains 't'

/-! ## Temperature objects -/

/-- `initial_condition` of a `HeatTransferProblem` (temperature_solver.py:87-92, 111-127):
missing, an expression interpolated at `t = 0`, a field read in a file, or a string which is not the
name of an XDMF file. -/
inductive HeatIC (F : Type) where
  | missing
  | expr (T : F)
  | xdmf (T : F)
  | otherString

/-- The classes of temperature.  `analytical e interp`: a sympy value with its interpolation at a
given time.  `solve` of a heat problem: outcome of the Newton solver (it raises if it does not
converge), given the attributes `t` of the expressions, the step, `T_n` and the guess `T`
(temperature.py:5, temperature_solver.py:6, temperature_from_xdmf.py:6). -/
inductive TempModel (F : Type) where
  | analytical (value : SExpr) (interp : ℚ → F)
  | fromXDMF (T : F)
  | heatSteady (solve : (ℕ → ℚ) → F → Except PyErr F)
  | heatTransient (ic : HeatIC F) (subs : List ℕ)
      (solve : (ℕ → ℚ) → ℚ → F → F → Except PyErr F)

/-- Attributes `T` and `T_n` (temperature.py:27-28). -/
structure TempState (F : Type) where
  T : F
  Tn : F

section
variable {F : Type}

/-- `create_functions` (temperature.py:32-43, temperature_from_xdmf.py:31-42,
temperature_solver.py:95-148).  `zero` is a new `fenics.Function`. -/
def TempModel.create (zero : F) (env : ℕ → ℚ) : TempModel F → Except PyErr (TempState F)
  | .analytical _ interp =>
    let T := interp 0
    .ok ⟨T, T⟩
  | .fromXDMF T => .ok ⟨T, T⟩
  | .heatSteady solve =>
    match solve env zero with
    | .error e => .error e
    | .ok T => .ok ⟨T, T⟩
  | .heatTransient ic _ _ =>
    match ic with
    | .missing => .error (.attributeError
        "Initial condition is required for transient heat transfer simulations")
    | .expr T => .ok ⟨zero, T⟩
    | .xdmf T => .ok ⟨zero, T⟩
    | .otherString => .ok ⟨zero, zero⟩

/-- `update(t)` (temperature.py:45-53, temperature_from_xdmf.py:44-48,
temperature_solver.py:255-275); `dt` is `dt.value`. -/
def TempModel.update (t dt : ℚ) (env : ℕ → ℚ) (s : TempState F) :
    TempModel F → Except PyErr ((ℕ → ℚ) × TempState F)
  | .analytical _ interp => .ok (env, ⟨interp t, s.T⟩)
  | .fromXDMF _ => .ok (env, s)
  | .heatSteady _ => .ok (env, s)
  | .heatTransient _ subs solve =>
    let env := updateExpressions subs t env
    match solve env dt s.Tn s.T with
    | .error e => .error e
    | .ok T => .ok (env, ⟨T, T⟩)

/-- `is_steady_state()` (temperature.py:55-56, temperature_from_xdmf.py:50-52,
temperature_solver.py:277-278). -/
def TempModel.isSteadyState : TempModel F → Bool
  | .analytical e _ => e.steady
  | .fromXDMF _ => true
  | .heatSteady _ => true
  | .heatTransient _ _ _ => false

/-! ## Driver -/

/-- What the driver is given: the stepsize, the final time, the expressions registered in the hydrogen
transport problem (h_transport_problem.py:262-278, 320-321) and the temperature. -/
structure SimCfg (F : Type) where
  dt : Stepsize
  final : ℚ
  registry : List ℕ
  temp : TempModel F

/-- What the equations of an accepted step were solved with (generic_simulation.py:504-511). -/
structure SimRec (F : Type) where
  t : ℚ
  temp : TempState F
  env : ℕ → ℚ

/-- State of the whole driver (generic_simulation.py:504-522). -/
structure SimState (F : Type) where
  run : RunState
  temp : TempState F
  env : ℕ → ℚ
  recs : List (SimRec F)

/-- After the clock has advanced: update of the temperature, then of the expressions
(generic_simulation.py:509-511, h_transport_problem.py:334). -/
def SimCfg.enter (cfg : SimCfg F) (s : SimState F) : SimState F :=
  match s.run.phase with
  | .solving _ _ =>
    match cfg.temp.update s.run.t s.run.value s.env s.temp with
    | .error e => { s with run := { s.run with phase := .raised e } }
    | .ok (env, temp) =>
      { s with temp := temp, env := updateExpressions cfg.registry s.run.t env }
  | _ => s

/-- One Newton solve and everything up to the next one: `Run.step` with the updates of temperature and
expressions at the beginning of each iteration (generic_simulation.py:504-522). -/
def SimCfg.step (cfg : SimCfg F) (s : SimState F) (o : Outcome) : SimState F :=
  match s.run.phase with
  | .finished => s
  | .raised _ => s
  | .solving nom failed =>
    match afterSolve cfg.dt s.run.value s.run.t o with
    | .error e => { s with run := { s.run with phase := .raised e } }
    | .ok v =>
      if o.converged then
        cfg.enter
          { s with
            run := loopHead cfg.final s.run.t (clipFinal cfg.final s.run.t v)
              (s.run.log ++ [{ t := s.run.t, dtNominal := nom, dtUsed := s.run.value,
                               dtExtrinsic := v, nbIt := o.nbIt, failed := failed }])
            recs := s.recs ++ [⟨s.run.t, s.temp, s.env⟩] }
      else
        { s with run := { s.run with value := v, phase := .solving nom (failed + 1) } }

/-- State at the first Newton solve; all expressions are created with `t=0`
(generic_simulation.py:326, 345-346, 367-370, helpers.py:27, 44). -/
def SimCfg.start (cfg : SimCfg F) (zero : F) : Except PyErr (SimState F) :=
  match cfg.temp.create zero (fun _ => 0) with
  | .error e => .error e
  | .ok temp =>
    .ok (cfg.enter ⟨Run.start cfg.dt cfg.final, temp, fun _ => 0, []⟩)

/-- The run after the Newton outcomes `outs` (generic_simulation.py:480-483, 504-522). -/
def SimCfg.exec (cfg : SimCfg F) (zero : F) (outs : List Outcome) : Except PyErr (SimState F) :=
  match cfg.start zero with
  | .error e => .error e
  | .ok s => .ok (outs.foldl cfg.step s)

end

end Festim
