import Verif.Model.Py

/-!
# Newton solvers

festim/h_transport_problem.py, festim/temperature/temperature_solver.py,
festim/concentration/traps/extrinsic_trap.py and traps.py, festim/generic_simulation.py: which parameters the three
Newton solvers are given.  Simplified: a solver is its parameters (two names for one solver object are not
modelled); only calls of `initialise` which do not raise are considered.
-/

namespace Festim.Newton

/-- `absolute_tolerance`, `relative_tolerance`, `maximum_iterations`, `linear_solver`, `preconditioner`: attributes of
`Settings`, `HeatTransferProblem` and `ExtrinsicTrapBase`
(settings.py:69-76, temperature_solver.py:53-57, extrinsic_trap.py:46-50). -/
structure Opts where
  atol : ℚ
  rtol : ℚ
  maxIt : ℕ
  linear : Option String
  precond : String
  deriving DecidableEq, Repr

/-- A `fenics.NewtonSolver`: its parameters (h_transport_problem.py:282-294). -/
structure Solver where
  opts : Opts
  errorOnNonconvergence : Bool
  deriving DecidableEq, Repr

/-- What the user assigns to the attribute `newton_solver` (h_transport_problem.py:53-63). -/
inductive Value where
  | none
  | solver (s : Solver)
  | other
  deriving DecidableEq, Repr

/-- An object with options and a solver (temperature_solver.py:53-64, extrinsic_trap.py:46-52). -/
structure Owner where
  opts : Opts
  solver : Option Solver := none
  deriving DecidableEq, Repr

/-- The setter (h_transport_problem.py:52-63, temperature_solver.py:70-81, extrinsic_trap.py:62-71). -/
def Owner.set (o : Owner) : Value → Except PyErr Owner
  | .none => .ok { o with solver := Option.none }
  | .solver s => .ok { o with solver := some s }
  | .other => .error (.typeError "accepted type for newton_solver is fenics.NewtonSolver")

/-- `define_newton_solver` (h_transport_problem.py:280-294, temperature_solver.py:225-234,
extrinsic_trap.py:73-81): the three differ only in `error_on_nonconvergence`. -/
def Owner.define (o : Owner) (errorOnNonconvergence : Bool) : Owner :=
  { o with solver := some ⟨o.opts, errorOnNonconvergence⟩ }

/-- The simulation: settings, the hydrogen problem (absent before `initialise`, generic_simulation.py:107), the heat
problem and the extrinsic traps. -/
structure Sim where
  settings : Opts
  transient : Bool
  hydrogen : Option (Option Solver) := none
  heat : Owner
  traps : List Owner
  deriving DecidableEq, Repr

/-- What the user does between two runs
(h_transport_problem.py:53-63, temperature_solver.py:71-81, extrinsic_trap.py:63-71,
generic_simulation.py:320). -/
inductive Op where
  | setSettings (o : Opts)
  | setHeatOpts (o : Opts)
  | setTrapOpts (i : ℕ) (o : Opts)
  | setHydrogen (v : Value)
  | setHeat (v : Value)
  | setTrap (i : ℕ) (v : Value)
  | initialise
  deriving DecidableEq, Repr

/-- `create_functions` of the heat problem: a solver is defined only if there is none
(temperature_solver.py:132-133). -/
def Owner.initHeat (o : Owner) : Owner :=
  match o.solver with
  | none => o.define true
  | some _ => o

/-- `Simulation.initialise` (generic_simulation.py:348-350, 370-371, 386; h_transport_problem.py:104, 109-111;
traps.py:90-93). -/
def Sim.initialise (s : Sim) : Sim :=
  -- `HTransportProblem(...)` is new, with `newton_solver = None`, and defines its solver
  let h : Owner := ({ opts := s.settings } : Owner).define false
  { s with
    heat := s.heat.initHeat
    hydrogen := some h.solver
    traps := if s.transient then s.traps.map (·.define true) else s.traps }

/-- Assignment of a solver to one trap (extrinsic_trap.py:63-71). -/
def setAt (ts : List Owner) (i : ℕ) (v : Value) : Except PyErr (List Owner) :=
  match ts[i]? with
  | none => .error (.indexError "list index out of range")
  | some t =>
    match t.set v with
    | .error e => .error e
    | .ok t => .ok (ts.set i t)

/-- One operation (h_transport_problem.py:53-63, 280-294, temperature_solver.py:71-81, 132-133, 226-234, extrinsic_trap.py:63-81). -/
def Sim.apply (s : Sim) : Op → Except PyErr Sim
  | .setSettings o => .ok { s with settings := o }
  | .setHeatOpts o => .ok { s with heat := { s.heat with opts := o } }
  | .setTrapOpts i o =>
    match s.traps[i]? with
    | none => .error (.indexError "list index out of range")
    | some t => .ok { s with traps := s.traps.set i { t with opts := o } }
  | .setHydrogen v =>
    match s.hydrogen with
    | none => .error (.attributeError "'NoneType' object has no attribute 'newton_solver'")
    | some h =>
      match ({ opts := s.settings, solver := h } : Owner).set v with
      | .error e => .error e
      | .ok o => .ok { s with hydrogen := some o.solver }
  | .setHeat v =>
    match s.heat.set v with
    | .error e => .error e
    | .ok o => .ok { s with heat := o }
  | .setTrap i v =>
    match setAt s.traps i v with
    | .error e => .error e
    | .ok ts => .ok { s with traps := ts }
  | .initialise => .ok s.initialise

/-- A session: an operation which raises changes nothing
(the operations are those of h_transport_problem.py:53-63, temperature_solver.py:71-81,
extrinsic_trap.py:63-71). -/
def Sim.step (s : Sim) (op : Op) : Sim :=
  match s.apply op with
  | .ok s => s
  | .error _ => s

/-- The operations of `Op` one after the other (h_transport_problem.py:53-63, temperature_solver.py:71-81, extrinsic_trap.py:63-71). -/
def Sim.session (s : Sim) (ops : List Op) : Sim := ops.foldl Sim.step s

end Festim.Newton
