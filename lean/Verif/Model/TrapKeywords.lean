import Verif.Model.Py

/-!
# Constructors of traps: arguments, keywords and attributes

`Trap.__init__` (festim/concentration/traps/trap.py:41-55), `ExtrinsicTrapBase.__init__` and
`define_newton_solver` (extrinsic_trap.py:6-80), `ExtrinsicTrap.__init__` (extrinsic_trap.py:97-130),
`NeutronInducedTrap.__init__` (neutron_induced_trap.py:33-60) and
`Traps.initialise_extrinsic_traps` (traps.py:66-72), as far as arguments and attributes go.

Simplified: the values of arguments are opaque, of a type `V`; `as_constant_or_expression`
(helpers.py) is described by the values for which it does not raise; `materials` is any value of
accepted type; the methods of the objects are not attributes here (a keyword with the name of a
method is left out by the theorems which depend on it).
-/

namespace Festim.Keywords

variable {V : Type}

/-- What an attribute holds (extrinsic_trap.py:45-56, trap.py:42-51). -/
inductive Slot (V : Type) where
  | raw (v : V)            -- stored as given
  | converted (v : V)      -- the result of `as_constant_or_expression`
  | pyNone
  | emptyList
  | allocated              -- a function created by `initialise_extrinsic_traps`
  | default (s : String)   -- the default of a parameter of the constructor
  deriving DecidableEq, Repr

/-- Attributes of an object (extrinsic_trap.py:45-56). -/
abbrev Attrs (V : Type) := String → Option (Slot V)

/-- `setattr` of a plain attribute (extrinsic_trap.py:46-56). -/
def Attrs.set (A : Attrs V) (name : String) (s : Slot V) : Attrs V :=
  fun x => if x = name then some s else A x

/-- A signature: parameters, those with a default marked, and whether there is a `**kwargs`
(trap.py:40, extrinsic_trap.py:6-20, 98-114, neutron_induced_trap.py:31-59). -/
structure Sig where
  params : List (String × Bool)
  kwargs : Bool

/-- A bound argument: given, or the default (extrinsic_trap.py:6-20). -/
def bound (name : String) : Option V → Slot V
  | some v => .raw v
  | none => .default name

/-- Binding of the arguments of a call (the Python language): positional arguments, then keywords.
Keywords are distinct, as the syntax of Python requires.  Returns the values of the parameters and
the remaining keywords (the calls of extrinsic_trap.py:45, 115-130). -/
def bindCall (s : Sig) (args : List V) (kws : List (String × V)) :
    Except PyErr ((String → Option V) × List (String × V)) :=
  if s.params.length < args.length then
    .error (.typeError "too many positional arguments")
  else
    let names := s.params.map (·.1)
    let pos := (names.take args.length).zip args
    if kws.any fun kv => (names.take args.length).contains kv.1 then
      .error (.typeError "multiple values")
    else if s.kwargs = false ∧ (kws.any fun kv => !names.contains kv.1) then
      .error (.typeError "unexpected keyword argument")
    else if s.params.any fun q => !q.2 && !(pos ++ kws).any (·.1 == q.1) then
      .error (.typeError "missing required argument")
    else
      .ok (fun x => if names.contains x then (pos ++ kws).lookup x else none,
        kws.filter fun kv => !names.contains kv.1)

/-- The parameters shared by all traps (trap.py:41, extrinsic_trap.py:8-12). -/
def common : List (String × Bool) :=
  [("k_0", false), ("E_k", false), ("p_0", false), ("E_p", false), ("materials", false)]

/-- The signature of `Trap.__init__` (trap.py:41). -/
def sigTrap : Sig := ⟨common ++ [("density", false), ("id", true)], false⟩

/-- The options of the solver (extrinsic_trap.py:14-18). -/
def options : List String :=
  ["absolute_tolerance", "relative_tolerance", "maximum_iterations", "linear_solver",
    "preconditioner"]

/-- The signature of `ExtrinsicTrapBase.__init__` (extrinsic_trap.py:6-20). -/
def sigBase : Sig := ⟨common ++ ("id", true) :: options.map fun o => (o, true), true⟩

/-- The signature of `ExtrinsicTrap.__init__` (extrinsic_trap.py:97-113). -/
def physExtrinsic : List String := ["phi_0", "n_amax", "n_bmax", "eta_a", "eta_b", "f_a", "f_b"]

/-- The additional parameters of `NeutronInducedTrap.__init__` (neutron_induced_trap.py:40-44). -/
def physNeutron : List String := ["phi", "K", "n_max", "A_0", "E_A"]

/-- The signature of a subclass with parameters `phys` (extrinsic_trap.py:97-113,
neutron_induced_trap.py:33-46). -/
def sigSub (phys : List String) : Sig :=
  ⟨common ++ phys.map (fun x => (x, false)) ++ [("id", true)], true⟩

/-- `Concentration.__init__` (concentration.py:19-25). -/
def concentrationInit : Attrs V := fun x =>
  if x ∈ ["solution", "previous_solution", "test_function", "F", "post_processing_solution"] then
    some .pyNone
  else if x = "sub_expressions" then some .emptyList
  else none

/-- `Trap.__init__` (trap.py:42-55) after binding. `density` is what `make_density` leaves. -/
def trapInit (b : String → Option V) (density : Slot V) : Attrs V :=
  ((((((((concentrationInit).set "id" (bound "id" (b "id"))).set "k_0" (bound "k_0" (b "k_0"))).set
    "E_k" (bound "E_k" (b "E_k"))).set "p_0" (bound "p_0" (b "p_0"))).set
    "E_p" (bound "E_p" (b "E_p"))).set "materials" (bound "materials" (b "materials"))).set
    "density" density).set "sources" .emptyList

/-- `Trap(...)` (trap.py:40-51). -/
def newTrap (args : List V) (kws : List (String × V)) : Except PyErr (Attrs V) :=
  match bindCall sigTrap args kws with
  | .error e => .error e
  | .ok (b, _) => .ok (trapInit b (bound "density" (b "density")))

/-- One iteration of `for name, val in kwargs.items(): setattr(...)` (extrinsic_trap.py:53-54).
`newton_solver` is a property, whose setter refuses a `Constant` or an `Expression`
(extrinsic_trap.py:58-71). -/
def setKeyword (conv : V → Except PyErr Unit) (A : Attrs V) (kv : String × V) :
    Except PyErr (Attrs V) :=
  match conv kv.2 with
  | .error e => .error e
  | .ok () =>
    if kv.1 = "newton_solver" then
      .error (.typeError "accepted type for newton_solver is fenics.NewtonSolver")
    else .ok (A.set kv.1 (.converted kv.2))

/-- The whole loop (extrinsic_trap.py:53-54). -/
def setKeywords (conv : V → Except PyErr Unit) : Attrs V → List (String × V) → Except PyErr (Attrs V)
  | A, [] => .ok A
  | A, kv :: rest =>
    match setKeyword conv A kv with
    | .error e => .error e
    | .ok A' => setKeywords conv A' rest

/-- The options of the solver as attributes (extrinsic_trap.py:46-50). -/
def setOptions (b : String → Option V) (A : Attrs V) : Attrs V :=
  options.foldl (fun A o => A.set o (bound o (b o))) A

/-- `ExtrinsicTrapBase.__init__` (extrinsic_trap.py:45-56). -/
def newBase (conv : V → Except PyErr Unit) (args : List V) (kws : List (String × V)) :
    Except PyErr (Attrs V) :=
  match bindCall sigBase args kws with
  | .error e => .error e
  | .ok (b, extra) =>
    match setKeywords conv ((setOptions b (trapInit b .emptyList)).set "newton_solver" .pyNone)
        extra with
    | .error e => .error e
    | .ok A => .ok ((A.set "density_previous_solution" .pyNone).set "density_test_function" .pyNone)

/-- `ExtrinsicTrap(...)` and `NeutronInducedTrap(...)` (extrinsic_trap.py:114-130,
neutron_induced_trap.py:47-60): the common parameters are passed on by position, the others and `id`
by keyword, followed by the remaining keywords.  A missing `id` is passed on as its default `None`:
the same as not passing it. -/
def newSub (phys : List String) (conv : V → Except PyErr Unit) (args : List V)
    (kws : List (String × V)) : Except PyErr (Attrs V) :=
  match bindCall (sigSub phys) args kws with
  | .error e => .error e
  | .ok (b, extra) =>
    newBase conv (common.filterMap fun q => b q.1)
      ((phys.filterMap fun x => (b x).map fun v => (x, v))
        ++ ((b "id").map fun v => ("id", v)).toList ++ extra)

/-- `Traps.initialise_extrinsic_traps` (traps.py:66-72). -/
def allocate (A : Attrs V) : Attrs V :=
  ((A.set "density" .allocated).set "density_test_function" .allocated).set
    "density_previous_solution" .allocated

/-- The parameters of the solver created by `define_newton_solver` (extrinsic_trap.py:73-80); the sixth,
`error_on_nonconvergence`, is constant. -/
def solverParameters (A : Attrs V) : List (String × Option (Slot V)) :=
  options.map fun o => (o, A o)

end Festim.Keywords
