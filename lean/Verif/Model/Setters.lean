import Verif.Model.TypedList

/-!
# Attributes of a simulation: setters, default arguments and sharing of list objects

`Simulation.__init__` and its property setters (festim/generic_simulation.py:77-198).  Which list
object an attribute refers to matters here, so lists live in a heap: an address is a position in the
heap, an object is its class and its items.

Simplified: objects other than lists (traps, materials, ...) are opaque, known by their class and an
identity; the attributes `mesh`, `settings`, `log_level` (stored as given) are left out; subclasses of
the containers are left out.  A `Temperature`/`Stepsize` built by a setter is described by the
argument it was built from.
-/

namespace Festim.Attr

/-- Classes of objects that are not lists. `derivedQuantity` is a subclass of `export`
(festim/exports/derived_quantities/derived_quantity.py:4). -/
inductive LeafCls where
  | trap | material | export | derivedQuantity | temperature | stepsize
  | boundaryCondition | source | initialCondition | other
  deriving DecidableEq, Repr

/-- Classes of lists (traps.py:5, materials.py:10, exports.py:5, derived_quantities.py:12). -/
inductive ListCls where
  | plain | traps | materials | exports | derivedQuantities
  deriving DecidableEq, Repr

/-- A Python value. `bool` is a subclass of `int` (what may be passed to generic_simulation.py:77-104). -/
inductive Val where
  | none
  | num (q : ℚ)
  | bool (b : Bool)
  | sympy (id : ℕ)
  | str (s : String)
  | leaf (c : LeafCls) (id : ℕ)
  | ref (a : ℕ)
  deriving DecidableEq, Repr

/-- A list object (traps.py:5, materials.py:10, exports.py:5, derived_quantities.py:12). -/
structure Obj where
  cls : ListCls
  items : List Val
  deriving DecidableEq, Repr

/-- All the list objects of the program; the address of an object is its position
(the objects held by generic_simulation.py:91-104). -/
abbrev Heap := List Obj

/-- The class of the list a value refers to
(the `isinstance` tests of generic_simulation.py:117-125, 136-144, 155-163). -/
def listCls (h : Heap) : Val → Option ListCls
  | .ref a => (h[a]?).map Obj.cls
  | _ => .none

/-- `isinstance(value, festim.Trap)` (traps.py:38-41). -/
def isTrap : Val → Bool
  | .leaf .trap _ => true
  | _ => false

/-- `isinstance(value, festim.Material)` (materials.py:46-49). -/
def isMaterial : Val → Bool
  | .leaf .material _ => true
  | _ => false

/-- `isinstance(value, festim.DerivedQuantity)` (derived_quantities.py:80-85). -/
def isDerivedQuantity : Val → Bool
  | .leaf .derivedQuantity _ => true
  | _ => false

/-- `isinstance(value, festim.Export) or isinstance(value, festim.DerivedQuantities)`
(exports.py:39-44). -/
def isExport (h : Heap) : Val → Bool
  | .leaf .export _ => true
  | .leaf .derivedQuantity _ => true
  | v => listCls h v == some .derivedQuantities

/-- The test made by the validating methods of each class of list
(traps.py:38-41, materials.py:46-49, exports.py:39-44, derived_quantities.py:80-85). -/
def validFor (h : Heap) : ListCls → Val → Bool
  | .plain => fun _ => true
  | .traps => isTrap
  | .materials => isMaterial
  | .exports => isExport h
  | .derivedQuantities => isDerivedQuantity

/-- Creation of a list object: `festim.Traps(l)`, ... (traps.py:10-22, materials.py:15-29,
exports.py:10-23, derived_quantities.py:41-66), or a plain list.  Returns the heap and the address. -/
def mkList (h : Heap) (c : ListCls) (items : List Val) : Except PyErr (Heap × ℕ) :=
  match mkTyped (validFor h c) (some items) with
  | .error e => .error e
  | .ok l => .ok (h ++ [⟨c, l⟩], h.length)

/-- The items of the list at an address (generic_simulation.py:111-113, 130-132, 149-151). -/
def itemsAt (h : Heap) (a : ℕ) : List Val :=
  match h[a]? with
  | some o => o.items
  | none => []

/-- `traps.setter` (generic_simulation.py:111-128). -/
def setTraps (h : Heap) (v : Val) : Except PyErr (Heap × Val) :=
  if v = .none then
    (mkList h .traps []).map fun p => (p.1, .ref p.2)
  else if listCls h v = some .traps then .ok (h, v)
  else
    match v with
    | .ref a =>
      if (listCls h v).isSome then
        (mkList h .traps (itemsAt h a)).map fun p => (p.1, .ref p.2)
      else .error (.typeError "Accepted types for traps are list, festim.Traps or festim.Trap")
    | .leaf .trap _ => (mkList h .traps [v]).map fun p => (p.1, .ref p.2)
    | _ => .error (.typeError "Accepted types for traps are list, festim.Traps or festim.Trap")

/-- `materials.setter` (generic_simulation.py:130-147). -/
def setMaterials (h : Heap) (v : Val) : Except PyErr (Heap × Val) :=
  if listCls h v = some .materials then .ok (h, v)
  else
    match v with
    | .ref a =>
      if (listCls h v).isSome then
        (mkList h .materials (itemsAt h a)).map fun p => (p.1, .ref p.2)
      else .error (.typeError "accepted types for materials are list, festim.Material or festim.Materials")
    | .leaf .material _ => (mkList h .materials [v]).map fun p => (p.1, .ref p.2)
    | .none => .ok (h, .none)
    | _ => .error (.typeError "accepted types for materials are list, festim.Material or festim.Materials")

/-- `exports.setter` (generic_simulation.py:149-166). -/
def setExports (h : Heap) (v : Val) : Except PyErr (Heap × Val) :=
  if v = .none then
    (mkList h .exports []).map fun p => (p.1, .ref p.2)
  else if isExport h v then
    (mkList h .exports [v]).map fun p => (p.1, .ref p.2)
  else if listCls h v = some .exports then .ok (h, v)
  else
    match v with
    | .ref a =>
      if (listCls h v).isSome then
        (mkList h .exports (itemsAt h a)).map fun p => (p.1, .ref p.2)
      else .error (.typeError "accepted types for exports are list, festim.DerivedQuantities, festim.Export or festim.Exports")
    | _ => .error (.typeError "accepted types for exports are list, festim.DerivedQuantities, festim.Export or festim.Exports")

/-- What the attributes `T` and `dt` hold: nothing, the object given, or an object built by the
setter from a number or an expression (generic_simulation.py:168-198). -/
inductive Slot where
  | empty
  | given (id : ℕ)
  | built (v : Val)
  deriving DecidableEq, Repr

/-- `T.setter` (generic_simulation.py:168-183). -/
def setT : Val → Except PyErr Slot
  | .leaf .temperature k => .ok (.given k)
  | .none => .ok .empty
  | .num q => .ok (.built (.num q))
  | .bool b => .ok (.built (.bool b))
  | .sympy s => .ok (.built (.sympy s))
  | _ => .error (.typeError "accepted types for T attribute are int, float, sympy.Expr or festim.Temperature")

/-- `dt.setter` (generic_simulation.py:185-198). -/
def setDt : Val → Except PyErr Slot
  | .none => .ok .empty
  | .num q => .ok (.built (.num q))
  | .bool b => .ok (.built (.bool b))
  | .leaf .stepsize k => .ok (.given k)
  | _ => .error (.typeError "dt must be an int, float, or festim.Stepsize")

/-- The attributes of a simulation (generic_simulation.py:91-104). -/
structure Sim where
  sources : Val
  boundaryConditions : Val
  initialConditions : Val
  traps : Val
  materials : Val
  exports : Val
  T : Slot
  dt : Slot
  deriving DecidableEq, Repr

/-- Names of the attributes (generic_simulation.py:93-104). -/
inductive Name where
  | sources | boundaryConditions | initialConditions | traps | materials | exports | T | dt
  deriving DecidableEq, Repr

/-- The program: its list objects and the simulations created so far (generic_simulation.py:77-104). -/
structure World where
  heap : Heap
  sims : List Sim
  deriving DecidableEq, Repr

/-- The three lists `[]` written as default arguments in the signature of `__init__`
(generic_simulation.py:81, 82, 87): they are created once, when the class is defined. -/
def defaultSources : ℕ := 0
/-- See `defaultSources` (generic_simulation.py:82). -/
def defaultBCs : ℕ := 1
/-- See `defaultSources` (generic_simulation.py:87). -/
def defaultICs : ℕ := 2

/-- The program just after `import festim` (the default arguments of generic_simulation.py:81, 82, 87). -/
def World.start : World := ⟨[⟨.plain, []⟩, ⟨.plain, []⟩, ⟨.plain, []⟩], []⟩

/-- `sim.<name> = v`.  `sources`, `boundary_conditions` and `initial_conditions` are plain attributes:
anything is stored as it is (generic_simulation.py:99, 100, 104, 115-198). -/
def setAttr (h : Heap) (s : Sim) (n : Name) (v : Val) : Except PyErr (Heap × Sim) :=
  match n with
  | .sources => .ok (h, { s with sources := v })
  | .boundaryConditions => .ok (h, { s with boundaryConditions := v })
  | .initialConditions => .ok (h, { s with initialConditions := v })
  | .traps => (setTraps h v).map fun p => (p.1, { s with traps := p.2 })
  | .materials => (setMaterials h v).map fun p => (p.1, { s with materials := p.2 })
  | .exports => (setExports h v).map fun p => (p.1, { s with exports := p.2 })
  | .T => (setT v).map fun p => (h, { s with T := p })
  | .dt => (setDt v).map fun p => (h, { s with dt := p })

/-- Arguments of `Simulation(...)`; `none` when the argument is not passed (generic_simulation.py:77-90). -/
structure Args where
  sources : Option Val := none
  boundaryConditions : Option Val := none
  initialConditions : Option Val := none
  traps : Val := .none
  materials : Val := .none
  exports : Val := .none
  T : Val := .none
  dt : Val := .none

/-- `Simulation.__init__` (generic_simulation.py:77-109): the setters are called in the order of the
source. -/
def construct (h : Heap) (a : Args) : Except PyErr (Heap × Sim) := do
  let dt ← setDt a.dt
  let (h, traps) ← setTraps h a.traps
  let (h, materials) ← setMaterials h a.materials
  let bcs := a.boundaryConditions.getD (.ref defaultBCs)
  let ics := a.initialConditions.getD (.ref defaultICs)
  let T ← setT a.T
  let (h, exports) ← setExports h a.exports
  let sources := a.sources.getD (.ref defaultSources)
  return (h, ⟨sources, bcs, ics, traps, materials, exports, T, dt⟩)

/-- Reading an attribute that holds a list (or whatever was stored)
(generic_simulation.py:99, 100, 104, 111-113, 130-132, 149-151). -/
def getAttr (s : Sim) : Name → Val
  | .sources => s.sources
  | .boundaryConditions => s.boundaryConditions
  | .initialConditions => s.initialConditions
  | .traps => s.traps
  | .materials => s.materials
  | .exports => s.exports
  | .T => .none
  | .dt => .none

/-- How a program names a list: a variable of its own, or an attribute of a simulation
(the attributes of generic_simulation.py:93-104). -/
inductive Target where
  | var (a : ℕ)
  | attr (i : ℕ) (n : Name)
  deriving DecidableEq, Repr

/-- The address a target refers to, if it is a list (generic_simulation.py:93-104). -/
def Target.addr (w : World) : Target → Option ℕ
  | .var a => if a < w.heap.length then some a else none
  | .attr i n =>
    match w.sims[i]? with
    | none => none
    | some s =>
      match getAttr s n with
      | .ref a => if a < w.heap.length then some a else none
      | _ => none

/-- Statements of a program that uses simulations.  Exceptions are caught and the program goes on
(the API of generic_simulation.py:77-198, traps.py:10-41, materials.py:15-49, exports.py:10-44). -/
inductive Stmt where
  /-- `l = festim.Traps(items)` or `l = [items]` -/
  | newList (c : ListCls) (items : List Val)
  /-- `sim = festim.Simulation(...)` -/
  | newSim (a : Args)
  /-- `sims[i].name = v` -/
  | set (i : ℕ) (n : Name) (v : Val)
  /-- `target.append(x)`, `target.extend(...)`, `del target[i]`, ... -/
  | mutate (t : Target) (op : ListOp Val)

/-- The methods of the class of the object: typed lists validate, plain lists do not
(traps.py:23-36, materials.py:31-44, exports.py:24-37, derived_quantities.py:65-78). -/
def mutateAt (h : Heap) (a : ℕ) (op : ListOp Val) : Heap :=
  match h[a]? with
  | none => h
  | some o => h.set a ⟨o.cls, (op.apply (validFor h o.cls) o.items).1⟩

/-- One statement (generic_simulation.py:77-198, traps.py:10-41). -/
def step (w : World) : Stmt → World
  | .newList c items =>
    match mkList w.heap c items with
    | .error _ => w
    | .ok (h, _) => ⟨h, w.sims⟩
  | .newSim a =>
    match construct w.heap a with
    | .error _ => w
    | .ok (h, s) => ⟨h, w.sims ++ [s]⟩
  | .set i n v =>
    match w.sims[i]? with
    | none => w
    | some s =>
      match setAttr w.heap s n v with
      | .error _ => w
      | .ok (h, s') => ⟨h, w.sims.set i s'⟩
  | .mutate t op =>
    match t.addr w with
    | none => w
    | some a => ⟨mutateAt w.heap a op, w.sims⟩

/-- A program (generic_simulation.py:77-198, traps.py:10-41). -/
def run (w : World) : List Stmt → World
  | [] => w
  | s :: ss => run (step w s) ss

/-- What is seen through an attribute: the items of the list it refers to
(generic_simulation.py:99, 100, 104, 111-113, 130-132, 149-151). -/
def seen (w : World) (i : ℕ) (n : Name) : Option (List Val) :=
  match Target.addr w (.attr i n) with
  | none => none
  | some a => some (itemsAt w.heap a)

end Festim.Attr
