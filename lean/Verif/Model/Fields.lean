import Verif.Model.Py

/-!
# Fields: sources, boundary conditions, traps, components, initial conditions

festim/generic_simulation.py, festim/h_transport_problem.py, festim/concentration/traps/traps.py,
festim/boundary_conditions/boundary_condition.py, festim/boundary_conditions/dirichlets/dirichlet_bc.py.

Not modelled: the same `Trap` object listed twice, trap ids that are not natural numbers, values of
other types that compare equal to an integer (`True`, `1.0`).
-/

namespace Festim

/-- A field label: an int, a string which is the decimal writing of an int (`str(n)`), or any other
string (the arguments `field`, e.g. boundary_condition.py:11-19, source.py:24-26, export.py:2-3). -/
inductive Field where
  | int (n : ℕ)
  | strInt (n : ℕ)
  | name (s : String)
  deriving DecidableEq, Repr

/-- A Python dict: the most recent assignment to a key comes first
(generic_simulation.py:211-220, 559-582, h_transport_problem.py:184-191). -/
abbrev Dict (κ υ : Type) := List (κ × υ)

/-- `d[k] = v` (generic_simulation.py:219-220, 581-582, h_transport_problem.py:190-191) -/
def Dict.set {κ υ : Type} (d : Dict κ υ) (k : κ) (v : υ) : Dict κ υ := (k, v) :: d

/-- `d.get(k)` (generic_simulation.py:237, h_transport_problem.py:195) -/
def Dict.get? {κ υ : Type} [DecidableEq κ] (d : Dict κ υ) (k : κ) : Option υ :=
  (d.find? fun p => p.1 = k).map Prod.snd

/-! ## Sources -/

/-- Objects that own source terms; a trap is given by its position in the list, from 1
(generic_simulation.py:205-220). -/
inductive Obj where
  | mobile
  | temp
  | trap (k : ℕ)
  deriving DecidableEq, Repr

/-- `Source` (festim/sources/source.py:24-33) or `RadioactiveDecay` (`decay`), with an identity. -/
structure Source where
  uid : ℕ
  field : Field
  decay : Bool := false
  deriving DecidableEq, Repr

/-- The `sources` attributes of all objects (generic_simulation.py:205-208). -/
structure SrcState where
  mobile : List Source
  temp : List Source
  traps : List (List Source)
  deriving DecidableEq, Repr

/-- `obj.sources` (generic_simulation.py:205-208) -/
def SrcState.get (s : SrcState) : Obj → List Source
  | .mobile => s.mobile
  | .temp => s.temp
  | .trap k => s.traps.getD (k - 1) []

/-- `obj.sources.append(source)` (generic_simulation.py:235, 237) -/
def SrcState.push (s : SrcState) (x : Source) : Obj → SrcState
  | .mobile => { s with mobile := s.mobile ++ [x] }
  | .temp => { s with temp := s.temp ++ [x] }
  | .trap k => { s with traps := s.traps.modify (k - 1) (· ++ [x]) }

/-- `field_to_object` (festim/generic_simulation.py:211-220). -/
def fieldToObject (n : ℕ) : Dict Field Obj :=
  (List.range' 1 n).foldl (fun d i => Dict.set (Dict.set d (.int i) (.trap i)) (.strInt i) (.trap i))
    [(.name "solute", .mobile), (.strInt 0, .mobile), (.int 0, .mobile), (.name "mobile", .mobile),
     (.name "T", .temp)]

/-- Body of the loop on sources (generic_simulation.py:224-237); `heat` tells whether `self.T` is a
`HeatTransferProblem`. -/
def attributeSource (heat : Bool) (n : ℕ) (st : SrcState) (s : Source) : SrcState × Option PyErr :=
  if s.field = .name "T" ∧ heat = false then
    (st, some (.typeError "Heat transfer sources can only be used with HeatTransferProblem"))
  else if s.decay = true ∧ s.field = .name "all" then
    (((.mobile :: (List.range' 1 n).map .trap) : List Obj).foldl (fun st o => st.push s o) st, none)
  else
    match Dict.get? (fieldToObject n) s.field with
    | none => (st, some (.keyError "field"))
    | some o => (st.push s o, none)

/-- Loop on sources (generic_simulation.py:223-237). -/
def attributeLoop (heat : Bool) (n : ℕ) : SrcState → List Source → SrcState × Option PyErr
  | st, [] => (st, none)
  | st, s :: ss =>
    match attributeSource heat n st s with
    | (st', none) => attributeLoop heat n st' ss
    | (st', some e) => (st', some e)

/-- Reset of the sources of all objects (generic_simulation.py:205-208). -/
def SrcState.reset (old : SrcState) : SrcState :=
  { mobile := [], temp := [], traps := old.traps.map fun _ => [] }

/-- `attribute_source_terms` (festim/generic_simulation.py:200-237), from any earlier state of the
objects. -/
def attributeSources (heat : Bool) (old : SrcState) (ss : List Source) : SrcState × Option PyErr :=
  attributeLoop heat old.traps.length old.reset ss

/-! ## Boundary conditions -/

/-- The classes distinguished by the code; `SurfaceKinetics` is a subclass of `FluxBC`
(dirichlet_bc.py:6, flux_bc.py:6, surface_kinetics.py:6). -/
inductive BCKind where
  | dirichlet
  | flux
  | surfaceKinetics
  deriving DecidableEq, Repr

/-- `BoundaryCondition` with an identity (`==` is identity) (boundary_condition.py:11-19). -/
structure BC where
  uid : ℕ
  kind : BCKind
  field : Field
  surfaces : List ℕ
  deriving DecidableEq, Repr

/-- `BoundaryCondition.__init__` (festim/boundary_conditions/boundary_condition.py:11-19);
a single surface is passed as a singleton. -/
def BC.make (uid : ℕ) (kind : BCKind) (field : Field) (surfaces : List ℕ) : BC :=
  { uid, kind, field := if field = .name "solute" then .int 0 else field, surfaces }

/-- `isinstance(bc, FluxBC)` (h_transport_problem.py:301, mobile.py:218) -/
def BC.isFlux (bc : BC) : Bool :=
  match bc.kind with
  | .dirichlet => false
  | _ => true

/-- `isinstance(bc, (DirichletBC, SurfaceKinetics))` (generic_simulation.py:252) -/
def BC.isDcSk (bc : BC) : Bool :=
  match bc.kind with
  | .flux => false
  | _ => true

/-- `valid_fields` (generic_simulation.py:242-246). -/
def validFields (n : ℕ) : List Field :=
  [.name "T", .int 0, .strInt 0] ++ (List.range n).map (fun i => .strInt (i + 1)) ++
    (List.range n).map fun i => .int (i + 1)

/-- Inner loop (generic_simulation.py:274-294). -/
def checkClash (bc : BC) : List BC → Except PyErr Unit
  | [] => .ok ()
  | d :: ds =>
    if bc.uid = d.uid ∨ bc.field ≠ d.field then checkClash bc ds
    else if bc.surfaces.any (fun s => s ∈ d.surfaces) then
      .error (.valueError "is simultaneously set with another boundary condition")
    else checkClash bc ds

/-- Body of the outer loop (generic_simulation.py:256-294). -/
def checkBC (dim : ℕ) (heat : Bool) (n : ℕ) (dcsk : List BC) (bc : BC) : Except PyErr Unit :=
  if bc.field ∉ validFields n then .error (.valueError "is not a valid field for BC")
  else if bc.kind = .surfaceKinetics ∧ dim ≠ 1 then
    .error (.valueError "SurfaceKinetics can only be used in 1D simulations")
  else if bc.field = .name "T" ∧ heat = false then
    .error (.typeError "Heat transfer boundary conditions can only be used with HeatTransferProblem")
  else checkClash bc dcsk

/-- Outer loop (generic_simulation.py:255-294). -/
def checkBCLoop (dim : ℕ) (heat : Bool) (n : ℕ) (dcsk : List BC) : List BC → Except PyErr Unit
  | [] => .ok ()
  | bc :: l =>
    match checkBC dim heat n dcsk bc with
    | .error e => .error e
    | .ok () => checkBCLoop dim heat n dcsk l

/-- `check_boundary_conditions` (festim/generic_simulation.py:239-294). -/
def checkBCs (dim : ℕ) (heat : Bool) (n : ℕ) (bcs : List BC) : Except PyErr Unit :=
  checkBCLoop dim heat n (bcs.filter BC.isDcSk) bcs

/-- `attribute_boundary_conditions` (festim/generic_simulation.py:308-318): conditions handed to the
heat problem and to the hydrogen problem. -/
def attributeBCs (dim : ℕ) (heat : Bool) (n : ℕ) (bcs : List BC) : Except PyErr (List BC × List BC) :=
  match checkBCs dim heat n bcs with
  | .error e => .error e
  | .ok () => .ok (bcs.filter (fun b => b.field = .name "T"), bcs.filter fun b => b.field ≠ .name "T")

/-- `attribute_flux_boundary_conditions` (festim/h_transport_problem.py:296-302), for a new mobile
object. -/
def mobileFluxes (bcs : List BC) : List BC :=
  bcs.filter fun b => b.isFlux ∧ b.field = .int 0

/-- Flux conditions used in the heat equation (festim/temperature/temperature_solver.py:216-224). -/
def heatFluxes (bcs : List BC) : List BC := bcs.filter BC.isFlux

/-- Terms added by the fluxes: one per surface (festim/concentration/mobile.py:219-238,
temperature_solver.py:223-224). -/
def fluxTerms (bcs : List BC) : List (ℕ × ℕ) :=
  bcs.flatMap fun b => b.surfaces.map fun s => (b.uid, s)

/-- A Dirichlet condition handed to the solver: origin, component (0 if the space is not mixed) and
surface (dirichlet_bc.py:86-92). -/
structure Imposed where
  uid : ℕ
  component : ℕ
  surface : ℕ
  deriving DecidableEq, Repr

/-- `create_dirichletbc` (festim/boundary_conditions/dirichlets/dirichlet_bc.py:86-92); `nsub` is
`V.num_sub_spaces()`. `V.sub` takes an int only. -/
def createDirichlet (nsub : ℕ) (bc : BC) : Except PyErr (List Imposed) :=
  if nsub = 0 then .ok (bc.surfaces.map fun s => ⟨bc.uid, 0, s⟩)
  else
    match bc.field with
    | .int k =>
      if k < nsub then .ok (bc.surfaces.map fun s => ⟨bc.uid, k, s⟩)
      else .error (.indexError "invalid component")
    | _ => .error (.typeError "incompatible function arguments")

/-- `create_dirichlet_bcs` (festim/h_transport_problem.py:304-321). -/
def createDirichlets (nsub : ℕ) : List BC → Except PyErr (List Imposed)
  | [] => .ok []
  | bc :: l =>
    if bc.field ≠ .name "T" ∧ bc.kind = .dirichlet then
      match createDirichlet nsub bc with
      | .error e => .error e
      | .ok i => (createDirichlets nsub l).map (i ++ ·)
    else createDirichlets nsub l

/-! ## Components of the solution -/

/-- Elements of the mixed space (h_transport_problem.py:131-136). -/
inductive ElemKind where
  | solute
  | trap
  | adsorbed
  deriving DecidableEq, Repr

/-- The mixed element (festim/h_transport_problem.py:119-137); `[]` when the space is not mixed.
`sks` lists the number of surfaces of each `SurfaceKinetics`. -/
def mixedElements (n : ℕ) (sks : List ℕ) : List ElemKind :=
  let nb := sks.sum
  if n = 0 ∧ nb = 0 then []
  else [.solute] ++ List.replicate n .trap ++ List.replicate nb .adsorbed

/-- `num_sub_spaces()` (h_transport_problem.py:128-137, 156) -/
def numSubSpaces (n : ℕ) (sks : List ℕ) : ℕ := (mixedElements n sks).length

/-- Unknowns: the mobile concentration, the traps (position from 1), and the adsorbed concentrations
(rank of the condition, rank of the surface, from 0) (h_transport_problem.py:161-165). -/
inductive Unknown where
  | mobile
  | trap (k : ℕ)
  | adsorbed (j i : ℕ)
  deriving DecidableEq, Repr

/-- Inner loop on the surfaces of one `SurfaceKinetics` (h_transport_problem.py:171-175):
pairs (unknown, component) and the next index. -/
def assignSurfaces (j : ℕ) : (i count index : ℕ) → List (Unknown × ℕ) × ℕ
  | _, 0, index => ([], index)
  | i, c + 1, index =>
    let r := assignSurfaces j (i + 1) c (index + 1)
    ((.adsorbed j i, index) :: r.1, r.2)

/-- Loop on the `SurfaceKinetics` conditions (h_transport_problem.py:168-175). -/
def assignSKs : (j : ℕ) → List ℕ → (index : ℕ) → List (Unknown × ℕ) × ℕ
  | _, [], index => ([], index)
  | j, c :: cs, index =>
    let r := assignSurfaces j 0 c index
    let r' := assignSKs (j + 1) cs r.2
    (r.1 ++ r'.1, r'.2)

/-- Loop on the traps: `count` traps left, at position `k` (h_transport_problem.py:176-180). -/
def assignTraps : (k count index : ℕ) → List (Unknown × ℕ) × ℕ
  | _, 0, index => ([], index)
  | k, c + 1, index =>
    let r := assignTraps (k + 1) c (index + 1)
    ((.trap k, index) :: r.1, r.2)

/-- Assignment of the components in `initialise_concentrations`
(festim/h_transport_problem.py:161-180, the same loop again at 235-247). -/
def assignComponents (n : ℕ) (sks : List ℕ) : List (Unknown × ℕ) :=
  if numSubSpaces n sks = 0 then [(.mobile, 0)]
  else
    let t := assignTraps 1 n 1
    let s := assignSKs 0 sks t.2
    (.mobile, 0) :: (t.1 ++ s.1)

/-- `update_post_processing_solutions` (festim/h_transport_problem.py:375-393): which component each
object reads back. -/
def postComponents (n : ℕ) (sks : List ℕ) : List (Unknown × ℕ) :=
  (List.range' 1 n).map (fun k => (.trap k, k)) ++ (assignSKs 0 sks (n + 1)).1 ++ [(.mobile, 0)]

/-! ## Trap ids -/

/-- `assign_traps_ids` (festim/concentration/traps/traps.py:47-50). -/
def assignIds (ids : List (Option ℕ)) : List ℕ :=
  (ids.zipIdx 1).map fun p => p.1.getD p.2

/-- `get_trap` (traps.py:59-63): position of the first trap with this id, from 1. -/
def getTrap (ids : List ℕ) (id : ℕ) : Except PyErr ℕ :=
  match (ids.zipIdx 1).find? fun p => p.1 = id with
  | none => .error (.valueError "Couldn't find trap")
  | some p => .ok p.2

/-- Functions an export can refer to (generic_simulation.py:559-582). -/
inductive ExpFun where
  | comp (k : ℕ)
  | temp
  | retention
  | adsorbed
  deriving DecidableEq, Repr

/-- `label_to_function` (festim/generic_simulation.py:559-583); trap `k` was given component `k`
(`postComponents`). -/
def labelToFunction (ids : List ℕ) : Dict Field ExpFun :=
  (ids.zipIdx 1).foldl (fun d p => Dict.set (Dict.set d (.int p.1) (.comp p.2)) (.strInt p.1) (.comp p.2))
    [(.name "solute", .comp 0), (.strInt 0, .comp 0), (.int 0, .comp 0), (.name "T", .temp),
     (.name "retention", .retention), (.name "adsorbed", .adsorbed)]

/-! ## Initial conditions -/

/-- `InitialCondition`, the value being the interpolated function (initial_condition.py:16-21). -/
structure IC (V : Type) where
  field : Field
  value : V

/-- `field_to_component` (festim/h_transport_problem.py:184-191). -/
def fieldToComponent (ids : List ℕ) : Dict Field ℕ :=
  (ids.zipIdx 1).foldl (fun d p => Dict.set (Dict.set d (.int p.1) p.2) (.strInt p.1) p.2)
    [(.name "solute", 0), (.strInt 0, 0), (.int 0, 0)]

/-- Component written by an initial condition (h_transport_problem.py:195-210): a non-zero component
is used as a trap *id*. -/
def icTarget (ids : List ℕ) (f : Field) : Except PyErr ℕ :=
  match Dict.get? (fieldToComponent ids) f with
  | none => .error (.keyError "field")
  | some 0 => .ok 0
  | some c => getTrap ids c

/-- Loop on the initial conditions (h_transport_problem.py:193-210). -/
def applyICs {V : Type} (ids : List ℕ) : List V → List (IC V) → Except PyErr (List V)
  | u, [] => .ok u
  | u, ic :: l =>
    match icTarget ids ic.field with
    | .error e => .error e
    | .ok k => applyICs ids (u.set k ic.value) l

/-- Initial conditions of the adsorbed concentrations (h_transport_problem.py:214-220):
`sks` lists number of surfaces and initial value. -/
def applySKs {V : Type} : (index : ℕ) → List V → List (ℕ × V) → List V
  | _, u, [] => u
  | index, u, (c, v) :: l =>
    applySKs (index + c) ((List.range c).foldl (fun u i => u.set (index + i) v) u) l

/-- The previous solution at the start: zero, then the initial conditions
(h_transport_problem.py:154, 184-220). -/
def initialState {V : Type} (zero : V) (ids : List ℕ) (ics : List (IC V)) (sks : List (ℕ × V)) :
    Except PyErr (List V) :=
  let u := List.replicate (1 + ids.length + (sks.map Prod.fst).sum) zero
  match applyICs ids u ics with
  | .error e => .error e
  | .ok u => .ok (applySKs (ids.length + 1) u sks)

end Festim
