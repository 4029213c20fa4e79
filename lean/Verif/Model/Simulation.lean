import Verif.Model.Exports
import Verif.Model.Fields
import Verif.Model.Materials
import Verif.Model.Temperature

/-!
# A whole simulation: `initialise` and `run`

festim/generic_simulation.py:320-583, putting together the models of the stages.

Simplifications: `settings` and `mesh` are given and the mesh is in one piece; the stages of
`HTransportProblem.initialise` that build forms or look up the materials of traps are represented by
their outcome (`forms`); warnings and printing are left out.  `F` is the type of fields, `σ` that of the
solutions handed to the exports at the end of a step.
-/

namespace Festim

/-- `festim.Settings` (settings.py:49-76), the attributes read by `Simulation`. -/
structure Settings where
  transient : Bool := true
  finalTime : Option ℚ := none
  chemicalPot : Bool := false
  /-- `traps_element_type == "DG"` -/
  dgTraps : Bool := false
  deriving DecidableEq, Repr

/-- `isinstance(self.mesh, festim.Mesh1D)` with its vertices, or another mesh
(generic_simulation.py:355-358). -/
inductive Geometry where
  | line (vertices : List ℚ)
  | other
  deriving DecidableEq, Repr

/-- Attributes of `festim.Simulation` (generic_simulation.py:77-109) after the setters, before
`initialise`. -/
structure SimInput (σ F : Type) where
  settings : Settings
  dt : Option Stepsize
  temp : Option (TempModel F)
  /-- `trap.id` of each trap -/
  trapIds : List (Option ℕ) := []
  sources : List Source := []
  bcs : List BC := []
  ics : List (IC F) := []
  /-- initial adsorbed concentration of each `SurfaceKinetics` -/
  skInitial : ℕ → F
  meshType : String := "cartesian"
  dim : ℕ := 1
  mesh : Geometry
  materials : Option (List Material)
  forms : Except PyErr Unit := .ok ()
  /-- elements of `self.exports`, with the surfaces of the `AdsorbedHydrogen` they contain -/
  exports : List (List ℕ × Export σ) := []
  /-- `exports.final_time` and `exports.nb_iterations` when `initialise` is called -/
  exportsFinal : Option ℚ := none
  exportsNb : ℕ := 0
  /-- coordinates of the degrees of freedom, their sorted order and the borders, for `TXTExport` -/
  dofs : List ℚ := []
  borders : List ℚ := []
  order : List ℕ := []

/-- What the simulation holds after `initialise` (generic_simulation.py:320-445). -/
structure Initialised (σ F : Type) where
  dt : Option Stepsize
  temp : TempState F
  sources : SrcState
  heatBCs : List BC
  hydrogenBCs : List BC
  /-- markers of cells and facets, for a 1D mesh -/
  markers : Option (List ℕ × List ℕ)
  ids : List ℕ
  initial : List F
  imposed : List Imposed
  exports : Exports σ

/-- First lines of `initialise` (generic_simulation.py:332-343). -/
def initGuards (st : Settings) (dt : Bool) (temp : Bool) : Except PyErr Unit :=
  if st.transient = false ∧ dt = true then
    .error (.attributeError "dt must be None in steady state simulations")
  else if st.transient = true ∧ st.finalTime.isNone then
    .error (.attributeError
      "final_time argument must be provided to settings in transient simulations")
  else if st.transient = true ∧ dt = false then
    .error (.attributeError "dt must be provided in transient simulations")
  else if temp = false then .error (.attributeError "Temperature is not defined")
  else .ok ()

/-- `check_mesh_dim_coords` (generic_simulation.py:296-306). -/
def checkMeshDim (type : String) (dim : ℕ) : Except PyErr Unit :=
  if type = "spherical" ∧ dim ≠ 1 then .error (.attributeError
    "spherical coordinates can be used for one-dimensional domains only")
  else if type = "cylindrical" ∧ dim > 2 then
    .error (.attributeError "cylindrical coordinates cannot be used for 3D domains")
  else .ok ()

/-- `self.mesh.define_measures(...)` (generic_simulation.py:355-358); the tolerance of `near` is
`DOLFIN_EPS`. -/
def simMeasures (mesh : Geometry) (ms : Option (List Material)) :
    Except PyErr (Option (List ℕ × List ℕ)) :=
  match mesh with
  | .other => .ok none
  | .line vs =>
    match ms with
    | none => .error (.typeError "object of type 'NoneType' has no len()")
    | some ms => (defineMeasures (3 / 10000000000000000) ms vs).map some

/-- The terms of the heat equation contributed by one material (temperature_solver.py:165-204):
`None` cannot be multiplied.  Nothing is multiplied for an empty list of ids. -/
def heatTerms (transient : Bool) (dt : Bool) (meshType : String) (m : Material) : Except PyErr Unit :=
  if m.id.toList = [] then .ok ()
  else if transient = true ∧ (m.rho = false ∨ m.heatCapacity = false) then
    .error (.typeError "unsupported operand type(s) for *")
  else if transient = true ∧ dt = false then
    .error (.attributeError "'NoneType' object has no attribute 'value'")
  else if m.thermalCond = false ∧
      (meshType = "cartesian" ∨ meshType = "cylindrical" ∨ meshType = "spherical") then
    .error (.typeError "unsupported operand type(s) for *")
  else .ok ()

/-- The loop on materials of `HeatTransferProblem.define_variational_problem`
(temperature_solver.py:166). -/
def heatForms (transient : Bool) (dt : Bool) (meshType : String) : List Material → Except PyErr Unit
  | [] => .ok ()
  | m :: ms =>
    match heatTerms transient dt meshType m with
    | .error e => .error e
    | .ok () => heatForms transient dt meshType ms

/-- `HeatTransferProblem.transient`, for a `HeatTransferProblem`
(temperature_solver.py:50-51, generic_simulation.py:367). -/
def TempModel.heat {F : Type} : TempModel F → Option Bool
  | .heatSteady _ => some false
  | .heatTransient _ _ _ => some true
  | _ => none

/-- The kind seen by the checks of materials (materials.py:125, 134, 178-181). -/
def TempModel.kind {F : Type} (T : TempModel F) : TempKind :=
  match T.heat with
  | none => .plain
  | some tr => .heatTransfer tr

/-- `self.T.create_functions(...)` (generic_simulation.py:366-370, temperature_solver.py:106-148): for a
transient heat problem the initial condition is looked at before the equation is built, a steady heat
problem is solved after. -/
def createTemp {F : Type} (zero : F) (T : TempModel F) (dt : Bool) (meshType : String)
    (ms : Option (List Material)) : Except PyErr (TempState F) :=
  match T.heat with
  | none => T.create zero (fun _ => 0)
  | some tr =>
    let built : Except PyErr Unit :=
      match ms with
      | none => .error (.typeError "'NoneType' object is not iterable")
      | some ms => heatForms tr dt meshType ms
    if tr then
      match T.create zero (fun _ => 0) with
      | .error e => .error e
      | .ok s =>
        match built with
        | .error e => .error e
        | .ok () => .ok s
    else
      match built with
      | .error e => .error e
      | .ok () => T.create zero (fun _ => 0)

/-- `self.materials.check_materials(...)` (generic_simulation.py:373-375). -/
def simCheckMaterials (ms : Option (List Material)) (T : TempKind) : Except PyErr Unit :=
  match ms with
  | none => .error (.attributeError "'NoneType' object has no attribute 'check_materials'")
  | some ms => checkMaterials ms T

/-- `self.materials.create_properties(...)` and, with `chemical_pot` and a steady temperature,
`self.materials.solubility_as_function(...)` (generic_simulation.py:376-384, materials.py:281-290, 299-304): the first
material is looked at, and `None` cannot be multiplied. -/
def simProperties (chemicalPot steadyT : Bool) (ms : Option (List Material)) : Except PyErr Unit :=
  match ms with
  | none => .error (.attributeError "'NoneType' object has no attribute 'create_properties'")
  | some [] => .error (.indexError "list index out of range")
  | some (m :: ms) =>
    if chemicalPot = true ∧ steadyT = true ∧ (m :: ms).any (fun a => !(a.S0 && a.ES)) = true then
      .error (.typeError "unsupported operand type(s) for *")
    else .ok ()

/-- The loop on the exports (generic_simulation.py:388-441): `AdsorbedHydrogen` needs a
`SurfaceKinetics` on its surface, times of a `TXTExport` become milestones. -/
def exportsLoop {σ : Type} (bcs : List BC) :
    Option Stepsize → List (List ℕ × Export σ) → Except PyErr (Option Stepsize)
  | dt, [] => .ok dt
  | dt, (ads, .dq _) :: l =>
    if ads.all fun s => bcs.any fun b => b.kind = .surfaceKinetics ∧ s ∈ b.surfaces then
      exportsLoop bcs dt l
    else .error (.attributeError "SurfaceKinetics boundary condition must be defined on surface")
  | dt, (_, .xdmf _) :: l => exportsLoop bcs dt l
  | dt, (_, .bare _) :: l => exportsLoop bcs dt l
  | dt, (_, .txt x) :: l =>
    match x.times with
    | none => exportsLoop bcs dt l
    | some [] => exportsLoop bcs dt l
    | some (t :: ts) =>
      match dt with
      | none => .error (.attributeError "'NoneType' object has no attribute 'milestones'")
      | some d =>
        exportsLoop bcs (some { d with milestones := addMilestones d.milestones (some (t :: ts)) }) l

section
variable {σ F : Type}

/-- Number of surfaces and initial value of the `SurfaceKinetics` of the hydrogen problem
(h_transport_problem.py:65-71). -/
def skOf (x : SimInput σ F) (bcs : List BC) : List (ℕ × F) :=
  (bcs.filter fun b => b.kind = .surfaceKinetics).map fun b => (b.surfaces.length, x.skInitial b.uid)

/-- `HTransportProblem.initialise` (h_transport_problem.py:73-111): ids, initial values, forms,
Dirichlet conditions. -/
def hInit (zero : F) (x : SimInput σ F) (bcs : List BC) :
    Except PyErr (List ℕ × List F × List Imposed) :=
  let ids := assignIds x.trapIds
  match initialState zero ids x.ics (skOf x bcs) with
  | .error e => .error e
  | .ok u =>
    match x.forms with
    | .error e => .error e
    | .ok () =>
      match createDirichlets (numSubSpaces ids.length ((skOf x bcs).map Prod.fst)) bcs with
      | .error e => .error e
      | .ok imp => .ok (ids, u, imp)

/-- `Simulation.initialise` (generic_simulation.py:320-445).  The sources held before by the objects do
not matter (C34). -/
def SimInput.initialise (zero : F) (x : SimInput σ F) : Except PyErr (Initialised σ F) :=
  match initGuards x.settings x.dt.isSome x.temp.isSome with
  | .error e => .error e
  | .ok () =>
    match x.temp with
    | none => .error (.attributeError "Temperature is not defined")
    | some T =>
      match attributeSources T.heat.isSome
          { mobile := [], temp := [], traps := x.trapIds.map fun _ => [] } x.sources with
      | (_, some e) => .error e
      | (src, none) =>
        match attributeBCs x.dim T.heat.isSome x.trapIds.length x.bcs with
        | .error e => .error e
        | .ok (tbcs, hbcs) =>
          match checkMeshDim x.meshType x.dim with
          | .error e => .error e
          | .ok () =>
            match simMeasures x.mesh x.materials with
            | .error e => .error e
            | .ok markers =>
              match createTemp zero T x.dt.isSome x.meshType x.materials with
              | .error e => .error e
              | .ok temp =>
                match simCheckMaterials x.materials T.kind with
                | .error e => .error e
                | .ok () =>
                  match simProperties x.settings.chemicalPot T.isSteadyState x.materials with
                  | .error e => .error e
                  | .ok () =>
                    match hInit zero x hbcs with
                    | .error e => .error e
                    | .ok (ids, u, imp) =>
                      match exportsLoop x.bcs x.dt x.exports with
                      | .error e => .error e
                      | .ok dt =>
                        .ok { dt := dt, temp := temp, sources := src, heatBCs := tbcs,
                              hydrogenBCs := hbcs, markers := markers, ids := ids, initial := u,
                              imposed := imp,
                              exports := Exports.initialise
                                { items := x.exports.map Prod.snd, finalTime := x.exportsFinal,
                                  nb := x.exportsNb }
                                (if x.settings.transient then x.settings.finalTime else none)
                                (x.settings.chemicalPot || x.settings.dgTraps) x.dofs x.borders
                                x.order }

/-! ## Steady run -/

/-- `run_steady` (generic_simulation.py:485-502): one solve, one call of the exports at `t = 0`, then
the exception if the solver diverged.  `.error`: an export raised. -/
def runSteady (ex : Exports σ) (o : Outcome) (s : σ) : Except PyErr (Exports σ × Option PyErr) :=
  match ex.write s 0 with
  | .error e => .error e
  | .ok ex' => .ok (ex', if o.converged then none else some (.valueError "The solver diverged in"))

/-! ## Transient run -/

/-- The driver with the exports (generic_simulation.py:504-547). -/
structure FullState (σ F : Type) where
  sim : SimState F
  exports : Exports σ

/-- One Newton solve and everything up to the next one, with `run_post_processing` on the solution `s`
when the solve is accepted (generic_simulation.py:504-522). -/
def SimCfg.fullStep (cfg : SimCfg F) (st : FullState σ F) (os : Outcome × σ) : FullState σ F :=
  match st.sim.run.phase with
  | .finished => st
  | .raised _ => st
  | .solving _ _ =>
    match afterSolve cfg.dt st.sim.run.value st.sim.run.t os.1 with
    | .error _ => { st with sim := cfg.step st.sim os.1 }
    | .ok _ =>
      if os.1.converged then
        match st.exports.write os.2 st.sim.run.t with
        | .error e => { st with sim := { st.sim with run := { st.sim.run with phase := .raised e } } }
        | .ok ex => ⟨cfg.step st.sim os.1, ex⟩
      else { st with sim := cfg.step st.sim os.1 }

/-- `run_transient` after the Newton outcomes `outs` (generic_simulation.py:470-482). -/
def SimCfg.fullExec (cfg : SimCfg F) (zero : F) (ex : Exports σ) (outs : List (Outcome × σ)) :
    Except PyErr (FullState σ F) :=
  match cfg.start zero with
  | .error e => .error e
  | .ok s => .ok (outs.foldl cfg.fullStep ⟨s, ex⟩)

/-- How `Simulation.run` ends (generic_simulation.py:447-468) after `initialise`. -/
inductive RunEnd (σ F : Type) where
  | steady (exports : Exports σ)
  | steadyRaised (e : PyErr) (exports : Option (Exports σ))
  | transient (s : FullState σ F)
  | stuck

/-- `Simulation.run` (generic_simulation.py:447-468) with the outcomes of the Newton solver.
`registry`: the expressions updated at each step. -/
def SimInput.run (zero : F) (x : SimInput σ F) (registry : List ℕ) (I : Initialised σ F)
    (outs : List (Outcome × σ)) : RunEnd σ F :=
  if x.settings.transient then
    match I.dt, x.settings.finalTime, x.temp with
    | some dt, some final, some T =>
      match SimCfg.fullExec { dt := dt, final := final, registry := registry, temp := T } zero
          I.exports outs with
      | .error _ => .stuck
      | .ok s => .transient s
    | _, _, _ => .stuck
  else
    match outs with
    | [] => .stuck
    | (o, s) :: _ =>
      match runSteady I.exports o s with
      | .error e => .steadyRaised e none
      | .ok (ex, some e) => .steadyRaised e (some ex)
      | .ok (ex, none) => .steady ex

end

end Festim
