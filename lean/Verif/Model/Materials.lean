import Verif.Model.Stepsize
import Mathlib.Data.List.Dedup

/-!
# Materials and 1D meshes

festim/materials/materials.py, festim/materials/material.py, festim/meshing/mesh_1d.py,
festim/meshing/mesh_from_vertices.py.

Not modelled: tuples given as borders, ids that are not integers, the MPI branch of the mesh
generation, warnings.
-/

namespace Festim

/-- `Material.id`: an int or a list of ints (material.py:42, 55). -/
inductive MatId where
  | one (n : ℕ)
  | many (l : List ℕ)
  deriving DecidableEq, Repr

/-- Ids as a list (festim/materials/materials.py:104-107, 201-203). -/
def MatId.toList : MatId → List ℕ
  | .one n => [n]
  | .many l => l

/-- `Material.borders` when not `None`: `[a, b]`, or a list of such pairs (material.py:50, 64). -/
inductive Borders where
  | flat (a b : ℚ)
  | nested (l : List (ℚ × ℚ))
  deriving DecidableEq, Repr

/-- `Material` (festim/materials/material.py:40-71), the attributes used by the checks.  Optional
properties are represented by whether they are given. -/
structure Material where
  id : MatId
  name : Option String := none
  borders : Option Borders := none
  S0 : Bool := false
  ES : Bool := false
  thermalCond : Bool := false
  heatCapacity : Bool := false
  rho : Bool := false
  Q : Bool := false
  deriving DecidableEq, Repr

/-- Constructor check (festim/materials/material.py:71, 73-83). -/
def Material.check (m : Material) : Except PyErr Unit :=
  if m.S0 = false ∧ m.ES = true then .error (.valueError "S_0 cannot be None")
  else if m.ES = false ∧ m.S0 = true then .error (.valueError "E_S cannot be None")
  else .ok ()

/-- Collection of all intervals (festim/materials/materials.py:65-71).
`None[0]` is a `TypeError`, `[][0]` an `IndexError`. -/
def allBorders : List Material → Except PyErr (List (ℚ × ℚ))
  | [] => .ok []
  | m :: ms =>
    match m.borders with
    | none => .error (.typeError "'NoneType' object is not subscriptable")
    | some (.nested []) => .error (.indexError "list index out of range")
    | some (.flat a b) => (allBorders ms).map fun l => (a, b) :: l
    | some (.nested (p :: ps)) => (allBorders ms).map fun l => (p :: ps) ++ l

/-- The loop on consecutive borders and the last test (materials.py:75-79), on a sorted list. -/
def checkChain (size : ℚ) : List (ℚ × ℚ) → Except PyErr Unit
  | [] => .ok ()
  | [p] => if p.2 ≠ size then .error (.valueError "Borders don't match with size") else .ok ()
  | p :: q :: l =>
    if p.2 ≠ q.1 then .error (.valueError "Borders don't match to each other")
    else checkChain size (q :: l)

/-- `check_borders` (festim/materials/materials.py:51-80).  `sorted` with a key is stable, like
`insertionSort`. -/
def checkBorders (ms : List Material) (size : ℚ) : Except PyErr Unit :=
  match allBorders ms with
  | .error e => .error e
  | .ok bs =>
    match bs.insertionSort (fun p q => p.1 ≤ q.1) with
    | [] => .error (.indexError "list index out of range")
    | p :: l =>
      if p.1 ≠ 0 then .error (.valueError "Borders don't begin at zero")
      else checkChain size (p :: l)

/-- What `find_subdomain_from_x_coordinate` may find in one material (materials.py:255-270). -/
def Material.findAt (m : Material) (x : ℚ) : Except PyErr (Option MatId) :=
  match m.borders with
  | none => .ok (some m.id)
  | some (.nested []) => .error (.indexError "list index out of range")
  | some (.nested [_]) =>
    -- `len(material.borders) > 1` fails: `[material.borders]` is iterated, `[a, b] <= x` is compared;
    -- nothing is compared if the list of ids is empty
    match m.id with
    | .many [] => .ok none
    | _ => .error (.typeError "'<=' not supported between instances of 'list' and 'float'")
  | some (.flat a b) =>
    match m.id with
    | .one n => .ok (if a ≤ x ∧ x ≤ b then some (.one n) else none)
    | .many l => .ok (((List.zip [(a, b)] l).find? fun p => p.1.1 ≤ x ∧ x ≤ p.1.2).map fun p => .one p.2)
  | some (.nested bs) =>
    match m.id with
    | .one n => .ok (((List.zip bs (bs.map fun _ => n)).find? fun p => p.1.1 ≤ x ∧ x ≤ p.1.2).map
        fun p => .one p.2)
    | .many l => .ok (((List.zip bs l).find? fun p => p.1.1 ≤ x ∧ x ≤ p.1.2).map fun p => .one p.2)

/-- `find_subdomain_from_x_coordinate` (festim/materials/materials.py:244-272). -/
def findSubdomain : List Material → ℚ → Except PyErr MatId
  | [], _ => .ok (.one 0)
  | m :: ms, x =>
    match m.findAt x with
    | .error e => .error e
    | .ok (some i) => .ok i
    | .ok none => findSubdomain ms x

/-- `check_unique_ids` (festim/materials/materials.py:100-110). -/
def checkUniqueIds (ms : List Material) : Except PyErr Unit :=
  let ids := ms.flatMap fun m => m.id.toList
  if ids.length ≠ ids.dedup.length then .error (.valueError "Some materials have the same id")
  else .ok ()

/-- Attributes compared by `check_consistency`, in order (materials.py:152-160). -/
def consistencyAttrs : List (String × (Material → Bool)) :=
  [("S_0", (·.S0)), ("E_S", (·.ES)), ("thermal_cond", (·.thermalCond)),
   ("heat_capacity", (·.heatCapacity)), ("rho", (·.rho)), ("borders", (·.borders.isSome)), ("Q", (·.Q))]

/-- Loop of `check_consistency` (materials.py:162-166). -/
def checkAttrs (ms : List Material) : List (String × (Material → Bool)) → Except PyErr Unit
  | [] => .ok ()
  | (n, f) :: l =>
    let nones := ms.countP fun m => !f m
    if nones ≠ 0 ∧ nones ≠ ms.length then .error (.valueError (n ++ " is not defined for all materials"))
    else checkAttrs ms l

/-- `check_consistency` (festim/materials/materials.py:149-166). -/
def checkConsistency (ms : List Material) : Except PyErr Unit := checkAttrs ms consistencyAttrs

/-- The temperature object as seen by the material checks (materials.py:125, 134, 178-181). -/
inductive TempKind where
  | plain
  | heatTransfer (transient : Bool)
  deriving DecidableEq, Repr

/-- `check_missing_properties` (festim/materials/materials.py:168-186). -/
def checkMissing (ms : List Material) : TempKind → Except PyErr Unit
  | .plain => .ok ()
  | .heatTransfer transient =>
    match ms with
    | [] => .error (.indexError "list index out of range")
    | m :: _ =>
      if m.thermalCond = false then .error (.valueError "Missing thermal_cond in materials")
      else if transient then
        if m.heatCapacity = false then .error (.valueError "Missing heat_capacity in materials")
        else if m.rho = false then .error (.valueError "Missing rho in materials")
        else .ok ()
      else .ok ()

/-- `check_materials` (festim/materials/materials.py:82-98), without the warnings. -/
def checkMaterials (ms : List Material) (T : TempKind) : Except PyErr Unit :=
  if ms.length > 0 then
    match checkConsistency ms with
    | .error e => .error e
    | .ok () =>
      match checkUniqueIds ms with
      | .error e => .error e
      | .ok () => checkMissing ms T
  else .ok ()

/-- `find_material_from_id` (festim/materials/materials.py:188-206). -/
def findFromId : List Material → ℕ → Except PyErr Material
  | [], _ => .error (.valueError "Couldn't find ID")
  | m :: ms, i => if i ∈ m.id.toList then .ok m else findFromId ms i

/-- `find_material_from_name` (festim/materials/materials.py:208-225). -/
def findFromName : List Material → String → Except PyErr Material
  | [], _ => .error (.valueError "No material with name was found")
  | m :: ms, s => if m.name = some s then .ok m else findFromName ms s

/-- Arguments of `find_material`; `other` stands for anything else, for instance a `numpy.int64`
(materials.py:227-242). -/
inductive MatTag where
  | int (i : ℕ)
  | str (s : String)
  | mat (m : Material)
  | other

/-- `find_material` (festim/materials/materials.py:227-242).  Falls through to `None`. -/
def findMaterial (ms : List Material) : MatTag → Except PyErr (Option Material)
  | .int i => (findFromId ms i).map some
  | .str s => (findFromName ms s).map some
  | .mat m => .ok (some m)
  | .other => .ok none

/-! ## 1D meshes -/

/-- `sorted(np.unique(vertices))` (festim/meshing/mesh_from_vertices.py:31). -/
def meshVertices (vs : List ℚ) : List ℚ := (pySorted vs).dedup

/-- Cells of the mesh (mesh_from_vertices.py:38-41). -/
def meshCells (vs : List ℚ) : List (ℚ × ℚ) := (meshVertices vs).zip (meshVertices vs).tail

/-- `size` and `start` (mesh_from_vertices.py:21-22); `max([])` raises. -/
def meshSize (vs : List ℚ) : Except PyErr ℚ :=
  match vs.max? with
  | none => .error (.valueError "max() arg is an empty sequence")
  | some m => .ok m

/-- see `meshSize` (mesh_from_vertices.py:18-23) -/
def meshStart (vs : List ℚ) : Except PyErr ℚ :=
  match vs.min? with
  | none => .error (.valueError "min() arg is an empty sequence")
  | some m => .ok m

/-- `fenics.near(x, x0)`: absolute tolerance `eps` (`DOLFIN_EPS` = 3e-16 in the code) (mesh_1d.py:47-50). -/
def near (eps x x₀ : ℚ) : Bool := decide (|x - x₀| ≤ eps)

/-- Marker of a facet (festim/meshing/mesh_1d.py:43-50). -/
def surfaceMarker (eps start size x : ℚ) : ℕ :=
  let m := 0
  let m := if near eps x start then 1 else m
  if near eps x size then 2 else m

/-- Marker of a cell: only an int can be stored in the mesh function
(festim/meshing/mesh_1d.py:67-70). -/
def volumeMarker (ms : List Material) (c : ℚ × ℚ) : Except PyErr ℕ :=
  match findSubdomain ms ((c.1 + c.2) / 2) with
  | .error e => .error e
  | .ok (.one n) => .ok n
  | .ok (.many _) => .error (.typeError "incompatible function arguments")

/-- `mapM`, written out (mesh_1d.py:67-70). -/
def markCells (ms : List Material) : List (ℚ × ℚ) → Except PyErr (List ℕ)
  | [] => .ok []
  | c :: cs =>
    match volumeMarker ms c with
    | .error e => .error e
    | .ok n =>
      match markCells ms cs with
      | .error e => .error e
      | .ok l => .ok (n :: l)

/-- `define_measures` (festim/meshing/mesh_1d.py:74-83): volume markers and surface markers. -/
def defineMeasures (eps : ℚ) (ms : List Material) (vs : List ℚ) :
    Except PyErr (List ℕ × List ℕ) :=
  match meshSize vs, meshStart vs with
  | .error e, _ => .error e
  | _, .error e => .error e
  | .ok size, .ok start =>
    if ms.length > 1 ∧ (ms.any fun m => m.borders.isNone) then
      .error (.valueError "borders attributes need to be set for multiple 1D domains")
    else
      match ms with
      | [] => .error (.indexError "list index out of range")
      | m :: _ =>
        match (if m.borders.isSome then checkBorders ms size else .ok ()) with
        | .error e => .error e
        | .ok () =>
          match markCells ms (meshCells vs) with
          | .error e => .error e
          | .ok vm => .ok (vm, (meshVertices vs).map (surfaceMarker eps start size))

end Festim
