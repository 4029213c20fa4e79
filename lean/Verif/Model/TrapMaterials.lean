import Verif.Model.Py
import Mathlib.Data.List.Dedup

/-!
# Materials of the traps

festim/concentration/traps/trap.py `materials` setter and `make_materials`,
festim/concentration/traps/traps.py `make_traps_materials` (called by `HTransportProblem.initialise`) and the branches of
festim/materials/materials.py `find_material` they can reach.

Material objects are compared by identity: `uid`.
-/

namespace Festim.TrapMat

/-- A `festim.Material` object: identity, name (`None` by default) and ids of its subdomains
(material.py:40-57). -/
structure Obj where
  uid : ℕ
  name : Option String := none
  ids : List ℕ := []
  deriving DecidableEq, Repr

/-- One entry of `Trap.materials` (trap.py:61-62). -/
inductive Entry where
  | name (s : String)
  | mat (m : Obj)
  | other
  deriving DecidableEq, Repr

/-- What may be given as `materials` (trap.py:58-60). -/
inductive Arg where
  | one (e : Entry)
  | list (l : List Entry)
  deriving DecidableEq, Repr

/-- Setter of `materials` (trap.py:58-66). -/
def setMaterials (a : Arg) : Except PyErr (List Entry) :=
  let l := match a with
    | .one e => [e]
    | .list l => l
  if l.any (· == .other) then
    .error (.typeError "Accepted types for materials are str or festim.Material")
  else .ok l

/-- `find_material_from_name` (materials.py:208-225). -/
def findName : List Obj → String → Except PyErr Obj
  | [], s => .error (.valueError ("No material with name " ++ s ++ " was found"))
  | m :: ms, s => if m.name = some s then .ok m else findName ms s

/-- `find_material` (materials.py:227-242): a name is searched, a material is returned as it is; `None` for anything else
(which the setter excludes). -/
def find (ms : List Obj) : Entry → Except PyErr Entry
  | .name s => (findName ms s).map .mat
  | .mat m => .ok (.mat m)
  | .other => .ok .other

/-- The loop of `make_materials` (trap.py:77-80). -/
def findAll (ms : List Obj) : List Entry → Except PyErr (List Entry)
  | [] => .ok []
  | e :: es =>
    match find ms e with
    | .error x => .error x
    | .ok r =>
      match findAll ms es with
      | .error x => .error x
      | .ok rs => .ok (r :: rs)

/-- Identity of the objects of a list (`set(self.materials)`, trap.py:84). -/
def uids (l : List Entry) : List ℕ := l.filterMap fun
  | .mat m => some m.uid
  | _ => none

/-- `make_materials` (trap.py:68-85): the new list is stored through the setter, then duplicates are looked for, by
identity. -/
def make (ms : List Obj) (es : List Entry) : Except PyErr (List Entry) :=
  match findAll ms es with
  | .error x => .error x
  | .ok l =>
    match setMaterials (.list l) with
    | .error x => .error x
    | .ok l => if l.length ≠ (uids l).dedup.length then .error (.valueError "Duplicate materials in trap")
      else .ok l

end Festim.TrapMat
