import Verif.Model.Py
import Mathlib.Data.List.Basic

/-!
# Names of the exported files

festim/exports/xdmf_export.py (constructor, `label`, `folder`, `filename`, `define_xdmf_file`),
festim/exports/txt_export.py and festim/exports/derived_quantities/derived_quantities.py (`filename`).

Strings are lists of characters.  Simplified: `str.isdigit` is restricted to the digits 0-9, a label that is not a string is
not considered (`XDMFExport` does not check it), the `mode` setter is in `Verif.Model.Exports`.
-/

namespace Festim.Files

/-- A Python argument: `None`, a string, or something else
(derived_quantities.py:92-98, txt_export.py:70-76, xdmf_export.py:54-62, 85-105). -/
inductive Arg where
  | none
  | str (s : List Char)
  | other
  deriving DecidableEq, Repr

/-- `field_to_label` (xdmf_export.py:7-12). -/
def fieldToLabel : List (List Char × List Char) :=
  [("solute".toList, "mobile_concentration".toList), ("T".toList, "temperature".toList),
   ("retention".toList, "retention".toList), ("trap".toList, "trap_i_concentration".toList)]

/-- `s.replace(c, new, 1)` for a single character `c` (xdmf_export.py:60). -/
def replaceFirst (c : Char) (new : List Char) : List Char → List Char
  | [] => []
  | x :: xs => if x = c then new ++ xs else x :: replaceFirst c new xs

/-- `str.isdigit`: false for the empty string (xdmf_export.py:59). -/
def isDigitStr (s : List Char) : Bool := !s.isEmpty && s.all Char.isDigit

/-- Setter of `label` (xdmf_export.py:54-62): `none` as a result means that the attribute is left unset.  A `field` that is
not a string has no `isdigit`. -/
def setLabel (field : Arg) : Option (List Char) → Except PyErr (Option (List Char))
  | some l => .ok (some l)
  | none =>
    match field with
    | .str f =>
      match fieldToLabel.lookup f with
      | some l => .ok (some l)
      | none =>
        if isDigitStr f then .ok (some (replaceFirst 'i' f "trap_i_concentration".toList))
        else .ok none
    | _ => .error (.attributeError "object has no attribute 'isdigit'")

/-- Setter of `folder` (xdmf_export.py:84-90). -/
def setFolder : Arg → Except PyErr (Option (List Char))
  | .none => .ok none
  | .str s => .ok (some s)
  | .other => .error (.typeError "folder must be a string")

/-- The checks of the `filename` setters (xdmf_export.py:98-102, txt_export.py:66-71,
derived_quantities.py:92-97): `None`, or a string with the right ending. -/
def setFilename (ext : List Char) : Arg → Except PyErr (Option (List Char))
  | .none => .ok none
  | .str s =>
    if ext.isSuffixOf s then .ok (some s)
    else .error (.valueError ("filename must end with " ++ String.ofList ext))
  | .other => .error (.typeError "filename must be a string")

/-- What is kept of an `XDMFExport`: the label written with the field (unset for an unknown field without label) and the
path given to `fenics.XDMFFile` (xdmf_export.py:54-62, 107-115). -/
structure XFile where
  label : Option (List Char)
  path : List Char
  deriving DecidableEq, Repr

/-- Default of `filename` (xdmf_export.py:104-105): reading an unset label raises. -/
def defaultFilename : Option (List Char) → Except PyErr (List Char)
  | some l => .ok (l ++ ".xdmf".toList)
  | none => .error (.attributeError "'XDMFExport' object has no attribute '_label'")

/-- `define_xdmf_file` (xdmf_export.py:107-115). -/
def definePath (folder : Option (List Char)) (filename : List Char) : List Char :=
  match folder with
  | none => filename
  | some f => f ++ '/' :: filename

/-- Constructor of `XDMFExport` (xdmf_export.py:34-43): label, folder, filename and file, in this order. -/
def XFile.new (field : Arg) (label : Option (List Char)) (filename folder : Arg) :
    Except PyErr XFile :=
  match setLabel field label with
  | .error e => .error e
  | .ok l =>
    match setFolder folder with
    | .error e => .error e
    | .ok dir =>
      match setFilename ".xdmf".toList filename with
      | .error e => .error e
      | .ok (some n) => .ok ⟨l, definePath dir n⟩
      | .ok none =>
        match defaultFilename l with
        | .error e => .error e
        | .ok n => .ok ⟨l, definePath dir n⟩

/-- Name under which `write` writes the field (xdmf_export.py:123, 134-140): reading an unset label raises. -/
def XFile.written (x : XFile) : Except PyErr (List Char) :=
  match x.label with
  | some l => .ok l
  | none => .error (.attributeError "'XDMFExport' object has no attribute '_label'")

end Festim.Files
