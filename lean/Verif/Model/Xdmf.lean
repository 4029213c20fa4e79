import Verif.Model.Exports

/-!
# Reading XDMF files

festim/helpers.py `extract_xdmf_times`, `extract_xdmf_labels`,
festim/temperature/temperature_from_xdmf.py (constructor), festim/initial_condition.py (constructor).

The XML tree is given; how a number is read from a string (`float`) is a parameter.
-/

namespace Festim.Xdmf

/-- An element of an XML tree: tag, attributes, children (helpers.py:70-76). -/
inductive Xml where
  | node (tag : String) (attrib : List (String × String)) (children : List Xml)

/-- `element.tag` (helpers.py:81, 106). -/
def Xml.tag : Xml → String
  | .node t _ _ => t

/-- `element.attrib` (helpers.py:82, 107). -/
def Xml.attrib : Xml → List (String × String)
  | .node _ a _ => a

/-- `list(element)` (helpers.py:73-80). -/
def Xml.children : Xml → List Xml
  | .node _ _ c => c

/-- `sub in s` for strings (helpers.py:81, 106). -/
def contains (sub s : String) : Bool := s.toList.tails.any fun r => sub.toList.isPrefixOf r

/-- `element.attrib[key]` (helpers.py:82, 107). -/
def Xml.get (e : Xml) (key : String) : Except PyErr String :=
  match e.attrib.lookup key with
  | some v => .ok v
  | none => .error (.keyError key)

/-- The first grid of the first domain (helpers.py:73-76, 98-101). -/
def firstGrid (root : Xml) : Except PyErr Xml :=
  match root.children with
  | [] => .error (.indexError "list index out of range")
  | domain :: _ =>
    match domain.children with
    | [] => .error (.indexError "list index out of range")
    | grid :: _ => .ok grid

/-- `float` applied to the value of one attribute, for the elements whose tag contains `tag`
(helpers.py:78-82, 103-107). -/
def collect {α : Type} (tag key : String) (conv : String → Except PyErr α) :
    List Xml → Except PyErr (List α)
  | [] => .ok []
  | e :: es =>
    if contains tag e.tag then
      match e.get key with
      | .error x => .error x
      | .ok s =>
        match conv s with
        | .error x => .error x
        | .ok a =>
          match collect tag key conv es with
          | .error x => .error x
          | .ok l => .ok (a :: l)
    else collect tag key conv es

/-- The elements looked at: grandchildren of the grid (helpers.py:79-80, 104-105). -/
def elements (grid : Xml) : List Xml := grid.children.flatMap Xml.children

/-- `extract_xdmf_times` (helpers.py:61-83). -/
def extractTimes (float : String → Except PyErr ℚ) (root : Xml) : Except PyErr (List ℚ) :=
  match firstGrid root with
  | .error x => .error x
  | .ok grid => collect "Time" "Value" float (elements grid)

/-- `extract_xdmf_labels` (helpers.py:86-110).  Simplified: `list(set(...))` is given in the order of the last
occurrences; Python's order is unspecified. -/
def extractLabels (root : Xml) : Except PyErr (List String) :=
  match firstGrid root with
  | .error x => .error x
  | .ok grid => (collect "Attribute" "Name" .ok (elements grid)).map List.dedup

/-- The check in the constructor of `TemperatureFromXDMF` (temperature_from_xdmf.py:25-29). -/
def temperatureCheck (root : Xml) (label : String) : Except PyErr Unit :=
  match extractLabels root with
  | .error x => .error x
  | .ok l => if label ∈ l then .ok () else .error (.valueError ("Coudln't find label: " ++ label))

/-- The checks of `InitialCondition` (initial_condition.py:22-27): only for a file. -/
def initialCheck (isXdmf : Bool) (label : Option String) (timeStep : Option ℤ) : Except PyErr Unit :=
  if isXdmf then
    match label, timeStep with
    | none, _ => .error (.valueError "label cannot be None")
    | some _, none => .error (.valueError "time_step cannot be None")
    | some _, some _ => .ok ()
  else .ok ()

end Festim.Xdmf
