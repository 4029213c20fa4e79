import Verif.Model.Units

/-!
# Titles of the columns and text of the csv file

`title` of the classes of festim/exports/derived_quantities, `make_header` and the call of `np.savetxt`
(derived_quantities.py:100-105, 145-155).

Strings are lists of characters.  How Python writes a float (`repr`) is a parameter.  The coordinates of
a `PointValue` are a list or a tuple; a number is wrapped in a list (point_value.py:27-31).  Not modelled:
numpy arrays as coordinates, the line separator of the operating system.
-/

namespace Festim.Weak

/-- What a user may give as coordinates (point_value.py:26-32). -/
inductive Seq where
  | list
  | tuple
  deriving DecidableEq, Repr

/-- `str(x)` of a list or a tuple of floats (point_value.py:40-46). -/
def Seq.text (repr : ℝ → List Char) (s : Seq) (x : List ℝ) : List Char :=
  match s, x with
  | .list, x => '[' :: ([',', ' '].intercalate (x.map repr) ++ [']'])
  | .tuple, [a] => '(' :: (repr a ++ [',', ')'])
  | .tuple, x => '(' :: ([',', ' '].intercalate (x.map repr) ++ [')'])

/-- `str(field)` (e.g. average_volume.py:42-48). -/
def fieldText : Field → List Char
  | .int n => Nat.toDigits 10 n
  | .strInt n => Nat.toDigits 10 n
  | .name s => s.toList

/-- `f"{pre}{field}{mid}{id}"` (e.g. average_volume.py:42-48, maximum_surface.py:38-44). -/
def fieldTitle (pre : String) (f : Field) (mid : String) (id : ℕ) : List Char :=
  pre.toList ++ fieldText f ++ mid.toList ++ Nat.toDigits 10 id

/-- `quantity_title`: surface_flux.py:56-59, 133-136, 229-232; total_volume.py:54; total_surface.py:54;
average_volume.py:44; average_surface.py:44; maximum_volume.py:40; minimum_volume.py:40;
maximum_surface.py:40; minimum_surface.py:40; point_value.py:42; adsorbed_hydrogen.py:36. -/
def Quantity.baseTitle (repr : ℝ → List Char) (seq : Seq) : Quantity → List Char
  | .surfaceFlux _ f s =>
    if f = .name "T" then "Heat flux surface ".toList ++ Nat.toDigits 10 s
    else fieldTitle "" f " flux surface " s
  | .totalVolume _ f v => fieldTitle "Total " f " volume " v
  | .totalSurface _ f s => fieldTitle "Total " f " surface " s
  | .averageVolume _ f v => fieldTitle "Average " f " volume " v
  | .averageSurface _ f s => fieldTitle "Average " f " surface " s
  | .maximumVolume f v => fieldTitle "Maximum " f " volume " v
  | .minimumVolume f v => fieldTitle "Minimum " f " volume " v
  | .maximumSurface f s => fieldTitle "Maximum " f " surface " s
  | .minimumSurface f s => fieldTitle "Minimum " f " surface " s
  | .pointValue f x => fieldText f ++ " value at ".toList ++ seq.text repr x
  | .adsorbed s => "Adsorbed H on surface ".toList ++ Nat.toDigits 10 s

/-- `title`: surface_flux.py:61-64, 138-141, 234-237; total_volume.py:55-58; total_surface.py:55-58;
average_volume.py:45-48; average_surface.py:45-48; maximum_volume.py:41-44; minimum_volume.py:41-44;
maximum_surface.py:41-44; minimum_surface.py:41-44; point_value.py:43-46; adsorbed_hydrogen.py:37-40. -/
def Quantity.title (repr : ℝ → List Char) (seq : Seq) (showUnits : Bool) (dim : ℤ) (q : Quantity) :
    List Char :=
  if showUnits then q.baseTitle repr seq ++ " (".toList ++ q.exportUnit dim ++ ")".toList
  else q.baseTitle repr seq

/-- `make_header` (derived_quantities.py:100-105): the flag of the list is given to the quantities. -/
def titleRow (repr : ℝ → List Char) (showUnits : Bool) (dim : ℤ) (qs : List (Quantity × Seq)) :
    List (List Char) :=
  "t(s)".toList :: qs.map fun q => q.1.title repr q.2 showUnits dim

/-- `np.savetxt(..., fmt="%s", delimiter=",")` (derived_quantities.py:154): the cells of a row are
written one after the other, separated by commas and without quotes, and each row ends a line. -/
def savetxt (rows : List (List (List Char))) : List Char :=
  rows.flatMap fun r => [','].intercalate r ++ ['\n']

end Festim.Weak
