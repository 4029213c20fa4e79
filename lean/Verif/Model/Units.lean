import Verif.Model.Derived

/-!
# Units written in the header of the csv files

`export_unit` of the classes of festim/exports/derived_quantities.

`dim` is the topological dimension of the mesh, read from the function or, for a sum of functions, from
the measure (total_volume.py:41-45).  Strings are lists of characters.

Simplified: for a sum of functions `SurfaceFlux.export_unit` would raise, but then `compute` has already
raised (C62).
-/

namespace Festim.Weak

/-- `str.replace(old, new)` for a non-empty `old`: occurrences are replaced from left to right
(surface_flux.py:50-52, 118-125). -/
def pyReplaceAux (old new : List Char) : ℕ → List Char → List Char
  | 0, s => s
  | _ + 1, [] => []
  | n + 1, c :: s =>
    if old.isPrefixOf (c :: s) then new ++ pyReplaceAux old new n ((c :: s).drop old.length)
    else c :: pyReplaceAux old new n s

/-- See `pyReplaceAux` (surface_flux.py:50-52, 118-125). -/
def pyReplace (s : List Char) (old new : String) : List Char :=
  pyReplaceAux old.toList new.toList s.length s

/-- Decimal digits of an integer, as in an f-string (surface_flux.py:45-64). -/
def fmtInt (z : ℤ) : List Char := (toString z).toList

/-- `f"{pre}{z}{post}"` (surface_flux.py:45-64). -/
def fstr (pre : String) (z : ℤ) (post : String) : List Char := pre.toList ++ fmtInt z ++ post.toList

/-- `export_unit`: surface_flux.py:44-52, 117-125, 216-221; total_volume.py:38-50, 96-108, 175-180;
total_surface.py:38-50, 97-109, 178-183; average_volume.py:35-40; average_surface.py:35-40;
maximum_volume.py:31-36; minimum_volume.py:31-36; maximum_surface.py:31-36; minimum_surface.py:31-36;
point_value.py:33-38; adsorbed_hydrogen.py:30-32. -/
def Quantity.exportUnit (q : Quantity) (dim : ℤ) : List Char :=
  match q with
  | .surfaceFlux .cartesian field _ =>
    if field = .name "T" then pyReplace (fstr "W m" (dim - 3) "") " m0" ""
    else pyReplace (fstr "H m" (dim - 3) " s-1") " m0" ""
  | .surfaceFlux (.cylindrical _) field _ =>
    if field = .name "T" then pyReplace (fstr "W m" (dim - 2) "") " m0" ""
    else pyReplace (fstr "H m" (dim - 2) " s-1") " m0" ""
  | .surfaceFlux (.spherical _ _) field _ =>
    if field = .name "T" then "W".toList else "H s-1".toList
  | .totalVolume .cartesian field _ =>
    if field = .name "T" then pyReplace (fstr "K m" dim "") "1" ""
    else pyReplace (fstr "H m" (dim - 3) "") " m0" ""
  | .totalVolume (.cylindrical _) field _ =>
    if field = .name "T" then fstr "K m" (dim + 1) ""
    else pyReplace (fstr "H m" (dim - 2) "") " m0" ""
  | .totalVolume (.spherical _ _) field _ =>
    if field = .name "T" then "K m3".toList else "H".toList
  | .totalSurface .cartesian field _ =>
    if field = .name "T" then pyReplace (pyReplace (fstr "K m" (dim - 1) "") " m0" "") " m1" " m"
    else pyReplace (fstr "H m" (dim - 3) "") " m0" ""
  | .totalSurface (.cylindrical _) field _ =>
    if field = .name "T" then pyReplace (fstr "K m" dim "") " m1" " m"
    else pyReplace (fstr "H m" (dim - 2) "") " m0" ""
  | .totalSurface (.spherical _ _) field _ =>
    if field = .name "T" then "K m2".toList else "H".toList
  | .averageVolume _ field _ => if field = .name "T" then "K".toList else "H m-3".toList
  | .averageSurface _ field _ => if field = .name "T" then "K".toList else "H m-3".toList
  | .maximumVolume field _ => if field = .name "T" then "K".toList else "H m-3".toList
  | .minimumVolume field _ => if field = .name "T" then "K".toList else "H m-3".toList
  | .maximumSurface field _ => if field = .name "T" then "K".toList else "H m-3".toList
  | .minimumSurface field _ => if field = .name "T" then "K".toList else "H m-3".toList
  | .pointValue field _ => if field = .name "T" then "K".toList else "H m-3".toList
  | .adsorbed _ => "H m-2".toList

end Festim.Weak
