import Verif.Model.Fields

/-!
# `DerivedQuantities.filter`

festim/exports/derived_quantities/derived_quantities.py:194-273 and the classes of
festim/exports/derived_quantities.

An object is given by its class and by the attributes `filter` looks at.  `uid` is its identity.
Simplified: an argument which is neither `None` nor a list is wrapped in a list; when it is not an int
(for instance a tuple of ids) nothing is equal to it, which is `other` below; a tuple of classes
however works as `list`, since `isinstance` accepts nested tuples.  Elements of `instances`
that are not classes are not modelled.
-/

namespace Festim

/-- The classes of derived quantities
(derived_quantity.py:4, 51, 76 and the `class` line of every file of exports/derived_quantities, e.g.
surface_flux.py:6, 92, 186). -/
inductive Cls where
  | export
  | derivedQuantity
  | volumeQuantity
  | surfaceQuantity
  | surfaceFlux
  | hydrogenFlux
  | thermalFlux
  | surfaceFluxCylindrical
  | surfaceFluxSpherical
  | totalVolume
  | totalVolumeCylindrical
  | totalVolumeSpherical
  | totalSurface
  | totalSurfaceCylindrical
  | totalSurfaceSpherical
  | averageVolume
  | averageVolumeCylindrical
  | averageVolumeSpherical
  | averageSurface
  | averageSurfaceCylindrical
  | maximumVolume
  | minimumVolume
  | maximumSurface
  | minimumSurface
  | pointValue
  | adsorbedHydrogen
  deriving DecidableEq, Repr

/-- The bases of a class, itself first: derived_quantity.py:4, 51, 76; surface_flux.py:6, 92, 186;
hydrogen_flux.py:4; thermal_flux.py:4; total_volume.py:6, 64, 139; total_surface.py:6, 64, 140;
average_volume.py:5, 56, 104; average_surface.py:5, 56; maximum_volume.py:6; minimum_volume.py:6;
maximum_surface.py:6; minimum_surface.py:6; point_value.py:4; adsorbed_hydrogen.py:5. -/
def Cls.bases : Cls → List Cls
  | .export => [.export]
  | .derivedQuantity => [.derivedQuantity, .export]
  | .volumeQuantity => [.volumeQuantity, .derivedQuantity, .export]
  | .surfaceQuantity => [.surfaceQuantity, .derivedQuantity, .export]
  | .surfaceFlux => [.surfaceFlux, .surfaceQuantity, .derivedQuantity, .export]
  | .hydrogenFlux => [.hydrogenFlux, .surfaceFlux, .surfaceQuantity, .derivedQuantity, .export]
  | .thermalFlux => [.thermalFlux, .surfaceFlux, .surfaceQuantity, .derivedQuantity, .export]
  | .surfaceFluxCylindrical =>
    [.surfaceFluxCylindrical, .surfaceFlux, .surfaceQuantity, .derivedQuantity, .export]
  | .surfaceFluxSpherical =>
    [.surfaceFluxSpherical, .surfaceFlux, .surfaceQuantity, .derivedQuantity, .export]
  | .totalVolume => [.totalVolume, .volumeQuantity, .derivedQuantity, .export]
  | .totalVolumeCylindrical =>
    [.totalVolumeCylindrical, .totalVolume, .volumeQuantity, .derivedQuantity, .export]
  | .totalVolumeSpherical =>
    [.totalVolumeSpherical, .totalVolume, .volumeQuantity, .derivedQuantity, .export]
  | .totalSurface => [.totalSurface, .surfaceQuantity, .derivedQuantity, .export]
  | .totalSurfaceCylindrical =>
    [.totalSurfaceCylindrical, .totalSurface, .surfaceQuantity, .derivedQuantity, .export]
  | .totalSurfaceSpherical =>
    [.totalSurfaceSpherical, .totalSurface, .surfaceQuantity, .derivedQuantity, .export]
  | .averageVolume => [.averageVolume, .volumeQuantity, .derivedQuantity, .export]
  | .averageVolumeCylindrical =>
    [.averageVolumeCylindrical, .averageVolume, .volumeQuantity, .derivedQuantity, .export]
  | .averageVolumeSpherical =>
    [.averageVolumeSpherical, .averageVolume, .volumeQuantity, .derivedQuantity, .export]
  | .averageSurface => [.averageSurface, .surfaceQuantity, .derivedQuantity, .export]
  | .averageSurfaceCylindrical =>
    [.averageSurfaceCylindrical, .averageSurface, .surfaceQuantity, .derivedQuantity, .export]
  | .maximumVolume => [.maximumVolume, .volumeQuantity, .derivedQuantity, .export]
  | .minimumVolume => [.minimumVolume, .volumeQuantity, .derivedQuantity, .export]
  | .maximumSurface => [.maximumSurface, .surfaceQuantity, .derivedQuantity, .export]
  | .minimumSurface => [.minimumSurface, .surfaceQuantity, .derivedQuantity, .export]
  | .pointValue => [.pointValue, .derivedQuantity, .export]
  | .adsorbedHydrogen => [.adsorbedHydrogen, .surfaceQuantity, .derivedQuantity, .export]

/-- A derived quantity; `id` is its `surface` or its `volume` (derived_quantity.py:60-74, 85-97). -/
structure DQObj where
  uid : ℕ
  cls : Cls
  field : Field
  id : ℕ
  deriving DecidableEq, Repr

/-- `isinstance(quantity, k)` (derived_quantities.py:262). -/
def DQObj.isinstance (q : DQObj) (k : Cls) : Bool := decide (k ∈ q.cls.bases)

/-- `quantity.surface`, if it exists (derived_quantity.py:90-96, derived_quantities.py:241). -/
def DQObj.surface (q : DQObj) : Option ℕ := if q.isinstance .surfaceQuantity then some q.id else none

/-- `quantity.volume`, if it exists (derived_quantity.py:64-70, derived_quantities.py:248). -/
def DQObj.volume (q : DQObj) : Option ℕ := if q.isinstance .volumeQuantity then some q.id else none

/-- An argument of `filter` (derived_quantities.py:194-200, 218-225). -/
inductive FilterArg (α : Type) where
  | none
  | one (a : α)
  | list (l : List α)
  | other

/-- The argument made a list (derived_quantities.py:218-225); `Option.none` for `None`. -/
def FilterArg.toList {α : Type} : FilterArg α → Option (List α)
  | .none => Option.none
  | .one a => some [a]
  | .list l => some l
  | .other => some []

/-- The flags of one iteration (derived_quantities.py:231-268). -/
def filterFlags (surfaces volumes : Option (List ℕ)) (fields : Option (List Field))
    (instances : Option (List Cls)) (q : DQObj) : Bool :=
  let matchSurface := match surfaces with
    | some l => match q.surface with
      | some s => decide (s ∈ l)
      | none => false
    | none => true
  let matchVolume := match volumes with
    | some l => match q.volume with
      | some v => decide (v ∈ l)
      | none => false
    | none => true
  let matchField := match fields with
    | some l => decide (q.field ∈ l)
    | none => true
  let matchInstance := match instances with
    | some l => l.any q.isinstance
    | none => true
  matchSurface && matchVolume && matchField && matchInstance

/-- What `filter` returns (derived_quantities.py:271-273). -/
inductive FilterResult where
  | object (q : DQObj)
  | list (l : List DQObj)
  deriving DecidableEq, Repr

/-- The loop (derived_quantities.py:227-269). -/
def filterLoop (surfaces volumes : Option (List ℕ)) (fields : Option (List Field))
    (instances : Option (List Cls)) : List DQObj → List DQObj → List DQObj
  | acc, [] => acc
  | acc, q :: l =>
    filterLoop surfaces volumes fields instances
      (if filterFlags surfaces volumes fields instances q then acc ++ [q] else acc) l

/-- `DerivedQuantities.filter` (derived_quantities.py:194-273). -/
def dqFilter (self : List DQObj) (surfaces volumes : FilterArg ℕ) (fields : FilterArg Field)
    (instances : FilterArg Cls) : FilterResult :=
  match filterLoop surfaces.toList volumes.toList fields.toList instances.toList [] self with
  | [q] => .object q
  | l => .list l

end Festim
