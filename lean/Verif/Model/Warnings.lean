import Verif.Model.Materials

/-!
# Warnings about ignored material properties

festim/materials/materials.py `check_for_unused_properties`, called by `check_materials`.
-/

namespace Festim

/-- A derived quantity as seen by `check_for_unused_properties`: whether it is a `SurfaceFlux`, and its field
(materials.py:137-145). -/
structure QuantityInfo where
  isSurfaceFlux : Bool
  field : String
  deriving DecidableEq, Repr

/-- Warnings about `rho` and `heat_capacity` of one material (festim/materials/materials.py:126-129). -/
def transientWarnings (m : Material) : List String :=
  (if m.rho then ["rho key will be ignored"] else []) ++
  if m.heatCapacity then ["heat_capacity key will be ignored"] else []

/-- Whether `thermal_cond` gives a warning (festim/materials/materials.py:133-145). -/
def warnCond (T : TempKind) (qs : List QuantityInfo) : Bool :=
  match T with
  | .heatTransfer _ => false
  | .plain => !(qs.any fun q => q.isSurfaceFlux && q.field == "T")

/-- `check_for_unused_properties` (festim/materials/materials.py:112-147). -/
def unusedWarnings (ms : List Material) (T : TempKind) (qs : List QuantityInfo) : List String :=
  (match T with
    | .heatTransfer _ => []
    | .plain => ms.flatMap transientWarnings) ++
  ms.flatMap fun m =>
    if m.thermalCond && warnCond T qs then ["thermal_cond key will be ignored"] else []

/-- The warnings of `check_materials` (festim/materials/materials.py:82-98): none if the consistency check raises
before. -/
def checkMaterialsWarnings (ms : List Material) (T : TempKind) (qs : List QuantityInfo) : List String :=
  if ms.length > 0 then
    match checkConsistency ms with
    | .error _ => []
    | .ok () => unusedWarnings ms T qs
  else []

/-- The warnings of `Simulation.initialise` about materials: the list of derived quantities handed over is always
empty, whatever the exports (festim/generic_simulation.py:374-376). -/
def initialiseWarnings (ms : List Material) (T : TempKind) (_exports : List QuantityInfo) : List String :=
  checkMaterialsWarnings ms T []

end Festim
