import Verif.Model.Filter

/-!
# What a call of `filter` asks for
-/

namespace Festim

/-- A request of a user: no condition, or a set of accepted values. -/
def Asked {α : Type} (arg : FilterArg α) (ok : α → Prop) : Prop :=
  match arg with
  | .none => True
  | .one a => ok a
  | .list l => ∃ a ∈ l, ok a
  | .other => False

/-- `class b(a)` appears in the code. -/
inductive Derives : Cls → Cls → Prop
  | dq : Derives .derivedQuantity .export
  | vol : Derives .volumeQuantity .derivedQuantity
  | surf : Derives .surfaceQuantity .derivedQuantity
  | point : Derives .pointValue .derivedQuantity
  | flux : Derives .surfaceFlux .surfaceQuantity
  | hflux : Derives .hydrogenFlux .surfaceFlux
  | tflux : Derives .thermalFlux .surfaceFlux
  | cflux : Derives .surfaceFluxCylindrical .surfaceFlux
  | sflux : Derives .surfaceFluxSpherical .surfaceFlux
  | tv : Derives .totalVolume .volumeQuantity
  | tvc : Derives .totalVolumeCylindrical .totalVolume
  | tvs : Derives .totalVolumeSpherical .totalVolume
  | ts : Derives .totalSurface .surfaceQuantity
  | tsc : Derives .totalSurfaceCylindrical .totalSurface
  | tss : Derives .totalSurfaceSpherical .totalSurface
  | av : Derives .averageVolume .volumeQuantity
  | avc : Derives .averageVolumeCylindrical .averageVolume
  | avs : Derives .averageVolumeSpherical .averageVolume
  | as : Derives .averageSurface .surfaceQuantity
  | asc : Derives .averageSurfaceCylindrical .averageSurface
  | maxv : Derives .maximumVolume .volumeQuantity
  | minv : Derives .minimumVolume .volumeQuantity
  | maxs : Derives .maximumSurface .surfaceQuantity
  | mins : Derives .minimumSurface .surfaceQuantity
  | ads : Derives .adsorbedHydrogen .surfaceQuantity

/-- Subclass, in the sense of Python (a class is a subclass of itself). -/
def Subclass : Cls → Cls → Prop := Relation.ReflTransGen Derives

/-- A quantity meets a request: it is relative to an accepted surface, to an accepted volume, has
literally an accepted field, and is an instance of an accepted class. -/
def Meets (q : DQObj) (surfaces volumes : FilterArg ℕ) (fields : FilterArg Field)
    (instances : FilterArg Cls) : Prop :=
  Asked surfaces (fun s => Subclass q.cls .surfaceQuantity ∧ q.id = s) ∧
  Asked volumes (fun v => Subclass q.cls .volumeQuantity ∧ q.id = v) ∧
  Asked fields (fun f => q.field = f) ∧
  Asked instances (fun k => Subclass q.cls k)

/-- The objects in a result, in order. -/
def FilterResult.objects : FilterResult → List DQObj
  | .object q => [q]
  | .list l => l

end Festim
