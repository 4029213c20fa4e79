import Verif.Model.Derived

/-!
# Mesh types accepted by the derived quantities

festim/exports/derived_quantities/*.py `allowed_meshes` and the loop of
festim/generic_simulation.py:388-396.

Not modelled: the text of the warning, and that Python shows a repeated warning only once.
-/

namespace Festim.Weak

/-- `allowed_meshes`: surface_flux.py:40-42, 127-129, 223-225; total_volume.py:34-36, 120-122, 202-204;
total_surface.py:34-36, 121-123, 205-207; average_volume.py:31-33, 84-86, 127-129;
average_surface.py:31-33, 85-87 and the alias `AverageSurfaceSpherical` (109); the others inherit
derived_quantity.py:44-48. -/
def Quantity.allowedMeshes : Quantity → List Coord
  | .surfaceFlux .cartesian _ _ => [.cartesian]
  | .surfaceFlux (.cylindrical _) _ _ => [.cylindrical]
  | .surfaceFlux (.spherical _ _) _ _ => [.spherical]
  | .totalVolume .cartesian _ _ => [.cartesian]
  | .totalVolume (.cylindrical _) _ _ => [.cylindrical]
  | .totalVolume (.spherical _ _) _ _ => [.spherical]
  | .totalSurface .cartesian _ _ => [.cartesian]
  | .totalSurface (.cylindrical _) _ _ => [.cylindrical]
  | .totalSurface (.spherical _ _) _ _ => [.spherical]
  | .averageVolume .cartesian _ _ => [.cartesian]
  | .averageVolume .cylindrical _ _ => [.cylindrical]
  | .averageVolume .spherical _ _ => [.spherical]
  | .averageSurface .cylindrical _ _ => [.cylindrical]
  | .averageSurface _ _ _ => [.cartesian, .spherical]
  | _ => [.cartesian, .cylindrical, .spherical]

/-- The quantities for which `initialise` warns that they "may not work as intended"
(generic_simulation.py:388-396): in each `DerivedQuantities`, in order. -/
def meshWarnings (type : Coord) (exports : List (List Quantity)) : List Quantity :=
  exports.flatMap fun qs => qs.filter fun q => type ∉ q.allowedMeshes

end Festim.Weak
