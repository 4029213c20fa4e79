import Verif.Model.Fields
import Verif.Model.Theta
import Mathlib.Analysis.SpecialFunctions.Trigonometric.Basic

/-!
# Derived quantities

festim/exports/derived_quantities/*.py, festim/exports/exports.py:57-77,
festim/generic_simulation.py:549-583.

Simplifications, besides those of `Verif.Model.Forms`:
* a post-processing function is given by its values at the quadrature points, its values and gradients
  at the boundary points, its values at the degrees of freedom of each cell, and its value at any
  point; `isFun` tells a `fenics.Function` from a sum of functions, which has no `function_space()`;
* the projection on `V_DG1` of a sum of functions (exports.py:59-67) is exact: all the functions of
  FESTIM are piecewise affine, hence in `V_DG1`;
* `D`, `thermal_cond` and `Q` are given by their values at the boundary points (see C31-C33 for the
  cells where they fail), `none` when the materials do not define them (materials.py:281-290);
* `np.unique` on the degrees of freedom of the cells of a volume (maximum_volume.py:52-59) does not
  change their maximum: the values are listed cell by cell;
* `f.assemble` returns a `float`, whose division by zero raises;
* the radius `self.r` of a cylindrical or spherical quantity is not set yet (first computation).
-/

open scoped BigOperators

namespace Festim.Weak

/-- A post-processing function.  `cells` lists every cell: its marker and the values of its degrees of
freedom
(what `function` of a quantity can be asked for, derived_quantity.py:30-42, generic_simulation.py:549-583). -/
structure PostFun (Ω Γ : Type) (d : ℕ) where
  val : Ω → ℝ
  tr : Γ → ℝ
  gradS : Γ → Fin d → ℝ
  cells : List (ℕ × List ℝ)
  pt : List ℝ → ℝ
  isFun : Bool

section
variable {Ω Γ : Type} {d : ℕ}

/-- Sum of two functions on the same mesh (not a `Function` any more)
(`sum([...])` for the retention, generic_simulation.py:564-567). -/
def PostFun.add (f g : PostFun Ω Γ d) : PostFun Ω Γ d where
  val p := f.val p + g.val p
  tr q := f.tr q + g.tr q
  gradS q i := f.gradS q i + g.gradS q i
  cells := List.zipWith (fun a b => (a.1, List.zipWith (· + ·) a.2 b.2)) f.cells g.cells
  pt x := f.pt x + g.pt x
  isFun := false

/-- `f.project(..., self.V_DG1)` (exports.py:65-67, 87-89, 100-102). -/
def PostFun.project (f : PostFun Ω Γ d) : PostFun Ω Γ d := { f with isFun := true }

/-- The suffix of the class with its angles: `TotalVolume`, `TotalVolumeCylindrical`,
`TotalVolumeSpherical`, ...
(total_volume.py:6, 64, 139, surface_flux.py:6, 92, 186, total_surface.py:6, 64, 140) -/
inductive Geom where
  | cartesian
  | cylindrical (azimuth : ℝ × ℝ)
  | spherical (azimuth polar : ℝ × ℝ)

/-- The suffix of a class without angles (average_volume.py:5, 56, 104, average_surface.py:5, 56). -/
inductive Suffix where
  | cartesian
  | cylindrical
  | spherical
  deriving DecidableEq, Repr

/-- The derived quantities.  `averageSurface` with `spherical` is `AverageSurfaceSpherical`, an alias
of `AverageSurface` (average_surface.py:109). -/
inductive Quantity where
  | surfaceFlux (g : Geom) (field : Field) (surface : ℕ)
  | totalVolume (g : Geom) (field : Field) (volume : ℕ)
  | totalSurface (g : Geom) (field : Field) (surface : ℕ)
  | averageVolume (s : Suffix) (field : Field) (volume : ℕ)
  | averageSurface (s : Suffix) (field : Field) (surface : ℕ)
  | maximumVolume (field : Field) (volume : ℕ)
  | minimumVolume (field : Field) (volume : ℕ)
  | maximumSurface (field : Field) (surface : ℕ)
  | minimumSurface (field : Field) (surface : ℕ)
  | pointValue (field : Field) (x : List ℝ)
  | adsorbed (surface : ℕ)

/-- `HydrogenFlux` (hydrogen_flux.py:26). -/
def hydrogenFlux (surface : ℕ) : Quantity := .surfaceFlux .cartesian (.name "solute") surface

/-- `ThermalFlux` (thermal_flux.py:26). -/
def thermalFlux (surface : ℕ) : Quantity := .surfaceFlux .cartesian (.name "T") surface

/-- The setters of the ranges: the first bound is compared with the lower limit, the second with the
upper limit
(total_volume.py:115-118, 187-200, total_surface.py:116-119, 190-203, surface_flux.py:148-151, 244-257). -/
noncomputable def checkRange (lo hi : ℝ) (msg : String) (v : ℝ × ℝ) : Except PyErr Unit :=
  open Classical in if v.1 < lo ∨ hi < v.2 then .error (.valueError msg) else .ok ()

/-- `SurfaceFluxCylindrical.azimuth_range` (surface_flux.py:147-151). -/
noncomputable def checkCylindricalFlux (az : ℝ × ℝ) : Except PyErr Unit :=
  checkRange 0 (2 * Real.pi) "Azimuthal range must be between 0 and 2*pi" az

/-- `TotalVolumeCylindrical.azimuth_range` (total_volume.py:114-118). -/
noncomputable def checkCylindricalVolume (az : ℝ × ℝ) : Except PyErr Unit :=
  checkRange 0 (2 * Real.pi) "Azimuthal range must be between 0 and 2 pi" az

/-- `TotalSurfaceCylindrical.azimuth_range` (total_surface.py:115-119). -/
noncomputable def checkCylindricalSurface (az : ℝ × ℝ) : Except PyErr Unit :=
  checkRange 0 (2 * Real.pi) "Azimuthal range must be between 0 and pi" az

/-- The ranges of `SurfaceFluxSpherical` in the order of `__init__` (surface_flux.py:207-213,
243-257). -/
noncomputable def checkSphericalFlux (az pol : ℝ × ℝ) : Except PyErr Unit :=
  match checkRange (-Real.pi) Real.pi "Polar range must be between - pi and pi" pol with
  | .error e => .error e
  | .ok () => checkRange 0 Real.pi "Azimuthal range must be between 0 and pi" az

/-- The ranges of `TotalVolumeSpherical` in the order of `__init__` (total_volume.py:170-173,
186-200). -/
noncomputable def checkSphericalVolume (az pol : ℝ × ℝ) : Except PyErr Unit :=
  match checkRange 0 (2 * Real.pi) "Azimuthal range must be between 0 and pi" az with
  | .error e => .error e
  | .ok () => checkRange 0 Real.pi "Polar range must be between 0 and pi" pol

/-- The ranges of `TotalSurfaceSpherical` in the order of `__init__` (total_surface.py:173-176,
189-203). -/
noncomputable def checkSphericalSurface (az pol : ℝ × ℝ) : Except PyErr Unit :=
  match checkRange 0 (2 * Real.pi) "Azimuthal range must be between 0 and 2 pi" az with
  | .error e => .error e
  | .ok () => checkRange 0 Real.pi "Polar range must be between 0 and pi" pol

/-- Construction of a quantity: validation of the angles
(the `__init__` of each class, e.g. surface_flux.py:112-115, 208-214, total_volume.py:91-94, 167-173). -/
noncomputable def Quantity.init (q : Quantity) : Except PyErr Unit :=
  match q with
  | .surfaceFlux (.cylindrical az) _ _ => checkCylindricalFlux az
  | .surfaceFlux (.spherical az pol) _ _ => checkSphericalFlux az pol
  | .totalVolume (.cylindrical az) _ _ => checkCylindricalVolume az
  | .totalVolume (.spherical az pol) _ _ => checkSphericalVolume az pol
  | .totalSurface (.cylindrical az) _ _ => checkCylindricalSurface az
  | .totalSurface (.spherical az pol) _ _ => checkSphericalSurface az pol
  | _ => .ok ()

/-- `np.max`; raises for an empty array (maximum_volume.py:46-61, maximum_surface.py:46-61). -/
noncomputable def npMax : List ℝ → Except PyErr ℝ
  | [] => .error (.valueError "zero-size array to reduction operation maximum which has no identity")
  | a :: l => .ok (l.foldl max a)

/-- `np.min`; raises for an empty array (minimum_volume.py:46-61, minimum_surface.py:46-61). -/
noncomputable def npMin : List ℝ → Except PyErr ℝ
  | [] => .error (.valueError "zero-size array to reduction operation minimum which has no identity")
  | a :: l => .ok (l.foldl min a)

/-- `np.hstack([dm.cell_dofs(c) for c in SubsetIterator(volume_markers, volume)])`: the values at the
degrees of freedom of the cells of the volume (maximum_volume.py:48-61, minimum_volume.py:48-61). -/
def PostFun.subdDofs (f : PostFun Ω Γ d) (volume : ℕ) : Except PyErr (List ℝ) :=
  match f.cells.filter fun c => c.1 = volume with
  | [] => .error (.valueError "need at least one array to concatenate")
  | l => .ok (l.flatMap (·.2))

/-- The values gathered by `MaximumSurface.compute(surface_markers)` and
`MinimumSurface.compute(surface_markers)` called by the user (maximum_surface.py:46-59,
minimum_surface.py:46-59): `facets` lists the marker of every facet.  The index of a facet is given to
`cell_dofs`, which expects the index of a cell; the outer `none` stands for an index past the last cell,
which dolfin reads beyond its array. -/
def PostFun.facetDofs (f : PostFun Ω Γ d) (facets : List ℕ) (surface : ℕ) :
    Option (Except PyErr (List ℝ)) :=
  match (facets.zipIdx.filter fun c => c.1 = surface).map (·.2) with
  | [] => some (.error (.valueError "need at least one array to concatenate"))
  | l => (l.mapM fun i => (f.cells[i]?).map (·.2)).map fun ls => .ok ls.flatten

/-- `MaximumSurface.compute(surface_markers)` (maximum_surface.py:46-61). -/
noncomputable def PostFun.maximumSurface (f : PostFun Ω Γ d) (facets : List ℕ) (surface : ℕ) :
    Option (Except PyErr ℝ) :=
  (f.facetDofs facets surface).map fun r => r.bind npMax

/-- `MinimumSurface.compute(surface_markers)` (minimum_surface.py:46-61). -/
noncomputable def PostFun.minimumSurface (f : PostFun Ω Γ d) (facets : List ℕ) (surface : ℕ) :
    Option (Except PyErr ℝ) :=
  (f.facetDofs facets surface).map fun r => r.bind npMin

end

section
variable {Ω Γ : Type} [Fintype Ω] [Fintype Γ] {d : ℕ}

/-- What the quantities are given: measures and normal (derived_quantities.py:107-112), material
properties (114-125), `soret` and `T` (generic_simulation.py:412-415), the functions of the labels
(generic_simulation.py:559-583; `ids` are the ids of the traps) and the adsorbed concentrations (one
constant for each surface of each `SurfaceKinetics`). -/
structure PostEnv (Ω Γ : Type) (d : ℕ) where
  mesh : Mesh Ω Γ d
  n : Γ → Fin d → ℝ
  D : Γ → ℝ
  cond : Option (Γ → ℝ)
  Q : Option (Γ → ℝ)
  T : PostFun Ω Γ d
  soret : Bool
  solute : PostFun Ω Γ d
  traps : List (PostFun Ω Γ d)
  ids : List ℕ
  adsorbed : List (List ℕ × List ℝ)

/-- `sum([mobile] + [trap ...])` (generic_simulation.py:564-567); without trap it is the mobile
concentration itself (ufl simplifies `0 + u`). -/
def PostEnv.retention (e : PostEnv Ω Γ d) : PostFun Ω Γ d :=
  e.traps.foldl PostFun.add e.solute

/-- `label_to_function[field]`; the dict is that of C37.  `proj`: its entry "retention" has already been
projected (exports.py:62-67, 86-89, 99-102). -/
def PostEnv.label (e : PostEnv Ω Γ d) (proj : Bool) (field : Field) : Except PyErr (PostFun Ω Γ d) :=
  match Dict.get? (labelToFunction e.ids) field with
  | none => .error (.keyError "field")
  | some (.comp 0) => .ok e.solute
  | some (.comp (k + 1)) =>
    match e.traps[k]? with
    | some f => .ok f
    | none => .error (.keyError "field")
  | some .temp => .ok e.T
  | some .retention => .ok (if proj then e.retention.project else e.retention)
  | some .adsorbed => .error (.typeError "a list is not a function")

/-- A constant function (a temperature which is the same everywhere, temperature.py:41-42). -/
def PostFun.const (c : ℝ) : PostFun Ω Γ d :=
  ⟨fun _ => c, fun _ => c, fun _ _ => 0, [], fun _ => c, true⟩

/-- The loop which gives its function to an `AdsorbedHydrogen` (exports.py:68-74); initially `None`
(export.py:4). -/
def adsorbedFunction (surface : ℕ) : List (List ℕ × List ℝ) → Option ℝ → Option ℝ
  | [], acc => acc
  | (surfs, vals) :: l, acc =>
    adsorbedFunction surface l
      (if surface ∈ surfs then vals[surfs.idxOf surface]? else acc)

/-- `quantity.field` (`none` for `AdsorbedHydrogen`) (export.py:2-3, adsorbed_hydrogen.py:27-28). -/
def Quantity.field : Quantity → Option Field
  | .surfaceFlux _ f _ => some f
  | .totalVolume _ f _ => some f
  | .totalSurface _ f _ => some f
  | .averageVolume _ f _ => some f
  | .averageSurface _ f _ => some f
  | .maximumVolume f _ => some f
  | .minimumVolume f _ => some f
  | .maximumSurface f _ => some f
  | .minimumSurface f _ => some f
  | .pointValue f _ => some f
  | .adsorbed _ => none

/-- `isinstance(quantity, (festim.MaximumVolume, festim.MinimumVolume))`
(exports.py:59-61, derived_quantities.py:130). -/
def Quantity.isExtremum : Quantity → Bool
  | .maximumVolume _ _ => true
  | .minimumVolume _ _ => true
  | _ => false

/-- The entry "retention" after the projection of exports.py:59-67 for one quantity. -/
def Quantity.projects (q : Quantity) (proj : Bool) : Bool :=
  proj || (q.isExtremum && q.field = some (.name "retention"))

/-- `quantity.function = ...` (exports.py:68-76). -/
def Quantity.function (e : PostEnv Ω Γ d) (proj : Bool) (q : Quantity) :
    Except PyErr (PostFun Ω Γ d) :=
  match q with
  | .adsorbed s =>
    match adsorbedFunction s e.adsorbed none with
    | some c => .ok (.const c)
    | none => .error (.typeError "unsupported operand type(s) for *: 'NoneType' and 'Measure'")
  | q =>
    match q.field with
    | some f => e.label proj f
    | none => .error (.keyError "field")

/-- `prop` (surface_flux.py:66-74). -/
def PostEnv.prop (e : PostEnv Ω Γ d) (field : Field) : Except PyErr (Option (Γ → ℝ)) :=
  if field = .strInt 0 ∨ field = .name "solute" ∨ field = .int 0 then .ok (some e.D)
  else if field = .name "T" then .ok e.cond
  else .error (.keyError "field")

/-- Weight of the surface measure: `1`, `r`, `r**2` (surface_flux.py:77-79, 166-171, 271-276). -/
def Geom.weightS (g : Geom) (m : Mesh Ω Γ d) (q : Γ) : ℝ :=
  match g with
  | .cartesian => 1
  | .cylindrical _ => m.r.tr q
  | .spherical _ _ => m.r.tr q ^ 2

/-- Angular factor of `SurfaceFlux*` (surface_flux.py:182, 287-289). -/
noncomputable def Geom.fluxFactor : Geom → ℝ
  | .cartesian => 1
  | .cylindrical az => az.2 - az.1
  | .spherical az pol => (pol.2 - pol.1) * (-Real.cos az.2 + Real.cos az.1)

/-- Angular factor of `TotalVolume*` and `TotalSurface*` (total_volume.py:134, 217-219,
total_surface.py:135, 220-222). -/
noncomputable def Geom.totalFactor : Geom → ℝ
  | .cartesian => 1
  | .cylindrical az => az.2 - az.1
  | .spherical az pol => (az.2 - az.1) * (Real.cos pol.1 - Real.cos pol.2)

/-- `self.function.function_space().mesh()` in the curvilinear classes (surface_flux.py:155-160,
total_volume.py:126-131, ...): a sum of functions has no `function_space`. -/
def needMesh {α : Type} (f : PostFun Ω Γ d) (curved : Bool) (k : Except PyErr α) : Except PyErr α :=
  if curved && !f.isFun then .error (.attributeError "'Sum' object has no attribute 'function_space'")
  else k

/-- Whether the class is one of the curvilinear ones (surface_flux.py:92, 186, total_volume.py:64, 139, total_surface.py:64, 140). -/
def Geom.curved : Geom → Bool
  | .cartesian => false
  | _ => true

/-- `SurfaceFlux.compute` and subclasses (surface_flux.py:76-89, 153-183, 259-290).  A missing
property is `None`, which cannot be multiplied. -/
noncomputable def evalSurfaceFlux (e : PostEnv Ω Γ d) (g : Geom) (field : Field) (s : ℕ)
    (f : PostFun Ω Γ d) : Except PyErr ℝ :=
  match e.prop field with
  | .error err => .error err
  | .ok none => .error (.typeError "unsupported operand type(s) for *: 'NoneType'")
  | .ok (some prop) =>
    let flux := e.mesh.integrate
      (.ds s fun q => prop q * g.weightS e.mesh q * dot (f.gradS q) (e.n q))
    if e.soret ∧ (field = .int 0 ∨ field = .strInt 0 ∨ field = .name "solute") then
      match e.Q with
      | none => .error (.typeError "unsupported operand type(s) for *: 'NoneType'")
      | some Q =>
        let flux := flux + e.mesh.integrate (.ds s fun q =>
          prop q * g.weightS e.mesh q * f.tr q * Q q / (kB * e.T.tr q ^ 2)
            * dot (e.T.gradS q) (e.n q))
        .ok (flux * g.fluxFactor)
    else .ok (flux * g.fluxFactor)

/-- `TotalVolume.compute` and subclasses (total_volume.py:60-61, 124-136, 206-221). -/
noncomputable def evalTotalVolume (e : PostEnv Ω Γ d) (g : Geom) (v : ℕ) (f : PostFun Ω Γ d) : ℝ :=
  match g with
  | .cartesian => e.mesh.integrate (.dxOn [v] f.val)
  | .cylindrical _ => e.mesh.integrate (.dxOn [v] fun p => f.val p * e.mesh.r.val p) * g.totalFactor
  | .spherical _ _ =>
    e.mesh.integrate (.dxOn [v] fun p => f.val p * e.mesh.r.val p ^ 2) * g.totalFactor

/-- `TotalSurface.compute` and subclasses (total_surface.py:60-61, 125-137, 209-224). -/
noncomputable def evalTotalSurface (e : PostEnv Ω Γ d) (g : Geom) (s : ℕ) (f : PostFun Ω Γ d) : ℝ :=
  match g with
  | .cartesian => e.mesh.integrate (.ds s f.tr)
  | .cylindrical _ => e.mesh.integrate (.ds s fun q => f.tr q * e.mesh.r.tr q) * g.totalFactor
  | .spherical _ _ =>
    e.mesh.integrate (.ds s fun q => f.tr q * e.mesh.r.tr q ^ 2) * g.totalFactor

/-- Division of `float`s (average_volume.py:50-53, average_surface.py:50-53). -/
noncomputable def pyDiv (a b : ℝ) : Except PyErr ℝ :=
  open Classical in if b = 0 then .error .zeroDivisionError else .ok (a / b)

/-- `AverageVolume.compute` and subclasses (average_volume.py:50-53, 88-101, 131-144). -/
noncomputable def evalAverageVolume (e : PostEnv Ω Γ d) (s : Suffix) (v : ℕ) (f : PostFun Ω Γ d) :
    Except PyErr ℝ :=
  match s with
  | .cartesian =>
    pyDiv (e.mesh.integrate (.dxOn [v] f.val)) (e.mesh.integrate (.dxOn [v] fun _ => 1))
  | .cylindrical =>
    pyDiv (e.mesh.integrate (.dxOn [v] fun p => f.val p * e.mesh.r.val p))
      (e.mesh.integrate (.dxOn [v] fun p => 1 * e.mesh.r.val p))
  | .spherical =>
    pyDiv (e.mesh.integrate (.dxOn [v] fun p => f.val p * e.mesh.r.val p ^ 2))
      (e.mesh.integrate (.dxOn [v] fun p => 1 * e.mesh.r.val p ^ 2))

/-- `AverageSurface.compute` and `AverageSurfaceCylindrical.compute` (average_surface.py:50-53,
89-106). -/
noncomputable def evalAverageSurface (e : PostEnv Ω Γ d) (s : Suffix) (sf : ℕ) (f : PostFun Ω Γ d) :
    Except PyErr ℝ :=
  match s with
  | .cylindrical =>
    pyDiv (e.mesh.integrate (.ds sf fun q => f.tr q * e.mesh.r.tr q))
      (e.mesh.integrate (.ds sf fun q => 1 * e.mesh.r.tr q))
  | _ => pyDiv (e.mesh.integrate (.ds sf f.tr)) (e.mesh.integrate (.ds sf fun _ => 1))

/-- One call of `compute` in `DerivedQuantities.compute` (derived_quantities.py:129-133): only the
extrema in a volume are given their argument, though those on a surface need one too
(maximum_surface.py:46-61, minimum_surface.py:46-61). Also point_value.py:48-50 and
adsorbed_hydrogen.py:42-43. -/
noncomputable def Quantity.compute (e : PostEnv Ω Γ d) (f : PostFun Ω Γ d) :
    Quantity → Except PyErr ℝ
  | .surfaceFlux g field s => needMesh f g.curved (evalSurfaceFlux e g field s f)
  | .totalVolume g _ v => needMesh f g.curved (.ok (evalTotalVolume e g v f))
  | .totalSurface g _ s => needMesh f g.curved (.ok (evalTotalSurface e g s f))
  | .averageVolume s _ v => needMesh f (s ≠ .cartesian) (evalAverageVolume e s v f)
  | .averageSurface s _ sf => needMesh f (s = .cylindrical) (evalAverageSurface e s sf f)
  | .maximumVolume _ v =>
    match f.subdDofs v with
    | .error err => .error err
    | .ok l => npMax l
  | .minimumVolume _ v =>
    match f.subdDofs v with
    | .error err => .error err
    | .ok l => npMin l
  | .maximumSurface _ _ =>
    .error (.typeError "compute() missing 1 required positional argument: 'surface_markers'")
  | .minimumSurface _ _ =>
    .error (.typeError "compute() missing 1 required positional argument: 'surface_markers'")
  | .pointValue _ x => .ok (f.pt x)
  | .adsorbed s => .ok (e.mesh.integrate (.ds s f.tr))

/-- First loop of `Exports.write` over the quantities (exports.py:57-76). -/
def assignFunctions (e : PostEnv Ω Γ d) :
    Bool → List Quantity → Except PyErr (List (Quantity × PostFun Ω Γ d))
  | _, [] => .ok []
  | proj, q :: l =>
    match q.function e (q.projects proj) with
    | .error err => .error err
    | .ok f =>
      match assignFunctions e (q.projects proj) l with
      | .error err => .error err
      | .ok r => .ok ((q, f) :: r)

/-- The row of `DerivedQuantities.compute` without the time (derived_quantities.py:127-143). -/
noncomputable def computeRow (e : PostEnv Ω Γ d) :
    List (Quantity × PostFun Ω Γ d) → Except PyErr (List ℝ)
  | [] => .ok []
  | (q, f) :: l =>
    match q.compute e f with
    | .error err => .error err
    | .ok x =>
      match computeRow e l with
      | .error err => .error err
      | .ok r => .ok (x :: r)

/-- What a `DerivedQuantities` export computes at a step (exports.py:56-77); `proj`: an earlier export
of the list projected the retention. -/
noncomputable def derivedRow (e : PostEnv Ω Γ d) (proj : Bool) (qs : List Quantity) :
    Except PyErr (List ℝ) :=
  match assignFunctions e proj qs with
  | .error err => .error err
  | .ok l => computeRow e l

/-- Value of a quantity alone in its list (derived_quantities.py:127-143). -/
noncomputable def Quantity.value (e : PostEnv Ω Γ d) (proj : Bool) (q : Quantity) : Except PyErr ℝ :=
  match q.function e (q.projects proj) with
  | .error err => .error err
  | .ok f => q.compute e f

end

end Festim.Weak
