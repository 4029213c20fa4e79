import Verif.Model.Py
import Mathlib.Analysis.SpecialFunctions.Exp
import Mathlib.Analysis.SpecialFunctions.Pow.Real
import Mathlib.Algebra.BigOperators.Group.Finset.Basic

/-!
# Variational forms

festim/concentration/mobile.py, festim/concentration/theta.py, festim/concentration/traps/*.py,
festim/boundary_conditions/fluxes/*.py, festim/sources/*.py,
festim/temperature/temperature_solver.py (form), festim/h_transport_problem.py:249-278.

## What a form is here

A UFL form is a sum of terms `integrand * dx(i)` or `integrand * ds(i)`; FEniCS assembles it by
quadrature.  The model is a list of such terms.  `Ω` is the (arbitrary, finite) set of quadrature
points of the volume and `Γ` that of the boundary.  A field (`Fld`) is given by its value and
gradient at every point of `Ω` and its value at every point of `Γ`; nothing else about the finite
element space is used, so the theorems hold for any mesh, any dimension `d`, any element and any
order.  Products, quotients and `exp` of fields differentiate as UFL does (product and chain rule).

Simplifications:
* real numbers, no rounding;
* one quadrature rule per volume for the whole form (this is what FFC does for terms which share the
  same measure and metadata);
* `dx(ids)` with a list of subdomains (trap.py:155, 189, 192, 208, mobile.py:165, 172) is the integral
  over their union.  UFL documents it for tuples, as a sum over the entries: the lists are assumed to be
  accepted and without repetition;
* parameters given as expressions of `x` and `t` are given by their values at the points;
* `mesh.mesh` has dimension `d`; the check of dimension against the coordinates
  (generic_simulation.py:296-306) is modelled elsewhere.
-/

open scoped BigOperators

namespace Festim.Weak

/-- `k_B` (festim/__init__.py:19). -/
noncomputable def kB : ℝ := 8.6173303e-5

/-- A scalar field: values and gradients at the volume points, values at the boundary points
(the `fenics.Function`s in the forms, mobile.py:67-177). -/
@[ext]
structure Fld (Ω Γ : Type) (d : ℕ) where
  val : Ω → ℝ
  grad : Ω → Fin d → ℝ
  tr : Γ → ℝ

namespace Fld

variable {Ω Γ : Type} {d : ℕ}

/-- `Constant(a)` (e.g. `Constant(value)`, source.py:29). -/
def const (a : ℝ) : Fld Ω Γ d := ⟨fun _ => a, fun _ _ => 0, fun _ => a⟩

instance : Add (Fld Ω Γ d) :=
  ⟨fun u v => ⟨fun p => u.val p + v.val p, fun p i => u.grad p i + v.grad p i,
    fun q => u.tr q + v.tr q⟩⟩

instance : Sub (Fld Ω Γ d) :=
  ⟨fun u v => ⟨fun p => u.val p - v.val p, fun p i => u.grad p i - v.grad p i,
    fun q => u.tr q - v.tr q⟩⟩

/-- Product rule. -/
instance : Mul (Fld Ω Γ d) :=
  ⟨fun u v => ⟨fun p => u.val p * v.val p,
    fun p i => u.grad p i * v.val p + u.val p * v.grad p i, fun q => u.tr q * v.tr q⟩⟩

/-- Quotient rule. -/
noncomputable instance : Div (Fld Ω Γ d) :=
  ⟨fun u v => ⟨fun p => u.val p / v.val p,
    fun p i => (u.grad p i * v.val p - u.val p * v.grad p i) / v.val p ^ 2,
    fun q => u.tr q / v.tr q⟩⟩

/-- `exp(u)` (mobile.py:83, trap.py:185, 192). -/
noncomputable def exp (u : Fld Ω Γ d) : Fld Ω Γ d :=
  ⟨fun p => Real.exp (u.val p), fun p i => Real.exp (u.val p) * u.grad p i,
    fun q => Real.exp (u.tr q)⟩

/-- `u**2` (`T.T**2`, mobile.py:92). -/
def sq (u : Fld Ω Γ d) : Fld Ω Γ d :=
  ⟨fun p => u.val p ^ 2, fun p i => 2 * u.val p * u.grad p i, fun q => u.tr q ^ 2⟩

end Fld

/-- `dot(a, b)` (mobile.py:85). -/
def dot {d : ℕ} (a b : Fin d → ℝ) : ℝ := ∑ i, a i * b i

/-- `mesh.type` (festim/meshing/mesh.py:22-28): a string which is not checked. -/
inductive Coord where
  | cartesian
  | cylindrical
  | spherical
  | other
  deriving DecidableEq, Repr

/-- The mesh with its measures `dx`, `ds` (festim/meshing/mesh.py:33-37): quadrature weights, cell
markers, facet markers, the marker of the cell behind a facet, the coordinate `x[0]`. -/
structure Mesh (Ω Γ : Type) (d : ℕ) where
  w : Ω → ℝ
  vm : Ω → ℕ
  ws : Γ → ℝ
  sm : Γ → ℕ
  vmS : Γ → ℕ
  r : Fld Ω Γ d
  type : Coord

/-- One term of a form: `g * dx`, `g * dx(ids)` or `g * ds(id)` (mobile.py:82, 79, 232). -/
inductive Term (Ω Γ : Type) where
  | dx (g : Ω → ℝ)
  | dxOn (ids : List ℕ) (g : Ω → ℝ)
  | ds (id : ℕ) (g : Γ → ℝ)

/-- A form whose test functions have been given (`F`, mobile.py:67, 176-177). -/
abbrev Form (Ω Γ : Type) := List (Term Ω Γ)

/-- `-F` (mobile.py:174). -/
def Form.neg {Ω Γ : Type} (F : Form Ω Γ) : Form Ω Γ :=
  F.map fun t =>
    match t with
    | .dx g => .dx fun p => -g p
    | .dxOn ids g => .dxOn ids fun p => -g p
    | .ds id g => .ds id fun q => -g q

section
variable {Ω Γ : Type} [Fintype Ω] [Fintype Γ] {d : ℕ}

/-- Value of one term (the measures of meshing/mesh.py:33-37). -/
def Mesh.integrate (m : Mesh Ω Γ d) : Term Ω Γ → ℝ
  | .dx g => ∑ p, m.w p * g p
  | .dxOn ids g => ∑ p, if m.vm p ∈ ids then m.w p * g p else 0
  | .ds id g => ∑ q, if m.sm q = id then m.ws q * g q else 0

/-- `assemble(F)` (nonlinear_problem.py:25-27). -/
def Mesh.assemble (m : Mesh Ω Γ d) (F : Form Ω Γ) : ℝ := (F.map m.integrate).sum

end

/-- `solubility_law` (festim/materials/material.py:66-70). -/
inductive Law where
  | sievert
  | henry
  deriving DecidableEq, Repr

/-- `Material` (festim/materials/material.py:40-71).  `uid` is the identity of the object; `ids` is
`id` made a list (mobile.py:73-75).  `Q`, `cond`, `cp` and `rho` are functions of `T` (a number is a
constant function). -/
structure Mat where
  uid : ℕ
  ids : List ℕ
  D_0 : ℝ
  E_D : ℝ
  S_0 : ℝ := 1
  E_S : ℝ := 0
  law : Law := .sievert
  Q : ℝ → ℝ := fun _ => 0
  cond : ℝ → ℝ := fun _ => 1
  cp : ℝ → ℝ := fun _ => 1
  rho : ℝ → ℝ := fun _ => 1

/-- `festim.Temperature`: attributes `T` and `T_n` (temperature.py:26-30). -/
structure Temp (Ω Γ : Type) (d : ℕ) where
  T : Fld Ω Γ d
  Tn : Fld Ω Γ d

/-- `A * exp(-E / k_B / T)` as a field (mobile.py:83, trap.py:185, 192, theta.py:44-67). -/
noncomputable def arrhenius {Ω Γ : Type} {d : ℕ} (A E : ℝ) (T : Fld Ω Γ d) : Fld Ω Γ d :=
  Fld.const A * Fld.exp (Fld.const (-E / kB) / T)

/-- `festim.Mobile` or, when `theta`, `festim.Theta` with its attributes `S` and `materials`
(festim/h_transport_problem.py:83-87). -/
structure Mobile (Ω Γ : Type) (d : ℕ) where
  theta : Bool
  sol : Fld Ω Γ d
  prev : Fld Ω Γ d
  S : Fld Ω Γ d := Fld.const 1

section
variable {Ω Γ : Type} {d : ℕ}

/-- `get_concentration_for_a_given_material` (mobile.py:240-241 and theta.py:44-67). -/
noncomputable def Mobile.conc (mv : Mobile Ω Γ d) (mat : Mat) (T : Temp Ω Γ d) :
    Fld Ω Γ d × Fld Ω Γ d :=
  if mv.theta then
    let S := arrhenius mat.S_0 mat.E_S T.T
    let Sn := arrhenius mat.S_0 mat.E_S T.Tn
    match mat.law with
    | .sievert => (mv.sol * S, mv.prev * Sn)
    | .henry => (mv.sol.sq * S, mv.prev.sq * Sn)
  else (mv.sol, mv.prev)

/-- `henry_marker` or `sievert_marker` in a cell with marker `i`: the solution of
`-m*v*dx + sum 1*v*dx(id) = 0` in DG0 (materials.py:308-345). -/
def lawMarker (mats : List Mat) (law : Law) (i : ℕ) : ℝ :=
  (mats.map fun mat =>
    if mat.law = law then (mat.ids.map fun j => if j = i then (1 : ℝ) else 0).sum else 0).sum

/-- `mobile_concentration` at the volume points (mobile.py:243-244, theta.py:69-82). -/
def Mobile.mobileConc (mesh : Mesh Ω Γ d) (mats : List Mat) (mv : Mobile Ω Γ d) (p : Ω) : ℝ :=
  if mv.theta then
    lawMarker mats .henry (mesh.vm p) * (mv.sol.val p ^ 2 * mv.S.val p)
      + lawMarker mats .sievert (mesh.vm p) * (mv.sol.val p * mv.S.val p)
  else mv.sol.val p

/-- `mobile_concentration` at the boundary points (mobile.py:243-244, theta.py:69-82). -/
def Mobile.mobileConcS (mesh : Mesh Ω Γ d) (mats : List Mat) (mv : Mobile Ω Γ d) (q : Γ) : ℝ :=
  if mv.theta then
    lawMarker mats .henry (mesh.vmS q) * (mv.sol.tr q ^ 2 * mv.S.tr q)
      + lawMarker mats .sievert (mesh.vmS q) * (mv.sol.tr q * mv.S.tr q)
  else mv.sol.tr q

/-- A parameter of a trap: a number or a list (trap.py:30-33, 158-169). -/
inductive Param where
  | num (x : ℝ)
  | list (l : List ℝ)

/-- `param[i]` (trap.py:159-162, mobile.py:147-150). -/
def Param.index : Param → ℕ → Except PyErr ℝ
  | .num _, _ => .error (.typeError "'float' object is not subscriptable")
  | .list l, i =>
    match l[i]? with
    | some x => .ok x
    | none => .error (.indexError "list index out of range")

/-- Use of a parameter as a number (trap.py:165-168, 184, mobile.py:153-156, 160). -/
def Param.asNum : Param → Except PyErr ℝ
  | .num x => .ok x
  | .list _ => .error (.typeError "bad operand type for unary -: 'list'")

/-- `density[i]` (trap.py:163, 169, mobile.py:151, 157). -/
def densityAt (l : List (Ω → ℝ)) (i : ℕ) : Except PyErr (Ω → ℝ) :=
  match l[i]? with
  | some n => .ok n
  | none => .error (.indexError "list index out of range")

/-- Value of a source: given, or a `RadioactiveDecay` with its constant
(sources/source.py:24-33, sources/radioactive_decay.py:18-35). -/
inductive SrcValue (Ω : Type) where
  | given (f : Ω → ℝ)
  | decay (lam : ℝ)

/-- `Source`. `volumes` is `volume` made a list (mobile.py:190-193). -/
structure Src (Ω : Type) where
  value : SrcValue Ω
  volumes : List ℕ

/-- `source.value`, after `source.value = source.form(concentration)` for a `RadioactiveDecay`
(radioactive_decay.py:34-35, mobile.py:194-195, trap.py:206-207). -/
def Src.at (s : Src Ω) (conc : Ω → ℝ) (p : Ω) : ℝ :=
  match s.value with
  | .given f => f p
  | .decay lam => -lam * conc p

/-- `Trap` (trap.py:6-51) after `make_materials`. -/
structure Trap (Ω Γ : Type) (d : ℕ) where
  k_0 : Param
  E_k : Param
  p_0 : Param
  E_p : Param
  density : List (Ω → ℝ)
  materials : List Mat
  sol : Fld Ω Γ d
  prev : Fld Ω Γ d
  sources : List (Src Ω) := []

/-- The parameters of one (trap, material) pair (trap.py:158-169, mobile.py:146-157). -/
structure Kinetics (Ω : Type) where
  k : ℝ
  Ek : ℝ
  p : ℝ
  Ep : ℝ
  n : Ω → ℝ

/-- Choice of the parameters in the mobile equation (mobile.py:146-157).
Simplified: a list used as a number fails here, not at the multiplication. -/
def Trap.paramsMobile (trap : Trap Ω Γ d) (i : ℕ) : Except PyErr (Kinetics Ω) :=
  match trap.k_0 with
  | .list _ => do
    let k ← trap.k_0.index i
    let Ek ← trap.E_k.index i
    let p ← trap.p_0.index i
    let Ep ← trap.E_p.index i
    let n ← densityAt trap.density i
    .ok ⟨k, Ek, p, Ep, n⟩
  | .num _ => do
    let n ← densityAt trap.density 0
    let k ← trap.k_0.asNum
    let Ek ← trap.E_k.asNum
    let p ← trap.p_0.asNum
    let Ep ← trap.E_p.asNum
    .ok ⟨k, Ek, p, Ep, n⟩

/-- Choice of the parameters in the trap equation (trap.py:158-169). -/
def Trap.params (trap : Trap Ω Γ d) (i : ℕ) : Except PyErr (Kinetics Ω) :=
  match trap.k_0 with
  | .list _ => do
    let k ← trap.k_0.index i
    let Ek ← trap.E_k.index i
    let p ← trap.p_0.index i
    let Ep ← trap.E_p.index i
    let n ← densityAt trap.density i
    .ok ⟨k, Ek, p, Ep, n⟩
  | .num _ => do
    let n ← densityAt trap.density 0
    let k ← trap.k_0.asNum
    let Ek ← trap.E_k.asNum
    let p ← trap.p_0.asNum
    let Ep ← trap.E_p.asNum
    .ok ⟨k, Ek, p, Ep, n⟩

/-- Diffusion, transient and Soret terms of one subdomain (mobile.py:78-139). -/
noncomputable def subdomainForm (mesh : Mesh Ω Γ d) (mat : Mat) (c0 c0n : Fld Ω Γ d)
    (T : Temp Ω Γ d) (dt : Option ℝ) (soret : Bool) (v : Fld Ω Γ d) (sub : ℕ) : Form Ω Γ :=
  let D : Ω → ℝ := fun p => mat.D_0 * Real.exp (-mat.E_D / kB / T.T.val p)
  let Q : Ω → ℝ := fun p => mat.Q (T.T.val p)
  let r := mesh.r
  (match dt with
    | some h => [.dxOn [sub] fun p => (c0.val p - c0n.val p) / h * v.val p]
    | none => []) ++
  match mesh.type with
  | .cartesian =>
    [.dxOn [sub] fun p => dot (fun i => D p * c0.grad p i) (v.grad p)] ++
    (if soret then
      [.dxOn [sub] fun p =>
        dot (fun i => D p * Q p * c0.val p / (kB * T.T.val p ^ 2) * T.T.grad p i) (v.grad p)]
     else [])
  | .cylindrical =>
    [.dxOn [sub] fun p => r.val p * dot (fun i => D p * c0.grad p i) ((v / r).grad p)] ++
    (if soret then
      [.dxOn [sub] fun p => r.val p *
        dot (fun i => D p * Q p * c0.val p / (kB * T.T.val p ^ 2) * T.T.grad p i)
          ((v / r).grad p)]
     else [])
  | .spherical =>
    [.dxOn [sub] fun p => D p * r.val p * r.val p * dot (c0.grad p) ((v / r / r).grad p)] ++
    (if soret then
      [.dxOn [sub] fun p => D p * r.val p * r.val p *
        dot (fun i => Q p * c0.val p / (kB * T.T.val p ^ 2) * T.T.grad p i)
          ((v / r / r).grad p)]
     else [])
  | .other => []

/-- Trapping terms of one trap in the mobile equation (mobile.py:145-173), from the `i`-th material
on. -/
noncomputable def mobileTrapLoop (mv : Mobile Ω Γ d) (T : Temp Ω Γ d) (trap : Trap Ω Γ d)
    (v : Fld Ω Γ d) : ℕ → List Mat → Except PyErr (Form Ω Γ)
  | _, [] => .ok []
  | i, mat :: rest => do
    let P ← trap.paramsMobile i
    let c := (mv.conc mat T).1
    let F ← mobileTrapLoop mv T trap v (i + 1) rest
    .ok ([.dxOn mat.ids fun p =>
            -P.k * Real.exp (-P.Ek / kB / T.T.val p) * c.val p * (P.n p - trap.sol.val p) * v.val p,
          .dxOn mat.ids fun p =>
            P.p * Real.exp (-P.Ep / kB / T.T.val p) * trap.sol.val p * v.val p] ++ F)

/-- `F_trapping` of the mobile equation (mobile.py:142-173). -/
noncomputable def mobileTraps (mv : Mobile Ω Γ d) (T : Temp Ω Γ d) (v : Fld Ω Γ d) :
    List (Trap Ω Γ d) → Except PyErr (Form Ω Γ)
  | [] => .ok []
  | trap :: rest => do
    let F ← mobileTrapLoop mv T trap v 0 trap.materials
    let G ← mobileTraps mv T v rest
    .ok (F ++ G)

/-- `Mobile.create_diffusion_form` (mobile.py:50-177). -/
noncomputable def diffusionForm (mesh : Mesh Ω Γ d) (mats : List Mat) (mv : Mobile Ω Γ d)
    (T : Temp Ω Γ d) (dt : Option ℝ) (traps : List (Trap Ω Γ d)) (soret : Bool)
    (v : Fld Ω Γ d) : Except PyErr (Form Ω Γ) := do
  let Ftrap ← mobileTraps mv T v traps
  .ok ((mats.flatMap fun mat =>
      mat.ids.flatMap fun sub =>
        subdomainForm mesh mat (mv.conc mat T).1 (mv.conc mat T).2 T dt soret v sub)
    ++ Form.neg Ftrap)

/-- `Mobile.create_source_form` (mobile.py:179-204). -/
def sourceForm (mesh : Mesh Ω Γ d) (mats : List Mat) (mv : Mobile Ω Γ d) (sources : List (Src Ω))
    (v : Fld Ω Γ d) : Form Ω Γ :=
  sources.flatMap fun s =>
    s.volumes.map fun vol => .dxOn [vol] fun p => -s.at (mv.mobileConc mesh mats) p * v.val p

/-- The flux conditions with a `form` which is a flux (fluxes/flux_bc.py, recombination_flux.py,
dissociation_flux.py, mass_flux.py, convective_flux.py, flux_custom.py).  Parameters are given by
their values at the boundary points
(flux_bc.py:23-32, recombination_flux.py:26-32, dissociation_flux.py:26-33, mass_flux.py:25-30,
convective_flux.py:22-27, flux_custom.py:32-34). -/
inductive Flux (Γ : Type) where
  | value (f : Γ → ℝ)
  | recomb (Kr_0 E_Kr : Γ → ℝ) (order : ℝ)
  | dissoc (Kd_0 E_Kd P : Γ → ℝ)
  | mass (h c_ext : Γ → ℝ)
  | convective (h T_ext : Γ → ℝ)
  | custom (f : Γ → ℝ → ℝ → ℝ)

/-- `create_form(T, solute)` (flux_bc.py:23-32, recombination_flux.py:26-32,
dissociation_flux.py:26-33, mass_flux.py:25-30, convective_flux.py:22-27, flux_custom.py:32-34). -/
noncomputable def Flux.form (f : Flux Γ) (T solute : Γ → ℝ) (q : Γ) : ℝ :=
  match f with
  | .value g => g q
  | .recomb Kr_0 E_Kr order =>
    -(Kr_0 q * Real.exp (-E_Kr q / kB / T q)) * solute q ^ order
  | .dissoc Kd_0 E_Kd P => Kd_0 q * Real.exp (-E_Kd q / kB / T q) * P q
  | .mass h c_ext => -h q * (solute q - c_ext q)
  | .convective h T_ext => -h q * (T q - T_ext q)
  | .custom g => g q (T q) (solute q)

/-- One surface of a `SurfaceKinetics`: its id, the adsorbed concentration (a real number: an element
of the "R" space) and the previous one (surface_kinetics.py:110-113). -/
structure SKSurf where
  id : ℕ
  sol : ℝ
  prev : ℝ

/-- `SurfaceKinetics` (surface_kinetics.py:86-113).  The rates are functions of temperature, adsorbed
and mobile concentration at a point (a number is a constant function). -/
structure SK (Γ : Type) where
  k_sb : Γ → ℝ → ℝ → ℝ → ℝ
  k_bs : Γ → ℝ → ℝ → ℝ → ℝ
  J_vs : Γ → ℝ → ℝ → ℝ → ℝ
  lambda_IS : ℝ
  n_surf : ℝ
  n_IS : ℝ
  surfaces : List SKSurf

/-- `J_sb` (surface_kinetics.py:140-142, 147). -/
noncomputable def SK.Jsb (b : SK Γ) (T solute : Γ → ℝ) (cs : ℝ) (q : Γ) : ℝ :=
  b.k_sb q (T q) cs (solute q) * cs * (1 - solute q / b.n_IS)

/-- `J_bs` (surface_kinetics.py:143-145, 148). -/
noncomputable def SK.Jbs (b : SK Γ) (T solute : Γ → ℝ) (cs : ℝ) (q : Γ) : ℝ :=
  b.k_bs q (T q) cs (solute q) * solute q * (1 - cs / b.n_surf)

/-- One iteration of the loop of `SurfaceKinetics.create_form` (surface_kinetics.py:135-168); `vs` is
the test function of this surface. -/
noncomputable def SK.surfForm (b : SK Γ) (solute solutePrev vtr T : Γ → ℝ) (dt : Option ℝ)
    (s : SKSurf) (vs : ℝ) : Form Ω Γ :=
  (match dt with
    | some h => [.ds s.id fun _ => (s.sol - s.prev) / h * vs,
        .ds s.id fun q => b.lambda_IS * (solute q - solutePrev q) / h * vtr q]
    | none => []) ++
  [.ds s.id fun q =>
      -(b.J_vs q (T q) s.sol (solute q) + b.Jbs T solute s.sol q - b.Jsb T solute s.sol q) * vs,
    .ds s.id fun q => (b.Jbs T solute s.sol q - b.Jsb T solute s.sol q) * vtr q]

/-- `SurfaceKinetics.create_form` (surface_kinetics.py:115-170).  `vs` are the test functions of the
surfaces in order. -/
noncomputable def SK.form (b : SK Γ) (solute solutePrev vtr T : Γ → ℝ) (dt : Option ℝ)
    (vs : List ℝ) : Form Ω Γ :=
  (b.surfaces.zip vs).flatMap fun p => b.surfForm solute solutePrev vtr T dt p.1 p.2

/-- A flux condition of the mobile equation; a `SurfaceKinetics` comes with the test functions of its
surfaces (mobile.py:216-232). -/
inductive MobBC (Γ : Type) where
  | flux (f : Flux Γ) (surfaces : List ℕ)
  | sk (b : SK Γ) (vs : List ℝ)

/-- One iteration of `Mobile.create_fluxes_form` (mobile.py:216-234).  The previous mobile value
handed to `SurfaceKinetics` is `self.previous_solution`. -/
noncomputable def MobBC.form (mesh : Mesh Ω Γ d) (mats : List Mat) (mv : Mobile Ω Γ d)
    (T : Temp Ω Γ d) (dt : Option ℝ) (v : Fld Ω Γ d) : MobBC Γ → Form Ω Γ
  | .flux f surfaces =>
    surfaces.map fun s =>
      .ds s fun q => -v.tr q * f.form T.T.tr (mv.mobileConcS mesh mats) q
  | .sk b vs => b.form (mv.mobileConcS mesh mats) mv.prev.tr v.tr T.T.tr dt vs

/-- `Mobile.create_fluxes_form` (mobile.py:206-238). -/
noncomputable def fluxesForm (mesh : Mesh Ω Γ d) (mats : List Mat) (mv : Mobile Ω Γ d)
    (T : Temp Ω Γ d) (dt : Option ℝ) (bcs : List (MobBC Γ)) (v : Fld Ω Γ d) : Form Ω Γ :=
  bcs.flatMap (MobBC.form mesh mats mv T dt v)

/-- `Mobile.create_form` (mobile.py:31-48). -/
noncomputable def mobileForm (mesh : Mesh Ω Γ d) (mats : List Mat) (mv : Mobile Ω Γ d)
    (T : Temp Ω Γ d) (dt : Option ℝ) (traps : List (Trap Ω Γ d)) (soret : Bool)
    (sources : List (Src Ω)) (bcs : List (MobBC Γ)) (v : Fld Ω Γ d) :
    Except PyErr (Form Ω Γ) := do
  let F ← diffusionForm mesh mats mv T dt traps soret v
  .ok (F ++ sourceForm mesh mats mv sources v ++ fluxesForm mesh mats mv T dt bcs v)

/-- The loop over the materials of a trap (trap.py:157-193), from the `i`-th material on. -/
noncomputable def trapLoop (mv : Mobile Ω Γ d) (T : Temp Ω Γ d) (trap : Trap Ω Γ d)
    (v : Fld Ω Γ d) : ℕ → List Mat → Except PyErr (Form Ω Γ)
  | _, [] => .ok []
  | i, mat :: rest => do
    let P ← trap.params i
    if mv.theta = true ∧ mat.law = .henry then
      .error (.notImplementedError "Henry law of solubility is not implemented with traps")
    else do
      let c := (mv.conc mat T).1
      let F ← trapLoop mv T trap v (i + 1) rest
      .ok ([.dxOn mat.ids fun p =>
              -P.k * Real.exp (-P.Ek / kB / T.T.val p) * c.val p * (P.n p - trap.sol.val p)
                * v.val p,
            .dxOn mat.ids fun p =>
              P.p * Real.exp (-P.Ep / kB / T.T.val p) * trap.sol.val p * v.val p] ++ F)

/-- `Trap.create_trapping_form` (trap.py:125-197). -/
noncomputable def trappingForm (mats : List Mat) (mv : Mobile Ω Γ d) (T : Temp Ω Γ d)
    (dt : Option ℝ) (trap : Trap Ω Γ d) (v : Fld Ω Γ d) : Except PyErr (Form Ω Γ) := do
  let F ← trapLoop mv T trap v 0 trap.materials
  .ok ((match dt with
      | some h => [.dx fun p => (trap.sol.val p - trap.prev.val p) / h * v.val p]
      | none =>
        (mats.filter fun mat => mat.uid ∉ trap.materials.map (·.uid)).map fun mat =>
          .dxOn mat.ids fun p => trap.sol.val p * v.val p)
    ++ F)

/-- `Trap.create_source_form` (trap.py:199-211). -/
def trapSourceForm (trap : Trap Ω Γ d) (v : Fld Ω Γ d) : Form Ω Γ :=
  trap.sources.map fun s => .dxOn s.volumes fun p => -s.at trap.sol.val p * v.val p

/-- `Trap.create_form` (trap.py:108-123). -/
noncomputable def trapForm (mats : List Mat) (mv : Mobile Ω Γ d) (T : Temp Ω Γ d) (dt : Option ℝ)
    (trap : Trap Ω Γ d) (v : Fld Ω Γ d) : Except PyErr (Form Ω Γ) := do
  let F ← trappingForm mats mv T dt trap v
  .ok (F ++ trapSourceForm trap v)

/-- `Traps.create_forms` (traps.py:52-57); every trap comes with its test function. -/
noncomputable def trapsForm (mats : List Mat) (mv : Mobile Ω Γ d) (T : Temp Ω Γ d)
    (dt : Option ℝ) : List (Trap Ω Γ d × Fld Ω Γ d) → Except PyErr (Form Ω Γ)
  | [] => .ok []
  | p :: rest => do
    let F ← trapForm mats mv T dt p.1 p.2
    let G ← trapsForm mats mv T dt rest
    .ok (F ++ G)

/-- Everything `HTransportProblem.define_variational_problem` is given (h_transport_problem.py:249-278). -/
structure Problem (Ω Γ : Type) (d : ℕ) where
  mesh : Mesh Ω Γ d
  mats : List Mat
  mv : Mobile Ω Γ d
  T : Temp Ω Γ d
  dt : Option ℝ
  soret : Bool
  sources : List (Src Ω)
  traps : List (Trap Ω Γ d)

/-- `HTransportProblem.define_variational_problem` (h_transport_problem.py:249-278), with the test
functions: `v` for the solute, one per trap, one per surface of the `SurfaceKinetics` (inside
`bcs`). -/
noncomputable def Problem.form (P : Problem Ω Γ d) (bcs : List (MobBC Γ)) (v : Fld Ω Γ d)
    (vt : List (Fld Ω Γ d)) : Except PyErr (Form Ω Γ) := do
  let F ← mobileForm P.mesh P.mats P.mv P.T P.dt P.traps P.soret P.sources bcs v
  let G ← trapsForm P.mats P.mv P.T P.dt (P.traps.zip vt)
  .ok (F ++ G)

/-- `ExtrinsicTrap.create_form_density` (extrinsic_trap.py:132-161), parameters given by their values
at the points. -/
structure Extrinsic (Ω : Type) where
  phi_0 : Ω → ℝ
  n_amax : Ω → ℝ
  n_bmax : Ω → ℝ
  eta_a : Ω → ℝ
  eta_b : Ω → ℝ
  f_a : Ω → ℝ
  f_b : Ω → ℝ

/-- See `Extrinsic` (extrinsic_trap.py:146-161). -/
noncomputable def Extrinsic.form (e : Extrinsic Ω) (dt : ℝ) (n prev v : Ω → ℝ) : Form Ω Γ :=
  [.dx fun p => (n p - prev p) / dt * v p,
   .dx fun p => -e.phi_0 p *
      ((1 - n p / e.n_amax p) * e.eta_a p * e.f_a p + (1 - n p / e.n_bmax p) * e.eta_b p * e.f_b p)
      * v p]

/-- `NeutronInducedTrap.create_form_density` (neutron_induced_trap.py:61-94). -/
structure Neutron (Ω : Type) where
  phi : Ω → ℝ
  K : Ω → ℝ
  n_max : Ω → ℝ
  A_0 : Ω → ℝ
  E_A : Ω → ℝ

/-- See `Neutron` (neutron_induced_trap.py:61-94). -/
noncomputable def Neutron.form (e : Neutron Ω) (T : Ω → ℝ) (dt : ℝ) (n prev v : Ω → ℝ) :
    Form Ω Γ :=
  [.dx fun p => (n p - prev p) / dt * v p,
   .dx fun p => -e.phi p * e.K p * (1 - n p / e.n_max p) * v p,
   .dx fun p => e.A_0 p * Real.exp (-e.E_A p / (kB * T p)) * n p * v p]

/-- The heat form (temperature_solver.py:150-224): `T` is the unknown, `Tn` the previous one. -/
noncomputable def heatSubdomain (mesh : Mesh Ω Γ d) (mat : Mat) (T : Temp Ω Γ d)
    (v : Fld Ω Γ d) (vol : ℕ) : Form Ω Γ :=
  let cond : Ω → ℝ := fun p => mat.cond (T.T.val p)
  let r := mesh.r
  match mesh.type with
  | .cartesian => [.dxOn [vol] fun p => dot (fun i => cond p * T.T.grad p i) (v.grad p)]
  | .cylindrical =>
    [.dxOn [vol] fun p => r.val p * dot (fun i => cond p * T.T.grad p i) ((v / r).grad p)]
  | .spherical =>
    [.dxOn [vol] fun p => cond p * r.val p * r.val p * dot (T.T.grad p) ((v / r / r).grad p)]
  | .other => []

/-- `define_variational_problem` (temperature_solver.py:164-224).  `transient` gives the step
(`dt.value`), steady is `none`; a source is its value with its volumes. -/
noncomputable def heatForm (mesh : Mesh Ω Γ d) (mats : List Mat) (T : Temp Ω Γ d)
    (transient : Option ℝ) (sources : List ((Ω → ℝ) × List ℕ)) (bcs : List (Flux Γ × List ℕ))
    (v : Fld Ω Γ d) : Form Ω Γ :=
  (mats.flatMap fun mat =>
    (match transient with
      | some h => mat.ids.map fun vol => .dxOn [vol] fun p =>
          mat.rho (T.T.val p) * mat.cp (T.T.val p) * (T.T.val p - T.Tn.val p) / h * v.val p
      | none => []) ++
    mat.ids.flatMap (heatSubdomain mesh mat T v)) ++
  (sources.flatMap fun s =>
    s.2.map fun vol => .dxOn [vol] fun p => -s.1 p * v.val p) ++
  bcs.flatMap fun b =>
    b.2.map fun s => .ds s fun q => -b.1.form T.T.tr (fun _ => 0) q * v.tr q

end

end Festim.Weak
