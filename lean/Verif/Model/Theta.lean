import Verif.Model.Forms
import Mathlib.Analysis.SpecialFunctions.Pow.NNReal

/-!
# Conservation of the chemical potential and imposed concentrations

festim/concentration/theta.py, festim/materials/materials.py:274-388,
festim/boundary_conditions/dirichlets/*.py.

Simplifications, besides those of `Verif.Model.Forms`:
* a `UserExpression` (`ArheniusCoeff`, `ThermalProp`, `BoundaryConditionTheta`,
  `BoundaryConditionExpression`) has its exact value at the quadrature points; FEniCS interpolates it
  in each cell with polynomials of degree 2;
* `x ** 0.5` is the real power; for a negative `x` Python would give a complex number or `nan`;
* `f.solve(F == 0, u)` is modelled by its outcome: `F` vanishes for all the test functions of the
  space (and `u` belongs to the space).
-/

open scoped BigOperators

namespace Festim.Weak

/-- `DOLFIN_EPS` (h_transport_problem.py:229). -/
noncomputable def dolfinEps : ℝ := 3e-16

/-- `find_material_from_id` (materials.py:188-206). -/
def findMat : List Mat → ℕ → Except PyErr Mat
  | [], _ => .error (.valueError "Couldn't find ID")
  | m :: ms, i => if i ∈ m.ids then .ok m else findMat ms i

/-- `ArheniusCoeff.eval_cell` (materials.py:357-363) in a cell marked `i` where the temperature is
`T`. -/
noncomputable def arrheniusCoeff (mats : List Mat) (pre E : Mat → ℝ) (i : ℕ) (T : ℝ) :
    Except PyErr ℝ :=
  match findMat mats i with
  | .error e => .error e
  | .ok m => .ok (pre m * Real.exp (-E m / kB / T))

/-- `ThermalProp.eval_cell` (materials.py:377-385). -/
def thermalProp (mats : List Mat) (key : Mat → ℝ → ℝ) (i : ℕ) (T : ℝ) : Except PyErr ℝ :=
  match findMat mats i with
  | .error e => .error e
  | .ok m => .ok (key m T)

section
variable {Ω Γ : Type} {d : ℕ}

/-- The form solved by `Theta.initialise` (theta.py:33-40): `comp` is the given concentration, `u`
the unknown `prev_sol`, `T` the values of `self.T.T`. -/
noncomputable def thetaInitForm (mats : List Mat) (T comp u v : Ω → ℝ) : Form Ω Γ :=
  mats.flatMap fun mat =>
    let S : Ω → ℝ := fun p => mat.S_0 * Real.exp (-mat.E_S / kB / T p)
    [.dxOn mat.ids fun p => -u p * v p] ++
    match mat.law with
    | .sievert => [.dxOn mat.ids fun p => comp p / S p * v p]
    | .henry => [.dxOn mat.ids fun p => (comp p / S p) ^ (0.5 : ℝ) * v p]

/-- The form solved by `Materials.solubility_as_function` (materials.py:299-303). -/
noncomputable def solubilityForm (mats : List Mat) (T S v : Ω → ℝ) : Form Ω Γ :=
  mats.flatMap fun mat =>
    [.dxOn mat.ids fun p => -S p * v p,
     .dxOn mat.ids fun p => mat.S_0 * Real.exp (-mat.E_S / kB / T p) * v p]

/-- One of the two forms solved by `Materials.create_solubility_law_markers`
(materials.py:323-338). -/
def markerForm (mats : List Mat) (law : Law) (u v : Ω → ℝ) : Form Ω Γ :=
  [.dx fun p => -u p * v p] ++
  mats.flatMap fun mat =>
    mat.ids.flatMap fun i => if mat.law = law then [.dxOn [i] fun p => 1 * v p] else []

/-- `Theta.create_form_post_processing` (theta.py:100-121); `c` is the trial function. -/
def postForm (mats : List Mat) (mv : Mobile Ω Γ d) (c v : Ω → ℝ) : Form Ω Γ :=
  [.dx fun p => -c p * v p] ++
  mats.flatMap fun mat =>
    match mat.law with
    | .sievert => [.dxOn mat.ids fun p => mv.sol.val p * mv.S.val p * v p]
    | .henry => [.dxOn mat.ids fun p => mv.sol.val p ^ 2 * mv.S.val p * v p]

end

/-- `BoundaryConditionTheta.eval_cell` (dirichlet_bc.py:115-126) at a boundary point of a cell marked
`i` where the temperature is `T` and the given concentration `c`. -/
noncomputable def bcTheta (mats : List Mat) (i : ℕ) (T c : ℝ) : Except PyErr ℝ :=
  match findMat mats i with
  | .error e => .error e
  | .ok mat =>
    let S := mat.S_0 * Real.exp (-mat.E_S / kB / T)
    match mat.law with
    | .sievert => .ok (c / S)
    | .henry => .ok ((c / S + dolfinEps) ^ (0.5 : ℝ))

/-- The conditions which impose a value (dirichlets/*.py); parameters are given by their values at
the boundary points
(dirichlet_bc.py:23-33, custom_dc.py:35-42, sieverts_bc.py:27-37, henrys_bc.py:27-37, dc_imp.py:71-95). -/
inductive Dirichlet (Γ : Type) where
  | value (f : Γ → ℝ)
  | custom (f : Γ → ℝ → ℝ)
  | sieverts (S_0 E_S : ℝ) (pressure : Γ → ℝ)
  | henrys (H_0 E_H : ℝ) (pressure : Γ → ℝ)
  | implantation (phi R_p : Γ → ℝ) (D_0 E_D : ℝ) (Kr_0 E_Kr Kd_0 E_Kd : Option ℝ)
      (P : Option (Γ → ℝ))

/-- Use of an optional number in an expression (dc_imp.py:6-17). -/
def optNum : Option ℝ → Except PyErr ℝ
  | some x => .ok x
  | none => .error (.typeError "bad operand type for unary -: 'NoneType'")

/-- `dc_imp` (dc_imp.py:6-17). -/
noncomputable def dcImp (T phi R_p D_0 E_D : ℝ) (Kr_0 E_Kr Kd_0 E_Kd P : Option ℝ) :
    Except PyErr ℝ :=
  let D := D_0 * Real.exp (-E_D / kB / T)
  let value := phi * R_p / D
  match Kr_0 with
  | none => .ok value
  | some k =>
    match optNum E_Kr with
    | .error e => .error e
    | .ok e =>
      let Kr := k * Real.exp (-e / kB / T)
      match Kd_0 with
      | none => .ok (value + (phi / Kr) ^ (0.5 : ℝ))
      | some kd =>
        match optNum E_Kd, optNum P with
        | .error e, _ => .error e
        | _, .error e => .error e
        | .ok ed, .ok P =>
          let Kd := kd * Real.exp (-ed / kB / T)
          .ok (value + ((phi + Kd * P) / Kr) ^ (0.5 : ℝ))

/-- The value of `self.expression` after `create_expression` at a point where the temperature is `T`
(dirichlet_bc.py:23-33, custom_dc.py:35-42, sieverts_bc.py:6-8, 27-37, henrys_bc.py:6-8, 27-37,
dc_imp.py:71-95, dirichlet_bc.py:147-160). -/
noncomputable def Dirichlet.at {Γ : Type} (b : Dirichlet Γ) (T : ℝ) (q : Γ) : Except PyErr ℝ :=
  match b with
  | .value f => .ok (f q)
  | .custom f => .ok (f q T)
  | .sieverts S_0 E_S p => .ok (S_0 * Real.exp (-E_S / kB / T) * p q ^ (0.5 : ℝ))
  | .henrys H_0 E_H p => .ok (H_0 * Real.exp (-E_H / kB / T) * p q)
  | .implantation phi R_p D_0 E_D Kr_0 E_Kr Kd_0 E_Kd P =>
    dcImp T (phi q) (R_p q) D_0 E_D Kr_0 E_Kr Kd_0 E_Kd (P.map fun f => f q)

/-- The value imposed on the unknown after `create_dirichletbc` (dirichlet_bc.py:35-92).  `mobile`:
the field is in `mobile_fields`.  For a `CustomDirichlet`, `sub_expressions` is a `dict_values`,
which has no `append` (custom_dc.py:42, dirichlet_bc.py:47). -/
noncomputable def Dirichlet.imposed {Γ : Type} (b : Dirichlet Γ) (mats : List Mat)
    (chemicalPot mobile : Bool) (vmS : Γ → ℕ) (T : Γ → ℝ) (q : Γ) : Except PyErr ℝ :=
  if mobile && chemicalPot then
    match b with
    | .custom _ => .error (.attributeError "'dict_values' object has no attribute 'append'")
    | b =>
      match b.at (T q) q with
      | .error e => .error e
      | .ok c => bcTheta mats (vmS q) (T q) c
  else b.at (T q) q

end Festim.Weak
