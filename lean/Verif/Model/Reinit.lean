import Verif.Model.Registry

/-!
# Initialising again

What a call of `Simulation.initialise` does to objects which have been through a run before.

Expression objects are of two kinds.  Those made in a constructor live as long as the object of the user and
keep their attribute `t` (source.py:28-31, trap.py:87-107, flux_custom.py:36-42, custom_dc.py:44-50,
surface_kinetics.py:172-178).  Those made in `create_form` or `create_expression` are made again with `t=0`
by each call (flux_bc.py:31, recombination_flux.py:27-28, dissociation_flux.py:27-29, mass_flux.py:26-27,
convective_flux.py:23-24, dirichlet_bc.py:29-30, sieverts_bc.py:28, henrys_bc.py:28, dc_imp.py:72-76); the
new object is given here the number of the one it replaces.

`HeatTransferProblem.create_functions` writes a fenics `Expression` over the value of its initial
condition (temperature_solver.py:125-127).
-/

namespace Festim.Weak

section
variable {Ω Γ : Type} {d : ℕ}

/-- The objects made by `create_form`
(flux_bc.py:23-32, recombination_flux.py:26-32, dissociation_flux.py:26-33, mass_flux.py:25-30,
convective_flux.py:22-27, flux_custom.py:32-42). -/
def TFlux.made : TFlux Γ → List ℕ
  | .value f => f.ids
  | .recomb K E _ => K.ids ++ E.ids
  | .dissoc K E P => K.ids ++ E.ids ++ P.ids
  | .mass h c => h.ids ++ c.ids
  | .convective h T => h.ids ++ T.ids
  | .custom _ _ => []

/-- The objects made by `create_form` of a condition on the mobile concentration (mobile.py:216-234). -/
def TMobBC.made : TMobBC Γ → List ℕ
  | .flux f _ => f.made
  | .sk _ _ => []

/-- The objects made by `create_expression`
(dirichlet_bc.py:23-33, custom_dc.py:35-50, sieverts_bc.py:27-37, henrys_bc.py:27-37, dc_imp.py:71-95). -/
def TDirichlet.made : TDirichlet Γ → List ℕ
  | .value f => f.ids
  | .custom _ _ => []
  | .sieverts _ _ p => p.ids
  | .henrys _ _ p => p.ids
  | .implantation phi R_p _ _ _ _ _ _ P =>
    phi.ids ++ R_p.ids ++ (match P with | some P => P.ids | none => [])

/-- The objects made by `HTransportProblem.initialise` (h_transport_problem.py:88, 103, 108). -/
def TProblem.made (P : TProblem Ω Γ d) : List ℕ :=
  P.bcs.flatMap TMobBC.made ++ P.dirichlet.flatMap TDirichlet.made

/-- The attributes `t` after `initialise`, given those before (`t=0` in helpers.py:27, 44). -/
def TProblem.reinit (P : TProblem Ω Γ d) (env : ℕ → ℚ) : ℕ → ℚ := fun i =>
  if i ∈ P.made then 0 else env i

end

end Festim.Weak

namespace Festim

/-- `initial_condition.value` of a `HeatTransferProblem`: a number or a sympy expression (given by its
interpolation at `t=0`), the name of an XDMF file (given by the field read), another string, or a fenics
`Expression` left by an earlier call (temperature_solver.py:88-92, 115-127). -/
inductive ICValue (F : Type) where
  | sympy (T : F)
  | xdmf (T : F)
  | otherString
  | fenics (T : F)

/-- `create_functions` of a transient `HeatTransferProblem` up to the forms (temperature_solver.py:105-127):
`T` and `T_n`, and the value the initial condition is left with.  `sp.printing.ccode` cannot print a fenics
`Expression`: depending on the version of sympy this raises there, or gives the name of the Python object, which
does not compile; the class of the exception is not modelled. -/
def createTransientHeat {F : Type} (zero : F) :
    Option (ICValue F) → Except PyErr (TempState F × Option (ICValue F))
  | none => .error (.attributeError
      "Initial condition is required for transient heat transfer simulations")
  | some (.sympy T) => .ok (⟨zero, T⟩, some (.fenics T))
  | some (.xdmf T) => .ok (⟨zero, T⟩, some (.xdmf T))
  | some .otherString => .ok (⟨zero, zero⟩, some .otherString)
  | some (.fenics _) => .error (.runtimeError "ccode of a fenics Expression")

/-- Calls of `initialise` one after the other; after an exception the program goes on with the value the
condition has then.  Returns the outcome of each call (temperature_solver.py:111-127). -/
def initialiseTimes {F : Type} (zero : F) : ℕ → Option (ICValue F) → List (Except PyErr (TempState F))
  | 0, _ => []
  | n + 1, ic =>
    match createTransientHeat zero ic with
    | .error e => .error e :: initialiseTimes zero n ic
    | .ok (s, ic') => .ok s :: initialiseTimes zero n ic'

end Festim
