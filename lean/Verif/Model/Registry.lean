import Verif.Model.Theta
import Verif.Model.Temperature

/-!
# Time-dependent data and the list of expressions which are updated

Everything the user can make depend on time, as `fenics.Expression` objects whose attribute `t` is
`env id`, with the lists `sub_expressions` built while the forms are created:
festim/concentration/mobile.py:179-238, festim/concentration/traps/trap.py:143-211,
festim/concentration/traps/traps.py:52-88, festim/boundary_conditions/*/*.py,
festim/h_transport_problem.py:262-278, 304-321, festim/temperature/temperature_solver.py:205-253.

`now env` gives the objects of `Verif.Model.Forms` and `Verif.Model.Theta` with the values of the
expressions; the rates and the custom functions of the user take the values of their parameters.
Not in the lists here: the objects without time (`fenics.Constant`, `fenics.Function`) and the
`UserExpression` wrappers `BoundaryConditionTheta`, `BoundaryConditionExpression`, whose attribute `t`
is set but not used.
-/

namespace Festim.Weak

/-- A value in a form: a `fenics.Expression` (an object `id` with attribute `t`), or an object that
does not depend on time (helpers.py:20-44). -/
inductive TVal (A : Type) where
  | expr (id : ℕ) (f : ℚ → A)
  | fixed (a : A)

/-- Its value when the attributes `t` are `env` (helpers.py:7-17). -/
def TVal.now {A : Type} (env : ℕ → ℚ) : TVal A → A
  | .expr id f => f (env id)
  | .fixed a => a

/-- The expression objects of a list of values (the lists `sub_expressions`, e.g. flux_bc.py:23-32). -/
def TVal.ids {A : Type} : TVal A → List ℕ
  | .expr id _ => [id]
  | .fixed _ => []

/-- Flux conditions with their parameters
(flux_bc.py:23-32, recombination_flux.py:26-32, dissociation_flux.py:26-33, mass_flux.py:25-30,
convective_flux.py:22-27, flux_custom.py:32-42). -/
inductive TFlux (Γ : Type) where
  | value (f : TVal (Γ → ℝ))
  | recomb (Kr_0 E_Kr : TVal (Γ → ℝ)) (order : ℝ)
  | dissoc (Kd_0 E_Kd P : TVal (Γ → ℝ))
  | mass (h c_ext : TVal (Γ → ℝ))
  | convective (h T_ext : TVal (Γ → ℝ))
  | custom (prms : List (TVal (Γ → ℝ))) (f : List (Γ → ℝ) → Γ → ℝ → ℝ → ℝ)

section
variable {Ω Γ : Type} {d : ℕ}

/-- The condition when the attributes `t` are `env` (helpers.py:7-17 and the `create_form` of flux_bc.py:23-32, ...). -/
def TFlux.now (env : ℕ → ℚ) : TFlux Γ → Flux Γ
  | .value f => .value (f.now env)
  | .recomb K E order => .recomb (K.now env) (E.now env) order
  | .dissoc K E P => .dissoc (K.now env) (E.now env) (P.now env)
  | .mass h c => .mass (h.now env) (c.now env)
  | .convective h T => .convective (h.now env) (T.now env)
  | .custom prms f => .custom (f (prms.map (·.now env)))

/-- `sub_expressions` after `create_form` (flux_bc.py:32, recombination_flux.py:32,
dissociation_flux.py:33, mass_flux.py:30, convective_flux.py:27, flux_custom.py:34). -/
def TFlux.subs : TFlux Γ → List ℕ
  | .value f => f.ids
  | .recomb K E _ => K.ids ++ E.ids
  | .dissoc K E P => K.ids ++ E.ids ++ P.ids
  | .mass h c => h.ids ++ c.ids
  | .convective h T => h.ids ++ T.ids
  | .custom prms _ => prms.flatMap TVal.ids

/-- `SurfaceKinetics`: `k_sb`, `k_bs` and `J_vs` take the values of the parameters `prms`
(surface_kinetics.py:86-113). -/
structure TSK (Γ : Type) where
  prms : List (TVal (Γ → ℝ))
  k_sb : List (Γ → ℝ) → Γ → ℝ → ℝ → ℝ → ℝ
  k_bs : List (Γ → ℝ) → Γ → ℝ → ℝ → ℝ → ℝ
  J_vs : List (Γ → ℝ) → Γ → ℝ → ℝ → ℝ → ℝ
  lambda_IS : ℝ
  n_surf : ℝ
  n_IS : ℝ
  surfaces : List SKSurf

/-- The condition when the attributes `t` are `env` (helpers.py:7-17, surface_kinetics.py:115-170). -/
def TSK.now (env : ℕ → ℚ) (b : TSK Γ) : SK Γ :=
  let prms := b.prms.map (·.now env)
  ⟨b.k_sb prms, b.k_bs prms, b.J_vs prms, b.lambda_IS, b.n_surf, b.n_IS, b.surfaces⟩

/-- A flux condition on the mobile concentration, with its test functions (mobile.py:216-234). -/
inductive TMobBC (Γ : Type) where
  | flux (f : TFlux Γ) (surfaces : List ℕ)
  | sk (b : TSK Γ) (vs : List ℝ)

/-- The condition when the attributes `t` are `env` (helpers.py:7-17, mobile.py:216-234). -/
def TMobBC.now (env : ℕ → ℚ) : TMobBC Γ → MobBC Γ
  | .flux f surfaces => .flux (f.now env) surfaces
  | .sk b vs => .sk (b.now env) vs

/-- mobile.py:234, surface_kinetics.py:170. -/
def TMobBC.subs : TMobBC Γ → List ℕ
  | .flux f _ => f.subs
  | .sk b _ => b.prms.flatMap TVal.ids

/-- The conditions which impose a value
(dirichlet_bc.py:23-33, custom_dc.py:35-50, sieverts_bc.py:27-37, henrys_bc.py:27-37, dc_imp.py:71-95). -/
inductive TDirichlet (Γ : Type) where
  | value (f : TVal (Γ → ℝ))
  | custom (prms : List (TVal (Γ → ℝ))) (f : List (Γ → ℝ) → Γ → ℝ → ℝ)
  | sieverts (S_0 E_S : ℝ) (pressure : TVal (Γ → ℝ))
  | henrys (H_0 E_H : ℝ) (pressure : TVal (Γ → ℝ))
  | implantation (phi R_p : TVal (Γ → ℝ)) (D_0 E_D : ℝ) (Kr_0 E_Kr Kd_0 E_Kd : Option ℝ)
      (P : Option (TVal (Γ → ℝ)))

/-- The condition when the attributes `t` are `env` (helpers.py:7-17, dirichlet_bc.py:147-160). -/
def TDirichlet.now (env : ℕ → ℚ) : TDirichlet Γ → Dirichlet Γ
  | .value f => .value (f.now env)
  | .custom prms f => .custom (f (prms.map (·.now env)))
  | .sieverts S E p => .sieverts S E (p.now env)
  | .henrys H E p => .henrys H E (p.now env)
  | .implantation phi R_p D E Kr EKr Kd EKd P =>
    .implantation (phi.now env) (R_p.now env) D E Kr EKr Kd EKd (P.map (·.now env))

/-- `sub_expressions` after `create_expression`, and the expression itself when it is not a wrapper
(custom_dc.py:42, sieverts_bc.py:37, henrys_bc.py:37, dc_imp.py:74-77, 95, dirichlet_bc.py:33, 47;
h_transport_problem.py:320-321). -/
def TDirichlet.subs : TDirichlet Γ → List ℕ
  | .value f => f.ids
  | .custom prms _ => prms.flatMap TVal.ids
  | .sieverts _ _ p => p.ids
  | .henrys _ _ p => p.ids
  | .implantation phi R_p _ _ _ _ _ _ P =>
    phi.ids ++ R_p.ids ++ (match P with | some P => P.ids | none => [])

/-- A source: its value, or a decay constant (source.py:28-33, radioactive_decay.py:34-35). -/
inductive TSrcValue (Ω : Type) where
  | given (f : TVal (Ω → ℝ))
  | decay (lam : ℝ)

/-- A source with its volumes (source.py:24-33). -/
structure TSrc (Ω : Type) where
  value : TSrcValue Ω
  volumes : List ℕ

/-- The source when the attributes `t` are `env` (helpers.py:7-17, source.py:28-33). -/
def TSrc.now (env : ℕ → ℚ) (s : TSrc Ω) : Src Ω where
  value := match s.value with
    | .given f => .given (f.now env)
    | .decay lam => .decay lam
  volumes := s.volumes

/-- mobile.py:199-200, trap.py:210-211. -/
def TSrc.subs (s : TSrc Ω) : List ℕ :=
  match s.value with
  | .given f => f.ids
  | .decay _ => []

/-- A trap (trap.py:40-51, 87-106). -/
structure TTrap (Ω Γ : Type) (d : ℕ) where
  k_0 : Param
  E_k : Param
  p_0 : Param
  E_p : Param
  density : List (TVal (Ω → ℝ))
  materials : List Mat
  sol : Fld Ω Γ d
  prev : Fld Ω Γ d
  sources : List (TSrc Ω) := []

/-- The trap when the attributes `t` are `env` (helpers.py:7-17, trap.py:87-106). -/
def TTrap.now (env : ℕ → ℚ) (t : TTrap Ω Γ d) : Trap Ω Γ d where
  k_0 := t.k_0
  E_k := t.E_k
  p_0 := t.p_0
  E_p := t.E_p
  density := t.density.map (·.now env)
  materials := t.materials
  sol := t.sol
  prev := t.prev
  sources := t.sources.map (·.now env)

/-- The index of the density chosen for the `i`-th material (trap.py:158-169). -/
def TTrap.densityIndex (t : TTrap Ω Γ d) (i : ℕ) : ℕ :=
  match t.k_0 with
  | .list _ => i
  | .num _ => 0

/-- `sub_expressions` of a trap: one density per material, then the sources (trap.py:173, 197,
210-211). -/
def TTrap.subs (t : TTrap Ω Γ d) : List ℕ :=
  (List.range t.materials.length).flatMap (fun i =>
    match t.density[t.densityIndex i]? with
    | some n => n.ids
    | none => []) ++
  t.sources.flatMap TSrc.subs

/-- Everything `HTransportProblem` is given, with its time-dependent data.  `dirichlet` are the
conditions on the concentrations (h_transport_problem.py:309-310), `bcs` the flux conditions with
field `0` (h_transport_problem.py:300-302). -/
structure TProblem (Ω Γ : Type) (d : ℕ) where
  mesh : Mesh Ω Γ d
  mats : List Mat
  mv : Mobile Ω Γ d
  T : Temp Ω Γ d
  dt : Option ℝ
  soret : Bool
  sources : List (TSrc Ω)
  traps : List (TTrap Ω Γ d)
  bcs : List (TMobBC Γ)
  dirichlet : List (TDirichlet Γ)

/-- The problem when the attributes `t` are `env` (helpers.py:7-17, h_transport_problem.py:334). -/
def TProblem.now (env : ℕ → ℚ) (P : TProblem Ω Γ d) : Problem Ω Γ d where
  mesh := P.mesh
  mats := P.mats
  mv := P.mv
  T := P.T
  dt := P.dt
  soret := P.soret
  sources := P.sources.map (·.now env)
  traps := P.traps.map (·.now env)

/-- The residual of the hydrogen transport problem when the attributes `t` are `env`
(h_transport_problem.py:249-278, 334). -/
noncomputable def TProblem.form (P : TProblem Ω Γ d) (env : ℕ → ℚ) (v : Fld Ω Γ d)
    (vt : List (Fld Ω Γ d)) : Except PyErr (Form Ω Γ) :=
  (P.now env).form (P.bcs.map (·.now env)) v vt

/-- `HTransportProblem.expressions` after `initialise` (h_transport_problem.py:262-278, 320-321,
mobile.py:199-204, 234-238, traps.py:52-57). -/
def TProblem.expressions (P : TProblem Ω Γ d) : List ℕ :=
  P.sources.flatMap TSrc.subs ++ P.bcs.flatMap TMobBC.subs ++ P.traps.flatMap TTrap.subs ++
    P.dirichlet.flatMap TDirichlet.subs

/-- An `ExtrinsicTrap` with its parameters made expressions (extrinsic_trap.py); nothing of it is put
in a list of expressions (traps.py:73-88: `expressions_extrinsic` stays empty). -/
structure TExtrinsic (Ω : Type) where
  phi_0 : TVal (Ω → ℝ)
  n_amax : TVal (Ω → ℝ)
  n_bmax : TVal (Ω → ℝ)
  eta_a : TVal (Ω → ℝ)
  eta_b : TVal (Ω → ℝ)
  f_a : TVal (Ω → ℝ)
  f_b : TVal (Ω → ℝ)

/-- The trap when the attributes `t` are `env` (extrinsic_trap.py:53-54, 132-161). -/
def TExtrinsic.now (env : ℕ → ℚ) (e : TExtrinsic Ω) : Extrinsic Ω :=
  ⟨e.phi_0.now env, e.n_amax.now env, e.n_bmax.now env, e.eta_a.now env, e.eta_b.now env,
    e.f_a.now env, e.f_b.now env⟩

/-- The expressions used by an extrinsic trap (extrinsic_trap.py:53-54, 146-161). -/
def TExtrinsic.used (e : TExtrinsic Ω) : List ℕ :=
  e.phi_0.ids ++ e.n_amax.ids ++ e.n_bmax.ids ++ e.eta_a.ids ++ e.eta_b.ids ++ e.f_a.ids ++ e.f_b.ids

/-- A `NeutronInducedTrap` likewise (neutron_induced_trap.py:33-59). -/
structure TNeutron (Ω : Type) where
  phi : TVal (Ω → ℝ)
  K : TVal (Ω → ℝ)
  n_max : TVal (Ω → ℝ)
  A_0 : TVal (Ω → ℝ)
  E_A : TVal (Ω → ℝ)

/-- The trap when the attributes `t` are `env` (extrinsic_trap.py:53-54, neutron_induced_trap.py:61-94). -/
def TNeutron.now (env : ℕ → ℚ) (e : TNeutron Ω) : Neutron Ω :=
  ⟨e.phi.now env, e.K.now env, e.n_max.now env, e.A_0.now env, e.E_A.now env⟩

/-- The expressions used by a neutron induced trap (extrinsic_trap.py:53-54, neutron_induced_trap.py:61-94). -/
def TNeutron.used (e : TNeutron Ω) : List ℕ :=
  e.phi.ids ++ e.K.ids ++ e.n_max.ids ++ e.A_0.ids ++ e.E_A.ids

/-- The data of a `HeatTransferProblem` (temperature_solver.py:40-64). -/
structure THeat (Ω Γ : Type) (d : ℕ) where
  mesh : Mesh Ω Γ d
  mats : List Mat
  sources : List (TVal (Ω → ℝ) × List ℕ)
  bcs : List (TFlux Γ × List ℕ)
  dirichlet : List (TDirichlet Γ)

/-- The heat residual when the attributes `t` are `env` (temperature_solver.py:150-224). -/
noncomputable def THeat.form (h : THeat Ω Γ d) (env : ℕ → ℚ) (transient : Option ℝ)
    (T : Temp Ω Γ d) (v : Fld Ω Γ d) : Form Ω Γ :=
  heatForm h.mesh h.mats T transient (h.sources.map fun s => (s.1.now env, s.2))
    (h.bcs.map fun b => (b.1.now env, b.2)) v

/-- `HeatTransferProblem.sub_expressions` (temperature_solver.py:207, 221, 252-253). -/
def THeat.subs (h : THeat Ω Γ d) : List ℕ :=
  (h.sources.flatMap fun s => s.1.ids) ++ (h.bcs.flatMap fun b => b.1.subs) ++
    h.dirichlet.flatMap TDirichlet.subs

end

end Festim.Weak
