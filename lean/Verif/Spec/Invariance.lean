import Verif.Spec.Forms

/-!
# A change of units

Vocabulary of C106: the same physical problem written with other units of length, time and amount of hydrogen.
Energies (eV) and temperatures (K) keep their units, since `k_B` is a number in the code.
-/

namespace Festim.Weak

/-- Numerical factors: a length, a duration, a concentration and a volume of the domain, whose measures are `x` in the old
units, are `len * x`, `time * x`, `conc * x` and `vol * x` in the new ones.  (The volume of the domain is a length, an area or a
volume according to its dimension.) -/
structure Scaling where
  len : ℝ
  time : ℝ
  conc : ℝ
  vol : ℝ
  len_pos : 0 < len
  time_pos : 0 < time
  conc_pos : 0 < conc
  vol_pos : 0 < vol

namespace Scaling

variable {Ω Γ : Type} {d : ℕ} (U : Scaling)

/-- A field whose values are multiplied by `a`: its gradient is also divided by the unit of length. -/
noncomputable def fld (a : ℝ) (u : Fld Ω Γ d) : Fld Ω Γ d :=
  ⟨fun p => a * u.val p, fun p i => a / U.len * u.grad p i, fun q => a * u.tr q⟩

noncomputable def mesh (m : Mesh Ω Γ d) : Mesh Ω Γ d :=
  { m with w := fun p => U.vol * m.w p, ws := fun q => U.vol / U.len * m.ws q, r := U.fld U.len m.r }

/-- Diffusivities are in m²/s, solubilities in H/m³/Pa^(1/2) or H/m³/Pa. -/
noncomputable def mat (a : Mat) : Mat :=
  { a with D_0 := U.len ^ 2 / U.time * a.D_0, S_0 := U.conc * a.S_0 }

/-- The unknown of the equations is the concentration, or `c/S` (and `(c/S)^(1/2)` with Henry's law) whose unit is that of a
pressure. -/
noncomputable def mobile (mv : Mobile Ω Γ d) : Mobile Ω Γ d :=
  { theta := mv.theta
    sol := U.fld (if mv.theta then 1 else U.conc) mv.sol
    prev := U.fld (if mv.theta then 1 else U.conc) mv.prev
    S := U.fld U.conc mv.S }

noncomputable def temp (T : Temp Ω Γ d) : Temp Ω Γ d := ⟨U.fld 1 T.T, U.fld 1 T.Tn⟩

/-- A source in H/m³/s, a decay constant in 1/s. -/
noncomputable def src (s : Src Ω) : Src Ω :=
  { s with value := match s.value with
      | .given f => .given fun p => U.conc / U.time * f p
      | .decay lam => .decay (lam / U.time) }

/-- A parameter of a trap. -/
def param (a : ℝ) : Param → Param
  | .num x => .num (a * x)
  | .list l => .list (l.map (a * ·))

/-- Trapping rates in m³/s, detrapping rates in 1/s, densities in 1/m³. -/
noncomputable def trap (t : Trap Ω Γ d) : Trap Ω Γ d :=
  { k_0 := param (1 / (U.conc * U.time)) t.k_0
    E_k := t.E_k
    p_0 := param (1 / U.time) t.p_0
    E_p := t.E_p
    density := t.density.map fun n p => U.conc * n p
    materials := t.materials.map U.mat
    sol := U.fld U.conc t.sol
    prev := U.fld U.conc t.prev
    sources := t.sources.map U.src }

/-- Fluxes in H/m²/s, recombination coefficients in m^(3 order - 2)/s, dissociation coefficients in H/m²/s/Pa, transfer
coefficients in m/s. -/
noncomputable def flux : Flux Γ → Flux Γ
  | .value f => .value fun q => U.conc * U.len / U.time * f q
  | .recomb Kr E order => .recomb (fun q => U.conc * U.len / U.time / U.conc ^ order * Kr q) E order
  | .dissoc Kd E P => .dissoc (fun q => U.conc * U.len / U.time * Kd q) E P
  | .mass h c => .mass (fun q => U.len / U.time * h q) fun q => U.conc * c q
  | .convective h T => .convective (fun q => U.conc * U.len / U.time * h q) T
  | .custom g => .custom fun q T c => U.conc * U.len / U.time * g q T (c / U.conc)

/-- Surface concentrations in H/m². -/
noncomputable def sk (b : SK Γ) : SK Γ :=
  { k_sb := fun q T cs c => b.k_sb q T (cs / (U.conc * U.len)) (c / U.conc) / U.time
    k_bs := fun q T cs c => U.len / U.time * b.k_bs q T (cs / (U.conc * U.len)) (c / U.conc)
    J_vs := fun q T cs c => U.conc * U.len / U.time * b.J_vs q T (cs / (U.conc * U.len)) (c / U.conc)
    lambda_IS := U.len * b.lambda_IS
    n_surf := U.conc * U.len * b.n_surf
    n_IS := U.conc * b.n_IS
    surfaces := b.surfaces.map fun s => { id := s.id, sol := U.conc * U.len * s.sol, prev := U.conc * U.len * s.prev } }

noncomputable def bc : MobBC Γ → MobBC Γ
  | .flux f ss => .flux (U.flux f) ss
  | .sk b vs => .sk (U.sk b) vs

/-- The problem in the new units. -/
noncomputable def problem (P : Problem Ω Γ d) : Problem Ω Γ d :=
  { mesh := U.mesh P.mesh
    mats := P.mats.map U.mat
    mv := U.mobile P.mv
    T := U.temp P.T
    dt := P.dt.map (U.time * ·)
    soret := P.soret
    sources := P.sources.map U.src
    traps := P.traps.map U.trap }

/-- A test function in the new units. -/
noncomputable def test (v : Fld Ω Γ d) : Fld Ω Γ d := U.fld 1 v

/-- Heat conductivities in W/m/K and heat capacities in J/m³/K, with `conc` the factor of an energy per unit of volume. -/
noncomputable def heatMat (a : Mat) : Mat :=
  { a with cond := fun T => U.conc * U.len ^ 2 / U.time * a.cond T, rho := fun T => U.conc * a.rho T }

end Scaling

section
variable {Ω Γ : Type} [Fintype Ω] [Fintype Γ] {d : ℕ}

/-- The equations can be written and their residual, for these test functions, is `r`. -/
def Residual (P : Problem Ω Γ d) (bcs : List (MobBC Γ)) (v : Fld Ω Γ d) (vt : List (Fld Ω Γ d)) (r : ℝ) : Prop :=
  ∃ F, P.form bcs v vt = .ok F ∧ P.mesh.assemble F = r

end

section
variable {Ω Γ : Type} {d : ℕ}

/-- Another numbering of the volumes and surfaces: `vol i` are the new ids of what was volume `i` (several if it has been cut in
pieces), `surf s` those of surface `s`. -/
structure Relabelling where
  vol : ℕ → List ℕ
  surf : ℕ → List ℕ

namespace Relabelling

variable (R : Relabelling)

/-- `m'` is the mesh `m` with the new markers. -/
structure Marks (m m' : Mesh Ω Γ d) : Prop where
  w : m'.w = m.w
  ws : m'.ws = m.ws
  r : m'.r = m.r
  type : m'.type = m.type
  vol_nodup : ∀ i, (R.vol i).Nodup
  surf_nodup : ∀ i, (R.surf i).Nodup
  vm : ∀ p i, m'.vm p ∈ R.vol i ↔ m.vm p = i
  vmS : ∀ q i, m'.vmS q ∈ R.vol i ↔ m.vmS q = i
  sm : ∀ q s, m'.sm q ∈ R.surf s ↔ m.sm q = s

def mat (a : Mat) : Mat := { a with ids := a.ids.flatMap R.vol }
def src (s : Src Ω) : Src Ω := { s with volumes := s.volumes.flatMap R.vol }
def trap (t : Trap Ω Γ d) : Trap Ω Γ d := { t with materials := t.materials.map R.mat, sources := t.sources.map R.src }

/-- A surface of a `SurfaceKinetics` has its own unknown: it can be renumbered, not cut. -/
def bc : MobBC Γ → MobBC Γ
  | .flux f ss => .flux f (ss.flatMap R.surf)
  | .sk b vs => .sk { b with surfaces := b.surfaces.map fun s => { s with id := (R.surf s.id).headD 0 } } vs

def problem (P : Problem Ω Γ d) (m' : Mesh Ω Γ d) : Problem Ω Γ d :=
  { P with mesh := m', mats := P.mats.map R.mat, sources := P.sources.map R.src, traps := P.traps.map R.trap }

end Relabelling

/-- Traps which differ by their densities and contents only, without sources. -/
structure SameKinetics (t t' : Trap Ω Γ d) : Prop where
  k_0 : t'.k_0 = t.k_0
  E_k : t'.E_k = t.E_k
  p_0 : t'.p_0 = t.p_0
  E_p : t'.E_p = t.E_p
  materials : t'.materials = t.materials
  density : t'.density.length = t.density.length
  sources : t.sources = []
  sources' : t'.sources = []

/-- The two traps taken together. -/
def Trap.together (t t' : Trap Ω Γ d) : Trap Ω Γ d :=
  { t with density := List.zipWith (fun n n' p => n p + n' p) t.density t'.density, sol := t.sol + t'.sol,
           prev := t.prev + t'.prev }

/-- A fraction `a` of a trap. -/
def Trap.fraction (a : ℝ) (t : Trap Ω Γ d) : Trap Ω Γ d :=
  { t with density := t.density.map fun n p => a * n p, sol := Fld.const a * t.sol, prev := Fld.const a * t.prev }

/-- An empty trap: no site and nothing in it. -/
structure EmptyTrap (t : Trap Ω Γ d) : Prop where
  density : ∀ n ∈ t.density, ∀ p, n p = 0
  sol : ∀ p, t.sol.val p = 0
  prev : ∀ p, t.prev.val p = 0
  sources : t.sources = []

end

end Festim.Weak
