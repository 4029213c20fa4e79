import Verif.Model.Forms

/-!
# Vocabulary of the statements about the variational forms

Written without the model's form-building functions: integrals are plain sums over quadrature points.
-/

open scoped BigOperators

namespace Festim.Weak

section
variable {Ω Γ : Type} [Fintype Ω] [Fintype Γ] {d : ℕ}

/-- Integral over the whole domain. -/
def volume (m : Mesh Ω Γ d) (f : Ω → ℝ) : ℝ := ∑ p, m.w p * f p

/-- Integral over the volume `i`. -/
def volumeOf (m : Mesh Ω Γ d) (i : ℕ) (f : Ω → ℝ) : ℝ :=
  ∑ p ∈ Finset.univ.filter (fun p => m.vm p = i), m.w p * f p

/-- Integral over a set of volumes. -/
def volumeIn (m : Mesh Ω Γ d) (ids : List ℕ) (f : Ω → ℝ) : ℝ :=
  ∑ p ∈ Finset.univ.filter (fun p => m.vm p ∈ ids), m.w p * f p

/-- Integral over the surface `s`. -/
def surface (m : Mesh Ω Γ d) (s : ℕ) (f : Γ → ℝ) : ℝ :=
  ∑ q ∈ Finset.univ.filter (fun q => m.sm q = s), m.ws q * f q

end

section
variable {Ω Γ : Type} {d : ℕ}

/-- The materials cover the mesh, `mat p` being the one at `p`, and no subdomain id is used twice. -/
structure Covers (m : Mesh Ω Γ d) (mats : List Mat) (mat : Ω → Mat) : Prop where
  mem : ∀ p, mat p ∈ mats
  has : ∀ p, m.vm p ∈ (mat p).ids
  nodup : (mats.flatMap (·.ids)).Nodup

/-- Arrhenius law `A exp(-E/(k_B T))`. -/
noncomputable def arr (A E T : ℝ) : ℝ := A * Real.exp (-E / kB / T)

/-- The hydrogen concentration in a material given the unknown `u` of the simulation: `u` itself, or
with conservation of the chemical potential `S u` (Sievert) and `S u^2` (Henry). -/
noncomputable def physConc (theta : Bool) (mat : Mat) (T u : ℝ) : ℝ :=
  match theta, mat.law with
  | false, _ => u
  | true, .sievert => arr mat.S_0 mat.E_S T * u
  | true, .henry => arr mat.S_0 mat.E_S T * u ^ 2

/-- Its gradient, when `u` has gradient `gu` and the temperature `gT`. -/
noncomputable def physGrad (theta : Bool) (mat : Mat) (T u : ℝ) (gT gu : Fin d → ℝ) (i : Fin d) :
    ℝ :=
  match theta, mat.law with
  | false, _ => gu i
  | true, .sievert =>
    arr mat.S_0 mat.E_S T * gu i + u * (arr mat.S_0 mat.E_S T * mat.E_S / (kB * T ^ 2) * gT i)
  | true, .henry =>
    arr mat.S_0 mat.E_S T * (2 * u * gu i)
      + u ^ 2 * (arr mat.S_0 mat.E_S T * mat.E_S / (kB * T ^ 2) * gT i)

/-- `D(T) (∇c + Q c / (k_B T²) ∇T)`, the second term only with the Soret effect: minus the diffusive
flux. -/
noncomputable def gradFlux (soret theta : Bool) (mat : Mat) (T u : ℝ) (gT gu : Fin d → ℝ)
    (i : Fin d) : ℝ :=
  arr mat.D_0 mat.E_D T *
    (physGrad theta mat T u gT gu i
      + if soret then mat.Q T * physConc theta mat T u / (kB * T ^ 2) * gT i else 0)

/-- Gradient of the test function in the coordinates of the mesh: `∇v`, `∇v - v/r ∇r`,
`∇v - 2 v/r ∇r`; no diffusion at all for an unknown type of coordinates. -/
noncomputable def coordGrad (m : Mesh Ω Γ d) (v : Fld Ω Γ d) (p : Ω) (i : Fin d) : ℝ :=
  match m.type with
  | .cartesian => v.grad p i
  | .cylindrical => v.grad p i - v.val p / m.r.val p * m.r.grad p i
  | .spherical => v.grad p i - 2 * v.val p / m.r.val p * m.r.grad p i
  | .other => 0

/-- Hydrogen entering through the boundary per unit time and area for every flux condition. -/
noncomputable def inward (f : Flux Γ) (T c : ℝ) (q : Γ) : ℝ :=
  match f with
  | .value g => g q
  | .recomb Kr E order => -(arr (Kr q) (E q) T * c ^ order)
  | .dissoc Kd E P => arr (Kd q) (E q) T * P q
  | .mass h cext => h q * (cext q - c)
  | .convective h Text => h q * (Text q - T)
  | .custom g => g q T c

/-- Value of a source where the concentration is `c`. -/
def srcRate (s : Src Ω) (c : ℝ) (p : Ω) : ℝ :=
  match s.value with
  | .given f => f p
  | .decay lam => -(lam * c)

/-- The test function which turns the equations into a balance in the coordinates of the mesh:
`1`, `r` or `r²`. -/
def weight (m : Mesh Ω Γ d) : Fld Ω Γ d :=
  match m.type with
  | .cylindrical => m.r
  | .spherical => m.r * m.r
  | _ => Fld.const 1

/-- With conservation of the chemical potential, the field `S` is the solubility of the material at
every point of the volume and of the boundary (`mat`, `matS`); see C53. -/
structure Solubility (P : Problem Ω Γ d) (mat : Ω → Mat) (matS : Γ → Mat) : Prop where
  vol : P.mv.theta = true → ∀ p, P.mv.S.val p = arr (mat p).S_0 (mat p).E_S (P.T.T.val p)
  memS : P.mv.theta = true → ∀ q, matS q ∈ P.mats
  hasS : P.mv.theta = true → ∀ q, P.mesh.vmS q ∈ (matS q).ids
  surf : P.mv.theta = true → ∀ q, P.mv.S.tr q = arr (matS q).S_0 (matS q).E_S (P.T.T.tr q)

end

section
variable {Ω Γ : Type} [Fintype Ω] [Fintype Γ] {d : ℕ}

/-- Contribution of one flux condition, with the sign of an inflow. -/
noncomputable def bcInflow (m : Mesh Ω Γ d) (T c : Γ → ℝ) (v : Γ → ℝ) : MobBC Γ → ℝ
  | .flux f surfaces => (surfaces.map fun s => surface m s fun q => inward f (T q) (c q) q * v q).sum
  | .sk b _ => (b.surfaces.map fun s =>
      surface m s.id fun q => b.J_vs q (T q) s.sol (c q) * v q).sum

/-- Hydrogen held by the boundary: adsorbed, and in the layer of thickness `lambda_IS`.
`new = true` with the current values, otherwise the previous ones (`c` is the mobile value). -/
noncomputable def bcStock (m : Mesh Ω Γ d) (new : Bool) (c : Γ → ℝ) (v : Γ → ℝ) : MobBC Γ → ℝ
  | .flux _ _ => 0
  | .sk b _ => (b.surfaces.map fun s =>
      surface m s.id fun q => ((if new then s.sol else s.prev) + b.lambda_IS * c q) * v q).sum

/-- The test functions of the adsorbed species agree with that of the solute on their surfaces. -/
def SKTests (m : Mesh Ω Γ d) (v : Γ → ℝ) (bcs : List (MobBC Γ)) : Prop :=
  ∀ b vs, MobBC.sk b vs ∈ bcs → vs.length = b.surfaces.length ∧
    ∀ x ∈ b.surfaces.zip vs, ∀ q, m.sm q = x.1.id → x.2 = v q

/-- Mobile concentration of the simulation, current and previous. -/
noncomputable def Problem.c (P : Problem Ω Γ d) (mat : Ω → Mat) (p : Ω) : ℝ :=
  physConc P.mv.theta (mat p) (P.T.T.val p) (P.mv.sol.val p)

noncomputable def Problem.cPrev (P : Problem Ω Γ d) (mat : Ω → Mat) (p : Ω) : ℝ :=
  physConc P.mv.theta (mat p) (P.T.Tn.val p) (P.mv.prev.val p)

/-- On the boundary. -/
noncomputable def Problem.cS (P : Problem Ω Γ d) (matS : Γ → Mat) (q : Γ) : ℝ :=
  physConc P.mv.theta (matS q) (P.T.T.tr q) (P.mv.sol.tr q)

noncomputable def Problem.cSPrev (P : Problem Ω Γ d) (matS : Γ → Mat) (q : Γ) : ℝ :=
  physConc P.mv.theta (matS q) (P.T.Tn.tr q) (P.mv.prev.tr q)

/-- Weighted hydrogen inventory: mobile and trapped in the bulk, subsurface layer and adsorbed on the
surfaces with kinetics. -/
noncomputable def stock (P : Problem Ω Γ d) (bcs : List (MobBC Γ)) (mat : Ω → Mat) (matS : Γ → Mat)
    (v : Fld Ω Γ d) : ℝ :=
  volume P.mesh (fun p => (P.c mat p + (P.traps.map fun t => t.sol.val p).sum) * v.val p)
    + (bcs.map (bcStock P.mesh true (P.cS matS) v.tr)).sum

/-- The same at the previous step. -/
noncomputable def stockPrev (P : Problem Ω Γ d) (bcs : List (MobBC Γ)) (mat : Ω → Mat)
    (matS : Γ → Mat) (v : Fld Ω Γ d) : ℝ :=
  volume P.mesh (fun p => (P.cPrev mat p + (P.traps.map fun t => t.prev.val p).sum) * v.val p)
    + (bcs.map (bcStock P.mesh false (P.cSPrev matS) v.tr)).sum

/-- Weighted hydrogen supplied per unit time: volume sources of the solute (once per volume listed)
and of the traps, flux conditions, net adsorption. -/
noncomputable def supply (P : Problem Ω Γ d) (bcs : List (MobBC Γ)) (mat : Ω → Mat) (matS : Γ → Mat)
    (v : Fld Ω Γ d) : ℝ :=
  (P.sources.map fun s => (s.volumes.map fun vol =>
      volumeOf P.mesh vol fun p => srcRate s (P.c mat p) p * v.val p).sum).sum
  + (P.traps.map fun t => (t.sources.map fun s =>
      volumeIn P.mesh s.volumes fun p => srcRate s (t.sol.val p) p * v.val p).sum).sum
  + (bcs.map (bcInflow P.mesh P.T.T.tr (P.cS matS) v.tr)).sum

end

end Festim.Weak
