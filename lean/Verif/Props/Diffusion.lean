import Verif.Props.Balance
import Verif.Props.Traps

/-!
# C49, C50: sign of the fluxes; stability and uniqueness of a step
-/

open scoped BigOperators

set_option linter.unusedSectionVars false
set_option linter.unusedSimpArgs false

namespace Festim.Weak

section
variable {Ω Γ : Type} [Fintype Ω] [Fintype Γ] {d : ℕ}

theorem surface_nonneg (m : Mesh Ω Γ d) (s : ℕ) (f : Γ → ℝ)
    (h : ∀ q, m.sm q = s → 0 ≤ m.ws q * f q) : 0 ≤ surface m s f :=
  Finset.sum_nonneg fun q hq => h q (Finset.mem_filter.1 hq).2

theorem volume_nonneg (m : Mesh Ω Γ d) (f : Ω → ℝ) (h : ∀ p, 0 ≤ m.w p * f p) : 0 ≤ volume m f :=
  Finset.sum_nonneg fun p _ => h p

theorem sum_nonpos' (l : List ℝ) (h : ∀ x ∈ l, x ≤ 0) : l.sum ≤ 0 := by
  induction l with
  | nil => simp
  | cons a l ih =>
    rw [List.sum_cons]
    have h1 := h a (List.mem_cons_self ..)
    have h2 := ih fun x hx => h x (List.mem_cons_of_mem _ hx)
    linarith

/-- In the coordinates of the mesh, `weight * u` is differentiated as `weight * ∇u`. -/
theorem coordGrad_weight_mul (m : Mesh Ω Γ d) (u : Fld Ω Γ d) (hty : m.type ≠ .other)
    (hr : (m.type = .cylindrical ∨ m.type = .spherical) → ∀ p, m.r.val p ≠ 0) (p : Ω) (i : Fin d) :
    coordGrad m (weight m * u) p i = (weight m).val p * u.grad p i := by
  unfold coordGrad weight
  cases ht : m.type with
  | cartesian => simp
  | cylindrical =>
    have := hr (Or.inl ht) p
    simp
    field_simp
    ring
  | spherical =>
    have := hr (Or.inr ht) p
    simp
    field_simp
    ring
  | other => exact absurd ht hty

/-- Hydrogen supplied when there is one flux condition and no source. -/
theorem supply_flux (P : Problem Ω Γ d) (f : Flux Γ) (surfs : List ℕ) (mat : Ω → Mat)
    (matS : Γ → Mat) (v : Fld Ω Γ d) (hs : P.sources = []) (ht : ∀ t ∈ P.traps, t.sources = []) :
    supply P [.flux f surfs] mat matS v
      = (surfs.map fun s => surface P.mesh s fun q =>
          inward f (P.T.T.tr q) (P.cS matS q) q * v.tr q).sum := by
  have h0 : (P.traps.map fun t => (t.sources.map fun s =>
      volumeIn P.mesh s.volumes fun p => srcRate s (t.sol.val p) p * v.val p).sum).sum = 0 := by
    apply List.sum_eq_zero
    intro x hx
    obtain ⟨t, htm, rfl⟩ := List.mem_map.1 hx
    rw [ht t htm]
    rfl
  unfold supply
  rw [h0, hs]
  simp [bcInflow]

end

end Festim.Weak

namespace Festim.Props

open Festim.Weak

section
variable {Ω Γ : Type} [Fintype Ω] [Fintype Γ] {d : ℕ}

/-- **C49.** With a single flux condition and no source, a converged step changes the (weighted)
inventory by `dt` times the surface integral of the value of the condition: positive values add
hydrogen. -/
theorem C49_inventory_change (P : Problem Ω Γ d) (f : Flux Γ) (surfs : List ℕ) (mat : Ω → Mat)
    (matS : Γ → Mat) (h : ℝ) (F : Form Ω Γ) (hh : h ≠ 0)
    (hdt : P.dt = some h) (hcov : Covers P.mesh P.mats mat) (hsol : Solubility P mat matS)
    (hr : (P.mesh.type = .cylindrical ∨ P.mesh.type = .spherical) → ∀ p, P.mesh.r.val p ≠ 0)
    (hs : P.sources = []) (ht : ∀ t ∈ P.traps, t.sources = [])
    (hF : P.form [.flux f surfs] (weight P.mesh) (P.traps.map fun _ => weight P.mesh) = .ok F)
    (hzero : P.mesh.assemble F = 0) :
    stock P [.flux f surfs] mat matS (weight P.mesh)
      - stockPrev P [.flux f surfs] mat matS (weight P.mesh)
      = h * (surfs.map fun s => surface P.mesh s fun q =>
          inward f (P.T.T.tr q) (P.cS matS q) q * (weight P.mesh).tr q).sum := by
  have hno : ∀ b vs, MobBC.sk b vs ∉ [MobBC.flux f surfs] := by simp
  have := (C42_balance P [.flux f surfs] mat matS h F hh hdt hcov hsol hr
    (fun b vs hm => absurd hm (hno b vs)) (Or.inr hno) hF).1 hzero
  rw [this, supply_flux P f surfs mat matS _ hs ht]
  ring

/-- **C49.** Sign of the change for every class of flux condition: `FluxBC` with non-negative value,
`DissociationFlux` with non-negative `Kd_0` and `P`, and `MassFlux` below the external concentration
add hydrogen; `RecombinationFlux` with non-negative `Kr_0` (and concentration) and `MassFlux` above
the external concentration remove hydrogen. -/
theorem C49_sign (P : Problem Ω Γ d) (f : Flux Γ) (surfs : List ℕ) (mat : Ω → Mat)
    (matS : Γ → Mat) (h : ℝ) (F : Form Ω Γ) (hh : 0 < h)
    (hdt : P.dt = some h) (hcov : Covers P.mesh P.mats mat) (hsol : Solubility P mat matS)
    (hr : (P.mesh.type = .cylindrical ∨ P.mesh.type = .spherical) → ∀ p, P.mesh.r.val p ≠ 0)
    (hs : P.sources = []) (ht : ∀ t ∈ P.traps, t.sources = [])
    (hws : ∀ q, 0 ≤ P.mesh.ws q * (weight P.mesh).tr q)
    (hF : P.form [.flux f surfs] (weight P.mesh) (P.traps.map fun _ => weight P.mesh) = .ok F)
    (hzero : P.mesh.assemble F = 0) :
    let before := stockPrev P [.flux f surfs] mat matS (weight P.mesh)
    let after := stock P [.flux f surfs] mat matS (weight P.mesh)
    match f with
    | .value g => (∀ q, 0 ≤ g q) → before ≤ after
    | .recomb Kr _ _ => (∀ q, 0 ≤ Kr q) → (∀ q, 0 ≤ P.cS matS q) → after ≤ before
    | .dissoc Kd _ p => (∀ q, 0 ≤ Kd q) → (∀ q, 0 ≤ p q) → before ≤ after
    | .mass hc cext => (∀ q, 0 ≤ hc q) →
        ((∀ q, P.cS matS q ≤ cext q) → before ≤ after) ∧
        ((∀ q, cext q ≤ P.cS matS q) → after ≤ before)
    | _ => True := by
  intro before after
  have e := C49_inventory_change P f surfs mat matS h F hh.ne' hdt hcov hsol hr hs ht hF hzero
  have up : (∀ q, 0 ≤ inward f (P.T.T.tr q) (P.cS matS q) q) → before ≤ after := by
    intro hp
    have : 0 ≤ (surfs.map fun s => surface P.mesh s fun q =>
        inward f (P.T.T.tr q) (P.cS matS q) q * (weight P.mesh).tr q).sum := by
      apply List.sum_nonneg
      intro x hx
      obtain ⟨s, _, rfl⟩ := List.mem_map.1 hx
      refine surface_nonneg _ _ _ fun q _ => ?_
      have := mul_nonneg (hp q) (hws q)
      nlinarith
    have := mul_nonneg hh.le this
    show stockPrev P [.flux f surfs] mat matS (weight P.mesh) ≤ _
    linarith
  have down : (∀ q, inward f (P.T.T.tr q) (P.cS matS q) q ≤ 0) → after ≤ before := by
    intro hp
    have : (surfs.map fun s => surface P.mesh s fun q =>
        inward f (P.T.T.tr q) (P.cS matS q) q * (weight P.mesh).tr q).sum ≤ 0 := by
      apply sum_nonpos'
      intro x hx
      obtain ⟨s, _, rfl⟩ := List.mem_map.1 hx
      have h0 := surface_nonneg P.mesh s (fun q => -1 *
        (inward f (P.T.T.tr q) (P.cS matS q) q * (weight P.mesh).tr q)) fun q _ => by
          have := mul_nonneg (neg_nonneg.2 (hp q)) (hws q)
          nlinarith
      rw [surface_smul] at h0
      linarith
    have := mul_nonneg hh.le (neg_nonneg.2 this)
    show _ ≤ stockPrev P [.flux f surfs] mat matS (weight P.mesh)
    linarith
  clear_value before after
  cases f with
  | value g => exact fun hg => up fun q => hg q
  | recomb Kr E o =>
    intro hK hc
    refine down fun q => ?_
    have h1 := hK q
    have h2 := Real.rpow_nonneg (hc q) o
    simp only [inward, arr]
    have : 0 ≤ Kr q * Real.exp (-E q / kB / P.T.T.tr q) * P.cS matS q ^ o := by positivity
    linarith
  | dissoc Kd E p =>
    intro hK hp
    refine up fun q => ?_
    have h1 := hK q
    have h2 := hp q
    simp only [inward, arr]
    positivity
  | mass hc cext =>
    intro h0
    refine ⟨fun hle => up fun q => ?_, fun hle => down fun q => ?_⟩
    · exact mul_nonneg (h0 q) (sub_nonneg.2 (hle q))
    · have := mul_nonneg (h0 q) (sub_nonneg.2 (hle q))
      simp only [inward]
      nlinarith
  | convective => trivial
  | custom => trivial

/-- **C49.** The natural boundary condition.  Steady diffusion on a Cartesian mesh, no traps, no
sources, a single flux condition on the surface `s`; `V` is the space of test functions.  If
`J = D ∇c` (minus the diffusive flux) is divergence free, that is if the Green formula
`∫ J·∇v = Σ ∫ Jn v` holds in `V` with the normal component `Jn`, then a converged solution has
`D ∇c·n = f` on `s` and `D ∇c·n = 0` elsewhere (at the boundary points which `V` separates): the
value is an **inward** flux, contrary to the sign written in the documentation of `FluxBC`
(`-D ∇c·n = f`). -/
theorem C49_natural_condition (P : Problem Ω Γ d) (f : Flux Γ) (s : ℕ) (mat : Ω → Mat)
    (V : Set (Fld Ω Γ d)) (Jn : Γ → ℝ) (hdt : P.dt = none) (hcov : Covers P.mesh P.mats mat)
    (htheta : P.mv.theta = false) (hcart : P.mesh.type = .cartesian)
    (hs : P.sources = []) (ht : P.traps = [])
    (hgreen : ∀ v ∈ V, volume P.mesh (fun p =>
        dot (gradFlux P.soret false (mat p) (P.T.T.val p) (P.mv.sol.val p) (P.T.T.grad p)
          (P.mv.sol.grad p)) (v.grad p)) = ∑ q, P.mesh.ws q * (Jn q * v.tr q))
    (hzero : ∀ v ∈ V, ∃ F, P.form [.flux f [s]] v [] = .ok F ∧ P.mesh.assemble F = 0)
    (q : Γ) (hw : P.mesh.ws q ≠ 0) (v : Fld Ω Γ d) (hvV : v ∈ V) (hq1 : v.tr q = 1)
    (hq0 : ∀ x, x ≠ q → v.tr x = 0) :
    Jn q = if P.mesh.sm q = s then inward f (P.T.T.tr q) (P.mv.sol.tr q) q else 0 := by
  obtain ⟨F, hF, hz⟩ := hzero v hvV
  have hF' : P.form [.flux f [s]] v (P.traps.map fun _ => v) = .ok F := by rw [ht]; exact hF
  have e := form_assemble P [.flux f [s]] v F hF'
  have hb := bulk_eq P v hcov (by rw [hcart]; simp)
  rw [hz, hb, hdt, ht, hs] at e
  have hcg : coordGrad P.mesh v = v.grad := by
    funext p i
    simp [coordGrad, hcart]
  simp only [hcg, htheta, zero_add] at e
  rw [hgreen v hvV] at e
  simp only [sourceForm, fluxesForm, List.flatMap_nil, List.flatMap_cons, List.append_nil,
    MobBC.form, List.map_cons, List.map_nil, assemble_cons, assemble_nil, integrate_ds, surface,
    flux_form_eq, Mobile.mobileConcS, htheta, Bool.false_eq_true, if_false, List.sum_nil,
    Finset.sum_filter] at e
  have e1 : (∑ x, P.mesh.ws x * (Jn x * v.tr x)) = P.mesh.ws q * Jn q := by
    rw [Finset.sum_eq_single q]
    · simp [hq1]
    · intro x _ hx; simp [hq0 x hx]
    · intro hx; exact absurd (Finset.mem_univ q) hx
  have e2 : (∑ x, if P.mesh.sm x = s then
      P.mesh.ws x * (-v.tr x * inward f (P.T.T.tr x) (P.mv.sol.tr x) x) else 0)
      = if P.mesh.sm q = s then -(P.mesh.ws q * inward f (P.T.T.tr q) (P.mv.sol.tr q) q) else 0 := by
    rw [Finset.sum_eq_single q]
    · simp [hq1]
    · intro x _ hx; simp [hq0 x hx]
    · intro hx; exact absurd (Finset.mem_univ q) hx
  rw [e1] at e
  simp only [e2] at e
  split_ifs at e ⊢ with hq
  · have : P.mesh.ws q * (Jn q - inward f (P.T.T.tr q) (P.mv.sol.tr q) q) = 0 := by
      linear_combination -e
    have := (mul_eq_zero.1 this).resolve_left hw
    linarith
  · have : P.mesh.ws q * Jn q = 0 := by linear_combination -e
    exact (mul_eq_zero.1 this).resolve_left hw

end

end Festim.Props

namespace Festim.Weak

section
variable {Ω Γ : Type} [Fintype Ω] [Fintype Γ] {d : ℕ}

/-- Material used where it does not matter (no chemical potential). -/
def noMat : Mat := { uid := 0, ids := [], D_0 := 0, E_D := 0 }

/-- A flux condition which does not add more hydrogen when there is more of it, between two values of
the concentration. -/
def Flux.Monotone (f : Flux Γ) (T c c' : ℝ) (q : Γ) : Prop :=
  (inward f T c q - inward f T c' q) * (c - c') ≤ 0

/-- `FluxBC` and `DissociationFlux` always, `MassFlux` with `h ≥ 0`, `RecombinationFlux` with `Kr ≥ 0`
and order `≥ 0` between non-negative concentrations. -/
theorem Flux.monotone_of (f : Flux Γ) (T c c' : ℝ) (q : Γ)
    (h : match f with
      | .value _ => True
      | .dissoc _ _ _ => True
      | .mass hc _ => 0 ≤ hc q
      | .recomb Kr _ o => 0 ≤ Kr q ∧ 0 ≤ o ∧ 0 ≤ c ∧ 0 ≤ c'
      | _ => False) : f.Monotone T c c' q := by
  unfold Flux.Monotone
  cases f with
  | value g => simp [inward]
  | dissoc a b p => simp [inward]
  | mass hc ce =>
    simp only [inward]
    have : (hc q * (ce q - c) - hc q * (ce q - c')) * (c - c') = -(hc q * (c - c') ^ 2) := by ring
    rw [this]
    have h' : 0 ≤ hc q := h
    have : 0 ≤ hc q * (c - c') ^ 2 := by positivity
    linarith
  | recomb Kr E o =>
    obtain ⟨h1, h2, h3, h4⟩ := h
    simp only [inward, arr]
    have hpos : 0 ≤ Kr q * Real.exp (-E q / kB / T) := by positivity
    have key : 0 ≤ (c ^ o - c' ^ o) * (c - c') := by
      rcases le_total c c' with hc | hc
      · exact mul_nonneg_of_nonpos_of_nonpos
          (sub_nonpos.2 (Real.rpow_le_rpow h3 hc h2)) (sub_nonpos.2 hc)
      · exact mul_nonneg (sub_nonneg.2 (Real.rpow_le_rpow h4 hc h2)) (sub_nonneg.2 hc)
    have := mul_nonneg hpos key
    nlinarith
  | convective => exact absurd h id
  | custom => exact absurd h id

/-- Two candidate solutions of the same step: everything but the unknowns is the same. -/
structure SameStep (P Q : Problem Ω Γ d) : Prop where
  mesh : Q.mesh = P.mesh
  mats : Q.mats = P.mats
  temp : Q.T = P.T
  dt : Q.dt = P.dt
  soret : Q.soret = P.soret
  theta : Q.mv.theta = P.mv.theta
  prev : Q.mv.prev = P.mv.prev
  sources : Q.sources = P.sources
  traps : List.Forall₂ (fun t t' : Trap Ω Γ d => t' = { t with sol := t'.sol }) P.traps Q.traps

theorem dot_self_smul (k : ℝ) (a : Fin d → ℝ) : dot (fun i => k * a i) a = k * dot a a :=
  dot_smul_left k a a

theorem trap_outside (m : Mesh Ω Γ d) (mats : List Mat) (mv : Mobile Ω Γ d) (T : Temp Ω Γ d)
    (h : ℝ) (hh : h ≠ 0) (trap : Trap Ω Γ d) (hsolved : TrapSolved m mats mv T (some h) trap)
    (hsrc : trap.sources = []) (p : Ω) (hw : m.w p ≠ 0)
    (hp : ∀ a ∈ trap.materials, m.vm p ∉ a.ids) : trap.sol.val p = trap.prev.val p := by
  obtain ⟨F, hF, hz⟩ := hsolved (ind p)
  obtain ⟨K, hK, e⟩ := trapForm_ok m mats mv T (some h) trap (ind p) F hF
  rw [hz, trapLoop_outside m mv T trap (ind p) _ _ K hK] at e
  · simp only [trapRest, volume_ind, hsrc, List.map_nil, List.sum_nil, sub_zero, zero_add] at e
    have := (mul_eq_zero.1 e.symm).resolve_left hw
    rw [div_eq_zero_iff] at this
    have := this.resolve_right hh
    linarith
  · intro a ha x hx
    apply ind_ne
    rintro rfl
    exact hp a ha hx

/-- Two solutions of the trap equation with mobile concentrations `c`, `c'`: the trapped
concentrations differ by a non-negative multiple of `c - c'`. -/
theorem trap_monotone (m : Mesh Ω Γ d) (mats : List Mat) (mv mv' : Mobile Ω Γ d) (T : Temp Ω Γ d)
    (h : ℝ) (hh : 0 < h) (t t' : Trap Ω Γ d) (ht' : t' = { t with sol := t'.sol })
    (hth : mv.theta = false) (hth' : mv'.theta = false)
    (hs : TrapSolved m mats mv T (some h) t) (hs' : TrapSolved m mats mv' T (some h) t')
    (hsrc : t.sources = []) (hnd : (t.materials.flatMap (·.ids)).Nodup)
    (p : Ω) (hw : m.w p ≠ 0) (hc : 0 ≤ mv.sol.val p) (hc' : 0 ≤ mv'.sol.val p)
    (hprev : 0 ≤ t.prev.val p)
    (hrates : ∀ j k Ek ν Ep n, RatesAt t j k Ek ν Ep n → 0 ≤ k ∧ 0 ≤ ν ∧ t.prev.val p ≤ n p) :
    ∃ g, 0 ≤ g ∧ t.sol.val p - t'.sol.val p = g * (mv.sol.val p - mv'.sol.val p) := by
  have hm' : t'.materials = t.materials := by rw [ht']
  have hp' : t'.prev = t.prev := by rw [ht']
  have hsrc' : t'.sources = [] := by rw [ht', ← hsrc]
  by_cases hin : ∃ a ∈ t.materials, m.vm p ∈ a.ids
  · obtain ⟨a, ha, hid⟩ := hin
    obtain ⟨j, hj⟩ := List.getElem?_of_mem ha
    obtain ⟨F, hF, _⟩ := hs (ind p)
    obtain ⟨K, hK, _⟩ := trapForm_ok m mats mv T (some h) t (ind p) F hF
    obtain ⟨K', hK', _, _⟩ := trapLoop_at m mv T t p t.materials 0 K hK hnd j a hj hid
    rw [zero_add] at hK'
    have hr := params_rates t j K' hK'
    have hr' : RatesAt t' j K'.k K'.Ek K'.p K'.Ep K'.n := by rw [ht']; exact hr
    obtain ⟨k0, ν0, hn⟩ := hrates j _ _ _ _ _ hr
    have e := Props.C45_equation m mats mv T h t hs hnd p hw j a hj hid _ _ _ _ _ hr
    have e' := Props.C45_equation m mats mv' T h t' hs' (by rw [hm']; exact hnd) p hw j a
      (by rw [hm']; exact hj) hid _ _ _ _ _ hr'
    have occ := (Props.C45_occupancy m mats mv T h t hs hnd hsrc hh p hw j a hj hid _ _ _ _ _ hr k0 ν0
      (by simp [physConc, hth, hc]) hprev hn).2
    rw [show trapSupply m t p = 0 by simp [trapSupply, hsrc], add_zero] at e
    rw [show trapSupply m t' p = 0 by simp [trapSupply, hsrc'], add_zero] at e'
    simp only [physConc, hth, hth', hp'] at e e'
    set κ := arr K'.k K'.Ek (T.T.val p) with hκ
    set ν := arr K'.p K'.Ep (T.T.val p) with hν
    have hκ0 : 0 ≤ κ := by rw [hκ]; unfold arr; positivity
    have hν0 : 0 ≤ ν := by rw [hν]; unfold arr; positivity
    have hD : 0 < 1 / h + κ * mv'.sol.val p + ν := by positivity
    refine ⟨κ * (K'.n p - t.sol.val p) / (1 / h + κ * mv'.sol.val p + ν),
      div_nonneg (mul_nonneg hκ0 (sub_nonneg.2 occ)) hD.le, ?_⟩
    rw [div_mul_eq_mul_div, eq_div_iff hD.ne']
    have e3 : (t.sol.val p - t'.sol.val p) * (1 / h)
        = (t.sol.val p - t.prev.val p) / h - (t'.sol.val p - t.prev.val p) / h := by ring
    have : (t.sol.val p - t'.sol.val p) * (1 / h + κ * mv'.sol.val p + ν)
        = (t.sol.val p - t'.sol.val p) * (1 / h)
          + (t.sol.val p - t'.sol.val p) * (κ * mv'.sol.val p + ν) := by ring
    rw [this, e3, e, e']
    ring
  · push Not at hin
    refine ⟨0, le_rfl, ?_⟩
    rw [trap_outside m mats mv T h hh.ne' t hs hsrc p hw hin,
      trap_outside m mats mv' T h hh.ne' t' hs' hsrc' p hw (by rw [hm']; exact hin), hp']
    ring

end

end Festim.Weak

namespace Festim.Props

open Festim.Weak

section
variable {Ω Γ : Type} [Fintype Ω] [Fintype Γ] {d : ℕ}

/-- **C50.** Stability of a pure diffusion step, in any of the three kinds of coordinates, for any
mesh, stepsize, diffusion coefficients and temperature field: if the residual vanishes for the test
function `weight * c` (which is a test function when the Dirichlet values are zero) and the flux
conditions do not feed the solution, the weighted L² norm does not increase, and the dissipated
energy is bounded by the decrease. -/
theorem C50_stable (P : Problem Ω Γ d) (bcs : List (MobBC Γ)) (mat : Ω → Mat) (h : ℝ)
    (F : Form Ω Γ) (hh : 0 < h) (hdt : P.dt = some h) (hcov : Covers P.mesh P.mats mat)
    (htheta : P.mv.theta = false) (hsoret : P.soret = false) (hs : P.sources = [])
    (ht : P.traps = []) (hty : P.mesh.type ≠ .other)
    (hr : (P.mesh.type = .cylindrical ∨ P.mesh.type = .spherical) → ∀ p, P.mesh.r.val p ≠ 0)
    (hw : ∀ p, 0 ≤ P.mesh.w p * (weight P.mesh).val p)
    (hws : ∀ q, 0 ≤ P.mesh.ws q * (weight P.mesh).tr q)
    (hD : ∀ a ∈ P.mats, 0 ≤ a.D_0)
    (hbc : ∀ b ∈ bcs, ∃ f surfs, b = .flux f surfs ∧
      ∀ q, inward f (P.T.T.tr q) (P.mv.sol.tr q) q * P.mv.sol.tr q ≤ 0)
    (hF : P.form bcs (weight P.mesh * P.mv.sol) [] = .ok F) (hzero : P.mesh.assemble F = 0) :
    volume P.mesh (fun p => (weight P.mesh).val p * P.mv.sol.val p ^ 2)
      + 2 * h * volume P.mesh (fun p => (weight P.mesh).val p *
          (arr (mat p).D_0 (mat p).E_D (P.T.T.val p) * dot (P.mv.sol.grad p) (P.mv.sol.grad p)))
      ≤ volume P.mesh (fun p => (weight P.mesh).val p * P.mv.prev.val p ^ 2) ∧
    volume P.mesh (fun p => (weight P.mesh).val p * P.mv.sol.val p ^ 2)
      ≤ volume P.mesh (fun p => (weight P.mesh).val p * P.mv.prev.val p ^ 2) := by
  set v := weight P.mesh * P.mv.sol with hv
  have hno : ∀ b vs, MobBC.sk b vs ∉ bcs := by
    intro b vs hm
    obtain ⟨f, s, e, _⟩ := hbc _ hm
    cases e
  have hsol : Solubility P mat fun _ => noMat :=
    ⟨by simp [htheta], by simp [htheta], by simp [htheta], by simp [htheta]⟩
  have e := C41_weak_form P bcs mat _ h v F hdt hcov hsol hr
    (fun b vs hm => absurd hm (hno b vs)) (Or.inl htheta) (by rw [ht]; exact hF)
  rw [hzero] at e
  -- supply is not positive
  have hsup : supply P bcs mat (fun _ => noMat) v ≤ 0 := by
    unfold supply
    rw [hs, ht]
    simp only [List.map_nil, List.sum_nil, zero_add]
    apply sum_nonpos'
    intro x hx
    obtain ⟨b, hb, rfl⟩ := List.mem_map.1 hx
    obtain ⟨f, surfs, rfl, hf⟩ := hbc b hb
    simp only [bcInflow]
    apply sum_nonpos'
    intro x hx
    obtain ⟨s, _, rfl⟩ := List.mem_map.1 hx
    have h0 := surface_nonneg P.mesh s (fun q => -1 *
      (inward f (P.T.T.tr q) (P.cS (fun _ => noMat) q) q * v.tr q)) fun q _ => by
        have := mul_nonneg (neg_nonneg.2 (hf q)) (hws q)
        simp only [Problem.cS, physConc, htheta, hv, Fld.mul_tr]
        nlinarith
    rw [surface_smul] at h0
    linarith
  -- inventory terms
  have hz : ∀ (new : Bool) (c v : Γ → ℝ), (bcs.map (bcStock P.mesh new c v)).sum = 0 := by
    intro new c v
    apply List.sum_eq_zero
    intro x hx
    obtain ⟨b, hb, rfl⟩ := List.mem_map.1 hx
    obtain ⟨f, surfs, rfl, _⟩ := hbc b hb
    rfl
  simp only [stock, stockPrev, hz, ht, List.map_nil, List.sum_nil, add_zero, Problem.c,
    Problem.cPrev, physConc, htheta] at e
  have hdiff : ∀ p, dot (gradFlux P.soret P.mv.theta (mat p) (P.T.T.val p) (P.mv.sol.val p)
      (P.T.T.grad p) (P.mv.sol.grad p)) (coordGrad P.mesh v p)
      = (weight P.mesh).val p * (arr (mat p).D_0 (mat p).E_D (P.T.T.val p)
          * dot (P.mv.sol.grad p) (P.mv.sol.grad p)) := by
    intro p
    simp only [dot, Finset.mul_sum]
    refine Finset.sum_congr rfl fun i _ => ?_
    rw [hv, coordGrad_weight_mul P.mesh P.mv.sol hty hr p i]
    simp only [gradFlux, physGrad, htheta, hsoret, Bool.false_eq_true, if_false]
    ring
  simp only [htheta] at hdiff
  simp only [hdiff] at e
  set E := volume P.mesh (fun p => (weight P.mesh).val p *
          (arr (mat p).D_0 (mat p).E_D (P.T.T.val p) * dot (P.mv.sol.grad p) (P.mv.sol.grad p)))
    with hE
  have hE0 : 0 ≤ E := by
    refine volume_nonneg _ _ fun p => ?_
    have h1 : 0 ≤ arr (mat p).D_0 (mat p).E_D (P.T.T.val p) := by
      have := hD _ (hcov.mem p)
      unfold arr
      positivity
    have := mul_nonneg (hw p) (mul_nonneg h1 (dot_self_nonneg (P.mv.sol.grad p)))
    nlinarith
  -- Young
  have hY : volume P.mesh (fun p => (weight P.mesh).val p * P.mv.sol.val p ^ 2)
      - volume P.mesh (fun p => (weight P.mesh).val p * P.mv.prev.val p ^ 2)
      ≤ 2 * (volume P.mesh (fun p => P.mv.sol.val p * v.val p)
        - volume P.mesh (fun p => P.mv.prev.val p * v.val p)) := by
    rw [← volume_sub, ← volume_sub, ← volume_smul, ← sub_nonneg, ← volume_sub]
    refine volume_nonneg _ _ fun p => ?_
    simp only [hv, Fld.mul_val]
    have := mul_nonneg (hw p) (sq_nonneg (P.mv.sol.val p - P.mv.prev.val p))
    nlinarith
  have e' : volume P.mesh (fun p => P.mv.sol.val p * v.val p)
        - volume P.mesh (fun p => P.mv.prev.val p * v.val p) ≤ -(h * E) := by
    have h1 : (volume P.mesh (fun p => P.mv.sol.val p * v.val p)
        - volume P.mesh (fun p => P.mv.prev.val p * v.val p)) / h ≤ -E := by linarith
    rw [div_le_iff₀ hh] at h1
    linarith
  constructor
  · linarith
  · have := mul_nonneg hh.le hE0
    linarith

/-- **C50.** A transient step has at most one solution with non-negative mobile concentration, traps
included, in any of the three kinds of coordinates: two solutions of the same step have the same
mobile and trapped concentrations at every point.  Dirichlet values may be imposed (the difference
of the solutions is then a test function), flux conditions must be monotone
(`Flux.monotone_of`), decay constants non-negative, the previous trapped concentrations between zero
and the density; no chemical potential, no Soret effect, no trap sources. -/
theorem C50_unique (P Q : Problem Ω Γ d) (bcs : List (MobBC Γ)) (mat : Ω → Mat) (h : ℝ)
    (F G : Form Ω Γ) (hh : 0 < h) (hsame : SameStep P Q)
    (hdt : P.dt = some h) (hcov : Covers P.mesh P.mats mat)
    (htheta : P.mv.theta = false) (hsoret : P.soret = false) (hty : P.mesh.type ≠ .other)
    (hr : (P.mesh.type = .cylindrical ∨ P.mesh.type = .spherical) → ∀ p, P.mesh.r.val p ≠ 0)
    (hw : ∀ p, 0 < P.mesh.w p * (weight P.mesh).val p)
    (hws : ∀ q, 0 ≤ P.mesh.ws q * (weight P.mesh).tr q)
    (hD : ∀ a ∈ P.mats, 0 ≤ a.D_0)
    (hsrc : ∀ s ∈ P.sources, ∀ lam, s.value = .decay lam → 0 ≤ lam)
    (hbc : ∀ b ∈ bcs, ∃ f surfs, b = .flux f surfs ∧
      ∀ q, f.Monotone (P.T.T.tr q) (P.mv.sol.tr q) (Q.mv.sol.tr q) q)
    (hc : ∀ p, 0 ≤ P.mv.sol.val p) (hc' : ∀ p, 0 ≤ Q.mv.sol.val p)
    (htsrc : ∀ t ∈ P.traps, t.sources = [])
    (htnd : ∀ t ∈ P.traps, (t.materials.flatMap (·.ids)).Nodup)
    (htprev : ∀ t ∈ P.traps, ∀ p, 0 ≤ t.prev.val p)
    (htrates : ∀ t ∈ P.traps, ∀ p j k Ek ν Ep n, RatesAt t j k Ek ν Ep n →
      0 ≤ k ∧ 0 ≤ ν ∧ t.prev.val p ≤ n p)
    (htrap : ∀ t ∈ P.traps, TrapSolved P.mesh P.mats P.mv P.T (some h) t)
    (htrap' : ∀ t ∈ Q.traps, TrapSolved P.mesh P.mats Q.mv P.T (some h) t)
    (hF : P.form bcs (weight P.mesh * (P.mv.sol - Q.mv.sol))
      (P.traps.map fun _ => weight P.mesh * (P.mv.sol - Q.mv.sol)) = .ok F)
    (hG : Q.form bcs (weight P.mesh * (P.mv.sol - Q.mv.sol))
      (Q.traps.map fun _ => weight P.mesh * (P.mv.sol - Q.mv.sol)) = .ok G)
    (hF0 : P.mesh.assemble F = 0) (hG0 : P.mesh.assemble G = 0) :
    (∀ p, P.mv.sol.val p = Q.mv.sol.val p) ∧
      List.Forall₂ (fun t t' : Trap Ω Γ d => ∀ p, t.sol.val p = t'.sol.val p) P.traps Q.traps := by
  set u := P.mv.sol - Q.mv.sol with hu
  set v := weight P.mesh * u with hv
  have hthQ : Q.mv.theta = false := hsame.theta.trans htheta
  have hwp : ∀ p, P.mesh.w p ≠ 0 := fun p h0 => by
    have := hw p
    rw [h0, zero_mul] at this
    exact lt_irrefl _ this
  have hno : ∀ b vs, MobBC.sk b vs ∉ bcs := by
    intro b vs hm
    obtain ⟨f, s, e, _⟩ := hbc _ hm
    cases e
  have solP : Solubility P mat fun _ => noMat :=
    ⟨by simp [htheta], by simp [htheta], by simp [htheta], by simp [htheta]⟩
  have solQ : Solubility Q mat fun _ => noMat :=
    ⟨by simp [hthQ], by simp [hthQ], by simp [hthQ], by simp [hthQ]⟩
  have eP := C41_weak_form P bcs mat _ h v F hdt hcov solP hr
    (fun b vs hm => absurd hm (hno b vs)) (Or.inl htheta) hF
  have eQ := C41_weak_form Q bcs mat _ h v G (hsame.dt.trans hdt)
    (by rw [hsame.mesh, hsame.mats]; exact hcov) solQ (by rw [hsame.mesh]; exact hr)
    (fun b vs hm => absurd hm (hno b vs)) (Or.inl hthQ) hG
  rw [hF0] at eP
  rw [hsame.mesh, hG0] at eQ
  have hz : ∀ (new : Bool) (c v : Γ → ℝ), (bcs.map (bcStock P.mesh new c v)).sum = 0 := by
    intro new c v
    apply List.sum_eq_zero
    intro x hx
    obtain ⟨b, hb, rfl⟩ := List.mem_map.1 hx
    obtain ⟨f, surfs, rfl, _⟩ := hbc b hb
    rfl
  -- previous inventories are the same
  have hprevT : ∀ p, (Q.traps.map fun t => t.prev.val p).sum = (P.traps.map fun t => t.prev.val p).sum := by
    intro p
    have := hsame.traps
    generalize P.traps = l at this
    generalize Q.traps = l' at this
    induction this with
    | nil => rfl
    | cons h _ ih => rw [List.map_cons, List.map_cons, List.sum_cons, List.sum_cons, ih, h]
  simp only [stock, stockPrev, hsame.mesh, hz, add_zero, Problem.c, Problem.cPrev, physConc, htheta,
    hthQ, hprevT, hsame.prev, hsame.temp, hsame.soret] at eP eQ
  -- diffusion
  have hdiff : volume P.mesh (fun p => dot (gradFlux P.soret false (mat p) (P.T.T.val p)
        (P.mv.sol.val p) (P.T.T.grad p) (P.mv.sol.grad p)) (coordGrad P.mesh v p))
      - volume P.mesh (fun p => dot (gradFlux P.soret false (mat p) (P.T.T.val p)
        (Q.mv.sol.val p) (P.T.T.grad p) (Q.mv.sol.grad p)) (coordGrad P.mesh v p))
      = volume P.mesh (fun p => (weight P.mesh).val p * (arr (mat p).D_0 (mat p).E_D (P.T.T.val p)
          * dot (u.grad p) (u.grad p))) := by
    rw [← volume_sub]
    congr 1
    funext p
    simp only [dot, Finset.mul_sum, ← Finset.sum_sub_distrib]
    refine Finset.sum_congr rfl fun i _ => ?_
    rw [hv, coordGrad_weight_mul P.mesh u hty hr p i]
    simp only [gradFlux, physGrad, hsoret, Bool.false_eq_true, if_false, hu, Fld.sub_grad]
    ring
  have hE0 : 0 ≤ volume P.mesh (fun p => (weight P.mesh).val p *
      (arr (mat p).D_0 (mat p).E_D (P.T.T.val p) * dot (u.grad p) (u.grad p))) := by
    refine volume_nonneg _ _ fun p => ?_
    have h1 : 0 ≤ arr (mat p).D_0 (mat p).E_D (P.T.T.val p) := by
      have := hD _ (hcov.mem p)
      unfold arr
      positivity
    have := mul_nonneg (hw p).le (mul_nonneg h1 (dot_self_nonneg (u.grad p)))
    nlinarith
  -- supply
  have hsup : supply P bcs mat (fun _ => noMat) v - supply Q bcs mat (fun _ => noMat) v ≤ 0 := by
    unfold supply
    have hP0 : (P.traps.map fun t => (t.sources.map fun s => volumeIn P.mesh s.volumes fun p =>
        srcRate s (t.sol.val p) p * v.val p).sum).sum = 0 := by
      apply List.sum_eq_zero
      intro x hx
      obtain ⟨t, htm, rfl⟩ := List.mem_map.1 hx
      rw [htsrc t htm]
      rfl
    have hQ0 : (Q.traps.map fun t => (t.sources.map fun s => volumeIn Q.mesh s.volumes fun p =>
        srcRate s (t.sol.val p) p * v.val p).sum).sum = 0 := by
      have h1 : ∀ t ∈ Q.traps, t.sources = [] := by
        have := hsame.traps
        clear hF hG eP eQ hprevT hP0 htrap htrap' htrates htprev htnd
        generalize P.traps = l at this htsrc
        generalize Q.traps = l' at this
        induction this with
        | nil => intro t htm; simp at htm
        | @cons t0 t0' _ _ h _ ih =>
          intro t htm
          rcases List.mem_cons.1 htm with rfl | htm
          · have : t.sources = t0.sources := by rw [h]
            rw [this]
            exact htsrc t0 (List.mem_cons_self ..)
          · exact ih (fun t ht => htsrc t (List.mem_cons_of_mem _ ht)) t htm
      apply List.sum_eq_zero
      intro x hx
      obtain ⟨t, htm, rfl⟩ := List.mem_map.1 hx
      rw [h1 t htm]
      rfl
    rw [hP0, hQ0, hsame.sources, hsame.mesh, hsame.temp]
    have hA : (P.sources.map fun s => (s.volumes.map fun vol => volumeOf P.mesh vol fun p =>
          srcRate s (P.c mat p) p * v.val p).sum).sum
        - (P.sources.map fun s => (s.volumes.map fun vol => volumeOf P.mesh vol fun p =>
          srcRate s (Q.c mat p) p * v.val p).sum).sum ≤ 0 := by
      rw [← sum_sub_map]
      apply sum_nonpos'
      intro x hx
      obtain ⟨s, hsm, rfl⟩ := List.mem_map.1 hx
      rw [← sum_sub_map]
      apply sum_nonpos'
      intro x hx
      obtain ⟨vol, _, rfl⟩ := List.mem_map.1 hx
      simp only [volumeOf]
      rw [← Finset.sum_sub_distrib]
      apply Finset.sum_nonpos
      intro p _
      simp only [Problem.c, physConc, htheta, hthQ, srcRate]
      cases hval : s.value with
      | given f => simp
      | decay lam =>
        have h0 := hsrc s hsm lam hval
        have := mul_nonneg h0 (mul_nonneg (hw p).le (sq_nonneg (u.val p)))
        simp only [hv, Fld.mul_val]
        have hup : u.val p = P.mv.sol.val p - Q.mv.sol.val p := rfl
        rw [hup] at this ⊢
        nlinarith
    have hB : (bcs.map (bcInflow P.mesh P.T.T.tr (P.cS fun _ => noMat) v.tr)).sum
        - (bcs.map (bcInflow P.mesh P.T.T.tr (Q.cS fun _ => noMat) v.tr)).sum ≤ 0 := by
      rw [← sum_sub_map]
      apply sum_nonpos'
      intro x hx
      obtain ⟨b, hb, rfl⟩ := List.mem_map.1 hx
      obtain ⟨f, surfs, rfl, hf⟩ := hbc b hb
      simp only [bcInflow]
      rw [← sum_sub_map]
      apply sum_nonpos'
      intro x hx
      obtain ⟨s, _, rfl⟩ := List.mem_map.1 hx
      simp only [surface]
      rw [← Finset.sum_sub_distrib]
      apply Finset.sum_nonpos
      intro q _
      simp only [Problem.cS, physConc, htheta, hthQ]
      have := mul_nonneg (neg_nonneg.2 (hf q)) (hws q)
      have hut : v.tr q = (weight P.mesh).tr q * (P.mv.sol.tr q - Q.mv.sol.tr q) := rfl
      rw [hut]
      nlinarith
    linarith
  -- traps
  have htr : ∀ p, ∃ g, 0 ≤ g ∧ (P.traps.map fun t => t.sol.val p).sum
      - (Q.traps.map fun t => t.sol.val p).sum = g * u.val p := by
    intro p
    have := hsame.traps
    clear hF hG eP eQ hprevT hsup
    generalize P.traps = l at *
    generalize Q.traps = l' at *
    induction this with
    | nil => exact ⟨0, le_rfl, by simp⟩
    | @cons t t' l l' h1 _ ih =>
      obtain ⟨g, hg, e⟩ := ih
        (fun t ht => htsrc t (List.mem_cons_of_mem _ ht))
        (fun t ht => htnd t (List.mem_cons_of_mem _ ht))
        (fun t ht => htprev t (List.mem_cons_of_mem _ ht))
        (fun t ht => htrates t (List.mem_cons_of_mem _ ht))
        (fun t ht => htrap t (List.mem_cons_of_mem _ ht))
        (fun t ht => htrap' t (List.mem_cons_of_mem _ ht))
      have hm := List.mem_cons_self (a := t) (l := l)
      have hm' := List.mem_cons_self (a := t') (l := l')
      obtain ⟨g', hg', e'⟩ := trap_monotone P.mesh P.mats P.mv Q.mv P.T h hh t t' h1 htheta hthQ
        (htrap t hm) (htrap' t' hm') (htsrc t hm) (htnd t hm) p (hwp p) (hc p) (hc' p)
        (htprev t hm p) (htrates t hm p)
      refine ⟨g + g', add_nonneg hg hg', ?_⟩
      simp only [List.map_cons, List.sum_cons]
      have : u.val p = P.mv.sol.val p - Q.mv.sol.val p := rfl
      rw [this] at e ⊢
      linear_combination e + e'
  -- conclusion
  have hmain : volume P.mesh (fun p => (weight P.mesh).val p * u.val p ^ 2) ≤ 0 := by
    have h1 : volume P.mesh (fun p => (weight P.mesh).val p * u.val p ^ 2)
        ≤ volume P.mesh (fun p => (P.mv.sol.val p + (P.traps.map fun t => t.sol.val p).sum) * v.val p)
          - volume P.mesh (fun p =>
              (Q.mv.sol.val p + (Q.traps.map fun t => t.sol.val p).sum) * v.val p) := by
      rw [← sub_nonneg, ← volume_sub, ← volume_sub]
      refine volume_nonneg _ _ fun p => ?_
      obtain ⟨g, hg, e⟩ := htr p
      have hup : u.val p = P.mv.sol.val p - Q.mv.sol.val p := rfl
      have := mul_nonneg hg (mul_nonneg (hw p).le (sq_nonneg (u.val p)))
      have e2 : P.mesh.w p * ((P.mv.sol.val p + (P.traps.map fun t => t.sol.val p).sum) * v.val p
          - (Q.mv.sol.val p + (Q.traps.map fun t => t.sol.val p).sum) * v.val p
          - (weight P.mesh).val p * u.val p ^ 2)
          = g * (P.mesh.w p * (weight P.mesh).val p * u.val p ^ 2) := by
        simp only [hv, Fld.mul_val]
        linear_combination (P.mesh.w p * (weight P.mesh).val p * u.val p) * e
          - (P.mesh.w p * (weight P.mesh).val p * u.val p) * hup
      rw [e2]
      exact this
    have h2 : (volume P.mesh (fun p =>
          (P.mv.sol.val p + (P.traps.map fun t => t.sol.val p).sum) * v.val p)
          - volume P.mesh (fun p =>
              (Q.mv.sol.val p + (Q.traps.map fun t => t.sol.val p).sum) * v.val p)) / h ≤ 0 := by
      rw [← hdiff] at hE0
      rw [sub_div] at eP eQ ⊢
      linarith
    have h3 := (div_le_iff₀ hh).1 h2
    linarith
  have hzero : ∀ p, u.val p = 0 := by
    intro p
    have hnn : ∀ x ∈ Finset.univ, 0 ≤ P.mesh.w x * ((weight P.mesh).val x * u.val x ^ 2) := by
      intro x _
      have := mul_nonneg (hw x).le (sq_nonneg (u.val x))
      nlinarith
    have h0 := (Finset.sum_eq_zero_iff_of_nonneg hnn).1
      (le_antisymm hmain (Finset.sum_nonneg hnn)) p (Finset.mem_univ p)
    rw [← mul_assoc] at h0
    have := (mul_eq_zero.1 h0).resolve_left (hw p).ne'
    exact pow_eq_zero_iff (two_ne_zero) |>.1 this
  have hcc : ∀ p, P.mv.sol.val p = Q.mv.sol.val p := fun p => by
    have : P.mv.sol.val p - Q.mv.sol.val p = 0 := hzero p
    linarith
  refine ⟨hcc, ?_⟩
  have := hsame.traps
  clear hF hG eP eQ hprevT hsup htr hmain
  generalize P.traps = l at *
  generalize Q.traps = l' at *
  induction this with
  | nil => exact List.Forall₂.nil
  | @cons t t' l l' h1 _ ih =>
    refine List.Forall₂.cons ?_ (ih
        (fun t ht => htsrc t (List.mem_cons_of_mem _ ht))
        (fun t ht => htnd t (List.mem_cons_of_mem _ ht))
        (fun t ht => htprev t (List.mem_cons_of_mem _ ht))
        (fun t ht => htrates t (List.mem_cons_of_mem _ ht))
        (fun t ht => htrap t (List.mem_cons_of_mem _ ht))
        (fun t ht => htrap' t (List.mem_cons_of_mem _ ht)))
    intro p
    have hm := List.mem_cons_self (a := t) (l := l)
    have hm' := List.mem_cons_self (a := t') (l := l')
    obtain ⟨g', hg', e'⟩ := trap_monotone P.mesh P.mats P.mv Q.mv P.T h hh t t' h1 htheta hthQ
      (htrap t hm) (htrap' t' hm') (htsrc t hm) (htnd t hm) p (hwp p) (hc p) (hc' p)
      (htprev t hm p) (htrates t hm p)
    rw [hcc p, sub_self, mul_zero] at e'
    linarith

end

namespace Case

/-! Concrete cases -/

/-- C49: the step of `BalanceCases` with the flux 2 on the first surface instead of the source. -/
noncomputable def probFlux : Problem (Fin 2) (Fin 2) 1 :=
  { probOf .cartesian 2 with sources := [], soret := false }

example : (∃ F, probFlux.form [.flux (.value fun _ => 2) [1]] (weight probFlux.mesh)
      (probFlux.traps.map fun _ => weight probFlux.mesh) = .ok F ∧ probFlux.mesh.assemble F = 0) ∧
    stockPrev probFlux [.flux (.value fun _ => 2) [1]] (fun _ => mat) (fun _ => mat) (Fld.const 1) = 4 ∧
    stock probFlux [.flux (.value fun _ => 2) [1]] (fun _ => mat) (fun _ => mat) (Fld.const 1) = 6 := by
  refine ⟨⟨_, rfl, ?_⟩, ?_, ?_⟩
  · simp [probFlux, probOf, meshOf, mat, trap, weight, mobileForm, Mesh.assemble, Mesh.integrate,
      Form.neg, diffusionForm, subdomainForm, Fld.const, dot, sourceForm, fluxesForm, MobBC.form,
      Flux.form, Src.at, Mobile.conc, trapSourceForm]
    norm_num
  · simp [stockPrev, probFlux, probOf, bcStock, volume, meshOf, Problem.cPrev, physConc, Fld.const,
      trap]
  · simp [stock, probFlux, probOf, bcStock, volume, meshOf, Problem.c, physConc, Fld.const, trap]
    norm_num

/-- C49, natural condition: one cell `[0, 1]`, `c = 3 x + 1`, a Dirichlet value on the left (the test
functions vanish there) and a flux on the right. -/
noncomputable def cell : Problem (Fin 1) (Fin 2) 1 where
  mesh := { w := fun _ => 1, vm := fun _ => 1, ws := fun _ => 1, sm := fun q => q.val + 1,
            vmS := fun _ => 1, r := ⟨fun _ => 1 / 2, fun _ _ => 1, fun q => q.val⟩,
            type := .cartesian }
  mats := [mat]
  mv := { theta := false, sol := ⟨fun _ => 5 / 2, fun _ _ => 3, ![1, 4]⟩, prev := Fld.const 0 }
  T := ⟨Fld.const 300, Fld.const 300⟩
  dt := none
  soret := false
  sources := []
  traps := []

def linearTests : Set (Fld (Fin 1) (Fin 2) 1) := {v | v.tr 0 = 0 ∧ v.grad 0 0 = v.tr 1}

/-- The flux value 3 solves the problem, the outward normal derivative is `+3`. -/
example : (∀ v ∈ linearTests, ∃ F, cell.form [.flux (.value fun _ => 3) [2]] v [] = .ok F ∧
      cell.mesh.assemble F = 0) ∧
    (∀ v ∈ linearTests, volume cell.mesh (fun p =>
        dot (gradFlux cell.soret false mat (cell.T.T.val p) (cell.mv.sol.val p) (cell.T.T.grad p)
          (cell.mv.sol.grad p)) (v.grad p)) = ∑ q, cell.mesh.ws q * ((![-3, 3] : Fin 2 → ℝ) q * v.tr q)) ∧
    ∃ v ∈ linearTests, v.tr 1 = 1 ∧ ∀ x, x ≠ 1 → v.tr x = 0 := by
  refine ⟨?_, ?_, ?_⟩
  · rintro v ⟨h0, h1⟩
    refine ⟨_, rfl, ?_⟩
    simp [cell, mat, mobileForm, Mesh.assemble, Mesh.integrate, Form.neg,
      diffusionForm, subdomainForm, Fld.const, dot, sourceForm, fluxesForm, MobBC.form, Flux.form,
      Mobile.conc, h1]
    ring
  · rintro v ⟨h0, h1⟩
    simp [cell, mat, volume, dot, gradFlux, physGrad, arr, h0, h1]
  · refine ⟨⟨fun _ => 0, fun _ _ => 1, ![0, 1]⟩, ⟨rfl, rfl⟩, rfl, ?_⟩
    intro x hx
    fin_cases x
    · rfl
    · exact absurd rfl hx

/-- C50, stability: from 2 to 1 with gradient 1. -/
noncomputable def decaying : Problem (Fin 1) (Fin 2) 1 :=
  { cell with dt := some 1,
              mv := { theta := false, sol := ⟨fun _ => 1, fun _ _ => 1, ![0, 0]⟩, prev := Fld.const 2 } }

example : ∃ F, decaying.form [] (weight decaying.mesh * decaying.mv.sol) [] = .ok F ∧
    decaying.mesh.assemble F = 0 := by
  refine ⟨_, rfl, ?_⟩
  simp [decaying, cell, mat, mobileForm, Mesh.assemble, Mesh.integrate, Form.neg,
      diffusionForm, subdomainForm, dot, sourceForm, fluxesForm, MobBC.form, Flux.form,
      Mobile.conc, weight]
  norm_num

/-- C50, uniqueness: the trap equation of `BalanceCases` is solved for every test function. -/
example : TrapSolved (probFlux).mesh probFlux.mats probFlux.mv probFlux.T (some 1) trap := by
  intro v
  refine ⟨_, rfl, ?_⟩
  simp [probFlux, probOf, trap, meshOf, mat, Mesh.assemble, Mesh.integrate, Mobile.conc,
    trapSourceForm, Fld.const]
  ring

example : SameStep probFlux probFlux where
  mesh := rfl
  mats := rfl
  temp := rfl
  dt := rfl
  soret := rfl
  theta := rfl
  prev := rfl
  sources := rfl
  traps := List.Forall₂.cons rfl List.Forall₂.nil

end Case

end Festim.Props
