import Verif.Props.Existence
import Verif.Props.Heat

/-!
# C105: accuracy of simulations in any dimension

Backward Euler and finite elements for the diffusion equation, in cartesian coordinates, on any mesh with any elements:
comparison of what a simulation computes with any other fields, by how much these fail to satisfy the weak form of the
diffusion equation.
-/

open scoped BigOperators

set_option linter.unusedSectionVars false

namespace Festim.Weak

section
variable {Ω Γ : Type} [Fintype Ω] [Fintype Γ] {d : ℕ}

/-- Root of the integral of the square. -/
noncomputable def l2 (m : Mesh Ω Γ d) (f : Ω → ℝ) : ℝ := Real.sqrt (volume m fun p => f p ^ 2)

/-- Diffusion coefficient at a point. -/
noncomputable def diffusivity (P : Problem Ω Γ d) (mat : Ω → Mat) (p : Ω) : ℝ :=
  arr (mat p).D_0 (mat p).E_D (P.T.T.val p)

/-- `∫ D |∇f|²`. -/
noncomputable def dirichletEnergy (P : Problem Ω Γ d) (mat : Ω → Mat) (f : Fld Ω Γ d) : ℝ :=
  volume P.mesh fun p => diffusivity P mat p * dot (f.grad p) (f.grad p)

/-- By how much a concentration `u` with time derivative `rate` fails to satisfy the weak form of the diffusion
equation, tested with `v`: accumulation, plus diffusion, minus the sources and the flux conditions. -/
noncomputable def defect (P : Problem Ω Γ d) (bcs : List (MobBC Γ)) (mat : Ω → Mat) (rate : Ω → ℝ) (u v : Fld Ω Γ d) :
    ℝ :=
  volume P.mesh (fun p => rate p * v.val p)
    + volume P.mesh (fun p => diffusivity P mat p * dot (u.grad p) (v.grad p))
    - (P.sources.map fun s => (s.volumes.map fun vol =>
        volumeOf P.mesh vol fun p => srcRate s (u.val p) p * v.val p).sum).sum
    - (bcs.map (bcInflow P.mesh P.T.T.tr u.tr v.tr)).sum

/-- A problem of diffusion in cartesian coordinates: no traps, no Soret effect, no chemical potential; any materials,
temperature, sources, radioactive decay and flux conditions. -/
structure Diffusive (P : Problem Ω Γ d) (bcs : List (MobBC Γ)) (mat : Ω → Mat) : Prop where
  cover : Covers P.mesh P.mats mat
  cartesian : P.mesh.type = .cartesian
  theta : P.mv.theta = false
  soret : P.soret = false
  traps : P.traps = []
  weights : ∀ p, 0 ≤ P.mesh.w p
  weightsS : ∀ q, 0 ≤ P.mesh.ws q
  D_nonneg : ∀ a ∈ P.mats, 0 ≤ a.D_0
  decay : ∀ s ∈ P.sources, ∀ lam, s.value = .decay lam → 0 ≤ lam
  fluxes : ∀ b ∈ bcs, ∃ f ss, b = .flux f ss

variable {P : Problem Ω Γ d} {bcs : List (MobBC Γ)} {mat : Ω → Mat}

theorem Diffusive.noSK (hP : Diffusive P bcs mat) : ∀ b vs, MobBC.sk b vs ∉ bcs := by
  intro b vs hm
  obtain ⟨f, ss, e⟩ := hP.fluxes _ hm
  cases e

theorem Diffusive.solubility (hP : Diffusive P bcs mat) : Solubility P mat fun _ => noMat :=
  ⟨by simp [hP.theta], by simp [hP.theta], by simp [hP.theta], by simp [hP.theta]⟩

theorem Diffusive.gradient (hP : Diffusive P bcs mat) (v : Fld Ω Γ d) (p : Ω) :
    dot (gradFlux P.soret P.mv.theta (mat p) (P.T.T.val p) (P.mv.sol.val p) (P.T.T.grad p) (P.mv.sol.grad p))
      (coordGrad P.mesh v p) = diffusivity P mat p * dot (P.mv.sol.grad p) (v.grad p) := by
  simp only [dot, Finset.mul_sum]
  refine Finset.sum_congr rfl fun i _ => ?_
  simp only [gradFlux, physGrad, coordGrad, hP.cartesian, hP.theta, hP.soret, Bool.false_eq_true, if_false, diffusivity]
  ring

/-- The residual of a transient step. -/
theorem Diffusive.residual (hP : Diffusive P bcs mat) (h : ℝ) (hdt : P.dt = some h) (v : Fld Ω Γ d) (F : Form Ω Γ)
    (hF : P.form bcs v [] = .ok F) :
    P.mesh.assemble F
      = defect P bcs mat (fun p => (P.mv.sol.val p - P.mv.prev.val p) / h) P.mv.sol v := by
  have hr : (P.mesh.type = .cylindrical ∨ P.mesh.type = .spherical) → ∀ p, P.mesh.r.val p ≠ 0 := by
    rw [hP.cartesian]; rintro (h | h) <;> cases h
  rw [Festim.Props.C41_weak_form P bcs mat _ h v F hdt hP.cover hP.solubility hr
    (fun b vs hm => absurd hm (hP.noSK b vs)) (Or.inl hP.theta) (by rw [hP.traps]; exact hF)]
  simp only [hP.gradient v]
  simp only [stock, stockPrev, bcStock_zero _ _ _ _ _ hP.noSK, hP.traps, List.map_nil, List.sum_nil, add_zero,
    supply, defect, Problem.c, Problem.cPrev, physConc, hP.theta]
  have e : (volume P.mesh (fun p => P.mv.sol.val p * v.val p) - volume P.mesh fun p => P.mv.prev.val p * v.val p) / h
      = volume P.mesh fun p => (P.mv.sol.val p - P.mv.prev.val p) / h * v.val p := by
    rw [← volume_sub, div_eq_inv_mul, ← volume_smul]
    congr 1
    funext p
    ring
  rw [e]
  have h2 : P.cS (fun _ => noMat) = P.mv.sol.tr := by
    funext q; simp [Problem.cS, physConc, hP.theta]
  rw [h2]
  ring

/-- The residual of a steady problem. -/
theorem Diffusive.residual_steady (hP : Diffusive P bcs mat) (hdt : P.dt = none) (v : Fld Ω Γ d) (F : Form Ω Γ)
    (hF : P.form bcs v [] = .ok F) : P.mesh.assemble F = defect P bcs mat (fun _ => 0) P.mv.sol v := by
  have hr : (P.mesh.type = .cylindrical ∨ P.mesh.type = .spherical) → ∀ p, P.mesh.r.val p ≠ 0 := by
    rw [hP.cartesian]; rintro (h | h) <;> cases h
  rw [steady_weak_traps P bcs mat _ v F hdt hP.cover hP.solubility hr (by rw [hP.traps]; simp) hP.noSK
    (by rw [hP.traps]; exact hF)]
  have h2 : P.cS (fun _ => noMat) = P.mv.sol.tr := by
    funext q; simp [Problem.cS, physConc, hP.theta]
  have h3 : volume P.mesh (fun p => (0 : ℝ) * v.val p) = 0 := by simp [volume]
  simp only [hP.gradient v]
  simp only [hP.traps, List.map_nil, List.sum_nil, add_zero, supply, defect, Problem.c, physConc, hP.theta, h2, h3]
  ring

/-- Cauchy-Schwarz. -/
theorem volume_mul_le (m : Mesh Ω Γ d) (hw : ∀ p, 0 ≤ m.w p) (f g : Ω → ℝ) :
    |volume m fun p => f p * g p| ≤ l2 m f * l2 m g := by
  have h := Finset.sum_mul_sq_le_sq_mul_sq Finset.univ (fun p => Real.sqrt (m.w p) * f p)
    (fun p => Real.sqrt (m.w p) * g p)
  have e1 : (∑ p, Real.sqrt (m.w p) * f p * (Real.sqrt (m.w p) * g p)) = volume m fun p => f p * g p := by
    unfold volume
    refine Finset.sum_congr rfl fun p _ => ?_
    have := Real.mul_self_sqrt (hw p)
    linear_combination f p * g p * this
  have e2 : ∀ k : Ω → ℝ, (∑ p, (Real.sqrt (m.w p) * k p) ^ 2) = volume m fun p => k p ^ 2 := by
    intro k
    unfold volume
    refine Finset.sum_congr rfl fun p _ => ?_
    rw [mul_pow, Real.sq_sqrt (hw p)]
  rw [e1, e2, e2] at h
  unfold l2
  rw [← Real.sqrt_mul (volume_nonneg m (fun p => f p ^ 2) fun p => mul_nonneg (hw p) (sq_nonneg _))]
  exact Real.abs_le_sqrt h

theorem l2_nonneg (m : Mesh Ω Γ d) (f : Ω → ℝ) : 0 ≤ l2 m f := Real.sqrt_nonneg _

theorem l2_sq (m : Mesh Ω Γ d) (hw : ∀ p, 0 ≤ m.w p) (f : Ω → ℝ) : l2 m f ^ 2 = volume m fun p => f p ^ 2 :=
  Real.sq_sqrt (Finset.sum_nonneg fun p _ => mul_nonneg (hw p) (sq_nonneg _))

theorem l2_add (m : Mesh Ω Γ d) (hw : ∀ p, 0 ≤ m.w p) (f g : Ω → ℝ) :
    l2 m (fun p => f p + g p) ≤ l2 m f + l2 m g := by
  apply abs_le_of_sq_le_sq' _ (add_nonneg (l2_nonneg m f) (l2_nonneg m g)) |>.2
  rw [l2_sq m hw]
  have h := (abs_le.1 (volume_mul_le m hw f g)).2
  have e : (volume m fun p => (f p + g p) ^ 2)
      = l2 m f ^ 2 + 2 * (volume m fun p => f p * g p) + l2 m g ^ 2 := by
    rw [l2_sq m hw, l2_sq m hw, ← volume_smul, ← volume_add, ← volume_add]
    congr 1
    funext p
    ring
  rw [e]
  nlinarith

theorem l2_smul (m : Mesh Ω Γ d) (k : ℝ) (hk : 0 ≤ k) (f : Ω → ℝ) : l2 m (fun p => k * f p) = k * l2 m f := by
  unfold l2
  have : (volume m fun p => (k * f p) ^ 2) = k ^ 2 * volume m fun p => f p ^ 2 := by
    rw [← volume_smul]
    congr 1
    funext p
    ring
  rw [this, Real.sqrt_mul (sq_nonneg k), Real.sqrt_sq hk]

theorem l2_neg (m : Mesh Ω Γ d) (f : Ω → ℝ) : l2 m (fun p => -f p) = l2 m f := by
  unfold l2
  simp

theorem Diffusive.diffusivity_nonneg (hP : Diffusive P bcs mat) (p : Ω) : 0 ≤ diffusivity P mat p := by
  have := hP.D_nonneg _ (hP.cover.mem p)
  unfold diffusivity arr
  positivity

theorem Diffusive.energy_nonneg (hP : Diffusive P bcs mat) (f : Fld Ω Γ d) : 0 ≤ dirichletEnergy P mat f :=
  volume_nonneg _ _ fun p => mul_nonneg (hP.weights p) (mul_nonneg (hP.diffusivity_nonneg p) (dot_self_nonneg _))

theorem sum_sub_nonpos {β : Type} (l : List β) (f g : β → ℝ) (h : ∀ x ∈ l, f x - g x ≤ 0) :
    (l.map f).sum - (l.map g).sum ≤ 0 := by
  induction l with
  | nil => simp
  | cons x l ih =>
    have h1 := h x (by simp)
    have h2 := ih fun y hy => h y (by simp [hy])
    simp only [List.map_cons, List.sum_cons]
    linarith

/-- Two fields: the difference of their defects, tested with their difference, controls that difference. -/
theorem Diffusive.monotone (hP : Diffusive P bcs mat) (r s : Ω → ℝ) (u w : Fld Ω Γ d)
    (hmono : ∀ f ss, MobBC.flux f ss ∈ bcs → ∀ q, f.Monotone (P.T.T.tr q) (u.tr q) (w.tr q) q) :
    volume P.mesh (fun p => (r p - s p) * (u.val p - w.val p)) + dirichletEnergy P mat (u - w)
      ≤ defect P bcs mat r u (u - w) - defect P bcs mat s w (u - w) := by
  have e1 : volume P.mesh (fun p => r p * (u - w).val p) - volume P.mesh (fun p => s p * (u - w).val p)
      = volume P.mesh (fun p => (r p - s p) * (u.val p - w.val p)) := by
    rw [← volume_sub]
    congr 1
    funext p
    simp only [Fld.sub_val]
    ring
  have e2 : volume P.mesh (fun p => diffusivity P mat p * dot (u.grad p) ((u - w).grad p))
      - volume P.mesh (fun p => diffusivity P mat p * dot (w.grad p) ((u - w).grad p)) = dirichletEnergy P mat (u - w) := by
    unfold dirichletEnergy
    rw [← volume_sub]
    congr 1
    funext p
    simp only [dot, Finset.mul_sum, ← Finset.sum_sub_distrib, Fld.sub_grad]
    refine Finset.sum_congr rfl fun i _ => ?_
    ring
  have e3 : (P.sources.map fun s => (s.volumes.map fun vol => volumeOf P.mesh vol fun p =>
        srcRate s (u.val p) p * (u - w).val p).sum).sum
      - (P.sources.map fun s => (s.volumes.map fun vol => volumeOf P.mesh vol fun p =>
        srcRate s (w.val p) p * (u - w).val p).sum).sum ≤ 0 := by
    apply sum_sub_nonpos
    intro s hs
    apply sum_sub_nonpos
    intro vol hv
    unfold volumeOf
    rw [← Finset.sum_sub_distrib]
    apply Finset.sum_nonpos
    intro p _
    rw [← mul_sub, ← sub_mul]
    apply mul_nonpos_of_nonneg_of_nonpos (hP.weights p)
    cases hsv : s.value with
    | given f => simp [srcRate, hsv]
    | decay lam =>
      have := hP.decay s hs lam hsv
      simp only [srcRate, hsv, Fld.sub_val]
      nlinarith [mul_nonneg this (sq_nonneg (u.val p - w.val p))]
  have e4 : (bcs.map (bcInflow P.mesh P.T.T.tr u.tr (u - w).tr)).sum
      - (bcs.map (bcInflow P.mesh P.T.T.tr w.tr (u - w).tr)).sum ≤ 0 := by
    apply sum_sub_nonpos
    intro b hb
    obtain ⟨f, ss, rfl⟩ := hP.fluxes b hb
    simp only [bcInflow]
    apply sum_sub_nonpos
    intro s hs
    unfold surface
    rw [← Finset.sum_sub_distrib]
    apply Finset.sum_nonpos
    intro q _
    rw [← mul_sub, ← sub_mul]
    exact mul_nonpos_of_nonneg_of_nonpos (hP.weightsS q) (hmono f ss hb q)
  unfold defect
  linarith

end

section
variable {Ω Γ : Type} [Fintype Ω] [Fintype Γ] {d : ℕ}

/-- Flux conditions which depend on the concentration in an affine way. -/
def Flux.Affine : Flux Γ → Prop
  | .recomb _ _ _ => False
  | .custom _ => False
  | .mass h _ => ∀ q, 0 ≤ h q
  | _ => True

/-- Exchange coefficient of a flux condition. -/
def Flux.exchange : Flux Γ → Γ → ℝ
  | .mass h _ => h
  | _ => fun _ => 0

theorem Flux.Affine.diff {f : Flux Γ} (hf : f.Affine) (T c c' : ℝ) (q : Γ) :
    inward f T c q - inward f T c' q = -(f.exchange q * (c - c')) := by
  cases f with
  | recomb K E o => exact absurd hf (by simp [Flux.Affine])
  | custom g => exact absurd hf (by simp [Flux.Affine])
  | mass h ce => simp only [inward, Flux.exchange]; ring
  | value g => simp [inward, Flux.exchange]
  | dissoc K E pr => simp [inward, Flux.exchange]
  | convective h Te => simp [inward, Flux.exchange]

theorem Flux.Affine.exchange_nonneg {f : Flux Γ} (hf : f.Affine) (q : Γ) : 0 ≤ f.exchange q := by
  cases f with
  | mass h ce => exact hf q
  | _ => simp [Flux.exchange]

/-- Exchange with the surroundings through a flux condition. -/
def bcExch (m : Mesh Ω Γ d) (f g : Γ → ℝ) : MobBC Γ → ℝ
  | .flux k ss => (ss.map fun s => surface m s fun q => k.exchange q * (f q * g q)).sum
  | .sk _ _ => 0

/-- The bilinear form of the steady equation: diffusion, radioactive decay and exchange through the surfaces. -/
noncomputable def energyForm (P : Problem Ω Γ d) (bcs : List (MobBC Γ)) (mat : Ω → Mat) (f g : Fld Ω Γ d) : ℝ :=
  volume P.mesh (fun p => diffusivity P mat p * dot (f.grad p) (g.grad p))
    + (P.sources.map fun s => (s.volumes.map fun vol =>
        volumeOf P.mesh vol fun p => s.lam * (f.val p * g.val p)).sum).sum
    + (bcs.map (bcExch P.mesh f.tr g.tr)).sum

variable {P : Problem Ω Γ d} {bcs : List (MobBC Γ)} {mat : Ω → Mat}

theorem list_expand {β : Type} (l : List β) (F A B C : β → ℝ) (h : ∀ x ∈ l, F x = A x + 2 * B x + C x) :
    (l.map F).sum = (l.map A).sum + 2 * (l.map B).sum + (l.map C).sum := by
  induction l with
  | nil => simp
  | cons x l ih =>
    simp only [List.map_cons, List.sum_cons]
    rw [h x (by simp), ih fun y hy => h y (by simp [hy])]
    ring

theorem list_diff {β : Type} (l : List β) (F A B : β → ℝ) (h : ∀ x ∈ l, F x = A x - B x) :
    (l.map F).sum = (l.map A).sum - (l.map B).sum := by
  induction l with
  | nil => simp
  | cons x l ih =>
    simp only [List.map_cons, List.sum_cons]
    rw [h x (by simp), ih fun y hy => h y (by simp [hy])]
    ring

theorem list_sum_nonneg' (l : List ℝ) (h : ∀ x ∈ l, 0 ≤ x) : 0 ≤ l.sum := List.sum_nonneg h

/-- Pythagoras: the energy of a sum. -/
theorem energy_expand (u c w : Fld Ω Γ d) :
    energyForm P bcs mat (w - u) (w - u)
      = energyForm P bcs mat (c - u) (c - u) + 2 * energyForm P bcs mat (c - u) (w - c)
        + energyForm P bcs mat (w - c) (w - c) := by
  have e1 : volume P.mesh (fun p => diffusivity P mat p * dot ((w - u).grad p) ((w - u).grad p))
      = volume P.mesh (fun p => diffusivity P mat p * dot ((c - u).grad p) ((c - u).grad p))
        + 2 * volume P.mesh (fun p => diffusivity P mat p * dot ((c - u).grad p) ((w - c).grad p))
        + volume P.mesh (fun p => diffusivity P mat p * dot ((w - c).grad p) ((w - c).grad p)) := by
    rw [← volume_smul, ← volume_add, ← volume_add]
    congr 1
    funext p
    simp only [dot, Finset.mul_sum, ← Finset.sum_add_distrib, Fld.sub_grad]
    refine Finset.sum_congr rfl fun i _ => ?_
    ring
  have e2 : (P.sources.map fun s => (s.volumes.map fun vol =>
        volumeOf P.mesh vol fun p => s.lam * ((w - u).val p * (w - u).val p)).sum).sum
      = (P.sources.map fun s => (s.volumes.map fun vol =>
          volumeOf P.mesh vol fun p => s.lam * ((c - u).val p * (c - u).val p)).sum).sum
        + 2 * (P.sources.map fun s => (s.volumes.map fun vol =>
          volumeOf P.mesh vol fun p => s.lam * ((c - u).val p * (w - c).val p)).sum).sum
        + (P.sources.map fun s => (s.volumes.map fun vol =>
          volumeOf P.mesh vol fun p => s.lam * ((w - c).val p * (w - c).val p)).sum).sum := by
    apply list_expand
    intro s _
    apply list_expand
    intro vol _
    rw [← volumeOf_smul, ← volumeOf_add, ← volumeOf_add]
    congr 1
    funext p
    simp only [Fld.sub_val]
    ring
  have e3 : (bcs.map (bcExch P.mesh (w - u).tr (w - u).tr)).sum
      = (bcs.map (bcExch P.mesh (c - u).tr (c - u).tr)).sum
        + 2 * (bcs.map (bcExch P.mesh (c - u).tr (w - c).tr)).sum
        + (bcs.map (bcExch P.mesh (w - c).tr (w - c).tr)).sum := by
    apply list_expand
    intro b _
    cases b with
    | sk b vs => simp [bcExch]
    | flux f ss =>
      simp only [bcExch]
      apply list_expand
      intro s _
      rw [← surface_smul, ← surface_add, ← surface_add]
      congr 1
      funext q
      simp only [Fld.sub_tr]
      ring
  unfold energyForm
  rw [e1, e2, e3]
  ring

/-- The energy is not negative and controls the gradient. -/
theorem Diffusive.dirichlet_le_energy (hP : Diffusive P bcs mat) (haff : ∀ f ss, MobBC.flux f ss ∈ bcs → f.Affine)
    (f : Fld Ω Γ d) : dirichletEnergy P mat f ≤ energyForm P bcs mat f f := by
  have h1 : 0 ≤ (P.sources.map fun s => (s.volumes.map fun vol =>
      volumeOf P.mesh vol fun p => s.lam * (f.val p * f.val p)).sum).sum := by
    apply list_sum_nonneg'
    intro x hx
    obtain ⟨s, hs, rfl⟩ := List.mem_map.1 hx
    apply list_sum_nonneg'
    intro x hx
    obtain ⟨vol, _, rfl⟩ := List.mem_map.1 hx
    refine Finset.sum_nonneg fun p _ => mul_nonneg (hP.weights p) (mul_nonneg ?_ (mul_self_nonneg _))
    unfold Src.lam
    cases hv : s.value with
    | given g => simp
    | decay lam => exact hP.decay s hs lam hv
  have h2 : 0 ≤ (bcs.map (bcExch P.mesh f.tr f.tr)).sum := by
    apply list_sum_nonneg'
    intro x hx
    obtain ⟨b, hb, rfl⟩ := List.mem_map.1 hx
    obtain ⟨k, ss, rfl⟩ := hP.fluxes b hb
    apply list_sum_nonneg'
    intro x hx
    obtain ⟨s, _, rfl⟩ := List.mem_map.1 hx
    exact Finset.sum_nonneg fun q _ =>
      mul_nonneg (hP.weightsS q) (mul_nonneg ((haff k ss hb).exchange_nonneg q) (mul_self_nonneg _))
  unfold energyForm dirichletEnergy
  linarith

/-- The defect is affine. -/
theorem Diffusive.defect_diff (hP : Diffusive P bcs mat) (haff : ∀ f ss, MobBC.flux f ss ∈ bcs → f.Affine)
    (r : Ω → ℝ) (c u v : Fld Ω Γ d) :
    energyForm P bcs mat (c - u) v = defect P bcs mat r c v - defect P bcs mat r u v := by
  have e1 : volume P.mesh (fun p => diffusivity P mat p * dot ((c - u).grad p) (v.grad p))
      = volume P.mesh (fun p => diffusivity P mat p * dot (c.grad p) (v.grad p))
        - volume P.mesh (fun p => diffusivity P mat p * dot (u.grad p) (v.grad p)) := by
    rw [← volume_sub]
    congr 1
    funext p
    simp only [dot, Finset.mul_sum, ← Finset.sum_sub_distrib, Fld.sub_grad]
    refine Finset.sum_congr rfl fun i _ => ?_
    ring
  have e2 : (P.sources.map fun s => (s.volumes.map fun vol =>
        volumeOf P.mesh vol fun p => s.lam * ((c - u).val p * v.val p)).sum).sum
      = (P.sources.map fun s => (s.volumes.map fun vol =>
          volumeOf P.mesh vol fun p => srcRate s (u.val p) p * v.val p).sum).sum
        - (P.sources.map fun s => (s.volumes.map fun vol =>
          volumeOf P.mesh vol fun p => srcRate s (c.val p) p * v.val p).sum).sum := by
    apply list_diff
    intro s _
    apply list_diff
    intro vol _
    unfold volumeOf
    rw [← Finset.sum_sub_distrib]
    refine Finset.sum_congr rfl fun p _ => ?_
    simp only [Fld.sub_val, Src.lam, srcRate]
    cases s.value <;> simp only <;> ring
  have e3 : (bcs.map (bcExch P.mesh (c - u).tr v.tr)).sum
      = (bcs.map (bcInflow P.mesh P.T.T.tr u.tr v.tr)).sum
        - (bcs.map (bcInflow P.mesh P.T.T.tr c.tr v.tr)).sum := by
    apply list_diff
    intro b hb
    obtain ⟨k, ss, rfl⟩ := hP.fluxes b hb
    simp only [bcExch, bcInflow]
    apply list_diff
    intro s _
    unfold surface
    rw [← Finset.sum_sub_distrib]
    refine Finset.sum_congr rfl fun q _ => ?_
    have := (haff k ss hb).diff (P.T.T.tr q) (c.tr q) (u.tr q) q
    simp only [Fld.sub_tr]
    linear_combination (P.mesh.ws q * v.tr q) * this
  unfold energyForm defect
  rw [e1, e2, e3]
  ring

end

/-- A recursive inequality: `x² ≤ x (y + a) + b²/4` at each step. -/
theorem step_bound (x : ℕ → ℝ) (a b : ℕ → ℝ) (hx : ∀ n, 0 ≤ x n) (ha : ∀ n, 0 ≤ a n)
    (h : ∀ n, x (n + 1) ^ 2 ≤ x (n + 1) * (x n + a n) + b n / 4) (hb : ∀ n, 0 ≤ b n) (n : ℕ) :
    x n ≤ ∑ k ∈ Finset.range n, a k + Real.sqrt (x 0 ^ 2 + (∑ k ∈ Finset.range n, b k) / 2) := by
  induction n with
  | zero => simp [Real.sqrt_sq (hx 0)]
  | succ n ih =>
    rw [Finset.sum_range_succ, Finset.sum_range_succ]
    set A := ∑ k ∈ Finset.range n, a k
    set B := ∑ k ∈ Finset.range n, b k
    have hA : 0 ≤ A := Finset.sum_nonneg fun k _ => ha k
    have hB : 0 ≤ B := Finset.sum_nonneg fun k _ => hb k
    set S := Real.sqrt (x 0 ^ 2 + B / 2)
    set S' := Real.sqrt (x 0 ^ 2 + (B + b n) / 2)
    have hS : 0 ≤ S := Real.sqrt_nonneg _
    have hS' : 0 ≤ S' := Real.sqrt_nonneg _
    have hSS : S ≤ S' := Real.sqrt_le_sqrt (by have := hb n; linarith)
    have e1 : S ^ 2 = x 0 ^ 2 + B / 2 := Real.sq_sqrt (by positivity)
    have e2 : S' ^ 2 = x 0 ^ 2 + (B + b n) / 2 := Real.sq_sqrt (by have := hb n; positivity)
    by_contra hc
    push Not at hc
    have h1 := h n
    have h2 : x (n + 1) * (x n + a n) ≤ x (n + 1) * (A + S + a n) :=
      mul_le_mul_of_nonneg_left (by linarith) (hx _)
    have hpos : 0 ≤ x (n + 1) - A - a n - S := by linarith
    have h3 : S' * (x (n + 1) - A - a n - S) ≤ x (n + 1) * (x (n + 1) - A - a n - S) :=
      mul_le_mul_of_nonneg_right (by have := ha n; linarith) hpos
    have h4 : S' * (S' - S) ≤ S' * (x (n + 1) - A - a n - S) := mul_le_mul_of_nonneg_left (by linarith) hS'
    rcases eq_or_lt_of_le hSS with heq | hlt
    · have hb0 : b n = 0 := by
        have : S ^ 2 = S' ^ 2 := by rw [heq]
        linarith
      have h5 : 0 < x (n + 1) := by have := ha n; linarith
      have h6 : 0 < x (n + 1) * (x (n + 1) - A - a n - S) := mul_pos h5 (by linarith)
      nlinarith
    · have h5 : 0 < S' := lt_of_le_of_lt hS hlt
      have h6 : S' * (S' - S) < S' * (x (n + 1) - A - a n - S) := mul_lt_mul_of_pos_left (by linarith) h5
      nlinarith

end Festim.Weak

namespace Festim.Props

open Festim.Weak

section
variable {Ω Γ : Type} [Fintype Ω] [Fintype Γ] {d : ℕ}

/-- The fields `c 0, c 1, ...` are the successive solutions of a transient simulation: step `n`, of length `h n`, solves
the problem `Ps n` up to `ρ n` for all the test functions `V`, on the mesh `m`. -/
structure Stepped (m : Mesh Ω Γ d) (V : Set (Fld Ω Γ d)) (Ps : ℕ → Problem Ω Γ d) (bcs : ℕ → List (MobBC Γ))
    (mat : ℕ → Ω → Mat) (h ρ : ℕ → ℝ) (c : ℕ → Fld Ω Γ d) : Prop where
  problem : ∀ n, Diffusive (Ps n) (bcs n) (mat n)
  mesh : ∀ n, (Ps n).mesh = m
  positive : ∀ n, 0 < h n
  dt : ∀ n, (Ps n).dt = some (h n)
  sol : ∀ n, (Ps n).mv.sol = c (n + 1)
  prev : ∀ n, (Ps n).mv.prev = c n
  solved : ∀ n, ∀ v ∈ V, ∃ F, (Ps n).form (bcs n) v [] = .ok F ∧ |m.assemble F| ≤ ρ n * l2 m v.val

/-- **C105.** Transient simulations in any dimension, on any mesh and with any elements: compared with any other fields
`w n` with the same Dirichlet values, if these satisfy the weak diffusion equation discretised in time up to
`ε n ‖v‖ + η n ‖v‖_D` then the distance in L² is at most the initial one, increased by the sum of the defects. -/
theorem C105_transient {m : Mesh Ω Γ d} {V : Set (Fld Ω Γ d)} {Ps : ℕ → Problem Ω Γ d} {bcs : ℕ → List (MobBC Γ)}
    {mat : ℕ → Ω → Mat} {h ρ : ℕ → ℝ} {c : ℕ → Fld Ω Γ d} (hS : Stepped m V Ps bcs mat h ρ c)
    (w : ℕ → Fld Ω Γ d) (ε η : ℕ → ℝ) (hρ : ∀ n, 0 ≤ ρ n) (hε : ∀ n, 0 ≤ ε n)
    (hV : ∀ n, c (n + 1) - w (n + 1) ∈ V)
    (hmono : ∀ n f ss, MobBC.flux f ss ∈ bcs n → ∀ q,
      f.Monotone ((Ps n).T.T.tr q) ((c (n + 1)).tr q) ((w (n + 1)).tr q) q)
    (hw : ∀ n, ∀ v ∈ V, |defect (Ps n) (bcs n) (mat n) (fun p => ((w (n + 1)).val p - (w n).val p) / h n) (w (n + 1)) v|
      ≤ ε n * l2 m v.val + η n * Real.sqrt (dirichletEnergy (Ps n) (mat n) v)) (n : ℕ) :
    l2 m (fun p => (c n).val p - (w n).val p)
      ≤ ∑ k ∈ Finset.range n, h k * (ε k + ρ k)
        + Real.sqrt (l2 m (fun p => (c 0).val p - (w 0).val p) ^ 2
            + (∑ k ∈ Finset.range n, h k * η k ^ 2) / 2) := by
  have hwt : ∀ p, 0 ≤ m.w p := by
    intro p
    have := (hS.problem 0).weights p
    rwa [hS.mesh 0] at this
  refine step_bound (fun n => l2 m fun p => (c n).val p - (w n).val p) (fun k => h k * (ε k + ρ k))
    (fun k => h k * η k ^ 2) (fun n => l2_nonneg _ _)
    (fun n => mul_nonneg (hS.positive n).le (add_nonneg (hε n) (hρ n))) ?_
    (fun n => mul_nonneg (hS.positive n).le (sq_nonneg _)) n
  intro n
  have hP := hS.problem n
  have hh := hS.positive n
  set u := c (n + 1)
  set z := w (n + 1)
  obtain ⟨F, hF, hres⟩ := hS.solved n (u - z) (hV n)
  have e := hP.residual (h n) (hS.dt n) (u - z) F hF
  rw [hS.mesh n, hS.sol n, hS.prev n] at e
  have hm := hP.monotone (fun p => (u.val p - (c n).val p) / h n) (fun p => (z.val p - (w n).val p) / h n) u z
    (hmono n)
  have hd := hw n (u - z) (hV n)
  rw [hS.mesh n] at hm
  set x := l2 m fun p => u.val p - z.val p
  set y := l2 m fun p => (c n).val p - (w n).val p
  have hx0 : 0 ≤ x := l2_nonneg _ _
  have hxv : l2 m (u - z).val = x := rfl
  rw [hxv] at hres hd
  have e1 : (volume m fun p => ((u.val p - (c n).val p) / h n - (z.val p - (w n).val p) / h n) * (u.val p - z.val p))
      = (x ^ 2 - volume m fun p => ((c n).val p - (w n).val p) * (u.val p - z.val p)) / h n := by
    rw [l2_sq m hwt, ← volume_sub, div_eq_inv_mul, ← volume_smul]
    congr 1
    funext p
    ring
  have e2 := (abs_le.1 (volume_mul_le m hwt (fun p => (c n).val p - (w n).val p) (fun p => u.val p - z.val p))).2
  set G := Real.sqrt (dirichletEnergy (Ps n) (mat n) (u - z))
  have hG : dirichletEnergy (Ps n) (mat n) (u - z) = G ^ 2 := (Real.sq_sqrt (hP.energy_nonneg _)).symm
  rw [e1, hG] at hm
  have hr1 := (abs_le.1 hres).2
  rw [e] at hr1
  have hd1 := (abs_le.1 hd).1
  have key : (x ^ 2 - volume m fun p => ((c n).val p - (w n).val p) * (u.val p - z.val p)) / h n
      ≤ (ε n + ρ n) * x + η n ^ 2 / 4 := by
    have : η n * G - G ^ 2 ≤ η n ^ 2 / 4 := by nlinarith [sq_nonneg (η n - 2 * G)]
    linarith
  rw [div_le_iff₀ hh] at key
  have e3 : (volume m fun p => ((c n).val p - (w n).val p) * (u.val p - z.val p)) ≤ y * x := e2
  show x ^ 2 ≤ x * (y + h n * (ε n + ρ n)) + h n * η n ^ 2 / 4
  nlinarith

/-- The field `c` is the solution of a steady simulation with the test functions `V`. -/
structure SteadySolved (V : Set (Fld Ω Γ d)) (P : Problem Ω Γ d) (bcs : List (MobBC Γ)) (mat : Ω → Mat)
    (c : Fld Ω Γ d) : Prop where
  problem : Diffusive P bcs mat
  dt : P.dt = none
  sol : P.mv.sol = c
  solved : ∀ v ∈ V, ∃ F, P.form bcs v [] = .ok F ∧ P.mesh.assemble F = 0

/-- **C105.** A steady simulation (with fluxes which are affine in the concentration) is the best approximation, in any
dimension: if `u` satisfies the weak diffusion equation up to `η` for the test functions of the simulation, the
energy of the error is at most `η²` more than that of any other field `w` with the same Dirichlet values. -/
theorem C105_best {V : Set (Fld Ω Γ d)} {P : Problem Ω Γ d} {bcs : List (MobBC Γ)} {mat : Ω → Mat} {c : Fld Ω Γ d}
    (hS : SteadySolved V P bcs mat c) (haff : ∀ f ss, MobBC.flux f ss ∈ bcs → f.Affine)
    (u w : Fld Ω Γ d) (η : ℝ) (hV : w - c ∈ V)
    (hu : ∀ v ∈ V, |defect P bcs mat (fun _ => 0) u v| ≤ η * Real.sqrt (energyForm P bcs mat v v)) :
    energyForm P bcs mat (c - u) (c - u) ≤ energyForm P bcs mat (w - u) (w - u) + η ^ 2 := by
  have hP := hS.problem
  obtain ⟨F, hF, h0⟩ := hS.solved _ hV
  have e := hP.residual_steady hS.dt (w - c) F hF
  rw [h0, hS.sol] at e
  have e1 := hP.defect_diff haff (fun _ => 0) c u (w - c)
  rw [← e] at e1
  have e2 := energy_expand (P := P) (bcs := bcs) (mat := mat) u c w
  have e3 := (abs_le.1 (hu _ hV)).2
  have hE : 0 ≤ energyForm P bcs mat (w - c) (w - c) :=
    (hP.energy_nonneg _).trans (hP.dirichlet_le_energy haff _)
  set G := Real.sqrt (energyForm P bcs mat (w - c) (w - c))
  have hG : energyForm P bcs mat (w - c) (w - c) = G ^ 2 := (Real.sq_sqrt hE).symm
  rw [e2, e1, hG]
  nlinarith [sq_nonneg (G - η)]

/-- **C105.** Refining the mesh or raising the degree of the elements, so that what could be represented still can be,
does not make the energy of the error larger: `c'` is computed with the richer elements, `c` is any field which they
can represent, for instance the previous solution. -/
theorem C105_refined {V' : Set (Fld Ω Γ d)} {P' : Problem Ω Γ d} {bcs : List (MobBC Γ)} {mat : Ω → Mat}
    {c c' : Fld Ω Γ d} (hS' : SteadySolved V' P' bcs mat c')
    (haff : ∀ f ss, MobBC.flux f ss ∈ bcs → f.Affine) (u : Fld Ω Γ d) (hV : c - c' ∈ V')
    (hu : ∀ v ∈ V', defect P' bcs mat (fun _ => 0) u v = 0) :
    energyForm P' bcs mat (c' - u) (c' - u) ≤ energyForm P' bcs mat (c - u) (c - u) := by
  have := C105_best hS' haff u c 0 hV (fun v hv => by rw [hu v hv]; simp)
  simpa using this

/-- **C105.** A steady simulation with any monotone fluxes (recombination included): the gradient of the difference with
any field `w` with the same Dirichlet values is at most the defect of `w`. -/
theorem C105_steady {V : Set (Fld Ω Γ d)} {P : Problem Ω Γ d} {bcs : List (MobBC Γ)} {mat : Ω → Mat} {c : Fld Ω Γ d}
    (hS : SteadySolved V P bcs mat c) (w : Fld Ω Γ d) (η : ℝ) (hη : 0 ≤ η) (hV : c - w ∈ V)
    (hmono : ∀ f ss, MobBC.flux f ss ∈ bcs → ∀ q, f.Monotone (P.T.T.tr q) (c.tr q) (w.tr q) q)
    (hw : ∀ v ∈ V, |defect P bcs mat (fun _ => 0) w v| ≤ η * Real.sqrt (dirichletEnergy P mat v)) :
    Real.sqrt (dirichletEnergy P mat (c - w)) ≤ η := by
  have hP := hS.problem
  obtain ⟨F, hF, h0⟩ := hS.solved _ hV
  have e := hP.residual_steady hS.dt (c - w) F hF
  rw [h0, hS.sol] at e
  have hm := hP.monotone (fun _ => 0) (fun _ => 0) c w hmono
  have e0 : volume P.mesh (fun p => ((0 : ℝ) - 0) * (c.val p - w.val p)) = 0 := by simp [volume]
  rw [e0, ← e] at hm
  have h1 := (abs_le.1 (hw _ hV)).1
  set G := Real.sqrt (dirichletEnergy P mat (c - w))
  have hG : dirichletEnergy P mat (c - w) = G ^ 2 := (Real.sq_sqrt (hP.energy_nonneg _)).symm
  have hG0 : 0 ≤ G := Real.sqrt_nonneg _
  rw [hG] at hm
  by_contra hc
  push Not at hc
  nlinarith

/-- **C105.** Accuracy of a transient simulation: let `u n` satisfy the weak diffusion equation at the times of the
steps with the time derivative `u' n`, and let `R n` be its elliptic projections on the finite elements.  If the
projections are within `δ` of `u`, the error of the projection changes at a rate at most `κ`, and the backward
differences are those of a function with second derivative at most `M`, then the L² error of the simulation is at most
`δ`, plus the distance between the initial condition and the projection, plus the time multiplied by
`κ + M Δt / 2`. -/
theorem C105_accuracy {m : Mesh Ω Γ d} {V : Set (Fld Ω Γ d)} {Ps : ℕ → Problem Ω Γ d} {bcs : ℕ → List (MobBC Γ)}
    {mat : ℕ → Ω → Mat} {h ρ : ℕ → ℝ} {c : ℕ → Fld Ω Γ d} (hS : Stepped m V Ps bcs mat h ρ c)
    (u R : ℕ → Fld Ω Γ d) (u' : ℕ → Ω → ℝ) (δ κ M Δ ρ₀ : ℝ) (hρ : ∀ n, 0 ≤ ρ n ∧ ρ n ≤ ρ₀)
    (hΔ : ∀ n, h n ≤ Δ) (hM : 0 ≤ M) (hV : ∀ n, c (n + 1) - R (n + 1) ∈ V)
    (hmono : ∀ n f ss, MobBC.flux f ss ∈ bcs n → ∀ q,
      f.Monotone ((Ps n).T.T.tr q) ((c (n + 1)).tr q) ((R (n + 1)).tr q) q)
    (hu : ∀ n, ∀ v ∈ V, defect (Ps n) (bcs n) (mat n) (u' (n + 1)) (u (n + 1)) v = 0)
    (hR : ∀ n, ∀ v ∈ V, defect (Ps n) (bcs n) (mat n) (fun _ => 0) (R (n + 1)) v
      = defect (Ps n) (bcs n) (mat n) (fun _ => 0) (u (n + 1)) v)
    (hδ : ∀ n, l2 m (fun p => (R n).val p - (u n).val p) ≤ δ)
    (hκ : ∀ n, l2 m (fun p => ((R (n + 1)).val p - (u (n + 1)).val p) - ((R n).val p - (u n).val p)) ≤ κ * h n)
    (hu' : ∀ n, l2 m (fun p => (u (n + 1)).val p - (u n).val p - h n * u' (n + 1) p) ≤ M * h n ^ 2 / 2) (n : ℕ) :
    l2 m (fun p => (c n).val p - (u n).val p)
      ≤ δ + l2 m (fun p => (c 0).val p - (R 0).val p)
        + (∑ k ∈ Finset.range n, h k) * (κ + M * Δ / 2 + ρ₀) := by
  have hwt : ∀ p, 0 ≤ m.w p := by
    intro p
    have := (hS.problem 0).weights p
    rwa [hS.mesh 0] at this
  have hκ0 : 0 ≤ κ := by
    have h1 := (l2_nonneg m _).trans (hκ 0)
    exact nonneg_of_mul_nonneg_left h1 (hS.positive 0)
  have hdef : ∀ n, ∀ v ∈ V, |defect (Ps n) (bcs n) (mat n) (fun p => ((R (n + 1)).val p - (R n).val p) / h n)
      (R (n + 1)) v| ≤ (κ + M * Δ / 2) * l2 m v.val + 0 * Real.sqrt (dirichletEnergy (Ps n) (mat n) v) := by
    intro n v hv
    have hh := hS.positive n
    have e1 : defect (Ps n) (bcs n) (mat n) (fun p => ((R (n + 1)).val p - (R n).val p) / h n) (R (n + 1)) v
        = volume m (fun p => (((R (n + 1)).val p - (R n).val p) / h n - u' (n + 1) p) * v.val p) := by
      have a := hR n v hv
      have b := hu n v hv
      unfold defect at a b ⊢
      rw [hS.mesh n] at a b ⊢
      have z : (volume m fun p => (0 : ℝ) * v.val p) = 0 := by simp [volume]
      have s : (volume m fun p => (((R (n + 1)).val p - (R n).val p) / h n - u' (n + 1) p) * v.val p)
          = (volume m fun p => ((R (n + 1)).val p - (R n).val p) / h n * v.val p)
            - volume m fun p => u' (n + 1) p * v.val p := by
        rw [← volume_sub]
        congr 1
        funext p
        ring
      rw [s]
      linarith
    have e2 : l2 m (fun p => ((R (n + 1)).val p - (R n).val p) / h n - u' (n + 1) p) ≤ κ + M * Δ / 2 := by
      have e3 : (fun p => ((R (n + 1)).val p - (R n).val p) / h n - u' (n + 1) p)
          = fun p => (h n)⁻¹ * ((((R (n + 1)).val p - (u (n + 1)).val p) - ((R n).val p - (u n).val p))
            + ((u (n + 1)).val p - (u n).val p - h n * u' (n + 1) p)) := by
        funext p
        field_simp
        ring
      rw [e3, l2_smul m _ (inv_nonneg.2 hh.le)]
      have e4 := l2_add m hwt (fun p => ((R (n + 1)).val p - (u (n + 1)).val p) - ((R n).val p - (u n).val p))
        (fun p => (u (n + 1)).val p - (u n).val p - h n * u' (n + 1) p)
      have e5 : (h n)⁻¹ * l2 m (fun p => (((R (n + 1)).val p - (u (n + 1)).val p) - ((R n).val p - (u n).val p))
            + ((u (n + 1)).val p - (u n).val p - h n * u' (n + 1) p)) ≤ (h n)⁻¹ * (κ * h n + M * h n ^ 2 / 2) :=
        mul_le_mul_of_nonneg_left (by linarith [hκ n, hu' n]) (inv_nonneg.2 hh.le)
      have e6 : (h n)⁻¹ * (κ * h n + M * h n ^ 2 / 2) = κ + M * h n / 2 := by field_simp
      have e7 := mul_le_mul_of_nonneg_left (hΔ n) hM
      linarith
    rw [e1, zero_mul, add_zero]
    exact (volume_mul_le m hwt _ _).trans (mul_le_mul_of_nonneg_right e2 (l2_nonneg m _))
  have hΔ0 : 0 ≤ Δ := (hS.positive 0).le.trans (hΔ 0)
  have main := C105_transient hS R (fun _ => κ + M * Δ / 2) (fun _ => 0) (fun n => (hρ n).1)
    (fun _ => by positivity) hV hmono hdef n
  have e1 : Real.sqrt (l2 m (fun p => (c 0).val p - (R 0).val p) ^ 2
      + (∑ k ∈ Finset.range n, h k * (fun _ : ℕ => (0 : ℝ)) k ^ 2) / 2) = l2 m (fun p => (c 0).val p - (R 0).val p) := by
    simp [Real.sqrt_sq (l2_nonneg m _)]
  rw [e1] at main
  have e2 : ∑ k ∈ Finset.range n, h k * ((fun _ : ℕ => κ + M * Δ / 2) k + ρ k)
      ≤ (∑ k ∈ Finset.range n, h k) * (κ + M * Δ / 2 + ρ₀) := by
    rw [Finset.sum_mul]
    exact Finset.sum_le_sum fun k _ => mul_le_mul_of_nonneg_left (by linarith [(hρ k).2]) (hS.positive k).le
  have e3 := l2_add m hwt (fun p => (c n).val p - (R n).val p) (fun p => (R n).val p - (u n).val p)
  have e4 : (fun p => (c n).val p - (R n).val p + ((R n).val p - (u n).val p)) = fun p => (c n).val p - (u n).val p := by
    funext p
    ring
  rw [e4] at e3
  linarith [hδ n]

/-- By how much a temperature `u`, with time derivative `rate`, fails to satisfy the weak heat equation with heat capacity
`cap` and conductivity `cond`, tested with `v`. -/
noncomputable def heatDefect (m : Mesh Ω Γ d) (sources : List ((Ω → ℝ) × List ℕ)) (bcs : List (Flux Γ × List ℕ))
    (cap cond : Ω → ℝ) (rate : Ω → ℝ) (u v : Fld Ω Γ d) : ℝ :=
  volume m (fun p => cap p * rate p * v.val p) + volume m (fun p => cond p * dot (u.grad p) (v.grad p))
    - (sources.map fun s => (s.2.map fun vol => volumeOf m vol fun p => s.1 p * v.val p).sum).sum
    - (bcs.map fun b => (b.2.map fun s => surface m s fun q => inward b.1 (u.tr q) 0 q * v.tr q).sum).sum

/-- **C105.** The same for transient heat transfer with properties which do not depend on the temperature, in the norm
of the heat capacity: temperatures computed step by step, compared with any fields `w n` with the same Dirichlet values. -/
theorem C105_heat (m : Mesh Ω Γ d) (mats : List Mat) (mat : Ω → Mat) (V : Set (Fld Ω Γ d))
    (sources : ℕ → List ((Ω → ℝ) × List ℕ)) (bcs : ℕ → List (Flux Γ × List ℕ)) (h : ℕ → ℝ) (T w : ℕ → Fld Ω Γ d)
    (cap cond : Ω → ℝ) (ε η : ℕ → ℝ) (hcart : m.type = .cartesian) (hcov : Covers m mats mat)
    (hwt : ∀ p, 0 ≤ m.w p) (hws : ∀ q, 0 ≤ m.ws q)
    (hcap : ∀ p x, (mat p).rho x * (mat p).cp x = cap p) (hcond : ∀ p x, (mat p).cond x = cond p)
    (hcap0 : ∀ p, 0 ≤ cap p) (hcond0 : ∀ p, 0 ≤ cond p) (hh : ∀ n, 0 < h n) (hε : ∀ n, 0 ≤ ε n)
    (hT : ∀ n, ∀ v ∈ V, m.assemble (heatForm m mats ⟨T (n + 1), T n⟩ (some (h n)) (sources n) (bcs n) v) = 0)
    (hV : ∀ n, T (n + 1) - w (n + 1) ∈ V)
    (hmono : ∀ n, ∀ b ∈ bcs n, ∀ q, (inward b.1 ((T (n + 1)).tr q) 0 q - inward b.1 ((w (n + 1)).tr q) 0 q)
      * ((T (n + 1)).tr q - (w (n + 1)).tr q) ≤ 0)
    (hw : ∀ n, ∀ v ∈ V, |heatDefect m (sources n) (bcs n) cap cond
        (fun p => ((w (n + 1)).val p - (w n).val p) / h n) (w (n + 1)) v|
      ≤ ε n * l2 m (fun p => Real.sqrt (cap p) * v.val p)
        + η n * Real.sqrt (volume m fun p => cond p * dot (v.grad p) (v.grad p))) (n : ℕ) :
    l2 m (fun p => Real.sqrt (cap p) * ((T n).val p - (w n).val p))
      ≤ ∑ k ∈ Finset.range n, h k * ε k
        + Real.sqrt (l2 m (fun p => Real.sqrt (cap p) * ((T 0).val p - (w 0).val p)) ^ 2
            + (∑ k ∈ Finset.range n, h k * η k ^ 2) / 2) := by
  refine step_bound (fun n => l2 m fun p => Real.sqrt (cap p) * ((T n).val p - (w n).val p)) (fun k => h k * ε k)
    (fun k => h k * η k ^ 2) (fun n => l2_nonneg _ _) (fun n => mul_nonneg (hh n).le (hε n)) ?_
    (fun n => mul_nonneg (hh n).le (sq_nonneg _)) n
  intro n
  have hhn := hh n
  set u := T (n + 1)
  set z := w (n + 1)
  have hr : (m.type = .cylindrical ∨ m.type = .spherical) → ∀ p, m.r.val p ≠ 0 := by
    rw [hcart]; rintro (h | h) <;> cases h
  have e := hT n (u - z) (hV n)
  rw [C58_weak_form m mats _ _ (sources n) (bcs n) mat _ hcov hr] at e
  simp only [Mat.vcap, hcap, hcond, heatSupply] at e
  have hd := (abs_le.1 (hw n (u - z) (hV n))).1
  unfold heatDefect at hd
  have e1 : volume m (fun p => dot (fun i => cond p * u.grad p i) (coordGrad m (u - z) p))
      - volume m (fun p => cond p * dot (z.grad p) ((u - z).grad p))
      = volume m (fun p => cond p * dot ((u - z).grad p) ((u - z).grad p)) := by
    rw [← volume_sub]
    congr 1
    funext p
    simp only [dot, Finset.mul_sum, ← Finset.sum_sub_distrib, coordGrad, hcart, Fld.sub_grad]
    refine Finset.sum_congr rfl fun i _ => ?_
    ring
  have e2 : ((bcs n).map fun b => (b.2.map fun s => surface m s fun q => inward b.1 (u.tr q) 0 q * (u - z).tr q).sum).sum
      - ((bcs n).map fun b => (b.2.map fun s => surface m s fun q => inward b.1 (z.tr q) 0 q * (u - z).tr q).sum).sum
      ≤ 0 := by
    apply sum_sub_nonpos
    intro b hb
    apply sum_sub_nonpos
    intro s _
    unfold surface
    rw [← Finset.sum_sub_distrib]
    apply Finset.sum_nonpos
    intro q _
    rw [← mul_sub, ← sub_mul]
    exact mul_nonpos_of_nonneg_of_nonpos (hws q) (hmono n b hb q)
  set x := l2 m fun p => Real.sqrt (cap p) * (u.val p - z.val p)
  set y := l2 m fun p => Real.sqrt (cap p) * ((T n).val p - (w n).val p)
  have hx0 : 0 ≤ x := l2_nonneg _ _
  have e3 : volume m (fun p => cap p * (u.val p - (T n).val p) / h n * (u - z).val p)
      - volume m (fun p => cap p * ((z.val p - (w n).val p) / h n) * (u - z).val p)
      = (x ^ 2 - volume m fun p => Real.sqrt (cap p) * ((T n).val p - (w n).val p)
          * (Real.sqrt (cap p) * (u.val p - z.val p))) / h n := by
    rw [l2_sq m hwt, ← volume_sub, ← volume_sub, div_eq_inv_mul, ← volume_smul]
    congr 1
    funext p
    have hs := Real.mul_self_sqrt (hcap0 p)
    simp only [Fld.sub_val]
    linear_combination (-(h n)⁻¹ * ((u.val p - z.val p) ^ 2
      - ((T n).val p - (w n).val p) * (u.val p - z.val p))) * hs
  have e4 := (abs_le.1 (volume_mul_le m hwt (fun p => Real.sqrt (cap p) * ((T n).val p - (w n).val p))
    (fun p => Real.sqrt (cap p) * (u.val p - z.val p)))).2
  have e4' : (volume m fun p => Real.sqrt (cap p) * ((T n).val p - (w n).val p)
          * (Real.sqrt (cap p) * (u.val p - z.val p))) ≤ y * x := e4
  set C := volume m fun p => Real.sqrt (cap p) * ((T n).val p - (w n).val p)
          * (Real.sqrt (cap p) * (u.val p - z.val p))
  have hE : 0 ≤ volume m (fun p => cond p * dot ((u - z).grad p) ((u - z).grad p)) :=
    volume_nonneg _ _ fun p => mul_nonneg (hwt p) (mul_nonneg (hcond0 p) (dot_self_nonneg _))
  set G := Real.sqrt (volume m fun p => cond p * dot ((u - z).grad p) ((u - z).grad p))
  have hG : volume m (fun p => cond p * dot ((u - z).grad p) ((u - z).grad p)) = G ^ 2 := (Real.sq_sqrt hE).symm
  rw [hG] at e1
  have hxv : l2 m (fun p => Real.sqrt (cap p) * (u - z).val p) = x := rfl
  rw [hxv] at hd
  have key : (x ^ 2 - C) / h n ≤ ε n * x + η n ^ 2 / 4 := by
    have : η n * G - G ^ 2 ≤ η n ^ 2 / 4 := by nlinarith [sq_nonneg (η n - 2 * G)]
    linarith
  rw [div_le_iff₀ hhn] at key
  show x ^ 2 ≤ x * (y + h n * ε n) + h n * η n ^ 2 / 4
  nlinarith

end

/-! ### A case in two dimensions

The square cut into four triangles which meet at its centre, with the hat function of the centre, zero on the boundary;
a source, radioactive decay, unit diffusion coefficient. -/

/-- Gradients of the hat function in the four triangles. -/
def patchGrad (p : Fin 4) (i : Fin 2) : ℝ := ![![1, 0], ![-1, 0], ![0, 1], ![0, -1]] p i

/-- Hat function of height `a`, one quadrature point per triangle. -/
noncomputable def patchHat (a : ℝ) : Fld (Fin 4) Empty 2 := ⟨fun _ => a / 3, fun p i => a * patchGrad p i, fun q => q.elim⟩

noncomputable def patchMesh : Mesh (Fin 4) Empty 2 :=
  ⟨fun _ => 1, fun _ => 1, fun q => q.elim, fun q => q.elim, fun q => q.elim, Fld.const 0, .cartesian⟩

noncomputable def patchMat : Mat := { uid := 1, ids := [1], D_0 := 1, E_D := 0 }

noncomputable def patchSources : List (Src (Fin 4)) := [⟨.given fun _ => 3, [1]⟩, ⟨.decay 9, [1]⟩]

noncomputable def patchProblem (dt : Option ℝ) (a b : ℝ) : Problem (Fin 4) Empty 2 where
  mesh := patchMesh
  mats := [patchMat]
  mv := ⟨false, patchHat a, patchHat b, Fld.const 1⟩
  T := ⟨Fld.const 500, Fld.const 500⟩
  dt := dt
  soret := false
  sources := patchSources
  traps := []

/-- Test functions: multiples of the hat function. -/
def patchV : Set (Fld (Fin 4) Empty 2) := Set.range patchHat

theorem patch_diffusive (dt : Option ℝ) (a b : ℝ) : Diffusive (patchProblem dt a b) [] fun _ => patchMat where
  cover := ⟨fun p => by simp [patchProblem], fun p => by simp [patchProblem, patchMesh, patchMat],
    by simp [patchProblem, patchMat]⟩
  cartesian := rfl
  theta := rfl
  soret := rfl
  traps := rfl
  weights p := by simp [patchProblem, patchMesh]
  weightsS q := q.elim
  D_nonneg x hx := by
    simp only [patchProblem, List.mem_singleton] at hx
    subst hx
    simp [patchMat]
  decay s hs lam hl := by
    simp only [patchProblem, patchSources, List.mem_cons, List.not_mem_nil, or_false] at hs
    rcases hs with rfl | rfl
    · cases hl
    · cases hl; norm_num
  fluxes b hb := by simp at hb

theorem patch_diffusivity (dt : Option ℝ) (a b : ℝ) (p : Fin 4) :
    diffusivity (patchProblem dt a b) (fun _ => patchMat) p = 1 := by
  simp [diffusivity, arr, patchMat]

theorem patch_defect (dt : Option ℝ) (a b r x v : ℝ) :
    defect (patchProblem dt a b) [] (fun _ => patchMat) (fun _ => r) (patchHat x) (patchHat v)
      = 4 * v * (r / 3 + 2 * x - 1) := by
  simp only [defect, patch_diffusivity]
  simp only [volume, volumeOf, patchProblem, patchMesh, patchSources, patchHat, dot, srcRate, Fin.sum_univ_four,
    Fin.sum_univ_two, patchGrad, List.map_cons, List.map_nil, List.sum_cons, List.sum_nil, Finset.filter_true]
  simp [Fin.sum_univ_four]
  ring

/-- Heights computed by the simulation from zero, with steps `1/9`: `(1 - 3^{-n}) / 2`. -/
noncomputable def patchHeight (n : ℕ) : ℝ := (1 - (1 / 3) ^ n) / 2

theorem patch_stepped : Stepped patchMesh patchV (fun n => patchProblem (some (1 / 9)) (patchHeight (n + 1)) (patchHeight n))
    (fun _ => []) (fun _ _ => patchMat) (fun _ => 1 / 9) (fun _ => 0) fun n => patchHat (patchHeight n) where
  problem n := patch_diffusive _ _ _
  mesh n := rfl
  positive n := by norm_num
  dt n := rfl
  sol n := rfl
  prev n := rfl
  solved n v hv := by
    obtain ⟨x, rfl⟩ := hv
    refine ⟨_, rfl, ?_⟩
    have e := (patch_diffusive (some (1 / 9)) (patchHeight (n + 1)) (patchHeight n)).residual (1 / 9) rfl (patchHat x) _ rfl
    have e2 : (fun p => ((patchProblem (some (1 / 9)) (patchHeight (n + 1)) (patchHeight n)).mv.sol.val p
        - (patchProblem (some (1 / 9)) (patchHeight (n + 1)) (patchHeight n)).mv.prev.val p) / (1 / 9))
        = fun _ => (patchHeight (n + 1) / 3 - patchHeight n / 3) / (1 / 9) := rfl
    rw [e2] at e
    have e3 := patch_defect (some (1 / 9)) (patchHeight (n + 1)) (patchHeight n)
      ((patchHeight (n + 1) / 3 - patchHeight n / 3) / (1 / 9)) (patchHeight (n + 1)) x
    have e4 : 4 * x * ((patchHeight (n + 1) / 3 - patchHeight n / 3) / (1 / 9) / 3 + 2 * patchHeight (n + 1) - 1) = 0 := by
      unfold patchHeight
      rw [pow_succ]
      ring
    have e5 := e.trans (e3.trans e4)
    have e6 : patchMesh = (patchProblem (some (1 / 9)) (patchHeight (n + 1)) (patchHeight n)).mesh := rfl
    rw [e6, e5]
    simp

theorem patchHat_sub (x y : ℝ) : patchHat x - patchHat y = patchHat (x - y) := by
  ext p
  · simp only [Fld.sub_val, patchHat]; ring
  · simp only [Fld.sub_grad, patchHat]; ring
  · exact p.elim

/-- Non-vacuity of `C105_transient`: the distance to the steady solution does not grow. -/
example (n : ℕ) : l2 patchMesh (fun p => (patchHat (patchHeight n)).val p - (patchHat (1 / 2)).val p)
    ≤ l2 patchMesh (fun p => (patchHat (patchHeight 0)).val p - (patchHat (1 / 2)).val p) := by
  have h := C105_transient patch_stepped (fun _ => patchHat (1 / 2)) (fun _ => 0) (fun _ => 0) (fun _ => le_rfl)
    (fun _ => le_rfl) (fun n => ⟨_, (patchHat_sub _ _).symm⟩) (fun _ _ _ h => by simp at h) (fun n v hv => by
      obtain ⟨x, rfl⟩ := hv
      have := patch_defect (some (1 / 9)) (patchHeight (n + 1)) (patchHeight n)
        (((patchHat (1 / 2)).val 0 - (patchHat (1 / 2)).val 0) / (1 / 9)) (1 / 2) x
      rw [show (fun p => ((patchHat (1 / 2)).val p - (patchHat (1 / 2)).val p) / (1 / 9))
        = fun _ : Fin 4 => ((patchHat (1 / 2)).val 0 - (patchHat (1 / 2)).val 0) / (1 / 9) by funext p; simp, this]
      norm_num) n
  simpa [Real.sqrt_sq (l2_nonneg _ _)] using h

/-- The steady simulation. -/
theorem patch_steady : SteadySolved patchV (patchProblem none (1 / 2) 0) [] (fun _ => patchMat) (patchHat (1 / 2)) where
  problem := patch_diffusive _ _ _
  dt := rfl
  sol := rfl
  solved v hv := by
    obtain ⟨x, rfl⟩ := hv
    refine ⟨_, rfl, ?_⟩
    have e := (patch_diffusive none (1 / 2) 0).residual_steady rfl (patchHat x) _ rfl
    have e3 := patch_defect none (1 / 2) 0 0 (1 / 2) x
    rw [show (4 : ℝ) * x * (0 / 3 + 2 * (1 / 2) - 1) = 0 by norm_num] at e3
    exact e.trans e3

/-- A field which is not in the space of the simulation and satisfies the weak equation for its test functions. -/
noncomputable def patchOther : Fld (Fin 4) Empty 2 :=
  ⟨![1 / 2, -1 / 6, 1 / 6, 1 / 6], fun p i => patchGrad p i / 2 + ![1, 2] i, fun q => q.elim⟩

theorem patchOther_weak : ∀ v ∈ patchV, defect (patchProblem none (1 / 2) 0) [] (fun _ => patchMat) (fun _ => 0) patchOther v = 0 := by
  rintro _ ⟨x, rfl⟩
  simp only [defect, patch_diffusivity]
  simp only [volume, volumeOf, patchProblem, patchMesh, patchSources, patchHat, patchOther, dot, srcRate, Fin.sum_univ_four,
    Fin.sum_univ_two, patchGrad, List.map_cons, List.map_nil, List.sum_cons, List.sum_nil, Finset.filter_true]
  simp [Fin.sum_univ_four]
  ring

/-- Non-vacuity of `C105_best`: no multiple of the hat function is closer to this field than the simulation. -/
example (a : ℝ) : energyForm (patchProblem none (1 / 2) 0) [] (fun _ => patchMat) (patchHat (1 / 2) - patchOther)
      (patchHat (1 / 2) - patchOther)
    ≤ energyForm (patchProblem none (1 / 2) 0) [] (fun _ => patchMat) (patchHat a - patchOther) (patchHat a - patchOther) :=
  C105_refined patch_steady (fun _ _ h => by simp at h) patchOther ⟨_, (patchHat_sub _ _).symm⟩ patchOther_weak

/-- A material of capacity 9 and conductivity 1. -/
noncomputable def patchHot : Mat := { uid := 1, ids := [1], D_0 := 1, E_D := 0, rho := fun _ => 3, cp := fun _ => 3, cond := fun _ => 1 }

/-- Non-vacuity of `C105_heat`: heated from inside with temperature zero around, with steps 1 the heights are
`1 - 2^{-n}`; the distance to the steady temperature does not grow. -/
example (n : ℕ) : l2 patchMesh (fun p => Real.sqrt 9 * ((patchHat (1 - (1 / 2) ^ n)).val p - (patchHat 1).val p))
    ≤ l2 patchMesh (fun p => Real.sqrt 9 * ((patchHat (1 - (1 / 2) ^ 0)).val p - (patchHat 1).val p)) := by
  have h := C105_heat patchMesh [patchHot] (fun _ => patchHot) patchV (fun _ => [(fun _ => 3, [1])]) (fun _ => [])
    (fun _ => 1) (fun n => patchHat (1 - (1 / 2) ^ n)) (fun _ => patchHat 1) (fun _ => 9) (fun _ => 1) (fun _ => 0) (fun _ => 0)
    rfl ⟨fun p => by simp, fun p => by simp [patchMesh, patchHot], by simp [patchHot]⟩ (fun p => by simp [patchMesh])
    (fun q => q.elim) (fun p x => by simp [patchHot]; norm_num) (fun p x => by simp [patchHot]) (fun _ => by norm_num)
    (fun _ => by norm_num) (fun _ => one_pos) (fun _ => le_rfl)
    (fun n v hv => by
      obtain ⟨x, rfl⟩ := hv
      simp [Mesh.assemble, heatForm, heatSubdomain, patchHot, patchMesh, patchHat, patchGrad, Fin.sum_univ_four, dot, Mesh.integrate]
      ring)
    (fun n => ⟨_, (patchHat_sub _ _).symm⟩) (fun _ _ h => by simp at h)
    (fun n v hv => by
      obtain ⟨x, rfl⟩ := hv
      simp [heatDefect, volume, volumeOf, patchMesh, patchHat, patchGrad, Fin.sum_univ_four, dot]
      ring) n
  simpa [Real.sqrt_sq (l2_nonneg _ _)] using h

end Festim.Props
