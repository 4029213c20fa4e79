import Verif.Props.AnyDimension
import Verif.Model.Space

/-!
# C125: outgassing in any dimension
-/

open scoped BigOperators Topology

set_option linter.unusedSectionVars false
set_option linter.unusedSimpArgs false

namespace Festim.Props

open Festim.Weak Filter

section
variable {Ω Γ : Type} [Fintype Ω] [Fintype Γ] {d : ℕ}

/-- The same problem apart from the unknown. -/
def SameData (P P' : Problem Ω Γ d) : Prop := P' = { P with mv := P'.mv }

theorem SameData.defect {P P' : Problem Ω Γ d} (h : SameData P P') (bcs : List (MobBC Γ)) (mat : Ω → Mat) (rate : Ω → ℝ)
    (u v : Fld Ω Γ d) : defect P' bcs mat rate u v = defect P bcs mat rate u v := by
  rw [h]
  rfl

/-- **C125 (a).** Two runs with the same data and different initial concentrations never drift apart, in any dimension, with flux
conditions that take away no less hydrogen where there is more of it. -/
theorem C125_contract {m : Mesh Ω Γ d} {V : Set (Fld Ω Γ d)} {Ps Ps' : ℕ → Problem Ω Γ d} {bcs : ℕ → List (MobBC Γ)}
    {mat : ℕ → Ω → Mat} {h : ℕ → ℝ} {c c' : ℕ → Fld Ω Γ d} (hS : Stepped m V Ps bcs mat h (fun _ => 0) c)
    (hS' : Stepped m V Ps' bcs mat h (fun _ => 0) c') (hd : ∀ n, SameData (Ps n) (Ps' n)) (hV : ∀ n, c (n + 1) - c' (n + 1) ∈ V)
    (hmono : ∀ n f ss, MobBC.flux f ss ∈ bcs n → ∀ q,
      f.Monotone ((Ps n).T.T.tr q) ((c (n + 1)).tr q) ((c' (n + 1)).tr q) q) (n : ℕ) :
    l2 m (fun p => (c n).val p - (c' n).val p) ≤ l2 m (fun p => (c 0).val p - (c' 0).val p) := by
  have := C105_transient hS c' (fun _ => 0) (fun _ => 0) (fun _ => le_rfl) (fun _ => le_rfl) hV hmono
    (by
      intro n v hv
      obtain ⟨F, hF, hres⟩ := hS'.solved n v hv
      have e := (hS'.problem n).residual (h n) (hS'.dt n) v F hF
      rw [hS'.mesh n, hS'.sol n, hS'.prev n, (hd n).defect] at e
      rw [← e]
      simpa using hres) n
  simpa [Real.sqrt_sq (l2_nonneg _ _)] using this

/-- **C125 (b).** So the run is determined by the initial concentration. -/
theorem C125_unique {m : Mesh Ω Γ d} {V : Set (Fld Ω Γ d)} {Ps Ps' : ℕ → Problem Ω Γ d} {bcs : ℕ → List (MobBC Γ)}
    {mat : ℕ → Ω → Mat} {h : ℕ → ℝ} {c c' : ℕ → Fld Ω Γ d} (hS : Stepped m V Ps bcs mat h (fun _ => 0) c)
    (hS' : Stepped m V Ps' bcs mat h (fun _ => 0) c') (hd : ∀ n, SameData (Ps n) (Ps' n)) (hV : ∀ n, c (n + 1) - c' (n + 1) ∈ V)
    (hmono : ∀ n f ss, MobBC.flux f ss ∈ bcs n → ∀ q,
      f.Monotone ((Ps n).T.T.tr q) ((c (n + 1)).tr q) ((c' (n + 1)).tr q) q)
    (h0 : ∀ p, (c 0).val p = (c' 0).val p) (n : ℕ) (p : Ω) (hp : 0 < m.w p) : (c n).val p = (c' n).val p := by
  have hw : ∀ p, 0 ≤ m.w p := by
    intro p
    have := (hS.problem 0).weights p
    rwa [hS.mesh 0] at this
  have h1 := C125_contract hS hS' hd hV hmono n
  have e0 : l2 m (fun p => (c 0).val p - (c' 0).val p) = 0 := by simp [l2, volume, h0]
  rw [e0] at h1
  have h2 : l2 m (fun p => (c n).val p - (c' n).val p) = 0 := le_antisymm h1 (l2_nonneg _ _)
  have h3 := l2_sq m hw (fun p => (c n).val p - (c' n).val p)
  rw [h2] at h3
  have h4 : ∑ p, m.w p * ((c n).val p - (c' n).val p) ^ 2 = 0 := by
    rw [show (0 : ℝ) ^ 2 = 0 by norm_num] at h3
    exact h3.symm
  have h5 := (Finset.sum_eq_zero_iff_of_nonneg (fun p _ => mul_nonneg (hw p) (sq_nonneg _))).1 h4 p (Finset.mem_univ p)
  have h6 := (mul_eq_zero.1 h5).resolve_left hp.ne'
  exact sub_eq_zero.1 (pow_eq_zero_iff two_ne_zero |>.1 h6)

variable {ι : Type} [Fintype ι]

/-- A run in which hydrogen can only leave: no sources other than radioactive decay, at the surfaces nothing enters.  `e`: basis of the
elements, `x n`: coefficients after `n` steps. -/
structure Exhaust (m : Mesh Ω Γ d) (e : ι → Fld Ω Γ d) (Ps : ℕ → Problem Ω Γ d) (bcs : ℕ → List (MobBC Γ)) (mat : ℕ → Ω → Mat)
    (h : ℕ → ℝ) (x : ℕ → ι → ℝ) : Prop where
  run : Stepped m (Set.range fun y => Fld.comb y e) Ps bcs mat h (fun _ => 0) fun n => Fld.comb (x n) e
  sources : ∀ n, ∀ s ∈ (Ps n).sources, ∃ lam, s.value = .decay lam
  physical : ∀ n q, 0 ≤ (Fld.comb (x (n + 1)) e).tr q
  outward : ∀ n f ss, MobBC.flux f ss ∈ bcs n → ∀ q, inward f ((Ps n).T.T.tr q) ((Fld.comb (x (n + 1)) e).tr q) q ≤ 0

/-- Hydrogen which leaves through the surfaces during a step. -/
noncomputable def departed (m : Mesh Ω Γ d) (e : ι → Fld Ω Γ d) (Ps : ℕ → Problem Ω Γ d) (bcs : ℕ → List (MobBC Γ)) (h : ℕ → ℝ)
    (x : ℕ → ι → ℝ) (n : ℕ) : ℝ :=
  -(h n * ((bcs n).map (bcInflow m (Ps n).T.T.tr (Fld.comb (x (n + 1)) e).tr fun _ => 1)).sum)

/-- Hydrogen which decays during a step. -/
noncomputable def decayed (m : Mesh Ω Γ d) (e : ι → Fld Ω Γ d) (Ps : ℕ → Problem Ω Γ d) (h : ℕ → ℝ)
    (x : ℕ → ι → ℝ) (n : ℕ) : ℝ :=
  -(h n * ((Ps n).sources.map fun s => (s.volumes.map fun vol =>
    volumeOf m vol fun p => srcRate s ((Fld.comb (x (n + 1)) e).val p) p).sum).sum)

variable {m : Mesh Ω Γ d} {e : ι → Fld Ω Γ d} {Ps : ℕ → Problem Ω Γ d} {bcs : ℕ → List (MobBC Γ)} {mat : ℕ → Ω → Mat}
  {h : ℕ → ℝ} {x : ℕ → ι → ℝ}

theorem Exhaust.solved (H : Exhaust m e Ps bcs mat h x) (n : ℕ) (y : ι → ℝ) :
    defect (Ps n) (bcs n) (mat n) (fun p => ((Fld.comb (x (n + 1)) e).val p - (Fld.comb (x n) e).val p) / h n)
      (Fld.comb (x (n + 1)) e) (Fld.comb y e) = 0 := by
  obtain ⟨F, hF, hres⟩ := H.run.solved n (Fld.comb y e) ⟨y, rfl⟩
  have e1 := (H.run.problem n).residual (h n) (H.run.dt n) _ F hF
  rw [H.run.mesh n, H.run.sol n, H.run.prev n] at e1
  rw [← e1]
  rw [zero_mul] at hres
  exact abs_eq_zero.1 (le_antisymm hres (abs_nonneg _))

/-- **C125 (c).** If constants are among the test functions (no Dirichlet condition), what has left and decayed is what is missing. -/
theorem C125_balance (H : Exhaust m e Ps bcs mat h x) (hone : ∃ y, (∀ p, (Fld.comb y e).val p = 1) ∧
      (∀ p k, (Fld.comb y e).grad p k = 0) ∧ ∀ q, (Fld.comb y e).tr q = 1) (n : ℕ) :
    ∑ i ∈ Finset.range n, (departed m e Ps bcs h x i + decayed m e Ps h x i)
      = volume m (Fld.comb (x 0) e).val - volume m (Fld.comb (x n) e).val := by
  obtain ⟨y, h1, h2, h3⟩ := hone
  have key : ∀ i, departed m e Ps bcs h x i + decayed m e Ps h x i
      = volume m (Fld.comb (x i) e).val - volume m (Fld.comb (x (i + 1)) e).val := by
    intro i
    have e0 := H.solved i y
    have hh := (H.run.positive i).ne'
    have htr : (Fld.comb y e).tr = fun _ => 1 := funext h3
    unfold defect at e0
    simp only [H.run.mesh i, h1, h2, htr, mul_one, dot, mul_zero, Finset.sum_const_zero] at e0
    have e1 : (volume m fun p => ((Fld.comb (x (i + 1)) e).val p - (Fld.comb (x i) e).val p) / h i)
        = (volume m (Fld.comb (x (i + 1)) e).val - volume m (Fld.comb (x i) e).val) / h i := by
      rw [← volume_sub, div_eq_inv_mul, ← volume_smul]
      congr 1
      funext p
      ring
    have e2 : (volume m fun _ => (0 : ℝ)) = 0 := by simp [volume]
    rw [e1, e2] at e0
    unfold departed decayed
    field_simp at e0
    linarith
  rw [Finset.sum_congr rfl fun i _ => key i, Finset.sum_range_sub' fun i => volume m (Fld.comb (x i) e).val]

theorem total_nonpos {l : List ℝ} (hl : ∀ a ∈ l, a ≤ 0) : l.sum ≤ 0 := by
  induction l with
  | nil => simp
  | cons a l ih =>
    have h1 := hl a (by simp)
    have h2 := ih fun b hb => hl b (by simp [hb])
    simp only [List.sum_cons]
    linarith

theorem total_le {β : Type} (l : List β) (f : β → ℝ) (hf : ∀ b ∈ l, f b ≤ 0) (b : β) (hb : b ∈ l) : (l.map f).sum ≤ f b := by
  induction l with
  | nil => simp at hb
  | cons a l ih =>
    have h1 := hf a (by simp)
    have h2 : (l.map f).sum ≤ 0 := total_nonpos fun y hy => by
      obtain ⟨z, hz, rfl⟩ := List.mem_map.1 hy
      exact hf z (by simp [hz])
    simp only [List.map_cons, List.sum_cons]
    rcases List.mem_cons.1 hb with rfl | hb
    · linarith
    · have := ih (fun b hb => hf b (by simp [hb])) hb
      linarith

/-- The integral of the square does not increase; what it loses bounds diffusion and the flux of a recombination condition. -/
theorem Exhaust.energy (H : Exhaust m e Ps bcs mat h x) (n : ℕ) (K E : Γ → ℝ) (o : ℝ) (ss : List ℕ) (s : ℕ)
    (hb : MobBC.flux (.recomb K E o) ss ∈ bcs n) (hs : s ∈ ss) :
    2 * h n * (dirichletEnergy (Ps n) (mat n) (Fld.comb (x (n + 1)) e)
      + surface m s fun q => arr (K q) (E q) ((Ps n).T.T.tr q) * (Fld.comb (x (n + 1)) e).tr q ^ o * (Fld.comb (x (n + 1)) e).tr q)
      ≤ (volume m fun p => (Fld.comb (x n) e).val p ^ 2) - volume m fun p => (Fld.comb (x (n + 1)) e).val p ^ 2 := by
  have hP := H.run.problem n
  have hm := H.run.mesh n
  have hh := H.run.positive n
  have e0 := H.solved n (x (n + 1))
  set u := Fld.comb (x (n + 1)) e
  set w := Fld.comb (x n) e
  have hw : ∀ p, 0 ≤ m.w p := fun p => by have := hP.weights p; rwa [hm] at this
  have hws : ∀ q, 0 ≤ m.ws q := fun q => by have := hP.weightsS q; rwa [hm] at this
  unfold defect at e0
  rw [hm] at e0
  have e1 : dirichletEnergy (Ps n) (mat n) u = volume m fun p => diffusivity (Ps n) (mat n) p * dot (u.grad p) (u.grad p) := by
    unfold dirichletEnergy
    rw [hm]
  rw [← e1] at e0
  have e2 : (((volume m fun p => u.val p ^ 2) - volume m fun p => w.val p ^ 2) / (2 * h n))
      ≤ volume m fun p => (u.val p - w.val p) / h n * u.val p := by
    rw [← volume_sub, div_eq_inv_mul, ← volume_smul]
    unfold volume
    refine Finset.sum_le_sum fun p _ => mul_le_mul_of_nonneg_left ?_ (hw p)
    dsimp only
    rw [inv_mul_eq_div, div_mul_eq_mul_div, div_le_div_iff₀ (by positivity) hh]
    nlinarith [mul_nonneg hh.le (sq_nonneg (u.val p - w.val p))]
  have e3 : ((Ps n).sources.map fun s => (s.volumes.map fun vol => volumeOf m vol fun p => srcRate s (u.val p) p * u.val p).sum).sum ≤ 0 := by
    refine total_nonpos fun a ha => ?_
    obtain ⟨s, hs, rfl⟩ := List.mem_map.1 ha
    refine total_nonpos fun a ha => ?_
    obtain ⟨vol, hv, rfl⟩ := List.mem_map.1 ha
    obtain ⟨lam, hl⟩ := H.sources n s hs
    have := hP.decay s hs lam hl
    refine Finset.sum_nonpos fun p _ => mul_nonpos_of_nonneg_of_nonpos (hw p) ?_
    simp only [srcRate, hl]
    nlinarith [mul_nonneg this (sq_nonneg (u.val p))]
  have e4 : surface m s (fun q => arr (K q) (E q) ((Ps n).T.T.tr q) * u.tr q ^ o * u.tr q)
      ≤ -((bcs n).map (bcInflow m (Ps n).T.T.tr u.tr u.tr)).sum := by
    have hin : ∀ f ss, MobBC.flux f ss ∈ bcs n → ∀ s, (surface m s fun q => inward f ((Ps n).T.T.tr q) (u.tr q) q * u.tr q) ≤ 0 := by
      intro f ss hf s
      exact Finset.sum_nonpos fun q _ => mul_nonpos_of_nonneg_of_nonpos (hws q)
        (mul_nonpos_of_nonpos_of_nonneg (H.outward n f ss hf q) (H.physical n q))
    have hneg : ∀ b ∈ bcs n, bcInflow m (Ps n).T.T.tr u.tr u.tr b ≤ 0 := by
      intro b hb
      obtain ⟨f, ss, rfl⟩ := hP.fluxes b hb
      refine total_nonpos fun a ha => ?_
      obtain ⟨s, _, rfl⟩ := List.mem_map.1 ha
      exact hin f ss hb s
    have hle : ((bcs n).map (bcInflow m (Ps n).T.T.tr u.tr u.tr)).sum ≤ bcInflow m (Ps n).T.T.tr u.tr u.tr (.flux (.recomb K E o) ss) :=
      total_le _ _ hneg _ hb
    have hle2 : bcInflow m (Ps n).T.T.tr u.tr u.tr (.flux (.recomb K E o) ss)
        ≤ surface m s fun q => inward (.recomb K E o) ((Ps n).T.T.tr q) (u.tr q) q * u.tr q :=
      total_le _ _ (fun s _ => hin _ ss hb s) s hs
    have he : (surface m s fun q => inward (.recomb K E o) ((Ps n).T.T.tr q) (u.tr q) q * u.tr q)
        = -(surface m s fun q => arr (K q) (E q) ((Ps n).T.T.tr q) * u.tr q ^ o * u.tr q) := by
      unfold surface
      rw [← Finset.sum_neg_distrib]
      refine Finset.sum_congr rfl fun q _ => ?_
      simp only [inward]
      ring
    linarith
  have e5 : ((volume m fun p => u.val p ^ 2) - volume m fun p => w.val p ^ 2) / (2 * h n)
      ≤ -(dirichletEnergy (Ps n) (mat n) u + surface m s fun q => arr (K q) (E q) ((Ps n).T.T.tr q) * u.tr q ^ o * u.tr q) := by
    linarith
  rw [div_le_iff₀ (by positivity)] at e5
  linarith

/-- Only zero has no gradient and vanishes on the surface `s`. -/
def Definite (m : Mesh Ω Γ d) (e : ι → Fld Ω Γ d) (s : ℕ) : Prop :=
  ∀ y : ι → ℝ, (∀ p, 0 < m.w p → ∀ k, (Fld.comb y e).grad p k = 0) →
    (∀ q, m.sm q = s → 0 < m.ws q → (Fld.comb y e).tr q = 0) → y = 0

/-- What `Definite` says is not zero. -/
noncomputable def size (m : Mesh Ω Γ d) (e : ι → Fld Ω Γ d) (s : ℕ) (y : ι → ℝ) : ℝ :=
  (volume m fun p => dot ((Fld.comb y e).grad p) ((Fld.comb y e).grad p)) + surface m s fun q => (Fld.comb y e).tr q ^ 2

theorem size_coercive (hw : ∀ p, 0 ≤ m.w p) (hws : ∀ q, 0 ≤ m.ws q) {s : ℕ} (hd : Definite m e s) :
    ∃ μ > 0, ∀ y, μ * ‖y‖ ^ 2 ≤ size m e s y := by
  have hcont : Continuous (size m e s) := by
    unfold size volume surface dot Fld.comb
    fun_prop
  have hhom : ∀ (c : ℝ) y, size m e s (c • y) = c ^ 2 * size m e s y := by
    intro c y
    have g : ∀ p k, (Fld.comb (c • y) e).grad p k = c * (Fld.comb y e).grad p k := by
      intro p k
      simp only [Fld.comb, Pi.smul_apply, smul_eq_mul, Finset.mul_sum, mul_assoc]
    have t : ∀ q, (Fld.comb (c • y) e).tr q = c * (Fld.comb y e).tr q := by
      intro q
      simp only [Fld.comb, Pi.smul_apply, smul_eq_mul, Finset.mul_sum, mul_assoc]
    unfold size volume surface dot
    simp only [g, t]
    rw [mul_add, Finset.mul_sum, Finset.mul_sum]
    congr 1
    · refine Finset.sum_congr rfl fun p _ => ?_
      rw [Finset.mul_sum, Finset.mul_sum, Finset.mul_sum]
      refine Finset.sum_congr rfl fun k _ => ?_
      ring
    · refine Finset.sum_congr rfl fun q _ => ?_
      ring
  have hpos : ∀ y, y ≠ 0 → 0 < size m e s y := by
    intro y hy
    by_contra hn
    push Not at hn
    apply hy
    have a1 : ∀ p, 0 ≤ m.w p * dot ((Fld.comb y e).grad p) ((Fld.comb y e).grad p) :=
      fun p => mul_nonneg (hw p) (dot_self_nonneg _)
    have a2 : ∀ q, 0 ≤ m.ws q * (Fld.comb y e).tr q ^ 2 := fun q => mul_nonneg (hws q) (sq_nonneg _)
    have s1 : 0 ≤ volume m fun p => dot ((Fld.comb y e).grad p) ((Fld.comb y e).grad p) := Finset.sum_nonneg fun p _ => a1 p
    have s2 : 0 ≤ surface m s fun q => (Fld.comb y e).tr q ^ 2 := Finset.sum_nonneg fun q _ => a2 q
    unfold size at hn
    have z1 : (volume m fun p => dot ((Fld.comb y e).grad p) ((Fld.comb y e).grad p)) = 0 := by linarith
    have z2 : (surface m s fun q => (Fld.comb y e).tr q ^ 2) = 0 := by linarith
    refine hd y (fun p hp k => ?_) fun q hq hq' => ?_
    · have := (Finset.sum_eq_zero_iff_of_nonneg fun p _ => a1 p).1 z1 p (Finset.mem_univ p)
      have := (mul_eq_zero.1 this).resolve_left hp.ne'
      have := (Finset.sum_eq_zero_iff_of_nonneg fun k _ => mul_self_nonneg ((Fld.comb y e).grad p k)).1 this k (Finset.mem_univ k)
      exact mul_self_eq_zero.1 this
    · have := (Finset.sum_eq_zero_iff_of_nonneg fun q _ => a2 q).1 z2 q (by simp [hq])
      have := (mul_eq_zero.1 this).resolve_left hq'.ne'
      exact pow_eq_zero_iff two_ne_zero |>.1 this
  by_cases hne : (Metric.sphere (0 : ι → ℝ) 1).Nonempty
  · obtain ⟨z, hz, hmin⟩ := (isCompact_sphere (0 : ι → ℝ) 1).exists_isMinOn hne hcont.continuousOn
    have hz1 : ‖z‖ = 1 := by simpa using hz
    have hz0 : z ≠ 0 := by
      rintro rfl
      simp at hz1
    refine ⟨size m e s z, hpos z hz0, fun y => ?_⟩
    by_cases hy : y = 0
    · subst hy
      have := hhom 0 0
      simp at this
      simp [this]
    · have hn : 0 < ‖y‖ := norm_pos_iff.2 hy
      have h1 := hmin (show ‖y‖⁻¹ • y ∈ Metric.sphere (0 : ι → ℝ) 1 by
        rw [mem_sphere_zero_iff_norm, norm_smul, norm_inv, norm_norm, inv_mul_cancel₀ hn.ne'])
      have h2 : size m e s z ≤ size m e s (‖y‖⁻¹ • y) := h1
      rw [hhom] at h2
      have h3 := mul_le_mul_of_nonneg_right h2 (sq_nonneg ‖y‖)
      have h4 : ‖y‖⁻¹ ^ 2 * size m e s y * ‖y‖ ^ 2 = size m e s y := by
        field_simp
      linarith
  · refine ⟨1, one_pos, fun y => ?_⟩
    have hy : y = 0 := by
      by_contra hy
      have hn : 0 < ‖y‖ := norm_pos_iff.2 hy
      exact hne ⟨‖y‖⁻¹ • y, by rw [mem_sphere_zero_iff_norm, norm_smul, norm_inv, norm_norm, inv_mul_cancel₀ hn.ne']⟩
    subst hy
    have := hhom 0 0
    simp at this
    simp [this]

/-- **C125 (d).** In any dimension, on any mesh and with any elements: if stepsizes, diffusivities and the coefficient of one
recombination condition stay above positive values, and no field other than zero has no gradient and vanishes on the surface of that
condition, the concentration tends to zero. -/
theorem C125_complete (H : Exhaust m e Ps bcs mat h x) {hmin dmin κ o : ℝ} (h0 : 0 < hmin) (hh : ∀ n, hmin ≤ h n) (d0 : 0 < dmin)
    (hD : ∀ n p, dmin ≤ diffusivity (Ps n) (mat n) p) (κ0 : 0 < κ) (ho : 0 ≤ o) {s : ℕ} (hdef : Definite m e s)
    (hK : ∀ n, ∃ K E ss, MobBC.flux (.recomb K E o) ss ∈ bcs n ∧ s ∈ ss ∧ ∀ q, κ ≤ arr (K q) (E q) ((Ps n).T.T.tr q)) :
    Tendsto x atTop (𝓝 0) := by
  have hw : ∀ p, 0 ≤ m.w p := fun p => by have := (H.run.problem 0).weights p; rwa [H.run.mesh 0] at this
  have hws : ∀ q, 0 ≤ m.ws q := fun q => by have := (H.run.problem 0).weightsS q; rwa [H.run.mesh 0] at this
  obtain ⟨μ, hμ, hco⟩ := size_coercive (e := e) hw hws hdef
  set u : ℕ → Fld Ω Γ d := fun n => Fld.comb (x (n + 1)) e with hu
  set X : ℕ → ℝ := fun n => volume m fun p => (Fld.comb (x n) e).val p ^ 2 with hX
  set g : ℕ → ℝ := fun n => volume m fun p => dot ((u n).grad p) ((u n).grad p) with hg
  set b : ℕ → ℝ := fun n => surface m s fun q => (u n).tr q ^ (o + 1) with hb
  have hX0 : ∀ n, 0 ≤ X n := fun n => Finset.sum_nonneg fun p _ => mul_nonneg (hw p) (sq_nonneg _)
  have hg0 : ∀ n, 0 ≤ g n := fun n => Finset.sum_nonneg fun p _ => mul_nonneg (hw p) (dot_self_nonneg _)
  have hb0 : ∀ n, 0 ≤ b n := fun n => Finset.sum_nonneg fun q _ => mul_nonneg (hws q) (Real.rpow_nonneg (H.physical n q) _)
  have hstep : ∀ n, 2 * hmin * (dmin * g n + κ * b n) ≤ X n - X (n + 1) := by
    intro n
    obtain ⟨K, E, ss, hm, hs, hκ⟩ := hK n
    have e1 := H.energy n K E o ss s hm hs
    have e2 : dmin * g n ≤ dirichletEnergy (Ps n) (mat n) (u n) := by
      unfold dirichletEnergy
      rw [H.run.mesh n]
      simp only [hg, volume]
      rw [Finset.mul_sum]
      refine Finset.sum_le_sum fun p _ => ?_
      have := mul_le_mul_of_nonneg_right (hD n p) (mul_nonneg (hw p) (dot_self_nonneg ((u n).grad p)))
      linarith
    have e3 : κ * b n ≤ surface m s fun q => arr (K q) (E q) ((Ps n).T.T.tr q) * (u n).tr q ^ o * (u n).tr q := by
      simp only [hb, surface]
      rw [Finset.mul_sum]
      refine Finset.sum_le_sum fun q _ => ?_
      have hq : 0 ≤ (u n).tr q := H.physical n q
      rw [Real.rpow_add_one' hq (by linarith)]
      have := mul_le_mul_of_nonneg_right (hκ q) (mul_nonneg (hws q) (mul_nonneg (Real.rpow_nonneg hq o) hq))
      linarith
    have e4 : 0 ≤ dmin * g n + κ * b n := add_nonneg (mul_nonneg d0.le (hg0 n)) (mul_nonneg κ0.le (hb0 n))
    have e5 := mul_le_mul_of_nonneg_right (hh n) e4
    have e6 := mul_le_mul_of_nonneg_left (add_le_add e2 e3) (H.run.positive n).le
    linarith
  have hG0 : ∀ n, 0 ≤ dmin * g n + κ * b n := fun n => add_nonneg (mul_nonneg d0.le (hg0 n)) (mul_nonneg κ0.le (hb0 n))
  have hsum : ∀ n, ∑ i ∈ Finset.range n, (dmin * g i + κ * b i) ≤ X 0 / (2 * hmin) := by
    intro n
    rw [le_div_iff₀ (by linarith), Finset.sum_mul]
    have : ∑ i ∈ Finset.range n, (dmin * g i + κ * b i) * (2 * hmin) ≤ ∑ i ∈ Finset.range n, (X i - X (i + 1)) :=
      Finset.sum_le_sum fun i _ => by linarith [hstep i]
    rw [Finset.sum_range_sub'] at this
    linarith [hX0 n]
  have hGt : Tendsto (fun n => dmin * g n + κ * b n) atTop (𝓝 0) := (summable_of_sum_range_le hG0 hsum).tendsto_atTop_zero
  have hgt : Tendsto g atTop (𝓝 0) := by
    have : Tendsto (fun n => (dmin * g n + κ * b n) / dmin) atTop (𝓝 0) := by simpa using hGt.div_const dmin
    refine squeeze_zero hg0 (fun n => ?_) this
    rw [le_div_iff₀ d0]
    linarith [mul_nonneg κ0.le (hb0 n)]
  have hbt : Tendsto b atTop (𝓝 0) := by
    have : Tendsto (fun n => (dmin * g n + κ * b n) / κ) atTop (𝓝 0) := by simpa using hGt.div_const κ
    refine squeeze_zero hb0 (fun n => ?_) this
    rw [le_div_iff₀ κ0]
    linarith [mul_nonneg d0.le (hg0 n)]
  have htr : Tendsto (fun n => surface m s fun q => (u n).tr q ^ 2) atTop (𝓝 0) := by
    unfold surface
    rw [show (0 : ℝ) = ∑ q ∈ Finset.univ.filter (fun q => m.sm q = s), 0 by simp]
    refine tendsto_finsetSum _ fun q hq => ?_
    rcases (hws q).lt_or_eq with hq' | hq'
    · have h1 : Tendsto (fun n => (u n).tr q ^ (o + 1)) atTop (𝓝 0) := by
        have : Tendsto (fun n => b n / m.ws q) atTop (𝓝 0) := by simpa using hbt.div_const (m.ws q)
        refine squeeze_zero (fun n => Real.rpow_nonneg (H.physical n q) _) (fun n => ?_) this
        rw [le_div_iff₀ hq']
        have := Finset.single_le_sum (f := fun q => m.ws q * (u n).tr q ^ (o + 1))
          (fun q _ => mul_nonneg (hws q) (Real.rpow_nonneg (H.physical n q) _)) hq
        simp only [hb, surface]
        linarith
      have h2 := h1.rpow_const (p := 1 / (o + 1)) (Or.inr (by positivity))
      rw [Real.zero_rpow (by positivity)] at h2
      have h3 : Tendsto (fun n => (u n).tr q) atTop (𝓝 0) := by
        refine h2.congr fun n => ?_
        rw [← Real.rpow_mul (H.physical n q), mul_one_div_cancel (by linarith), Real.rpow_one]
      have h4 := (h3.pow 2).const_mul (m.ws q)
      simpa using h4
    · simp [← hq']
  have hsz : Tendsto (fun n => size m e s (x (n + 1))) atTop (𝓝 0) := by
    have := hgt.add htr
    simpa [size] using this
  rw [← tendsto_add_atTop_iff_nat 1, tendsto_zero_iff_norm_tendsto_zero]
  have hsq : Tendsto (fun n => ‖x (n + 1)‖ ^ 2) atTop (𝓝 0) := by
    have : Tendsto (fun n => size m e s (x (n + 1)) / μ) atTop (𝓝 0) := by simpa using hsz.div_const μ
    refine squeeze_zero (fun n => sq_nonneg _) (fun n => ?_) this
    rw [le_div_iff₀ hμ]
    linarith [hco (x (n + 1))]
  have := hsq.sqrt
  rw [Real.sqrt_zero] at this
  refine this.congr fun n => ?_
  exact Real.sqrt_sq (norm_nonneg _)

/-- **C125 (e).** Then everything leaves through the surfaces, or decays. -/
theorem C125_total (H : Exhaust m e Ps bcs mat h x) (hx : Tendsto x atTop (𝓝 0)) (hone : ∃ y, (∀ p, (Fld.comb y e).val p = 1) ∧
      (∀ p k, (Fld.comb y e).grad p k = 0) ∧ ∀ q, (Fld.comb y e).tr q = 1) :
    Tendsto (fun n => ∑ i ∈ Finset.range n, (departed m e Ps bcs h x i + decayed m e Ps h x i)) atTop
      (𝓝 (volume m (Fld.comb (x 0) e).val)) := by
  have hc : Continuous fun y : ι → ℝ => volume m (Fld.comb y e).val := by
    unfold volume Fld.comb
    fun_prop
  have h1 : Tendsto (fun n => volume m (Fld.comb (x n) e).val) atTop (𝓝 (volume m (Fld.comb 0 e).val)) :=
    (hc.tendsto 0).comp hx
  have h2 : volume m (Fld.comb (0 : ι → ℝ) e).val = 0 := by simp [volume, Fld.comb]
  rw [h2] at h1
  have h3 := h1.const_sub (volume m (Fld.comb (x 0) e).val)
  rw [sub_zero] at h3
  exact h3.congr fun n => (C125_balance H hone n).symm

end

/-! ### A square with an inner node

The square of `patchMesh` with its boundary: the constants and the hat function of the centre; recombination of order two. -/

namespace RoomCase

noncomputable def mesh : Mesh (Fin 4) Unit 2 :=
  ⟨fun _ => 1, fun _ => 1, fun _ => 9, fun _ => 1, fun _ => 1, Fld.const 0, .cartesian⟩

noncomputable def basis : Fin 2 → Fld (Fin 4) Unit 2
  | 0 => Fld.const 1
  | 1 => ⟨fun _ => 1 / 3, fun p i => patchGrad p i, fun _ => 0⟩

noncomputable def prob (z w : Fin 2 → ℝ) : Problem (Fin 4) Unit 2 where
  mesh := mesh
  mats := [patchMat]
  mv := ⟨false, Fld.comb z basis, Fld.comb w basis, Fld.const 1⟩
  T := ⟨Fld.const 500, Fld.const 500⟩
  dt := some (1 / 9)
  soret := false
  sources := []
  traps := []

noncomputable def bc : List (MobBC Unit) := [.flux (.recomb (fun _ => 1) (fun _ => 0) 2) [1]]

theorem diffusive (z w : Fin 2 → ℝ) : Diffusive (prob z w) bc fun _ => patchMat where
  cover := ⟨fun p => by simp [prob], fun p => by simp [prob, mesh, patchMat], by simp [prob, patchMat]⟩
  cartesian := rfl
  theta := rfl
  soret := rfl
  traps := rfl
  weights p := by simp [prob, mesh]
  weightsS q := by simp [prob, mesh]
  D_nonneg a ha := by
    simp only [prob, List.mem_singleton] at ha
    subst ha
    simp [patchMat]
  decay s hs := by simp [prob] at hs
  fluxes b hb := by
    simp only [bc, List.mem_singleton] at hb
    exact ⟨_, _, hb⟩

theorem defect_eq (z w y : Fin 2 → ℝ) :
    defect (prob z w) bc (fun _ => patchMat) (fun p => ((Fld.comb z basis).val p - (Fld.comb w basis).val p) / (1 / 9))
      (Fld.comb z basis) (Fld.comb y basis)
      = 36 * ((z 0 - w 0) + (z 1 - w 1) / 3) * (y 0 + y 1 / 3) + 4 * z 1 * y 1 + 9 * (z 0) ^ 2 * y 0 := by
  have hD : ∀ p, diffusivity (prob z w) (fun _ => patchMat) p = 1 := by
    intro p
    simp [diffusivity, arr, patchMat]
  simp only [defect, hD]
  simp [volume, surface, bcInflow, inward, bc, arr, prob, mesh, basis, Fld.comb, Fld.const, dot, Fin.sum_univ_four, Fin.sum_univ_two,
    patchGrad]
  ring

/-- The coefficient of the constant after a step. -/
noncomputable def rim (w : Fin 2 → ℝ) : ℝ := Real.sqrt (1 + 2 * (w 0 + w 1 / 3)) - 1

/-- The coefficients after each step: of the constant, and of the hat function. -/
noncomputable def coef : ℕ → Fin 2 → ℝ
  | 0 => ![1, 0]
  | n + 1 => ![rim (coef n), 3 / 4 * rim (coef n) ^ 2]

theorem coef_nonneg (n : ℕ) : 0 ≤ coef n 0 ∧ 0 ≤ coef n 1 := by
  induction n with
  | zero => simp [coef]
  | succ n ih =>
    obtain ⟨h0, h1⟩ := ih
    have : 0 ≤ rim (coef n) := by
      unfold rim
      have := Real.one_le_sqrt.2 (show 1 ≤ 1 + 2 * (coef n 0 + coef n 1 / 3) by linarith)
      linarith
    simp only [coef, Matrix.cons_val_zero, Matrix.cons_val_one]
    exact ⟨this, by positivity⟩

theorem rim_eq (n : ℕ) : rim (coef n) ^ 2 + 2 * rim (coef n) = 2 * (coef n 0 + coef n 1 / 3) := by
  obtain ⟨h0, h1⟩ := coef_nonneg n
  have := Real.sq_sqrt (show 0 ≤ 1 + 2 * (coef n 0 + coef n 1 / 3) by linarith)
  unfold rim
  linear_combination this

theorem trace (y : Fin 2 → ℝ) (q : Unit) : (Fld.comb y basis).tr q = y 0 := by
  simp [Fld.comb, basis, Fld.const, Fin.sum_univ_two]

theorem exhaust : Exhaust mesh basis (fun n => prob (coef (n + 1)) (coef n)) (fun _ => bc) (fun _ _ => patchMat) (fun _ => 1 / 9) coef where
  run := {
    problem := fun n => diffusive _ _
    mesh := fun n => rfl
    positive := fun n => by norm_num
    dt := fun n => rfl
    sol := fun n => rfl
    prev := fun n => rfl
    solved := by
      rintro n v ⟨y, rfl⟩
      refine ⟨_, rfl, ?_⟩
      have e := (diffusive (coef (n + 1)) (coef n)).residual (1 / 9) rfl (Fld.comb y basis) _ rfl
      have e2 := defect_eq (coef (n + 1)) (coef n) y
      have e3 := rim_eq n
      have e4 : 36 * ((coef (n + 1) 0 - coef n 0) + (coef (n + 1) 1 - coef n 1) / 3) * (y 0 + y 1 / 3) + 4 * coef (n + 1) 1 * y 1
          + 9 * (coef (n + 1) 0) ^ 2 * y 0 = 0 := by
        simp only [coef, Matrix.cons_val_zero, Matrix.cons_val_one]
        linear_combination (18 * y 0 + 6 * y 1) * e3
      have e5 := e.trans (e2.trans e4)
      have e6 : mesh = (prob (coef (n + 1)) (coef n)).mesh := rfl
      rw [e6, e5]
      simp }
  sources n s hs := by simp [prob] at hs
  physical n q := by
    rw [trace]
    exact (coef_nonneg (n + 1)).1
  outward n f ss hf q := by
    simp only [bc, List.mem_singleton, MobBC.flux.injEq] at hf
    obtain ⟨rfl, rfl⟩ := hf
    rw [trace]
    simp [inward, arr]
    exact sq_nonneg _

theorem definite : Definite mesh basis 1 := by
  intro y hg ht
  have h0 : y 0 = 0 := by
    have := ht () rfl (by norm_num [mesh])
    rwa [trace] at this
  have h1 : y 1 = 0 := by
    have := hg 0 (by norm_num [mesh]) 0
    simpa [Fld.comb, basis, Fld.const, Fin.sum_univ_two, patchGrad] using this
  funext i
  fin_cases i
  · exact h0
  · exact h1

/-- All the hydrogen of the square leaves. -/
example : Tendsto coef atTop (𝓝 0) ∧ Tendsto (fun n => ∑ i ∈ Finset.range n,
    (departed mesh basis (fun n => prob (coef (n + 1)) (coef n)) (fun _ => bc) (fun _ => 1 / 9) coef i
      + decayed mesh basis (fun n => prob (coef (n + 1)) (coef n)) (fun _ => 1 / 9) coef i)) atTop (𝓝 4) := by
  have h1 := C125_complete exhaust (hmin := 1 / 9) (dmin := 1) (κ := 1) (o := 2) (by norm_num) (fun _ => le_rfl) one_pos
    (fun n p => by simp [diffusivity, arr, patchMat]) one_pos (by norm_num) definite
    (fun n => ⟨_, _, [1], List.mem_singleton.2 rfl, by simp, fun q => by simp [arr]⟩)
  refine ⟨h1, ?_⟩
  have h2 := C125_total exhaust h1 ⟨![1, 0], by simp [Fld.comb, basis, Fld.const, Fin.sum_univ_two],
    by simp [Fld.comb, basis, Fld.const, Fin.sum_univ_two], by simp [Fld.comb, basis, Fld.const, Fin.sum_univ_two]⟩
  have e : volume mesh (Fld.comb (coef 0) basis).val = 4 := by
    norm_num [volume, mesh, Fld.comb, coef, basis, Fld.const, Fin.sum_univ_two]
  rwa [e] at h2

/-- Any other simulation of the square from the same initial state, in which nothing is negative on the boundary, gives the same. -/
example (x : ℕ → Fin 2 → ℝ) (hx : Stepped mesh (Set.range fun y => Fld.comb y basis) (fun n => prob (x (n + 1)) (x n)) (fun _ => bc)
    (fun _ _ => patchMat) (fun _ => 1 / 9) (fun _ => 0) fun n => Fld.comb (x n) basis) (h0 : x 0 = ![1, 0])
    (hp : ∀ n, 0 ≤ x n 0) (n : ℕ) (p : Fin 4) : (Fld.comb (x n) basis).val p = (Fld.comb (coef n) basis).val p := by
  refine C125_unique hx exhaust.run (fun n => rfl) (fun n => ⟨x (n + 1) - coef (n + 1), ?_⟩) (fun n f ss hf q => ?_)
    (fun p => by rw [h0]; rfl) n p (by norm_num [mesh])
  · ext
    · simp [Fld.comb, Fin.sum_univ_two]; ring
    · simp [Fld.comb, Fin.sum_univ_two]; ring
    · simp [Fld.comb, Fin.sum_univ_two]; ring
  · simp only [bc, List.mem_singleton, MobBC.flux.injEq] at hf
    obtain ⟨rfl, rfl⟩ := hf
    refine Flux.monotone_of _ _ _ _ _ ⟨zero_le_one, by norm_num, ?_, ?_⟩
    · show 0 ≤ (Fld.comb (x (n + 1)) basis).tr q
      rw [trace]
      exact hp _
    · show 0 ≤ (Fld.comb (coef (n + 1)) basis).tr q
      rw [trace]
      exact (coef_nonneg _).1

end RoomCase

end Festim.Props
