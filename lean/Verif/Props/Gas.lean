import Verif.Props.Bounds
import Verif.Props.Theta
import Mathlib.Algebra.Order.BigOperators.Ring.Finset
import Mathlib.Analysis.SpecificLimits.Basic

/-!
# C81: exposure to a gas

A surface in contact with a gas can be described by `DissociationFlux` and `RecombinationFlux`, by
`SievertsBC` or by `ImplantationDirichlet` without implantation.
-/

open scoped BigOperators

set_option linter.unusedSectionVars false
set_option linter.unusedSimpArgs false

namespace Festim.Weak

section
variable {Ω Γ : Type} [Fintype Ω] [Fintype Γ] {d : ℕ}

theorem sqrt_arr (Kr E_Kr Kd E_Kd p T : ℝ) (hKr : 0 < Kr) (hKd : 0 ≤ Kd) (hp : 0 ≤ p) :
    arr Kr E_Kr T * (arr (√(Kd / Kr)) ((E_Kd - E_Kr) / 2) T * p ^ (0.5 : ℝ)) ^ 2
      = arr Kd E_Kd T * p := by
  rw [mul_pow, half_pow_sq p hp]
  unfold arr
  rw [mul_pow, Real.sq_sqrt (div_nonneg hKd hKr.le), ← Real.exp_nat_mul]
  have h1 : ((2 : ℕ) : ℝ) * (-((E_Kd - E_Kr) / 2) / kB / T) = -E_Kd / kB / T - (-E_Kr / kB / T) := by
    push_cast
    ring
  rw [h1, Real.exp_sub]
  have h2 := (Real.exp_pos (-E_Kr / kB / T)).ne'
  field_simp

/-- A boundary exposed to a gas: dissociation and recombination on the surfaces `surfs`; `ce` is the
concentration which a `SievertsBC` with `S_0 = √(Kd_0/Kr_0)`, `E_S = (E_Kd - E_Kr)/2` would impose at every
point of these surfaces. -/
structure Gas (P : Problem Ω Γ d) (Kr_0 E_Kr Kd_0 E_Kd : ℝ) (p : Γ → ℝ) (surfs : List ℕ) (ce : ℝ) :
    Prop where
  Kr_pos : 0 < Kr_0
  Kd_nonneg : 0 ≤ Kd_0
  p_nonneg : ∀ q, 0 ≤ p q
  eq : ∀ q, P.mesh.sm q ∈ surfs →
    (Dirichlet.sieverts (√(Kd_0 / Kr_0)) ((E_Kd - E_Kr) / 2) p).at (P.T.T.tr q) q = .ok ce

/-- The two conditions. -/
def gasBCs (Kr_0 E_Kr Kd_0 E_Kd : ℝ) (p : Γ → ℝ) (surfs : List ℕ) : List (MobBC Γ) :=
  [.flux (.dissoc (fun _ => Kd_0) (fun _ => E_Kd) p) surfs,
   .flux (.recomb (fun _ => Kr_0) (fun _ => E_Kr) 2) surfs]

theorem Gas.balance {P : Problem Ω Γ d} {Kr_0 E_Kr Kd_0 E_Kd : ℝ} {p : Γ → ℝ} {surfs : List ℕ} {ce : ℝ}
    (g : Gas P Kr_0 E_Kr Kd_0 E_Kd p surfs ce) (q : Γ) (hq : P.mesh.sm q ∈ surfs) :
    0 ≤ ce ∧ arr Kr_0 E_Kr (P.T.T.tr q) * ce ^ 2 = arr Kd_0 E_Kd (P.T.T.tr q) * p q := by
  have h := g.eq q hq
  simp only [Dirichlet.at, Except.ok.injEq] at h
  have h2 := sqrt_arr Kr_0 E_Kr Kd_0 E_Kd (p q) (P.T.T.tr q) g.Kr_pos g.Kd_nonneg (g.p_nonneg q)
  unfold arr at h2 ⊢
  rw [h] at h2
  refine ⟨?_, h2⟩
  rw [← h]
  have := g.p_nonneg q
  positivity

/-- What the two conditions supply. -/
theorem gas_supply (P : Problem Ω Γ d) (mat : Ω → Mat) (Kr_0 E_Kr Kd_0 E_Kd : ℝ) (p : Γ → ℝ)
    (surfs : List ℕ) (ce : ℝ) (g : Gas P Kr_0 E_Kr Kd_0 E_Kd p surfs ce) (htheta : P.mv.theta = false)
    (hs : P.sources = []) (ht : P.traps = []) (v : Fld Ω Γ d) :
    supply P (gasBCs Kr_0 E_Kr Kd_0 E_Kd p surfs) mat (fun _ => noMat) v
      = (surfs.map fun s => surface P.mesh s fun q =>
          arr Kr_0 E_Kr (P.T.T.tr q) * (ce ^ 2 - P.mv.sol.tr q ^ 2) * v.tr q).sum := by
  unfold supply gasBCs
  rw [hs, ht]
  simp only [List.map_nil, List.sum_nil, zero_add, List.map_cons, List.sum_cons, add_zero, bcInflow, inward,
    Problem.cS, physConc, htheta]
  rw [← List.sum_map_add]
  congr 1
  apply List.map_congr_left
  intro s hs
  unfold surface
  rw [← Finset.sum_add_distrib]
  refine Finset.sum_congr rfl fun q hq => ?_
  have hq' : P.mesh.sm q ∈ surfs := by rw [(Finset.mem_filter.1 hq).2]; exact hs
  beta_reduce
  rw [← (g.balance q hq').2, show (P.mv.sol.tr q) ^ (2 : ℝ) = P.mv.sol.tr q ^ 2 from Real.rpow_two _]
  ring

/-- Distance to the equilibrium, squared. -/
noncomputable def dist2 (P : Problem Ω Γ d) (c : Ω → ℝ) (ce : ℝ) : ℝ :=
  volume P.mesh fun p => (weight P.mesh).val p * (c p - ce) ^ 2

/-- Dissipation in the volume. -/
noncomputable def dissipation (P : Problem Ω Γ d) (mat : Ω → Mat) : ℝ :=
  volume P.mesh fun p => (weight P.mesh).val p *
    (arr (mat p).D_0 (mat p).E_D (P.T.T.val p) * dot (P.mv.sol.grad p) (P.mv.sol.grad p))

/-- Dissipation on the surfaces exposed to the gas. -/
noncomputable def gasDissipation (P : Problem Ω Γ d) (Kr_0 E_Kr : ℝ) (surfs : List ℕ) (ce : ℝ) : ℝ :=
  (surfs.map fun s => surface P.mesh s fun q => (weight P.mesh).tr q *
    (arr Kr_0 E_Kr (P.T.T.tr q) * (P.mv.sol.tr q + ce) * (P.mv.sol.tr q - ce) ^ 2)).sum

theorem dissipation_nonneg (P : Problem Ω Γ d) (mat : Ω → Mat) (hcov : Covers P.mesh P.mats mat)
    (hw : ∀ p, 0 ≤ P.mesh.w p * (weight P.mesh).val p) (hD : ∀ a ∈ P.mats, 0 ≤ a.D_0) :
    0 ≤ dissipation P mat := by
  refine volume_nonneg _ _ fun p => ?_
  have h1 : 0 ≤ arr (mat p).D_0 (mat p).E_D (P.T.T.val p) := by
    have := hD _ (hcov.mem p)
    unfold arr
    positivity
  have := mul_nonneg (hw p) (mul_nonneg h1 (dot_self_nonneg (P.mv.sol.grad p)))
  nlinarith

theorem gas_diff (P : Problem Ω Γ d) (mat : Ω → Mat) (ce : ℝ) (htheta : P.mv.theta = false)
    (hsoret : P.soret = false) (hty : P.mesh.type ≠ .other)
    (hr : (P.mesh.type = .cylindrical ∨ P.mesh.type = .spherical) → ∀ p, P.mesh.r.val p ≠ 0) :
    volume P.mesh (fun p => dot (gradFlux P.soret P.mv.theta (mat p) (P.T.T.val p) (P.mv.sol.val p)
      (P.T.T.grad p) (P.mv.sol.grad p)) (coordGrad P.mesh (weight P.mesh * (P.mv.sol - Fld.const ce)) p))
      = dissipation P mat := by
  unfold dissipation
  congr 1
  funext p
  simp only [dot, Finset.mul_sum]
  refine Finset.sum_congr rfl fun i _ => ?_
  rw [coordGrad_weight_mul P.mesh _ hty hr p i]
  simp only [gradFlux, physGrad, htheta, hsoret, Bool.false_eq_true, if_false, Fld.sub_grad, Fld.const]
  ring

theorem gas_supply_eq (P : Problem Ω Γ d) (mat : Ω → Mat) (Kr_0 E_Kr Kd_0 E_Kd : ℝ) (p : Γ → ℝ)
    (surfs : List ℕ) (ce : ℝ) (g : Gas P Kr_0 E_Kr Kd_0 E_Kd p surfs ce) (htheta : P.mv.theta = false)
    (hs : P.sources = []) (ht : P.traps = []) :
    supply P (gasBCs Kr_0 E_Kr Kd_0 E_Kd p surfs) mat (fun _ => noMat)
        (weight P.mesh * (P.mv.sol - Fld.const ce))
      = -gasDissipation P Kr_0 E_Kr surfs ce := by
  rw [gas_supply P mat _ _ _ _ _ _ ce g htheta hs ht, gasDissipation, ← neg_one_mul,
    ← List.sum_map_mul_left]
  congr 1
  apply List.map_congr_left
  intro s _
  unfold surface
  rw [Finset.mul_sum]
  refine Finset.sum_congr rfl fun q _ => ?_
  simp only [Fld.mul_tr, Fld.sub_tr, Fld.const]
  ring

theorem list_zero_of_sum {l : List ℝ} (h : ∀ x ∈ l, 0 ≤ x) (h0 : l.sum = 0) : ∀ x ∈ l, x = 0 := by
  intro x hx
  have h1 := List.single_le_sum h x hx
  have h2 := h x hx
  linarith

theorem gasBCs_noSK (Kr_0 E_Kr Kd_0 E_Kd : ℝ) (p : Γ → ℝ) (surfs : List ℕ) (b : SK Γ) (vs : List ℝ) :
    MobBC.sk b vs ∉ gasBCs Kr_0 E_Kr Kd_0 E_Kd p surfs := by
  simp [gasBCs]

end

section line
variable {Ω : Type} [Fintype Ω]

/-- Length of the domain. -/
noncomputable def Line.length (L : Line Ω) : ℝ := ∑ i ∈ Finset.range L.N, L.h i

/-- Integral of the square of the derivative of a piecewise affine function. -/
noncomputable def Line.slope2 (L : Line Ω) (u : ℕ → ℝ) : ℝ :=
  ∑ i ∈ Finset.range L.N, (u (i + 1) - u i) ^ 2 / L.h i

theorem Line.slope2_nonneg (L : Line Ω) (u : ℕ → ℝ) : 0 ≤ L.slope2 u :=
  Finset.sum_nonneg fun i hi => div_nonneg (sq_nonneg _) (L.h_pos i (Finset.mem_range.1 hi)).le

theorem Line.length_pos (L : Line Ω) : 0 < L.length :=
  Finset.sum_pos (fun i hi => L.h_pos i (Finset.mem_range.1 hi))
    ⟨0, Finset.mem_range.2 L.N_pos⟩

/-- Cauchy-Schwarz between two nodes. -/
theorem Line.between (L : Line Ω) (u : ℕ → ℝ) (j k : ℕ) (hj : j ≤ L.N) (hk : k ≤ L.N) :
    (u j - u k) ^ 2 ≤ L.length * L.slope2 u := by
  have key : ∀ j k, j ≤ k → k ≤ L.N → (u j - u k) ^ 2 ≤ L.length * L.slope2 u := by
    intro j k hjk hk
    have hsub : Finset.Ico j k ⊆ Finset.range L.N := fun i hi => by
      rw [Finset.mem_Ico] at hi
      exact Finset.mem_range.2 (by omega)
    have h1 : u k - u j = ∑ i ∈ Finset.Ico j k, (u (i + 1) - u i) := (Finset.sum_Ico_sub u hjk).symm
    have h2 : (∑ i ∈ Finset.Ico j k, (u (i + 1) - u i)) ^ 2
        ≤ (∑ i ∈ Finset.Ico j k, L.h i) * ∑ i ∈ Finset.Ico j k, (u (i + 1) - u i) ^ 2 / L.h i := by
      apply Finset.sum_sq_le_sum_mul_sum_of_sq_le_mul
      · exact fun i hi => (L.h_pos i (Finset.mem_range.1 (hsub hi))).le
      · exact fun i hi => div_nonneg (sq_nonneg _) (L.h_pos i (Finset.mem_range.1 (hsub hi))).le
      · intro i hi
        have := (L.h_pos i (Finset.mem_range.1 (hsub hi))).ne'
        refine le_of_eq ?_
        field_simp
    have h3 : (∑ i ∈ Finset.Ico j k, L.h i) ≤ L.length :=
      Finset.sum_le_sum_of_subset_of_nonneg hsub fun i hi _ => (L.h_pos i (Finset.mem_range.1 hi)).le
    have h4 : (∑ i ∈ Finset.Ico j k, (u (i + 1) - u i) ^ 2 / L.h i) ≤ L.slope2 u :=
      Finset.sum_le_sum_of_subset_of_nonneg hsub fun i hi _ =>
        div_nonneg (sq_nonneg _) (L.h_pos i (Finset.mem_range.1 hi)).le
    have h5 : 0 ≤ ∑ i ∈ Finset.Ico j k, L.h i :=
      Finset.sum_nonneg fun i hi => (L.h_pos i (Finset.mem_range.1 (hsub hi))).le
    calc (u j - u k) ^ 2 = (u k - u j) ^ 2 := by ring
      _ ≤ _ := by rw [h1]; exact h2
      _ ≤ _ := mul_le_mul h3 h4 (Finset.sum_nonneg fun i hi =>
          div_nonneg (sq_nonneg _) (L.h_pos i (Finset.mem_range.1 (hsub hi))).le) L.length_pos.le
  rcases le_total j k with h | h
  · exact key j k h hk
  · have := key k j h hj
    calc (u j - u k) ^ 2 = (u k - u j) ^ 2 := by ring
      _ ≤ _ := this

theorem line_w_sum (L : Line Ω) (r : Fld Ω Bool 1) (a : ℝ) :
    volume (L.mesh r) (fun _ => a) = L.length * a := by
  unfold volume Line.length
  rw [← Finset.sum_fiberwise_of_maps_to (s := Finset.univ) (t := Finset.range L.N) (g := L.cell)
    (fun p _ => Finset.mem_range.2 (L.cell_lt p)), Finset.sum_mul]
  exact Finset.sum_congr rfl fun i hi => line_exact L i (Finset.mem_range.1 hi) a

/-- A piecewise affine function is controlled by its value at one node and its derivative. -/
theorem poincare (L : Line Ω) (hq : L.Exact2) (r : Fld Ω Bool 1) (u : ℕ → ℝ) (a : ℝ) (k : ℕ)
    (hk : k ≤ L.N) :
    volume (L.mesh r) (fun p => ((L.p1 u).val p - a) ^ 2)
      ≤ L.length * (2 * (u k - a) ^ 2 + 2 * (L.length * L.slope2 u)) := by
  rw [← line_w_sum L r]
  unfold volume
  refine Finset.sum_le_sum fun p _ => ?_
  refine mul_le_mul_of_nonneg_left ?_ (hq.w_nonneg p)
  have hn : ∀ j ≤ L.N, (u j - a) ^ 2 ≤ 2 * (u k - a) ^ 2 + 2 * (L.length * L.slope2 u) := by
    intro j hj
    have := L.between u j k hj hk
    nlinarith [sq_nonneg ((u j - u k) - (u k - a))]
  have h1 := hn (L.cell p) (L.cell_lt p).le
  have h2 := hn (L.cell p + 1) (L.cell_lt p)
  have l0 := hq.lam_nonneg p
  have l1 := hq.lam_le p
  simp only [Line.p1]
  set b := 2 * (u k - a) ^ 2 + 2 * (L.length * L.slope2 u)
  have e : ((1 - L.lam p) * u (L.cell p) + L.lam p * u (L.cell p + 1) - a) ^ 2
      = (1 - L.lam p) * (u (L.cell p) - a) ^ 2 + L.lam p * (u (L.cell p + 1) - a) ^ 2
        - L.lam p * (1 - L.lam p) * (u (L.cell p) - u (L.cell p + 1)) ^ 2 := by ring
  rw [e]
  have h3 : 0 ≤ L.lam p * (1 - L.lam p) * (u (L.cell p) - u (L.cell p + 1)) ^ 2 :=
    mul_nonneg (mul_nonneg l0 (by linarith)) (sq_nonneg _)
  have h4 := mul_le_mul_of_nonneg_left h1 (show 0 ≤ 1 - L.lam p by linarith)
  have h5 := mul_le_mul_of_nonneg_left h2 l0
  linarith

theorem line_slope2 (L : Line Ω) (r : Fld Ω Bool 1) (u : ℕ → ℝ) :
    volume (L.mesh r) (fun p => (L.p1 u).grad p 0 * (L.p1 u).grad p 0) = L.slope2 u := by
  rw [line_volume L r (fun p => (L.p1 u).grad p 0) u]
  unfold Line.slope2
  refine Finset.sum_congr rfl fun i hi => ?_
  have hi' := Finset.mem_range.1 hi
  have : (∑ p ∈ Finset.univ.filter (fun p => L.cell p = i), L.w p * (L.p1 u).grad p 0)
      = L.h i * ((u (i + 1) - u i) / L.h i) := by
    rw [← line_exact L i hi']
    refine Finset.sum_congr rfl fun p hp => ?_
    rw [← (Finset.mem_filter.1 hp).2]
    rfl
  rw [this]
  have := (L.h_pos i hi').ne'
  field_simp

end line

end Festim.Weak

namespace Festim.Props

open Festim.Weak

section
variable {Ω Γ : Type} [Fintype Ω] [Fintype Γ] {d : ℕ}

/-- **C81.** The flux supplied by a `DissociationFlux` and a `RecombinationFlux` (of order 2) together
vanishes at one concentration only: the one imposed by a `SievertsBC` of the same pressure with
`S_0 = √(Kd_0/Kr_0)` and `E_S = (E_Kd - E_Kr)/2`.  Below it hydrogen enters, above it hydrogen leaves. -/
theorem C81_equilibrium (Kr_0 E_Kr Kd_0 E_Kd T : ℝ) (p : Γ → ℝ) (q : Γ) (hKr : 0 < Kr_0)
    (hKd : 0 ≤ Kd_0) (hp : 0 ≤ p q) :
    ∃ ce, (Dirichlet.sieverts (√(Kd_0 / Kr_0)) ((E_Kd - E_Kr) / 2) p).at T q = .ok ce ∧ 0 ≤ ce ∧
      ∀ c, 0 ≤ c → ∀ J,
        J = (Flux.dissoc (fun _ => Kd_0) (fun _ => E_Kd) p).form (fun _ => T) (fun _ => c) q
          + (Flux.recomb (fun _ => Kr_0) (fun _ => E_Kr) 2).form (fun _ => T) (fun _ => c) q →
        (J = 0 ↔ c = ce) ∧ (0 < J ↔ c < ce) ∧ (J < 0 ↔ ce < c) := by
  have h := sqrt_arr Kr_0 E_Kr Kd_0 E_Kd (p q) T hKr hKd hp
  refine ⟨_, rfl, by positivity, ?_⟩
  intro c hc J hJ
  set ce := √(Kd_0 / Kr_0) * Real.exp (-((E_Kd - E_Kr) / 2) / kB / T) * p q ^ (0.5 : ℝ) with hce
  have hce0 : 0 ≤ ce := by positivity
  have hk : 0 < arr Kr_0 E_Kr T := arr_pos hKr
  have hJ' : J = arr Kr_0 E_Kr T * ((ce - c) * (ce + c)) := by
    have h' : arr Kr_0 E_Kr T * ce ^ 2 = arr Kd_0 E_Kd T * p q := h
    rw [hJ]
    simp only [Flux.form]
    rw [Real.rpow_two]
    simp only [arr] at h' ⊢
    rw [← h']
    ring
  have hpos : c < ce → 0 < J := fun hlt => by
    rw [hJ']
    exact mul_pos hk (mul_pos (by linarith) (by linarith))
  have hneg : ce < c → J < 0 := fun hlt => by
    rw [hJ']
    exact mul_neg_of_pos_of_neg hk (mul_neg_of_neg_of_pos (by linarith) (by linarith))
  have hzero : c = ce → J = 0 := fun he => by rw [hJ', he]; ring
  refine ⟨⟨fun h0 => ?_, hzero⟩, ⟨fun h0 => ?_, hpos⟩, ⟨fun h0 => ?_, hneg⟩⟩
  · rcases lt_trichotomy c ce with h1 | h1 | h1
    · have := hpos h1; linarith
    · exact h1
    · have := hneg h1; linarith
  · rcases lt_trichotomy c ce with h1 | h1 | h1
    · exact h1
    · have := hzero h1; linarith
    · have := hneg h1; linarith
  · rcases lt_trichotomy c ce with h1 | h1 | h1
    · have := hpos h1; linarith
    · have := hzero h1; linarith
    · exact h1

/-- **C81.** An `ImplantationDirichlet` without implanted flux imposes the same concentration. -/
theorem C81_implantation (Kr_0 E_Kr Kd_0 E_Kd D_0 E_D T : ℝ) (R_p p : Γ → ℝ) (q : Γ) (hKr : 0 < Kr_0)
    (hKd : 0 ≤ Kd_0) (hp : 0 ≤ p q) :
    (Dirichlet.implantation (fun _ => 0) R_p D_0 E_D (some Kr_0) (some E_Kr) (some Kd_0) (some E_Kd)
        (some p)).at T q
      = (Dirichlet.sieverts (√(Kd_0 / Kr_0)) ((E_Kd - E_Kr) / 2) p).at T q := by
  have h := sqrt_arr Kr_0 E_Kr Kd_0 E_Kd (p q) T hKr hKd hp
  have hk : 0 < arr Kr_0 E_Kr T := arr_pos hKr
  simp only [Dirichlet.at, dcImp, optNum, Option.map_some, zero_mul, zero_div, zero_add,
    Except.ok.injEq]
  rw [show (√(Kd_0 / Kr_0) * Real.exp (-((E_Kd - E_Kr) / 2) / kB / T) * p q ^ (0.5 : ℝ))
    = arr (√(Kd_0 / Kr_0)) ((E_Kd - E_Kr) / 2) T * p q ^ (0.5 : ℝ) from rfl]
  set ce := arr (√(Kd_0 / Kr_0)) ((E_Kd - E_Kr) / 2) T * p q ^ (0.5 : ℝ) with hce
  have hce0 : 0 ≤ ce := by rw [hce]; unfold arr; positivity
  have h2 : arr Kd_0 E_Kd T * p q / arr Kr_0 E_Kr T = ce ^ 2 := by
    rw [← h]; field_simp
  have h3 : (ce ^ 2 : ℝ) ^ (0.5 : ℝ) = ce := by
    rw [← Real.rpow_two, ← Real.rpow_mul hce0]
    norm_num
  unfold arr at h2
  rw [h2, h3]

/-- **C81.** A converged step of pure diffusion, in any of the three kinds of coordinates, under a gas in
equilibrium with `ce`: the distance to the uniform concentration `ce` does not increase, and the decrease
bounds what is dissipated in the volume and on the surfaces.  (The residual vanishes for the test function
`weight * (c - ce)`; the concentration on the surfaces is not negative.) -/
theorem C81_step (P : Problem Ω Γ d) (mat : Ω → Mat) (Kr_0 E_Kr Kd_0 E_Kd : ℝ) (p : Γ → ℝ)
    (surfs : List ℕ) (ce h : ℝ) (F : Form Ω Γ) (g : Gas P Kr_0 E_Kr Kd_0 E_Kd p surfs ce)
    (hh : 0 < h) (hdt : P.dt = some h) (hcov : Covers P.mesh P.mats mat)
    (htheta : P.mv.theta = false) (hsoret : P.soret = false) (hs : P.sources = [])
    (ht : P.traps = []) (hty : P.mesh.type ≠ .other)
    (hr : (P.mesh.type = .cylindrical ∨ P.mesh.type = .spherical) → ∀ p, P.mesh.r.val p ≠ 0)
    (hw : ∀ p, 0 ≤ P.mesh.w p * (weight P.mesh).val p)
    (hws : ∀ q, 0 ≤ P.mesh.ws q * (weight P.mesh).tr q)
    (hD : ∀ a ∈ P.mats, 0 ≤ a.D_0)
    (hc : ∀ q, P.mesh.sm q ∈ surfs → 0 ≤ P.mv.sol.tr q)
    (hF : P.form (gasBCs Kr_0 E_Kr Kd_0 E_Kd p surfs) (weight P.mesh * (P.mv.sol - Fld.const ce)) [] = .ok F)
    (hzero : P.mesh.assemble F = 0) :
    dist2 P P.mv.sol.val ce
        + 2 * h * (dissipation P mat + gasDissipation P Kr_0 E_Kr surfs ce)
      ≤ dist2 P P.mv.prev.val ce ∧
    0 ≤ dissipation P mat ∧ 0 ≤ gasDissipation P Kr_0 E_Kr surfs ce := by
  set v := weight P.mesh * (P.mv.sol - Fld.const ce) with hv
  have hno := gasBCs_noSK Kr_0 E_Kr Kd_0 E_Kd p surfs
  have hsol : Solubility P mat fun _ => noMat :=
    ⟨by simp [htheta], by simp [htheta], by simp [htheta], by simp [htheta]⟩
  have e := C41_weak_form P _ mat _ h v F hdt hcov hsol hr
    (fun b vs hm => absurd hm (hno b vs)) (Or.inl htheta) (by rw [ht]; exact hF)
  rw [hzero, hv, gas_diff P mat ce htheta hsoret hty hr,
    gas_supply_eq P mat _ _ _ _ _ _ ce g htheta hs ht, ← hv] at e
  simp only [stock, stockPrev, bcStock_zero _ _ _ _ _ hno, ht, List.map_nil, List.sum_nil, add_zero,
    Problem.c, Problem.cPrev, physConc, htheta] at e
  have hY : dist2 P P.mv.sol.val ce - dist2 P P.mv.prev.val ce
      ≤ 2 * (volume P.mesh (fun p => P.mv.sol.val p * v.val p)
        - volume P.mesh (fun p => P.mv.prev.val p * v.val p)) := by
    unfold dist2
    rw [← volume_sub, ← volume_sub, ← volume_smul, ← sub_nonneg, ← volume_sub]
    refine volume_nonneg _ _ fun p => ?_
    simp only [hv, Fld.mul_val, Fld.sub_val, Fld.const]
    have := mul_nonneg (hw p) (sq_nonneg (P.mv.sol.val p - P.mv.prev.val p))
    nlinarith
  set A := volume P.mesh (fun p => P.mv.sol.val p * v.val p)
  set B := volume P.mesh (fun p => P.mv.prev.val p * v.val p)
  have e' : A - B = -(h * (dissipation P mat + gasDissipation P Kr_0 E_Kr surfs ce)) := by
    have h1 : (A - B) / h = -(dissipation P mat + gasDissipation P Kr_0 E_Kr surfs ce) := by linarith
    rw [div_eq_iff hh.ne'] at h1
    linarith
  refine ⟨by linarith, dissipation_nonneg P mat hcov hw hD, ?_⟩
  unfold gasDissipation
  apply List.sum_nonneg
  intro x hx
  obtain ⟨s, hs', rfl⟩ := List.mem_map.1 hx
  refine surface_nonneg _ _ _ fun q hq => ?_
  have hq' : P.mesh.sm q ∈ surfs := by rw [hq]; exact hs'
  have h1 := (g.balance q hq').1
  have h2 := hc q hq'
  have h3 : 0 < arr Kr_0 E_Kr (P.T.T.tr q) := arr_pos g.Kr_pos
  have h4 : 0 ≤ arr Kr_0 E_Kr (P.T.T.tr q) * (P.mv.sol.tr q + ce) * (P.mv.sol.tr q - ce) ^ 2 := by positivity
  have := mul_nonneg (hws q) h4
  nlinarith

/-- **C81.** In steady state: a solution which is not negative on the surfaces is uniform and equal to `ce`
there (where the weights are positive), whatever the geometry. -/
theorem C81_steady (P : Problem Ω Γ d) (mat : Ω → Mat) (Kr_0 E_Kr Kd_0 E_Kd : ℝ) (p : Γ → ℝ)
    (surfs : List ℕ) (ce : ℝ) (F : Form Ω Γ) (g : Gas P Kr_0 E_Kr Kd_0 E_Kd p surfs ce)
    (hdt : P.dt = none) (hcov : Covers P.mesh P.mats mat)
    (htheta : P.mv.theta = false) (hsoret : P.soret = false) (hs : P.sources = [])
    (ht : P.traps = []) (hty : P.mesh.type ≠ .other)
    (hr : (P.mesh.type = .cylindrical ∨ P.mesh.type = .spherical) → ∀ p, P.mesh.r.val p ≠ 0)
    (hw : ∀ p, 0 < P.mesh.w p * (weight P.mesh).val p)
    (hws : ∀ q, 0 < P.mesh.ws q * (weight P.mesh).tr q)
    (hD : ∀ a ∈ P.mats, 0 < a.D_0)
    (hc : ∀ q, P.mesh.sm q ∈ surfs → 0 ≤ P.mv.sol.tr q)
    (hF : P.form (gasBCs Kr_0 E_Kr Kd_0 E_Kd p surfs) (weight P.mesh * (P.mv.sol - Fld.const ce)) [] = .ok F)
    (hzero : P.mesh.assemble F = 0) :
    (∀ p i, P.mv.sol.grad p i = 0) ∧ ∀ q, P.mesh.sm q ∈ surfs → P.mv.sol.tr q = ce := by
  have hno := gasBCs_noSK Kr_0 E_Kr Kd_0 E_Kd p surfs
  have hsol : Solubility P mat fun _ => noMat :=
    ⟨by simp [htheta], by simp [htheta], by simp [htheta], by simp [htheta]⟩
  have e := steady_weak_form P _ mat _ _ F hdt hcov hsol hr ht hno hF
  rw [hzero, gas_diff P mat ce htheta hsoret hty hr,
    gas_supply_eq P mat _ _ _ _ _ _ ce g htheta hs ht] at e
  have hE := dissipation_nonneg P mat hcov (fun p => (hw p).le) fun a ha => (hD a ha).le
  have hterm : ∀ s ∈ surfs, ∀ q, P.mesh.sm q = s → 0 ≤ P.mesh.ws q * ((weight P.mesh).tr q *
      (arr Kr_0 E_Kr (P.T.T.tr q) * (P.mv.sol.tr q + ce) * (P.mv.sol.tr q - ce) ^ 2)) := by
    intro s hs' q hq
    have hq' : P.mesh.sm q ∈ surfs := by rw [hq]; exact hs'
    have h1 := (g.balance q hq').1
    have h2 := hc q hq'
    have h3 : 0 < arr Kr_0 E_Kr (P.T.T.tr q) := arr_pos g.Kr_pos
    rw [← mul_assoc]
    exact mul_nonneg (hws q).le (by positivity)
  have hG : 0 ≤ gasDissipation P Kr_0 E_Kr surfs ce := by
    unfold gasDissipation
    apply List.sum_nonneg
    intro x hx
    obtain ⟨s, hs', rfl⟩ := List.mem_map.1 hx
    exact surface_nonneg _ _ _ (hterm s hs')
  have hE0 : dissipation P mat = 0 := by linarith
  have hG0 : gasDissipation P Kr_0 E_Kr surfs ce = 0 := by linarith
  constructor
  · intro p i
    have hDp : ∀ p, 0 < arr (mat p).D_0 (mat p).E_D (P.T.T.val p) := fun p => arr_pos (hD _ (hcov.mem p))
    unfold dissipation volume at hE0
    rw [Finset.sum_eq_zero_iff_of_nonneg fun p _ => by
      rw [← mul_assoc]
      exact mul_nonneg (hw p).le (mul_nonneg (hDp p).le (dot_self_nonneg _))] at hE0
    have h0 := hE0 p (Finset.mem_univ p)
    rw [← mul_assoc] at h0
    have h1 := (mul_eq_zero.1 h0).resolve_left (hw p).ne'
    have h2 := (mul_eq_zero.1 h1).resolve_left (hDp p).ne'
    unfold dot at h2
    rw [Finset.sum_eq_zero_iff_of_nonneg fun i _ => mul_self_nonneg _] at h2
    exact mul_self_eq_zero.1 (h2 i (Finset.mem_univ i))
  · intro q hq
    have h1 := list_zero_of_sum ?_ hG0
    · have h2 := h1 _ (List.mem_map.2 ⟨P.mesh.sm q, hq, rfl⟩)
      unfold surface at h2
      rw [Finset.sum_eq_zero_iff_of_nonneg fun q' hq' => hterm _ hq q' (Finset.mem_filter.1 hq').2] at h2
      have h3 := h2 q (Finset.mem_filter.2 ⟨Finset.mem_univ q, rfl⟩)
      rw [← mul_assoc] at h3
      have h4 := (mul_eq_zero.1 h3).resolve_left (hws q).ne'
      have h5 : 0 < arr Kr_0 E_Kr (P.T.T.tr q) := arr_pos g.Kr_pos
      rcases mul_eq_zero.1 h4 with h6 | h6
      · have := (mul_eq_zero.1 h6).resolve_left h5.ne'
        have h7 := (g.balance q hq).1
        have h8 := hc q hq
        linarith
      · have := pow_eq_zero_iff (two_ne_zero) |>.1 h6
        linarith
    · intro x hx
      obtain ⟨s, hs', rfl⟩ := List.mem_map.1 hx
      exact surface_nonneg _ _ _ (hterm s hs')

end

section line
variable {Ω : Type} [Fintype Ω]

/-- A simulation on a line exposed to a gas at one of its ends at least: no sources, uniform `ce`,
diffusivity at least `Dmin`, recombination coefficient at least `k` at an exposed end `q`, no negative
concentration at the exposed ends. -/
structure GasLine (L : Line Ω) (P : Problem Ω Bool 1) (mat : Ω → Mat) (Kr_0 E_Kr Kd_0 E_Kd : ℝ)
    (p : Bool → ℝ) (surfs : List ℕ) (ce : ℝ) (u : ℕ → ℝ) (q : Bool) (Dmin k : ℝ) : Prop where
  line : OnLine L P (gasBCs Kr_0 E_Kr Kd_0 E_Kd p surfs) mat u fun _ => False
  gas : Gas P Kr_0 E_Kr Kd_0 E_Kd p surfs ce
  sources : P.sources = []
  ends : ∀ q, P.mesh.sm q ∈ surfs → 0 ≤ P.mv.sol.tr q
  exposed : P.mesh.sm q ∈ surfs
  D_pos : ∀ a ∈ P.mats, 0 < a.D_0
  D_min : ∀ x, Dmin ≤ diffAt P mat x
  Kr_min : k ≤ arr Kr_0 E_Kr (P.T.T.tr q)

theorem line_weight (L : Line Ω) (r : Fld Ω Bool 1) : weight (L.mesh r) = Fld.const 1 := rfl

theorem line_test (L : Line Ω) (u : ℕ → ℝ) (ce : ℝ) :
    (Fld.const 1 * (L.p1 u - Fld.const ce) : Fld Ω Bool 1) = L.p1 fun j => u j - ce := by
  have : ∀ a b : Fld Ω Bool 1, a.val = b.val → a.grad = b.grad → a.tr = b.tr → a = b := by
    intro a b h1 h2 h3
    cases a; cases b
    simp_all
  apply this
  · funext p
    simp only [Fld.mul_val, Fld.sub_val, Fld.const, Line.p1]
    ring
  · funext p i
    simp only [Fld.mul_grad, Fld.sub_grad, Fld.sub_val, Fld.const, Line.p1]
    ring
  · funext q
    simp only [Fld.mul_tr, Fld.sub_tr, Fld.const, Line.p1]
    split_ifs <;> ring

/-- The node of an end. -/
def endNode (L : Line Ω) (q : Bool) : ℕ := if q then L.N else 0

/-- The dissipation controls the distance to the equilibrium. -/
theorem gas_coercive (L : Line Ω) (P : Problem Ω Bool 1) (mat : Ω → Mat) (Kr_0 E_Kr Kd_0 E_Kd : ℝ)
    (p : Bool → ℝ) (surfs : List ℕ) (ce : ℝ) (u : ℕ → ℝ) (q : Bool) (Dmin k : ℝ)
    (g : GasLine L P mat Kr_0 E_Kr Kd_0 E_Kd p surfs ce u q Dmin k) (hce : 0 < ce) (hk : 0 < k) (hD : 0 < Dmin)
    (M : ℝ) (hM1 : 2 * L.length ≤ M * (k * ce)) (hM2 : 2 * L.length ^ 2 ≤ M * Dmin) :
    volume P.mesh (fun x => ((L.p1 u).val x - ce) ^ 2)
      ≤ M * (dissipation P mat + gasDissipation P Kr_0 E_Kr surfs ce) := by
  obtain ⟨r, hm⟩ := g.line.mesh
  have hsolv := g.line.sol
  have h1 : Dmin * L.slope2 u ≤ dissipation P mat := by
    unfold dissipation
    rw [← line_slope2 L r u, hm, ← volume_smul, line_weight]
    unfold volume
    refine Finset.sum_le_sum fun x _ => mul_le_mul_of_nonneg_left ?_ (g.line.quad.w_nonneg x)
    have hx := g.D_min x
    unfold diffAt at hx
    simp only [Fld.const, one_mul, dot, Fin.sum_univ_one, Fin.isValue, hsolv]
    exact mul_le_mul_of_nonneg_right hx (mul_self_nonneg _)
  have hterm : ∀ s ∈ surfs, ∀ q, P.mesh.sm q = s → 0 ≤ P.mesh.ws q * ((weight P.mesh).tr q *
      (arr Kr_0 E_Kr (P.T.T.tr q) * (P.mv.sol.tr q + ce) * (P.mv.sol.tr q - ce) ^ 2)) := by
    intro s hs' q hq
    have hq' : P.mesh.sm q ∈ surfs := by rw [hq]; exact hs'
    have h2 := g.ends q hq'
    have h3 : 0 < arr Kr_0 E_Kr (P.T.T.tr q) := arr_pos g.gas.Kr_pos
    rw [hm, line_weight]
    simp only [Fld.const, Line.mesh, one_mul]
    positivity
  have h2 : k * ce * (u (endNode L q) - ce) ^ 2 ≤ gasDissipation P Kr_0 E_Kr surfs ce := by
    have ha : surface P.mesh (P.mesh.sm q) (fun q => (weight P.mesh).tr q *
        (arr Kr_0 E_Kr (P.T.T.tr q) * (P.mv.sol.tr q + ce) * (P.mv.sol.tr q - ce) ^ 2))
        ≤ gasDissipation P Kr_0 E_Kr surfs ce := by
      unfold gasDissipation
      refine List.single_le_sum ?_ _ (List.mem_map.2 ⟨P.mesh.sm q, g.exposed, rfl⟩)
      intro x hx
      obtain ⟨s, hs', rfl⟩ := List.mem_map.1 hx
      exact surface_nonneg _ _ _ (hterm s hs')
    refine le_trans ?_ ha
    have hb : P.mesh.ws q * ((weight P.mesh).tr q *
        (arr Kr_0 E_Kr (P.T.T.tr q) * (P.mv.sol.tr q + ce) * (P.mv.sol.tr q - ce) ^ 2))
        ≤ surface P.mesh (P.mesh.sm q) (fun q => (weight P.mesh).tr q *
        (arr Kr_0 E_Kr (P.T.T.tr q) * (P.mv.sol.tr q + ce) * (P.mv.sol.tr q - ce) ^ 2)) := by
      unfold surface
      exact Finset.single_le_sum (f := fun q => P.mesh.ws q * ((weight P.mesh).tr q *
        (arr Kr_0 E_Kr (P.T.T.tr q) * (P.mv.sol.tr q + ce) * (P.mv.sol.tr q - ce) ^ 2)))
        (fun q' hq' => hterm _ g.exposed q' (Finset.mem_filter.1 hq').2)
        (Finset.mem_filter.2 ⟨Finset.mem_univ q, rfl⟩)
    refine le_trans ?_ hb
    have htr : P.mv.sol.tr q = u (endNode L q) := by
      rw [hsolv]; unfold Line.p1 endNode; cases q <;> rfl
    have hc := g.ends q g.exposed
    have hkr := g.Kr_min
    rw [hm, line_weight]
    simp only [Fld.const, Line.mesh, one_mul]
    rw [htr] at hc ⊢
    refine mul_le_mul_of_nonneg_right ?_ (sq_nonneg _)
    exact mul_le_mul hkr (by linarith) hce.le (by linarith)
  have h3 := poincare L g.line.quad r u ce (endNode L q) (by unfold endNode; cases q <;> simp)
  rw [hm]
  refine h3.trans ?_
  have hl := L.length_pos
  have hs := L.slope2_nonneg u
  have hM : 0 < M := by
    by_contra hneg
    have := mul_nonneg (mul_nonneg hk.le hce.le) (neg_nonneg.2 (not_lt.1 hneg))
    nlinarith
  have h4 := mul_le_mul_of_nonneg_left h2 hM.le
  have h5 := mul_le_mul_of_nonneg_left h1 hM.le
  have h6 := mul_le_mul_of_nonneg_right hM1 (sq_nonneg (u (endNode L q) - ce))
  have h7 := mul_le_mul_of_nonneg_right hM2 hs
  nlinarith

/-- **C81.** On a line with at least one end exposed to the gas, every steady solution (not negative at the
exposed ends) is the uniform concentration of Sieverts' law. -/
theorem C81_steady_line (L : Line Ω) (P : Problem Ω Bool 1) (mat : Ω → Mat) (Kr_0 E_Kr Kd_0 E_Kd : ℝ)
    (p : Bool → ℝ) (surfs : List ℕ) (ce : ℝ) (u : ℕ → ℝ) (q : Bool) (Dmin k : ℝ)
    (g : GasLine L P mat Kr_0 E_Kr Kd_0 E_Kd p surfs ce u q Dmin k) (hce : 0 < ce) (hk : 0 < k)
    (hD : 0 < Dmin) (hw : ∀ x, 0 < L.w x) (hdt : P.dt = none) : ∀ j ≤ L.N, u j = ce := by
  obtain ⟨r, hm⟩ := g.line.mesh
  have htest : weight P.mesh * (P.mv.sol - Fld.const ce) = L.p1 fun j => u j - ce := by
    rw [hm, line_weight, g.line.sol, line_test]
  obtain ⟨F, hF⟩ := form_ok_notraps P (gasBCs Kr_0 E_Kr Kd_0 E_Kd p surfs) (L.p1 fun j => u j - ce) g.line.traps
  have hz := g.line.solves _ (fun q h => h.elim) F hF
  have hwt : ∀ x, 0 < P.mesh.w x * (weight P.mesh).val x := by
    intro x; rw [hm, line_weight]; simpa [Line.mesh, Fld.const] using hw x
  have hwst : ∀ q, 0 < P.mesh.ws q * (weight P.mesh).tr q := by
    intro q; rw [hm, line_weight]; simp [Line.mesh, Fld.const]
  obtain ⟨hgrad, htr⟩ := C81_steady P mat Kr_0 E_Kr Kd_0 E_Kd p surfs ce F g.gas hdt g.line.cover g.line.theta
    g.line.soret g.sources g.line.traps (by rw [hm]; simp [Line.mesh]) (by rw [hm]; simp [Line.mesh])
    hwt hwst g.D_pos g.ends (by rw [htest]; exact hF) hz
  intro j hj
  have hs : L.slope2 u = 0 := by
    rw [← line_slope2 L r u]
    unfold volume
    refine Finset.sum_eq_zero fun x _ => ?_
    have := hgrad x 0
    rw [g.line.sol] at this
    beta_reduce
    rw [this]
    ring
  have h1 := L.between u j (endNode L q) hj (by unfold endNode; cases q <;> simp)
  rw [hs, mul_zero] at h1
  have h2 := pow_eq_zero_iff (two_ne_zero) |>.1 (le_antisymm h1 (sq_nonneg _))
  have h3 : u (endNode L q) = ce := by
    rw [← htr q g.exposed, g.line.sol]; unfold Line.p1 endNode; cases q <;> rfl
  linarith

/-- **C81.** On a line with at least one end exposed to the gas, whatever the initial concentration and the
stepsizes (at least `hmin`), the concentration converges to that of Sieverts' law: the distance (mean square)
is multiplied at every step by `M / (M + 2 hmin)` at most, and the inventory converges to `ce` times the
length. -/
theorem C81_converges (L : Line Ω) (P : ℕ → Problem Ω Bool 1) (mat : Ω → Mat) (Kr_0 E_Kr Kd_0 E_Kd : ℝ)
    (p : Bool → ℝ) (surfs : List ℕ) (ce : ℝ) (u : ℕ → ℕ → ℝ) (h : ℕ → ℝ) (q : Bool) (Dmin k hmin : ℝ)
    (g : ∀ n, GasLine L (P n) mat Kr_0 E_Kr Kd_0 E_Kd p surfs ce (u (n + 1)) q Dmin k) (hce : 0 < ce)
    (hk : 0 < k) (hD : 0 < Dmin) (hmin0 : 0 < hmin) (hh : ∀ n, hmin ≤ h n)
    (hdt : ∀ n, (P n).dt = some (h n)) (hprev : ∀ n, (P n).mv.prev = L.p1 (u n))
    (M : ℝ) (hM1 : 2 * L.length ≤ M * (k * ce)) (hM2 : 2 * L.length ^ 2 ≤ M * Dmin) (n : ℕ) :
    (∑ x, L.w x * ((L.p1 (u n)).val x - ce) ^ 2
      ≤ (M / (M + 2 * hmin)) ^ n * ∑ x, L.w x * ((L.p1 (u 0)).val x - ce) ^ 2) ∧
    0 ≤ M / (M + 2 * hmin) ∧ M / (M + 2 * hmin) < 1 ∧
    ((∑ x, L.w x * (L.p1 (u n)).val x) - ce * L.length) ^ 2
      ≤ L.length * ∑ x, L.w x * ((L.p1 (u n)).val x - ce) ^ 2 := by
  have hl := L.length_pos
  have hM : 0 < M := by
    by_contra hneg
    have := mul_nonneg (mul_nonneg hk.le hce.le) (neg_nonneg.2 (not_lt.1 hneg))
    nlinarith
  have hq : 0 ≤ M / (M + 2 * hmin) := by positivity
  have hstep : ∀ n, ∑ x, L.w x * ((L.p1 (u (n + 1))).val x - ce) ^ 2
      ≤ M / (M + 2 * hmin) * ∑ x, L.w x * ((L.p1 (u n)).val x - ce) ^ 2 := by
    intro n
    obtain ⟨r, hm⟩ := (g n).line.mesh
    have htest : weight (P n).mesh * ((P n).mv.sol - Fld.const ce) = L.p1 fun j => u (n + 1) j - ce := by
      rw [hm, line_weight, (g n).line.sol, line_test]
    obtain ⟨F, hF⟩ := form_ok_notraps (P n) (gasBCs Kr_0 E_Kr Kd_0 E_Kd p surfs)
      (L.p1 fun j => u (n + 1) j - ce) (g n).line.traps
    have hz := (g n).line.solves _ (fun q h => h.elim) F hF
    have hwt : ∀ x, 0 ≤ (P n).mesh.w x * (weight (P n).mesh).val x := by
      intro x; rw [hm, line_weight]
      simpa [Line.mesh, Fld.const] using (g n).line.quad.w_nonneg x
    have hwst : ∀ q, 0 ≤ (P n).mesh.ws q * (weight (P n).mesh).tr q := by
      intro q; rw [hm, line_weight]; simp [Line.mesh, Fld.const]
    have hpos : 0 < h n := lt_of_lt_of_le hmin0 (hh n)
    obtain ⟨h1, h2, h3⟩ := C81_step (P n) mat Kr_0 E_Kr Kd_0 E_Kd p surfs ce (h n) F (g n).gas hpos (hdt n)
      (g n).line.cover (g n).line.theta (g n).line.soret (g n).sources (g n).line.traps
      (by rw [hm]; simp [Line.mesh]) (by rw [hm]; simp [Line.mesh]) hwt hwst
      (fun a ha => ((g n).D_pos a ha).le) (g n).ends (by rw [htest]; exact hF) hz
    have h4 := gas_coercive L (P n) mat Kr_0 E_Kr Kd_0 E_Kd p surfs ce (u (n + 1)) q Dmin k (g n) hce hk hD M
      hM1 hM2
    have e1 : ∀ c : Fld Ω Bool 1, dist2 (P n) c.val ce = ∑ x, L.w x * (c.val x - ce) ^ 2 := by
      intro c
      unfold dist2 volume
      rw [hm, line_weight]
      simp only [Fld.const, Line.mesh, one_mul]
    rw [e1, e1, (g n).line.sol, hprev n] at h1
    have e2 : volume (P n).mesh (fun x => ((L.p1 (u (n + 1))).val x - ce) ^ 2)
        = ∑ x, L.w x * ((L.p1 (u (n + 1))).val x - ce) ^ 2 := by
      unfold volume
      rw [hm]
      rfl
    rw [e2] at h4
    rw [div_mul_eq_mul_div, le_div_iff₀ (by positivity)]
    set A := ∑ x, L.w x * ((L.p1 (u (n + 1))).val x - ce) ^ 2
    set B := ∑ x, L.w x * ((L.p1 (u n)).val x - ce) ^ 2
    set E := dissipation (P n) mat + gasDissipation (P n) Kr_0 E_Kr surfs ce
    have hE : 0 ≤ E := add_nonneg h2 h3
    have h5 : hmin * E ≤ h n * E := mul_le_mul_of_nonneg_right (hh n) hE
    have h6 := mul_le_mul_of_nonneg_left h1 hM.le
    have h7 := mul_le_mul_of_nonneg_left h4 hmin0.le
    nlinarith
  refine ⟨?_, hq, ?_, ?_⟩
  · induction n with
    | zero => simp
    | succ n ih =>
      refine (hstep n).trans ?_
      rw [pow_succ', mul_assoc]
      exact mul_le_mul_of_nonneg_left ih hq
  · rw [div_lt_one (by positivity)]
    linarith
  · have hwn := (g 0).line.quad.w_nonneg
    have h1 : (∑ x, L.w x * (L.p1 (u n)).val x) - ce * L.length
        = ∑ x, L.w x * ((L.p1 (u n)).val x - ce) := by
      have h2 := line_w_sum L (Fld.const 0) ce
      unfold volume at h2
      have h3 : ∑ x, L.w x * ce = L.length * ce := h2
      have h4 : ∑ x, L.w x * ((L.p1 (u n)).val x - ce)
          = ∑ x, L.w x * (L.p1 (u n)).val x - ∑ x, L.w x * ce := by
        rw [← Finset.sum_sub_distrib]
        exact Finset.sum_congr rfl fun x _ => by ring
      rw [h4, h3]
      ring
    rw [h1]
    have h2 := line_w_sum L (Fld.const 0) 1
    have h3 : ∑ x, L.w x = L.length := by
      unfold volume at h2
      simpa [Line.mesh] using h2
    rw [← h3]
    apply Finset.sum_sq_le_sum_mul_sum_of_sq_le_mul
    · exact fun x _ => hwn x
    · exact fun x _ => mul_nonneg (hwn x) (sq_nonneg _)
    · intro x _
      exact le_of_eq (by ring)

end line

/-! ### A slab of length 2 with both faces exposed, initially empty of hydrogen -/

namespace GasCase

/-- One cell, Simpson's rule. -/
noncomputable def L : Line (Fin 3) where
  N := 1
  h _ := 2
  cell _ := 0
  lam p := p.val / 2
  w p := if p = 1 then 4 / 3 else 1 / 3
  vm _ := 1
  left := 1
  right := 2
  vmL := 1
  vmR := 1
  N_pos := by norm_num
  h_pos _ _ := by norm_num
  cell_lt _ := by norm_num
  exact := by
    intro i hi
    have : i = 0 := by omega
    subst this
    simp only [Finset.filter_true, Fin.sum_univ_three]
    simp
    norm_num
  ends := by norm_num

theorem L_exact2 : L.Exact2 where
  w_nonneg p := by
    simp only [L]
    split_ifs <;> norm_num
  lam_nonneg p := by simp only [L]; positivity
  lam_le p := by fin_cases p <;> norm_num [L]
  one := by
    intro i hi
    change i < 1 at hi
    have : i = 0 := by omega
    subst this
    simp only [L, Finset.filter_true, Fin.sum_univ_three]
    simp
    norm_num
  two := by
    intro i hi
    change i < 1 at hi
    have : i = 0 := by omega
    subst this
    simp only [L, Finset.filter_true, Fin.sum_univ_three]
    simp
    norm_num

/-- The concentrations at the successive times: `c' - c = 1 - c'²`. -/
noncomputable def conc : ℕ → ℝ
  | 0 => 0
  | n + 1 => (-1 + √(5 + 4 * conc n)) / 2

theorem conc_nonneg (n : ℕ) : 0 ≤ conc n := by
  induction n with
  | zero => exact le_refl 0
  | succ n ih =>
    have : (1 : ℝ) ≤ √(5 + 4 * conc n) := by
      rw [Real.one_le_sqrt]
      linarith
    unfold conc
    linarith

theorem conc_step (n : ℕ) : conc (n + 1) - conc n = 1 - conc (n + 1) ^ 2 := by
  have h := Real.sq_sqrt (show (0 : ℝ) ≤ 5 + 4 * conc n by linarith [conc_nonneg n])
  have e : conc (n + 1) = (-1 + √(5 + 4 * conc n)) / 2 := rfl
  rw [e]
  nlinarith

noncomputable def M : Mat := { uid := 0, ids := [1], D_0 := 1, E_D := 0 }

noncomputable def P (n : ℕ) : Problem (Fin 3) Bool 1 where
  mesh := L.mesh (Fld.const 1)
  mats := [M]
  mv := { theta := false, sol := L.p1 fun _ => conc (n + 1), prev := L.p1 fun _ => conc n }
  T := ⟨Fld.const 300, Fld.const 300⟩
  dt := some 1
  soret := false
  sources := []
  traps := []

theorem solves (n : ℕ) (v : ℕ → ℝ) (F : Form (Fin 3) Bool)
    (hF : (P n).form (gasBCs 1 0 1 0 (fun _ => 1) [1, 2]) (L.p1 v) [] = .ok F) :
    (P n).mesh.assemble F = 0 := by
  have : (P n).form (gasBCs 1 0 1 0 (fun _ => 1) [1, 2]) (L.p1 v) [] = .ok _ := rfl
  rw [this] at hF
  cases hF
  have h := conc_step n
  simp [P, L, Line.mesh, Mesh.assemble, Mesh.integrate, Form.neg, subdomainForm, Fld.const, dot,
    sourceForm, fluxesForm, M, Line.p1, Fin.sum_univ_three, Mobile.conc, gasBCs, MobBC.form,
    Flux.form, Mobile.mobileConcS, Finset.sum_filter]
  linear_combination (v 0 + v 1) * h

theorem line (n : ℕ) : GasLine L (P n) (fun _ => M) 1 0 1 0 (fun _ => 1) [1, 2] 1 (fun _ => conc (n + 1))
    false 1 1 where
  line := {
    quad := L_exact2
    mesh := ⟨_, rfl⟩
    traps := rfl
    theta := rfl
    soret := rfl
    sol := rfl
    cover := ⟨by simp [P], by simp [P, Line.mesh, L, M], by simp [P, M]⟩
    noSK := gasBCs_noSK _ _ _ _ _ _
    solves := fun v _ F hF => solves n v F hF }
  gas := {
    Kr_pos := one_pos
    Kd_nonneg := zero_le_one
    p_nonneg := fun _ => zero_le_one
    eq := fun q _ => by simp [Dirichlet.at] }
  sources := rfl
  ends q _ := by
    simp only [P, Line.p1]
    split_ifs <;> exact conc_nonneg _
  exposed := by simp [P, Line.mesh, L]
  D_pos := by simp [P, M]
  D_min x := by simp [diffAt, arr, M]
  Kr_min := by simp [arr]

/-- The slab fills up: the distance to Sieverts' concentration is at most `(4/5)^n` times the initial one. -/
example (n : ℕ) : ∑ x, L.w x * ((L.p1 fun _ => conc n).val x - 1) ^ 2
    ≤ (8 / (8 + 2 * 1)) ^ n * ∑ x, L.w x * ((L.p1 fun _ => conc 0).val x - 1) ^ 2 :=
  (C81_converges L P (fun _ => M) 1 0 1 0 (fun _ => 1) [1, 2] 1 (fun n _ => conc n) (fun _ => 1) false 1 1 1
    line one_pos one_pos one_pos one_pos (fun _ => le_refl _) (fun _ => rfl) (fun _ => rfl) 8
    (by simp [Line.length, L]; norm_num) (by simp [Line.length, L]; norm_num) n).1

end GasCase

end Festim.Props
