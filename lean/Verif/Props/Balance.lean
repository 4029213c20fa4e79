import Verif.Proofs.Forms
import Mathlib.Tactic.NormNum

/-!
# C41, C42, C43, C48: what the hydrogen forms conserve

All statements hold for any mesh (finite sets of quadrature points `Ω`, `Γ` with arbitrary weights),
any dimension, materials, traps, sources, flux conditions, temperature fields and test functions.
-/

open scoped BigOperators

set_option linter.unusedSectionVars false

namespace Festim.Weak

section
variable {Ω Γ : Type} [Fintype Ω] [Fintype Γ] {d : ℕ}

/-- Two traps which only differ by their kinetics: rates, activation energies and densities. -/
structure SameButKinetics (t t' : Trap Ω Γ d) : Prop where
  sol : t.sol = t'.sol
  prev : t.prev = t'.prev
  materials : t.materials = t'.materials
  sources : t.sources = t'.sources

theorem trapRest_congr (m : Mesh Ω Γ d) (mats : List Mat) (dt : Option ℝ) (t t' : Trap Ω Γ d)
    (v : Fld Ω Γ d) (h : SameButKinetics t t') :
    trapRest m mats dt t v = trapRest m mats dt t' v := by
  unfold trapRest
  rw [h.sol, h.prev, h.materials, h.sources]

theorem trapRest_sum_congr (m : Mesh Ω Γ d) (mats : List Mat) (dt : Option ℝ)
    (l l' : List (Trap Ω Γ d)) (v : Fld Ω Γ d) (h : List.Forall₂ SameButKinetics l l') :
    (l.map fun t => trapRest m mats dt t v).sum = (l'.map fun t => trapRest m mats dt t v).sum := by
  induction h with
  | nil => rfl
  | cons h _ ih =>
    rw [List.map_cons, List.map_cons, List.sum_cons, List.sum_cons, ih,
      trapRest_congr _ _ _ _ _ _ h]

theorem sum_volume {α : Type} (m : Mesh Ω Γ d) (l : List α) (f : α → Ω → ℝ) :
    (l.map fun t => volume m (f t)).sum = volume m fun p => (l.map fun t => f t p).sum := by
  induction l with
  | nil => simp [volume]
  | cons a l ih =>
    simp only [List.map_cons, List.sum_cons]
    rw [ih, volume_add]

theorem sum_sub_map {α : Type} (l : List α) (f g : α → ℝ) :
    (l.map fun t => f t - g t).sum = (l.map f).sum - (l.map g).sum := by
  induction l with
  | nil => simp
  | cons a l ih => simp only [List.map_cons, List.sum_cons, ih]; ring

theorem sum_rate {α : Type} (l : List α) (f g : α → ℝ) (h v : ℝ) :
    (l.map fun t => (f t - g t) / h * v).sum = ((l.map f).sum - (l.map g).sum) / h * v := by
  induction l with
  | nil => simp
  | cons a l ih => simp only [List.map_cons, List.sum_cons, ih]; ring

end

end Festim.Weak

namespace Festim.Props

open Festim.Weak

section
variable {Ω Γ : Type} [Fintype Ω] [Fintype Γ] {d : ℕ}

/-- **C41.** Add the mobile equation and all the trap equations, tested with the same function: the
result does not depend on the trapping and detrapping rates, activation energies or densities. -/
theorem C41_kinetics_cancels (P : Problem Ω Γ d) (traps' : List (Trap Ω Γ d))
    (bcs : List (MobBC Γ)) (v : Fld Ω Γ d) (F F' : Form Ω Γ)
    (hsame : List.Forall₂ SameButKinetics P.traps traps')
    (hF : P.form bcs v (P.traps.map fun _ => v) = .ok F)
    (hF' : ({ P with traps := traps' } : Problem Ω Γ d).form bcs v (traps'.map fun _ => v) = .ok F') :
    P.mesh.assemble F = P.mesh.assemble F' := by
  rw [form_assemble P bcs v F hF]
  have := form_assemble { P with traps := traps' } bcs v F' hF'
  rw [this]
  have e := trapRest_sum_congr P.mesh P.mats P.dt P.traps traps' v hsame
  rw [e]
  rfl

/-- The residual with one test function for all, the previous subsurface value being that of the
unknown. -/
theorem weak_form_general (P : Problem Ω Γ d) (bcs : List (MobBC Γ)) (mat : Ω → Mat) (matS : Γ → Mat)
    (h : ℝ) (v : Fld Ω Γ d) (F : Form Ω Γ)
    (hdt : P.dt = some h) (hcov : Covers P.mesh P.mats mat) (hsol : Solubility P mat matS)
    (hr : (P.mesh.type = .cylindrical ∨ P.mesh.type = .spherical) → ∀ p, P.mesh.r.val p ≠ 0)
    (htest : SKTests P.mesh v.tr bcs)
    (hF : P.form bcs v (P.traps.map fun _ => v) = .ok F) :
    P.mesh.assemble F
      = (stock P bcs mat matS v
          - (volume P.mesh (fun p =>
              (P.cPrev mat p + (P.traps.map fun t => t.prev.val p).sum) * v.val p)
            + (bcs.map (bcStock P.mesh false P.mv.prev.tr v.tr)).sum)) / h
        + volume P.mesh (fun p =>
            dot (gradFlux P.soret P.mv.theta (mat p) (P.T.T.val p) (P.mv.sol.val p)
              (P.T.T.grad p) (P.mv.sol.grad p)) (coordGrad P.mesh v p))
        - supply P bcs mat matS v := by
  rw [form_assemble P bcs v F hF, bulk_eq P v hcov hr, source_eq P v hcov hsol, hdt,
    fluxes_eq P v bcs h (P.cS matS) (fun q => mobileConcS_eq P hcov hsol q) htest]
  simp only [trapRest, srcAt_eq]
  rw [sum_sub_map, sum_volume, volume_add]
  unfold stock supply
  have e1 : ∀ p, ((P.traps.map fun t => (t.sol.val p - t.prev.val p) / h * v.val p).sum)
      = ((P.traps.map fun t => t.sol.val p).sum - (P.traps.map fun t => t.prev.val p).sum)
        / h * v.val p := fun p => sum_rate _ _ _ _ _
  simp only [e1]
  have e2 : ∀ a b c k : Ω → ℝ,
      volume P.mesh (fun p => (a p - b p) / h * v.val p)
        + volume P.mesh (fun p => (c p - k p) / h * v.val p)
      = (volume P.mesh (fun p => (a p + c p) * v.val p)
        - volume P.mesh (fun p => (b p + k p) * v.val p)) / h := by
    intro a b c k
    rw [← volume_add, ← volume_sub, div_eq_inv_mul, ← volume_smul]
    congr 1
    funext p
    ring
  have e3 := e2 (P.c mat) (P.cPrev mat) (fun p => (P.traps.map fun t => t.sol.val p).sum)
    (fun p => (P.traps.map fun t => t.prev.val p).sum)
  simp only [Problem.c, Problem.cPrev] at e3 ⊢
  linear_combination e3

/-- **C41.** With the same test function for all the hydrogen equations of a transient simulation,
the residual is: rate of change of the inventory, minus what diffuses, minus what is supplied.  No
trapping term is left.  (In the coordinates of the mesh; without surface kinetics or without
chemical potential.) -/
theorem C41_weak_form (P : Problem Ω Γ d) (bcs : List (MobBC Γ)) (mat : Ω → Mat) (matS : Γ → Mat)
    (h : ℝ) (v : Fld Ω Γ d) (F : Form Ω Γ)
    (hdt : P.dt = some h) (hcov : Covers P.mesh P.mats mat) (hsol : Solubility P mat matS)
    (hr : (P.mesh.type = .cylindrical ∨ P.mesh.type = .spherical) → ∀ p, P.mesh.r.val p ≠ 0)
    (htest : SKTests P.mesh v.tr bcs)
    (hsk : P.mv.theta = false ∨ ∀ b vs, MobBC.sk b vs ∉ bcs)
    (hF : P.form bcs v (P.traps.map fun _ => v) = .ok F) :
    P.mesh.assemble F
      = (stock P bcs mat matS v - stockPrev P bcs mat matS v) / h
        + volume P.mesh (fun p =>
            dot (gradFlux P.soret P.mv.theta (mat p) (P.T.T.val p) (P.mv.sol.val p)
              (P.T.T.grad p) (P.mv.sol.grad p)) (coordGrad P.mesh v p))
        - supply P bcs mat matS v := by
  rw [weak_form_general P bcs mat matS h v F hdt hcov hsol hr htest hF]
  have hprev : (bcs.map (bcStock P.mesh false P.mv.prev.tr v.tr)).sum
      = (bcs.map (bcStock P.mesh false (P.cSPrev matS) v.tr)).sum := by
    rcases hsk with h0 | h0
    · have : P.cSPrev matS = P.mv.prev.tr := by
        funext q; simp [Problem.cSPrev, physConc, h0]
      rw [this]
    · congr 1
      apply List.map_congr_left
      intro b hb
      cases b with
      | flux f s => rfl
      | sk b vs => exact absurd hb (h0 b vs)
  rw [hprev]
  rfl

/-- **C42.** Tested with the weight of the coordinates (`1`, `r` or `r²`), the residual of a transient
simulation is exactly the defect of the hydrogen balance. -/
theorem C42_residual_is_balance (P : Problem Ω Γ d) (bcs : List (MobBC Γ)) (mat : Ω → Mat)
    (matS : Γ → Mat) (h : ℝ) (F : Form Ω Γ)
    (hdt : P.dt = some h) (hcov : Covers P.mesh P.mats mat) (hsol : Solubility P mat matS)
    (hr : (P.mesh.type = .cylindrical ∨ P.mesh.type = .spherical) → ∀ p, P.mesh.r.val p ≠ 0)
    (htest : SKTests P.mesh (weight P.mesh).tr bcs)
    (hsk : P.mv.theta = false ∨ ∀ b vs, MobBC.sk b vs ∉ bcs)
    (hF : P.form bcs (weight P.mesh) (P.traps.map fun _ => weight P.mesh) = .ok F) :
    P.mesh.assemble F
      = (stock P bcs mat matS (weight P.mesh) - stockPrev P bcs mat matS (weight P.mesh)) / h
        - supply P bcs mat matS (weight P.mesh) := by
  rw [C41_weak_form P bcs mat matS h _ F hdt hcov hsol hr htest hsk hF]
  have : (volume P.mesh fun p =>
      dot (gradFlux P.soret P.mv.theta (mat p) (P.T.T.val p) (P.mv.sol.val p) (P.T.T.grad p)
        (P.mv.sol.grad p)) (coordGrad P.mesh (weight P.mesh) p)) = 0 := by
    have : ∀ p (a : Fin d → ℝ), dot a (coordGrad P.mesh (weight P.mesh) p) = 0 := fun p a =>
      dot_zero_right _ _ fun i => coordGrad_weight P.mesh hr p i
    simp [this, volume]
  rw [this]
  ring

/-- **C42.** So a converged step (zero residual) changes the inventory by exactly `dt` times what is
supplied, and conversely. -/
theorem C42_balance (P : Problem Ω Γ d) (bcs : List (MobBC Γ)) (mat : Ω → Mat)
    (matS : Γ → Mat) (h : ℝ) (F : Form Ω Γ) (hh : h ≠ 0)
    (hdt : P.dt = some h) (hcov : Covers P.mesh P.mats mat) (hsol : Solubility P mat matS)
    (hr : (P.mesh.type = .cylindrical ∨ P.mesh.type = .spherical) → ∀ p, P.mesh.r.val p ≠ 0)
    (htest : SKTests P.mesh (weight P.mesh).tr bcs)
    (hsk : P.mv.theta = false ∨ ∀ b vs, MobBC.sk b vs ∉ bcs)
    (hF : P.form bcs (weight P.mesh) (P.traps.map fun _ => weight P.mesh) = .ok F) :
    P.mesh.assemble F = 0 ↔
      stock P bcs mat matS (weight P.mesh)
        = stockPrev P bcs mat matS (weight P.mesh) + h * supply P bcs mat matS (weight P.mesh) := by
  rw [C42_residual_is_balance P bcs mat matS h F hdt hcov hsol hr htest hsk hF]
  constructor
  · intro h0
    field_simp at h0
    linarith
  · intro h0
    rw [h0]
    field_simp
    ring

/-- `Q` is the step which follows `P`: its previous values are the current values of `P`. -/
structure Follows (P Q : Problem Ω Γ d) (bcs bcs' : List (MobBC Γ)) : Prop where
  mesh : Q.mesh = P.mesh
  theta : Q.mv.theta = P.mv.theta
  prev : Q.mv.prev = P.mv.sol
  temp : Q.T.Tn = P.T.T
  traps : List.Forall₂ (fun t t' : Trap Ω Γ d => t'.prev = t.sol) P.traps Q.traps
  bcs : List.Forall₂ (fun b b' : MobBC Γ => match b, b' with
    | .flux _ _, .flux _ _ => True
    | .sk b _, .sk b' _ => b.lambda_IS = b'.lambda_IS ∧
        List.Forall₂ (fun s s' : SKSurf => s.id = s'.id ∧ s'.prev = s.sol) b.surfaces b'.surfaces
    | _, _ => False) bcs bcs'

theorem follows_stock (P Q : Problem Ω Γ d) (bcs bcs' : List (MobBC Γ)) (mat : Ω → Mat)
    (matS : Γ → Mat) (v : Fld Ω Γ d) (h : Follows P Q bcs bcs') :
    stockPrev Q bcs' mat matS v = stock P bcs mat matS v := by
  unfold stockPrev stock
  have ht : ∀ p, (Q.traps.map fun t => t.prev.val p).sum = (P.traps.map fun t => t.sol.val p).sum := by
    intro p
    have := h.traps
    generalize P.traps = l at this
    generalize Q.traps = l' at this
    induction this with
    | nil => rfl
    | cons h _ ih => simp only [List.map_cons, List.sum_cons, ih, h]
  have hc : ∀ p, Q.cPrev mat p = P.c mat p := by
    intro p; simp [Problem.cPrev, Problem.c, h.theta, h.prev, h.temp]
  have hcS : Q.cSPrev matS = P.cS matS := by
    funext q; simp [Problem.cSPrev, Problem.cS, h.theta, h.prev, h.temp]
  simp only [ht, hc, hcS, h.mesh]
  congr 1
  have hb := h.bcs
  clear h ht hc hcS
  induction hb with
  | nil => rfl
  | @cons b b' l l' h _ ih =>
    simp only [List.map_cons, List.sum_cons, ih]
    congr 1
    cases b with
    | flux f s =>
      cases b' with
      | flux f' s' => rfl
      | sk b' vs' => exact absurd h (by simp)
    | sk b vs =>
      cases b' with
      | flux f' s' => exact absurd h (by simp)
      | sk b' vs' =>
        obtain ⟨hl, hs⟩ := h
        simp only [bcStock, Bool.false_eq_true, if_false, if_true, hl]
        congr 1
        clear hl ih
        generalize b.surfaces = L at hs ⊢
        generalize b'.surfaces = L' at hs ⊢
        induction hs with
        | nil => rfl
        | cons h _ ih => simp only [List.map_cons, ih, h.1, h.2]

/-- **C42.** Over a whole run of accepted steps the inventory has changed by the sum of what was
supplied, whatever the stepsizes. -/
theorem C42_run (P : ℕ → Problem Ω Γ d) (bcs : ℕ → List (MobBC Γ)) (F : ℕ → Form Ω Γ) (h : ℕ → ℝ)
    (mat : Ω → Mat) (matS : Γ → Mat) (n : ℕ)
    (hfol : ∀ k < n, Follows (P k) (P (k + 1)) (bcs k) (bcs (k + 1)))
    (hh : ∀ k ≤ n, h k ≠ 0)
    (hdt : ∀ k ≤ n, (P k).dt = some (h k)) (hcov : ∀ k ≤ n, Covers (P k).mesh (P k).mats mat)
    (hsol : ∀ k ≤ n, Solubility (P k) mat matS)
    (hr : ∀ k ≤ n, ((P k).mesh.type = .cylindrical ∨ (P k).mesh.type = .spherical) →
      ∀ p, (P k).mesh.r.val p ≠ 0)
    (htest : ∀ k ≤ n, SKTests (P k).mesh (weight (P k).mesh).tr (bcs k))
    (hsk : ∀ k ≤ n, (P k).mv.theta = false ∨ ∀ b vs, MobBC.sk b vs ∉ bcs k)
    (hF : ∀ k ≤ n, (P k).form (bcs k) (weight (P k).mesh)
      ((P k).traps.map fun _ => weight (P k).mesh) = .ok (F k))
    (hzero : ∀ k ≤ n, (P k).mesh.assemble (F k) = 0) :
    stock (P n) (bcs n) mat matS (weight (P n).mesh)
      = stockPrev (P 0) (bcs 0) mat matS (weight (P 0).mesh)
        + ∑ k ∈ Finset.range (n + 1), h k * supply (P k) (bcs k) mat matS (weight (P k).mesh) := by
  have step : ∀ k ≤ n, stock (P k) (bcs k) mat matS (weight (P k).mesh)
      = stockPrev (P k) (bcs k) mat matS (weight (P k).mesh)
        + h k * supply (P k) (bcs k) mat matS (weight (P k).mesh) := fun k hk =>
    (C42_balance (P k) (bcs k) mat matS (h k) (F k) (hh k hk) (hdt k hk) (hcov k hk) (hsol k hk)
      (hr k hk) (htest k hk) (hsk k hk) (hF k hk)).1 (hzero k hk)
  have main : ∀ k ≤ n, stock (P k) (bcs k) mat matS (weight (P k).mesh)
      = stockPrev (P 0) (bcs 0) mat matS (weight (P 0).mesh)
        + ∑ j ∈ Finset.range (k + 1), h j * supply (P j) (bcs j) mat matS (weight (P j).mesh) := by
    intro k
    induction k with
    | zero => intro hk; simpa using step 0 hk
    | succ k ih =>
      intro hk
      have hf := hfol k (by omega)
      rw [step (k + 1) hk, follows_stock (P k) (P (k + 1)) (bcs k) (bcs (k + 1)) mat matS _ hf,
        Finset.sum_range_succ, hf.mesh, ih (by omega)]
      ring
  exact main n le_rfl

/-- **C42, defect.** With conservation of the chemical potential and a temperature whose "previous"
value has already been replaced by the new one (`HeatTransferProblem`, see C55), the step does not
conserve hydrogen: the inventory changes in addition by that of the old unknown between the two
temperatures. -/
theorem C42_heat_solver_defect (P Q : Problem Ω Γ d) (bcs bcs' : List (MobBC Γ)) (mat : Ω → Mat)
    (matS : Γ → Mat) (h : ℝ) (F : Form Ω Γ) (hh : h ≠ 0)
    (hfol : Follows { P with T := { P.T with T := Q.T.Tn } } Q bcs bcs')
    (hnosk : ∀ b vs, MobBC.sk b vs ∉ bcs')
    (hnosk0 : ∀ b vs, MobBC.sk b vs ∉ bcs)
    (hTn : Q.T.Tn = Q.T.T)
    (hdt : Q.dt = some h) (hcov : Covers Q.mesh Q.mats mat) (hsol : Solubility Q mat matS)
    (hr : (Q.mesh.type = .cylindrical ∨ Q.mesh.type = .spherical) → ∀ p, Q.mesh.r.val p ≠ 0)
    (hF : Q.form bcs' (weight Q.mesh) (Q.traps.map fun _ => weight Q.mesh) = .ok F)
    (hzero : Q.mesh.assemble F = 0) :
    stock Q bcs' mat matS (weight Q.mesh)
      = stock P bcs mat matS (weight Q.mesh) + h * supply Q bcs' mat matS (weight Q.mesh)
        + volume Q.mesh (fun p =>
            (physConc P.mv.theta (mat p) (Q.T.T.val p) (P.mv.sol.val p)
              - physConc P.mv.theta (mat p) (P.T.T.val p) (P.mv.sol.val p))
            * (weight Q.mesh).val p) := by
  have htest : SKTests Q.mesh (weight Q.mesh).tr bcs' := fun b vs hm => absurd hm (hnosk b vs)
  rw [(C42_balance Q bcs' mat matS h F hh hdt hcov hsol hr htest (Or.inr hnosk) hF).1 hzero,
    follows_stock _ Q bcs bcs' mat matS _ hfol]
  have hz : ∀ (new : Bool) (c v : Γ → ℝ), (bcs.map (bcStock P.mesh new c v)).sum = 0 := by
    intro new c v
    apply List.sum_eq_zero
    intro x hx
    obtain ⟨b, hb, rfl⟩ := List.mem_map.1 hx
    cases b with
    | flux f s => rfl
    | sk b vs => exact absurd hb (hnosk0 b vs)
  unfold stock
  simp only [Problem.c, hz, add_zero]
  have hm : Q.mesh = P.mesh := hfol.mesh
  rw [hm] at *
  have e : ∀ (a b k : Ω → ℝ), volume P.mesh (fun p => (a p + k p) * (weight P.mesh).val p)
      = volume P.mesh (fun p => (b p + k p) * (weight P.mesh).val p)
        + volume P.mesh (fun p => (a p - b p) * (weight P.mesh).val p) := by
    intro a b k
    rw [← volume_add]
    congr 1
    funext p
    ring
  rw [e (fun p => physConc P.mv.theta (mat p) (Q.T.Tn.val p) (P.mv.sol.val p))
    (fun p => physConc P.mv.theta (mat p) (P.T.T.val p) (P.mv.sol.val p)), hTn]
  ring

/-- **C48.** With surface kinetics, testing bulk and adsorbed equations together, the exchange rates
between subsurface and surface cancel for arbitrary rate functions: only the time derivatives of the
adsorbed species and of the subsurface layer and the adsorption flux remain.  The previous
subsurface value used by the code is that of the *unknown*, which is the concentration only
without chemical potential. -/
theorem C48_exchange_cancels (P : Problem Ω Γ d) (b : SK Γ) (vs : List ℝ) (v : Fld Ω Γ d) (h : ℝ)
    (c : Γ → ℝ) (hc : ∀ q, P.mv.mobileConcS P.mesh P.mats q = c q)
    (htest : SKTests P.mesh v.tr [.sk b vs]) :
    P.mesh.assemble (MobBC.form P.mesh P.mats P.mv P.T (some h) v (.sk b vs))
      = (b.surfaces.map fun s => surface P.mesh s.id fun q =>
          (((s.sol + b.lambda_IS * c q) - (s.prev + b.lambda_IS * P.mv.prev.tr q)) / h
            - b.J_vs q (P.T.T.tr q) s.sol (c q)) * v.tr q).sum := by
  have := fluxes_eq P v [.sk b vs] h c hc htest
  simp only [fluxesForm, List.flatMap_cons, List.flatMap_nil, List.append_nil, List.map_cons,
    List.map_nil, List.sum_cons, List.sum_nil, add_zero] at this
  rw [this]
  simp only [bcStock, bcInflow, Bool.false_eq_true, if_false, if_true]
  rw [← sum_sub_map, div_eq_inv_mul, ← List.sum_map_mul_left, ← sum_sub_map]
  congr 1
  apply List.map_congr_left
  intro s _
  have e1 := surface_smul P.mesh s.id (h⁻¹)
    (fun q => (s.sol + b.lambda_IS * c q) * v.tr q)
  have e2 := surface_smul P.mesh s.id (-h⁻¹)
    (fun q => (s.prev + b.lambda_IS * P.mv.prev.tr q) * v.tr q)
  have e3 := surface_smul P.mesh s.id (-1)
    (fun q => b.J_vs q (P.T.T.tr q) s.sol (c q) * v.tr q)
  have : ∀ A B C : ℝ, h⁻¹ * (A - B) - C = h⁻¹ * A + -h⁻¹ * B + -1 * C := by intros; ring
  rw [this, ← e1, ← e2, ← e3, ← surface_add, ← surface_add]
  congr 1
  funext q
  ring

/-- **C48.** The adsorbed species alone (solute test function `0`): on every surface, the adsorbed
concentration changes by the flux from the subsurface minus the flux to it plus the adsorption
flux. -/
theorem C48_adsorbed_equation (P : Problem Ω Γ d) (b : SK Γ) (h : ℝ) (s : SKSurf) (x : ℝ)
    (hs : b.surfaces = [s]) :
    P.mesh.assemble (MobBC.form P.mesh P.mats P.mv P.T (some h) (Fld.const 0) (.sk b [x]))
      = surface P.mesh s.id (fun q =>
          ((s.sol - s.prev) / h
            - (b.k_bs q (P.T.T.tr q) s.sol (P.mv.mobileConcS P.mesh P.mats q)
                * P.mv.mobileConcS P.mesh P.mats q * (1 - s.sol / b.n_surf)
              - b.k_sb q (P.T.T.tr q) s.sol (P.mv.mobileConcS P.mesh P.mats q)
                * s.sol * (1 - P.mv.mobileConcS P.mesh P.mats q / b.n_IS)
              + b.J_vs q (P.T.T.tr q) s.sol (P.mv.mobileConcS P.mesh P.mats q))) * x) := by
  simp only [MobBC.form, SK.form, hs, List.zip_cons_cons, List.zip_nil_right, List.flatMap_cons,
    List.flatMap_nil, List.append_nil, SK.surfForm, assemble_append, assemble_cons, assemble_nil,
    integrate_ds, ← surface_add, SK.Jbs, SK.Jsb, Fld.const_tr, add_zero]
  congr 1
  funext q
  ring

/-- **C48.** The flux condition seen by the solute: `lambda_IS dc/dt + J_bs - J_sb` leaves the bulk. -/
theorem C48_solute_equation (P : Problem Ω Γ d) (b : SK Γ) (h : ℝ) (s : SKSurf) (v : Fld Ω Γ d)
    (hs : b.surfaces = [s]) :
    P.mesh.assemble (MobBC.form P.mesh P.mats P.mv P.T (some h) v (.sk b [0]))
      = surface P.mesh s.id (fun q =>
          (b.lambda_IS * (P.mv.mobileConcS P.mesh P.mats q - P.mv.prev.tr q) / h
            + (b.k_bs q (P.T.T.tr q) s.sol (P.mv.mobileConcS P.mesh P.mats q)
                * P.mv.mobileConcS P.mesh P.mats q * (1 - s.sol / b.n_surf)
              - b.k_sb q (P.T.T.tr q) s.sol (P.mv.mobileConcS P.mesh P.mats q)
                * s.sol * (1 - P.mv.mobileConcS P.mesh P.mats q / b.n_IS))) * v.tr q) := by
  simp only [MobBC.form, SK.form, hs, List.zip_cons_cons, List.zip_nil_right, List.flatMap_cons,
    List.flatMap_nil, List.append_nil, SK.surfForm, assemble_append, assemble_cons, assemble_nil,
    integrate_ds, ← surface_add, SK.Jbs, SK.Jsb, add_zero]
  congr 1
  funext q
  ring

/-- **C48, defect.** With surface kinetics *and* conservation of the chemical potential, the layer is
given the previous unknown `theta` instead of the previous concentration: a converged step creates
`lambda_IS (theta_n - c_n)` per unit area out of nothing. -/
theorem C48_chemical_pot_defect (P : Problem Ω Γ d) (bcs : List (MobBC Γ)) (mat : Ω → Mat)
    (matS : Γ → Mat) (h : ℝ) (F : Form Ω Γ) (hh : h ≠ 0)
    (hdt : P.dt = some h) (hcov : Covers P.mesh P.mats mat) (hsol : Solubility P mat matS)
    (hr : (P.mesh.type = .cylindrical ∨ P.mesh.type = .spherical) → ∀ p, P.mesh.r.val p ≠ 0)
    (htest : SKTests P.mesh (weight P.mesh).tr bcs)
    (hF : P.form bcs (weight P.mesh) (P.traps.map fun _ => weight P.mesh) = .ok F)
    (hzero : P.mesh.assemble F = 0) :
    stock P bcs mat matS (weight P.mesh)
      = stockPrev P bcs mat matS (weight P.mesh) + h * supply P bcs mat matS (weight P.mesh)
        + (bcs.map fun b => match b with
            | .flux _ _ => 0
            | .sk b _ => (b.surfaces.map fun s => surface P.mesh s.id fun q =>
                b.lambda_IS * (P.mv.prev.tr q - P.cSPrev matS q) * (weight P.mesh).tr q).sum).sum := by
  have e := weak_form_general P bcs mat matS h _ F hdt hcov hsol hr htest hF
  have h0 : (volume P.mesh fun p =>
      dot (gradFlux P.soret P.mv.theta (mat p) (P.T.T.val p) (P.mv.sol.val p) (P.T.T.grad p)
        (P.mv.sol.grad p)) (coordGrad P.mesh (weight P.mesh) p)) = 0 := by
    have : ∀ p (a : Fin d → ℝ), dot a (coordGrad P.mesh (weight P.mesh) p) = 0 := fun p a =>
      dot_zero_right _ _ fun i => coordGrad_weight P.mesh hr p i
    simp [this, volume]
  rw [h0, hzero, add_zero] at e
  have hb : (bcs.map (bcStock P.mesh false P.mv.prev.tr (weight P.mesh).tr)).sum
      = (bcs.map (bcStock P.mesh false (P.cSPrev matS) (weight P.mesh).tr)).sum
        + (bcs.map fun b => match b with
            | .flux _ _ => 0
            | .sk b _ => (b.surfaces.map fun s => surface P.mesh s.id fun q =>
                b.lambda_IS * (P.mv.prev.tr q - P.cSPrev matS q) * (weight P.mesh).tr q).sum).sum := by
    clear e hF htest
    induction bcs with
    | nil => simp
    | cons b bcs ih =>
      simp only [List.map_cons, List.sum_cons, ih]
      have key : bcStock P.mesh false P.mv.prev.tr (weight P.mesh).tr b
          = bcStock P.mesh false (P.cSPrev matS) (weight P.mesh).tr b
            + (match b with
              | .flux _ _ => 0
              | .sk b _ => (b.surfaces.map fun s => surface P.mesh s.id fun q =>
                  b.lambda_IS * (P.mv.prev.tr q - P.cSPrev matS q) * (weight P.mesh).tr q).sum) := by
        cases b with
        | flux f s => simp [bcStock]
        | sk b vs =>
          simp only [bcStock]
          rw [← List.sum_map_add]
          congr 1
          apply List.map_congr_left
          intro s _
          rw [← surface_add]
          congr 1
          funext q
          ring
      rw [key]
      ring
  rw [hb] at e
  unfold stockPrev
  field_simp at e
  linarith

end

end Festim.Props

namespace Festim.Weak

section
variable {Ω Γ : Type} [Fintype Ω] [Fintype Γ] {d : ℕ}

/-- The Cartesian mesh with the measure `ρ dx`, `ρ ds`. -/
def weighted (m : Mesh Ω Γ d) (ρ : Fld Ω Γ d) : Mesh Ω Γ d :=
  { m with w := fun p => m.w p * ρ.val p, ws := fun q => m.ws q * ρ.tr q, type := .cartesian }

/-- `v = ρ v'` in the volume and on the boundary. -/
structure Scaled (ρ v v' : Fld Ω Γ d) : Prop where
  val : ∀ p, v.val p = ρ.val p * v'.val p
  tr : ∀ q, v.tr q = ρ.tr q * v'.tr q

theorem scaled_dxOn (m : Mesh Ω Γ d) (ρ : Fld Ω Γ d) (ids : List ℕ) (g g' : Ω → ℝ)
    (h : ∀ p, g p = ρ.val p * g' p) :
    m.integrate (.dxOn ids g) = (weighted m ρ).integrate (.dxOn ids g') := by
  simp only [Mesh.integrate, weighted]
  refine Finset.sum_congr rfl fun p _ => ?_
  rw [h p]
  by_cases hp : m.vm p ∈ ids
  · simp only [hp, if_true]; ring
  · simp only [hp, if_false]

theorem scaled_dx (m : Mesh Ω Γ d) (ρ : Fld Ω Γ d) (g g' : Ω → ℝ)
    (h : ∀ p, g p = ρ.val p * g' p) :
    m.integrate (.dx g) = (weighted m ρ).integrate (.dx g') := by
  simp only [Mesh.integrate, weighted]
  refine Finset.sum_congr rfl fun p _ => ?_
  rw [h p]
  ring

theorem scaled_ds (m : Mesh Ω Γ d) (ρ : Fld Ω Γ d) (s : ℕ) (g g' : Γ → ℝ)
    (h : ∀ q, g q = ρ.tr q * g' q) :
    m.integrate (.ds s g) = (weighted m ρ).integrate (.ds s g') := by
  simp only [Mesh.integrate, weighted]
  refine Finset.sum_congr rfl fun p _ => ?_
  rw [h p]
  by_cases hp : m.sm p = s
  · simp only [hp, if_true]; ring
  · simp only [hp, if_false]

theorem scaled_mobileTrapLoop (m : Mesh Ω Γ d) (ρ v v' : Fld Ω Γ d) (hv : Scaled ρ v v')
    (mv : Mobile Ω Γ d) (T : Temp Ω Γ d) (trap : Trap Ω Γ d) (ms : List Mat) (i : ℕ) (F : Form Ω Γ)
    (h : mobileTrapLoop mv T trap v i ms = .ok F) :
    ∃ F', mobileTrapLoop mv T trap v' i ms = .ok F' ∧ m.assemble F = (weighted m ρ).assemble F' := by
  induction ms generalizing i F with
  | nil => cases h; exact ⟨[], rfl, rfl⟩
  | cons a ms ih =>
    simp only [mobileTrapLoop, bind, Except.bind] at h ⊢
    cases hp : trap.paramsMobile i with
    | error e => rw [hp] at h; cases h
    | ok K =>
      rw [hp] at h
      simp only at h ⊢
      cases hl : mobileTrapLoop mv T trap v (i + 1) ms with
      | error e => rw [hl] at h; cases h
      | ok G =>
        rw [hl] at h
        obtain ⟨G', hG', eG⟩ := ih _ _ hl
        rw [hG']
        simp only [Except.ok.injEq] at h
        subst h
        refine ⟨_, rfl, ?_⟩
        simp only [assemble_append, assemble_cons, assemble_nil, eG]
        congr 2
        · apply scaled_dxOn; intro p; rw [hv.val p]; ring
        · congr 1
          apply scaled_dxOn; intro p; rw [hv.val p]; ring

theorem scaled_mobileTraps (m : Mesh Ω Γ d) (ρ v v' : Fld Ω Γ d) (hv : Scaled ρ v v')
    (mv : Mobile Ω Γ d) (T : Temp Ω Γ d) (traps : List (Trap Ω Γ d)) (F : Form Ω Γ)
    (h : mobileTraps mv T v traps = .ok F) :
    ∃ F', mobileTraps mv T v' traps = .ok F' ∧ m.assemble F = (weighted m ρ).assemble F' := by
  induction traps generalizing F with
  | nil => cases h; exact ⟨[], rfl, rfl⟩
  | cons t traps ih =>
    simp only [mobileTraps, bind, Except.bind] at h ⊢
    cases hp : mobileTrapLoop mv T t v 0 t.materials with
    | error e => rw [hp] at h; cases h
    | ok K =>
      rw [hp] at h
      obtain ⟨K', hK', eK⟩ := scaled_mobileTrapLoop m ρ v v' hv mv T t t.materials 0 K hp
      rw [hK']
      simp only at h ⊢
      cases hl : mobileTraps mv T v traps with
      | error e => rw [hl] at h; cases h
      | ok G =>
        rw [hl] at h
        obtain ⟨G', hG', eG⟩ := ih _ hl
        rw [hG']
        simp only [Except.ok.injEq] at h
        subst h
        exact ⟨_, rfl, by rw [assemble_append, assemble_append, eK, eG]⟩

theorem scaled_trapLoop (m : Mesh Ω Γ d) (ρ v v' : Fld Ω Γ d) (hv : Scaled ρ v v')
    (mv : Mobile Ω Γ d) (T : Temp Ω Γ d) (trap : Trap Ω Γ d) (ms : List Mat) (i : ℕ) (F : Form Ω Γ)
    (h : trapLoop mv T trap v i ms = .ok F) :
    ∃ F', trapLoop mv T trap v' i ms = .ok F' ∧ m.assemble F = (weighted m ρ).assemble F' := by
  induction ms generalizing i F with
  | nil => cases h; exact ⟨[], rfl, rfl⟩
  | cons a ms ih =>
    simp only [trapLoop, bind, Except.bind] at h ⊢
    cases hp : trap.params i with
    | error e => rw [hp] at h; cases h
    | ok K =>
      rw [hp] at h
      simp only at h ⊢
      split_ifs at h ⊢ with hh
      cases hl : trapLoop mv T trap v (i + 1) ms with
      | error e => rw [hl] at h; cases h
      | ok G =>
        rw [hl] at h
        obtain ⟨G', hG', eG⟩ := ih _ _ hl
        rw [hG']
        simp only [Except.ok.injEq] at h
        subst h
        refine ⟨_, rfl, ?_⟩
        simp only [assemble_append, assemble_cons, assemble_nil, eG]
        congr 2
        · apply scaled_dxOn; intro p; rw [hv.val p]; ring
        · congr 1
          apply scaled_dxOn; intro p; rw [hv.val p]; ring

theorem scaled_trapForm (m : Mesh Ω Γ d) (ρ v v' : Fld Ω Γ d) (hv : Scaled ρ v v')
    (mats : List Mat) (mv : Mobile Ω Γ d) (T : Temp Ω Γ d) (dt : Option ℝ) (trap : Trap Ω Γ d)
    (F : Form Ω Γ) (h : trapForm mats mv T dt trap v = .ok F) :
    ∃ F', trapForm mats mv T dt trap v' = .ok F' ∧ m.assemble F = (weighted m ρ).assemble F' := by
  simp only [trapForm, trappingForm, bind, Except.bind] at h ⊢
  cases hl : trapLoop mv T trap v 0 trap.materials with
  | error e => rw [hl] at h; cases h
  | ok K =>
    rw [hl] at h
    obtain ⟨K', hK', eK⟩ := scaled_trapLoop m ρ v v' hv mv T trap _ 0 K hl
    rw [hK']
    simp only [Except.ok.injEq] at h
    subst h
    refine ⟨_, rfl, ?_⟩
    simp only [assemble_append, eK]
    congr 1
    · congr 1
      cases dt with
      | some h =>
        simp only [assemble_cons, assemble_nil]
        congr 1
        apply scaled_dx; intro p; rw [hv.val p]; ring
      | none =>
        simp only [assemble_map]
        congr 1
        apply List.map_congr_left
        intro mt _
        apply scaled_dxOn; intro p; rw [hv.val p]; ring
    · simp only [trapSourceForm, assemble_map]
      congr 1
      apply List.map_congr_left
      intro mt _
      apply scaled_dxOn; intro p; rw [hv.val p]; ring

theorem scaled_trapsForm (m : Mesh Ω Γ d) (ρ : Fld Ω Γ d)
    (mats : List Mat) (mv : Mobile Ω Γ d) (T : Temp Ω Γ d) (dt : Option ℝ)
    (traps : List (Trap Ω Γ d)) (vt vt' : List (Fld Ω Γ d)) (hvt : List.Forall₂ (Scaled ρ) vt vt')
    (F : Form Ω Γ) (h : trapsForm mats mv T dt (traps.zip vt) = .ok F) :
    ∃ F', trapsForm mats mv T dt (traps.zip vt') = .ok F' ∧
      m.assemble F = (weighted m ρ).assemble F' := by
  induction hvt generalizing traps F with
  | nil => simp only [List.zip_nil_right] at h ⊢; cases h; exact ⟨[], rfl, rfl⟩
  | cons hv _ ih =>
    cases traps with
    | nil => simp only [List.zip_nil_left] at h ⊢; cases h; exact ⟨[], rfl, rfl⟩
    | cons t traps =>
      simp only [List.zip_cons_cons, trapsForm, bind, Except.bind] at h ⊢
      rename_i v v' l l' _
      cases hp : trapForm mats mv T dt t v with
      | error e => rw [hp] at h; cases h
      | ok K =>
        rw [hp] at h
        obtain ⟨K', hK', eK⟩ := scaled_trapForm m ρ v v' hv mats mv T dt t K hp
        rw [hK']
        simp only at h ⊢
        cases hl : trapsForm mats mv T dt (traps.zip l) with
        | error e => rw [hl] at h; cases h
        | ok G =>
          rw [hl] at h
          obtain ⟨G', hG', eG⟩ := ih _ _ hl
          rw [hG']
          simp only [Except.ok.injEq] at h
          subst h
          exact ⟨_, rfl, by rw [assemble_append, assemble_append, eK, eG]⟩

theorem scaled_subdomain (m : Mesh Ω Γ d) (v v' : Fld Ω Γ d)
    (hv : Scaled (weight m) v v')
    (hg : (m.type = .cylindrical ∧ v' = v / m.r) ∨ (m.type = .spherical ∧ v' = v / m.r / m.r))
    (mt : Mat) (c0 c0n : Fld Ω Γ d) (T : Temp Ω Γ d) (dt : Option ℝ) (soret : Bool) (sub : ℕ) :
    m.assemble (subdomainForm m mt c0 c0n T dt soret v sub)
      = (weighted m (weight m)).assemble
          (subdomainForm (weighted m (weight m)) mt c0 c0n T dt soret v' sub) := by
  unfold subdomainForm
  simp only [assemble_append]
  congr 1
  · cases dt with
    | none => rfl
    | some h =>
      simp only [assemble_cons, assemble_nil]
      congr 1
      apply scaled_dxOn; intro p; rw [hv.val p]; ring
  · have hw : (weighted m (weight m)).type = .cartesian := rfl
    rcases hg with ⟨ht, hv'⟩ | ⟨ht, hv'⟩
    · have hρ : ∀ p, (weight m).val p = m.r.val p := by intro p; simp [weight, ht]
      rw [hw, ht]
      simp only [assemble_append, assemble_cons, assemble_nil]
      congr 1
      · congr 1
        apply scaled_dxOn; intro p; rw [hρ, hv']
      · cases soret with
        | false => rfl
        | true =>
          simp only [if_true, assemble_cons, assemble_nil]
          congr 1
          apply scaled_dxOn; intro p; rw [hρ, hv']
    · have hρ : ∀ p, (weight m).val p = m.r.val p * m.r.val p := by intro p; simp [weight, ht]
      rw [hw, ht]
      simp only [assemble_append, assemble_cons, assemble_nil]
      congr 1
      · congr 1
        apply scaled_dxOn; intro p; rw [hρ, hv', dot_smul_left]; ring
      · cases soret with
        | false => rfl
        | true =>
          simp only [if_true, assemble_cons, assemble_nil]
          congr 1
          apply scaled_dxOn; intro p; rw [hρ, hv', dot_smul_left, dot_smul_left]; ring

end

end Festim.Weak

namespace Festim.Props

open Festim.Weak

section
variable {Ω Γ : Type} [Fintype Ω] [Fintype Γ] {d : ℕ}

/-- **C43.** On a cylindrical (spherical) mesh the whole hydrogen problem, tested with `v`, is the
Cartesian problem for the measure `r dx`, `r ds` (`r² dx`, `r² ds`) tested with `v / r` (`v / r²`),
as long as `r` does not vanish at the points.  (Without surface kinetics, whose test functions are
real numbers.) -/
theorem C43_measure (P : Problem Ω Γ d) (bcs : List (MobBC Γ)) (v : Fld Ω Γ d)
    (vt : List (Fld Ω Γ d)) (F : Form Ω Γ) (s : Fld Ω Γ d → Fld Ω Γ d)
    (htype : (P.mesh.type = .cylindrical ∧ s = fun u => u / P.mesh.r) ∨
      (P.mesh.type = .spherical ∧ s = fun u => u / P.mesh.r / P.mesh.r))
    (hr : ∀ p, P.mesh.r.val p ≠ 0) (hrS : ∀ q, P.mesh.r.tr q ≠ 0)
    (hsk : ∀ b vs, MobBC.sk b vs ∉ bcs)
    (hF : P.form bcs v vt = .ok F) :
    ∃ F', ({ P with mesh := weighted P.mesh (weight P.mesh) } : Problem Ω Γ d).form bcs (s v)
        (vt.map s) = .ok F' ∧
      P.mesh.assemble F = (weighted P.mesh (weight P.mesh)).assemble F' := by
  have hs : ∀ u, Scaled (weight P.mesh) u (s u) := by
    intro u
    rcases htype with ⟨ht, rfl⟩ | ⟨ht, rfl⟩
    · constructor
      · intro p
        have := hr p
        simp only [weight, ht, Fld.div_val]
        field_simp
      · intro q
        have := hrS q
        simp only [weight, ht, Fld.div_tr]
        field_simp
    · constructor
      · intro p
        have := hr p
        simp only [weight, ht, Fld.div_val, Fld.mul_val]
        field_simp
      · intro q
        have := hrS q
        simp only [weight, ht, Fld.div_tr, Fld.mul_tr]
        field_simp
  have hg : (P.mesh.type = .cylindrical ∧ s v = v / P.mesh.r) ∨
      (P.mesh.type = .spherical ∧ s v = v / P.mesh.r / P.mesh.r) := by
    rcases htype with ⟨ht, rfl⟩ | ⟨ht, rfl⟩
    · exact Or.inl ⟨ht, rfl⟩
    · exact Or.inr ⟨ht, rfl⟩
  have hvt : List.Forall₂ (Scaled (weight P.mesh)) vt (vt.map s) := by
    clear hF
    induction vt with
    | nil => exact List.Forall₂.nil
    | cons a l ih => exact List.Forall₂.cons (hs a) ih
  simp only [Problem.form, mobileForm, diffusionForm, bind, Except.bind] at hF ⊢
  cases hm : mobileTraps P.mv P.T v P.traps with
  | error e => rw [hm] at hF; cases hF
  | ok K =>
    rw [hm] at hF
    obtain ⟨K', hK', eK⟩ := scaled_mobileTraps P.mesh _ v (s v) (hs v) P.mv P.T P.traps K hm
    rw [hK']
    simp only at hF ⊢
    cases ht : trapsForm P.mats P.mv P.T P.dt (P.traps.zip vt) with
    | error e => rw [ht] at hF; cases hF
    | ok G =>
      rw [ht] at hF
      obtain ⟨G', hG', eG⟩ := scaled_trapsForm P.mesh (weight P.mesh) P.mats P.mv P.T P.dt P.traps
        vt (vt.map s) hvt G ht
      rw [hG']
      simp only [Except.ok.injEq] at hF
      subst hF
      refine ⟨_, rfl, ?_⟩
      simp only [assemble_append, assemble_neg, assemble_flatMap, eK, eG,
        scaled_subdomain P.mesh v (s v) (hs v) hg]
      congr 2
      · congr 1
        simp only [sourceForm, assemble_flatMap, assemble_map]
        congr 1
        apply List.map_congr_left
        intro a _
        congr 1
        apply List.map_congr_left
        intro b _
        apply scaled_dxOn
        intro p
        have : P.mv.mobileConc (weighted P.mesh (weight P.mesh)) P.mats
          = P.mv.mobileConc P.mesh P.mats := rfl
        rw [(hs v).val p, this]
        ring
      · simp only [fluxesForm, assemble_flatMap]
        congr 1
        apply List.map_congr_left
        intro b hb
        cases b with
        | sk b vs => exact absurd hb (hsk b vs)
        | flux f surfs =>
          simp only [MobBC.form, assemble_map]
          congr 1
          apply List.map_congr_left
          intro b _
          apply scaled_ds
          intro q
          have : P.mv.mobileConcS (weighted P.mesh (weight P.mesh)) P.mats
            = P.mv.mobileConcS P.mesh P.mats := rfl
          rw [(hs v).tr q, this]
          ring

/-- **C43.** Expanded: the diffusion integrand is `J·∇v` minus `v/r J·∇r` (cylindrical) or
`2 v/r J·∇r` (spherical): the extra terms of `1/r ∂r(r D ∂r c)` and `1/r² ∂r(r² D ∂r c)`. -/
theorem C43_expanded (m : Mesh Ω Γ d) (v : Fld Ω Γ d) (p : Ω) (hr : m.r.val p ≠ 0)
    (J : Fin d → ℝ) :
    m.r.val p * dot J ((v / m.r).grad p)
        = dot J (v.grad p) - v.val p / m.r.val p * dot J (m.r.grad p) ∧
    m.r.val p * m.r.val p * dot J ((v / m.r / m.r).grad p)
        = dot J (v.grad p) - 2 * v.val p / m.r.val p * dot J (m.r.grad p) := by
  rw [dot_coordGrad_cyl m v p hr, dot_coordGrad_sph m v p hr]
  simp only [dot, Finset.mul_sum, ← Finset.sum_sub_distrib]
  constructor <;> refine Finset.sum_congr rfl fun i _ => ?_ <;> ring

/-- **C43.** `Mesh.type` is an unchecked string: with anything but the three known types the mobile
equation has no diffusion term at all. -/
theorem C43_unknown_type (m : Mesh Ω Γ d) (mt : Mat) (c0 c0n : Fld Ω Γ d) (T : Temp Ω Γ d)
    (dt : Option ℝ) (soret : Bool) (v : Fld Ω Γ d) (sub : ℕ) (h : m.type = .other) :
    m.assemble (subdomainForm m mt c0 c0n T dt soret v sub)
      = match dt with
        | some h => volumeOf m sub fun p => (c0.val p - c0n.val p) / h * v.val p
        | none => 0 := by
  unfold subdomainForm
  rw [h]
  cases dt with
  | none => rfl
  | some h => simp [integrate_dxOn1]

end

end Festim.Props
