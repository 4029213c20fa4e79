import Verif.Props.Diffusion
import Verif.Props.BalanceCases

/-!
# Concrete cases of C41, C42, C43, C48, C49

Each theorem applied to data which meet its hypotheses: the problems of `Verif.Props.BalanceCases` and
`Verif.Props.Diffusion`.
-/

open scoped BigOperators

set_option linter.unusedSimpArgs false

namespace Festim.Props.Case

open Festim.Weak

/-- A test function. -/
noncomputable def inst_v (a b : ℝ) : Fld (Fin 2) (Fin 2) 1 := ⟨![a, b], fun _ _ => b - a, ![a, b]⟩

/-- The same trap with other rates. -/
def inst_trap' : Trap (Fin 2) (Fin 2) 1 := { trap with k_0 := .num 7, E_k := .num 1, p_0 := .num 0, density := [fun _ => 9] }

/-- `C41_kinetics_cancels`: other rates and densities give the same residual. -/
example (v : Fld (Fin 2) (Fin 2) 1) : ∃ F F', (probOf .cartesian 2).form bcs v [v] = .ok F ∧
    ({ probOf .cartesian 2 with traps := [inst_trap'] } : Problem (Fin 2) (Fin 2) 1).form bcs v [v] = .ok F' ∧
    (probOf .cartesian 2).mesh.assemble F = (probOf .cartesian 2).mesh.assemble F' :=
  ⟨_, _, rfl, rfl, C41_kinetics_cancels (probOf .cartesian 2) [inst_trap'] bcs v _ _
    (List.Forall₂.cons ⟨rfl, rfl, rfl, rfl⟩ List.Forall₂.nil) rfl rfl⟩

theorem inst_balanced : ∃ F, (probOf .cartesian 2).form bcs (weight (probOf .cartesian 2).mesh)
      ((probOf .cartesian 2).traps.map fun _ => weight (probOf .cartesian 2).mesh) = .ok F ∧
    (probOf .cartesian 2).mesh.assemble F = 0 := by
  refine ⟨_, rfl, ?_⟩
  simp [probOf, meshOf, mat, trap, bcs, weight, mobileForm, Mesh.assemble, Mesh.integrate, Form.neg,
    diffusionForm, subdomainForm, Fld.const, dot, sourceForm, fluxesForm, MobBC.form, Flux.form,
    Src.at, Mobile.conc, trapSourceForm]
  norm_num

theorem inst_cart (s : ℝ) : (((probOf .cartesian s).mesh.type = .cylindrical ∨ (probOf .cartesian s).mesh.type = .spherical) →
    ∀ p, (probOf .cartesian s).mesh.r.val p ≠ 0) := by
  rintro (h | h) <;> simp [probOf, meshOf] at h

/-- `C42_residual_is_balance`, with a source other than the one of the balance. -/
example (s : ℝ) : ∃ F, (probOf .cartesian s).form bcs (weight (probOf .cartesian s).mesh)
      ((probOf .cartesian s).traps.map fun _ => weight (probOf .cartesian s).mesh) = .ok F ∧
    (probOf .cartesian s).mesh.assemble F = 2 - s := by
  refine ⟨_, rfl, ?_⟩
  rw [C42_residual_is_balance (probOf .cartesian s) bcs (fun _ => mat) (fun _ => mat) 1 _ rfl (covers _ _) (solubility _ _)
    (inst_cart s) (tests _ _ _) (Or.inl rfl) rfl]
  simp [stock, stockPrev, supply, probOf, bcs, bcStock, bcInflow, volume, volumeOf, volumeIn,
      surface, meshOf, Problem.c, Problem.cPrev, Problem.cS, physConc, Fld.const, trap, srcRate, weight,
      inward, Finset.sum_filter, card0, card1]
  norm_num
  ring

/-- `C42_balance`. -/
example : stock (probOf .cartesian 2) bcs (fun _ => mat) (fun _ => mat) (weight (probOf .cartesian 2).mesh)
    = stockPrev (probOf .cartesian 2) bcs (fun _ => mat) (fun _ => mat) (weight (probOf .cartesian 2).mesh)
      + 1 * supply (probOf .cartesian 2) bcs (fun _ => mat) (fun _ => mat) (weight (probOf .cartesian 2).mesh) := by
  obtain ⟨F, hF, h0⟩ := inst_balanced
  exact (C42_balance (probOf .cartesian 2) bcs (fun _ => mat) (fun _ => mat) 1 F one_ne_zero rfl (covers _ _)
    (solubility _ _) (inst_cart 2) (tests _ _ _) (Or.inl rfl) hF).1 h0

/-- Step `k` of a run: no trap, the source raises the concentration by 2. -/
noncomputable def inst_prob (k : ℕ) : Problem (Fin 2) (Fin 2) 1 :=
  { probOf .cartesian 2 with traps := [], mv := { theta := false, sol := Fld.const (4 + 2 * (k + 1)), prev := Fld.const (4 + 2 * k) } }

/-- `C42_run`: after `n + 1` steps the inventory is the initial one plus what the source gave. -/
example (n : ℕ) : stock (inst_prob n) bcs (fun _ => mat) (fun _ => mat) (weight (inst_prob n).mesh)
    = stockPrev (inst_prob 0) bcs (fun _ => mat) (fun _ => mat) (weight (inst_prob 0).mesh)
      + ∑ k ∈ Finset.range (n + 1), 1 * supply (inst_prob k) bcs (fun _ => mat) (fun _ => mat) (weight (inst_prob k).mesh) :=
  C42_run inst_prob (fun _ => bcs) (fun k => _) (fun _ => 1) (fun _ => mat) (fun _ => mat) n
    (fun k _ => ⟨rfl, rfl, by simp [inst_prob], rfl, List.Forall₂.nil,
      List.Forall₂.cons trivial (List.Forall₂.cons trivial List.Forall₂.nil)⟩)
    (fun _ _ => one_ne_zero) (fun _ _ => rfl) (fun _ _ => covers .cartesian 2)
    (fun _ _ => ⟨fun h => by simp [inst_prob] at h, fun h => by simp [inst_prob] at h, fun h => by simp [inst_prob] at h,
      fun h => by simp [inst_prob] at h⟩)
    (fun _ _ => inst_cart 2) (fun _ _ => tests .cartesian 2 _) (fun _ _ => Or.inl rfl) (fun _ _ => rfl)
    (fun k _ => by
      simp [inst_prob, probOf, meshOf, mat, bcs, weight, mobileForm, Mesh.assemble, Mesh.integrate, Form.neg,
        diffusionForm, subdomainForm, Fld.const, dot, sourceForm, fluxesForm, MobBC.form, Flux.form,
        Src.at, Mobile.conc, trapSourceForm]
      ring)

theorem inst_heated (v : Fld (Fin 2) (Fin 2) 1) :
    ∃ F, (heated 2).form [] v [] = .ok F ∧ (heated 2).mesh.assemble F = 0 := by
  refine ⟨_, rfl, ?_⟩
  rw [C41_weak_form (heated 2) [] (fun _ => matT) (fun _ => matT) 1 v _ rfl (heated_covers 2)
      (heated_solubility 2) (by simp [heated, meshOf]) (by intro b vs h; simp at h) (Or.inr (by simp)) rfl]
  simp [stock, stockPrev, supply, heated, volume, Problem.c, Problem.cPrev, physConc, matT, arr,
      meshOf, gradFlux, physGrad, dot]

/-- `C42_heat_solver_defect`: nothing is supplied, the inventory changes by the change of solubility. -/
example : stock (heated 2) [] (fun _ => matT) (fun _ => matT) (weight (heated 2).mesh)
    = stock (heated 1) [] (fun _ => matT) (fun _ => matT) (weight (heated 2).mesh)
      + 1 * supply (heated 2) [] (fun _ => matT) (fun _ => matT) (weight (heated 2).mesh)
      + volume (heated 2).mesh (fun p =>
          (physConc (heated 1).mv.theta matT ((heated 2).T.T.val p) ((heated 1).mv.sol.val p)
            - physConc (heated 1).mv.theta matT ((heated 1).T.T.val p) ((heated 1).mv.sol.val p))
          * (weight (heated 2).mesh).val p) := by
  obtain ⟨F, hF, h0⟩ := inst_heated (weight (heated 2).mesh)
  exact C42_heat_solver_defect (heated 1) (heated 2) [] [] (fun _ => matT) (fun _ => matT) 1 F one_ne_zero follows_heated
    (by simp) (by simp) rfl rfl (heated_covers 2) (heated_solubility 2) (by simp [heated, meshOf]) hF h0

theorem inst_r (type : Coord) (s : ℝ) : (∀ p, (probOf type s).mesh.r.val p ≠ 0) ∧ ∀ q, (probOf type s).mesh.r.tr q ≠ 0 := by
  constructor <;> intro p <;> simp only [probOf, meshOf] <;> positivity

/-- `C43_measure`, on a cylinder and on a sphere. -/
example (v u : Fld (Fin 2) (Fin 2) 1) : ∃ F F', (probOf .cylindrical 2).form bcs v [u] = .ok F ∧
    ({ probOf .cylindrical 2 with mesh := weighted (meshOf .cylindrical) (weight (meshOf .cylindrical)) } :
      Problem (Fin 2) (Fin 2) 1).form bcs (v / (meshOf .cylindrical).r) [u / (meshOf .cylindrical).r] = .ok F' ∧
    (meshOf .cylindrical).assemble F = (weighted (meshOf .cylindrical) (weight (meshOf .cylindrical))).assemble F' := by
  obtain ⟨F', h1, h2⟩ := C43_measure (probOf .cylindrical 2) bcs v [u] _ _ (Or.inl ⟨rfl, rfl⟩) (inst_r _ _).1 (inst_r _ _).2
    (by simp [bcs]) rfl
  exact ⟨_, F', rfl, h1, h2⟩

example (v u : Fld (Fin 2) (Fin 2) 1) : ∃ F F', (probOf .spherical 2).form bcs v [u] = .ok F ∧
    ({ probOf .spherical 2 with mesh := weighted (meshOf .spherical) (weight (meshOf .spherical)) } :
      Problem (Fin 2) (Fin 2) 1).form bcs (v / (meshOf .spherical).r / (meshOf .spherical).r)
        [u / (meshOf .spherical).r / (meshOf .spherical).r] = .ok F' ∧
    (meshOf .spherical).assemble F = (weighted (meshOf .spherical) (weight (meshOf .spherical))).assemble F' := by
  obtain ⟨F', h1, h2⟩ := C43_measure (probOf .spherical 2) bcs v [u] _ _ (Or.inr ⟨rfl, rfl⟩) (inst_r _ _).1 (inst_r _ _).2
    (by simp [bcs]) rfl
  exact ⟨_, F', rfl, h1, h2⟩

/-- `C43_expanded`, at radius 2. -/
example (v : Fld (Fin 2) (Fin 2) 1) (J : Fin 1 → ℝ) :
    (2 : ℝ) * dot J ((v / (meshOf .cylindrical).r).grad 1) = dot J (v.grad 1) - v.val 1 / 2 * dot J fun _ => 1 := by
  have h := (C43_expanded (meshOf .cylindrical) v 1 (by simp [meshOf]) J).1
  norm_num [meshOf] at h ⊢
  exact h

/-- `C43_unknown_type`: only the accumulation term is left. -/
example (v : Fld (Fin 2) (Fin 2) 1) : (meshOf .other).assemble (subdomainForm (meshOf .other) mat (inst_v 1 5) (inst_v 0 2)
      ⟨Fld.const 300, Fld.const 300⟩ (some 1) false v 2)
    = volumeOf (meshOf .other) 2 fun p => ((inst_v 1 5).val p - (inst_v 0 2).val p) / 1 * v.val p :=
  C43_unknown_type (meshOf .other) mat (inst_v 1 5) (inst_v 0 2) ⟨Fld.const 300, Fld.const 300⟩ (some 1) false v 2 rfl

theorem inst_tests (v : Fld (Fin 2) (Fin 2) 1) (x : ℝ) (hx : v.tr 0 = x) :
    SKTests (probOf .cartesian 5).mesh v.tr [.sk sk [x]] := by
  intro b vs h
  simp only [List.mem_singleton, MobBC.sk.injEq] at h
  obtain ⟨rfl, rfl⟩ := h
  refine ⟨rfl, ?_⟩
  intro y hy q hq
  simp [sk] at hy
  subst hy
  fin_cases q
  · simpa using hx.symm
  · simp [probOf, meshOf] at hq

/-- `C48_exchange_cancels`: the layer gains 1 + 2·1, nothing arrives from the vacuum. -/
example : (probOf .cartesian 5).mesh.assemble (MobBC.form (probOf .cartesian 5).mesh (probOf .cartesian 5).mats
      (probOf .cartesian 5).mv (probOf .cartesian 5).T (some 1) (Fld.const 1) (.sk sk [1])) = 3 := by
  rw [C48_exchange_cancels (probOf .cartesian 5) sk [1] (Fld.const 1) 1 (fun _ => 5)
    (fun q => by simp [probOf, Mobile.mobileConcS, Fld.const]) (inst_tests _ _ rfl)]
  simp [sk, surface, probOf, meshOf, Fld.const, Finset.sum_filter, card0]
  norm_num

/-- `C48_adsorbed_equation`: 1 - (2/5·5·(1 - 1/2) - 7·1·(1 - 5/5)) = 0. -/
example (x : ℝ) : (probOf .cartesian 5).mesh.assemble (MobBC.form (probOf .cartesian 5).mesh (probOf .cartesian 5).mats
      (probOf .cartesian 5).mv (probOf .cartesian 5).T (some 1) (Fld.const 0) (.sk sk [x])) = 0 := by
  rw [C48_adsorbed_equation (probOf .cartesian 5) sk 1 ⟨1, 1, 0⟩ x rfl]
  simp [sk, surface, probOf, meshOf, Fld.const, Finset.sum_filter, card0, Mobile.mobileConcS]
  norm_num

/-- `C48_solute_equation`: 2·(5 - 4) + 1 = 3. -/
example : (probOf .cartesian 5).mesh.assemble (MobBC.form (probOf .cartesian 5).mesh (probOf .cartesian 5).mats
      (probOf .cartesian 5).mv (probOf .cartesian 5).T (some 1) (Fld.const 1) (.sk sk [0])) = 3 := by
  rw [C48_solute_equation (probOf .cartesian 5) sk 1 ⟨1, 1, 0⟩ (Fld.const 1) rfl]
  simp [sk, surface, probOf, meshOf, Fld.const, Finset.sum_filter, card0, Mobile.mobileConcS]
  norm_num

/-- `C48_chemical_pot_defect`. -/
example : stock layered [.sk skL [1]] (fun _ => matS) (fun _ => matS) (weight layered.mesh)
    = stockPrev layered [.sk skL [1]] (fun _ => matS) (fun _ => matS) (weight layered.mesh)
      + 1 * supply layered [.sk skL [1]] (fun _ => matS) (fun _ => matS) (weight layered.mesh) + -1 := by
  have h0 : ∃ F, layered.form [.sk skL [1]] (weight layered.mesh) [] = .ok F ∧ layered.mesh.assemble F = 0 := by
    refine ⟨_, rfl, ?_⟩
    rw [weak_form_general layered [.sk skL [1]] (fun _ => matS) (fun _ => matS) 1 _ _ rfl
      layered_covers layered_solubility (by simp [layered, meshOf]) layered_tests rfl]
    simp [stock, stockPrev, supply, layered, volume, Problem.c, Problem.cPrev, Problem.cS, physConc,
      matS, arr, meshOf, gradFlux, physGrad, dot, bcStock, bcInflow, skL, surface, weight,
      Finset.sum_filter, card0, card1]
    norm_num
  obtain ⟨F, hF, h0⟩ := h0
  rw [C48_chemical_pot_defect layered [.sk skL [1]] (fun _ => matS) (fun _ => matS) 1 F one_ne_zero rfl layered_covers
    layered_solubility (by simp [layered, meshOf]) layered_tests hF h0]
  simp [skL, surface, layered, meshOf, Problem.cSPrev, physConc, matS, arr, weight, Fld.const, Finset.sum_filter, card0]
  norm_num

theorem inst_sol : Solubility probFlux (fun _ => mat) fun _ => mat where
  vol := by intro h; simp [probFlux, probOf] at h
  memS := by intro h; simp [probFlux, probOf] at h
  hasS := by intro h; simp [probFlux, probOf] at h
  surf := by intro h; simp [probFlux, probOf] at h

theorem inst_flux : ∃ F, probFlux.form [.flux (.value fun _ => 2) [1]] (weight probFlux.mesh)
      (probFlux.traps.map fun _ => weight probFlux.mesh) = .ok F ∧ probFlux.mesh.assemble F = 0 := by
  refine ⟨_, rfl, ?_⟩
  simp [probFlux, probOf, meshOf, mat, trap, weight, mobileForm, Mesh.assemble, Mesh.integrate,
      Form.neg, diffusionForm, subdomainForm, Fld.const, dot, sourceForm, fluxesForm, MobBC.form,
      Flux.form, Src.at, Mobile.conc, trapSourceForm]
  norm_num

/-- `C49_inventory_change`: the flux 2 on the first surface. -/
example : stock probFlux [.flux (.value fun _ => 2) [1]] (fun _ => mat) (fun _ => mat) (weight probFlux.mesh)
    - stockPrev probFlux [.flux (.value fun _ => 2) [1]] (fun _ => mat) (fun _ => mat) (weight probFlux.mesh) = 2 := by
  obtain ⟨F, hF, h0⟩ := inst_flux
  rw [C49_inventory_change probFlux (.value fun _ => 2) [1] (fun _ => mat) (fun _ => mat) 1 F one_ne_zero rfl
    (covers .cartesian 2) inst_sol (inst_cart 2) rfl (by simp [probFlux, probOf, trap]) hF h0]
  simp [surface, probFlux, probOf, meshOf, inward, weight, Fld.const, Finset.sum_filter, card0]

/-- `C49_sign`. -/
example : stockPrev probFlux [.flux (.value fun _ => 2) [1]] (fun _ => mat) (fun _ => mat) (weight probFlux.mesh)
    ≤ stock probFlux [.flux (.value fun _ => 2) [1]] (fun _ => mat) (fun _ => mat) (weight probFlux.mesh) := by
  obtain ⟨F, hF, h0⟩ := inst_flux
  exact C49_sign probFlux (.value fun _ => 2) [1] (fun _ => mat) (fun _ => mat) 1 F one_pos rfl
    (covers .cartesian 2) inst_sol (inst_cart 2) rfl (by simp [probFlux, probOf, trap])
    (fun q => by simp [probFlux, probOf, meshOf, weight, Fld.const]) hF h0 fun _ => zero_le_two

/-- `C49_natural_condition`: the outward derivative 3 on the right is the value of the flux. -/
example : (3 : ℝ) = if (2 : ℕ) = 2 then 3 else 0 := by
  have h := C49_natural_condition cell (.value fun _ => 3) 2 (fun _ => mat) linearTests ![-3, 3] rfl
    ⟨fun p => by simp [cell], fun p => by simp [cell, mat], by simp [cell, mat]⟩ rfl rfl rfl rfl
    (by
      rintro v ⟨h0, h1⟩
      simp [cell, mat, volume, dot, gradFlux, physGrad, arr, h0, h1])
    (by
      rintro v ⟨h0, h1⟩
      refine ⟨_, rfl, ?_⟩
      simp [cell, mat, mobileForm, Mesh.assemble, Mesh.integrate, Form.neg,
        diffusionForm, subdomainForm, Fld.const, dot, sourceForm, fluxesForm, MobBC.form, Flux.form,
        Mobile.conc, h1]
      ring)
    1 (by simp [cell]) ⟨fun _ => 0, fun _ _ => 1, ![0, 1]⟩ ⟨rfl, rfl⟩ rfl
    (by
      intro x hx
      fin_cases x
      · rfl
      · exact absurd rfl hx)
  simpa [cell, inward] using h

end Festim.Props.Case
