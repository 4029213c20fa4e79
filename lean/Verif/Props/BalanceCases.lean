import Verif.Props.Balance
import Mathlib.Tactic.FinCases

/-!
# Concrete cases for C41, C42, C43, C48

Two points, one material with two volumes, one trap.  They meet the hypotheses of the theorems in
`Verif.Props.Balance`.
-/

open scoped BigOperators

set_option linter.unusedSimpArgs false

namespace Festim.Props.Case

open Festim.Weak

noncomputable def meshOf (type : Coord) : Mesh (Fin 2) (Fin 2) 1 where
  w := fun _ => 1 / 2
  vm := fun p => p.val + 1
  ws := fun _ => 1
  sm := fun q => q.val + 1
  vmS := fun q => q.val + 1
  r := ⟨fun p => p.val + 1, fun _ _ => 1, fun q => q.val + 1⟩
  type := type

def mat : Mat := { uid := 0, ids := [1, 2], D_0 := 1, E_D := 0 }

def trap : Trap (Fin 2) (Fin 2) 1 where
  k_0 := .num 1
  E_k := .num 0
  p_0 := .num 4
  E_p := .num 0
  density := [fun _ => 2]
  materials := [mat]
  sol := Fld.const 1
  prev := Fld.const 0

def bcs : List (MobBC (Fin 2)) :=
  [.flux (.value fun _ => 3) [1], .flux (.value fun _ => -3) [2]]

/-- Mobile hydrogen goes from 4 to 5, trapped hydrogen from 0 to 1. -/
noncomputable def probOf (type : Coord) (src : ℝ) : Problem (Fin 2) (Fin 2) 1 where
  mesh := meshOf type
  mats := [mat]
  mv := { theta := false, sol := Fld.const 5, prev := Fld.const 4 }
  T := ⟨Fld.const 300, Fld.const 300⟩
  dt := some 1
  soret := true
  sources := [⟨.given fun _ => src, [1, 2]⟩]
  traps := [trap]

theorem card0 : (Finset.univ.filter fun x : Fin 2 => x = 0).card = 1 := by decide

theorem card1 : (Finset.univ.filter fun x : Fin 2 => x.val = 1).card = 1 := by decide

theorem covers (type : Coord) (s : ℝ) :
    Covers (probOf type s).mesh (probOf type s).mats fun _ => mat where
  mem := by intro p; simp [probOf]
  has := by intro p; fin_cases p <;> simp [probOf, meshOf, mat]
  nodup := by simp [probOf, mat]

theorem solubility (type : Coord) (s : ℝ) :
    Solubility (probOf type s) (fun _ => mat) fun _ => mat where
  vol := by intro h; simp [probOf] at h
  memS := by intro h; simp [probOf] at h
  hasS := by intro h; simp [probOf] at h
  surf := by intro h; simp [probOf] at h

theorem tests (type : Coord) (s : ℝ) (v : Fin 2 → ℝ) : SKTests (probOf type s).mesh v bcs := by
  intro b vs h
  simp [bcs] at h

/-- C41, C42: a step with zero residual.  The source gives 2, the fluxes cancel. -/
example : ∃ F, (probOf .cartesian 2).form bcs (weight (probOf .cartesian 2).mesh)
      ((probOf .cartesian 2).traps.map fun _ => weight (probOf .cartesian 2).mesh) = .ok F ∧
    (probOf .cartesian 2).mesh.assemble F = 0 := by
  refine ⟨_, rfl, ?_⟩
  simp [probOf, meshOf, mat, trap, bcs, weight, mobileForm, Mesh.assemble, Mesh.integrate, Form.neg,
    diffusionForm, subdomainForm, Fld.const, dot, sourceForm, fluxesForm, MobBC.form, Flux.form,
    Src.at, Mobile.conc, trapSourceForm]
  norm_num

/-- C42: the inventory goes from 4 to 6 and 2 is supplied. -/
example : stock (probOf .cartesian 2) bcs (fun _ => mat) (fun _ => mat) (Fld.const 1) = 6 ∧
    stockPrev (probOf .cartesian 2) bcs (fun _ => mat) (fun _ => mat) (Fld.const 1) = 4 ∧
    supply (probOf .cartesian 2) bcs (fun _ => mat) (fun _ => mat) (Fld.const 1) = 2 := by
  refine ⟨?_, ?_, ?_⟩ <;>
    simp [stock, stockPrev, supply, probOf, bcs, bcStock, bcInflow, volume, volumeOf, volumeIn,
      surface, meshOf, Problem.c, Problem.cPrev, Problem.cS, physConc, Fld.const, trap, srcRate,
      inward, Finset.sum_filter, card0, card1] <;>
    norm_num

/-- C43: the same fields on a cylinder and on a sphere have a form, with any test functions. -/
example (type : Coord) (v u : Fld (Fin 2) (Fin 2) 1) :
    ∃ F, (probOf type 2).form bcs v [u] = .ok F := ⟨_, rfl⟩

example (type : Coord) : (∀ p, (probOf type 2).mesh.r.val p ≠ 0) ∧
    ∀ q, (probOf type 2).mesh.r.tr q ≠ 0 := by
  constructor <;> intro p <;> simp only [probOf, meshOf] <;> positivity

/-- Surface 1 has kinetics: adsorbed hydrogen goes from 0 to 1, the layer gains 2. -/
noncomputable def sk : SK (Fin 2) where
  k_sb := fun _ _ _ _ => 7
  k_bs := fun _ _ _ _ => 2 / 5
  J_vs := fun _ _ _ _ => 0
  lambda_IS := 2
  n_surf := 2
  n_IS := 5
  surfaces := [⟨1, 1, 0⟩]

/-- C48: a step with zero residual and surface kinetics. -/
example : ∃ F, (probOf .cartesian 5).form [.sk sk [1]] (weight (probOf .cartesian 5).mesh)
      ((probOf .cartesian 5).traps.map fun _ => weight (probOf .cartesian 5).mesh) = .ok F ∧
    (probOf .cartesian 5).mesh.assemble F = 0 := by
  refine ⟨_, rfl, ?_⟩
  simp [probOf, meshOf, mat, trap, sk, weight, mobileForm, Mesh.assemble, Mesh.integrate, Form.neg,
    diffusionForm, subdomainForm, Fld.const, dot, sourceForm, fluxesForm, MobBC.form, Flux.form,
    Src.at, Mobile.conc, trapSourceForm, SK.form, SK.surfForm, SK.Jbs, SK.Jsb, Mobile.mobileConcS]
  norm_num

example : SKTests (probOf .cartesian 5).mesh (weight (probOf .cartesian 5).mesh).tr [.sk sk [1]] := by
  intro b vs h
  simp only [List.mem_singleton, MobBC.sk.injEq] at h
  obtain ⟨rfl, rfl⟩ := h
  refine ⟨rfl, ?_⟩
  intro x hx q _
  simp [sk] at hx
  subst hx
  simp [weight, probOf, meshOf, Fld.const]

/-- A Sievert material whose solubility depends on the temperature. -/
noncomputable def matT : Mat :=
  { uid := 0, ids := [1, 2], D_0 := 1, E_D := 0, S_0 := 1, E_S := kB }

/-- Conservation of the chemical potential, the heat solver having set both temperatures to `T`. -/
noncomputable def heated (T : ℝ) : Problem (Fin 2) (Fin 2) 1 where
  mesh := meshOf .cartesian
  mats := [matT]
  mv := { theta := true, sol := Fld.const 1, prev := Fld.const 1,
          S := Fld.const (arr 1 kB T) }
  T := ⟨Fld.const T, Fld.const T⟩
  dt := some 1
  soret := false
  sources := []
  traps := []

theorem follows_heated : Follows { heated 1 with T := { (heated 1).T with T := (heated 2).T.Tn } }
    (heated 2) [] [] where
  mesh := rfl
  theta := rfl
  prev := rfl
  temp := rfl
  traps := List.Forall₂.nil
  bcs := List.Forall₂.nil

theorem heated_covers (T : ℝ) : Covers (heated T).mesh (heated T).mats fun _ => matT where
  mem := by intro p; simp [heated]
  has := by intro p; fin_cases p <;> simp [heated, meshOf, matT]
  nodup := by simp [heated, matT]

theorem heated_solubility (T : ℝ) : Solubility (heated T) (fun _ => matT) fun _ => matT where
  vol := by intro _ p; simp [heated, matT, Fld.const]
  memS := by intro _ p; simp [heated]
  hasS := by intro _ q; fin_cases q <;> simp [heated, meshOf, matT]
  surf := by intro _ p; simp [heated, matT, Fld.const]

/-- C42, defect: nothing is supplied, the residual vanishes for **every** test function, and the
inventory changes when the temperature goes from 1 to 2. -/
example (v : Fld (Fin 2) (Fin 2) 1) :
    (∃ F, (heated 2).form [] v [] = .ok F ∧ (heated 2).mesh.assemble F = 0) ∧
    supply (heated 2) [] (fun _ => matT) (fun _ => matT) v = 0 ∧
    stock (heated 1) [] (fun _ => matT) (fun _ => matT) (Fld.const 1)
      < stock (heated 2) [] (fun _ => matT) (fun _ => matT) (Fld.const 1) := by
  have hk : kB ≠ 0 := by unfold kB; norm_num
  refine ⟨⟨_, rfl, ?_⟩, ?_, ?_⟩
  · rw [C41_weak_form (heated 2) [] (fun _ => matT) (fun _ => matT) 1 v _ rfl (heated_covers 2)
      (heated_solubility 2) (by simp [heated, meshOf]) (by intro b vs h; simp at h)
      (Or.inr (by simp)) rfl]
    simp [stock, stockPrev, supply, heated, volume, Problem.c, Problem.cPrev, physConc, matT, arr,
      meshOf, gradFlux, physGrad, dot]
  · simp [supply, heated]
  · simp [stock, heated, volume, Problem.c, physConc, matT, arr, Fld.const, meshOf, hk]
    norm_num

/-- Solubility 2 everywhere; `theta` goes from 1 to 3/4; surface 1 has a layer of thickness 1. -/
noncomputable def matS : Mat :=
  { uid := 0, ids := [1, 2], D_0 := 1, E_D := 0, S_0 := 2, E_S := 0 }

noncomputable def layered : Problem (Fin 2) (Fin 2) 1 where
  mesh := meshOf .cartesian
  mats := [matS]
  mv := { theta := true, sol := Fld.const (3 / 4), prev := Fld.const 1, S := Fld.const 2 }
  T := ⟨Fld.const 300, Fld.const 300⟩
  dt := some 1
  soret := false
  sources := []
  traps := []

noncomputable def skL : SK (Fin 2) where
  k_sb := fun _ _ _ _ => 0
  k_bs := fun _ _ _ _ => 0
  J_vs := fun _ _ _ _ => 0
  lambda_IS := 1
  n_surf := 2
  n_IS := 5
  surfaces := [⟨1, 0, 0⟩]

theorem layered_covers : Covers layered.mesh layered.mats fun _ => matS where
  mem := by intro p; simp [layered]
  has := by intro p; fin_cases p <;> simp [layered, meshOf, matS]
  nodup := by simp [layered, matS]

theorem layered_solubility : Solubility layered (fun _ => matS) fun _ => matS where
  vol := by intro _ p; simp [layered, matS, arr]
  memS := by intro _ p; simp [layered]
  hasS := by intro _ q; fin_cases q <;> simp [layered, meshOf, matS]
  surf := by intro _ p; simp [layered, matS, arr]

theorem layered_tests : SKTests layered.mesh (weight layered.mesh).tr [.sk skL [1]] := by
  intro b vs h
  simp only [List.mem_singleton, MobBC.sk.injEq] at h
  obtain ⟨rfl, rfl⟩ := h
  refine ⟨rfl, ?_⟩
  intro x hx q _
  simp [skL] at hx
  subst hx
  simp [weight, layered, meshOf, Fld.const]

/-- C48, defect: nothing is supplied, the residual vanishes, the inventory goes from 4 to 3. -/
example : (∃ F, layered.form [.sk skL [1]] (weight layered.mesh)
      (layered.traps.map fun _ => weight layered.mesh) = .ok F ∧ layered.mesh.assemble F = 0) ∧
    supply layered [.sk skL [1]] (fun _ => matS) (fun _ => matS) (Fld.const 1) = 0 ∧
    stockPrev layered [.sk skL [1]] (fun _ => matS) (fun _ => matS) (Fld.const 1) = 4 ∧
    stock layered [.sk skL [1]] (fun _ => matS) (fun _ => matS) (Fld.const 1) = 3 := by
  refine ⟨⟨_, rfl, ?_⟩, ?_, ?_, ?_⟩
  · rw [weak_form_general layered [.sk skL [1]] (fun _ => matS) (fun _ => matS) 1 _ _ rfl
      layered_covers layered_solubility (by simp [layered, meshOf]) layered_tests rfl]
    simp [stock, stockPrev, supply, layered, volume, Problem.c, Problem.cPrev, Problem.cS, physConc,
      matS, arr, meshOf, gradFlux, physGrad, dot, bcStock, bcInflow, skL, surface, weight,
      Finset.sum_filter, card0, card1]
    norm_num
  · simp [supply, layered, bcInflow, skL, surface]
  · simp [stockPrev, layered, volume, Problem.cPrev, Problem.cSPrev, physConc, matS, arr, Fld.const,
      meshOf, bcStock, surface, skL, Finset.sum_filter, card0, card1]
    norm_num
  · simp [stock, layered, volume, Problem.c, Problem.cS, physConc, matS, arr, Fld.const,
      meshOf, bcStock, surface, skL, Finset.sum_filter, card0, card1]
    norm_num

end Festim.Props.Case
