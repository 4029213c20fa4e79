import Verif.Props.Traps

/-!
# Concrete cases of C44-C47

Each theorem applied to data which meet its hypotheses: the trap of `Verif.Props.Traps`, in the first of two volumes.
-/

set_option linter.unusedSimpArgs false

namespace Festim.Props.Case

open Festim.Weak

theorem inst_solved : TrapSolved (meshOf .cartesian) [mat1, mat2] mobile5 temp300 (some 1) (trapIn1 ![1, 3] ![0, 3]) := by
  intro v
  refine ⟨_, rfl, ?_⟩
  simp [trapIn1, meshOf, mat1, Mesh.assemble, Mesh.integrate, Mobile.conc, mobile5, temp300, trapSourceForm, Fld.const]
  ring

theorem inst_steady : TrapSolved (meshOf .cartesian) [mat1, mat2] mobile5 temp300 none (trapIn1 ![10 / 9, 0] ![0, 3]) := by
  intro v
  refine ⟨_, rfl, ?_⟩
  simp [trapIn1, meshOf, mat1, mat2, Mesh.assemble, Mesh.integrate, Mobile.conc, mobile5, temp300, trapSourceForm, Fld.const]
  ring

theorem inst_rates (s p : Fin 2 → ℝ) : RatesAt (trapIn1 s p) 0 1 0 4 0 fun _ => 2 :=
  Or.inl ⟨[1], [0], [4], [0], rfl, rfl, rfl, rfl, rfl, rfl, rfl, rfl, rfl⟩

theorem inst_covers : Covers (meshOf .cartesian) [mat1, mat2] ![mat1, mat2] where
  mem := by intro p; fin_cases p <;> simp
  has := by intro p; fin_cases p <;> simp [meshOf, mat1, mat2]
  nodup := by simp [mat1, mat2]

theorem inst_uid : ∀ a ∈ [mat1, mat2], ∀ b ∈ [mat1, mat2], a.uid = b.uid → a = b := by simp [mat1, mat2]

theorem inst_weights (p : Fin 2) : 0 < (meshOf .cartesian).w p := by simp [meshOf]

theorem inst_nodup (s p : Fin 2 → ℝ) : ((trapIn1 s p).materials.flatMap (·.ids)).Nodup := by simp [trapIn1, mat1]

theorem inst_conc : 0 ≤ physConc mobile5.theta mat1 (temp300.T.val 0) (mobile5.sol.val 0) := by
  simp [physConc, mobile5, Fld.const]

/-- A test function for the second volume. -/
def inst_test (x : ℝ) : Fld (Fin 2) (Fin 2) 1 := ⟨![0, x], fun _ _ => 0, fun _ => 0⟩

/-- `C44_no_trapping_outside`: nothing but the change, 3 - 1 here, with weight 1/2. -/
example : ∃ F, trapForm [mat1, mat2] mobile5 temp300 (some 1) (trapIn1 ![1, 3] ![0, 1]) (inst_test 1) = .ok F ∧
    (meshOf .cartesian).assemble F = 1 := by
  refine ⟨_, rfl, ?_⟩
  rw [C44_no_trapping_outside (meshOf .cartesian) [mat1, mat2] mobile5 temp300 1 (trapIn1 ![1, 3] ![0, 1]) (inst_test 1) _ rfl
    (by intro a ha p hp
        have : a = mat1 := by simpa [trapIn1] using ha
        subst this
        fin_cases p <;> simp [meshOf, mat1, inst_test] at hp ⊢)]
  simp [volume, meshOf, trapIn1, inst_test]
  norm_num

/-- `C44_transient_unchanged`: 3 outside the material of the trap, before and after. -/
example : (trapIn1 ![1, 3] ![0, 3]).sol.val 1 = (trapIn1 ![1, 3] ![0, 3]).prev.val 1 := by
  obtain ⟨F, hF, h0⟩ := inst_solved (inst_test 0)
  refine C44_transient_unchanged (meshOf .cartesian) [mat1, mat2] mobile5 temp300 1 _ (inst_test 0) F one_pos inst_weights rfl
    (fun p _ => ?_) (fun p hp => ?_) hF h0 1 (by simp [trapIn1, mat1, meshOf])
  · fin_cases p <;> simp [inst_test]
  · fin_cases p
    · exact absurd hp (by simp [trapIn1, mat1, meshOf])
    · simp [inst_test, trapIn1]

/-- `C44_steady_zero`: zero outside although it was 3 before. -/
example : (trapIn1 ![10 / 9, 0] ![0, 3]).sol.val 1 = 0 := by
  obtain ⟨F, hF, h0⟩ := inst_steady (inst_test 0)
  refine C44_steady_zero (meshOf .cartesian) [mat1, mat2] ![mat1, mat2] mobile5 temp300 _ (inst_test 0) F inst_covers
    (by simp [trapIn1]) inst_uid inst_weights rfl (fun p _ => ?_) (fun p hp => ?_) hF h0 1 (by simp [trapIn1, mat1, mat2])
  · fin_cases p <;> simp [inst_test]
  · fin_cases p
    · exact absurd hp (by simp [trapIn1])
    · simp [inst_test, trapIn1]

/-- `C45_equation`: 1 - 0 = 5 (2 - 1) - 4. -/
example : ((trapIn1 ![1, 3] ![0, 3]).sol.val 0 - (trapIn1 ![1, 3] ![0, 3]).prev.val 0) / 1
    = arr 1 0 (temp300.T.val 0) * physConc mobile5.theta mat1 (temp300.T.val 0) (mobile5.sol.val 0)
        * ((2 : ℝ) - (trapIn1 ![1, 3] ![0, 3]).sol.val 0)
      - arr 4 0 (temp300.T.val 0) * (trapIn1 ![1, 3] ![0, 3]).sol.val 0
      + trapSupply (meshOf .cartesian) (trapIn1 ![1, 3] ![0, 3]) 0 :=
  C45_equation (meshOf .cartesian) [mat1, mat2] mobile5 temp300 1 _ inst_solved (inst_nodup _ _) 0 (inst_weights 0).ne' 0 mat1
    rfl (by simp [meshOf, mat1]) 1 0 4 0 _ (inst_rates _ _)

/-- `C45_equation_steady`, `C45_steady`: the equilibrium 5·2/(5 + 4). -/
example : 0 ≤ (trapIn1 ![10 / 9, 0] ![0, 3]).sol.val 0 ∧ (trapIn1 ![10 / 9, 0] ![0, 3]).sol.val 0 ≤ 2 :=
  (C45_steady (meshOf .cartesian) [mat1, mat2] mobile5 temp300 _ inst_steady ![mat1, mat2] inst_covers (by simp [trapIn1])
    (inst_nodup _ _) rfl 0 (inst_weights 0).ne' 0 mat1 rfl (by simp [meshOf, mat1]) 1 0 4 0 _ (inst_rates _ _) zero_le_one
    (by norm_num) inst_conc (by norm_num)).2

example : (0 : ℝ) = arr 1 0 (temp300.T.val 0) * physConc mobile5.theta mat1 (temp300.T.val 0) (mobile5.sol.val 0)
        * ((2 : ℝ) - (trapIn1 ![10 / 9, 0] ![0, 3]).sol.val 0)
      - arr 4 0 (temp300.T.val 0) * (trapIn1 ![10 / 9, 0] ![0, 3]).sol.val 0
      + trapSupply (meshOf .cartesian) (trapIn1 ![10 / 9, 0] ![0, 3]) 0 :=
  C45_equation_steady (meshOf .cartesian) [mat1, mat2] mobile5 temp300 _ inst_steady ![mat1, mat2] inst_covers
    (by simp [trapIn1]) (inst_nodup _ _) 0 (inst_weights 0).ne' 0 mat1 rfl (by simp [meshOf, mat1]) 1 0 4 0 _ (inst_rates _ _)

/-- `C45_value`: (0 + 5·2)/(1 + 5 + 4). -/
example : (trapIn1 ![1, 3] ![0, 3]).sol.val 0
    = ((trapIn1 ![1, 3] ![0, 3]).prev.val 0
        + 1 * (arr 1 0 (temp300.T.val 0) * physConc mobile5.theta mat1 (temp300.T.val 0) (mobile5.sol.val 0)) * 2)
      / (1 + 1 * (arr 1 0 (temp300.T.val 0) * physConc mobile5.theta mat1 (temp300.T.val 0) (mobile5.sol.val 0)
          + arr 4 0 (temp300.T.val 0))) :=
  C45_value (meshOf .cartesian) [mat1, mat2] mobile5 temp300 1 _ inst_solved (inst_nodup _ _) rfl one_pos 0
    (inst_weights 0).ne' 0 mat1 rfl (by simp [meshOf, mat1]) 1 0 4 0 _ (inst_rates _ _) zero_le_one (by norm_num) inst_conc

/-- `C45_occupancy`. -/
example : 0 ≤ (trapIn1 ![1, 3] ![0, 3]).sol.val 0 ∧ (trapIn1 ![1, 3] ![0, 3]).sol.val 0 ≤ 2 :=
  C45_occupancy (meshOf .cartesian) [mat1, mat2] mobile5 temp300 1 _ inst_solved (inst_nodup _ _) rfl one_pos 0
    (inst_weights 0).ne' 0 mat1 rfl (by simp [meshOf, mat1]) 1 0 4 0 _ (inst_rates _ _) zero_le_one (by norm_num) inst_conc
    (by simp [trapIn1]) (by simp [trapIn1])

/-- Trapped concentration after `i` steps of size 1 from 0: it tends to 10/9. -/
noncomputable def inst_seq : ℕ → ℝ
  | 0 => 0
  | i + 1 => (inst_seq i + 10) / 10

/-- `C45_run`: any number of steps. -/
example (N : ℕ) : ∀ i ≤ N, 0 ≤ inst_seq (i + 1) ∧ inst_seq (i + 1) ≤ 2 := by
  have h := C45_run (meshOf .cartesian) [mat1, mat2] (fun _ => mobile5) (fun _ => temp300) (fun _ => 1)
    (fun i => trapIn1 ![inst_seq (i + 1), 3] ![inst_seq i, 3]) N
    (fun i _ v => by
      refine ⟨_, rfl, ?_⟩
      simp [trapIn1, meshOf, mat1, Mesh.assemble, Mesh.integrate, Mobile.conc, mobile5, temp300, trapSourceForm, Fld.const,
        inst_seq]
      ring)
    (fun _ _ => inst_nodup _ _) (fun _ _ => rfl) (fun _ _ => one_pos) (fun _ _ => rfl) 0 (inst_weights 0).ne' 0 mat1
    (fun _ _ => rfl) (by simp [meshOf, mat1]) (fun _ => 1) (fun _ => 0) (fun _ => 4) (fun _ => 0) (fun _ _ => 2)
    (fun _ _ => inst_rates _ _) (fun _ => zero_le_one) (fun _ => by norm_num) (fun _ _ => inst_conc) (fun _ _ => le_rfl)
    (by simp [trapIn1, inst_seq]) (by simp [trapIn1, inst_seq])
  simpa [trapIn1] using h

/-- An extrinsic trap with both saturation densities 2. -/
def inst_ext : Extrinsic (Fin 2) := ⟨fun _ => 1, fun _ => 2, fun _ => 2, fun _ => 1, fun _ => 1, fun _ => 1, fun _ => 1⟩

theorem inst_ext_solved (x : ℝ) (v : Fin 2 → ℝ) :
    (meshOf .cartesian).assemble (inst_ext.form 1 (fun _ => (x + 2) / 2) (fun _ => x) v) = 0 := by
  simp [inst_ext, Extrinsic.form, Mesh.assemble, Mesh.integrate]
  ring

/-- `C46_equation`: from 0 to 1. -/
example : ((1 : ℝ) - 0) / 1 = 1 * ((1 - 1 / 2) * 1 * 1 + (1 - 1 / 2) * 1 * 1) := by
  have h := C46_equation (meshOf .cartesian) inst_ext 1 (fun _ => (0 + 2) / 2) (fun _ => 0) (inst_ext_solved 0) 0
    (inst_weights 0).ne'
  simpa [inst_ext] using h

/-- `C46_density_bounds`. -/
example : (0 : ℝ) ≤ (0 + 2) / 2 ∧ ((0 : ℝ) + 2) / 2 ≤ max 0 (max 2 2) ∧ ((0 : ℝ) ≤ 2 → (0 : ℝ) ≤ 2 → (0 : ℝ) ≤ (0 + 2) / 2) :=
  C46_density_bounds (meshOf .cartesian) inst_ext 1 (fun _ => (0 + 2) / 2) (fun _ => 0) (inst_ext_solved 0) 0
    (inst_weights 0).ne' one_pos (by simp [inst_ext]) (by simp [inst_ext]) (by simp [inst_ext]) (by simp [inst_ext])
    (by simp [inst_ext]) (by simp [inst_ext]) (by simp [inst_ext]) le_rfl

/-- Density after `i` steps from 0: it tends to 2. -/
noncomputable def inst_dens : ℕ → ℝ
  | 0 => 0
  | i + 1 => (inst_dens i + 2) / 2

/-- `C46_run`. -/
example (i : ℕ) : 0 ≤ inst_dens i ∧ inst_dens i ≤ 2 := by
  have h := C46_run (meshOf .cartesian) (fun _ => inst_ext) (fun _ => 1) (fun i _ => inst_dens i)
    (fun i v => inst_ext_solved (inst_dens i) v) 0 (inst_weights 0).ne' (fun _ => one_pos) 2 2 two_pos two_pos (fun _ => rfl)
    (fun _ => rfl) (fun _ => zero_le_one) (fun _ => zero_le_one) (fun _ => zero_le_one) (fun _ => zero_le_one)
    (fun _ => zero_le_one) (le_of_eq rfl) i
  simpa [inst_dens] using h

/-- A neutron-induced trap: production 1, saturation 2, annealing 1. -/
def inst_neu : Neutron (Fin 2) := ⟨fun _ => 1, fun _ => 1, fun _ => 2, fun _ => 1, fun _ => 0⟩

theorem inst_neu_solved (x : ℝ) (v : Fin 2 → ℝ) :
    (meshOf .cartesian).assemble (inst_neu.form (fun _ => 300) 1 (fun _ => (x + 1) * 2 / 5) (fun _ => x) v) = 0 := by
  simp [inst_neu, Neutron.form, Mesh.assemble, Mesh.integrate]
  ring

/-- `C47_equation`: from 1 to 4/5. -/
example : ((4 : ℝ) / 5 - 1) / 1 = 1 * 1 * (1 - 4 / 5 / 2) - 1 * Real.exp (-0 / (kB * 300)) * (4 / 5) := by
  have h := C47_equation (meshOf .cartesian) inst_neu (fun _ => 300) 1 (fun _ => (1 + 1) * 2 / 5) (fun _ => 1)
    (inst_neu_solved 1) 0 (inst_weights 0).ne'
  norm_num [inst_neu] at h ⊢

/-- `C47_density_bounds`. -/
example : (0 : ℝ) ≤ (1 + 1) * 2 / 5 ∧ ((1 : ℝ) + 1) * 2 / 5 ≤ 2 := by
  have h := C47_density_bounds (meshOf .cartesian) inst_neu (fun _ => 300) 1 (fun _ => (1 + 1) * 2 / 5) (fun _ => 1)
    (inst_neu_solved 1) 0 (inst_weights 0).ne' one_pos zero_le_one zero_le_one two_pos zero_le_one zero_le_one one_le_two
  exact ⟨h.1, h.2.1⟩

/-- Density after `i` steps from 2: it tends to 2/3. -/
noncomputable def inst_anneal : ℕ → ℝ
  | 0 => 2
  | i + 1 => (inst_anneal i + 1) * 2 / 5

/-- `C47_run`. -/
example (i : ℕ) : 0 ≤ inst_anneal i ∧ inst_anneal i ≤ 2 :=
  C47_run (meshOf .cartesian) (fun _ => inst_neu) (fun _ _ => 300) (fun _ => 1) (fun i _ => inst_anneal i)
    (fun i v => inst_neu_solved (inst_anneal i) v) 0 (inst_weights 0).ne' (fun _ => one_pos) 2 two_pos (fun _ => rfl)
    (fun _ => zero_le_one) (fun _ => zero_le_one) (fun _ => zero_le_one) zero_le_two le_rfl i

end Festim.Props.Case
