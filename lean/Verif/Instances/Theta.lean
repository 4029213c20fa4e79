import Verif.Props.ThetaCases

/-!
# Concrete cases of C51-C54 and C69

Each theorem applied to the problem of `Verif.Props.ThetaCases`: two elements of two materials, of Sievert and Henry type.
-/

open scoped BigOperators

namespace Festim.Props.ThetaCase

open Festim.Weak

/-- Concentrations 3 and 45 at the uniform potential 3. -/
def inst_comp : Fin 6 → ℝ := ![3, 3, 3, 45, 45, 45]

theorem inst_S (p : Fin 6) : 0 < (at_ (matB 5 .henry) p).S_0 := by fin_cases p <;> simp [at_, matA, matB]

theorem inst_w (p : Fin 6) : 0 < mesh.w p := by fin_cases p <;> simp [mesh]

theorem inst_P1 : (fun _ => 3 : Fin 6 → ℝ) ∈ P1 := ⟨3, 3, 3, by funext p; fin_cases p <;> simp⟩

theorem inst_theta (p : Fin 6) : physConc true (at_ (matB 5 .henry) p) 500 3 = inst_comp p := by
  fin_cases p <;> simp [physConc, at_, matA, matB, arr_zero, inst_comp] <;> norm_num

theorem inst_solves : Solves mesh P1 (fun u v => thetaInitForm (Γ := Fin 2) [matA, matB 5 .henry] (fun _ => 500) inst_comp u v)
    fun _ => 3 := by
  refine ⟨inst_P1, ?_⟩
  intro v _
  have h10 : ((45 / 5 : ℝ) ^ (0.5 : ℝ)) = 3 := by
    rw [show (45 / 5 : ℝ) = 3 ^ (2 : ℝ) by norm_num, ← Real.rpow_mul (by norm_num)]
    norm_num
  rw [thetaInit_assemble mesh (covers 5 .henry)]
  simp [volume, Fin.sum_univ_six, mesh, at_, matA, matB, arr_zero, inst_comp]
  rw [h10]
  ring

/-- `C51_projection`. -/
example : ∀ v ∈ P1, volume mesh (fun p => (3 : ℝ) * v p) = volume mesh fun p => 3 * v p :=
  C51_projection mesh [matA, matB 5 .henry] (at_ (matB 5 .henry)) (covers 5 .henry) P1 (fun _ => 500) inst_comp (fun _ => 3)
    (fun _ => 3) inst_S (fun _ => by norm_num) inst_theta inst_solves

/-- `C51_round_trip`: the given concentrations come back. -/
example (p : Fin 6) : physConc true (at_ (matB 5 .henry) p) 500 3 = inst_comp p :=
  C51_round_trip mesh inst_w [matA, matB 5 .henry] (at_ (matB 5 .henry)) (covers 5 .henry) P1 linear_P1 (fun _ => 500) inst_comp
    (fun _ => 3) inst_S ⟨fun _ => 3, inst_P1, fun _ => by norm_num, inst_theta⟩ inst_solves p

/-- `C51_exists_unique`. -/
example : ∃! theta : ℝ, 0 ≤ theta ∧ physConc true (matB 5 .henry) 500 theta = 45 :=
  C51_exists_unique (matB 5 .henry) 500 45 (by simp [matB]) (by norm_num)

/-- `C52_same_pressure`: concentrations 3 and 18 on both sides, one pressure. -/
example : partialPressure matA 500 (((mv .henry).conc matA (prob .henry).T).1.val 2)
    = partialPressure (matB 2 .henry) 500 (((mv .henry).conc (matB 2 .henry) (prob .henry).T).1.val 3) :=
  C52_same_pressure (mv .henry) rfl (prob .henry).T matA (matB 2 .henry) (by simp [matA]) (by simp [matB]) 2 3 rfl

/-- `C52_converse`. -/
example : (mv .henry).sol.val 2 = (mv .henry).sol.val 3 :=
  C52_converse (mv .henry) rfl (prob .henry).T matA (matB 2 .henry) (by simp [matA]) (by simp [matB]) 2 3
    (by simp [mv]) (by simp [mv])
    (C52_same_pressure (mv .henry) rfl (prob .henry).T matA (matB 2 .henry) (by simp [matA]) (by simp [matB]) 2 3 rfl)

/-- `C52_jump`: 3² · 2 = 18 · 1². -/
example : (((mv .henry).conc matA (prob .henry).T).1.val 2) ^ 2 * arr 2 0 500
    = ((mv .henry).conc (matB 2 .henry) (prob .henry).T).1.val 3 * arr 1 0 500 ^ 2 :=
  (C52_jump (mv .henry) rfl (prob .henry).T matA (matB 2 .henry) 2 3 rfl).2 rfl rfl

/-- `C53_property_fields`. -/
example : arrheniusCoeff [matA, matB 2 .henry] (·.S_0) (·.E_S) 2 500 = .ok (arr 2 0 500) :=
  (C53_property_fields mesh [matA, matB 2 .henry] (at_ (matB 2 .henry)) (covers 2 .henry) (fun _ => 500) 3).2.1

/-- `C53_unknown_subdomain`. -/
example : ∃ msg, bcTheta [matA, matB 2 .henry] 3 500 1 = .error (.valueError msg) :=
  (C53_unknown_subdomain [matA, matB 2 .henry] 3 (by simp [matA, matB]) (·.D_0) (·.E_D) (·.cond) 500 1).2.2

theorem inst_fields : (∀ p, arrheniusCoeff (prob .henry).mats (·.S_0) (·.E_S) ((prob .henry).mesh.vm p)
      ((prob .henry).T.T.val p) = .ok ((prob .henry).mv.S.val p)) ∧
    (∀ q, arrheniusCoeff (prob .henry).mats (·.S_0) (·.E_S) ((prob .henry).mesh.vmS q)
      ((prob .henry).T.T.tr q) = .ok ((prob .henry).mv.S.tr q)) := by
  constructor <;> intro p <;> fin_cases p <;> simp [arrheniusCoeff, prob, mesh, mv, findMat, matA, matB]

/-- `C53_same_concentration`. -/
example : (∀ p, (prob .henry).mv.mobileConc (prob .henry).mesh (prob .henry).mats p
      = ((prob .henry).mv.conc (at_ (matB 2 .henry) p) (prob .henry).T).1.val p) ∧
    (∀ q, (prob .henry).mv.mobileConcS (prob .henry).mesh (prob .henry).mats q
      = ((prob .henry).mv.conc ((![matA, matB 2 .henry] : Fin 2 → Mat) q) (prob .henry).T).1.tr q) :=
  C53_same_concentration (prob .henry) (at_ (matB 2 .henry)) ![matA, matB 2 .henry] (covers 2 .henry)
    (fun q => by fin_cases q <;> simp [prob]) (fun q => by fin_cases q <;> simp [prob, mesh, matA, matB]) inst_fields.1
    inst_fields.2

/-- `C53_solubility_as_function`: the projection on discontinuous elements is the solubility. -/
example : ∀ p, (![1, (1 + 1) / 2, 1, 2, (2 + 2) / 2, 2] : Fin 6 → ℝ) p
    = arr (at_ (matB 2 .henry) p).S_0 (at_ (matB 2 .henry) p).E_S 500 := by
  refine (C53_solubility_as_function (Γ := Fin 2) mesh inst_w [matA, matB 2 .henry] (at_ (matB 2 .henry)) (covers 2 .henry) DG1 linear_DG1
    (fun _ => 500) ![1, (1 + 1) / 2, 1, 2, (2 + 2) / 2, 2] ⟨⟨_, _, _, _, rfl⟩, ?_⟩).2 ⟨1, 1, 2, 2, ?_⟩
  · intro v _
    simp [solubilityForm, Mesh.assemble, Mesh.integrate, mesh, matA, matB, Fin.sum_univ_six]
    ring
  · funext p
    fin_cases p <;> simp [at_, matA, matB, arr_zero]

/-- `C53_law_markers`. -/
example (p : Fin 6) : (![0, 0, 0, 1, 1, 1] : Fin 6 → ℝ) p = if (at_ (matB 2 .henry) p).law = .henry then 1 else 0 := by
  refine C53_law_markers (Γ := Fin 2) mesh inst_w [matA, matB 2 .henry] (at_ (matB 2 .henry)) (covers 2 .henry) mesh.vm
    (fun _ _ h => h) .henry _ ⟨?_, ?_⟩ p
  · intro p q h
    fin_cases p <;> fin_cases q <;> simp [mesh] at h ⊢
  · intro v _
    rw [marker_assemble]
    simp [volume, Fin.sum_univ_six, mesh, lawMarker, matA, matB]

/-- `C53_post_processed`: the inventory of the second material is 18. -/
example : volumeOf mesh 2 (![1, (1 + 3) / 2, 3, 18, (18 + 18) / 2, 18] : Fin 6 → ℝ)
    = volumeOf mesh 2 fun p => ((mv .henry).conc (at_ (matB 2 .henry) p) (prob .henry).T).1.val p := by
  refine (C53_post_processed (prob .henry) (at_ (matB 2 .henry)) (covers 2 .henry) rfl inst_w inst_fields.1 DG1 linear_DG1
    ![1, (1 + 3) / 2, 3, 18, (18 + 18) / 2, 18] ⟨⟨_, _, _, _, rfl⟩, ?_⟩).1 2 ⟨0, 0, 1, 1, ?_⟩
  · rintro v ⟨x, y, z, e, rfl⟩
    have := post_assemble (prob .henry) (mat := at_ (matB 2 .henry)) (covers 2 .henry) rfl
      (by intro p; fin_cases p <;> simp [prob, mv, at_, matA, matB, arr_zero])
      ![1, (1 + 3) / 2, 3, 18, (18 + 18) / 2, 18] ![x, (x + y) / 2, y, z, (z + e) / 2, e]
    refine this.trans ?_
    simp [volume, Fin.sum_univ_six, mesh, at_, matA, matB, arr_zero, prob, mv, Problem.c, physConc]
    ring
  · funext p
    fin_cases p <;> simp [mesh, prob]

/-- `C54_imposed_concentration`: 18 imposed on the Henry material comes back up to 6e-16. -/
example : physConc true (matB 2 .henry) 500 ((9 + 3e-16) ^ (0.5 : ℝ)) = 18 + 3e-16 * arr 2 0 500 := by
  refine (C54_imposed_concentration (Dirichlet.value (Γ := Fin 2) ![7, 18]) [matA, matB 2 .henry] mesh.vmS (fun _ => 500) 1
    (matB 2 .henry) (by simp) (by simp [mesh, matB]) (by simp [matA, matB]) (by simp [matB]) 18 _ (by simp [Dirichlet.at]) ?_).2 rfl
    (by norm_num)
  simp [Dirichlet.imposed, Dirichlet.at, bcTheta, mesh, findMat, matA, matB, dolfinEps]
  norm_num

/-- `C54_gas_equilibrium`: at pressure 4. -/
example : ∃ theta, (Dirichlet.sieverts 1 0 fun _ : Fin 2 => 4).imposed [matA, matB 2 .henry] true true mesh.vmS (fun _ => 500) 0
      = .ok theta ∧ partialPressure matA 500 (physConc true matA 500 theta) = 4 :=
  (C54_gas_equilibrium [matA, matB 2 .henry] mesh.vmS (fun _ => 500) (fun _ => 4) 0 matA (by simp) (by simp [mesh, matA])
    (by simp [matA, matB]) (by simp [matA]) (by norm_num)).1 rfl

/-- `C54_not_converted`. -/
example : (Dirichlet.value (Γ := Fin 2) ![7, 18]).imposed [matA] false true mesh.vmS (fun _ => 500) 1 = .ok 18 :=
  C54_not_converted (Dirichlet.value (Γ := Fin 2) ![7, 18]) [matA] false true (Or.inl rfl) mesh.vmS (fun _ => 500) 1

/-- `C69_implantation`: flux 4 at depth 1, diffusivity 2, recombination 1, dissociation 5 at pressure 1: `c0 = 3`, `c = 5`. -/
example : ∃ c c0 : ℝ, (Dirichlet.implantation (Γ := Fin 2) (fun _ => 4) (fun _ => 1) 2 0 (some 1) (some 0) (some 5) (some 0)
      (some fun _ => 1)).at 500 0 = .ok c ∧ 0 ≤ c0 ∧ arr 1 0 500 * c0 ^ 2 = 4 + arr 5 0 500 * 1 ∧ arr 2 0 500 * (c - c0) / 1 = 4 :=
  C69_implantation (Γ := Fin 2) (fun _ => 4) (fun _ => 1) 2 0 1 0 5 0 (fun _ => 1) 500 0 (by norm_num) (by norm_num)
    (by norm_num) (by norm_num) (by norm_num) (by norm_num)

/-- `C69_implantation_defaults`: without recombination `c = 2`. -/
example : ∃ c, (Dirichlet.implantation (Γ := Fin 2) (fun _ => 4) (fun _ => 1) 2 0 none none none none none).at 500 0 = .ok c ∧
    arr 2 0 500 * c / 1 = 4 :=
  (C69_implantation_defaults (Γ := Fin 2) (fun _ => 4) (fun _ => 1) 2 0 1 0 none none none none none none 500 0 (by norm_num)
    (by norm_num) (by norm_num) (by norm_num)).1

end Festim.Props.ThetaCase
