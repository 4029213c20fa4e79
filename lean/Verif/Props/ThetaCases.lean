import Verif.Props.Theta
import Mathlib.Tactic.FinCases

/-!
# Concrete cases for C51-C54, and the initial inventory at an interface
-/

open scoped BigOperators

namespace Festim.Props.ThetaCase

open Festim.Weak

/-- Two elements `[0,1]` and `[1,2]` of two materials, three quadrature points in each (Simpson, exact
for products of two linear functions). -/
noncomputable def mesh : Mesh (Fin 6) (Fin 2) 1 where
  w := ![1/6, 4/6, 1/6, 1/6, 4/6, 1/6]
  vm := ![1, 1, 1, 2, 2, 2]
  ws := fun _ => 1
  sm := ![1, 2]
  vmS := ![1, 2]
  r := ⟨![0, 1/2, 1, 1, 3/2, 2], fun _ _ => 1, ![0, 2]⟩
  type := .cartesian

/-- Continuous piecewise linear functions. -/
def P1 : Set (Fin 6 → ℝ) :=
  {f | ∃ a b c : ℝ, f = ![a, (a + b) / 2, b, b, (b + c) / 2, c]}

/-- Discontinuous piecewise linear functions. -/
def DG1 : Set (Fin 6 → ℝ) :=
  {f | ∃ a b c e : ℝ, f = ![a, (a + b) / 2, b, c, (c + e) / 2, e]}

noncomputable def matA : Mat := { uid := 0, ids := [1], D_0 := 1, E_D := 0 }
noncomputable def matB (S : ℝ) (law : Law) : Mat :=
  { uid := 1, ids := [2], D_0 := 1, E_D := 0, S_0 := S, law := law }

/-- The material at each point. -/
noncomputable def at_ (B : Mat) : Fin 6 → Mat := ![matA, matA, matA, B, B, B]

theorem covers (S : ℝ) (law : Law) :
    Covers mesh [matA, matB S law] (at_ (matB S law)) where
  mem := by intro p; fin_cases p <;> simp [at_]
  has := by intro p; fin_cases p <;> simp [at_, mesh, matA, matB]
  nodup := by simp [matA, matB]

theorem arr_zero (A T : ℝ) : arr A 0 T = A := by simp [arr]

theorem linear_P1 : Linear P1 := by
  rintro u ⟨a, b, c, rfl⟩ v ⟨a', b', c', rfl⟩
  refine ⟨a - a', b - b', c - c', ?_⟩
  funext p
  fin_cases p <;> simp <;> ring

theorem linear_DG1 : Linear DG1 := by
  rintro u ⟨a, b, c, e, rfl⟩ v ⟨a', b', c', e', rfl⟩
  refine ⟨a - a', b - b', c - c', e - e', ?_⟩
  funext p
  fin_cases p <;> simp <;> ring

/-- The hypotheses of the round trip are met with a Sievert and a Henry material: given
concentrations 3 and 9·5 at a uniform potential 3. -/
example : ∃ u : Fin 6 → ℝ,
    Solves mesh P1 (fun u v => thetaInitForm (Γ := Fin 2) [matA, matB 5 .henry] (fun _ => 500)
      ![3, 3, 3, 45, 45, 45] u v) u ∧
    (∃ theta ∈ P1, (∀ p, 0 ≤ theta p) ∧ ∀ p, physConc true (at_ (matB 5 .henry) p) 500 (theta p)
      = (![3, 3, 3, 45, 45, 45] : Fin 6 → ℝ) p) ∧
    (∀ p, 0 < (at_ (matB 5 .henry) p).S_0) ∧ ∀ p, 0 < mesh.w p := by
  refine ⟨fun _ => 3, ⟨⟨3, 3, 3, ?_⟩, ?_⟩, ⟨fun _ => 3, ⟨3, 3, 3, ?_⟩, fun _ => by norm_num, ?_⟩, ?_, ?_⟩
  · funext p; fin_cases p <;> simp
  · intro v _
    have h9 : ((9 : ℝ) ^ (0.5 : ℝ)) = 3 := by
      rw [show (9 : ℝ) = 3 ^ (2 : ℝ) by norm_num, ← Real.rpow_mul (by norm_num)]
      norm_num
    rw [thetaInit_assemble mesh (covers 5 .henry)]
    simp [volume, Fin.sum_univ_six, mesh, at_, matA, matB, arr_zero]
    have h10 : ((45 / 5 : ℝ) ^ (0.5 : ℝ)) = 3 := by
      rw [show (45 / 5 : ℝ) = 9 by norm_num, h9]
    rw [h10]
    ring
  · funext p; fin_cases p <;> simp
  · intro p
    fin_cases p <;> simp [physConc, at_, matA, matB, arr_zero] <;> norm_num
  · intro p; fin_cases p <;> simp [at_, matA, matB]
  · intro p; fin_cases p <;> simp [mesh]

/-- **C51, the limit of the property.** At an interface of two materials of different solubilities a
uniform concentration is not reproduced: the potential is continuous in the simulation.  With
solubilities 1 and 2 and the concentration 2 everywhere (inventory 4), the initial inventory of the
simulation is 33/8. -/
theorem C51_interface_defect (u : Fin 6 → ℝ)
    (hu : Solves mesh P1 (fun u v => thetaInitForm (Γ := Fin 2) [matA, matB 2 .sievert]
      (fun _ => 500) (fun _ => 2) u v) u) :
    volume mesh (fun _ => 2) = 4 ∧
    volume mesh (fun p => physConc true (at_ (matB 2 .sievert) p) 500 (u p)) = 33 / 8 := by
  obtain ⟨⟨a, b, c, rfl⟩, hz⟩ := hu
  have key : ∀ x y z : ℝ, _ := fun x y z => hz ![x, (x + y) / 2, y, y, (y + z) / 2, z] ⟨x, y, z, rfl⟩
  have h1 := key 1 0 0
  have h2 := key 0 1 0
  have h3 := key 0 0 1
  rw [thetaInit_assemble mesh (covers 2 .sievert)] at h1 h2 h3
  simp [volume, Fin.sum_univ_six, mesh, at_, matA, matB, arr_zero] at h1 h2 h3
  constructor
  · simp [volume, Fin.sum_univ_six, mesh]
    norm_num
  · simp [volume, Fin.sum_univ_six, mesh, at_, matA, matB, arr_zero, physConc]
    linarith

/-- Such a `u` exists. -/
example : Solves mesh P1 (fun u v => thetaInitForm (Γ := Fin 2) [matA, matB 2 .sievert]
      (fun _ => 500) (fun _ => 2) u v)
    ![9/4, (9/4 + 3/2) / 2, 3/2, 3/2, (3/2 + 3/4) / 2, 3/4] := by
  refine ⟨⟨_, _, _, rfl⟩, ?_⟩
  rintro v ⟨x, y, z, rfl⟩
  rw [thetaInit_assemble mesh (covers 2 .sievert)]
  simp [volume, Fin.sum_univ_six, mesh, at_, matA, matB, arr_zero]
  ring

/-- A potential linear in each element, materials with solubilities 1 (Sievert) and 2 (`law`). -/
noncomputable def mv (law : Law) : Mobile (Fin 6) (Fin 2) 1 where
  theta := true
  sol := ⟨![1, 2, 3, 3, 3, 3], ![fun _ => 2, fun _ => 2, fun _ => 2, 0, 0, 0], ![1, 3]⟩
  prev := Fld.const 0
  S := ⟨![1, 1, 1, 2, 2, 2], 0, ![1, 2]⟩

noncomputable def prob (law : Law) : Problem (Fin 6) (Fin 2) 1 where
  mesh := mesh
  mats := [matA, matB 2 law]
  mv := mv law
  T := ⟨Fld.const 500, Fld.const 500⟩
  dt := some 1
  soret := false
  sources := []
  traps := []

/-- C52: both sides of the interface (points 2 and 3) have the same potential. -/
example : (mv .henry).sol.val 2 = (mv .henry).sol.val 3 ∧ 0 < matA.S_0 ∧ 0 < (matB 2 .henry).S_0 ∧
    ((mv .henry).conc matA (prob .henry).T).1.val 2 = 3 ∧
    ((mv .henry).conc (matB 2 .henry) (prob .henry).T).1.val 3 = 18 := by
  refine ⟨rfl, by simp [matA], by simp [matB], ?_, ?_⟩
  · rw [conc_val]; simp [mv, physConc, matA, arr_zero]
  · rw [conc_val]; simp [mv, physConc, matB, arr_zero]; norm_num

/-- C53: the solubility field of this problem is the one of the code. -/
example : (∀ p, arrheniusCoeff (prob .henry).mats (·.S_0) (·.E_S) ((prob .henry).mesh.vm p)
      ((prob .henry).T.T.val p) = .ok ((prob .henry).mv.S.val p)) ∧
    (∀ q, arrheniusCoeff (prob .henry).mats (·.S_0) (·.E_S) ((prob .henry).mesh.vmS q)
      ((prob .henry).T.T.tr q) = .ok ((prob .henry).mv.S.tr q)) := by
  constructor <;> intro p <;> fin_cases p <;>
    simp [arrheniusCoeff, prob, mesh, mv, findMat, matA, matB]

/-- C53: the post-processed concentration `1..3` and `18`, in the discontinuous space. -/
example : Solves mesh DG1 (fun c v => postForm (prob .henry).mats (prob .henry).mv c v)
      ![1, (1 + 3) / 2, 3, 18, (18 + 18) / 2, 18] ∧
    (fun p => if mesh.vm p = 2 then (1 : ℝ) else 0) ∈ DG1 := by
  refine ⟨⟨⟨_, _, _, _, rfl⟩, ?_⟩, 0, 0, 1, 1, ?_⟩
  · rintro v ⟨x, y, z, e, rfl⟩
    have := post_assemble (prob .henry) (mat := at_ (matB 2 .henry)) (covers 2 .henry) rfl
      (by intro p; fin_cases p <;> simp [prob, mv, at_, matA, matB, arr_zero])
      ![1, (1 + 3) / 2, 3, 18, (18 + 18) / 2, 18] ![x, (x + y) / 2, y, z, (z + e) / 2, e]
    refine this.trans ?_
    simp [volume, Fin.sum_univ_six, mesh, at_, matA, matB, arr_zero, prob, mv, Problem.c, physConc]
    ring
  · funext p
    fin_cases p <;> simp [mesh]

/-- C53: the markers of the laws, one cell per element. -/
example : Solves mesh {f | ∀ p q : Fin 6, mesh.vm p = mesh.vm q → f p = f q}
    (fun u v => markerForm (Γ := Fin 2) [matA, matB 2 .henry] .henry u v) ![0, 0, 0, 1, 1, 1] := by
  constructor
  · intro p q h
    fin_cases p <;> fin_cases q <;> simp [mesh] at h ⊢
  · intro v _
    rw [marker_assemble]
    simp [volume, Fin.sum_univ_six, mesh, lawMarker, matA, matB]

/-- C54: a concentration 18 imposed on the Henry material and 7 on the Sievert one. -/
example : (Dirichlet.value (Γ := Fin 2) ![7, 18]).imposed [matA, matB 2 .henry] true true mesh.vmS
      (fun _ => 500) 0 = .ok 7 ∧
    (Dirichlet.value (Γ := Fin 2) ![7, 18]).imposed [matA, matB 2 .henry] true true mesh.vmS
      (fun _ => 500) 1 = .ok ((9 + 3e-16) ^ (0.5 : ℝ)) := by
  constructor
  · simp [Dirichlet.imposed, Dirichlet.at, bcTheta, mesh, findMat, matA]
  · simp [Dirichlet.imposed, Dirichlet.at, bcTheta, mesh, findMat, matA, matB, dolfinEps]
    norm_num

/-- C69: implantation with recombination only: `φ = 4`, `R_p = 1`, `D = 2`, `K_r = 1` gives `2 + 2`. -/
example : (Dirichlet.implantation (Γ := Fin 2) (fun _ => 4) (fun _ => 1) 2 0 (some 1) (some 0) none none
    none).at 500 0 = .ok 4 := by
  have h : ((4 : ℝ) ^ (0.5 : ℝ)) = 2 := by
    rw [show (4 : ℝ) = 2 ^ (2 : ℝ) by norm_num, ← Real.rpow_mul (by norm_num)]
    norm_num
  simp [Dirichlet.at, dcImp, optNum, h]
  norm_num

end Festim.Props.ThetaCase
