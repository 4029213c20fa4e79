import Verif.Props.Balance
import Verif.Spec.Line
import Mathlib.Tactic.FinCases
import Mathlib.Tactic.FieldSimp

/-!
# C42 on one-dimensional meshes: which coordinates conserve hydrogen

The balance of C42 is the residual tested with `1`, `r` or `r²`.  With the piecewise affine elements of FESTIM the first
two are test functions of the discrete problem, the third one is not.
-/

open scoped BigOperators

set_option linter.unusedSimpArgs false

namespace Festim.Props

open Festim.Weak

section
variable {Ω : Type} [Fintype Ω]

/-- The mesh of a line in other coordinates; `x` are the coordinates of the nodes. -/
noncomputable def lineMesh (L : Line Ω) (type : Coord) (x : ℕ → ℝ) : Mesh Ω Bool 1 :=
  { L.mesh (L.p1 x) with type := type }

/-- The discrete problem without Dirichlet conditions: the residual vanishes for all piecewise affine test functions. -/
def SolvedOnLine (L : Line Ω) (P : Problem Ω Bool 1) (bcs : List (MobBC Bool)) : Prop :=
  ∀ (v : ℕ → ℝ) (vt : List (ℕ → ℝ)), vt.length = P.traps.length →
    ∃ F, P.form bcs (L.p1 v) (vt.map L.p1) = .ok F ∧ P.mesh.assemble F = 0

theorem p1_one (L : Line Ω) : L.p1 (fun _ => 1) = Fld.const 1 := by
  unfold Line.p1 Fld.const
  congr 1
  · funext p; ring
  · funext p i; simp
  · funext q; simp

/-- **C42.** In cartesian and cylindrical coordinates the solution of the discrete problem on a line conserves hydrogen
exactly, whatever the mesh and the quadrature: the inventory changes by `dt` times what is supplied. -/
theorem C42_line (L : Line Ω) (x : ℕ → ℝ) (type : Coord) (htype : type = .cartesian ∨ type = .cylindrical)
    (P : Problem Ω Bool 1) (hmesh : P.mesh = lineMesh L type x) (bcs : List (MobBC Bool))
    (mat : Ω → Mat) (matS : Bool → Mat) (h : ℝ) (hh : h ≠ 0) (hdt : P.dt = some h)
    (hcov : Covers P.mesh P.mats mat) (hsol : Solubility P mat matS)
    (hr : type = .cylindrical → ∀ p, (L.p1 x).val p ≠ 0) (hsk : ∀ b vs, MobBC.sk b vs ∉ bcs)
    (hs : SolvedOnLine L P bcs) :
    stock P bcs mat matS (weight P.mesh)
      = stockPrev P bcs mat matS (weight P.mesh) + h * supply P bcs mat matS (weight P.mesh) := by
  have hw : ∃ v : ℕ → ℝ, weight P.mesh = L.p1 v := by
    rcases htype with rfl | rfl
    · exact ⟨fun _ => 1, by rw [hmesh, p1_one]; rfl⟩
    · exact ⟨x, by rw [hmesh]; rfl⟩
  obtain ⟨v, hv⟩ := hw
  obtain ⟨F, hF, hz⟩ := hs v (P.traps.map fun _ => v) (by simp)
  refine (C42_balance P bcs mat matS h F hh hdt hcov hsol ?_ ?_ (.inr hsk) ?_).1 hz
  · intro hc p
    rw [hmesh] at hc ⊢
    rcases htype with rfl | rfl
    · simp [lineMesh] at hc
    · exact hr rfl p
  · intro b vs hb
    exact absurd hb (hsk b vs)
  · rw [hv, ← hF]
    simp [List.map_map, Function.comp_def]

end

/-! ## Spherical coordinates -/

namespace Sphere

/-- One cell `[1, 2]` with Simpson's rule. -/
noncomputable def L : Line (Fin 3) where
  N := 1
  h _ := 1
  cell _ := 0
  lam p := p.val / 2
  w p := if p = 1 then 4 / 6 else 1 / 6
  vm _ := 1
  left := 1
  right := 2
  vmL := 1
  vmR := 1
  N_pos := by decide
  h_pos := by intro i _; norm_num
  cell_lt := by intro p; simp
  exact := by
    intro i hi
    have : i = 0 := by omega
    subst this
    simp [Fin.sum_univ_three]
    norm_num
  ends := by decide

def mat : Mat := { uid := 0, ids := [1], D_0 := 1, E_D := 0 }

/-- nodal values: `a` at `r = 1`, `b` at `r = 2` -/
def nodes (a b : ℝ) (i : ℕ) : ℝ := if i = 0 then a else b

/-- a hollow sphere without sources, traps or fluxes, from `a, b` to `8, 9` in a step of length 1 -/
noncomputable def P (type : Coord) (a b : ℝ) : Problem (Fin 3) Bool 1 where
  mesh := lineMesh L type (nodes 1 2)
  mats := [mat]
  mv := { theta := false, sol := L.p1 (nodes 8 9), prev := L.p1 (nodes a b) }
  T := ⟨Fld.const 300, Fld.const 300⟩
  dt := some 1
  soret := false
  sources := []
  traps := []

theorem covers (type : Coord) (a b : ℝ) : Covers (P type a b).mesh (P type a b).mats fun _ => mat where
  mem := by intro p; simp [P]
  has := by intro p; simp [P, lineMesh, Line.mesh, L, mat]
  nodup := by simp [P, mat]

theorem solved : SolvedOnLine L (P .spherical (1 / 9) (127 / 9)) [] := by
  intro v vt hvt
  refine ⟨_, rfl, ?_⟩
  simp [P, lineMesh, Line.mesh, L, mat, mobileForm, Mesh.assemble, Mesh.integrate, Form.neg,
    diffusionForm, subdomainForm, Fld.const, dot, sourceForm, fluxesForm, Mobile.conc, trapsForm,
    Line.p1, nodes, Fin.sum_univ_three, Fld.div_val, Fld.div_grad]
  ring_nf

/-- a cylinder, from `19/18, 131/9` to `8, 9`: the case for `C42_line` -/
theorem solved_cylinder : SolvedOnLine L (P .cylindrical (19 / 18) (131 / 9)) [] := by
  intro v vt hvt
  refine ⟨_, rfl, ?_⟩
  simp [P, lineMesh, Line.mesh, L, mat, mobileForm, Mesh.assemble, Mesh.integrate, Form.neg,
    diffusionForm, subdomainForm, Fld.const, dot, sourceForm, fluxesForm, Mobile.conc, trapsForm,
    Line.p1, nodes, Fin.sum_univ_three, Fld.div_val, Fld.div_grad]
  ring_nf

example : stock (P .cylindrical (19 / 18) (131 / 9)) [] (fun _ => mat) (fun _ => mat) (L.p1 (nodes 1 2))
    = stockPrev (P .cylindrical (19 / 18) (131 / 9)) [] (fun _ => mat) (fun _ => mat) (L.p1 (nodes 1 2)) := by
  have h := C42_line L (nodes 1 2) .cylindrical (.inr rfl) (P .cylindrical (19 / 18) (131 / 9)) rfl [] (fun _ => mat)
    (fun _ => mat) 1 one_ne_zero rfl (covers _ _ _) ⟨by simp [P], by simp [P], by simp [P], by simp [P]⟩
    (by intro _ p; fin_cases p <;> norm_num [L, Line.p1, nodes]) (by simp) solved_cylinder
  have hw : weight (lineMesh L .cylindrical (nodes 1 2)) = L.p1 (nodes 1 2) := rfl
  simpa [supply, P, hw] using h

theorem inventories :
    stock (P .spherical (1 / 9) (127 / 9)) [] (fun _ => mat) (fun _ => mat) (weight (P .spherical (1 / 9) (127 / 9)).mesh) = 241 / 12 ∧
    stockPrev (P .spherical (1 / 9) (127 / 9)) [] (fun _ => mat) (fun _ => mat) (weight (P .spherical (1 / 9) (127 / 9)).mesh) = 241 / 12 + 1 / 108 ∧
    supply (P .spherical (1 / 9) (127 / 9)) [] (fun _ => mat) (fun _ => mat) (weight (P .spherical (1 / 9) (127 / 9)).mesh) = 0 := by
  have hw : weight (P .spherical (1 / 9) (127 / 9)).mesh = L.p1 (nodes 1 2) * L.p1 (nodes 1 2) := rfl
  rw [hw]
  refine ⟨?_, ?_, ?_⟩ <;>
    simp [stock, stockPrev, supply, P, lineMesh, Line.mesh, L, volume, Problem.c, Problem.cPrev, physConc, Line.p1, nodes,
      Fin.sum_univ_three, Fld.mul_val] <;>
    norm_num

end Sphere

/-- **C42, defect in spherical coordinates.** There `r²` is not piecewise affine, and the solution of the discrete problem
need not conserve hydrogen: a hollow sphere without sources, traps and fluxes loses 1/108 in a step, although the residual
vanishes for all test functions. -/
theorem C42_spherical_defect : ∃ (L : Line (Fin 3)) (x : ℕ → ℝ) (P : Problem (Fin 3) Bool 1) (mat : Mat),
    P.mesh = lineMesh L .spherical x ∧ Covers P.mesh P.mats (fun _ => mat) ∧ P.mv.theta = false ∧ P.dt = some 1 ∧
    P.sources = [] ∧ P.traps = [] ∧ (∀ p, (L.p1 x).val p ≠ 0) ∧ SolvedOnLine L P [] ∧
    stock P [] (fun _ => mat) (fun _ => mat) (weight P.mesh)
      = stockPrev P [] (fun _ => mat) (fun _ => mat) (weight P.mesh) - 1 / 108 := by
  refine ⟨Sphere.L, Sphere.nodes 1 2, Sphere.P .spherical (1 / 9) (127 / 9), Sphere.mat, rfl, Sphere.covers _ _ _, rfl, rfl, rfl, rfl, ?_,
    Sphere.solved, ?_⟩
  · intro p
    fin_cases p <;> norm_num [Sphere.L, Line.p1, Sphere.nodes]
  · rw [Sphere.inventories.1, Sphere.inventories.2.1]
    ring

end Festim.Props
