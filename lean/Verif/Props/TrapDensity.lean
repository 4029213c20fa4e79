import Verif.Model.TrapDensity
import Verif.Props.Traps

/-! # Export of the density of a trap (C86) -/

open scoped BigOperators

namespace Festim.Props

open Festim.Weak

section
variable {Ω Γ : Type} [Fintype Ω] [Fintype Γ] {d : ℕ}

/-- The problem solved to export the density of a trap: for all test functions. -/
def DensityWritten (m : Mesh Ω Γ d) (trap : Trap Ω Γ d) (u : Ω → ℝ) : Prop :=
  ∀ v, ∃ F, densityForm trap u v = .ok F ∧ m.assemble F = 0

/-- The density which the trap has in the equations at `p`: that of the material which is there, nothing outside. -/
def TrueDensity (m : Mesh Ω Γ d) (trap : Trap Ω Γ d) (p : Ω) (x : ℝ) : Prop :=
  (∃ j a k Ek ν Ep n, trap.materials[j]? = some a ∧ m.vm p ∈ a.ids ∧
    RatesAt trap j k Ek ν Ep n ∧ x = n p) ∨
  ((∀ a ∈ trap.materials, m.vm p ∉ a.ids) ∧ x = 0)

theorem density_eq (m : Mesh Ω Γ d) (trap : Trap Ω Γ d) (u v : Ω → ℝ) (F : Form Ω Γ)
    (h : densityForm trap u v = .ok F) :
    m.assemble F = volume m (fun p => u p * v p)
      - (trap.materials.map fun a => volumeIn m a.ids fun p =>
          (trap.density.headD fun _ => 0) p * v p).sum := by
  unfold densityForm at h
  cases hm : trap.materials with
  | nil =>
    rw [hm] at h
    simp only [Except.ok.injEq] at h
    subst h
    simp [integrate_dx]
  | cons a l =>
    rw [hm] at h
    cases hd : trap.density with
    | nil => rw [hd] at h; simp at h
    | cons n ns =>
      rw [hd] at h
      simp only [Except.ok.injEq] at h
      subst h
      rw [assemble_cons, integrate_dx, assemble_map, sub_eq_add_neg]
      congr 1
      rw [← neg_one_mul, ← List.sum_map_mul_left]
      congr 1
      apply List.map_congr_left
      intro b _
      rw [integrate_dxOn]
      simp only [volumeIn, Finset.mul_sum, List.headD_cons]
      apply Finset.sum_congr rfl
      intro x _
      ring

/-- **C86 (a).** The total amount of the exported field is that of the first density over the materials of the trap. -/
theorem C86_total (m : Mesh Ω Γ d) (trap : Trap Ω Γ d) (u : Ω → ℝ) (h : DensityWritten m trap u) :
    volume m u = (trap.materials.map fun a => volumeIn m a.ids (trap.density.headD fun _ => 0)).sum := by
  obtain ⟨F, hF, hz⟩ := h fun _ => 1
  have e := density_eq m trap u (fun _ => 1) F hF
  rw [hz] at e
  simp only [mul_one] at e
  linarith

/-- **C86 (b).** Where the equation holds pointwise, the exported field is the first density in the materials of the trap,
and zero elsewhere. -/
theorem C86_pointwise (m : Mesh Ω Γ d) (trap : Trap Ω Γ d) (u : Ω → ℝ) (h : DensityWritten m trap u)
    (hnd : (trap.materials.flatMap (·.ids)).Nodup) (p : Ω) (hw : m.w p ≠ 0) :
    u p = if ∃ a ∈ trap.materials, m.vm p ∈ a.ids then (trap.density.headD fun _ => 0) p else 0 := by
  obtain ⟨F, hF, hz⟩ := h (ind p : Fld Ω Γ d).val
  have e := density_eq m trap u _ F hF
  rw [hz, volume_ind] at e
  simp only [volumeIn_ind] at e
  set n := (trap.density.headD fun _ => 0) p with hn
  have hsum : ∀ ms : List Mat, (ms.flatMap (·.ids)).Nodup →
      (ms.map fun b => if m.vm p ∈ b.ids then m.w p * n else 0).sum
        = if ∃ a ∈ ms, m.vm p ∈ a.ids then m.w p * n else 0 := by
    intro ms
    induction ms with
    | nil => simp
    | cons b ms ih =>
      intro hnd
      rw [List.flatMap_cons, List.nodup_append] at hnd
      obtain ⟨_, hnd2, hdis⟩ := hnd
      rw [List.map_cons, List.sum_cons, ih hnd2]
      by_cases hb : m.vm p ∈ b.ids
      · have hno : ¬ ∃ a ∈ ms, m.vm p ∈ a.ids := by
          rintro ⟨c, hc, hcin⟩
          exact hdis _ hb _ (List.mem_flatMap.2 ⟨c, hc, hcin⟩) rfl
        rw [if_pos hb, if_neg hno, if_pos ⟨b, by simp, hb⟩, add_zero]
      · rw [if_neg hb, zero_add]
        congr 1
        simp [hb]
  rw [hsum _ hnd] at e
  by_cases hin : ∃ a ∈ trap.materials, m.vm p ∈ a.ids
  · rw [if_pos hin] at e ⊢
    exact mul_left_cancel₀ hw (by linarith)
  · rw [if_neg hin] at e ⊢
    exact (mul_eq_zero.1 (by linarith : m.w p * u p = 0)).resolve_left hw

/-- **C86 (c).** Hence for a trap with a single density the exported field is the density in the equations. -/
theorem C86_single (m : Mesh Ω Γ d) (trap : Trap Ω Γ d) (u : Ω → ℝ) (h : DensityWritten m trap u)
    (hnd : (trap.materials.flatMap (·.ids)).Nodup) (p : Ω) (hw : m.w p ≠ 0)
    (k Ek ν Ep : ℝ) (hk : trap.k_0 = .num k) (hEk : trap.E_k = .num Ek) (hν : trap.p_0 = .num ν)
    (hEp : trap.E_p = .num Ep) (n : Ω → ℝ) (hn : trap.density = [n]) : TrueDensity m trap p (u p) := by
  rw [C86_pointwise m trap u h hnd p hw]
  by_cases hin : ∃ a ∈ trap.materials, m.vm p ∈ a.ids
  · rw [if_pos hin]
    obtain ⟨a, ha, hv⟩ := hin
    obtain ⟨j, hj⟩ := List.getElem?_of_mem ha
    left
    refine ⟨j, a, k, Ek, ν, Ep, n, hj, hv, Or.inr ⟨hk, hEk, hν, hEp, by rw [hn]; rfl⟩, ?_⟩
    rw [hn]
    rfl
  · rw [if_neg hin]
    right
    push Not at hin
    exact ⟨hin, rfl⟩

/-- **C86 (d).** For a trap with one density per material, the exported field in the material number `j` is the density of
the trap only where it equals the density in the first material. -/
theorem C86_list (m : Mesh Ω Γ d) (trap : Trap Ω Γ d) (u : Ω → ℝ) (h : DensityWritten m trap u)
    (hnd : (trap.materials.flatMap (·.ids)).Nodup) (p : Ω) (hw : m.w p ≠ 0)
    (lk : List ℝ) (hk : trap.k_0 = .list lk) (j : ℕ) (a : Mat) (hj : trap.materials[j]? = some a)
    (ha : m.vm p ∈ a.ids) (k Ek ν Ep : ℝ) (n n0 : Ω → ℝ) (hrates : RatesAt trap j k Ek ν Ep n)
    (h0 : trap.density.head? = some n0) : TrueDensity m trap p (u p) ↔ n p = n0 p := by
  have hu : u p = n0 p := by
    rw [C86_pointwise m trap u h hnd p hw, if_pos ⟨a, List.mem_of_getElem? hj, ha⟩]
    cases hd : trap.density with
    | nil => rw [hd] at h0; cases h0
    | cons x xs => rw [hd] at h0; cases h0; rfl
  rw [hu]
  have hjn : trap.density[j]? = some n := by
    rcases hrates with ⟨_, _, _, _, _, _, _, _, _, _, _, _, hn⟩ | ⟨hx, _⟩
    · exact hn
    · rw [hk] at hx; cases hx
  constructor
  · rintro (⟨j', a', k', Ek', ν', Ep', n', hj', ha', hr', hx⟩ | ⟨hno, _⟩)
    · have hjj : j' = j := by
        have hlt : j < trap.materials.length := (List.getElem?_eq_some_iff.1 hj).1
        have hlt' : j' < trap.materials.length := (List.getElem?_eq_some_iff.1 hj').1
        have e1 := (List.getElem?_eq_some_iff.1 hj).2
        have e2 := (List.getElem?_eq_some_iff.1 hj').2
        have hp := (List.nodup_flatMap.1 hnd).2
        rw [List.pairwise_iff_getElem] at hp
        by_contra hne
        rcases Nat.lt_or_gt_of_ne hne with hlt2 | hlt2
        · have := hp j' j hlt' hlt hlt2
          simp only [Function.onFun, e1, e2] at this
          exact this ha' ha
        · have := hp j j' hlt hlt' hlt2
          simp only [Function.onFun, e1, e2] at this
          exact this ha ha'
      subst hjj
      rcases hr' with ⟨_, _, _, _, _, _, _, _, _, _, _, _, hn'⟩ | ⟨hx', _⟩
      · rw [hjn] at hn'
        cases hn'
        exact hx.symm
      · rw [hk] at hx'; cases hx'
    · exact absurd ha (hno a (List.mem_of_getElem? hj))
  · intro e
    left
    exact ⟨j, a, k, Ek, ν, Ep, n, hj, ha, hrates, e.symm⟩

end

/-! ## Examples -/

namespace Case

open Festim.Weak

/-- A trap in two materials, with densities 2 and 7. -/
noncomputable def twoDensities : Trap (Fin 2) (Fin 2) 1 where
  k_0 := .list [1, 1]
  E_k := .list [0, 0]
  p_0 := .list [4, 4]
  E_p := .list [0, 0]
  density := [fun _ => 2, fun _ => 7]
  materials := [mat1, mat2]
  sol := Fld.const 0
  prev := Fld.const 0

/-- C86 (d): the density 2 is written in both materials. -/
example : DensityWritten (meshOf .cartesian) twoDensities ![2, 2] := by
  intro v
  refine ⟨_, rfl, ?_⟩
  simp [twoDensities, meshOf, mat1, mat2, Mesh.assemble, Mesh.integrate]
  ring

example : ¬ TrueDensity (meshOf .cartesian) twoDensities 1 2 := by
  have h : DensityWritten (meshOf .cartesian) twoDensities ![2, 2] := by
    intro v
    refine ⟨_, rfl, ?_⟩
    simp [twoDensities, meshOf, mat1, mat2, Mesh.assemble, Mesh.integrate]
    ring
  have := C86_list (meshOf .cartesian) twoDensities ![2, 2] h (by simp [twoDensities, mat1, mat2]) 1
    (by simp [meshOf]) [1, 1] rfl 1 mat2 rfl (by simp [meshOf, mat2]) 1 0 4 0 (fun _ => 7)
    (fun _ => 2) (Or.inl ⟨_, _, _, _, rfl, rfl, rfl, rfl, rfl, rfl, rfl, rfl, rfl⟩) rfl
  intro hc
  have h72 := this.1 (by simpa using hc)
  norm_num at h72

/-- C86 (c): a single density, in the first material only. -/
example : DensityWritten (meshOf .cartesian) { twoDensities with
    k_0 := .num 1, E_k := .num 0, p_0 := .num 4, E_p := .num 0, density := [fun _ => 2],
    materials := [mat1] } ![2, 0] := by
  intro v
  refine ⟨_, rfl, ?_⟩
  simp [meshOf, mat1, Mesh.assemble, Mesh.integrate]

end Case

end Festim.Props
