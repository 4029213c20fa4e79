import Verif.Props.Traps
import Verif.Props.Bounds

/-!
# C76: the bounds of the trapped concentration and the finite element of the traps

`Settings.traps_element_type` is `"CG"` by default (settings.py:58); the space of the traps has degree 1
(h_transport_problem.py:130-134).
-/

open scoped BigOperators

set_option linter.unusedSectionVars false
set_option linter.unusedSimpArgs false

namespace Festim.Weak

section
variable {Ω Γ : Type} [Fintype Ω] [Fintype Γ] {d : ℕ}

/-- The trap equation tested at the point `p` only. -/
noncomputable def residAt (m : Mesh Ω Γ d) (mats : List Mat) (mv : Mobile Ω Γ d) (T : Temp Ω Γ d)
    (dt : Option ℝ) (trap : Trap Ω Γ d) (p : Ω) : ℝ :=
  match trapForm mats mv T dt trap (ind p) with
  | .ok F => m.assemble F
  | .error _ => 0

theorem volumeIn_lin (m : Mesh Ω Γ d) (ids : List ℕ) (f : Ω → ℝ) (v : Fld Ω Γ d) :
    volumeIn m ids (fun p => f p * v.val p)
      = ∑ p, v.val p * volumeIn m ids fun x => f x * (ind p : Fld Ω Γ d).val x := by
  simp only [volumeIn_ind]
  unfold volumeIn
  rw [Finset.sum_filter]
  refine Finset.sum_congr rfl fun p _ => ?_
  split_ifs <;> ring

theorem volume_lin (m : Mesh Ω Γ d) (f : Ω → ℝ) (v : Fld Ω Γ d) :
    volume m (fun p => f p * v.val p)
      = ∑ p, v.val p * volume m fun x => f x * (ind p : Fld Ω Γ d).val x := by
  simp only [volume_ind]
  unfold volume
  refine Finset.sum_congr rfl fun p _ => ?_
  ring

theorem trapLoop_lin (m : Mesh Ω Γ d) (mv : Mobile Ω Γ d) (T : Temp Ω Γ d) (trap : Trap Ω Γ d)
    (v : Fld Ω Γ d) (ms : List Mat) (i : ℕ) (F : Form Ω Γ) (h : trapLoop mv T trap v i ms = .ok F) :
    ∃ G : Ω → Form Ω Γ, (∀ p, trapLoop mv T trap (ind p) i ms = .ok (G p)) ∧
      m.assemble F = ∑ p, v.val p * m.assemble (G p) := by
  induction ms generalizing i F with
  | nil =>
    cases h
    exact ⟨fun _ => [], fun _ => rfl, by simp [assemble_nil]⟩
  | cons b ms ih =>
    simp only [trapLoop, bind, Except.bind] at h
    cases hp : trap.params i with
    | error e => rw [hp] at h; cases h
    | ok P =>
      rw [hp] at h
      simp only at h
      split_ifs at h with hth
      cases hl : trapLoop mv T trap v (i + 1) ms with
      | error e => rw [hl] at h; cases h
      | ok G =>
        rw [hl] at h
        simp only [Except.ok.injEq] at h
        subst h
        obtain ⟨G', hG', e⟩ := ih (i + 1) G hl
        refine ⟨_, fun p => by
          simp only [trapLoop, bind, Except.bind, hp, hth, if_false, hG' p]; rfl, ?_⟩
        simp only [assemble_append, assemble_cons, assemble_nil, integrate_dxOn, e]
        rw [volumeIn_lin, volumeIn_lin, add_zero, ← Finset.sum_add_distrib, ← Finset.sum_add_distrib]
        refine Finset.sum_congr rfl fun p _ => ?_
        ring

theorem trapRest_lin (m : Mesh Ω Γ d) (mats : List Mat) (dt : Option ℝ) (trap : Trap Ω Γ d)
    (v : Fld Ω Γ d) : trapRest m mats dt trap v = ∑ p, v.val p * trapRest m mats dt trap (ind p) := by
  have hl : ∀ {α : Type} (l : List α) (ids : α → List ℕ) (f : α → Ω → ℝ),
      (l.map fun a => volumeIn m (ids a) fun p => f a p * v.val p).sum
        = ∑ p, v.val p * (l.map fun a => volumeIn m (ids a) fun x =>
            f a x * (ind p : Fld Ω Γ d).val x).sum := by
    intro α l ids f
    induction l with
    | nil => simp
    | cons a l ih =>
      simp only [List.map_cons, List.sum_cons, ih]
      rw [volumeIn_lin, ← Finset.sum_add_distrib]
      refine Finset.sum_congr rfl fun p _ => ?_
      ring
  unfold trapRest
  simp only [mul_sub, Finset.sum_sub_distrib]
  rw [hl trap.sources (·.volumes) fun s p => s.at trap.sol.val p]
  congr 1
  cases dt with
  | some h => exact volume_lin m _ v
  | none => exact hl (mats.filter fun mat => mat.uid ∉ trap.materials.map (·.uid)) (·.ids) fun _ p => trap.sol.val p

theorem trapForm_lin (m : Mesh Ω Γ d) (mats : List Mat) (mv : Mobile Ω Γ d) (T : Temp Ω Γ d)
    (dt : Option ℝ) (trap : Trap Ω Γ d) (v : Fld Ω Γ d) (F : Form Ω Γ)
    (h : trapForm mats mv T dt trap v = .ok F) :
    (∀ p, ∃ F, trapForm mats mv T dt trap (ind p) = .ok F) ∧
    m.assemble F = ∑ p, v.val p * residAt m mats mv T dt trap p := by
  obtain ⟨K, hK, e⟩ := trapForm_ok m mats mv T dt trap v F h
  obtain ⟨G, hG, e'⟩ := trapLoop_lin m mv T trap v _ _ K hK
  have hok : ∀ p, ∃ F, trapForm mats mv T dt trap (ind p) = .ok F := by
    intro p
    simp only [trapForm, trappingForm, bind, Except.bind, hG p]
    exact ⟨_, rfl⟩
  refine ⟨hok, ?_⟩
  rw [e, e', trapRest_lin, ← Finset.sum_add_distrib]
  refine Finset.sum_congr rfl fun p _ => ?_
  obtain ⟨F', hF'⟩ := hok p
  obtain ⟨K', hK', e2⟩ := trapForm_ok m mats mv T dt trap (ind p) F' hF'
  rw [hG p] at hK'
  cases hK'
  unfold residAt
  rw [hF']
  simp only
  rw [e2]
  ring

end

end Festim.Weak

namespace Festim.Props

open Festim.Weak

section
variable {Ω Γ : Type} [Fintype Ω] [Fintype Γ] {d : ℕ}

/-- **C76.** If the residual of the equation of a trap is itself (the value of) a test function, the
equation holds at every quadrature point: all of C45 applies.  That is the case of discontinuous elements
when temperature, mobile concentration and density are constant in each cell, and of continuous ones when
they are uniform. -/
theorem C76_pointwise (m : Mesh Ω Γ d) (mats : List Mat) (mv : Mobile Ω Γ d) (T : Temp Ω Γ d)
    (h : ℝ) (trap : Trap Ω Γ d) (hnd : (trap.materials.flatMap (·.ids)).Nodup) (hw : ∀ p, 0 < m.w p)
    (v : Fld Ω Γ d) (F : Form Ω Γ) (hF : trapForm mats mv T (some h) trap v = .ok F)
    (hzero : m.assemble F = 0)
    (hv : ∀ p, ∃ j a k Ek ν Ep n, trap.materials[j]? = some a ∧ m.vm p ∈ a.ids ∧
      RatesAt trap j k Ek ν Ep n ∧
      v.val p = (trap.sol.val p - trap.prev.val p) / h
        - (arr k Ek (T.T.val p) * physConc mv.theta a (T.T.val p) (mv.sol.val p)
            * (n p - trap.sol.val p)
          - arr ν Ep (T.T.val p) * trap.sol.val p + trapSupply m trap p)) :
    (∀ p, v.val p = 0) ∧ TrapSolved m mats mv T (some h) trap := by
  obtain ⟨hok, e⟩ := trapForm_lin m mats mv T (some h) trap v F hF
  have hr : ∀ p, residAt m mats mv T (some h) trap p = m.w p * v.val p := by
    intro p
    obtain ⟨F', hF'⟩ := hok p
    obtain ⟨j, a, k, Ek, ν, Ep, n, hj, ha, hrates, hvp⟩ := hv p
    unfold residAt
    rw [hF']
    simp only
    obtain ⟨K, hK, e⟩ := trapForm_ok m mats mv T (some h) trap (ind p) F' hF'
    obtain ⟨K', hK', _, e'⟩ := trapLoop_at m mv T trap p trap.materials 0 K hK hnd j a hj ha
    rw [zero_add] at hK'
    obtain ⟨h1, h2, h3, h4, h5⟩ := rates_unique (params_rates trap j K' hK') hrates
    rw [e, e']
    simp only [trapRest, volume_ind, trapSupply_eq]
    rw [h1, h2, h3, h4, h5, hvp]
    ring
  have hz : ∀ p, v.val p = 0 := by
    rw [hzero] at e
    simp only [hr] at e
    have hnn : ∀ p ∈ Finset.univ, 0 ≤ v.val p * (m.w p * v.val p) := fun p _ => by
      have := mul_nonneg (hw p).le (mul_self_nonneg (v.val p))
      nlinarith
    intro p
    have := (Finset.sum_eq_zero_iff_of_nonneg hnn).1 e.symm p (Finset.mem_univ p)
    rcases mul_eq_zero.1 this with h | h
    · exact h
    · exact (mul_eq_zero.1 h).resolve_left (hw p).ne'
  refine ⟨hz, fun v' => ?_⟩
  have hex : ∃ F', trapForm mats mv T (some h) trap v' = .ok F' := by
    have hloop : ∀ ms i K, trapLoop mv T trap v i ms = .ok K →
        ∃ K', trapLoop mv T trap v' i ms = .ok K' := by
      intro ms
      induction ms with
      | nil => intro i K _; exact ⟨_, rfl⟩
      | cons b ms ih =>
        intro i K hK
        simp only [trapLoop, bind, Except.bind] at hK ⊢
        cases hp : trap.params i with
        | error e => rw [hp] at hK; cases hK
        | ok P =>
          rw [hp] at hK
          simp only at hK ⊢
          split_ifs at hK ⊢ with hth
          cases hl : trapLoop mv T trap v (i + 1) ms with
          | error e => rw [hl] at hK; cases hK
          | ok G =>
            obtain ⟨G', hG'⟩ := ih (i + 1) G hl
            rw [hG']
            exact ⟨_, rfl⟩
    obtain ⟨K, hK, _⟩ := trapForm_ok m mats mv T (some h) trap v F hF
    obtain ⟨K', hK'⟩ := hloop _ _ _ hK
    simp only [trapForm, trappingForm, bind, Except.bind, hK']
    exact ⟨_, rfl⟩
  obtain ⟨F', hF'⟩ := hex
  refine ⟨F', hF', ?_⟩
  rw [(trapForm_lin m mats mv T (some h) trap v' F' hF').2]
  refine Finset.sum_eq_zero fun p _ => ?_
  rw [hr, hz p]
  ring

end

/-! ### Two cells, continuous elements -/

namespace CGCase

open BoundCase (simpson)

noncomputable def material : Mat := { uid := 0, ids := [1], D_0 := 1, E_D := 0 }

/-- The trap with nodal values `t`, empty at the previous step. -/
noncomputable def trap (h : ℝ) (hh : 0 < h) (k Ek ν Ep n : ℝ) (t : ℕ → ℝ) :
    Trap (Fin 2 × Fin 3) Bool 1 where
  k_0 := .num k
  E_k := .num Ek
  p_0 := .num ν
  E_p := .num Ep
  density := [fun _ => n]
  materials := [material]
  sol := (simpson h hh).p1 t
  prev := Fld.const 0

/-- Mobile hydrogen at the left end only. -/
noncomputable def mv (h : ℝ) (hh : 0 < h) (c : ℝ) : Mobile (Fin 2 × Fin 3) Bool 1 where
  theta := false
  sol := (simpson h hh).p1 fun i => if i = 0 then c else 0
  prev := Fld.const 0

noncomputable def temp (T : ℝ) : Temp (Fin 2 × Fin 3) Bool 1 := ⟨Fld.const T, Fld.const T⟩

/-- The residual for every continuous test function. -/
def Solves (h : ℝ) (hh : 0 < h) (k Ek ν Ep n c T dt : ℝ) (t : ℕ → ℝ) : Prop :=
  ∀ v : ℕ → ℝ, ∃ F, trapForm [material] (mv h hh c) (temp T) (some dt) (trap h hh k Ek ν Ep n t)
    ((simpson h hh).p1 v) = .ok F ∧ ((simpson h hh).mesh (Fld.const 1)).assemble F = 0

theorem resid (h : ℝ) (hh : 0 < h) (k Ek ν Ep n c T dt : ℝ) (t v : ℕ → ℝ) :
    ∃ F, trapForm [material] (mv h hh c) (temp T) (some dt) (trap h hh k Ek ν Ep n t)
      ((simpson h hh).p1 v) = .ok F ∧
    ((simpson h hh).mesh (Fld.const 1)).assemble F
      = v 0 * (h / 12) * ((1 / dt + arr ν Ep T) * (4 * t 0 + 2 * t 1)
          + arr k Ek T * c * (3 * t 0 + t 1) - 4 * (arr k Ek T * c * n))
        + v 1 * (h / 12) * ((1 / dt + arr ν Ep T) * (2 * t 0 + 8 * t 1 + 2 * t 2)
          + arr k Ek T * c * (t 0 + t 1) - 2 * (arr k Ek T * c * n))
        + v 2 * (h / 12) * ((1 / dt + arr ν Ep T) * (2 * t 1 + 4 * t 2)) := by
  refine ⟨_, rfl, ?_⟩
  simp [simpson, Line.mesh, Mesh.assemble, Mesh.integrate, trapSourceForm, trap, mv, material, temp,
    Fld.const, Line.p1, Fintype.sum_prod_type, Fin.sum_univ_three, Fin.sum_univ_two, Mobile.conc, arr]
  ring

end CGCase

open CGCase in
/-- A case of `C76_pointwise`: uniform mobile concentration, hence a uniform residual, which is a continuous
test function. -/
example : TrapSolved ((BoundCase.simpson 1 one_pos).mesh (Fld.const 1)) [material]
    { theta := false, sol := Fld.const 3, prev := Fld.const 0 } (temp 300) (some 1)
    (trap 1 one_pos 1 0 0 0 1 fun _ => 3 / 4) := by
  refine (C76_pointwise _ [material] _ (temp 300) 1 _ (by simp [trap, material]) ?_
    ((BoundCase.simpson 1 one_pos).p1 fun _ => 3 / 4 - (3 * (1 - 3 / 4))) _ rfl ?_ ?_).2
  · intro p
    simp only [Line.mesh, BoundCase.simpson]
    split_ifs <;> norm_num
  · simp [BoundCase.simpson, Line.mesh, Mesh.assemble, Mesh.integrate, trapSourceForm, trap, material, temp,
      Fld.const, Line.p1, Fintype.sum_prod_type, Fin.sum_univ_three, Fin.sum_univ_two, Mobile.conc]
    norm_num
  · intro p
    refine ⟨0, material, 1, 0, 0, 0, fun _ => 1, rfl, by simp [material, Line.mesh, BoundCase.simpson],
      Or.inr ⟨rfl, rfl, rfl, rfl, rfl⟩, ?_⟩
    simp [trap, Line.p1, Fld.const, temp, arr, physConc, trapSupply]
    ring

open CGCase in
/-- **C76.** With the default continuous elements the trapped concentration of a step is negative
somewhere, whatever the size of the cells, the time step, the temperature and the (positive) rates: two
cells, an empty trap and mobile hydrogen at one end.  With `α = 1/dt + p(T)` and `κ = k(T) c`, the
value at the far end is `- κ² n / (24 α² + 21 α κ + 2 κ²)`. -/
theorem C76_continuous_negative (h : ℝ) (hh : 0 < h) (k Ek ν Ep n c T dt : ℝ) (hk : 0 < k) (hν : 0 ≤ ν)
    (hn : 0 < n) (hc : 0 < c) (hdt : 0 < dt) :
    (∃ t, Solves h hh k Ek ν Ep n c T dt t) ∧
    ∀ t, Solves h hh k Ek ν Ep n c T dt t → t 2 < 0 ∧
      t 2 = -((arr k Ek T * c) ^ 2 * n) / (24 * (1 / dt + arr ν Ep T) ^ 2
        + 21 * (1 / dt + arr ν Ep T) * (arr k Ek T * c) + 2 * (arr k Ek T * c) ^ 2) := by
  have hα : 0 < 1 / dt + arr ν Ep T := by
    have : 0 ≤ arr ν Ep T := by unfold arr; positivity
    positivity
  have hκ : 0 < arr k Ek T * c := by unfold arr; positivity
  constructor
  · let α := 1 / dt + arr ν Ep T
    let κ := arr k Ek T * c
    let Δ := 24 * α ^ 2 + 21 * α * κ + 2 * κ ^ 2
    refine ⟨fun i => if i = 0 then 2 * κ * n * (12 * α + κ) / Δ else if i = 1 then 2 * κ ^ 2 * n / Δ
      else -(κ ^ 2 * n) / Δ, fun v => ?_⟩
    obtain ⟨F, hF, e⟩ := resid h hh k Ek ν Ep n c T dt (fun i => if i = 0 then
      2 * κ * n * (12 * α + κ) / Δ else if i = 1 then 2 * κ ^ 2 * n / Δ else -(κ ^ 2 * n) / Δ) v
    refine ⟨F, hF, e.trans ?_⟩
    simp only [if_true, one_ne_zero, if_false, OfNat.ofNat_ne_zero, OfNat.ofNat_ne_one]
    change v 0 * (h / 12) * (α * _ + κ * _ - 4 * (κ * n)) + v 1 * (h / 12) * (α * _ + κ * _ - 2 * (κ * n))
      + v 2 * (h / 12) * (α * _) = 0
    have hα' : 0 < α := hα
    have hκ' : 0 < κ := hκ
    have hΔ : Δ ≠ 0 := by
      have : 0 < Δ := by positivity
      exact this.ne'
    field_simp
    simp only [Δ]
    ring
  · intro t ht
    have key : ∀ j : ℕ, ∃ F, trapForm [material] (mv h hh c) (temp T) (some dt) (trap h hh k Ek ν Ep n t)
        ((BoundCase.simpson h hh).p1 (hat j)) = .ok F ∧
        ((BoundCase.simpson h hh).mesh (Fld.const 1)).assemble F = 0 := fun j => ht (hat j)
    have row : ∀ j : ℕ, hat j 0 * (h / 12) * ((1 / dt + arr ν Ep T) * (4 * t 0 + 2 * t 1)
          + arr k Ek T * c * (3 * t 0 + t 1) - 4 * (arr k Ek T * c * n))
        + hat j 1 * (h / 12) * ((1 / dt + arr ν Ep T) * (2 * t 0 + 8 * t 1 + 2 * t 2)
          + arr k Ek T * c * (t 0 + t 1) - 2 * (arr k Ek T * c * n))
        + hat j 2 * (h / 12) * ((1 / dt + arr ν Ep T) * (2 * t 1 + 4 * t 2)) = 0 := by
      intro j
      obtain ⟨F, hF, h0⟩ := key j
      obtain ⟨F', hF', e⟩ := resid h hh k Ek ν Ep n c T dt t (hat j)
      rw [hF] at hF'
      cases hF'
      rw [← e, h0]
    have h12 : h / 12 ≠ 0 := by positivity
    have r0 := row 0
    have r1 := row 1
    have r2 := row 2
    simp only [hat, if_true, zero_ne_one, one_ne_zero, if_false, OfNat.ofNat_ne_zero,
      OfNat.ofNat_ne_one, OfNat.zero_ne_ofNat, OfNat.one_ne_ofNat, zero_mul, one_mul, zero_add, add_zero]
      at r0 r1 r2
    replace r0 := (mul_eq_zero.1 r0).resolve_left h12
    replace r1 := (mul_eq_zero.1 r1).resolve_left h12
    replace r2 := (mul_eq_zero.1 ((mul_eq_zero.1 r2).resolve_left h12)).resolve_left hα.ne'
    set α := 1 / dt + arr ν Ep T
    set κ := arr k Ek T * c
    have hΔ : 0 < 24 * α ^ 2 + 21 * α * κ + 2 * κ ^ 2 := by positivity
    have e1 : t 1 = -2 * t 2 := by linarith
    have e2 : t 2 = -(κ ^ 2 * n) / (24 * α ^ 2 + 21 * α * κ + 2 * κ ^ 2) := by
      rw [eq_div_iff hΔ.ne']
      rw [e1] at r0 r1
      linear_combination (2 * α + κ) / 2 * r0 - (4 * α + 3 * κ) / 2 * r1
    refine ⟨?_, e2⟩
    rw [e2, div_neg_iff]
    right
    exact ⟨by have : 0 < κ ^ 2 * n := by positivity
              linarith, hΔ⟩

end Festim.Props
