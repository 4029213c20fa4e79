import Verif.Props.Traps
import Verif.Proofs.Kinetics

/-!
# C115: kinetics of traps and of trap densities compared with the exact solutions

At constant temperature, mobile concentration and parameters the documented equations are ordinary
differential equations at each point.  The steps of the simulation are compared with their exact
solutions, over any number of steps of any lengths.
-/

open scoped BigOperators

set_option linter.unusedSectionVars false
set_option linter.unusedSimpArgs false

namespace Festim.Props

open Festim.Weak Festim.Spec

section
variable {Ω Γ : Type} [Fintype Ω] [Fintype Γ] {d : ℕ}

/-- **C115.** A trap at constant mobile concentration `c`, temperature `θ` and density: after any
number of steps the trapped concentration is compared with the exact solution `Y` of
`dY/dt = k c (n - Y) - p Y` with the same initial value. -/
theorem C115_trap (m : Mesh Ω Γ d) (mats : List Mat) (mv : ℕ → Mobile Ω Γ d) (T : ℕ → Temp Ω Γ d)
    (h : ℕ → ℝ) (trap : ℕ → Trap Ω Γ d) (N : ℕ)
    (hsolved : ∀ i < N, TrapSolved m mats (mv i) (T i) (some (h i)) (trap i))
    (hnd : ∀ i < N, ((trap i).materials.flatMap (·.ids)).Nodup)
    (hsrc : ∀ i < N, (trap i).sources = []) (hh : ∀ i < N, 0 < h i)
    (hstep : ∀ i, i + 1 < N → (trap (i + 1)).prev = (trap i).sol)
    (p : Ω) (hw : m.w p ≠ 0) (j : ℕ) (a : Mat) (hj : ∀ i < N, (trap i).materials[j]? = some a)
    (ha : m.vm p ∈ a.ids) (k Ek ν Ep : ℝ) (n : Ω → ℝ)
    (hrates : ∀ i < N, RatesAt (trap i) j k Ek ν Ep n) (hk : 0 ≤ k) (hν : 0 < ν)
    (c θ : ℝ) (hc : 0 ≤ c) (hT : ∀ i < N, (T i).T.val p = θ)
    (hmob : ∀ i < N, physConc (mv i).theta a ((T i).T.val p) ((mv i).sol.val p) = c)
    (Y : ℝ → ℝ) (hY : Evolves (fun y => arr k Ek θ * c * (n p - y) - arr ν Ep θ * y) Y)
    (h0 : Y 0 = (trap 0).prev.val p) (i : ℕ) (hi : i < N) :
    TracksExact (arr k Ek θ * c * n p / (arr k Ek θ * c + arr ν Ep θ)) (arr k Ek θ * c + arr ν Ep θ) h
      (i + 1) ((trap 0).prev.val p) ((trap i).sol.val p) (Y (elapsed h (i + 1))) := by
  have h1 : 0 ≤ arr k Ek θ := by unfold arr; positivity
  have h2 : 0 < arr ν Ep θ := by unfold arr; positivity
  have hr : 0 < arr k Ek θ * c + arr ν Ep θ := by positivity
  set y : ℕ → ℝ := fun i => match i with
    | 0 => (trap 0).prev.val p
    | i + 1 => (trap i).sol.val p with hy
  have hyp : ∀ l < N, y l = (trap l).prev.val p := by
    intro l hl
    cases l with
    | zero => rfl
    | succ l => rw [hstep l hl]
  have e : ∀ l < i + 1, (y (l + 1) - y l) / h l
      = (arr k Ek θ * c + arr ν Ep θ)
        * (arr k Ek θ * c * n p / (arr k Ek θ * c + arr ν Ep θ) - y (l + 1)) := by
    intro l hl
    have hl' : l < N := by omega
    have q := C45_equation m mats (mv l) (T l) (h l) (trap l) (hsolved l hl') (hnd l hl') p hw j a
      (hj l hl') ha k Ek ν Ep n (hrates l hl')
    rw [show trapSupply m (trap l) p = 0 by simp [trapSupply, hsrc l hl'], add_zero, hmob l hl',
      hT l hl', ← hyp l hl'] at q
    change ((trap l).sol.val p - y l) / h l = _ * (_ - (trap l).sol.val p)
    rw [q]
    field_simp
    ring
  refine relax_tracks (y := y) hr (i + 1) (fun l hl => hh l (by omega)) e (fun z => ?_) hY h0
  field_simp
  ring

/-- **C115.** The density of an extrinsic trap with constant data: after any number of steps it is
compared with the exact solution of the documented equation. -/
theorem C115_extrinsic (m : Mesh Ω Γ d) (e : Extrinsic Ω) (h : ℕ → ℝ) (n : ℕ → Ω → ℝ) (N : ℕ)
    (hsolved : ∀ i < N, ∀ v, m.assemble (e.form (h i) (n (i + 1)) (n i) v) = 0)
    (p : Ω) (hw : m.w p ≠ 0) (hh : ∀ i < N, 0 < h i) (hphi : 0 < e.phi_0 p)
    (hna : 0 < e.n_amax p) (hnb : 0 < e.n_bmax p) (ha : 0 < e.eta_a p * e.f_a p)
    (hb : 0 ≤ e.eta_b p * e.f_b p) (Y : ℝ → ℝ)
    (hY : Evolves (fun y => e.phi_0 p * ((1 - y / e.n_amax p) * e.eta_a p * e.f_a p
      + (1 - y / e.n_bmax p) * e.eta_b p * e.f_b p)) Y)
    (h0 : Y 0 = n 0 p) (i : ℕ) (hi : i ≤ N) :
    TracksExact ((e.eta_a p * e.f_a p + e.eta_b p * e.f_b p)
        / (e.eta_a p * e.f_a p / e.n_amax p + e.eta_b p * e.f_b p / e.n_bmax p))
      (e.phi_0 p * (e.eta_a p * e.f_a p / e.n_amax p + e.eta_b p * e.f_b p / e.n_bmax p)) h i
      (n 0 p) (n i p) (Y (elapsed h i)) := by
  have hs : 0 < e.eta_a p * e.f_a p / e.n_amax p + e.eta_b p * e.f_b p / e.n_bmax p := by positivity
  have key : ∀ z, e.phi_0 p * ((1 - z / e.n_amax p) * e.eta_a p * e.f_a p
      + (1 - z / e.n_bmax p) * e.eta_b p * e.f_b p)
      = e.phi_0 p * (e.eta_a p * e.f_a p / e.n_amax p + e.eta_b p * e.f_b p / e.n_bmax p)
        * ((e.eta_a p * e.f_a p + e.eta_b p * e.f_b p)
          / (e.eta_a p * e.f_a p / e.n_amax p + e.eta_b p * e.f_b p / e.n_bmax p) - z) := by
    intro z
    have hc := mul_div_cancel₀ (e.eta_a p * e.f_a p + e.eta_b p * e.f_b p) hs.ne'
    linear_combination -e.phi_0 p * hc
  refine relax_tracks (y := fun l => n l p) (by positivity) i (fun l hl => hh l (by omega))
    (fun l hl => ?_) key hY h0
  rw [← key]
  exact C46_equation m e (h l) (n (l + 1)) (n l) (hsolved l (by omega)) p hw

/-- **C115.** The density of a neutron-induced trap with constant data and temperature `θ`. -/
theorem C115_neutron (m : Mesh Ω Γ d) (e : Neutron Ω) (T : ℕ → Ω → ℝ) (h : ℕ → ℝ) (n : ℕ → Ω → ℝ)
    (N : ℕ) (hsolved : ∀ i < N, ∀ v, m.assemble (e.form (T i) (h i) (n (i + 1)) (n i) v) = 0)
    (p : Ω) (hw : m.w p ≠ 0) (hh : ∀ i < N, 0 < h i)
    (θ : ℝ) (hT : ∀ i < N, T i p = θ)
    (hr : 0 < e.phi p * e.K p / e.n_max p + arr (e.A_0 p) (e.E_A p) θ) (Y : ℝ → ℝ)
    (hY : Evolves (fun y => e.phi p * e.K p * (1 - y / e.n_max p) - arr (e.A_0 p) (e.E_A p) θ * y) Y)
    (h0 : Y 0 = n 0 p) (i : ℕ) (hi : i ≤ N) :
    TracksExact (e.phi p * e.K p / (e.phi p * e.K p / e.n_max p + arr (e.A_0 p) (e.E_A p) θ))
      (e.phi p * e.K p / e.n_max p + arr (e.A_0 p) (e.E_A p) θ) h i
      (n 0 p) (n i p) (Y (elapsed h i)) := by
  have key : ∀ z, e.phi p * e.K p * (1 - z / e.n_max p) - arr (e.A_0 p) (e.E_A p) θ * z
      = (e.phi p * e.K p / e.n_max p + arr (e.A_0 p) (e.E_A p) θ)
        * (e.phi p * e.K p / (e.phi p * e.K p / e.n_max p + arr (e.A_0 p) (e.E_A p) θ) - z) := by
    intro z
    have hc := mul_div_cancel₀ (e.phi p * e.K p) hr.ne'
    linear_combination -hc
  refine relax_tracks (y := fun l => n l p) hr i (fun l hl => hh l (by omega))
    (fun l hl => ?_) key hY h0
  rw [← key]
  have q := C47_equation m e (T l) (h l) (n (l + 1)) (n l) (hsolved l (by omega)) p hw
  rw [hT l (by omega)] at q
  simp only [arr, div_div]
  exact q

/-- **C115.** What `TracksExact` says about refinement: with stepsizes at most `H` the error at time
`t` is at most the initial distance to the equilibrium times `rate² H t`. -/
theorem C115_first_order {eq rate H : ℝ} {h : ℕ → ℝ} {i : ℕ} {y0 y Y : ℝ}
    (ht : TracksExact eq rate h i y0 y Y) (hh : ∀ j < i, 0 < h j) (hH : ∀ j < i, h j ≤ H) :
    |y - Y| ≤ |y0 - eq| * rate ^ 2 * (H * elapsed h i) := by
  refine ht.error.trans (mul_le_mul_of_nonneg_left ?_ (by positivity))
  rw [elapsed, Finset.mul_sum]
  refine Finset.sum_le_sum fun j hj => ?_
  have h1 := hh j (Finset.mem_range.1 hj)
  rw [pow_two]
  exact mul_le_mul_of_nonneg_right (hH j (Finset.mem_range.1 hj)) h1.le

end

namespace Case

/-! Concrete runs, with all stepsizes 1. -/

/-- Trapped concentrations with trapping rate 5, detrapping rate 4 and density 2. -/
noncomputable def filling : ℕ → ℝ
  | 0 => 0
  | i + 1 => (filling i + 10) / 10

noncomputable def fillingTrap (i : ℕ) : Trap (Fin 2) (Fin 2) 1 :=
  trapIn1 ![filling (i + 1), 3] ![filling i, 3]

theorem fillingTrap_solved (i : ℕ) : TrapSolved (meshOf .cartesian) [mat1, mat2] mobile5 temp300
    (some 1) (fillingTrap i) := by
  intro v
  refine ⟨_, rfl, ?_⟩
  simp [fillingTrap, filling, trapIn1, meshOf, mat1, Mesh.assemble, Mesh.integrate, Mobile.conc,
    mobile5, temp300, trapSourceForm, Fld.const]
  ring

theorem exp_evolves (eq rate y0 : ℝ) (rhs : ℝ → ℝ) (hr : ∀ y, rhs y = rate * (eq - y)) :
    Evolves rhs fun t => eq + (y0 - eq) * Real.exp (-(rate * t)) := by
  intro t _
  have h1 := ((((hasDerivAt_id t).const_mul rate).neg.exp).const_mul (y0 - eq)).const_add eq
  refine (h1.congr_deriv ?_).hasDerivWithinAt
  rw [hr]
  simp
  ring

/-- C115: the exact solution `10/9 (1 - exp (-9 t))` and the computed values 0, 1, 11/10, ... -/
example (N i : ℕ) (hi : i < N) :
    TracksExact (10 / 9) 9 (fun _ => 1) (i + 1) 0 (filling (i + 1))
      (10 / 9 + (0 - 10 / 9) * Real.exp (-(9 * elapsed (fun _ => 1) (i + 1)))) := by
  have := C115_trap (meshOf .cartesian) [mat1, mat2] (fun _ => mobile5) (fun _ => temp300)
    (fun _ => 1) fillingTrap N (fun i _ => fillingTrap_solved i)
    (fun i _ => by simp [fillingTrap, trapIn1, mat1]) (fun i _ => rfl) (fun _ _ => one_pos)
    (fun i _ => by simp [fillingTrap, trapIn1]) 0 (by simp [meshOf]) 0 mat1
    (fun i _ => by simp [fillingTrap, trapIn1]) (by simp [meshOf, mat1]) 1 0 4 0 (fun _ => 2)
    (fun i _ => Or.inl ⟨[1], [0], [4], [0], rfl, rfl, rfl, rfl, rfl, rfl, rfl, rfl, rfl⟩)
    (by norm_num) (by norm_num) 5 300 (by norm_num) (fun _ _ => rfl)
    (fun _ _ => by simp [physConc, mobile5, Fld.const])
    (fun t => 10 / 9 + (0 - 10 / 9) * Real.exp (-(9 * t)))
    (exp_evolves _ _ _ _ fun y => by simp [arr]; ring) (by simp [fillingTrap, trapIn1, filling]) i hi
  have hs : arr 1 0 300 * 5 + arr 4 0 300 = (9 : ℝ) := by simp [arr]; norm_num
  have hn : arr 1 0 300 * 5 * 2 = (10 : ℝ) := by simp [arr]; norm_num
  rw [hs, hn] at this
  simpa [fillingTrap, trapIn1, filling] using this

/-- Densities of an extrinsic trap with production 2 and both saturation densities 2. -/
noncomputable def created : ℕ → ℝ
  | 0 => 0
  | i + 1 => (created i + 2) / 2

example (i : ℕ) (v : Fin 2 → ℝ) : (meshOf .cartesian).assemble
    (Extrinsic.form ⟨fun _ => 1, fun _ => 2, fun _ => 2, fun _ => 1, fun _ => 1, fun _ => 1,
      fun _ => 1⟩ 1 (fun _ => created (i + 1)) (fun _ => created i) v) = 0 := by
  simp [Extrinsic.form, Mesh.assemble, Mesh.integrate, created]
  ring

/-- Densities of a neutron-induced trap with production 1, saturation 2 and annealing 1. -/
noncomputable def damaged : ℕ → ℝ
  | 0 => 1
  | i + 1 => (damaged i + 1) / (5 / 2)

example (i : ℕ) (v : Fin 2 → ℝ) : (meshOf .cartesian).assemble
    (Neutron.form ⟨fun _ => 1, fun _ => 1, fun _ => 2, fun _ => 1, fun _ => 0⟩ (fun _ => 300) 1
      (fun _ => damaged (i + 1)) (fun _ => damaged i) v) = 0 := by
  simp [Neutron.form, Mesh.assemble, Mesh.integrate, damaged]
  ring

end Case

end Festim.Props
