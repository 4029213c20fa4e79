import Verif.Proofs.Traps
import Verif.Props.BalanceCases
import Mathlib.Tactic.Positivity
import Mathlib.Tactic.NormNum
import Mathlib.Tactic.FinCases

/-!
# C44, C45, C46, C47: trapped concentrations and trap densities

`TrapSolved` asks for a zero residual with every test function, that is the equations as they are
with one degree of freedom per quadrature point; C44 only needs one test function.
-/

open scoped BigOperators

set_option linter.unusedSectionVars false
set_option linter.unusedSimpArgs false

namespace Festim.Props

open Festim.Weak

section
variable {Ω Γ : Type} [Fintype Ω] [Fintype Γ] {d : ℕ}

/-- **C44.** With a test function which vanishes in the materials of the trap, the trap equation of a
transient step contains nothing but the time derivative and the sources: no trapping. -/
theorem C44_no_trapping_outside (m : Mesh Ω Γ d) (mats : List Mat) (mv : Mobile Ω Γ d)
    (T : Temp Ω Γ d) (h : ℝ) (trap : Trap Ω Γ d) (v : Fld Ω Γ d) (F : Form Ω Γ)
    (hF : trapForm mats mv T (some h) trap v = .ok F)
    (hv : ∀ a ∈ trap.materials, ∀ p, m.vm p ∈ a.ids → v.val p = 0) :
    m.assemble F = volume m (fun p => (trap.sol.val p - trap.prev.val p) / h * v.val p)
      - (trap.sources.map fun s => volumeIn m s.volumes fun p =>
          srcRate s (trap.sol.val p) p * v.val p).sum := by
  obtain ⟨K, hK, e⟩ := trapForm_ok m mats mv T (some h) trap v F hF
  rw [e, trapLoop_outside m mv T trap v _ _ K hK hv]
  simp only [trapRest, srcAt_eq]
  ring

/-- **C44.** A transient step leaves the trapped concentration unchanged outside the materials of the
trap.  It is enough that the residual vanishes for the change itself, cut off in these materials. -/
theorem C44_transient_unchanged (m : Mesh Ω Γ d) (mats : List Mat) (mv : Mobile Ω Γ d)
    (T : Temp Ω Γ d) (h : ℝ) (trap : Trap Ω Γ d) (v : Fld Ω Γ d) (F : Form Ω Γ) (hh : 0 < h)
    (hw : ∀ p, 0 < m.w p) (hsrc : trap.sources = [])
    (hin : ∀ p, (∃ a ∈ trap.materials, m.vm p ∈ a.ids) → v.val p = 0)
    (hout : ∀ p, (∀ a ∈ trap.materials, m.vm p ∉ a.ids) →
      v.val p = trap.sol.val p - trap.prev.val p)
    (hF : trapForm mats mv T (some h) trap v = .ok F) (hzero : m.assemble F = 0)
    (p : Ω) (hp : ∀ a ∈ trap.materials, m.vm p ∉ a.ids) :
    trap.sol.val p = trap.prev.val p := by
  have e := C44_no_trapping_outside m mats mv T h trap v F hF
    (fun a ha x hx => hin x ⟨a, ha, hx⟩)
  rw [hzero, hsrc] at e
  simp only [List.map_nil, List.sum_nil, sub_zero, volume] at e
  have hnn : ∀ x ∈ Finset.univ, 0 ≤ m.w x * ((trap.sol.val x - trap.prev.val x) / h * v.val x) := by
    intro x _
    by_cases hx : ∃ a ∈ trap.materials, m.vm x ∈ a.ids
    · rw [hin x hx]; simp
    · push Not at hx
      rw [hout x hx]
      have := hw x
      have e : (trap.sol.val x - trap.prev.val x) / h * (trap.sol.val x - trap.prev.val x)
        = (trap.sol.val x - trap.prev.val x) ^ 2 / h := by ring
      rw [e]
      positivity
  have h0 := (Finset.sum_eq_zero_iff_of_nonneg hnn).1 e.symm p (Finset.mem_univ p)
  rw [hout p hp] at h0
  have hwp := (hw p).ne'
  have : (trap.sol.val p - trap.prev.val p) ^ 2 = 0 := by
    have h1 : m.w p * ((trap.sol.val p - trap.prev.val p) / h * (trap.sol.val p - trap.prev.val p))
      = m.w p * (trap.sol.val p - trap.prev.val p) ^ 2 / h := by ring
    rw [h1, div_eq_zero_iff] at h0
    rcases h0 with h0 | h0
    · exact (mul_eq_zero.1 h0).resolve_left hwp
    · exact absurd h0 hh.ne'
  have := pow_eq_zero_iff (two_ne_zero) |>.1 this
  linarith

/-- **C44.** A steady solve forces the trapped concentration to zero outside the materials of the
trap.  Materials are compared as objects (`uid`), so the trap must refer to those of the
simulation. -/
theorem C44_steady_zero (m : Mesh Ω Γ d) (mats : List Mat) (mat : Ω → Mat) (mv : Mobile Ω Γ d)
    (T : Temp Ω Γ d) (trap : Trap Ω Γ d) (v : Fld Ω Γ d) (F : Form Ω Γ)
    (hcov : Covers m mats mat) (hsub : ∀ a ∈ trap.materials, a ∈ mats)
    (huid : ∀ a ∈ mats, ∀ b ∈ mats, a.uid = b.uid → a = b)
    (hw : ∀ p, 0 < m.w p) (hsrc : trap.sources = [])
    (hin : ∀ p, mat p ∈ trap.materials → v.val p = 0)
    (hout : ∀ p, mat p ∉ trap.materials → v.val p = trap.sol.val p)
    (hF : trapForm mats mv T none trap v = .ok F) (hzero : m.assemble F = 0)
    (p : Ω) (hp : mat p ∉ trap.materials) : trap.sol.val p = 0 := by
  obtain ⟨K, hK, e⟩ := trapForm_ok m mats mv T none trap v F hF
  rw [hzero, trapLoop_outside m mv T trap v _ _ K hK] at e
  swap
  · intro a ha x hx
    apply hin
    rwa [same_mat hcov.nodup (hcov.mem x) (hsub a ha) (hcov.has x) hx]
  simp only [trapRest, hsrc, List.map_nil, List.sum_nil, sub_zero, zero_add] at e
  have hnn : ∀ x, 0 ≤ m.w x * (trap.sol.val x * v.val x) := by
    intro x
    have := hw x
    by_cases hx : mat x ∈ trap.materials
    · rw [hin x hx]; simp
    · rw [hout x hx]
      have : 0 ≤ trap.sol.val x * trap.sol.val x := mul_self_nonneg _
      positivity
  have hmem : mat p ∈ mats.filter fun a => a.uid ∉ trap.materials.map (·.uid) := by
    rw [List.mem_filter]
    refine ⟨hcov.mem p, ?_⟩
    simp only [decide_eq_true_eq]
    intro hc
    obtain ⟨b, hb, hu⟩ := List.mem_map.1 hc
    exact hp ((huid b (hsub b hb) (mat p) (hcov.mem p) hu) ▸ hb)
  have hvn : ∀ ids, 0 ≤ volumeIn m ids fun x => trap.sol.val x * v.val x := fun ids =>
    Finset.sum_nonneg fun x _ => hnn x
  have hz : volumeIn m (mat p).ids (fun x => trap.sol.val x * v.val x) = 0 := by
    have hle := List.single_le_sum (l := (mats.filter fun a => a.uid ∉ trap.materials.map (·.uid)).map
      fun a => volumeIn m a.ids fun x => trap.sol.val x * v.val x) (by
        intro y hy
        obtain ⟨a, _, rfl⟩ := List.mem_map.1 hy
        exact hvn a.ids) _ (List.mem_map.2 ⟨mat p, hmem, rfl⟩)
    rw [← e] at hle
    exact le_antisymm hle (hvn _)
  have h0 := (Finset.sum_eq_zero_iff_of_nonneg (fun x _ => hnn x)).1 hz p
    (Finset.mem_filter.2 ⟨Finset.mem_univ p, hcov.has p⟩)
  rw [hout p hp] at h0
  exact mul_self_eq_zero.1 ((mul_eq_zero.1 h0).resolve_left (hw p).ne')

/-- **C45.** Where a trap is defined, its equation is
`(c_t - c_t,n)/dt = k(T) c (n - c_t) - p(T) c_t + sources`, with the rates and density given for this
material. -/
theorem C45_equation (m : Mesh Ω Γ d) (mats : List Mat) (mv : Mobile Ω Γ d) (T : Temp Ω Γ d)
    (h : ℝ) (trap : Trap Ω Γ d) (hsolved : TrapSolved m mats mv T (some h) trap)
    (hnd : (trap.materials.flatMap (·.ids)).Nodup)
    (p : Ω) (hw : m.w p ≠ 0) (j : ℕ) (a : Mat) (hj : trap.materials[j]? = some a)
    (ha : m.vm p ∈ a.ids) (k Ek ν Ep : ℝ) (n : Ω → ℝ) (hrates : RatesAt trap j k Ek ν Ep n) :
    (trap.sol.val p - trap.prev.val p) / h
      = arr k Ek (T.T.val p) * physConc mv.theta a (T.T.val p) (mv.sol.val p)
          * (n p - trap.sol.val p)
        - arr ν Ep (T.T.val p) * trap.sol.val p + trapSupply m trap p := by
  obtain ⟨F, hF, hz⟩ := hsolved (ind p)
  obtain ⟨K, hK, e⟩ := trapForm_ok m mats mv T (some h) trap (ind p) F hF
  obtain ⟨K', hK', _, e'⟩ := trapLoop_at m mv T trap p trap.materials 0 K hK hnd j a hj ha
  rw [zero_add] at hK'
  obtain ⟨h1, h2, h3, h4, h5⟩ := rates_unique (params_rates trap j K' hK') hrates
  rw [hz, e'] at e
  simp only [trapRest, volume_ind, trapSupply_eq] at e
  rw [h1, h2, h3, h4, h5, ← mul_sub, ← mul_add] at e
  have := (mul_eq_zero.1 e.symm).resolve_left hw
  linarith

/-- The same in a steady simulation. -/
theorem C45_equation_steady (m : Mesh Ω Γ d) (mats : List Mat) (mv : Mobile Ω Γ d) (T : Temp Ω Γ d)
    (trap : Trap Ω Γ d) (hsolved : TrapSolved m mats mv T none trap)
    (mat : Ω → Mat) (hcov : Covers m mats mat) (hsub : ∀ a ∈ trap.materials, a ∈ mats)
    (hnd : (trap.materials.flatMap (·.ids)).Nodup)
    (p : Ω) (hw : m.w p ≠ 0) (j : ℕ) (a : Mat) (hj : trap.materials[j]? = some a)
    (ha : m.vm p ∈ a.ids) (k Ek ν Ep : ℝ) (n : Ω → ℝ) (hrates : RatesAt trap j k Ek ν Ep n) :
    0 = arr k Ek (T.T.val p) * physConc mv.theta a (T.T.val p) (mv.sol.val p)
          * (n p - trap.sol.val p)
        - arr ν Ep (T.T.val p) * trap.sol.val p + trapSupply m trap p := by
  obtain ⟨F, hF, hz⟩ := hsolved (ind p)
  obtain ⟨K, hK, e⟩ := trapForm_ok m mats mv T none trap (ind p) F hF
  obtain ⟨K', hK', _, e'⟩ := trapLoop_at m mv T trap p trap.materials 0 K hK hnd j a hj ha
  rw [zero_add] at hK'
  obtain ⟨h1, h2, h3, h4, h5⟩ := rates_unique (params_rates trap j K' hK') hrates
  rw [hz, e'] at e
  simp only [trapRest, trapSupply_eq] at e
  simp only [volumeIn_ind] at e
  have hzero : ((mats.filter fun mat => mat.uid ∉ trap.materials.map (·.uid)).map fun mat =>
      if m.vm p ∈ mat.ids then m.w p * trap.sol.val p else 0).sum = 0 := by
    apply List.sum_eq_zero
    intro x hx
    obtain ⟨b, hb, rfl⟩ := List.mem_map.1 hx
    rw [List.mem_filter] at hb
    have hni : m.vm p ∉ b.ids := by
      intro hin
      have haj := List.mem_of_getElem? hj
      have : b = a := same_mat hcov.nodup hb.1 (hsub a haj) hin ha
      subst this
      have := hb.2
      simp only [decide_eq_true_eq] at this
      exact this (List.mem_map.2 ⟨b, haj, rfl⟩)
    simp [hni]
  rw [hzero] at e
  rw [h1, h2, h3, h4, h5] at e
  have e0 : m.w p * (arr k Ek (T.T.val p) * physConc mv.theta a (T.T.val p) (mv.sol.val p)
      * (n p - trap.sol.val p) - arr ν Ep (T.T.val p) * trap.sol.val p + trapSupply m trap p) = 0 := by
    linear_combination e
  exact ((mul_eq_zero.1 e0).resolve_left hw).symm

end

end Festim.Props

namespace Festim.Weak

/-- An implicit step of `dy/dt = a (n - y) - b y`. -/
theorem relax_value {y y0 h a b n : ℝ} (hh : 0 < h) (ha : 0 ≤ a) (hb : 0 ≤ b)
    (e : (y - y0) / h = a * (n - y) - b * y) : y = (y0 + h * a * n) / (1 + h * (a + b)) := by
  have h1 : 0 < 1 + h * (a + b) := by positivity
  rw [eq_div_iff h1.ne']
  field_simp at e
  linarith

theorem relax_bounds {y y0 h a b n : ℝ} (hh : 0 < h) (ha : 0 ≤ a) (hb : 0 ≤ b)
    (h0 : 0 ≤ y0) (hn : y0 ≤ n) (e : (y - y0) / h = a * (n - y) - b * y) : 0 ≤ y ∧ y ≤ n := by
  have h1 : 0 < 1 + h * (a + b) := by positivity
  have hn0 : 0 ≤ n := h0.trans hn
  rw [relax_value hh ha hb e]
  constructor
  · positivity
  · rw [div_le_iff₀ h1]
    have : 0 ≤ n * (h * b) := by positivity
    nlinarith

end Festim.Weak

namespace Festim.Props

open Festim.Weak

section
variable {Ω Γ : Type} [Fintype Ω] [Fintype Γ] {d : ℕ}

/-- **C45.** The step determines the new trapped concentration (so it is unique). -/
theorem C45_value (m : Mesh Ω Γ d) (mats : List Mat) (mv : Mobile Ω Γ d) (T : Temp Ω Γ d)
    (h : ℝ) (trap : Trap Ω Γ d) (hsolved : TrapSolved m mats mv T (some h) trap)
    (hnd : (trap.materials.flatMap (·.ids)).Nodup) (hsrc : trap.sources = []) (hh : 0 < h)
    (p : Ω) (hw : m.w p ≠ 0) (j : ℕ) (a : Mat) (hj : trap.materials[j]? = some a)
    (ha : m.vm p ∈ a.ids) (k Ek ν Ep : ℝ) (n : Ω → ℝ) (hrates : RatesAt trap j k Ek ν Ep n)
    (hk : 0 ≤ k) (hν : 0 ≤ ν)
    (hc : 0 ≤ physConc mv.theta a (T.T.val p) (mv.sol.val p)) :
    trap.sol.val p
      = (trap.prev.val p
          + h * (arr k Ek (T.T.val p) * physConc mv.theta a (T.T.val p) (mv.sol.val p)) * n p)
        / (1 + h * (arr k Ek (T.T.val p) * physConc mv.theta a (T.T.val p) (mv.sol.val p)
            + arr ν Ep (T.T.val p))) := by
  have e := C45_equation m mats mv T h trap hsolved hnd p hw j a hj ha k Ek ν Ep n hrates
  rw [show trapSupply m trap p = 0 by simp [trapSupply, hsrc], add_zero] at e
  have h1 : 0 ≤ arr k Ek (T.T.val p) := by unfold arr; positivity
  have h2 : 0 ≤ arr ν Ep (T.T.val p) := by unfold arr; positivity
  exact relax_value hh (mul_nonneg h1 hc) h2 e

/-- **C45.** With non-negative rates and mobile concentration, the trapped concentration stays
between zero and the trap density. -/
theorem C45_occupancy (m : Mesh Ω Γ d) (mats : List Mat) (mv : Mobile Ω Γ d) (T : Temp Ω Γ d)
    (h : ℝ) (trap : Trap Ω Γ d) (hsolved : TrapSolved m mats mv T (some h) trap)
    (hnd : (trap.materials.flatMap (·.ids)).Nodup) (hsrc : trap.sources = []) (hh : 0 < h)
    (p : Ω) (hw : m.w p ≠ 0) (j : ℕ) (a : Mat) (hj : trap.materials[j]? = some a)
    (ha : m.vm p ∈ a.ids) (k Ek ν Ep : ℝ) (n : Ω → ℝ) (hrates : RatesAt trap j k Ek ν Ep n)
    (hk : 0 ≤ k) (hν : 0 ≤ ν)
    (hc : 0 ≤ physConc mv.theta a (T.T.val p) (mv.sol.val p))
    (h0 : 0 ≤ trap.prev.val p) (hn : trap.prev.val p ≤ n p) :
    0 ≤ trap.sol.val p ∧ trap.sol.val p ≤ n p := by
  have e := C45_equation m mats mv T h trap hsolved hnd p hw j a hj ha k Ek ν Ep n hrates
  rw [show trapSupply m trap p = 0 by simp [trapSupply, hsrc], add_zero] at e
  have h1 : 0 ≤ arr k Ek (T.T.val p) := by unfold arr; positivity
  have h2 : 0 ≤ arr ν Ep (T.T.val p) := by unfold arr; positivity
  exact relax_bounds hh (mul_nonneg h1 hc) h2 h0 hn e

/-- **C45.** Over any number of steps, with stepsizes, temperatures, mobile concentrations and rates
which may change, as long as the density does not decrease. -/
theorem C45_run (m : Mesh Ω Γ d) (mats : List Mat) (mv : ℕ → Mobile Ω Γ d) (T : ℕ → Temp Ω Γ d)
    (h : ℕ → ℝ) (trap : ℕ → Trap Ω Γ d) (N : ℕ)
    (hsolved : ∀ i ≤ N, TrapSolved m mats (mv i) (T i) (some (h i)) (trap i))
    (hnd : ∀ i ≤ N, ((trap i).materials.flatMap (·.ids)).Nodup)
    (hsrc : ∀ i ≤ N, (trap i).sources = []) (hh : ∀ i ≤ N, 0 < h i)
    (hstep : ∀ i < N, (trap (i + 1)).prev = (trap i).sol)
    (p : Ω) (hw : m.w p ≠ 0) (j : ℕ) (a : Mat) (hj : ∀ i ≤ N, (trap i).materials[j]? = some a)
    (ha : m.vm p ∈ a.ids) (k Ek ν Ep : ℕ → ℝ) (n : ℕ → Ω → ℝ)
    (hrates : ∀ i ≤ N, RatesAt (trap i) j (k i) (Ek i) (ν i) (Ep i) (n i))
    (hk : ∀ i, 0 ≤ k i) (hν : ∀ i, 0 ≤ ν i)
    (hc : ∀ i ≤ N, 0 ≤ physConc (mv i).theta a ((T i).T.val p) ((mv i).sol.val p))
    (hmono : ∀ i < N, n i p ≤ n (i + 1) p)
    (h0 : 0 ≤ (trap 0).prev.val p) (hn : (trap 0).prev.val p ≤ n 0 p) :
    ∀ i ≤ N, 0 ≤ (trap i).sol.val p ∧ (trap i).sol.val p ≤ n i p := by
  intro i
  induction i with
  | zero =>
    intro hi
    exact C45_occupancy m mats (mv 0) (T 0) (h 0) (trap 0) (hsolved 0 hi) (hnd 0 hi) (hsrc 0 hi)
      (hh 0 hi) p hw j a (hj 0 hi) ha _ _ _ _ _ (hrates 0 hi) (hk 0) (hν 0) (hc 0 hi) h0 hn
  | succ i ih =>
    intro hi
    obtain ⟨l, u⟩ := ih (by omega)
    have hp := hstep i (by omega)
    exact C45_occupancy m mats (mv (i + 1)) (T (i + 1)) (h (i + 1)) (trap (i + 1)) (hsolved _ hi)
      (hnd _ hi) (hsrc _ hi) (hh _ hi) p hw j a (hj _ hi) ha _ _ _ _ _ (hrates _ hi) (hk _) (hν _)
      (hc _ hi) (by rw [hp]; exact l) (by rw [hp]; exact u.trans (hmono i (by omega)))

/-- **C45.** In a steady simulation the occupancy is the equilibrium one. -/
theorem C45_steady (m : Mesh Ω Γ d) (mats : List Mat) (mv : Mobile Ω Γ d) (T : Temp Ω Γ d)
    (trap : Trap Ω Γ d) (hsolved : TrapSolved m mats mv T none trap)
    (mat : Ω → Mat) (hcov : Covers m mats mat) (hsub : ∀ a ∈ trap.materials, a ∈ mats)
    (hnd : (trap.materials.flatMap (·.ids)).Nodup) (hsrc : trap.sources = [])
    (p : Ω) (hw : m.w p ≠ 0) (j : ℕ) (a : Mat) (hj : trap.materials[j]? = some a)
    (ha : m.vm p ∈ a.ids) (k Ek ν Ep : ℝ) (n : Ω → ℝ) (hrates : RatesAt trap j k Ek ν Ep n)
    (hk : 0 ≤ k) (hν : 0 < ν)
    (hc : 0 ≤ physConc mv.theta a (T.T.val p) (mv.sol.val p)) (hn : 0 ≤ n p) :
    trap.sol.val p = arr k Ek (T.T.val p) * physConc mv.theta a (T.T.val p) (mv.sol.val p) * n p
        / (arr k Ek (T.T.val p) * physConc mv.theta a (T.T.val p) (mv.sol.val p)
            + arr ν Ep (T.T.val p)) ∧
      0 ≤ trap.sol.val p ∧ trap.sol.val p ≤ n p := by
  have e := C45_equation_steady m mats mv T trap hsolved mat hcov hsub hnd p hw j a hj ha k Ek ν Ep n
    hrates
  rw [show trapSupply m trap p = 0 by simp [trapSupply, hsrc], add_zero] at e
  have h1 : 0 ≤ arr k Ek (T.T.val p) := by unfold arr; positivity
  have h2 : 0 < arr ν Ep (T.T.val p) := by unfold arr; positivity
  have h3 := mul_nonneg h1 hc
  have hv : trap.sol.val p
      = arr k Ek (T.T.val p) * physConc mv.theta a (T.T.val p) (mv.sol.val p) * n p
        / (arr k Ek (T.T.val p) * physConc mv.theta a (T.T.val p) (mv.sol.val p)
            + arr ν Ep (T.T.val p)) := by
    rw [eq_div_iff (by positivity)]
    linarith
  refine ⟨hv, ?_, ?_⟩
  · rw [hv]; positivity
  · rw [hv, div_le_iff₀ (by positivity)]
    have : 0 ≤ n p * arr ν Ep (T.T.val p) := by positivity
    nlinarith

/-- The density equation of an extrinsic trap, from all test functions. -/
theorem C46_equation (m : Mesh Ω Γ d) (e : Extrinsic Ω) (h : ℝ) (n prev : Ω → ℝ)
    (hsolved : ∀ v, m.assemble (e.form h n prev v) = 0) (p : Ω) (hw : m.w p ≠ 0) :
    (n p - prev p) / h = e.phi_0 p *
      ((1 - n p / e.n_amax p) * e.eta_a p * e.f_a p + (1 - n p / e.n_bmax p) * e.eta_b p * e.f_b p) := by
  have hz := hsolved (ind p : Fld Ω Γ d).val
  simp only [Extrinsic.form, assemble_cons, assemble_nil, integrate_dx] at hz
  rw [volume_ind, volume_ind, add_zero, ← mul_add] at hz
  have := (mul_eq_zero.1 hz).resolve_left hw
  linarith

/-- **C46.** The density of an extrinsic trap stays non-negative and below the larger of its previous
value and of the two saturation densities; it does not decrease as long as it is below both. -/
theorem C46_density_bounds (m : Mesh Ω Γ d) (e : Extrinsic Ω) (h : ℝ) (n prev : Ω → ℝ)
    (hsolved : ∀ v, m.assemble (e.form h n prev v) = 0) (p : Ω) (hw : m.w p ≠ 0) (hh : 0 < h)
    (hphi : 0 ≤ e.phi_0 p) (hna : 0 < e.n_amax p) (hnb : 0 < e.n_bmax p)
    (hea : 0 ≤ e.eta_a p) (heb : 0 ≤ e.eta_b p) (hfa : 0 ≤ e.f_a p) (hfb : 0 ≤ e.f_b p)
    (hprev : 0 ≤ prev p) :
    0 ≤ n p ∧ n p ≤ max (prev p) (max (e.n_amax p) (e.n_bmax p)) ∧
      (prev p ≤ e.n_amax p → prev p ≤ e.n_bmax p → prev p ≤ n p) := by
  have eq := C46_equation m e h n prev hsolved p hw
  set A := e.phi_0 p * (e.eta_a p * e.f_a p) with hA
  set B := e.phi_0 p * (e.eta_b p * e.f_b p) with hB
  have hA0 : 0 ≤ A := by positivity
  have hB0 : 0 ≤ B := by positivity
  set na := e.n_amax p
  set nb := e.n_bmax p
  have hD : 0 < 1 + h * (A / na + B / nb) := by positivity
  have hv : n p = (prev p + h * (A + B)) / (1 + h * (A / na + B / nb)) := by
    rw [eq_div_iff hD.ne']
    have e2 : e.phi_0 p * ((1 - n p / na) * e.eta_a p * e.f_a p + (1 - n p / nb) * e.eta_b p * e.f_b p)
        = A * (1 - n p / na) + B * (1 - n p / nb) := by rw [hA, hB]; ring
    rw [e2, div_eq_iff hh.ne'] at eq
    have e3 : n p * (h * (A / na + B / nb)) = h * (A * (n p / na) + B * (n p / nb)) := by ring
    linear_combination eq + e3
  refine ⟨by rw [hv]; positivity, ?_, ?_⟩
  · rw [hv, div_le_iff₀ hD]
    set M := max (prev p) (max na nb) with hM
    have m1 : prev p ≤ M := le_max_left _ _
    have m2 : na ≤ M := (le_max_left _ _).trans (le_max_right _ _)
    have m3 : nb ≤ M := (le_max_right _ _).trans (le_max_right _ _)
    have k1 : A ≤ M * (A / na) := by
      have : 1 ≤ M / na := (one_le_div hna).2 m2
      calc A = 1 * A := by ring
        _ ≤ M / na * A := by gcongr
        _ = M * (A / na) := by ring
    have k2 : B ≤ M * (B / nb) := by
      have : 1 ≤ M / nb := (one_le_div hnb).2 m3
      calc B = 1 * B := by ring
        _ ≤ M / nb * B := by gcongr
        _ = M * (B / nb) := by ring
    nlinarith
  · intro ha hb
    rw [hv, le_div_iff₀ hD]
    have k1 : prev p * (A / na) ≤ A := by
      have : prev p / na ≤ 1 := (div_le_one hna).2 ha
      calc prev p * (A / na) = prev p / na * A := by ring
        _ ≤ 1 * A := by gcongr
        _ = A := by ring
    have k2 : prev p * (B / nb) ≤ B := by
      have : prev p / nb ≤ 1 := (div_le_one hnb).2 hb
      calc prev p * (B / nb) = prev p / nb * B := by ring
        _ ≤ 1 * B := by gcongr
        _ = B := by ring
    nlinarith

/-- **C46.** Over a whole run with parameters and stepsizes which may change, the saturation densities
being fixed. -/
theorem C46_run (m : Mesh Ω Γ d) (e : ℕ → Extrinsic Ω) (h : ℕ → ℝ) (n : ℕ → Ω → ℝ)
    (hsolved : ∀ i v, m.assemble ((e i).form (h i) (n (i + 1)) (n i) v) = 0)
    (p : Ω) (hw : m.w p ≠ 0) (hh : ∀ i, 0 < h i) (na nb : ℝ) (hna : 0 < na) (hnb : 0 < nb)
    (ha : ∀ i, (e i).n_amax p = na) (hb : ∀ i, (e i).n_bmax p = nb)
    (hphi : ∀ i, 0 ≤ (e i).phi_0 p)
    (hea : ∀ i, 0 ≤ (e i).eta_a p) (heb : ∀ i, 0 ≤ (e i).eta_b p)
    (hfa : ∀ i, 0 ≤ (e i).f_a p) (hfb : ∀ i, 0 ≤ (e i).f_b p)
    (h0 : 0 ≤ n 0 p) :
    ∀ i, 0 ≤ n i p ∧ n i p ≤ max (n 0 p) (max na nb) := by
  intro i
  induction i with
  | zero => exact ⟨h0, le_max_left _ _⟩
  | succ i ih =>
    obtain ⟨a, b, _⟩ := C46_density_bounds m (e i) (h i) (n (i + 1)) (n i) (hsolved i) p hw (hh i)
      (hphi i) (by rw [ha]; exact hna) (by rw [hb]; exact hnb) (hea i) (heb i) (hfa i) (hfb i) ih.1
    refine ⟨a, b.trans ?_⟩
    rw [ha, hb]
    exact max_le ih.2 (le_max_right _ _)

/-- The density equation of a neutron-induced trap, from all test functions. -/
theorem C47_equation (m : Mesh Ω Γ d) (e : Neutron Ω) (T : Ω → ℝ) (h : ℝ) (n prev : Ω → ℝ)
    (hsolved : ∀ v, m.assemble (e.form T h n prev v) = 0) (p : Ω) (hw : m.w p ≠ 0) :
    (n p - prev p) / h = e.phi p * e.K p * (1 - n p / e.n_max p)
      - e.A_0 p * Real.exp (-e.E_A p / (kB * T p)) * n p := by
  have hz := hsolved (ind p : Fld Ω Γ d).val
  simp only [Neutron.form, assemble_cons, assemble_nil, integrate_dx] at hz
  rw [volume_ind, volume_ind, volume_ind, add_zero, ← mul_add, ← mul_add] at hz
  have := (mul_eq_zero.1 hz).resolve_left hw
  linarith

/-- **C47.** The density of a neutron-induced trap stays in `[0, n_max]`, does not decrease without
annealing and does not increase without irradiation. -/
theorem C47_density_bounds (m : Mesh Ω Γ d) (e : Neutron Ω) (T : Ω → ℝ) (h : ℝ) (n prev : Ω → ℝ)
    (hsolved : ∀ v, m.assemble (e.form T h n prev v) = 0) (p : Ω) (hw : m.w p ≠ 0) (hh : 0 < h)
    (hphi : 0 ≤ e.phi p) (hK : 0 ≤ e.K p) (hmax : 0 < e.n_max p) (hA : 0 ≤ e.A_0 p)
    (hprev : 0 ≤ prev p) (hle : prev p ≤ e.n_max p) :
    0 ≤ n p ∧ n p ≤ e.n_max p ∧ (e.A_0 p = 0 → prev p ≤ n p) ∧
      (e.phi p = 0 → n p = prev p / (1 + h * (e.A_0 p * Real.exp (-e.E_A p / (kB * T p)))) ∧
        n p ≤ prev p) := by
  have eq := C47_equation m e T h n prev hsolved p hw
  set ν := e.A_0 p * Real.exp (-e.E_A p / (kB * T p)) with hν
  have hν0 : 0 ≤ ν := by positivity
  set a := e.phi p * e.K p / e.n_max p with ha
  have ha0 : 0 ≤ a := by positivity
  have eq' : (n p - prev p) / h = a * (e.n_max p - n p) - ν * n p := by
    rw [eq, ha]
    field_simp
  obtain ⟨b0, b1⟩ := relax_bounds hh ha0 hν0 hprev hle eq'
  have hval := relax_value hh ha0 hν0 eq'
  refine ⟨b0, b1, ?_, ?_⟩
  · intro hA0
    have : ν = 0 := by rw [hν, hA0, zero_mul]
    rw [this] at eq'
    have h2 : 0 ≤ (n p - prev p) / h := by
      rw [eq', zero_mul, sub_zero]
      exact mul_nonneg ha0 (by linarith)
    have := (div_nonneg_iff.1 h2)
    rcases this with h3 | h3
    · linarith [h3.1]
    · linarith [h3.2]
  · intro hp0
    have : a = 0 := by rw [ha, hp0]; ring
    rw [this] at hval
    have hval' : n p = prev p / (1 + h * ν) := by rw [hval]; congr 1 <;> ring
    refine ⟨hval', ?_⟩
    rw [hval']
    exact div_le_self hprev (by nlinarith)

/-- **C47.** Over a whole run. -/
theorem C47_run (m : Mesh Ω Γ d) (e : ℕ → Neutron Ω) (T : ℕ → Ω → ℝ) (h : ℕ → ℝ) (n : ℕ → Ω → ℝ)
    (hsolved : ∀ i v, m.assemble ((e i).form (T i) (h i) (n (i + 1)) (n i) v) = 0)
    (p : Ω) (hw : m.w p ≠ 0) (hh : ∀ i, 0 < h i) (nmax : ℝ) (hmax : 0 < nmax)
    (hm : ∀ i, (e i).n_max p = nmax) (hphi : ∀ i, 0 ≤ (e i).phi p) (hK : ∀ i, 0 ≤ (e i).K p)
    (hA : ∀ i, 0 ≤ (e i).A_0 p) (h0 : 0 ≤ n 0 p) (h1 : n 0 p ≤ nmax) :
    ∀ i, 0 ≤ n i p ∧ n i p ≤ nmax := by
  intro i
  induction i with
  | zero => exact ⟨h0, h1⟩
  | succ i ih =>
    obtain ⟨a, b, _⟩ := C47_density_bounds m (e i) (T i) (h i) (n (i + 1)) (n i) (hsolved i) p hw
      (hh i) (hphi i) (hK i) (by rw [hm]; exact hmax) (hA i) ih.1 (by rw [hm]; exact ih.2)
    exact ⟨a, (hm i) ▸ b⟩

end

namespace Case

/-! Concrete cases: the trap of `BalanceCases` in the first volume only. -/

def mat1 : Mat := { uid := 1, ids := [1], D_0 := 1, E_D := 0 }

def mat2 : Mat := { uid := 2, ids := [2], D_0 := 1, E_D := 0 }

noncomputable def trapIn1 (sol prev : Fin 2 → ℝ) : Trap (Fin 2) (Fin 2) 1 where
  k_0 := .list [1]
  E_k := .list [0]
  p_0 := .list [4]
  E_p := .list [0]
  density := [fun _ => 2]
  materials := [mat1]
  sol := ⟨sol, fun _ _ => 0, fun _ => 0⟩
  prev := ⟨prev, fun _ _ => 0, fun _ => 0⟩

noncomputable def mobile5 : Mobile (Fin 2) (Fin 2) 1 :=
  { theta := false, sol := Fld.const 5, prev := Fld.const 4 }

noncomputable def temp300 : Temp (Fin 2) (Fin 2) 1 := ⟨Fld.const 300, Fld.const 300⟩

/-- C44, C45: trapped concentration 0 → 1 inside, 3 → 3 outside, for every test function. -/
example : TrapSolved (meshOf .cartesian) [mat1, mat2] mobile5 temp300 (some 1)
    (trapIn1 ![1, 3] ![0, 3]) := by
  intro v
  refine ⟨_, rfl, ?_⟩
  simp [trapIn1, meshOf, mat1, Mesh.assemble, Mesh.integrate, Mobile.conc, mobile5, temp300,
    trapSourceForm, Fld.const]
  ring

example : RatesAt (trapIn1 ![1, 3] ![0, 3]) 0 1 0 4 0 fun _ => 2 :=
  Or.inl ⟨[1], [0], [4], [0], rfl, rfl, rfl, rfl, rfl, rfl, rfl, rfl, rfl⟩

/-- C44, C45: equilibrium inside, 0 outside. -/
example : TrapSolved (meshOf .cartesian) [mat1, mat2] mobile5 temp300 none
    (trapIn1 ![10 / 9, 0] ![0, 3]) := by
  intro v
  refine ⟨_, rfl, ?_⟩
  simp [trapIn1, meshOf, mat1, mat2, Mesh.assemble, Mesh.integrate, Mobile.conc, mobile5, temp300,
    trapSourceForm, Fld.const]
  ring

example : Covers (meshOf .cartesian) [mat1, mat2] ![mat1, mat2] where
  mem := by intro p; fin_cases p <;> simp
  has := by intro p; fin_cases p <;> simp [meshOf, mat1, mat2]
  nodup := by simp [mat1, mat2]

example : ∀ a ∈ [mat1, mat2], ∀ b ∈ [mat1, mat2], a.uid = b.uid → a = b := by
  simp [mat1, mat2]

/-- C46: from 0 to 1 with both saturation densities 2. -/
example (v : Fin 2 → ℝ) : (meshOf .cartesian).assemble
    (Extrinsic.form ⟨fun _ => 1, fun _ => 2, fun _ => 2, fun _ => 1, fun _ => 1, fun _ => 1,
      fun _ => 1⟩ 1 (fun _ => 1) (fun _ => 0) v) = 0 := by
  simp [Extrinsic.form, Mesh.assemble, Mesh.integrate]
  ring

/-- C47: from 1 to 4/5 with production 1, saturation 2 and annealing 1. -/
example (v : Fin 2 → ℝ) : (meshOf .cartesian).assemble
    (Neutron.form ⟨fun _ => 1, fun _ => 1, fun _ => 2, fun _ => 1, fun _ => 0⟩ (fun _ => 300) 1
      (fun _ => 4 / 5) (fun _ => 1) v) = 0 := by
  simp [Neutron.form, Mesh.assemble, Mesh.integrate]
  ring

end Case

end Festim.Props
