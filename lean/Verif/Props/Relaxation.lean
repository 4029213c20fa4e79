import Verif.Props.Existence
import Verif.Props.Gas

/-!
# C91: with constant data, transient simulations tend to the steady one
-/

open scoped BigOperators

set_option linter.unusedSectionVars false

namespace Festim.Weak

section
variable {Ω : Type} [Fintype Ω] {L : Line Ω} {α K : Ω → ℝ} {β : Bool → ℝ} {dir : Bool → Prop}

theorem bil_split (L : Line Ω) (α K : Ω → ℝ) (β : Bool → ℝ) (v : ℕ → ℝ) :
    bil L α K β v v = (∑ p, L.w p * (α p * (L.p1 v).val p ^ 2))
      + (∑ p, L.w p * (K p * (L.p1 v).grad p 0 ^ 2)) + ∑ q, β q * (L.p1 v).tr q ^ 2 := by
  unfold bil
  rw [← Finset.sum_add_distrib]
  congr 1 <;> exact Finset.sum_congr rfl fun p _ => by ring

theorem Coercive.parts (hc : Coercive L α K β dir) (v : ℕ → ℝ) :
    (∑ p, L.w p * (α p * (L.p1 v).val p ^ 2)) ≤ bil L α K β v v ∧
    (∑ p, L.w p * (K p * (L.p1 v).grad p 0 ^ 2)) ≤ bil L α K β v v ∧
    (∑ q, β q * (L.p1 v).tr q ^ 2) ≤ bil L α K β v v ∧ 0 ≤ bil L α K β v v := by
  have h1 : 0 ≤ ∑ p, L.w p * (α p * (L.p1 v).val p ^ 2) := Finset.sum_nonneg fun p _ =>
    mul_nonneg (hc.weights p) (mul_nonneg (hc.reaction p) (sq_nonneg _))
  have h2 : 0 ≤ ∑ p, L.w p * (K p * (L.p1 v).grad p 0 ^ 2) := Finset.sum_nonneg fun p _ =>
    mul_nonneg (hc.weights p) (mul_nonneg (hc.diffusion p).le (sq_nonneg _))
  have h3 : 0 ≤ ∑ q, β q * (L.p1 v).tr q ^ 2 := Finset.sum_nonneg fun q _ =>
    mul_nonneg (hc.exchange q) (sq_nonneg _)
  rw [bil_split]
  refine ⟨?_, ?_, ?_, ?_⟩ <;> linarith

theorem exists_point (L : Line Ω) (hw : ∀ p, 0 ≤ L.w p) : ∃ p, L.cell p = 0 ∧ 0 < L.w p := by
  by_contra hne
  push Not at hne
  have hs := L.exact 0 L.N_pos
  rw [Finset.sum_eq_zero] at hs
  · exact (L.h_pos 0 L.N_pos).ne hs
  · intro p hp
    exact le_antisymm (hne p (Finset.mem_filter.1 hp).2) (hw p)

/-- The form controls the slopes. -/
theorem Coercive.slopes (hc : Coercive L α K β dir) :
    ∃ C, 0 < C ∧ ∀ v : ℕ → ℝ, L.slope2 v ≤ C * bil L α K β v v := by
  obtain ⟨p0, -, -⟩ := exists_point L hc.weights
  haveI : Nonempty Ω := ⟨p0⟩
  obtain ⟨pm, hpm⟩ := Finite.exists_min K
  have hk := hc.diffusion pm
  refine ⟨1 / K pm, by positivity, fun v => ?_⟩
  have h1 := (hc.parts v).2.1
  have h2 : K pm * L.slope2 v ≤ ∑ p, L.w p * (K p * (L.p1 v).grad p 0 ^ 2) := by
    rw [← line_slope2 L (Fld.const 0) v]
    unfold volume
    rw [Finset.mul_sum]
    refine Finset.sum_le_sum fun p _ => ?_
    have := mul_le_mul_of_nonneg_left
      (mul_le_mul_of_nonneg_right (hpm p) (sq_nonneg ((L.p1 v).grad p 0))) (hc.weights p)
    simp only [Line.mesh]
    nlinarith
  rw [one_div, ← div_eq_inv_mul, le_div_iff₀ hk]
  linarith

/-- It controls all the nodal values. -/
theorem Coercive.nodes (hq : ∀ p, 0 ≤ L.lam p ∧ L.lam p ≤ 1) (hc : Coercive L α K β dir) :
    ∃ C, 0 < C ∧ ∀ v : ℕ → ℝ, (∀ q, dir q → (L.p1 v).tr q = 0) → ∀ j ≤ L.N,
      v j ^ 2 ≤ C * bil L α K β v v := by
  obtain ⟨C1, hC1, hs⟩ := hc.slopes
  have hl := L.length_pos
  have hN := L.N_pos
  have key : ∃ k ≤ L.N, ∃ C0, 0 ≤ C0 ∧ ∀ v : ℕ → ℝ, (∀ q, dir q → (L.p1 v).tr q = 0) →
      v k ^ 2 ≤ C0 * bil L α K β v v := by
    have node : ∀ q : Bool, ∃ k ≤ L.N, ∀ v : ℕ → ℝ, (L.p1 v).tr q = v k := by
      intro q
      cases q
      · exact ⟨0, Nat.zero_le _, fun v => by simp [Line.p1]⟩
      · exact ⟨L.N, le_rfl, fun v => by simp [Line.p1]⟩
    rcases hc.fixed with h1 | ⟨q, h1 | h1⟩
    · obtain ⟨p, hp, hw⟩ := exists_point L hc.weights
      have ha := h1 p
      refine ⟨0, Nat.zero_le _, 2 / (L.w p * α p) + 2 * (L.length * C1), by positivity, fun v _ => ?_⟩
      have h2 : L.w p * (α p * (L.p1 v).val p ^ 2) ≤ bil L α K β v v :=
        (Finset.single_le_sum (f := fun p => L.w p * (α p * (L.p1 v).val p ^ 2)) (fun p _ =>
          mul_nonneg (hc.weights p) (mul_nonneg (hc.reaction p) (sq_nonneg _))) (Finset.mem_univ p)).trans
          (hc.parts v).1
      have h3 : (L.p1 v).val p ^ 2 ≤ 1 / (L.w p * α p) * bil L α K β v v := by
        rw [one_div, ← div_eq_inv_mul, le_div_iff₀ (mul_pos hw ha)]
        linarith
      have h4 := L.between v 1 0 hN (Nat.zero_le _)
      have h5 := mul_le_mul_of_nonneg_left (hs v) hl.le
      have e : v 0 = (L.p1 v).val p - L.lam p * (v 1 - v 0) := by
        simp only [Line.p1, hp]; ring
      have l0 := (hq p).1
      have l1 := (hq p).2
      have h6 : v 0 ^ 2 ≤ 2 * (L.p1 v).val p ^ 2 + 2 * (v 1 - v 0) ^ 2 := by
        have h7 : (L.lam p * (v 1 - v 0)) ^ 2 ≤ (v 1 - v 0) ^ 2 := by
          rw [mul_pow]
          have : L.lam p ^ 2 ≤ 1 := by nlinarith
          nlinarith [sq_nonneg (v 1 - v 0)]
        calc v 0 ^ 2 = ((L.p1 v).val p - L.lam p * (v 1 - v 0)) ^ 2 := by rw [← e]
          _ ≤ 2 * (L.p1 v).val p ^ 2 + 2 * (L.lam p * (v 1 - v 0)) ^ 2 := by
            nlinarith [sq_nonneg ((L.p1 v).val p + L.lam p * (v 1 - v 0))]
          _ ≤ _ := by linarith
      have h8 : 2 / (L.w p * α p) = 2 * (1 / (L.w p * α p)) := by ring
      rw [h8]
      nlinarith
    · obtain ⟨k, hk, e⟩ := node q
      refine ⟨k, hk, 0, le_rfl, fun v hv => ?_⟩
      have := hv q h1
      rw [e] at this
      simp [this]
    · obtain ⟨k, hk, e⟩ := node q
      refine ⟨k, hk, 1 / β q, by positivity, fun v _ => ?_⟩
      have h2 : β q * (L.p1 v).tr q ^ 2 ≤ bil L α K β v v :=
        (Finset.single_le_sum (f := fun q => β q * (L.p1 v).tr q ^ 2) (fun q _ =>
          mul_nonneg (hc.exchange q) (sq_nonneg _)) (Finset.mem_univ q)).trans (hc.parts v).2.2.1
      rw [e] at h2
      rw [one_div, ← div_eq_inv_mul, le_div_iff₀ h1]
      linarith
  obtain ⟨k, hk, C0, hC0, h0⟩ := key
  refine ⟨2 * C0 + 2 * (L.length * C1), by positivity, fun v hv j hj => ?_⟩
  have h1 := L.between v j k hj hk
  have h2 := mul_le_mul_of_nonneg_left (hs v) hl.le
  have h3 := h0 v hv
  nlinarith [sq_nonneg ((v j - v k) - v k)]

/-- Weighted square of a piecewise affine function. -/
noncomputable def energy (L : Line Ω) (m : Ω → ℝ) (v : ℕ → ℝ) : ℝ := ∑ p, L.w p * (m p * (L.p1 v).val p ^ 2)

theorem energy_nonneg (hw : ∀ p, 0 ≤ L.w p) {m : Ω → ℝ} (hm : ∀ p, 0 ≤ m p) (v : ℕ → ℝ) :
    0 ≤ energy L m v :=
  Finset.sum_nonneg fun p _ => mul_nonneg (hw p) (mul_nonneg (hm p) (sq_nonneg _))

/-- And the weighted square. -/
theorem Coercive.energy_le (hq : ∀ p, 0 ≤ L.lam p ∧ L.lam p ≤ 1) (hc : Coercive L α K β dir) (m : Ω → ℝ) (hm : ∀ p, 0 ≤ m p) :
    ∃ C, 0 < C ∧ ∀ v : ℕ → ℝ, (∀ q, dir q → (L.p1 v).tr q = 0) → energy L m v ≤ C * bil L α K β v v := by
  obtain ⟨C, hC, h⟩ := hc.nodes hq
  have hsum : 0 ≤ ∑ p, L.w p * m p := Finset.sum_nonneg fun p _ => mul_nonneg (hc.weights p) (hm p)
  refine ⟨(∑ p, L.w p * m p) * C + 1, by positivity, fun v hv => ?_⟩
  have hb := (hc.parts v).2.2.2
  have : energy L m v ≤ (∑ p, L.w p * m p) * (C * bil L α K β v v) := by
    unfold energy
    rw [Finset.sum_mul]
    refine Finset.sum_le_sum fun p _ => ?_
    rw [mul_assoc]
    refine mul_le_mul_of_nonneg_left (mul_le_mul_of_nonneg_left ?_ (hm p)) (hc.weights p)
    have h1 := h v hv _ (L.cell_lt p).le
    have h2 := h v hv _ (L.cell_lt p)
    have l0 := (hq p).1
    have l1 := (hq p).2
    simp only [Line.p1]
    have e : ((1 - L.lam p) * v (L.cell p) + L.lam p * v (L.cell p + 1)) ^ 2
        = (1 - L.lam p) * v (L.cell p) ^ 2 + L.lam p * v (L.cell p + 1) ^ 2
          - L.lam p * (1 - L.lam p) * (v (L.cell p) - v (L.cell p + 1)) ^ 2 := by ring
    rw [e]
    have h3 : 0 ≤ L.lam p * (1 - L.lam p) * (v (L.cell p) - v (L.cell p + 1)) ^ 2 :=
      mul_nonneg (mul_nonneg l0 (by linarith)) (sq_nonneg _)
    have h4 := mul_le_mul_of_nonneg_left h1 (show 0 ≤ 1 - L.lam p by linarith)
    have h5 := mul_le_mul_of_nonneg_left h2 l0
    linarith
  nlinarith

/-- Implicit steps with constant coefficients and no load: geometric decay, at a rate which depends only on the
coefficients and on the smallest step. -/
theorem relax (hq : ∀ p, 0 ≤ L.lam p ∧ L.lam p ≤ 1) (hc : Coercive L α K β dir) (m : Ω → ℝ) (hm : ∀ p, 0 ≤ m p) (hmin : ℝ)
    (hmin0 : 0 < hmin) :
    ∃ A ρ, 0 ≤ A ∧ 0 ≤ ρ ∧ ρ < 1 ∧ ∀ (h : ℕ → ℝ) (d : ℕ → ℕ → ℝ), (∀ n, hmin ≤ h n) →
      (∀ n q, dir q → (L.p1 (d (n + 1))).tr q = 0) →
      (∀ n v, (∀ q, dir q → (L.p1 v).tr q = 0) →
        (∑ p, L.w p * (m p * (((L.p1 (d (n + 1))).val p - (L.p1 (d n)).val p) / h n) * (L.p1 v).val p))
          + bil L α K β (d (n + 1)) v = 0) →
      ∀ n, energy L m (d n) ≤ ρ ^ n * energy L m (d 0) ∧
        ∀ j ≤ L.N, d (n + 1) j ^ 2 ≤ A * ρ ^ n * energy L m (d 0) := by
  obtain ⟨C, hC, hE⟩ := hc.energy_le hq m hm
  obtain ⟨C1, hC1, hN⟩ := hc.nodes hq
  have hρ : 0 ≤ C / (C + 2 * hmin) := by positivity
  refine ⟨C1 / (2 * hmin), C / (C + 2 * hmin), by positivity, hρ,
    by rw [div_lt_one (by positivity)]; linarith, ?_⟩
  intro h d hh hdir heq
  have step : ∀ n, energy L m (d (n + 1)) + 2 * hmin * bil L α K β (d (n + 1)) (d (n + 1))
      ≤ energy L m (d n) := by
    intro n
    have hpos : 0 < h n := lt_of_lt_of_le hmin0 (hh n)
    have e := heq n (d (n + 1)) (hdir n)
    have hb := (hc.parts (d (n + 1))).2.2.2
    have e1 : energy L m (d (n + 1)) - energy L m (d n)
        ≤ 2 * h n * ∑ p, L.w p * (m p * (((L.p1 (d (n + 1))).val p - (L.p1 (d n)).val p) / h n)
          * (L.p1 (d (n + 1))).val p) := by
      unfold energy
      rw [← Finset.sum_sub_distrib, Finset.mul_sum]
      refine Finset.sum_le_sum fun p _ => ?_
      have h1 := mul_nonneg (mul_nonneg (hc.weights p) (hm p))
        (sq_nonneg ((L.p1 (d (n + 1))).val p - (L.p1 (d n)).val p))
      have h2 : 2 * h n * (L.w p * (m p * (((L.p1 (d (n + 1))).val p - (L.p1 (d n)).val p) / h n)
          * (L.p1 (d (n + 1))).val p))
          = 2 * (L.w p * m p * ((L.p1 (d (n + 1))).val p - (L.p1 (d n)).val p)
            * (L.p1 (d (n + 1))).val p) := by
        field_simp
      rw [h2]
      nlinarith
    have h3 : hmin * bil L α K β (d (n + 1)) (d (n + 1)) ≤ h n * bil L α K β (d (n + 1)) (d (n + 1)) :=
      mul_le_mul_of_nonneg_right (hh n) hb
    have h4 : (∑ p, L.w p * (m p * (((L.p1 (d (n + 1))).val p - (L.p1 (d n)).val p) / h n)
          * (L.p1 (d (n + 1))).val p)) = -bil L α K β (d (n + 1)) (d (n + 1)) := by linarith
    rw [h4] at e1
    linarith
  have hdec : ∀ n, energy L m (d n) ≤ (C / (C + 2 * hmin)) ^ n * energy L m (d 0) := by
    intro n
    induction n with
    | zero => simp
    | succ n ih =>
      have h1 := step n
      have h2 := hE _ (hdir n)
      have h3 : energy L m (d (n + 1)) ≤ C / (C + 2 * hmin) * energy L m (d n) := by
        rw [div_mul_eq_mul_div, le_div_iff₀ (by positivity)]
        nlinarith [mul_le_mul_of_nonneg_left h1 hC.le, mul_le_mul_of_nonneg_left h2 hmin0.le]
      refine h3.trans ?_
      rw [pow_succ', mul_assoc]
      exact mul_le_mul_of_nonneg_left ih hρ
  intro n
  refine ⟨hdec n, fun j hj => ?_⟩
  have h1 := hN _ (hdir n) j hj
  have h2 := step n
  have h3 := hdec n
  have h4 := energy_nonneg hc.weights hm (d (n + 1))
  have h5 : bil L α K β (d (n + 1)) (d (n + 1)) ≤ 1 / (2 * hmin) * energy L m (d n) := by
    rw [one_div, ← div_eq_inv_mul, le_div_iff₀ (by positivity)]
    linarith
  calc d (n + 1) j ^ 2 ≤ C1 * bil L α K β (d (n + 1)) (d (n + 1)) := h1
    _ ≤ C1 * (1 / (2 * hmin) * energy L m (d n)) := mul_le_mul_of_nonneg_left h5 hC1.le
    _ ≤ C1 * (1 / (2 * hmin) * ((C / (C + 2 * hmin)) ^ n * energy L m (d 0))) := by
      refine mul_le_mul_of_nonneg_left (mul_le_mul_of_nonneg_left h3 (by positivity)) hC1.le
    _ = _ := by ring

/-- The problem in transient mode. -/
def Problem.withStep {Γ : Type} {d : ℕ} (P : Problem Ω Γ d) (h : ℝ) : Problem Ω Γ d := { P with dt := some h }

theorem p1_val_sub (L : Line Ω) (u v : ℕ → ℝ) (p : Ω) :
    (L.p1 (u - v)).val p = (L.p1 u).val p - (L.p1 v).val p := by
  simp only [Line.p1, Pi.sub_apply]; ring

theorem p1_tr_sub (L : Line Ω) (u v : ℕ → ℝ) (q : Bool) :
    (L.p1 (u - v)).tr q = (L.p1 u).tr q - (L.p1 v).tr q := by
  cases q <;> simp [Line.p1]

/-- A transient step written with the coefficients of the steady problem. -/
theorem bil_step (L : Line Ω) (m α K : Ω → ℝ) (β : Bool → ℝ) (f : Ω → ℝ) (g : Bool → ℝ) (h : ℝ) (U U' us v : ℕ → ℝ)
    (h1 : bil L (fun p => m p / h + α p) K β U' v
      = lin L (fun p => m p / h * (L.p1 U).val p + f p) g v)
    (h2 : bil L α K β us v = lin L f g v) :
    (∑ p, L.w p * (m p * (((L.p1 (U' - us)).val p - (L.p1 (U - us)).val p) / h) * (L.p1 v).val p))
      + bil L α K β (U' - us) v = 0 := by
  rw [bil_sub, h2]
  have e : bil L (fun p => m p / h + α p) K β U' v
      = (∑ p, L.w p * (m p / h * ((L.p1 U').val p * (L.p1 v).val p))) + bil L α K β U' v := by
    unfold bil
    rw [← add_assoc, ← Finset.sum_add_distrib]
    congr 1
    exact Finset.sum_congr rfl fun p _ => by ring
  have e' : lin L (fun p => m p / h * (L.p1 U).val p + f p) g v
      = (∑ p, L.w p * (m p / h * ((L.p1 U).val p * (L.p1 v).val p))) + lin L f g v := by
    unfold lin
    rw [← add_assoc, ← Finset.sum_add_distrib]
    congr 1
    exact Finset.sum_congr rfl fun p _ => by ring
  rw [e, e'] at h1
  have e3 : (∑ p, L.w p * (m p * (((L.p1 (U' - us)).val p - (L.p1 (U - us)).val p) / h) * (L.p1 v).val p))
      = (∑ p, L.w p * (m p / h * ((L.p1 U').val p * (L.p1 v).val p)))
        - ∑ p, L.w p * (m p / h * ((L.p1 U).val p * (L.p1 v).val p)) := by
    rw [← Finset.sum_sub_distrib]
    refine Finset.sum_congr rfl fun p _ => ?_
    rw [p1_val_sub, p1_val_sub]
    ring
  rw [e3]
  linarith

end

end Festim.Weak

namespace Festim.Props

open Festim.Weak Filter Topology

section
variable {Ω : Type} [Fintype Ω] {L : Line Ω} {P : Problem Ω Bool 1} {bcs : List (MobBC Bool)} {mat : Ω → Mat}
  {matS : Bool → Mat} {dir : Bool → Prop}

theorem LinearLine.withStep (hP : LinearLine L P bcs mat matS dir) {h : ℝ} (hh : 0 < h) :
    LinearLine L (P.withStep h) bcs mat matS dir where
  mesh := hP.mesh
  weights := hP.weights
  cover := hP.cover
  solubility := ⟨hP.solubility.vol, hP.solubility.memS, hP.solubility.hasS, hP.solubility.surf⟩
  law := hP.law
  uniform := hP.uniform
  D_pos := hP.D_pos
  S_pos := hP.S_pos
  step := by
    intro h' e
    rw [show (P.withStep h).dt = some h from rfl, Option.some.injEq] at e
    exact e ▸ hh
  traps := hP.traps
  decay := hP.decay
  fluxes := hP.fluxes
  fixed := Or.inl (by simp [Problem.withStep])

/-- **C91 (a).** A linear problem with data constant in time, advanced with any stepsizes not below `hmin`: from any
initial values, the nodal values approach those of the steady simulation with the same data, with a geometric bound
whose rate depends neither on the initial values nor on the stepsizes. -/
theorem C91_rate (hq : ∀ p, 0 ≤ L.lam p ∧ L.lam p ≤ 1) (hP : LinearLine L P bcs mat matS dir) (hs : P.dt = none)
    (hT : P.mv.theta = true → ∀ p, P.T.Tn.val p = P.T.T.val p) (val : Bool → ℝ) (us : ℕ → ℝ)
    (hus : LineSolves L P bcs dir val us) (hmin : ℝ) (h0 : 0 < hmin) :
    ∃ A ρ, 0 ≤ A ∧ 0 ≤ ρ ∧ ρ < 1 ∧ ∀ (h : ℕ → ℝ) (U : ℕ → ℕ → ℝ), (∀ n, hmin ≤ h n) →
      (∀ n, LineSolves L ((P.withStep (h n)).withPrev (L.p1 (U n))) bcs dir val (U (n + 1))) →
      ∀ n, ∀ j ≤ L.N, (U (n + 1) j - us j) ^ 2
        ≤ A * ρ ^ n * ∑ p, L.w p * (unitConc P.mv.theta (mat p) (P.T.T.val p)
            * ((L.p1 (U 0)).val p - (L.p1 us).val p) ^ 2) := by
  have hu : ∀ p, 0 ≤ unitConc P.mv.theta (mat p) (P.T.T.val p) := fun p =>
    (unitConc_pos fun h => hP.S_pos h _ (hP.cover.mem p)).le
  obtain ⟨A, ρ, hA, hρ, hρ1, key⟩ := relax hq hP.coercive
    (fun p => unitConc P.mv.theta (mat p) (P.T.T.val p)) hu hmin h0
  refine ⟨A, ρ, hA, hρ, hρ1, fun h U hh hU n j hj => ?_⟩
  have := (key h (fun n => U n - us) hh ?_ ?_ n).2 j hj
  · simpa only [energy, p1_val_sub, Pi.sub_apply] using this
  · intro n q hd
    rw [p1_tr_sub, (hU n).1 q hd, hus.1 q hd, sub_self]
  · intro n v hv
    have hpos : 0 < h n := lt_of_lt_of_le h0 (hh n)
    have hPn := LinearLine.withPrev (LinearLine.withStep hP hpos) (L.p1 (U n))
    obtain ⟨F, hF, hz⟩ := (hU n).2 v hv
    obtain ⟨G, hG, hz'⟩ := hus.2 v hv
    rw [hPn.residual _ v F hF] at hz
    rw [hP.residual _ v G hG] at hz'
    refine bil_step L _ (reactionOf P mat) (conductivity P mat) (exchangeOf P bcs matS) (loadOf P mat)
      (fluxAt P bcs) (h n) (U n) (U (n + 1)) us v ?_ (by linarith)
    have e1 : reactionOf ((P.withStep (h n)).withPrev (L.p1 (U n))) mat
        = fun p => unitConc P.mv.theta (mat p) (P.T.T.val p) / h n + reactionOf P mat p := by
      funext p
      simp only [reactionOf, hs, Problem.withStep, Problem.withPrev, zero_add]
      rw [show decayAt { P with dt := some (h n), mv := { P.mv with prev := L.p1 (U n) } } p = decayAt P p from rfl]
      ring
    have e2 : loadOf ((P.withStep (h n)).withPrev (L.p1 (U n))) mat
        = fun p => unitConc P.mv.theta (mat p) (P.T.T.val p) / h n * (L.p1 (U n)).val p + loadOf P mat p := by
      funext p
      simp only [loadOf, hs, Problem.withStep, Problem.withPrev, zero_add]
      rw [show givenAt { P with dt := some (h n), mv := { P.mv with prev := L.p1 (U n) } } p = givenAt P p from rfl]
      congr 1
      unfold Problem.cPrev
      have hT' : P.mv.theta = true → P.T.Tn.val p = P.T.T.val p := fun h => hT h p
      rw [physConc_linear _ _ _ _ fun h => hP.law h _ (hP.cover.mem p)]
      have : unitConc P.mv.theta (mat p) (P.T.Tn.val p) = unitConc P.mv.theta (mat p) (P.T.T.val p) := by
        unfold unitConc
        split
        · rename_i ht; rw [hT' ht]
        · rfl
      simp only [this]
      ring
    rw [← e1, ← e2]
    linarith [show bil L (reactionOf ((P.withStep (h n)).withPrev (L.p1 (U n))) mat) (conductivity P mat)
        (exchangeOf P bcs matS) (U (n + 1)) v
        = bil L (reactionOf ((P.withStep (h n)).withPrev (L.p1 (U n))) mat)
          (conductivity ((P.withStep (h n)).withPrev (L.p1 (U n))) mat)
          (exchangeOf ((P.withStep (h n)).withPrev (L.p1 (U n))) bcs matS) (U (n + 1)) v from rfl,
      show lin L (loadOf ((P.withStep (h n)).withPrev (L.p1 (U n))) mat) (fluxAt P bcs) v
        = lin L (loadOf ((P.withStep (h n)).withPrev (L.p1 (U n))) mat)
          (fluxAt ((P.withStep (h n)).withPrev (L.p1 (U n))) bcs) v from rfl]

theorem tendsto_of_rate {U : ℕ → ℝ} {u A ρ B : ℝ} (hρ : 0 ≤ ρ) (hρ1 : ρ < 1)
    (h : ∀ n, (U (n + 1) - u) ^ 2 ≤ A * ρ ^ n * B) : Tendsto U atTop (𝓝 u) := by
  have h1 : Tendsto (fun n : ℕ => A * ρ ^ n * B) atTop (𝓝 0) := by
    have := ((tendsto_pow_atTop_nhds_zero_of_lt_one hρ hρ1).const_mul A).mul_const B
    simpa using this
  have h2 : Tendsto (fun n => (U (n + 1) - u) ^ 2) atTop (𝓝 0) :=
    squeeze_zero (fun n => sq_nonneg _) h h1
  have h3 : Tendsto (fun n => |U (n + 1) - u|) atTop (𝓝 0) := by
    have := (Real.continuous_sqrt.tendsto 0).comp h2
    simpa [Function.comp_def, Real.sqrt_sq_eq_abs] using this
  have h4 : Tendsto (fun n => U (n + 1)) atTop (𝓝 u) := by
    rw [tendsto_iff_norm_sub_tendsto_zero]
    simpa [Real.norm_eq_abs] using h3
  exact (tendsto_add_atTop_iff_nat 1).1 h4

/-- **C91 (b).** There is one steady field, and every simulation with these constant data tends to it at every
node. -/
theorem C91_limit (hq : ∀ p, 0 ≤ L.lam p ∧ L.lam p ≤ 1) (hP : LinearLine L P bcs mat matS dir) (hs : P.dt = none)
    (hT : P.mv.theta = true → ∀ p, P.T.Tn.val p = P.T.T.val p) (val : Bool → ℝ) :
    ∃ us, LineSolves L P bcs dir val us ∧
      ∀ (hmin : ℝ) (h : ℕ → ℝ) (U : ℕ → ℕ → ℝ), 0 < hmin → (∀ n, hmin ≤ h n) →
      (∀ n, LineSolves L ((P.withStep (h n)).withPrev (L.p1 (U n))) bcs dir val (U (n + 1))) →
      ∀ j ≤ L.N, Tendsto (fun n => U n j) atTop (𝓝 (us j)) := by
  obtain ⟨us, hus⟩ := C90_exists hP val
  refine ⟨us, hus, fun hmin h U h0 hh hU j hj => ?_⟩
  obtain ⟨A, ρ, -, hρ, hρ1, key⟩ := C91_rate hq hP hs hT val us hus hmin h0
  exact tendsto_of_rate hρ hρ1 fun n => key h U hh hU n j hj

/-- **C91 (c).** The same for the temperature. -/
theorem C91_heat {r : Fld Ω Bool 1} {mats : List Mat} {bcs : List (Flux Bool × List ℕ)}
    {cap cond : Ω → ℝ} (hq : ∀ p, 0 ≤ L.lam p ∧ L.lam p ≤ 1) (hP : LinearHeat L r mats mat none bcs cap cond dir)
    (sources : List ((Ω → ℝ) × List ℕ)) (T0 : Fld Ω Bool 1) (val : Bool → ℝ) :
    ∃ us, HeatSolves L r mats none sources bcs T0 dir val us ∧
      ∀ (hmin : ℝ) (h : ℕ → ℝ) (U : ℕ → ℕ → ℝ), 0 < hmin → (∀ n, hmin ≤ h n) →
      (∀ n, HeatSolves L r mats (some (h n)) sources bcs (L.p1 (U n)) dir val (U (n + 1))) →
      ∀ j ≤ L.N, Tendsto (fun n => U n j) atTop (𝓝 (us j)) := by
  obtain ⟨us, hus⟩ := (C90_heat hP sources T0 val).1
  refine ⟨us, hus, fun hmin h U h0 hh hU j hj => ?_⟩
  obtain ⟨A, ρ, -, hρ, hρ1, key⟩ := relax hq hP.coercive cap (fun p => (hP.cap_pos p).le) hmin h0
  have := key h (fun n => U n - us) hh ?_ ?_
  · exact tendsto_of_rate hρ hρ1 fun n => by simpa using (this n).2 j hj
  · intro n q hd
    rw [p1_tr_sub, (hU n).1 q hd, hus.1 q hd, sub_self]
  · intro n v hv
    have hpos : 0 < h n := lt_of_lt_of_le h0 (hh n)
    have hPn : LinearHeat L r mats mat (some (h n)) bcs cap cond dir :=
      ⟨hP.weights, hP.cover, hP.capacity, hP.conduct, hP.cap_pos, hP.cond_pos,
        fun h' e => by rw [Option.some.injEq] at e; exact e ▸ hpos, hP.fluxes, Or.inl (by simp)⟩
    have hz := (hU n).2 v hv
    have hz' := hus.2 v hv
    rw [hPn.residual] at hz
    rw [hP.residual] at hz'
    refine bil_step L cap (heatReaction none cap) cond _ (heatLoad L none sources cap T0) _ (h n) (U n)
      (U (n + 1)) us v ?_ (sub_eq_zero.1 hz')
    have e1 : (fun p => cap p / h n + heatReaction none cap p) = heatReaction (some (h n)) cap := by
      funext p; simp [heatReaction]
    have e2 : (fun p => cap p / h n * (L.p1 (U n)).val p + heatLoad L none sources cap T0 p)
        = heatLoad L (some (h n)) sources cap (L.p1 (U n)) := by
      funext p; simp [heatLoad, heatReaction]
    rw [e1, e2]
    exact sub_eq_zero.1 hz

end

namespace LineCase

theorem lam_case : ∀ p, 0 ≤ L.lam p ∧ L.lam p ≤ 1 := by
  intro p
  simp only [L]
  norm_num

/-- A simulation with the data of `linear_case`, stepsize 1, from zero: it exists (C90) and tends to the steady
field. -/
example (val : Bool → ℝ) : ∃ (us : ℕ → ℝ) (U : ℕ → ℕ → ℝ), U 0 = 0 ∧
    LineSolves L (linP none) [.flux (.mass (fun _ => 2) fun _ => 1) [2], .flux (.value fun _ => 5) [1]]
      (fun _ => False) val us ∧ ∀ j ≤ L.N, Tendsto (fun n => U n j) atTop (𝓝 (us j)) := by
  have hP := linear_case none (by simp)
  obtain ⟨us, hus, key⟩ := C91_limit lam_case hP rfl (by simp [linP, P]) val
  obtain ⟨U, hU0, hU⟩ := (C90_run (fun _ => (linP none).withStep 1) (fun _ => _) (fun _ => _) (fun _ => _)
    (fun _ => _) (fun _ => val) (fun _ => LinearLine.withStep hP one_pos) 0).1
  exact ⟨us, U, hU0, hus, key 1 (fun _ => 1) U one_pos (fun _ => le_rfl) hU⟩

example (val : Bool → ℝ) : ∃ us, HeatSolves L (Fld.const 1) [hA, hB] none [(fun _ => 7, [1])]
    [(.convective (fun _ => 1) fun _ => 20, [2])] (Fld.const 0) (fun _ => False) val us ∧
      ∀ (hmin : ℝ) (h : ℕ → ℝ) (U : ℕ → ℕ → ℝ), 0 < hmin → (∀ n, hmin ≤ h n) →
      (∀ n, HeatSolves L (Fld.const 1) [hA, hB] (some (h n)) [(fun _ => 7, [1])]
        [(.convective (fun _ => 1) fun _ => 20, [2])] (L.p1 (U n)) (fun _ => False) val (U (n + 1))) →
      ∀ j ≤ L.N, Tendsto (fun n => U n j) atTop (𝓝 (us j)) :=
  C91_heat lam_case heat_case _ _ val

end LineCase

end Festim.Props
