import Verif.Proofs.Varying
import Verif.Props.SteadyAccuracy
import Mathlib.Analysis.Complex.ExponentialBounds

/-!
# C104: accuracy in temperature gradients

In 1D without traps, as C101 and C103 but with diffusivities which vary in the cells because the temperature does.  The exact
solutions are those of Spec/Varying.lean; the conductivities seen by the solver are those at its quadrature points, from the
temperature it uses, which may itself come from the heat equation.
-/

open scoped BigOperators

namespace Festim.Props

open Run Spec Newton Solve Closed Weak

/-- The properties do not change much with the temperature. -/
theorem arr_lipschitz {A E T0 T T' : ℝ} (hA : 0 ≤ A) (hE : 0 ≤ E) (hT0 : 0 < T0) (hT : T0 ≤ T) (hT' : T0 ≤ T') :
    |arr A E T - arr A E T'| ≤ A * E / (kB * T0 ^ 2) * |T - T'| := by
  have hkB : 0 < kB := by unfold kB; norm_num
  have hder : ∀ x ∈ Set.Ici T0, HasDerivWithinAt (fun y => arr A E y) (A * (Real.exp (-E / kB / x) * (E / kB / x ^ 2)))
      (Set.Ici T0) x := by
    intro x hx
    have hx0 : x ≠ 0 := (hT0.trans_le hx).ne'
    have h1 := ((hasDerivAt_inv hx0).const_mul (-E / kB)).exp.const_mul A
    refine (h1.hasDerivWithinAt.congr (fun y _ => ?_) ?_).congr_deriv ?_
    · simp [arr, div_eq_mul_inv]
    · simp [arr, div_eq_mul_inv]
    · rw [div_eq_mul_inv (-E / kB) x]
      field_simp
  have hb : ∀ x ∈ Set.Ici T0, ‖A * (Real.exp (-E / kB / x) * (E / kB / x ^ 2))‖ ≤ A * E / (kB * T0 ^ 2) := by
    intro x hx
    have hx0 : 0 < x := hT0.trans_le hx
    have h1 : Real.exp (-E / kB / x) ≤ 1 := by
      rw [Real.exp_le_one_iff]
      rw [neg_div, neg_div, neg_nonpos]
      positivity
    have h2 : E / kB / x ^ 2 ≤ E / kB / T0 ^ 2 :=
      div_le_div_of_nonneg_left (by positivity) (by positivity) (pow_le_pow_left₀ hT0.le hx 2)
    rw [Real.norm_eq_abs, abs_of_nonneg (by positivity)]
    calc A * (Real.exp (-E / kB / x) * (E / kB / x ^ 2)) ≤ A * (1 * (E / kB / T0 ^ 2)) :=
          mul_le_mul_of_nonneg_left (mul_le_mul h1 h2 (by positivity) zero_le_one) hA
      _ = _ := by field_simp
  have := (convex_Ici T0).norm_image_sub_le_of_norm_hasDerivWithin_le hder hb hT' hT
  simpa [Real.norm_eq_abs] using this

/-- They increase with it. -/
theorem arr_mono {A E T0 T : ℝ} (hA : 0 ≤ A) (hE : 0 ≤ E) (hT0 : 0 < T0) (hT : T0 ≤ T) : arr A E T0 ≤ arr A E T := by
  have hkB : 0 < kB := by unfold kB; norm_num
  unfold arr
  refine mul_le_mul_of_nonneg_left (Real.exp_le_exp.2 ?_) hA
  rw [neg_div, neg_div, neg_div, neg_le_neg_iff]
  exact div_le_div_of_nonneg_left (by positivity) hT0 hT

section
variable {Ω : Type} [Fintype Ω] {L : Line Ω} {x0 final : ℝ} {cap k0 k1 : ℕ → ℝ} {K : ℝ → ℕ → ℝ → ℝ} {lam : ℝ → ℕ → ℝ}
  {f : ℝ → ℕ → ℝ → ℝ} {w : ℝ → ℝ → ℝ} {slope div : ℝ → ℕ → ℝ → ℝ} {rate : ℝ → ℝ → ℝ} {Mt Mtx Ml Mx S1 S2 K1 K2 ε η : ℝ}

/-- As `StepData`, with conductivities within `η` of `K` at the quadrature points, and at least `k0`. -/
structure StepVar (L : Line Ω) (x0 : ℝ) (cap k0 : ℕ → ℝ) (K : ℝ → ℕ → ℝ → ℝ) (lam : ℝ → ℕ → ℝ) (f : ℝ → ℕ → ℝ → ℝ)
    (w : ℝ → ℝ → ℝ) (slope : ℝ → ℕ → ℝ → ℝ) (ε η s t : ℝ) (P : Problem Ω Bool 1) (bcs : List (MobBC Bool)) (mat : Ω → Mat)
    (matS : Bool → Mat) (dir : Bool → Prop) (val : Bool → ℝ) : Prop where
  dt : P.dt = some (t - s)
  content : ∀ p, unitConc P.mv.theta (mat p) (P.T.T.val p) = cap (L.cell p)
  before : ∀ p, unitConc P.mv.theta (mat p) (P.T.Tn.val p) = cap (L.cell p)
  conduct : ∀ p, |conductivity P mat p - K t (L.cell p) (L.pos x0 p)| ≤ η
  least : ∀ p, k0 (L.cell p) ≤ conductivity P mat p
  decay : ∀ p, decayAt P p = lam t (L.cell p)
  source : ∀ p, |givenAt P p - f t (L.cell p) (L.pos x0 p)| ≤ ε
  fixed : ∀ q, dir q → val q = w t (L.node x0 (L.endNo q))
  flux : ∀ q, ¬ dir q →
    K t (L.endCell q) (L.node x0 (L.endNo q)) * slope t (L.endCell q) (L.node x0 (L.endNo q)) * Line.normal q 0
      = fluxAt P bcs q - exchangeAt P bcs q * unitConc P.mv.theta (matS q) (P.T.T.tr q) * w t (L.node x0 (L.endNo q))

/-- A run of `m` steps at the times `τ`: `U n` are the nodal values at `τ n`. -/
structure TracksVar (L : Line Ω) (x0 final : ℝ) (cap k0 : ℕ → ℝ) (K : ℝ → ℕ → ℝ → ℝ) (lam : ℝ → ℕ → ℝ) (f : ℝ → ℕ → ℝ → ℝ)
    (w : ℝ → ℝ → ℝ) (slope : ℝ → ℕ → ℝ → ℝ) (ε η : ℝ) (m : ℕ) (τ : ℕ → ℝ) (P : ℕ → Problem Ω Bool 1)
    (bcs : ℕ → List (MobBC Bool)) (mat : ℕ → Ω → Mat) (matS : ℕ → Bool → Mat) (dir : ℕ → Bool → Prop) (val : ℕ → Bool → ℝ)
    (U : ℕ → ℕ → ℝ) : Prop where
  start : 0 ≤ τ 0
  later : ∀ n < m, τ n < τ (n + 1)
  finish : τ m ≤ final
  linear : ∀ n < m, LinearLine L (P n) (bcs n) (mat n) (matS n) (dir n)
  data : ∀ n < m, StepVar L x0 cap k0 K lam f w slope ε η (τ n) (τ (n + 1)) (P n) (bcs n) (mat n) (matS n) (dir n) (val n)
  solves : ∀ n < m, LineSolves L ((P n).withPrev (L.p1 (U n))) (bcs n) (dir n) (val n) (U (n + 1))

theorem StepVar.discrete {s t : ℝ} {P : Problem Ω Bool 1} {bcs : List (MobBC Bool)} {mat : Ω → Mat}
    {matS : Bool → Mat} {dir : Bool → Prop} {val : Bool → ℝ}
    (hd : StepVar L x0 cap k0 K lam f w slope ε η s t P bcs mat matS dir val) (hP : LinearLine L P bcs mat matS dir)
    {un u : ℕ → ℝ} (hu : LineSolves L (P.withPrev (L.p1 un)) bcs dir val u) :
    DiscreteStepV L cap (conductivity P mat) (lam t) (givenAt P) (fluxAt P bcs) (exchangeOf P bcs matS) dir (t - s) un u := by
  intro v hv
  obtain ⟨F, hF, h0⟩ := hu.2 v hv
  have h := (LinearLine.withPrev hP (L.p1 un)).residual u v F hF
  rw [h0] at h
  have h := (sub_eq_zero.1 h.symm)
  have e1 : reactionOf (P.withPrev (L.p1 un)) mat = fun p => (1 / (t - s) + lam t (L.cell p)) * cap (L.cell p) := by
    funext p
    have := hd.content p
    have h2 := hd.decay p
    simp only [reactionOf, Problem.withPrev, hd.dt, this]
    rw [← h2]
    rfl
  have e2 : conductivity (P.withPrev (L.p1 un)) mat = conductivity P mat := rfl
  have e3 : exchangeOf (P.withPrev (L.p1 un)) bcs matS = exchangeOf P bcs matS := rfl
  have e4 : loadOf (P.withPrev (L.p1 un)) mat
      = fun p => cap (L.cell p) * (L.p1 un).val p / (t - s) + givenAt P p := by
    funext p
    have hb : (P.withPrev (L.p1 un)).cPrev mat p = cap (L.cell p) * (L.p1 un).val p := by
      rw [← hd.before p]
      exact physConc_linear _ _ _ _ fun h => hP.law h _ (hP.cover.mem p)
    have hdt : (P.withPrev (L.p1 un)).dt = some (t - s) := hd.dt
    simp only [loadOf, hdt, hb]
    rfl
  rw [e1, e2, e3, e4] at h
  exact h

theorem StepVar.cap_pos {s t : ℝ} {P : Problem Ω Bool 1} {bcs : List (MobBC Bool)} {mat : Ω → Mat}
    {matS : Bool → Mat} {dir : Bool → Prop} {val : Bool → ℝ}
    (hd : StepVar L x0 cap k0 K lam f w slope ε η s t P bcs mat matS dir val) (hP : LinearLine L P bcs mat matS dir)
    (i : ℕ) (hi : i < L.N) : 0 < cap i ∧ 0 ≤ lam t i := by
  obtain ⟨p, hp⟩ := line_point L i hi
  refine ⟨?_, ?_⟩
  · rw [← hp, ← hd.content p]
    exact unitConc_pos fun h => hP.S_pos h _ (hP.cover.mem p)
  · rw [← hp, ← hd.decay p]
    exact decayAt_nonneg P hP.decay p

/-- **C104.** A whole simulation in a temperature gradient, which may change with time: first order in the stepsize, second order in
the mesh size, and of the order of the error on the conductivities. -/
theorem C104_accuracy (hL : L.Exact2) (hw : Conducts L x0 final cap K lam f w slope div rate)
    (hM : ConductsBy L x0 final cap K lam w slope div rate Mt Mtx Ml Mx S1 S2 K1 K2) {H k : ℝ} (hH : ∀ i < L.N, L.h i ≤ H)
    (hk0 : ∀ i < L.N, 0 < k0 i) {m : ℕ} {τ : ℕ → ℝ} {P : ℕ → Problem Ω Bool 1} {bcs : ℕ → List (MobBC Bool)}
    {mat : ℕ → Ω → Mat} {matS : ℕ → Bool → Mat} {dir : ℕ → Bool → Prop} {val : ℕ → Bool → ℝ} {U : ℕ → ℕ → ℝ}
    (h : TracksVar L x0 final cap k0 K lam f w slope ε η m τ P bcs mat matS dir val U) (hk : ∀ n < m, τ (n + 1) - τ n ≤ k) :
    ∀ n ≤ m, L.energy cap (U n - L.nodal x0 (w (τ n))) ≤ L.energy cap (U 0 - L.nodal x0 (w (τ 0)))
      + (τ n - τ 0) * (L.size cap * (Mt / 2 * k + H ^ 2 / 8 * (Mtx + Ml + 3 * Mx) + ε))
      + (S1 * η + H ^ 2 * (S1 * K2 / 4 + K1 * S2)) * √((τ n - τ 0) * L.resist k0 / 2) := by
  intro n hn
  rcases Nat.eq_zero_or_pos m with hm | hm
  · obtain rfl : n = 0 := by omega
    simp
  have mono : ∀ j n, n + j ≤ m → τ n ≤ τ (n + j) := by
    intro j
    induction j with
    | zero => intro n _; exact le_rfl
    | succ j ih => intro n hn; exact (ih n (by omega)).trans (h.later (n + j) (by omega)).le
  have times : ∀ n ≤ m, 0 ≤ τ n ∧ τ n ≤ final := by
    intro n hn
    refine ⟨h.start.trans (by simpa using mono n 0 (by omega)), le_trans ?_ h.finish⟩
    have := mono (m - n) n (by omega)
    rwa [Nat.add_sub_cancel' hn] at this
  have hcap : ∀ i < L.N, 0 < cap i := fun i hi => ((h.data 0 hm).cap_pos (h.linear 0 hm) i hi).1
  have hR := resist_pos L hk0
  set Z := S1 * η + H ^ 2 * (S1 * K2 / 4 + K1 * S2) with hZ
  set a : ℕ → ℝ := fun n => L.size cap * (Mt / 2 * (τ (n + 1) - τ n) + H ^ 2 / 8 * (Mtx + Ml + 3 * Mx) + ε) with ha
  have hs : 0 ≤ L.size cap := Real.sqrt_nonneg _
  -- the constants are not negative
  have htm : τ 1 ∈ Set.Icc 0 final := times 1 hm
  have h0m := L.node_left_mem x0 0 L.N_pos
  have h1m := L.node_right_mem x0 0 L.N_pos
  have hh := L.h_pos 0 L.N_pos
  have hne : |L.node x0 0 - L.node x0 1| = L.h 0 := by
    rw [show (1 : ℕ) = 0 + 1 from rfl, L.node_succ, sub_add_cancel_left, abs_neg, abs_of_pos hh]
  have c : ∀ {φ : ℝ → ℝ} {M : ℝ}, Bend φ (L.span x0 0) M → 0 ≤ M := by
    intro φ M h
    rw [L.span_eq] at h
    exact h.const_nonneg hh
  have hMt : 0 ≤ Mt := by
    have h1 := (abs_nonneg _).trans (hM.time 0 L.N_pos _ h0m (τ 1) htm (τ 0) (times 0 (Nat.zero_le _)))
    have hpos := sub_pos.2 (h.later 0 hm)
    exact nonneg_of_mul_nonneg_left h1 (abs_pos.2 hpos.ne')
  have m1 := c (hM.bendRate _ htm 0 L.N_pos)
  have m2 := c (hM.bendDecay _ htm 0 L.N_pos)
  have m3 := c (hM.bendDiv _ htm 0 L.N_pos)
  have m4 := c (hM.bendCond _ htm 0 L.N_pos)
  have q1 := (abs_nonneg _).trans (hM.slope_le _ htm 0 L.N_pos _ h0m)
  have q2 := (abs_nonneg _).trans (hM.slope_lip _ htm 0 L.N_pos _ h0m _ h1m)
  have q3 := (abs_nonneg _).trans (hM.cond_lip _ htm 0 L.N_pos _ h0m _ h1m)
  rw [zero_add, hne] at q2 q3
  have q2 := nonneg_of_mul_nonneg_left q2 hh
  have q3 := nonneg_of_mul_nonneg_left q3 hh
  obtain ⟨p0, -⟩ := line_point L 0 L.N_pos
  have hε : 0 ≤ ε := (abs_nonneg _).trans ((h.data 0 hm).source p0)
  have hη : 0 ≤ η := (abs_nonneg _).trans ((h.data 0 hm).conduct p0)
  have hk1 : 0 ≤ k := (sub_pos.2 (h.later 0 hm)).le.trans (hk 0 hm)
  have hZ0 : 0 ≤ Z := by positivity
  have key := accumulate (E := fun n => L.energy cap (U n - L.nodal x0 (w (τ n)))) (a := a) (τ := τ) (m := m)
    (α := L.size cap * (Mt / 2 * k + H ^ 2 / 8 * (Mtx + Ml + 3 * Mx) + ε)) (β := Z ^ 2 * L.resist k0 / 4)
    (fun _ => Real.sqrt_nonneg _) (by positivity) h.later (fun n hn => ?_) (by positivity) (fun n hn => ?_) n hn
  · refine key.trans (add_le_add_right (le_of_eq ?_) _)
    have e : 2 * (τ n - τ 0) * (Z ^ 2 * L.resist k0 / 4) = Z ^ 2 * ((τ n - τ 0) * L.resist k0 / 2) := by ring
    rw [e, Real.sqrt_mul (sq_nonneg _), Real.sqrt_sq hZ0]
  · simp only [ha]
    refine mul_le_mul_of_nonneg_left ?_ hs
    have := mul_le_mul_of_nonneg_left (hk n hn) (half_pos (zero_lt_two' ℝ)).le
    nlinarith [mul_le_mul_of_nonneg_left (hk n hn) hMt]
  · have hd := h.data n hn
    have hP := h.linear n hn
    exact accuracy_step_var hL hcap hw hM (times n hn.le).1 (h.later n hn) (times (n + 1) hn).2 hH hd.source hd.conduct
      (fun q hq => hd.flux q hq) hk0 hd.least (fun i hi => (hd.cap_pos hP i hi).2) (exchangeOf_nonneg hP)
      (hd.discrete hP (h.solves n hn)) fun q hq => by rw [(h.solves n hn).1 q hq, hd.fixed q hq]

end

section
variable {Ω : Type} [Fintype Ω] {L : Line Ω} {x0 : ℝ} {K : ℕ → ℝ → ℝ} {r k0 k1 : ℕ → ℝ} {f : ℕ → ℝ → ℝ} {w : ℝ → ℝ}
  {slope div : ℕ → ℝ → ℝ} {Mr Mx S1 S2 K1 K2 ε η : ℝ} {P : Problem Ω Bool 1} {bcs : List (MobBC Bool)} {mat : Ω → Mat}
  {matS : Bool → Mat} {dir : Bool → Prop} {val : Bool → ℝ}

/-- As `SteadyData`; the conductivities are in separate hypotheses. -/
structure SteadyVar (L : Line Ω) (x0 : ℝ) (K : ℕ → ℝ → ℝ) (r : ℕ → ℝ) (f : ℕ → ℝ → ℝ) (w : ℝ → ℝ) (slope : ℕ → ℝ → ℝ) (ε : ℝ)
    (P : Problem Ω Bool 1) (bcs : List (MobBC Bool)) (mat : Ω → Mat) (matS : Bool → Mat) (dir : Bool → Prop)
    (val : Bool → ℝ) : Prop where
  dt : P.dt = none
  decay : ∀ p, decayAt P p * unitConc P.mv.theta (mat p) (P.T.T.val p) = r (L.cell p)
  source : ∀ p, |givenAt P p - f (L.cell p) (L.pos x0 p)| ≤ ε
  fixed : ∀ q, dir q → val q = w (L.node x0 (L.endNo q))
  flux : ∀ q, ¬ dir q →
    K (L.endCell q) (L.node x0 (L.endNo q)) * slope (L.endCell q) (L.node x0 (L.endNo q)) * Line.normal q 0
      = fluxAt P bcs q - exchangeAt P bcs q * unitConc P.mv.theta (matS q) (P.T.T.tr q) * w (L.node x0 (L.endNo q))

theorem SteadyVar.r_nonneg (hd : SteadyVar L x0 K r f w slope ε P bcs mat matS dir val)
    (hP : LinearLine L P bcs mat matS dir) (i : ℕ) (hi : i < L.N) : 0 ≤ r i := by
  obtain ⟨p, rfl⟩ := line_point L i hi
  rw [← hd.decay p]
  exact mul_nonneg (decayAt_nonneg P hP.decay p) (unitConc_pos fun h => hP.S_pos h _ (hP.cover.mem p)).le

/-- The two constants of the bounds are not negative. -/
theorem HoldsBy.nonneg (hM : HoldsBy L x0 K r w slope div Mr Mx S1 S2 K1 K2)
    (hd : SteadyVar L x0 K r f w slope ε P bcs mat matS dir val) {H : ℝ}
    {κ : Ω → ℝ} (hκ : ∀ p, |κ p - K (L.cell p) (L.pos x0 p)| ≤ η) :
    0 ≤ (H ^ 2 / 8 * (Mr + 3 * Mx) + ε) * L.extent ∧ 0 ≤ S1 * η + H ^ 2 * (S1 * K2 / 4 + K1 * S2) ∧
      0 ≤ S1 ∧ 0 ≤ S2 ∧ 0 ≤ η := by
  have h0m := L.node_left_mem x0 0 L.N_pos
  have h1m := L.node_right_mem x0 0 L.N_pos
  have hh := L.h_pos 0 L.N_pos
  have hne : |L.node x0 0 - L.node x0 1| = L.h 0 := by
    rw [show (1 : ℕ) = 0 + 1 from rfl, L.node_succ, sub_add_cancel_left, abs_neg, abs_of_pos hh]
  have c : ∀ {φ : ℝ → ℝ} {M : ℝ}, Bend φ (L.span x0 0) M → 0 ≤ M := by
    intro φ M h
    rw [L.span_eq] at h
    exact h.const_nonneg hh
  have m2 := c (hM.bendDecay 0 L.N_pos)
  have m3 := c (hM.bendDiv 0 L.N_pos)
  have m4 := c (hM.bendCond 0 L.N_pos)
  have q1 := (abs_nonneg _).trans (hM.slope_le 0 L.N_pos _ h0m)
  have q2 := (abs_nonneg _).trans (hM.slope_lip 0 L.N_pos _ h0m _ h1m)
  have q3 := (abs_nonneg _).trans (hM.cond_lip 0 L.N_pos _ h0m _ h1m)
  rw [zero_add, hne] at q2 q3
  have q2 := nonneg_of_mul_nonneg_left q2 hh
  have q3 := nonneg_of_mul_nonneg_left q3 hh
  obtain ⟨p0, -⟩ := line_point L 0 L.N_pos
  have hε : 0 ≤ ε := (abs_nonneg _).trans (hd.source p0)
  have hη : 0 ≤ η := (abs_nonneg _).trans (hκ p0)
  have hℓ := (extent_pos L).le
  exact ⟨by positivity, by positivity, q1, q2, hη⟩

theorem SteadyVar.error (hL : L.Exact2) (hw : Holds L x0 K r f w slope div)
    (hM : HoldsBy L x0 K r w slope div Mr Mx S1 S2 K1 K2) {H : ℝ} (hH : ∀ i < L.N, L.h i ≤ H)
    (hP : LinearLine L P bcs mat matS dir) (hd : SteadyVar L x0 K r f w slope ε P bcs mat matS dir val)
    (hκ : ∀ p, |conductivity P mat p - K (L.cell p) (L.pos x0 p)| ≤ η) {u : ℕ → ℝ} (hu : LineSolves L P bcs dir val u) :
    (∀ q, dir q → (L.p1 (u - L.nodal x0 w)).tr q = 0) ∧
    ∀ v : ℕ → ℝ, (∀ q, dir q → (L.p1 v).tr q = 0) → ∀ M, (∀ i ≤ L.N, |v i| ≤ M) →
      |bil L (fun p => r (L.cell p)) (conductivity P mat) (exchangeOf P bcs matS) (u - L.nodal x0 w) v|
        ≤ (H ^ 2 / 8 * (Mr + 3 * Mx) + ε) * L.extent * M
          + (S1 * η + H ^ 2 * (S1 * K2 / 4 + K1 * S2)) * ∑ i ∈ Finset.range L.N, |v (i + 1) - v i| := by
  constructor
  · intro q hq
    have h1 := hu.1 q hq
    rw [hd.fixed q hq, p1_node] at h1
    rw [p1_node]
    simp only [Pi.sub_apply, h1, Line.nodal, sub_self]
  · intro v hv M hvM
    obtain ⟨F, hF, h0⟩ := hu.2 v hv
    have h := hP.residual u v F hF
    rw [h0] at h
    have h := (sub_eq_zero.1 h.symm)
    have e1 : reactionOf P mat = fun p => r (L.cell p) := by
      funext p
      simp only [reactionOf, hd.dt, zero_add]
      exact hd.decay p
    have e3 : loadOf P mat = givenAt P := by
      funext p
      simp only [loadOf, hd.dt, zero_add]
    rw [e1, e3] at h
    have h2 := steady_consistency_var hL hw hM hH hd.source hκ (g := fluxAt P bcs) (β := exchangeOf P bcs matS) (dir := dir)
      (fun q hq => hd.flux q hq) hv hvM
    rw [bil_sub, h]
    refine h2.trans (le_of_eq ?_)
    ring

theorem level_nonneg {q0 : Bool} {s : ℝ} (hs : LevelAt P bcs matS dir q0 s) : 0 ≤ s := by
  rcases hs with ⟨-, rfl⟩ | ⟨h, rfl⟩
  · exact le_rfl
  · exact (one_div_pos.2 h).le

/-- **C104.** The values at all nodes in steady state: second order in the mesh size, and of the order of the error on the
conductivities. -/
theorem C104_steady (hL : L.Exact2) (hw : Holds L x0 K r f w slope div)
    (hM : HoldsBy L x0 K r w slope div Mr Mx S1 S2 K1 K2) {H : ℝ} (hH : ∀ i < L.N, L.h i ≤ H)
    (hP : LinearLine L P bcs mat matS dir) (hd : SteadyVar L x0 K r f w slope ε P bcs mat matS dir val)
    (hκ : ∀ p, |conductivity P mat p - K (L.cell p) (L.pos x0 p)| ≤ η) (hk0 : ∀ i < L.N, 0 < k0 i)
    (hκ0 : ∀ p, k0 (L.cell p) ≤ conductivity P mat p) {q0 : Bool} {s : ℝ}
    (hs : LevelAt P bcs matS dir q0 s) {u : ℕ → ℝ} (hu : LineSolves L P bcs dir val u) :
    ∀ i ≤ L.N, |u i - w (L.node x0 i)| ≤ (s + L.resist k0)
      * ((H ^ 2 / 8 * (Mr + 3 * Mx) + ε) * L.extent + (S1 * η + H ^ 2 * (S1 * K2 / 4 + K1 * S2))) := by
  obtain ⟨h1, h2⟩ := SteadyVar.error hL hw hM hH hP hd hκ hu
  obtain ⟨n1, n2, -⟩ := HoldsBy.nonneg hM hd (H := H) hκ
  have hm := mean_ge hL hκ0
  have h3 := max_bound_var hL (hd.r_nonneg hP) (exchangeOf_nonneg hP) hs h1 n1 n2
    (fun i hi => (hk0 i hi).trans_le (hm i hi)) h2
  intro i hi
  refine (h3 i hi).trans (mul_le_mul_of_nonneg_right ?_ (add_nonneg n1 n2))
  exact add_le_add_right (resist_anti L hk0 hm) s

/-- What `SurfaceFlux` reports at an end is the conductivity at that end times the slope of the nodal values in the last cell. -/
theorem reported_slope_var (hP : LinearLine L P bcs mat matS dir) {u : ℕ → ℝ}
    (e : PostEnv Ω Bool 1) (proj : Bool) (he : e.mesh = P.mesh) (hn : e.n = Line.normal) (hes : e.soret = false)
    (hp : PropertiesOf e P.mats matS)
    (hg : ∀ q, e.solute.gradS q 0
      = (if P.mv.theta then arr (matS q).S_0 (matS q).E_S (e.T.tr q) else 1) * L.endSlope u q) (q : Bool) :
    (hydrogenFlux (if q then L.right else L.left)).value e proj
      = .ok (arr (matS q).D_0 (matS q).E_D (e.T.tr q)
        * (if P.mv.theta then arr (matS q).S_0 (matS q).E_S (e.T.tr q) else 1)
        * ((u (L.endCell q + 1) - u (L.endCell q)) / L.h (L.endCell q)) * Line.normal q 0) := by
  obtain ⟨r, hm⟩ := hP.mesh
  have hN := L.N_pos
  have hend : ∀ q, arr (matS q).D_0 (matS q).E_D (e.T.tr q) * e.solute.gradS q 0
      = arr (matS q).D_0 (matS q).E_D (e.T.tr q)
        * (if P.mv.theta then arr (matS q).S_0 (matS q).E_S (e.T.tr q) else 1)
        * ((u (L.endCell q + 1) - u (L.endCell q)) / L.h (L.endCell q)) := by
    intro q
    rw [hg q, ← mul_assoc]
    congr 1
    cases q
    · simp [Line.endSlope, Line.endCell]
    · simp only [Line.endSlope, Line.endCell, if_true]
      rw [Nat.sub_add_cancel hN]
  unfold hydrogenFlux
  rw [C62_reported_is_inward_flux e proj .cartesian (.name "solute") _ (by simp) e.solute
    (label_solute e proj) (by simp [Geom.curved]) P.mats matS hp (by simp [hes])]
  congr 1
  simp only [fluxAngle, one_mul, Geom.suffix, jacS, surface, he, hm, hn, Line.mesh]
  have hends := L.ends
  rw [Finset.sum_filter, Fintype.sum_bool]
  have hgf : ∀ q, gradFlux e.soret false (matS q) (e.T.tr q) (e.solute.tr q) (e.T.gradS q) (e.solute.gradS q) 0
      = arr (matS q).D_0 (matS q).E_D (e.T.tr q)
        * (if P.mv.theta then arr (matS q).S_0 (matS q).E_S (e.T.tr q) else 1)
        * ((u (L.endCell q + 1) - u (L.endCell q)) / L.h (L.endCell q)) := by
    intro q
    rw [← hend q]
    simp [gradFlux, physGrad, hes]
  cases q <;> simp [dot, Line.normal, hends, hends.symm, hgf]

/-- **C104.** What `SurfaceFlux` reports in a temperature gradient, compared with the exact flux `K dw/dx n`: first order in the mesh
size. `k0` and `k1` bound the conductivities in the cells, `κs` the conductivity at the end. -/
theorem C104_flux (hL : L.Exact2) (hw : Holds L x0 K r f w slope div)
    (hM : HoldsBy L x0 K r w slope div Mr Mx S1 S2 K1 K2) {H : ℝ} (hH : ∀ i < L.N, L.h i ≤ H)
    (hP : LinearLine L P bcs mat matS dir) (hd : SteadyVar L x0 K r f w slope ε P bcs mat matS dir val)
    (hκ : ∀ p, |conductivity P mat p - K (L.cell p) (L.pos x0 p)| ≤ η) (hk0 : ∀ i < L.N, 0 < k0 i)
    (hκ0 : ∀ p, k0 (L.cell p) ≤ conductivity P mat p) (hκ1 : ∀ p, conductivity P mat p ≤ k1 (L.cell p)) {q0 : Bool} {s : ℝ}
    (hs : LevelAt P bcs matS dir q0 s) {u : ℕ → ℝ} (hu : LineSolves L P bcs dir val u) {R : ℝ}
    (hR : ∀ i < L.N, r i ≤ R) (e : PostEnv Ω Bool 1) (proj : Bool) (he : e.mesh = P.mesh) (hn : e.n = Line.normal)
    (hes : e.soret = false) (hp : PropertiesOf e P.mats matS)
    (hg : ∀ q, e.solute.gradS q 0
      = (if P.mv.theta then arr (matS q).S_0 (matS q).E_S (e.T.tr q) else 1) * L.endSlope u q) (q : Bool) {κs : ℝ}
    (hκs : arr (matS q).D_0 (matS q).E_D (e.T.tr q)
      * (if P.mv.theta then arr (matS q).S_0 (matS q).E_S (e.T.tr q) else 1) = κs) (hκs0 : 0 ≤ κs)
    (hκs1 : |κs - K (L.endCell q) (L.node x0 (L.endNo q))| ≤ η) {ρ Z : ℝ}
    (hρ : ρ = (H ^ 2 / 8 * (Mr + 3 * Mx) + ε) * L.extent) (hZ : Z = S1 * η + H ^ 2 * (S1 * K2 / 4 + K1 * S2)) :
    ∃ J, (hydrogenFlux (if q then L.right else L.left)).value e proj = .ok J ∧
      |J - K (L.endCell q) (L.node x0 (L.endNo q)) * slope (L.endCell q) (L.node x0 (L.endNo q)) * Line.normal q 0|
        ≤ κs / k0 (L.endCell q) * (ρ + 2 * Z + (s + L.resist k0) * (ρ + Z) * (R * L.extent + 2 / L.resist k1))
          + κs * S2 * L.h (L.endCell q) + S1 * η := by
  refine ⟨_, reported_slope_var hP e proj he hn hes hp hg q, ?_⟩
  rw [hκs]
  obtain ⟨-, h2⟩ := SteadyVar.error hL hw hM hH hP hd hκ hu
  obtain ⟨n1, n2, n3, n4, n5⟩ := HoldsBy.nonneg hM hd (H := H) hκ
  have hE := C104_steady hL hw hM hH hP hd hκ hk0 hκ0 hs hu
  rw [← hρ] at n1 h2 hE
  rw [← hZ] at n2 h2 hE
  set κ := conductivity P mat with hκd
  have hm := mean_ge hL hκ0
  have hm1 := mean_le_of hL hκ1
  have hmp : ∀ i < L.N, 0 < L.mean κ i := fun i hi => (hk0 i hi).trans_le (hm i hi)
  have hlt := endCell_lt L q
  have h3 := flux_bound_var hL hmp (R := R) (fun i hi => by rw [abs_of_nonneg (hd.r_nonneg hP i hi)]; exact hR i hi)
    n1 n2 hE h2 _ hlt
  set i := L.endCell q with hi
  set E := (s + L.resist k0) * (ρ + Z) with hEd
  have hE0 : 0 ≤ E := (abs_nonneg _).trans (hE 0 (Nat.zero_le _))
  have hRk1 : 0 < L.resist k1 := resist_pos L fun i hi => (hmp i hi).trans_le (hm1 i hi)
  have h4 : 2 * E / L.resist (L.mean κ) ≤ 2 * E / L.resist k1 :=
    div_le_div_of_nonneg_left (by positivity) hRk1 (resist_anti L hmp hm1)
  have hsm := end_mem L x0 q
  rw [← hi] at hsm
  -- the slope of the error in the last cell
  set de := ((u - L.nodal x0 w) (i + 1) - (u - L.nodal x0 w) i) / L.h i with hde
  have h5 : |de| ≤ (ρ + 2 * Z + E * (R * L.extent + 2 / L.resist k1)) / k0 i := by
    rw [le_div_iff₀ (hk0 i hlt), mul_comm]
    have h6 : k0 i * |de| ≤ L.mean κ i * |de| := mul_le_mul_of_nonneg_right (hm i hlt) (abs_nonneg _)
    have h3' : L.mean κ i * |de| ≤ ρ + 2 * Z + R * L.extent * E + 2 * E / L.resist (L.mean κ) := by
      rw [← abs_of_pos (hmp i hlt), ← abs_mul]
      exact h3
    have e1 : E * (R * L.extent + 2 / L.resist k1) = R * L.extent * E + 2 * E / L.resist k1 := by ring
    linarith
  -- the slope of the chord
  have hh := L.h_pos i hlt
  have hnode : L.node x0 (i + 1) - L.node x0 i = L.h i := by rw [L.node_succ]; ring
  have hltn : L.node x0 i < L.node x0 (i + 1) := by linarith
  obtain ⟨ξ, hξ, hξ'⟩ := exists_hasDerivAt_eq_slope w (slope i) hltn
    (fun y hy => (hw.hasSlope i hlt y hy).continuousWithinAt)
    (fun y hy => (hw.hasSlope i hlt y (Set.Ioo_subset_Icc_self hy)).hasDerivAt (Icc_mem_nhds hy.1 hy.2))
  rw [hnode] at hξ'
  have hξm : ξ ∈ L.span x0 i := Set.Ioo_subset_Icc_self hξ
  set z := L.node x0 (L.endNo q) with hz
  have h7 : |slope i ξ - slope i z| ≤ S2 * L.h i := by
    refine (hM.slope_lip i hlt ξ hξm z hsm).trans (mul_le_mul_of_nonneg_left ?_ n4)
    have a1 := hsm.1
    have a2 := hsm.2
    have b1 := hξm.1
    have b2 := hξm.2
    rw [abs_le]
    constructor <;> linarith
  have h8 := hM.slope_le i hlt z hsm
  have hnn : |Line.normal q 0| = 1 := by cases q <;> simp [Line.normal]
  have e1 : κs * ((u (i + 1) - u i) / L.h i) * Line.normal q 0 - K i z * slope i z * Line.normal q 0
      = (κs * de + κs * (slope i ξ - slope i z) + (κs - K i z) * slope i z) * Line.normal q 0 := by
    rw [hξ', hde]
    simp only [Pi.sub_apply, Line.nodal]
    ring
  rw [e1, abs_mul, hnn, mul_one]
  have b1 : |κs * de| ≤ κs * ((ρ + 2 * Z + E * (R * L.extent + 2 / L.resist k1)) / k0 i) := by
    rw [abs_mul, abs_of_nonneg hκs0]
    exact mul_le_mul_of_nonneg_left h5 hκs0
  have b2 : |κs * (slope i ξ - slope i z)| ≤ κs * (S2 * L.h i) := by
    rw [abs_mul, abs_of_nonneg hκs0]
    exact mul_le_mul_of_nonneg_left h7 hκs0
  have b3 : |(κs - K i z) * slope i z| ≤ η * S1 := by
    rw [abs_mul]
    exact mul_le_mul hκs1 h8 (abs_nonneg _) n5
  refine (abs_add_le _ _).trans ((add_le_add ((abs_add_le _ _).trans (add_le_add b1 b2)) b3).trans (le_of_eq ?_))
  rw [hEd]
  ring

/-- **C104.** Coupled simulation: the temperature is computed by solving the steady heat equation on the same mesh, and gives the
diffusivities. The exact solution has the diffusivities of the exact temperature `Θ`. Both being smooth, the nodal values of the
concentration are accurate to second order. -/
theorem C104_coupled (hL : L.Exact2) {H : ℝ} (hH : ∀ i < L.N, L.h i ≤ H)
    -- the heat problem
    {KT : ℕ → ℝ} {fT : ℕ → ℝ → ℝ} {Θ : ℝ → ℝ} {slT cvT : ℕ → ℝ → ℝ} {MrT MxT MΘ εT : ℝ}
    (hΘ : Balances L x0 KT (fun _ => 0) fT Θ slT cvT) (hΘM : BalancesBy L x0 KT (fun _ => 0) Θ cvT MrT MxT)
    (hΘB : ∀ i < L.N, Bend Θ (L.span x0 i) MΘ) {rad : Fld Ω Bool 1} {hbcs : List (Flux Bool × List ℕ)} {hcap hcond : Ω → ℝ}
    {hsources : List ((Ω → ℝ) × List ℕ)} {Tn : Fld Ω Bool 1} {hdir : Bool → Prop} {hval : Bool → ℝ}
    (hHeat : LinearHeat L rad P.mats mat none hbcs hcap hcond hdir) (hKT : ∀ p, hcond p = KT (L.cell p))
    (hsrcT : ∀ p, |heatGivenAt L hsources p - fT (L.cell p) (L.pos x0 p)| ≤ εT)
    (hfixT : ∀ q, hdir q → hval q = Θ (L.node x0 (L.endNo q)))
    (hfluxT : ∀ q, ¬ hdir q → KT (L.endCell q) * slT (L.endCell q) (L.node x0 (L.endNo q)) * Line.normal q 0
      = (hbcs.map (heatBcGiven L rad q)).sum - (hbcs.map (heatBcExchange L rad q)).sum * Θ (L.node x0 (L.endNo q)))
    {qT : Bool} {sT : ℝ} (hsT : (hdir qT ∧ sT = 0) ∨ (0 < (hbcs.map (heatBcExchange L rad qT)).sum ∧
      sT = 1 / (hbcs.map (heatBcExchange L rad qT)).sum)) {uT : ℕ → ℝ}
    (huT : HeatSolves L rad P.mats none hsources hbcs Tn hdir hval uT)
    -- the hydrogen problem
    {D Ea : ℕ → ℝ} (hw : Holds L x0 (fun i x => arr (D i) (Ea i) (Θ x)) r f w slope div)
    (hM : HoldsBy L x0 (fun i x => arr (D i) (Ea i) (Θ x)) r w slope div Mr Mx S1 S2 K1 K2)
    (hP : LinearLine L P bcs mat matS dir) (hθ : P.mv.theta = false) (hT : ∀ p, P.T.T.val p = (L.p1 uT).val p)
    (hD : ∀ p, (mat p).D_0 = D (L.cell p)) (hE : ∀ p, (mat p).E_D = Ea (L.cell p)) (hE0 : ∀ i < L.N, 0 ≤ Ea i)
    (hd : SteadyVar L x0 (fun i x => arr (D i) (Ea i) (Θ x)) r f w slope ε P bcs mat matS dir val)
    {T0 G : ℝ} (hT0 : 0 < T0) (hΘ0 : ∀ p, T0 ≤ Θ (L.pos x0 p)) (hu0 : ∀ p, T0 ≤ (L.p1 uT).val p)
    (hG : ∀ i < L.N, D i * Ea i ≤ G)
    {q0 : Bool} {s : ℝ} (hs : LevelAt P bcs matS dir q0 s) {u : ℕ → ℝ} (hu : LineSolves L P bcs dir val u) {η : ℝ}
    (hη : η = G / (kB * T0 ^ 2)
      * ((sT + L.resist KT) * ((H ^ 2 / 8 * (MrT + 3 * MxT) + εT) * L.extent) + MΘ * H ^ 2 / 8)) :
    ∀ i ≤ L.N, |u i - w (L.node x0 i)| ≤ (s + L.resist fun i => arr (D i) (Ea i) T0)
      * ((H ^ 2 / 8 * (Mr + 3 * Mx) + ε) * L.extent + (S1 * η + H ^ 2 * (S1 * K2 / 4 + K1 * S2))) := by
  have hkB : 0 < kB := by unfold kB; norm_num
  have hnodes := C103_heat hL hΘ hΘM hH hHeat hKT hsrcT hfixT hfluxT hsT huT
  set ET := (sT + L.resist KT) * ((H ^ 2 / 8 * (MrT + 3 * MxT) + εT) * L.extent) with hET
  have hDp : ∀ i < L.N, 0 < D i := by
    intro i hi
    obtain ⟨p, rfl⟩ := line_point L i hi
    rw [← hD p]
    exact hP.D_pos _ (hP.cover.mem p)
  have hG0 : 0 ≤ G := (mul_nonneg (hDp 0 L.N_pos).le (hE0 0 L.N_pos)).trans (hG 0 L.N_pos)
  have hcond : ∀ p, conductivity P mat p = arr (D (L.cell p)) (Ea (L.cell p)) ((L.p1 uT).val p) := by
    intro p
    simp only [conductivity, hθ, Bool.false_eq_true, if_false, mul_one, hD p, hE p, hT p]
  -- the temperatures at the quadrature points
  have hTp : ∀ p, |(L.p1 uT).val p - Θ (L.pos x0 p)| ≤ ET + MΘ * H ^ 2 / 8 := by
    intro p
    have hc := L.cell_lt p
    have b := nodal_interp L hL Θ MΘ H p (hΘB _ hc) (hH _ hc)
    have n1 := hnodes _ hc.le
    have n2 := hnodes (L.cell p + 1) hc
    have l0 := hL.lam_nonneg p
    have l1 := hL.lam_le p
    have e : (L.p1 uT).val p - Θ (L.pos x0 p) = (1 - L.lam p) * (uT (L.cell p) - Θ (L.node x0 (L.cell p)))
        + L.lam p * (uT (L.cell p + 1) - Θ (L.node x0 (L.cell p + 1)))
        - (Θ (L.pos x0 p) - ((1 - L.lam p) * Θ (L.node x0 (L.cell p)) + L.lam p * Θ (L.node x0 (L.cell p + 1)))) := by
      simp only [Line.p1]
      ring
    have m1 : |(1 - L.lam p) * (uT (L.cell p) - Θ (L.node x0 (L.cell p)))
        + L.lam p * (uT (L.cell p + 1) - Θ (L.node x0 (L.cell p + 1)))| ≤ ET := by
      refine (abs_add_le _ _).trans ?_
      rw [abs_mul, abs_mul, abs_of_nonneg l0, abs_of_nonneg (sub_nonneg.2 l1)]
      have := mul_le_mul_of_nonneg_left n1 (sub_nonneg.2 l1)
      have := mul_le_mul_of_nonneg_left n2 l0
      linarith
    rw [e]
    exact (abs_sub _ _).trans (add_le_add m1 b)
  refine C104_steady hL hw hM hH hP hd (fun p => ?_) (fun i hi => arr_pos (hDp i hi)) (fun p => ?_) hs hu
  · have hc := L.cell_lt p
    rw [hcond p]
    refine (arr_lipschitz (hDp _ hc).le (hE0 _ hc) hT0 (hu0 p) (hΘ0 p)).trans ?_
    rw [hη]
    refine mul_le_mul ?_ (hTp p) (abs_nonneg _) (by positivity)
    exact div_le_div_of_nonneg_right (hG _ hc) (by positivity)
  · have hc := L.cell_lt p
    rw [hcond p]
    exact arr_mono (hDp _ hc).le (hE0 _ hc) hT0 (hu0 p)

end

/-! ### A temperature gradient

Two cells of size `h` at the temperature `300 (1 + x)`, in a material with the diffusivity `exp(-1/(1 + x))`, that is an activation energy
of `300 k_B`; concentration 0 on the left (growing as `t` in the transient case), 1 entering on the right. -/

namespace GradCase

theorem kB_pos : 0 < kB := by unfold kB; norm_num

noncomputable def k (x : ℝ) : ℝ := Real.exp (-(1 / (1 + x)))

theorem arr_eq (x : ℝ) (hx : 0 ≤ x) : arr 1 (300 * kB) (300 + 300 * x) = k x := by
  have := kB_pos
  have h1 : (300 + 300 * x) ≠ 0 := by positivity
  have h2 : (1 + x) ≠ 0 := by positivity
  unfold arr k
  rw [one_mul]
  congr 1
  field_simp

theorem inv_deriv (x : ℝ) (hx : 0 ≤ x) : HasDerivAt (fun y : ℝ => 1 / (1 + y)) (-(1 / (1 + x) ^ 2)) x := by
  have h : (1 + x) ≠ 0 := by positivity
  have := ((hasDerivAt_id x).const_add 1).inv h
  refine (this.congr_deriv ?_).congr_of_eventuallyEq ?_
  · simp only [id]
    ring
  · exact Filter.Eventually.of_forall fun y => by simp

theorem k_deriv (x : ℝ) (hx : 0 ≤ x) : HasDerivAt k (k x * (1 / (1 + x) ^ 2)) x := by
  have := (inv_deriv x hx).neg.exp
  refine this.congr_deriv ?_
  simp [k]

theorem inv_bounds (x : ℝ) (hx : 0 ≤ x) : 0 < 1 / (1 + x) ∧ 1 / (1 + x) ≤ 1 := by
  refine ⟨by positivity, ?_⟩
  rw [div_le_one (by positivity)]
  linarith

theorem k_bounds (x : ℝ) (hx : 0 ≤ x) : 0 < k x ∧ k x ≤ 1 := by
  refine ⟨Real.exp_pos _, ?_⟩
  unfold k
  rw [Real.exp_le_one_iff]
  linarith [(inv_bounds x hx).1]

theorem lip_of {φ φ' : ℝ → ℝ} {M : ℝ} {s : Set ℝ} (hs : Convex ℝ s) (h : ∀ x ∈ s, HasDerivWithinAt φ (φ' x) s x)
    (hb : ∀ x ∈ s, |φ' x| ≤ M) : ∀ x ∈ s, ∀ y ∈ s, |φ x - φ y| ≤ M * |x - y| := by
  intro x hx y hy
  have := hs.norm_image_sub_le_of_norm_hasDerivWithin_le h (fun z hz => by rw [Real.norm_eq_abs]; exact hb z hz) hy hx
  simpa [Real.norm_eq_abs] using this

theorem k_lip {s : Set ℝ} (hs : Convex ℝ s) (h0 : ∀ x ∈ s, 0 ≤ x) : ∀ x ∈ s, ∀ y ∈ s, |k x - k y| ≤ 1 * |x - y| := by
  refine lip_of hs (fun x hx => (k_deriv x (h0 x hx)).hasDerivWithinAt) fun x hx => ?_
  obtain ⟨a1, a2⟩ := inv_bounds x (h0 x hx)
  obtain ⟨b1, b2⟩ := k_bounds x (h0 x hx)
  have e : 1 / (1 + x) ^ 2 = (1 / (1 + x)) ^ 2 := by rw [div_pow, one_pow]
  rw [e, abs_of_nonneg (by positivity)]
  exact mul_le_one₀ b2 (by positivity) (pow_le_one₀ a1.le a2)

theorem k_bend {s : Set ℝ} (hs : Convex ℝ s) (h0 : ∀ x ∈ s, 0 ≤ x) : Bend k s 2 := by
  refine ⟨fun x => k x * (1 / (1 + x)) ^ 2, fun x hx => ?_, ?_⟩
  · have e : 1 / (1 + x) ^ 2 = (1 / (1 + x)) ^ 2 := by rw [div_pow, one_pow]
    dsimp only
    rw [← e]
    exact (k_deriv x (h0 x hx)).hasDerivWithinAt
  · refine lip_of hs (φ' := fun x => k x * ((1 / (1 + x)) ^ 4 - 2 * (1 / (1 + x)) ^ 3)) (fun x hx => ?_) fun x hx => ?_
    · have h1 := (k_deriv x (h0 x hx)).mul ((inv_deriv x (h0 x hx)).pow 2)
      refine h1.hasDerivWithinAt.congr_deriv ?_
      have : (1 + x) ≠ 0 := by
        have := h0 x hx
        positivity
      simp only [Nat.cast_ofNat, Nat.add_one_sub_one, pow_one, Pi.pow_apply]
      field_simp
      ring
    · obtain ⟨a1, a2⟩ := inv_bounds x (h0 x hx)
      obtain ⟨b1, b2⟩ := k_bounds x (h0 x hx)
      rw [abs_mul, abs_of_pos b1]
      have h2 : |(1 / (1 + x)) ^ 4 - 2 * (1 / (1 + x)) ^ 3| ≤ 2 := by
        have c3 := pow_le_one₀ (n := 3) a1.le a2
        have c4 := pow_le_one₀ (n := 4) a1.le a2
        have d3 : 0 ≤ (1 / (1 + x)) ^ 3 := by positivity
        have d4 : 0 ≤ (1 / (1 + x)) ^ 4 := by positivity
        rw [abs_le]
        constructor <;> linarith
      calc k x * |(1 / (1 + x)) ^ 4 - 2 * (1 / (1 + x)) ^ 3| ≤ 1 * 2 := mul_le_mul b2 h2 (abs_nonneg _) zero_le_one
        _ = 2 := one_mul 2

/-- The slope of the exact solution. -/
noncomputable def sl (x : ℝ) : ℝ := Real.exp (1 / (1 + x))

theorem k_sl (x : ℝ) : k x * sl x = 1 := by
  unfold k sl
  rw [← Real.exp_add, neg_add_cancel, Real.exp_zero]

theorem sl_le (x : ℝ) (hx : 0 ≤ x) : |sl x| ≤ 3 := by
  rw [abs_of_pos (show 0 < sl x from Real.exp_pos _)]
  have h1 : sl x ≤ Real.exp 1 := Real.exp_le_exp.2 (inv_bounds x hx).2
  linarith [Real.exp_one_lt_d9]

theorem sl_deriv (x : ℝ) (hx : 0 ≤ x) : HasDerivAt sl (sl x * -(1 / (1 + x) ^ 2)) x := (inv_deriv x hx).exp

theorem sl_lip {s : Set ℝ} (hs : Convex ℝ s) (h0 : ∀ x ∈ s, 0 ≤ x) : ∀ x ∈ s, ∀ y ∈ s, |sl x - sl y| ≤ 3 * |x - y| := by
  refine lip_of hs (fun x hx => (sl_deriv x (h0 x hx)).hasDerivWithinAt) fun x hx => ?_
  obtain ⟨a1, a2⟩ := inv_bounds x (h0 x hx)
  have e : 1 / (1 + x) ^ 2 = (1 / (1 + x)) ^ 2 := by rw [div_pow, one_pow]
  rw [abs_mul, abs_neg, e]
  have h1 : |(1 / (1 + x)) ^ 2| ≤ 1 := by
    rw [abs_of_nonneg (by positivity)]
    exact pow_le_one₀ a1.le a2
  calc |sl x| * |(1 / (1 + x)) ^ 2| ≤ 3 * 1 := mul_le_mul (sl_le x (h0 x hx)) h1 (abs_nonneg _) (by norm_num)
    _ = 3 := mul_one 3

section
variable (h : ℝ) (hh : 0 < h)

theorem exists_w : ∃ W : ℝ → ℝ, W 0 = 0 ∧ ∀ x ∈ Set.Icc 0 (2 * h), HasDerivWithinAt W (sl x) (Set.Icc 0 (2 * h)) x := by
  rcases le_or_gt 0 (2 * h) with h0 | h0
  · obtain ⟨W, hW⟩ := antideriv h0 (F := sl) fun x hx => (sl_deriv x hx.1).continuousAt.continuousWithinAt
    exact ⟨fun x => W x - W 0, sub_self _, fun x hx => (hW x hx).sub_const _⟩
  · exact ⟨fun _ => 0, rfl, fun x hx => absurd (hx.1.trans hx.2) h0.not_ge⟩

/-- The exact steady concentration. -/
noncomputable def W : ℝ → ℝ := (exists_w h).choose

noncomputable abbrev L : Line (Fin 2 × Fin 3) := BoundCase.simpson h hh

theorem exact2 : (L h hh).Exact2 := BoundCase.simpson_exact2 h hh

theorem span_sub (i : ℕ) (hi : i < (L h hh).N) : (L h hh).span 0 i ⊆ Set.Icc 0 (2 * h) := by
  have hi : i < 2 := hi
  intro x hx
  have h1 := hx.1
  have h2 := hx.2
  simp only [Line.node, BoundCase.simpson, Finset.sum_const, Finset.card_range, nsmul_eq_mul, zero_add] at h1 h2
  have e1 : (0 : ℝ) ≤ (i : ℝ) * h := by positivity
  have e2 : ((i + 1 : ℕ) : ℝ) ≤ 2 := by exact_mod_cast hi
  exact ⟨e1.trans h1, h2.trans (mul_le_mul_of_nonneg_right e2 hh.le)⟩

theorem span_convex (i : ℕ) : Convex ℝ ((L h hh).span 0 i) := convex_Icc _ _

theorem pos_nonneg (p : Fin 2 × Fin 3) : 0 ≤ (L h hh).pos 0 p :=
  (span_sub h hh _ ((L h hh).cell_lt p) ((L h hh).pos_mem (exact2 h hh) 0 p)).1

theorem hasSlope (i : ℕ) (hi : i < (L h hh).N) (x : ℝ) (hx : x ∈ (L h hh).span 0 i) :
    HasDerivWithinAt (W h) (sl x) ((L h hh).span 0 i) x :=
  ((exists_w h).choose_spec.2 x (span_sub h hh i hi hx)).mono (span_sub h hh i hi)

theorem holds : Holds (L h hh) 0 (fun _ => k) (fun _ => 0) (fun _ _ => 0) (W h) (fun _ => sl) (fun _ _ => 0) where
  hasSlope := fun i hi x hx => hasSlope h hh i hi x hx
  hasDiv := fun i _ x _ => (hasDerivWithinAt_const x _ (1 : ℝ)).congr (fun y _ => k_sl y) (k_sl x)
  equation := by simp
  flux := by simp

theorem smooth : HoldsBy (L h hh) 0 (fun _ => k) (fun _ => 0) (W h) (fun _ => sl) (fun _ _ => 0) 0 0 3 3 1 2 where
  bendDecay := fun i _ => by simpa using AccCase.bend_const 0 _
  bendDiv := fun i _ => AccCase.bend_const 0 _
  slope_le := fun i hi x hx => sl_le x (span_sub h hh i hi hx).1
  slope_lip := fun i hi => sl_lip (span_convex h hh i) fun x hx => (span_sub h hh i hi hx).1
  cond_lip := fun i hi => k_lip (span_convex h hh i) fun x hx => (span_sub h hh i hi hx).1
  bendCond := fun i hi => k_bend (span_convex h hh i) fun x hx => (span_sub h hh i hi hx).1

noncomputable def M : Mat := { uid := 0, ids := [1], D_0 := 1, E_D := 300 * kB }

/-- The hydrogen problem with the temperatures `uT` at the nodes. -/
noncomputable def P (dt : Option ℝ) (g : ℝ) (uT : ℕ → ℝ) : Problem (Fin 2 × Fin 3) Bool 1 where
  mesh := (L h hh).mesh (Fld.const 1)
  mats := [M]
  mv := { theta := false, sol := Fld.const 0, prev := Fld.const 0 }
  T := ⟨(L h hh).p1 uT, (L h hh).p1 uT⟩
  dt := dt
  soret := false
  sources := [⟨.given fun _ => g, [1]⟩]
  traps := []

noncomputable def bcs : List (MobBC Bool) := [.flux (.value fun _ => 1) [2]]

theorem linear (dt : Option ℝ) (hdt : ∀ d, dt = some d → 0 < d) (g : ℝ) (uT : ℕ → ℝ) :
    LinearLine (L h hh) (P h hh dt g uT) bcs (fun _ => M) (fun _ => M) (· = false) where
  mesh := ⟨_, rfl⟩
  weights := (exact2 h hh).w_nonneg
  cover := ⟨by intro p; simp [P], by intro p; simp [P, Line.mesh, M, BoundCase.simpson], by simp [P, M]⟩
  solubility := ⟨by simp [P], by simp [P], by simp [P], by simp [P]⟩
  law := by simp [P]
  uniform := by simp [P]
  D_pos := by simp [P, M]
  S_pos := by simp [P]
  step := hdt
  traps := rfl
  decay := by simp [P]
  fluxes := by simp [AffineFlux, bcs]
  fixed := Or.inr ⟨false, Or.inl rfl⟩

noncomputable def Θ (x : ℝ) : ℝ := 300 + 300 * x

theorem nodes (i : ℕ) : (L h hh).node 0 i = i * h := by
  simp [Line.node, BoundCase.simpson]

theorem theta_p1 (p : Fin 2 × Fin 3) : ((L h hh).p1 ((L h hh).nodal 0 Θ)).val p = Θ ((L h hh).pos 0 p) := by
  simp only [Line.p1, Line.nodal, Θ, nodes, Line.pos]
  push_cast
  simp only [BoundCase.simpson]
  ring

theorem conduct (dt : Option ℝ) (g : ℝ) (p : Fin 2 × Fin 3) :
    conductivity (P h hh dt g ((L h hh).nodal 0 Θ)) (fun _ => M) p = k ((L h hh).pos 0 p) := by
  have h1 := theta_p1 h hh p
  simp only [conductivity, P, M, Bool.false_eq_true, if_false, mul_one]
  rw [h1]
  exact arr_eq _ (pos_nonneg h hh p)

theorem end_flux (q : Bool) (hq : ¬ q = false) (dt : Option ℝ) (g : ℝ) (uT : ℕ → ℝ) (x : ℝ) (z : ℝ) :
    k x * sl x * Line.normal q 0 = Weak.fluxAt (P h hh dt g uT) bcs q
      - exchangeAt (P h hh dt g uT) bcs q * unitConc (P h hh dt g uT).mv.theta M ((P h hh dt g uT).T.T.tr q) * z := by
  have : q = true := by simpa using hq
  subst this
  rw [k_sl]
  simp [Line.normal, Weak.fluxAt, exchangeAt, bcs, bcGiven, bcExchange, P, Line.mesh, BoundCase.simpson, inward]

theorem W_zero : W h 0 = 0 := (exists_w h).choose_spec.1

theorem data (uT : ℕ → ℝ) : SteadyVar (L h hh) 0 (fun _ => k) (fun _ => 0) (fun _ _ => 0) (W h) (fun _ => sl) 0
    (P h hh none 0 uT) bcs (fun _ => M) (fun _ => M) (· = false) (fun _ => 0) where
  dt := rfl
  decay := by intro p; simp [decayAt, P, Src.lam, Line.mesh, BoundCase.simpson]
  source := by intro p; simp [givenAt, P, Src.rate, Line.mesh, BoundCase.simpson]
  fixed := by
    rintro q rfl
    simp [Line.node, Line.endNo, W_zero]
  flux := fun q hq => end_flux h hh q hq none 0 uT _ _

/-- The temperature of the heat problem. -/
theorem heat : LinearHeat (L h hh) (Fld.const 1) [M] (fun _ => M) none [] (fun _ => 1) (fun _ => 1) (fun _ => True) where
  weights := (exact2 h hh).w_nonneg
  cover := ⟨by intro p; simp, by intro p; simp [Line.mesh, M, BoundCase.simpson], by simp [M]⟩
  capacity := by intro p T; simp [M, Mat.vcap]
  conduct := by intro p T; simp [M]
  cap_pos := by simp
  cond_pos := by simp
  step := by simp
  fluxes := by simp
  fixed := Or.inr ⟨false, Or.inl trivial⟩

theorem balances : Balances (L h hh) 0 (fun _ => 1) (fun _ => 0) (fun _ _ => 0) Θ (fun _ _ => 300) (fun _ _ => 0) where
  hasSlope := fun i _ x _ => AccCase.hasDeriv_affine 300 300 _ x
  hasCurv := fun _ _ _ _ => hasDerivWithinAt_const _ _ _
  equation := by simp
  flux := by simp

theorem level (uT : ℕ → ℝ) : LevelAt (P h hh none 0 uT) bcs (fun _ => M) (· = false) false 0 := Or.inl ⟨rfl, rfl⟩

/-- The temperature is computed, then the concentration; its error is of the order of `h²` times the size of the domain. -/
example (uT : ℕ → ℝ) (huT : HeatSolves (L h hh) (Fld.const 1) [M] none [] [] (Fld.const 0) (fun _ => True)
      (fun q => if q then 300 + 600 * h else 300) uT) (u : ℕ → ℝ)
    (hu : LineSolves (L h hh) (P h hh none 0 uT) bcs (· = false) (fun _ => 0) u) (i : ℕ) (hi : i ≤ 2) :
    |u i - W h (i * h)| ≤ (2 * h * Real.exp 1) * (h ^ 2 * (9 / 2)) := by
  have hb : BalancesBy (L h hh) 0 (fun _ => 1) (fun _ => 0) Θ (fun _ _ => 0) 0 0 :=
    ⟨fun i _ => by simpa using AccCase.bend_const 0 _, fun i _ => by simpa using AccCase.bend_const 0 _⟩
  have hfix : ∀ q : Bool, True → (if q then 300 + 600 * h else 300) = Θ ((L h hh).node 0 ((L h hh).endNo q)) := by
    intro q _
    rw [nodes]
    cases q
    · simp [Θ, Line.endNo]
    · simp [Θ, Line.endNo, BoundCase.simpson]
      ring
  have hT : ∀ i ≤ (L h hh).N, |uT i - Θ ((L h hh).node 0 i)| ≤ 0 := by
    intro i hi
    have := C103_heat (H := h) (ε := 0) (q0 := false) (s := 0) (exact2 h hh) (balances h hh) hb (fun _ _ => le_rfl) (heat h hh)
      (fun _ => rfl) (by intro p; simp [heatGivenAt]) hfix (by simp) (Or.inl ⟨trivial, rfl⟩) huT i hi
    simpa using this
  have hT' : ∀ p, ((L h hh).p1 uT).val p = Θ ((L h hh).pos 0 p) := by
    intro p
    rw [← theta_p1]
    have e : ∀ i ≤ (L h hh).N, uT i = (L h hh).nodal 0 Θ i := fun i hi => sub_eq_zero.1 (abs_nonpos_iff.1 (hT i hi))
    rw [p1_congr (L h hh) e]
  have hge : ∀ p, 300 ≤ Θ ((L h hh).pos 0 p) := by
    intro p
    have := pos_nonneg h hh p
    unfold Θ
    linarith
  have hK : ∀ i < (L h hh).N, ∀ x ∈ (L h hh).span 0 i, arr 1 (300 * kB) (Θ x) = k x :=
    fun i hi x hx => arr_eq x (span_sub h hh i hi hx).1
  have hc := C104_coupled (H := h) (MΘ := 0) (εT := 0) (qT := false) (sT := 0) (D := fun _ => 1) (Ea := fun _ => 300 * kB)
    (T0 := 300) (G := 300 * kB) (q0 := false) (s := 0) (η := 0) (P := P h hh none 0 uT) (mat := fun _ => M) (exact2 h hh)
    (fun _ _ => le_rfl) (balances h hh) hb
    (fun i _ => ⟨fun _ => 300, fun x _ => AccCase.hasDeriv_affine 300 300 _ x, by simp⟩) (heat h hh)
    (fun _ => rfl) (by intro p; simp [heatGivenAt]) hfix (by simp) (Or.inl ⟨trivial, rfl⟩) huT
    (r := fun _ => 0) (f := fun _ _ => 0) (w := W h) (slope := fun _ => sl) (div := fun _ _ => 0)
    (Mr := 0) (Mx := 0) (S1 := 3) (S2 := 3) (K1 := 1) (K2 := 2) (ε := 0) (bcs := bcs) (matS := fun _ => M) (dir := (· = false))
    (val := fun _ => 0)
    ⟨fun i hi x hx => hasSlope h hh i hi x hx,
      fun i hi x hx => (hasDerivWithinAt_const x _ (1 : ℝ)).congr (fun y hy => by rw [hK i hi y hy]; exact k_sl y)
        (by rw [hK i hi x hx]; exact k_sl x), by simp, by simp⟩
    ⟨(smooth h hh).bendDecay, (smooth h hh).bendDiv, (smooth h hh).slope_le, (smooth h hh).slope_lip,
      fun i hi x hx y hy => by rw [hK i hi x hx, hK i hi y hy]; exact (smooth h hh).cond_lip i hi x hx y hy,
      fun i hi => by
        obtain ⟨φ, h1, h2⟩ := (smooth h hh).bendCond i hi
        exact ⟨φ, fun x hx => (h1 x hx).congr (fun y hy => hK i hi y hy) (hK i hi x hx), h2⟩⟩
    (linear h hh none (by simp) 0 uT) rfl (fun _ => rfl) (fun _ => rfl) (fun _ => rfl)
    (fun _ _ => by have := kB_pos; positivity)
    ⟨rfl, (data h hh uT).decay, (data h hh uT).source, (data h hh uT).fixed, fun q hq => by
      rw [hK _ (endCell_lt _ q) _ (end_mem _ _ q)]
      exact end_flux h hh q hq none 0 uT _ _⟩
    (by norm_num) hge (fun p => by rw [hT']; exact hge p) (fun _ _ => by rw [one_mul]) (level h hh uT) hu
    (by simp) i hi
  rw [nodes] at hc
  refine hc.trans (le_of_eq ?_)
  have e1 : arr 1 (300 * kB) 300 = Real.exp (-1) := by
    have h3 := arr_eq 0 le_rfl
    rw [mul_zero, add_zero] at h3
    rw [h3]
    simp [k]
  have e2 : (L h hh).resist (fun _ => arr 1 (300 * kB) 300) = 2 * h * Real.exp 1 := by
    rw [e1, Real.exp_neg]
    simp [Line.resist, BoundCase.simpson]
    ring
  rw [e2]
  ring

/-- Two cells seen by the derived quantities. -/
noncomputable def field (u : ℕ → ℝ) : PostFun (Fin 2 × Fin 3) Bool 1 where
  val := ((L h hh).p1 u).val
  tr := ((L h hh).p1 u).tr
  gradS q _ := (L h hh).endSlope u q
  cells := [(1, [u 0, u 1]), (1, [u 1, u 2])]
  pt _ := 0
  isFun := true

noncomputable def env (u : ℕ → ℝ) : PostEnv (Fin 2 × Fin 3) Bool 1 where
  mesh := (L h hh).mesh (Fld.const 1)
  n := Line.normal
  D q := if q then k (2 * h) else k 0
  cond := none
  Q := none
  T := field h hh ((L h hh).nodal 0 Θ)
  soret := false
  solute := field h hh u
  traps := []
  ids := []
  adsorbed := []

theorem end_k (q : Bool) : arr 1 (300 * kB) (((L h hh).p1 ((L h hh).nodal 0 Θ)).tr q) = if q then k (2 * h) else k 0 := by
  rw [p1_node, Line.nodal, nodes]
  cases q
  · have := arr_eq 0 le_rfl
    simpa [Line.endNo, Θ] using this
  · have := arr_eq (2 * h) (by positivity)
    simpa [Line.endNo, Θ, BoundCase.simpson] using this

theorem properties (u : ℕ → ℝ) : PropertiesOf (env h hh u) [M] (fun _ => M) :=
  ⟨by intro q; cases q <;> simp [env, Line.mesh, findMat, M, BoundCase.simpson],
    by
      intro q
      have := end_k h hh q
      cases q <;> simp_all [env, field, Line.mesh, findMat, M, BoundCase.simpson, arr, arrheniusCoeff],
    by simp [env], by simp [env]⟩

/-- The flux reported on the right, where 1 enters: first order in `h`. -/
example (u : ℕ → ℝ) (hu : LineSolves (L h hh) (P h hh none 0 ((L h hh).nodal 0 Θ)) bcs (· = false) (fun _ => 0) u) :
    ∃ J, (hydrogenFlux 2).value (env h hh u) false = .ok J ∧
      |J - 1| ≤ k (2 * h) * (Real.exp 1 * (9 + 9 * Real.exp 1) * h ^ 2 + 3 * h) := by
  have hk1 : ∀ x, 0 ≤ x → Real.exp (-1) ≤ k x := by
    intro x hx
    refine Real.exp_le_exp.2 ?_
    linarith [(inv_bounds x hx).2]
  obtain ⟨J, hJ, hb⟩ := C104_flux (H := h) (η := 0) (k0 := fun _ => Real.exp (-1)) (k1 := fun _ => 1) (s := 0) (R := 0)
    (exact2 h hh) (holds h hh) (smooth h hh)
    (fun _ _ => le_rfl) (linear h hh none (by simp) 0 _) (data h hh _) (fun p => by rw [conduct]; simp)
    (fun _ _ => Real.exp_pos _) (fun p => by rw [conduct]; exact hk1 _ (pos_nonneg h hh p))
    (fun p => by rw [conduct]; exact (k_bounds _ (pos_nonneg h hh p)).2) (level h hh _) hu (fun _ _ => le_rfl)
    (env h hh u) false rfl rfl rfl (properties h hh u) (by intro q; simp [env, field, P]) true (κs := k (2 * h))
    (by
      have := end_k h hh true
      simp only [if_true] at this
      simp [env, field, P, M, this])
    (k_bounds _ (by positivity)).1.le
    (by
      have e : (L h hh).node 0 ((L h hh).endNo true) = 2 * h := by
        rw [nodes]
        simp [Line.endNo, BoundCase.simpson]
      rw [e]
      simp) (ρ := 0) (Z := h ^ 2 * (9 / 2)) (by simp) (by ring)
  refine ⟨J, hJ, ?_⟩
  rw [k_sl] at hb
  have e1 : (1 : ℝ) * Line.normal true 0 = 1 := by simp [Line.normal]
  rw [e1] at hb
  refine hb.trans (le_of_eq ?_)
  have e2 : (L h hh).resist (fun _ => Real.exp (-1)) = 2 * h * Real.exp 1 := by
    rw [Real.exp_neg]
    simp [Line.resist, BoundCase.simpson]
    ring
  have e3 : (L h hh).resist (fun _ => 1) = 2 * h := by
    simp [Line.resist, BoundCase.simpson]
  rw [e2, e3, Real.exp_neg]
  simp only [BoundCase.simpson]
  field_simp
  ring

theorem conducts (final : ℝ) : Conducts (L h hh) 0 final (fun _ => 1) (fun _ _ => k) (fun _ _ => 0) (fun _ _ _ => 1)
    (fun t x => t + W h x) (fun _ _ => sl) (fun _ _ _ => 0) (fun _ _ => 1) where
  hasSlope := fun t _ i hi x hx => (hasSlope h hh i hi x hx).const_add t
  hasDiv := fun t ht => (holds h hh).hasDiv
  hasRate := fun t _ i _ x _ => (hasDerivWithinAt_id t _).add_const _
  equation := by simp
  flux := by simp

theorem smooth_t (final : ℝ) : ConductsBy (L h hh) 0 final (fun _ => 1) (fun _ _ => k) (fun _ _ => 0)
    (fun t x => t + W h x) (fun _ _ => sl) (fun _ _ _ => 0) (fun _ _ => 1) 0 0 0 0 3 3 1 2 where
  time := by simp
  bendRate := fun _ _ _ _ => AccCase.bend_const _ _
  bendDecay := fun _ _ _ _ => by simpa using AccCase.bend_const 0 _
  bendDiv := fun _ _ => (smooth h hh).bendDiv
  slope_le := fun _ _ => (smooth h hh).slope_le
  slope_lip := fun _ _ => (smooth h hh).slope_lip
  cond_lip := fun _ _ => (smooth h hh).cond_lip
  bendCond := fun _ _ => (smooth h hh).bendCond

/-- With a source of 1 and the concentration `t` on the left, for any stepsizes. -/
example (τ : ℕ → ℝ) (h0 : τ 0 = 0) (hτ : ∀ n, τ n < τ (n + 1)) : ∃ U : ℕ → ℕ → ℝ,
    (∀ n, LineSolves (L h hh) ((P h hh (some (τ (n + 1) - τ n)) 1 ((L h hh).nodal 0 Θ)).withPrev ((L h hh).p1 (U n))) bcs
      (· = false) (fun _ => τ (n + 1)) (U (n + 1))) ∧
    ∀ n, (L h hh).energy (fun _ => 1) (U n - (L h hh).nodal 0 fun x => τ n + W h x)
      ≤ h ^ 2 * (9 / 2) * √(τ n * h * Real.exp 1) := by
  have hlin := fun n => linear h hh (some (τ (n + 1) - τ n)) (by
    intro d hd
    rw [Option.some.injEq] at hd
    rw [← hd]
    exact sub_pos.2 (hτ n)) 1 ((L h hh).nodal 0 Θ)
  obtain ⟨⟨U, hU0, hU⟩, -⟩ := C90_run (fun n => P h hh (some (τ (n + 1) - τ n)) 1 ((L h hh).nodal 0 Θ)) (fun _ => bcs)
    (fun _ _ => M) (fun _ _ => M) (fun _ => (· = false)) (fun n _ => τ (n + 1)) hlin ((L h hh).nodal 0 (W h))
  refine ⟨U, hU, fun n => ?_⟩
  obtain ⟨kk, hkk⟩ : ∃ kk : ℝ, ∀ j < n, τ (j + 1) - τ j ≤ kk :=
    ⟨∑ j ∈ Finset.range n, (τ (j + 1) - τ j), fun j hj => Finset.single_le_sum (f := fun j => τ (j + 1) - τ j)
      (fun i _ => (sub_pos.2 (hτ i)).le) (Finset.mem_range.2 hj)⟩
  have key := C104_accuracy (H := h) (ε := 0) (η := 0) (k0 := fun _ => Real.exp (-1)) (m := n) (exact2 h hh)
    (conducts h hh (τ n)) (smooth_t h hh (τ n)) (fun _ _ => le_rfl) (fun _ _ => Real.exp_pos _)
    ⟨h0.ge, fun n _ => hτ n, le_rfl, fun n _ => hlin n, fun n _ =>
      { dt := rfl
        content := by intro p; simp [unitConc, P]
        before := by intro p; simp [unitConc, P]
        conduct := fun p => by rw [conduct]; simp
        least := fun p => by
          rw [conduct]
          refine Real.exp_le_exp.2 ?_
          linarith [(inv_bounds _ (pos_nonneg h hh p)).2]
        decay := by intro p; simp [decayAt, P, Src.lam, Line.mesh, BoundCase.simpson]
        source := by intro p; simp [givenAt, P, Src.rate, Line.mesh, BoundCase.simpson]
        fixed := by
          rintro q rfl
          simp [Line.node, Line.endNo, W_zero]
        flux := fun q hq => end_flux h hh q hq _ _ _ _ _ }, fun n _ => hU n⟩ hkk n le_rfl
  refine key.trans (le_of_eq ?_)
  have e0 : (L h hh).energy (fun _ => 1) (U 0 - (L h hh).nodal 0 fun x => τ 0 + W h x) = 0 := by
    have : U 0 - (L h hh).nodal 0 (fun x => τ 0 + W h x) = 0 := by
      rw [hU0, h0]
      funext i
      simp [Line.nodal]
    rw [this]
    simp [Line.energy, Line.p1]
  have e2 : (L h hh).resist (fun _ => Real.exp (-1)) = 2 * h * Real.exp 1 := by
    rw [Real.exp_neg]
    simp [Line.resist, BoundCase.simpson]
    ring
  rw [e0, e2, h0]
  have e3 : (τ n - 0) * (2 * h * Real.exp 1) / 2 = τ n * h * Real.exp 1 := by ring
  rw [e3]
  ring

end

end GradCase

end Festim.Props
