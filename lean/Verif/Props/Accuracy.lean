import Verif.Proofs.Accepted
import Verif.Props.Closed
import Mathlib.MeasureTheory.Integral.IntervalIntegral.FundThmCalculus
import Mathlib.Analysis.SpecialFunctions.Integrals.Basic

/-!
# C101: the results converge to the solution of the diffusion equation

In 1D without traps, with the solver of the code (implicit Euler in time, P1 elements), the computed nodal values are
compared with a function `w t x` of which only ordinary derivatives are mentioned: `Diffuses` (Spec/Accuracy.lean).
-/

open scoped BigOperators

namespace Festim.Props

open Run Spec Newton Solve Closed Weak

section
variable {Ω : Type} [Fintype Ω] {L : Line Ω} {x0 final : ℝ} {cap : ℕ → ℝ} {K lam : ℝ → ℕ → ℝ}
  {f : ℝ → ℕ → ℝ → ℝ} {w : ℝ → ℝ → ℝ} {slope curv : ℝ → ℕ → ℝ → ℝ} {rate : ℝ → ℝ → ℝ} {Mt Mtx Ml Mx : ℝ}

/-- The problem given to the solver for the step from `s` to `t` has the coefficients, sources and boundary values of the
equation of `w`: stepsize `t - s`; content per unit of the unknown `cap` (1, or the solubility with chemical potential
conservation), with the temperatures of both times; conductivity `K` (diffusivity times content); decay constant `lam`;
given sources within `ε` of `f`; and at each end the value of `w`, or its flux. -/
structure StepData (L : Line Ω) (x0 : ℝ) (cap : ℕ → ℝ) (K lam : ℝ → ℕ → ℝ) (f : ℝ → ℕ → ℝ → ℝ) (w : ℝ → ℝ → ℝ)
    (slope : ℝ → ℕ → ℝ → ℝ) (ε s t : ℝ) (P : Problem Ω Bool 1) (bcs : List (MobBC Bool)) (mat : Ω → Mat)
    (matS : Bool → Mat) (dir : Bool → Prop) (val : Bool → ℝ) : Prop where
  dt : P.dt = some (t - s)
  content : ∀ p, unitConc P.mv.theta (mat p) (P.T.T.val p) = cap (L.cell p)
  before : ∀ p, unitConc P.mv.theta (mat p) (P.T.Tn.val p) = cap (L.cell p)
  conduct : ∀ p, conductivity P mat p = K t (L.cell p)
  decay : ∀ p, decayAt P p = lam t (L.cell p)
  source : ∀ p, |givenAt P p - f t (L.cell p) (L.pos x0 p)| ≤ ε
  fixed : ∀ q, dir q → val q = w t (L.node x0 (L.endNo q))
  flux : ∀ q, ¬ dir q →
    EndFlux L x0 K w slope t q (fluxAt P bcs q) (exchangeAt P bcs q * unitConc P.mv.theta (matS q) (P.T.T.tr q))

/-- A run of `m` steps at the times `τ`: `U n` are the nodal values at `τ n`. -/
structure Tracks (L : Line Ω) (x0 final : ℝ) (cap : ℕ → ℝ) (K lam : ℝ → ℕ → ℝ) (f : ℝ → ℕ → ℝ → ℝ) (w : ℝ → ℝ → ℝ)
    (slope : ℝ → ℕ → ℝ → ℝ) (ε : ℝ) (m : ℕ) (τ : ℕ → ℝ) (P : ℕ → Problem Ω Bool 1) (bcs : ℕ → List (MobBC Bool))
    (mat : ℕ → Ω → Mat) (matS : ℕ → Bool → Mat) (dir : ℕ → Bool → Prop) (val : ℕ → Bool → ℝ) (U : ℕ → ℕ → ℝ) :
    Prop where
  start : 0 ≤ τ 0
  later : ∀ n < m, τ n < τ (n + 1)
  finish : τ m ≤ final
  linear : ∀ n < m, LinearLine L (P n) (bcs n) (mat n) (matS n) (dir n)
  data : ∀ n < m, StepData L x0 cap K lam f w slope ε (τ n) (τ (n + 1)) (P n) (bcs n) (mat n) (matS n) (dir n) (val n)
  solves : ∀ n < m, LineSolves L ((P n).withPrev (L.p1 (U n))) (bcs n) (dir n) (val n) (U (n + 1))

theorem StepData.discrete {ε s t : ℝ} {P : Problem Ω Bool 1} {bcs : List (MobBC Bool)} {mat : Ω → Mat}
    {matS : Bool → Mat} {dir : Bool → Prop} {val : Bool → ℝ}
    (hd : StepData L x0 cap K lam f w slope ε s t P bcs mat matS dir val) (hP : LinearLine L P bcs mat matS dir)
    {un u : ℕ → ℝ} (hu : LineSolves L (P.withPrev (L.p1 un)) bcs dir val u) :
    DiscreteStep L cap (K t) (lam t) (givenAt P) (fluxAt P bcs) (exchangeOf P bcs matS) dir (t - s) un u := by
  intro v hv
  obtain ⟨F, hF, h0⟩ := hu.2 v hv
  have h := (LinearLine.withPrev hP (L.p1 un)).residual u v F hF
  rw [h0] at h
  have h := (sub_eq_zero.1 h.symm)
  have e1 : reactionOf (P.withPrev (L.p1 un)) mat = fun p => (1 / (t - s) + lam t (L.cell p)) * cap (L.cell p) := by
    funext p
    have := hd.content p
    have h2 := hd.decay p
    simp only [reactionOf, Problem.withPrev, hd.dt, this]
    rw [← h2]
    rfl
  have e2 : conductivity (P.withPrev (L.p1 un)) mat = fun p => K t (L.cell p) := funext hd.conduct
  have e3 : exchangeOf (P.withPrev (L.p1 un)) bcs matS = exchangeOf P bcs matS := rfl
  have e4 : loadOf (P.withPrev (L.p1 un)) mat
      = fun p => cap (L.cell p) * (L.p1 un).val p / (t - s) + givenAt P p := by
    funext p
    have hb : (P.withPrev (L.p1 un)).cPrev mat p = cap (L.cell p) * (L.p1 un).val p := by
      rw [← hd.before p]
      exact physConc_linear _ _ _ _ fun h => hP.law h _ (hP.cover.mem p)
    have hdt : (P.withPrev (L.p1 un)).dt = some (t - s) := hd.dt
    simp only [loadOf, hdt, hb]
    rfl
  rw [e1, e2, e3, e4] at h
  exact h

theorem cap_pos {ε s t : ℝ} {P : Problem Ω Bool 1} {bcs : List (MobBC Bool)} {mat : Ω → Mat}
    {matS : Bool → Mat} {dir : Bool → Prop} {val : Bool → ℝ}
    (hd : StepData L x0 cap K lam f w slope ε s t P bcs mat matS dir val) (hP : LinearLine L P bcs mat matS dir)
    (i : ℕ) (hi : i < L.N) : ∃ p, L.cell p = i ∧ 0 < cap i ∧ 0 < K t i ∧ 0 ≤ lam t i := by
  obtain ⟨p, hp⟩ : ∃ p, L.cell p = i := by
    by_contra hn
    push Not at hn
    have := L.exact i hi
    rw [Finset.filter_false_of_mem fun p _ => hn p, Finset.sum_empty] at this
    exact (L.h_pos i hi).ne this
  refine ⟨p, hp, ?_, ?_, ?_⟩
  · rw [← hp, ← hd.content p]
    exact unitConc_pos fun h => hP.S_pos h _ (hP.cover.mem p)
  · rw [← hp, ← hd.conduct p]
    exact conductivity_pos hP p
  · rw [← hp, ← hd.decay p]
    exact decayAt_nonneg P hP.decay p

/-- **C101.** One step of the simulation, as the code sets it up, from any state: the distance to the exact solution grows at
most by the stepsize times `size (Mt/2 stepsize + H²/8 (...) + ε)`. -/
theorem C101_step (hL : L.Exact2) (hw : Diffuses L x0 final cap K lam f w slope curv rate)
    (hM : SmoothBy L x0 final cap K lam w curv rate Mt Mtx Ml Mx) {s t H ε : ℝ} (hs : 0 ≤ s) (hst : s < t)
    (ht : t ≤ final) (hH : ∀ i < L.N, L.h i ≤ H) {P : Problem Ω Bool 1} {bcs : List (MobBC Bool)} {mat : Ω → Mat}
    {matS : Bool → Mat} {dir : Bool → Prop} {val : Bool → ℝ} (hP : LinearLine L P bcs mat matS dir)
    (hd : StepData L x0 cap K lam f w slope ε s t P bcs mat matS dir val) {un u : ℕ → ℝ}
    (hu : LineSolves L (P.withPrev (L.p1 un)) bcs dir val u) :
    L.energy cap (u - L.nodal x0 (w t)) ≤ L.energy cap (un - L.nodal x0 (w s))
      + (t - s) * (L.size cap * (Mt / 2 * (t - s) + H ^ 2 / 8 * (Mtx + Ml + 3 * Mx) + ε)) := by
  refine accuracy_step hL (fun i hi => ?_) hw hM hs hst ht hH hd.source hd.flux (fun i hi => ?_) (fun i hi => ?_)
    (fun q => ?_) (hd.discrete hP hu) fun q hq => ?_
  · obtain ⟨_, -, h, -⟩ := cap_pos hd hP i hi
    exact h
  · obtain ⟨_, -, -, h, -⟩ := cap_pos hd hP i hi
    exact h.le
  · obtain ⟨_, -, -, -, h⟩ := cap_pos hd hP i hi
    exact h
  · exact mul_nonneg (exchangeAt_nonneg P bcs hP.fluxes q)
      (unitConc_pos fun h => hP.S_pos h _ (hP.solubility.memS h q)).le
  · rw [hu.1 q hq, hd.fixed q hq]

section
variable {ε : ℝ} {m : ℕ} {τ : ℕ → ℝ} {P : ℕ → Problem Ω Bool 1} {bcs : ℕ → List (MobBC Bool)} {mat : ℕ → Ω → Mat}
  {matS : ℕ → Bool → Mat} {dir : ℕ → Bool → Prop} {val : ℕ → Bool → ℝ} {U : ℕ → ℕ → ℝ}

theorem Tracks.times (h : Tracks L x0 final cap K lam f w slope ε m τ P bcs mat matS dir val U) :
    ∀ n ≤ m, 0 ≤ τ n ∧ τ n ≤ final := by
  have mono : ∀ j n, n + j ≤ m → τ n ≤ τ (n + j) := by
    intro j
    induction j with
    | zero => intro n _; exact le_rfl
    | succ j ih => intro n hn; exact (ih n (by omega)).trans (h.later (n + j) (by omega)).le
  intro n hn
  refine ⟨h.start.trans (by simpa using mono n 0 (by omega)), le_trans ?_ h.finish⟩
  have := mono (m - n) n (by omega)
  rwa [Nat.add_sub_cancel' hn] at this

/-- **C101.** A whole simulation with any stepsizes: first order in the stepsize, second order in the mesh size, for all
meshes, materials, temperatures, sources, decays and boundary conditions for which the solution is smooth in each cell. -/
theorem C101_accuracy (hL : L.Exact2) (hw : Diffuses L x0 final cap K lam f w slope curv rate)
    (hM : SmoothBy L x0 final cap K lam w curv rate Mt Mtx Ml Mx) {H k : ℝ} (hH : ∀ i < L.N, L.h i ≤ H)
    (h : Tracks L x0 final cap K lam f w slope ε m τ P bcs mat matS dir val U)
    (hk : ∀ n < m, τ (n + 1) - τ n ≤ k) :
    ∀ n ≤ m, L.energy cap (U n - L.nodal x0 (w (τ n))) ≤ L.energy cap (U 0 - L.nodal x0 (w (τ 0)))
      + (τ n - τ 0) * (L.size cap * (Mt / 2 * k + H ^ 2 / 8 * (Mtx + Ml + 3 * Mx) + ε)) := by
  intro n
  induction n with
  | zero => intro _; simp
  | succ n ih =>
    intro hn
    have hlt : n < m := hn
    have h1 := C101_step hL hw hM (h.times n hlt.le).1 (h.later n hlt) (h.times (n + 1) hn).2 hH (h.linear n hlt)
      (h.data n hlt) (h.solves n hlt)
    have h2 := ih hlt.le
    have hpos : 0 < τ (n + 1) - τ n := sub_pos.2 (h.later n hlt)
    have hMt : 0 ≤ Mt := by
      have hN := L.N_pos
      have hx := L.node_left_mem x0 0 hN
      have := hM.time 0 hN _ hx (τ n) (h.times n hlt.le) (τ (n + 1)) (h.times (n + 1) hn)
      have h3 := (abs_nonneg _).trans this
      rw [abs_sub_comm] at h3
      exact nonneg_of_mul_nonneg_left h3 (abs_pos.2 hpos.ne')
    have hs : 0 ≤ L.size cap := Real.sqrt_nonneg _
    have h4 : (τ (n + 1) - τ n) * (L.size cap * (Mt / 2 * (τ (n + 1) - τ n) + H ^ 2 / 8 * (Mtx + Ml + 3 * Mx) + ε))
        ≤ (τ (n + 1) - τ n) * (L.size cap * (Mt / 2 * k + H ^ 2 / 8 * (Mtx + Ml + 3 * Mx) + ε)) := by
      refine mul_le_mul_of_nonneg_left (mul_le_mul_of_nonneg_left ?_ hs) hpos.le
      have := mul_le_mul_of_nonneg_left (hk n hlt) (half_pos (zero_lt_two' ℝ)).le
      nlinarith [mul_le_mul_of_nonneg_left (hk n hlt) hMt]
    calc _ ≤ _ := h1
      _ ≤ _ := add_le_add h2 h4
      _ = _ := by ring

theorem energy_zero (hL : L.Exact2) (hcap : ∀ i < L.N, 0 < cap i) {v : ℕ → ℝ} (h : L.energy cap v ≤ 0) :
    ∀ i ≤ L.N, v i = 0 := by
  have h0 : L.energy cap v ^ 2 = 0 := by
    rw [le_antisymm h (Real.sqrt_nonneg _)]; ring
  rw [energy_sq L hL hcap, energy_cells L hL] at h0
  have hq : ∀ a b : ℝ, 0 ≤ a ^ 2 + a * b + b ^ 2 := fun a b => by nlinarith [sq_nonneg (a + b), sq_nonneg a, sq_nonneg b]
  have h1 := (Finset.sum_eq_zero_iff_of_nonneg fun i hi => mul_nonneg (hcap i (Finset.mem_range.1 hi)).le
    (div_nonneg (mul_nonneg (L.h_pos i (Finset.mem_range.1 hi)).le (hq _ _)) (by norm_num))).1 h0
  have h2 : ∀ i < L.N, v i = 0 ∧ v (i + 1) = 0 := by
    intro i hi
    have h3 := h1 i (Finset.mem_range.2 hi)
    have hc := (hcap i hi).ne'
    have hh := (L.h_pos i hi).ne'
    have h4 : v i ^ 2 + v i * v (i + 1) + v (i + 1) ^ 2 = 0 := by
      rcases mul_eq_zero.1 h3 with h5 | h5
      · exact absurd h5 hc
      · have h6 := (div_eq_zero_iff.1 h5).resolve_right (by norm_num)
        exact (mul_eq_zero.1 h6).resolve_left hh
    constructor
    · nlinarith [sq_nonneg (v i + 2 * v (i + 1)), sq_nonneg (v i)]
    · nlinarith [sq_nonneg (2 * v i + v (i + 1)), sq_nonneg (v (i + 1))]
  intro i hi
  rcases hi.lt_or_eq with hlt | rfl
  · exact (h2 i hlt).1
  · have := (h2 (L.N - 1) (Nat.sub_lt L.N_pos one_pos)).2
    rwa [show L.N - 1 + 1 = L.N from Nat.sub_add_cancel L.N_pos] at this

/-- **C101.** Exactness: if the solution is affine in time and at most quadratic in each cell (with its rate and decay affine
in space) and the sources are represented exactly, the simulation returns its exact nodal values, for all meshes and
stepsizes. -/
theorem C101_exact (hL : L.Exact2) (hw : Diffuses L x0 final cap K lam f w slope curv rate)
    (hM : SmoothBy L x0 final cap K lam w curv rate 0 0 0 0)
    (h : Tracks L x0 final cap K lam f w slope 0 m τ P bcs mat matS dir val U)
    (h0 : ∀ i ≤ L.N, U 0 i = w (τ 0) (L.node x0 i)) :
    ∀ n ≤ m, ∀ i ≤ L.N, U n i = w (τ n) (L.node x0 i) := by
  intro n hn
  rcases Nat.eq_zero_or_pos m with hm | hm
  · obtain rfl : n = 0 := by omega
    exact h0
  have hcap : ∀ i < L.N, 0 < cap i := fun i hi => by
    obtain ⟨_, -, h, -⟩ := cap_pos (h.data 0 hm) (h.linear 0 hm) i hi
    exact h
  obtain ⟨k, hk⟩ : ∃ k, ∀ n < m, τ (n + 1) - τ n ≤ k := by
    refine ⟨final, fun n hn => ?_⟩
    have h1 := (h.times n hn.le).1
    have h2 := (h.times (n + 1) hn).2
    linarith
  obtain ⟨H, hH⟩ : ∃ H, ∀ i < L.N, L.h i ≤ H :=
    ⟨∑ i ∈ Finset.range L.N, L.h i, fun i hi => Finset.single_le_sum (f := L.h)
      (fun j hj => (L.h_pos j (Finset.mem_range.1 hj)).le) (Finset.mem_range.2 hi)⟩
  have h1 := C101_accuracy hL hw hM hH h hk n hn
  have h2 : L.energy cap (U 0 - L.nodal x0 (w (τ 0))) = 0 := by
    unfold Line.energy
    rw [Real.sqrt_eq_zero']
    refine (Finset.sum_eq_zero fun p _ => ?_).le
    have hi := L.cell_lt p
    simp [Line.p1, Line.nodal, h0 _ hi.le, h0 _ hi]
  rw [h2] at h1
  intro i hi
  have := energy_zero hL hcap (h1.trans (by simp)) i hi
  simpa [Line.nodal, sub_eq_zero] using this

end

/-- **C101.** Convergence: for a domain of length at most `ℓ`, contents at least `c0`, a final time and smoothness
constants, the error at all the times is below any `δ` as soon as the cells, the stepsizes, the error on the sources and
the error on the initial condition are small enough; how small does not depend on the mesh, nor on anything else. -/
theorem C101_converges (ℓ c0 final Mt Mtx Ml Mx δ : ℝ) (hc0 : 0 < c0) (hδ : 0 < δ) : ∃ η > 0,
    ∀ {Ω : Type} [Fintype Ω] (L : Line Ω) (x0 : ℝ) (cap : ℕ → ℝ) (K lam : ℝ → ℕ → ℝ) (f : ℝ → ℕ → ℝ → ℝ)
      (w : ℝ → ℝ → ℝ) (slope curv : ℝ → ℕ → ℝ → ℝ) (rate : ℝ → ℝ → ℝ) (ε : ℝ) (m : ℕ) (τ : ℕ → ℝ)
      (P : ℕ → Problem Ω Bool 1) (bcs : ℕ → List (MobBC Bool)) (mat : ℕ → Ω → Mat) (matS : ℕ → Bool → Mat)
      (dir : ℕ → Bool → Prop) (val : ℕ → Bool → ℝ) (U : ℕ → ℕ → ℝ), L.Exact2 →
      ∑ i ∈ Finset.range L.N, L.h i ≤ ℓ → (∀ i < L.N, c0 ≤ cap i) →
      Diffuses L x0 final cap K lam f w slope curv rate → SmoothBy L x0 final cap K lam w curv rate Mt Mtx Ml Mx →
      Tracks L x0 final cap K lam f w slope ε m τ P bcs mat matS dir val U →
      (∀ i < L.N, L.h i ≤ η) → (∀ n < m, τ (n + 1) - τ n ≤ η) → ε ≤ η →
      L.energy cap (U 0 - L.nodal x0 (w (τ 0))) ≤ η →
      ∀ n ≤ m, L.energy cap (U n - L.nodal x0 (w (τ n))) ≤ δ := by
  set A : ℝ := |final| * (√(ℓ / c0) * (|Mt| / 2 + (|Mtx| + |Ml| + 3 * |Mx|) / 8 + 1)) with hA
  have hA0 : 0 ≤ A := by positivity
  refine ⟨min 1 (δ / (1 + A)), by positivity, ?_⟩
  intro Ω _ L x0 cap K lam f w slope curv rate ε m τ P bcs mat matS dir val U hL hℓ hc hw hM h hH hk hε h0 n hn
  set η := min 1 (δ / (1 + A)) with hη
  have hη0 : 0 < η := by positivity
  have hη1 : η ≤ 1 := min_le_left _ _
  have h1 := C101_accuracy hL hw hM hH h hk n hn
  have hsize : L.size cap ≤ √(ℓ / c0) := by
    refine Real.sqrt_le_sqrt (le_trans ?_ (div_le_div_of_nonneg_right hℓ hc0.le))
    rw [Finset.sum_div]
    exact Finset.sum_le_sum fun i hi => div_le_div_of_nonneg_left (L.h_pos i (Finset.mem_range.1 hi)).le hc0
      (hc i (Finset.mem_range.1 hi))
  have hτ : τ n - τ 0 ≤ |final| := by
    have := (h.times n hn).2
    have h2 := h.start
    have h3 := le_abs_self final
    linarith
  have hτ0 : 0 ≤ τ n - τ 0 := by
    have mono : ∀ n ≤ m, τ 0 ≤ τ n := by
      intro n
      induction n with
      | zero => intro _; exact le_rfl
      | succ n ih => intro hn; exact (ih (by omega)).trans (h.later n hn).le
    linarith [mono n hn]
  have hin : Mt / 2 * η + η ^ 2 / 8 * (Mtx + Ml + 3 * Mx) + ε
      ≤ (|Mt| / 2 + (|Mtx| + |Ml| + 3 * |Mx|) / 8 + 1) * η := by
    have e1 : Mt / 2 * η ≤ |Mt| / 2 * η := by
      refine mul_le_mul_of_nonneg_right ?_ hη0.le
      linarith [le_abs_self Mt]
    have e2 : η ^ 2 / 8 * (Mtx + Ml + 3 * Mx) ≤ (|Mtx| + |Ml| + 3 * |Mx|) / 8 * η := by
      have e3 : Mtx + Ml + 3 * Mx ≤ |Mtx| + |Ml| + 3 * |Mx| := by
        linarith [le_abs_self Mtx, le_abs_self Ml, le_abs_self Mx]
      have e4 : 0 ≤ |Mtx| + |Ml| + 3 * |Mx| := by positivity
      have e5 : η ^ 2 ≤ η := by nlinarith
      calc η ^ 2 / 8 * (Mtx + Ml + 3 * Mx) ≤ η ^ 2 / 8 * (|Mtx| + |Ml| + 3 * |Mx|) :=
            mul_le_mul_of_nonneg_left e3 (by positivity)
        _ ≤ η / 8 * (|Mtx| + |Ml| + 3 * |Mx|) := mul_le_mul_of_nonneg_right (by linarith) e4
        _ = _ := by ring
    linarith
  have hB : 0 ≤ (|Mt| / 2 + (|Mtx| + |Ml| + 3 * |Mx|) / 8 + 1) * η := by positivity
  have hs0 : 0 ≤ L.size cap := Real.sqrt_nonneg _
  have h5 : (τ n - τ 0) * (L.size cap * (Mt / 2 * η + η ^ 2 / 8 * (Mtx + Ml + 3 * Mx) + ε)) ≤ A * η := by
    calc (τ n - τ 0) * (L.size cap * (Mt / 2 * η + η ^ 2 / 8 * (Mtx + Ml + 3 * Mx) + ε))
        ≤ (τ n - τ 0) * (L.size cap * ((|Mt| / 2 + (|Mtx| + |Ml| + 3 * |Mx|) / 8 + 1) * η)) :=
          mul_le_mul_of_nonneg_left (mul_le_mul_of_nonneg_left hin hs0) hτ0
      _ ≤ |final| * (√(ℓ / c0) * ((|Mt| / 2 + (|Mtx| + |Ml| + 3 * |Mx|) / 8 + 1) * η)) := by
          refine mul_le_mul hτ (mul_le_mul_of_nonneg_right hsize hB) (mul_nonneg hs0 hB) (abs_nonneg _)
      _ = A * η := by rw [hA]; ring
  have h6 : η * (1 + A) ≤ δ := by
    have := min_le_right 1 (δ / (1 + A))
    rw [← hη] at this
    rwa [le_div_iff₀ (by positivity)] at this
  linarith

/-! ### With the tolerances of the solver, in the time loop -/

theorem small_le {o : Opts} {r : ℝ} (ho : o.rtol ≤ 1) (h : Small o r r) : r ≤ o.atol := by
  rcases h with h | ⟨h0, h⟩
  · exact h.le
  · rw [div_self h0] at h
    exact absurd h (not_lt.2 (by exact_mod_cast ho))

/-- **C101.** A step accepted because the residual was below the absolute tolerance before the first iteration: the field left
by the solver is that close to the solution of the step. -/
theorem C101_accepted (hL : L.Exact2) {s t ε : ℝ} {P : Problem Ω Bool 1} {bcs : List (MobBC Bool)} {mat : Ω → Mat}
    {matS : Bool → Mat} {dir : Bool → Prop} {val : Bool → ℝ} (hP : LinearLine L P bcs mat matS dir) (hst : s < t)
    (hd : StepData L x0 cap K lam f w slope ε s t P bcs mat matS dir val) {μ : ℝ} (hμ : 0 < μ)
    (hm : ∀ i < L.N, μ ≤ cap i * L.h i) {un : ℕ → ℝ} {S : System (Fin (L.N + 1))}
    (hS : LineSystem L (P.withPrev (L.p1 un)) bcs S) (hJ : IsJacobian S) (hcell : ∀ i, 0 < S.cells i)
    (hv : EndValues L S dir val) {o : Opts} (ho : o.rtol ≤ 1) {u : Fin (L.N + 1) → ℝ}
    (hu : Small o (norm2 (S.rhs u)) (norm2 (S.rhs u))) {x : ℕ → ℝ}
    (hx : LineSolves L (P.withPrev (L.p1 un)) bcs dir val x) :
    L.energy cap (extend L.N u - x) ≤ o.atol * (L.mass cap + (t - s) * √(6 / μ)) := by
  have hP' := LinearLine.withPrev hP (L.p1 un)
  have hF : ∀ x (j : Fin (L.N + 1)), S.F x j
      = bil L (reactionOf (P.withPrev (L.p1 un)) mat) (conductivity P mat) (exchangeOf P bcs matS) (extend L.N x) (hat j)
        - Weak.lin L (loadOf (P.withPrev (L.p1 un)) mat) (fluxAt P bcs) (hat j) := by
    intro x j
    obtain ⟨F, h1, h2⟩ := hS x j
    rw [h2, hP'.residual _ _ F h1]
    rfl
  refine accepted_close hL (fun i hi => ?_) hμ (sub_pos.2 hst) hm (fun p => ?_) (fun p => (conductivity_pos hP p).le)
    (fun q => ?_) hJ hcell hv hF (small_le ho hu) hx.1 fun v hv => ?_
  · obtain ⟨_, -, h, -⟩ := cap_pos hd hP i hi
    exact h
  · obtain ⟨_, -, h, -, h'⟩ := cap_pos hd hP _ (L.cell_lt p)
    have e : reactionOf (P.withPrev (L.p1 un)) mat p = (1 / (t - s) + lam t (L.cell p)) * cap (L.cell p) := by
      have := hd.content p
      have h2 := hd.decay p
      simp only [reactionOf, Problem.withPrev, hd.dt, this]
      rw [← h2]
      rfl
    rw [e, add_mul, one_div_mul_eq_div]
    exact le_add_of_nonneg_right (mul_nonneg h' h.le)
  · exact mul_nonneg (exchangeAt_nonneg P bcs hP.fluxes q)
      (unitConc_pos fun h => hP.S_pos h _ (hP.solubility.memS h q)).le
  · obtain ⟨F, hF, h0⟩ := hx.2 v hv
    rw [hP'.residual x v F hF] at h0
    exact sub_eq_zero.1 h0

/-- **C101.** The whole program: time loop with any (adaptive) stepsizes, milestones, Newton solver with its tolerances.  All
the fields it records are close to the exact solution at their times: the errors are those of the time stepping, of the
mesh and of the source, and the absolute tolerance for each step. -/
theorem C101_run (hL : L.Exact2) {finalR : ℝ} (hw : Diffuses L x0 finalR cap K lam f w slope curv rate)
    (hM : SmoothBy L x0 finalR cap K lam w curv rate Mt Mtx Ml Mx) {H η k μ : ℝ} (hH : ∀ i < L.N, L.h i ≤ H)
    (hμ : 0 < μ) (hm : ∀ i < L.N, μ ≤ cap i * L.h i)
    (cfg : Stepsize) (final ε : ℚ) (he : StepsAtLeast cfg ε) (hif : cfg.initialValue ≤ final) (hfin : (final : ℝ) ≤ finalR)
    (P : ℚ → ℚ → Problem Ω Bool 1) (bcs : ℚ → List (MobBC Bool)) (mat : ℚ → Ω → Mat) (matS : ℚ → Bool → Mat)
    (dir : ℚ → Bool → Prop) (val : ℚ → Bool → ℝ)
    (hP : ∀ t dt, 0 < dt → LinearLine L (P t dt) (bcs t) (mat t) (matS t) (dir t))
    (hdata : ∀ t dt : ℚ, 0 < dt → dt ≤ t → t ≤ final →
      StepData L x0 cap K lam f w slope η (t - dt : ℝ) t (P t dt) (bcs t) (mat t) (matS t) (dir t) (val t))
    (sys : ℚ → ℚ → (Fin (L.N + 1) → ℝ) → System (Fin (L.N + 1)))
    (hsys : ∀ t dt un, 0 < dt → LineSystem L ((P t dt).withPrev (L.p1 (extend L.N un))) (bcs t) (sys t dt un) ∧
      IsJacobian (sys t dt un) ∧ (∀ i, 0 < (sys t dt un).cells i) ∧ EndValues L (sys t dt un) (dir t) (val t))
    {lin : Matrix _ _ ℝ → (Fin (L.N + 1) → ℝ) → Fin (L.N + 1) → ℝ} (hl : LinearSolver lin) (o : Opts)
    (ha : 0 < o.atol) (hr : o.rtol ≤ 1) (hit : 0 < o.maxIt) (guess init : Fin (L.N + 1) → ℝ) (n : ℕ) (hn : final ≤ n * ε)
    (s : CoupledState (Fin (L.N + 1) → ℝ) Unit) (hs : s = exec cfg final (newton sys lin o) guess init n)
    (hk : ∀ r ∈ s.recs, (r.dtH : ℝ) ≤ k) :
    Returned s.run ∧
    (∃ before last, s.recs = before ++ [last] ∧ final * (1 - 1 / 100000) ≤ last.t ∧ last.t ≤ final) ∧
    ∀ i, ∀ hi : i < s.recs.length,
      L.energy cap (extend L.N s.recs[i].u - L.nodal x0 (w s.recs[i].t))
        ≤ L.energy cap (extend L.N init - L.nodal x0 (w 0))
          + s.recs[i].t * (L.size cap * (Mt / 2 * k + H ^ 2 / 8 * (Mtx + Ml + 3 * Mx) + η))
          + o.atol * ((i + 1) * L.mass cap + s.recs[i].t * √(6 / μ)) := by
  obtain ⟨h1, h2, h3, h4, h5⟩ := C96_linear cfg final ε he hif P bcs mat matS dir val hP sys hsys hl o ha hit guess init n
    hn s hs
  refine ⟨h1, h3, ?_⟩
  -- the times
  have htimes : ∀ i, ∀ hi : i < s.recs.length, s.recs[i].dtH ≤ s.recs[i].t ∧ s.recs[i].t ≤ final := by
    have hnext : ∀ i, ∀ hi : i + 1 < s.recs.length, s.recs[i + 1].t = s.recs[i].t + s.recs[i + 1].dtH := by
      intro i hi
      rw [(h4 (i + 1) hi).1, (h4 i (by omega)).1, List.take_succ_eq_append_getElem hi, List.map_append, List.sum_append]
      simp
    have hpos : ∀ i, ∀ hi : i < s.recs.length, s.recs[i].dtH ≤ s.recs[i].t := by
      intro i
      induction i with
      | zero =>
        intro hi
        rw [(h4 0 hi).1]
        simp [List.take_succ_eq_append_getElem hi]
      | succ i ih =>
        intro hi
        have := ih (by omega)
        have h6 := (h4 i (by omega)).2
        rw [hnext i hi]
        linarith
    obtain ⟨before, last, hb, -, hlast⟩ := h3
    have hle : ∀ j i, ∀ hi : i + j < s.recs.length, s.recs[i].t ≤ s.recs[i + j].t := by
      intro j
      induction j with
      | zero => intro i hi; exact le_rfl
      | succ j ih =>
        intro i hi
        refine (ih i (by omega)).trans ?_
        have := hnext (i + j) hi
        have h6 := (h4 (i + j + 1) hi).2
        show s.recs[i + j].t ≤ s.recs[i + j + 1].t
        rw [this]
        linarith
    intro i hi
    refine ⟨hpos i hi, ?_⟩
    have hlen : s.recs.length = before.length + 1 := by rw [hb]; simp
    have h7 := hle (before.length - i) i (by omega)
    have h8 : s.recs[i + (before.length - i)]'(by omega) = last := by
      have e : i + (before.length - i) = before.length := by omega
      simp only [e, hb]
      simp
    rw [h8] at h7
    exact h7.trans hlast
  have hnext : ∀ i, ∀ hi : i + 1 < s.recs.length, s.recs[i + 1].t - s.recs[i + 1].dtH = s.recs[i].t := by
    intro i hi
    rw [(h4 (i + 1) hi).1, (h4 i (by omega)).1, List.take_succ_eq_append_getElem hi, List.map_append, List.sum_append]
    simp
  have hfirst : ∀ hi : 0 < s.recs.length, s.recs[0].t = s.recs[0].dtH := by
    intro hi
    rw [(h4 0 hi).1]
    simp [List.take_succ_eq_append_getElem hi]
  -- one step
  have hstep : ∀ r ∈ s.recs, 0 < r.dtH → r.dtH ≤ r.t → r.t ≤ final →
      L.energy cap (extend L.N r.u - L.nodal x0 (w r.t))
        ≤ L.energy cap (extend L.N r.prev - L.nodal x0 (w ((r.t - r.dtH : ℚ) : ℝ)))
          + r.dtH * (L.size cap * (Mt / 2 * k + H ^ 2 / 8 * (Mtx + Ml + 3 * Mx) + η))
          + o.atol * (L.mass cap + r.dtH * √(6 / μ)) := by
    intro r hr' hdt hle hfi
    have hd := hdata r.t r.dtH hdt hle hfi
    have hP' := hP r.t r.dtH hdt
    have hdtR : (0 : ℝ) < r.dtH := by exact_mod_cast hdt
    have hsR : (0 : ℝ) ≤ (r.t : ℝ) - r.dtH := by
      have : (r.dtH : ℝ) ≤ r.t := by exact_mod_cast hle
      linarith
    have hlt : (r.t : ℝ) - r.dtH < r.t := by linarith
    have htR : (r.t : ℝ) ≤ finalR := le_trans (by exact_mod_cast hfi) hfin
    have hcap : ∀ i < L.N, 0 < cap i := fun i hi => by
      obtain ⟨_, -, h, -⟩ := cap_pos hd hP' i hi
      exact h
    obtain ⟨x, hx⟩ := C90_exists (LinearLine.withPrev hP' (L.p1 (extend L.N r.prev))) (val r.t)
    have e1 := C101_step hL hw hM hsR hlt htR hH hP' hd hx
    rw [sub_sub_cancel] at e1
    have hMt : 0 ≤ Mt := by
      have hN := L.N_pos
      have := hM.time 0 hN _ (L.node_left_mem x0 0 hN) _ ⟨hsR, hlt.le.trans htR⟩ r.t ⟨hsR.trans hlt.le, htR⟩
      have h9 := (abs_nonneg _).trans this
      rw [abs_sub_comm, sub_sub_cancel] at h9
      exact nonneg_of_mul_nonneg_left h9 (abs_pos.2 hdtR.ne')
    have e2 : (r.dtH : ℝ) * (L.size cap * (Mt / 2 * r.dtH + H ^ 2 / 8 * (Mtx + Ml + 3 * Mx) + η))
        ≤ r.dtH * (L.size cap * (Mt / 2 * k + H ^ 2 / 8 * (Mtx + Ml + 3 * Mx) + η)) := by
      refine mul_le_mul_of_nonneg_left (mul_le_mul_of_nonneg_left ?_ (Real.sqrt_nonneg _)) hdtR.le
      nlinarith [mul_le_mul_of_nonneg_left (hk r hr') hMt]
    have e3 : L.energy cap (extend L.N r.u - x) ≤ o.atol * (L.mass cap + r.dtH * √(6 / μ)) := by
      rcases h5 r hr' with h | ⟨-, h⟩
      · have := C90_unique (LinearLine.withPrev hP' (L.p1 (extend L.N r.prev))) (val r.t) _ _ h hx
        have h0 : L.energy cap (extend L.N r.u - x) = 0 := by
          have e : L.energy cap (extend L.N r.u - x) = L.energy cap 0 :=
            energy_congr L cap fun i hi => by simp [this i hi]
          rw [e]
          simp [Line.energy, Line.p1]
        rw [h0]
        have : 0 ≤ L.mass cap := Real.sqrt_nonneg _
        positivity
      · obtain ⟨g1, g2, g3, g4⟩ := hsys r.t r.dtH r.prev hdt
        have := C101_accepted hL hP' hlt hd hμ hm g1 g2 g3 g4 hr h hx
        rwa [sub_sub_cancel] at this
    have e4 := energy_add_le hL hcap (extend L.N r.u - x) (x - L.nodal x0 (w r.t))
    rw [sub_add_sub_cancel] at e4
    push_cast
    linarith
  intro i
  induction i with
  | zero =>
    intro hi
    have h6 := hstep _ (List.getElem_mem hi) (h4 0 hi).2 (htimes 0 hi).1 (htimes 0 hi).2
    have h7 := (h2.first s.recs[0] (by rw [List.head?_eq_getElem?, List.getElem?_eq_getElem hi])).2.1
    rw [h7, hfirst hi, sub_self] at h6
    rw [hfirst hi]
    simpa using h6
  | succ i ih =>
    intro hi
    have h6 := hstep _ (List.getElem_mem hi) (h4 _ hi).2 (htimes _ hi).1 (htimes _ hi).2
    have h7 := (h2.next i hi).2.1
    rw [h7, hnext i hi] at h6
    have h8 := ih (by omega)
    have h9 : (s.recs[i + 1].t : ℝ) = s.recs[i].t + s.recs[i + 1].dtH := by
      have := hnext i hi
      have h10 : s.recs[i + 1].t = s.recs[i].t + s.recs[i + 1].dtH := by linarith
      rw [h10]; push_cast; ring
    have h11 : ∀ a b : ℝ, (s.recs[i + 1].t : ℝ) * a = s.recs[i].t * a + s.recs[i + 1].dtH * a := by
      intro a b; rw [h9]; ring
    push_cast
    rw [h11 _ 0]
    rw [h11 _ 0]
    linarith

/-! ### The inventory -/

theorem cell_integral {φ : ℝ → ℝ} {a h M : ℝ} (hh : 0 < h) (hφ : Bend φ (Set.Icc a (a + h)) M) :
    |(∫ x in a..a + h, φ x) - h * ((φ a + φ (a + h)) / 2)| ≤ h * (M * h ^ 2 / 8) := by
  have hle : a ≤ a + h := by linarith
  obtain ⟨φ', hd, -⟩ := id hφ
  have hc : ContinuousOn φ (Set.uIcc a (a + h)) := by
    rw [Set.uIcc_of_le hle]
    exact fun x hx => (hd x hx).continuousWithinAt
  set ψ : ℝ → ℝ := fun x => φ a + (x - a) * ((φ (a + h) - φ a) / h) with hψ
  have hcψ : Continuous ψ := by fun_prop
  have hint : ∫ x in a..a + h, ψ x = h * ((φ a + φ (a + h)) / 2) := by
    have hF : ∀ x ∈ Set.uIcc a (a + h),
        HasDerivAt (fun x => φ a * x + (x - a) ^ 2 / 2 * ((φ (a + h) - φ a) / h)) (ψ x) x := by
      intro x _
      have h1 : HasDerivAt (fun x => φ a * x) (φ a) x := by simpa using (hasDerivAt_id x).const_mul (φ a)
      have h2 : HasDerivAt (fun x : ℝ => (x - a) ^ 2 / 2) (x - a) x := by
        have := (((hasDerivAt_id x).sub_const a).pow 2).div_const 2
        simpa using this
      exact h1.add (h2.mul_const _)
    rw [intervalIntegral.integral_eq_sub_of_hasDerivAt hF (hcψ.intervalIntegrable _ _)]
    field_simp
    ring
  rw [← hint, ← intervalIntegral.integral_sub hc.intervalIntegrable (hcψ.intervalIntegrable _ _)]
  have hb : ∀ x ∈ Set.uIoc a (a + h), ‖φ x - ψ x‖ ≤ M * h ^ 2 / 8 := by
    intro x hx
    rw [Set.uIoc_of_le hle] at hx
    have h0 : 0 ≤ (x - a) / h := div_nonneg (by linarith [hx.1]) hh.le
    have h1 : (x - a) / h ≤ 1 := by rw [div_le_one hh]; linarith [hx.2]
    have := bend_interp hh hφ ((x - a) / h) h0 h1
    rw [div_mul_cancel₀ _ hh.ne', add_sub_cancel] at this
    rw [Real.norm_eq_abs]
    refine le_trans (le_of_eq ?_) this
    congr 1
    simp only [hψ]
    field_simp
    ring
  have := intervalIntegral.norm_integral_le_of_norm_le_const hb
  rw [Real.norm_eq_abs, add_sub_cancel_left, abs_of_pos hh] at this
  linarith

/-- **C101.** The inventories are as accurate: the integral of the computed concentration over a volume (what
TotalVolume("solute") reports) and the integral of the exact one. -/
theorem C101_inventory (hL : L.Exact2) {s t ε H M : ℝ} {P : Problem Ω Bool 1} {bcs : List (MobBC Bool)}
    {mat : Ω → Mat} {matS : Bool → Mat} {dir : Bool → Prop} {val : Bool → ℝ} (hP : LinearLine L P bcs mat matS dir)
    (hd : StepData L x0 cap K lam f w slope ε s t P bcs mat matS dir val) (hH : ∀ i < L.N, L.h i ≤ H)
    (hM : ∀ i < L.N, Bend (w t) (L.span x0 i) M) (mark : ℕ → ℕ) (hmark : ∀ p, L.vm p = mark (L.cell p)) (v : ℕ)
    (u : ℕ → ℝ) :
    |volumeOf P.mesh v ((P.withSol (L.p1 u)).c mat)
      - ∑ i ∈ (Finset.range L.N).filter (fun i => mark i = v),
          ∫ x in L.node x0 i..L.node x0 (i + 1), cap i * w t x|
      ≤ L.mass cap * (L.energy cap (u - L.nodal x0 (w t)) + L.mass cap * (M * H ^ 2 / 8)) := by
  have hcap : ∀ i < L.N, 0 < cap i := fun i hi => by
    obtain ⟨_, -, h, -⟩ := cap_pos hd hP i hi
    exact h
  obtain ⟨r, hm⟩ := hP.mesh
  have hc : ∀ p, (P.withSol (L.p1 u)).c mat p = cap (L.cell p) * (L.p1 u).val p := by
    intro p
    rw [← hd.content p]
    exact physConc_linear _ _ _ _ fun h => hP.law h _ (hP.cover.mem p)
  set W := L.nodal x0 (w t) with hW
  have hmass : L.mass cap ^ 2 = ∑ i ∈ Finset.range L.N, L.h i * cap i :=
    Real.sq_sqrt (Finset.sum_nonneg fun i hi =>
      (mul_pos (L.h_pos i (Finset.mem_range.1 hi)) (hcap i (Finset.mem_range.1 hi))).le)
  -- the computed integral, with the nodal values of the exact solution
  have e1 : volumeOf P.mesh v ((P.withSol (L.p1 u)).c mat)
      = (∑ p ∈ Finset.univ.filter (fun p => L.vm p = v), L.w p * (cap (L.cell p) * (L.p1 (u - W)).val p))
        + ∑ p ∈ Finset.univ.filter (fun p => L.vm p = v), L.w p * (cap (L.cell p) * (L.p1 W).val p) := by
    unfold volumeOf
    rw [hm, ← Finset.sum_add_distrib]
    refine Finset.sum_congr rfl fun p _ => ?_
    rw [hc, p1_sub_val]
    simp only [Line.mesh]
    ring
  have e2 : |∑ p ∈ Finset.univ.filter (fun p => L.vm p = v), L.w p * (cap (L.cell p) * (L.p1 (u - W)).val p)|
      ≤ L.mass cap * L.energy cap (u - W) := by
    have hp : ∀ p, 0 ≤ L.w p * cap (L.cell p) := fun p => mul_nonneg (hL.w_nonneg p) (hcap _ (L.cell_lt p)).le
    have h1 : |∑ p ∈ Finset.univ.filter (fun p => L.vm p = v), L.w p * (cap (L.cell p) * (L.p1 (u - W)).val p)|
        ≤ ∑ p, L.w p * cap (L.cell p) * |(L.p1 (u - W)).val p| := by
      refine (Finset.abs_sum_le_sum_abs _ _).trans ?_
      refine (Finset.sum_le_sum_of_subset_of_nonneg (Finset.filter_subset _ _) fun p _ _ => abs_nonneg _).trans ?_
      refine Finset.sum_le_sum fun p _ => ?_
      rw [← mul_assoc, abs_mul, abs_of_nonneg (hp p)]
    refine h1.trans ?_
    have h2 := Finset.sum_sq_le_sum_mul_sum_of_sq_le_mul Finset.univ
      (r := fun p => L.w p * cap (L.cell p) * |(L.p1 (u - W)).val p|) (f := fun p => L.w p * cap (L.cell p))
      (g := fun p => L.w p * (cap (L.cell p) * (L.p1 (u - W)).val p ^ 2)) (fun p _ => hp p)
      (fun p _ => by rw [← mul_assoc]; exact mul_nonneg (hp p) (sq_nonneg _))
      (fun p _ => le_of_eq (by rw [mul_pow, sq_abs]; ring))
    rw [content_cells, ← hmass, ← energy_sq L hL hcap, ← mul_pow] at h2
    exact abs_le_of_sq_le_sq' h2 (mul_nonneg (Real.sqrt_nonneg _) (Real.sqrt_nonneg _)) |>.2
  have e3 : ∑ p ∈ Finset.univ.filter (fun p => L.vm p = v), L.w p * (cap (L.cell p) * (L.p1 W).val p)
      = ∑ i ∈ (Finset.range L.N).filter (fun i => mark i = v), cap i * (L.h i * ((W i + W (i + 1)) / 2)) := by
    rw [Finset.sum_filter]
    have h1 := cells_sum L fun p => if L.vm p = v then cap (L.cell p) * (L.p1 W).val p else 0
    simp only [mul_ite, mul_zero] at h1
    rw [h1, Finset.sum_filter]
    refine Finset.sum_congr rfl fun i hi => ?_
    have hi := Finset.mem_range.1 hi
    by_cases hv : mark i = v
    · rw [if_pos hv]
      have h2 := cell_product L hL i hi (W i) (W (i + 1)) 1 1
      rw [show cap i * (L.h i * ((W i + W (i + 1)) / 2))
        = cap i * (L.h i * (2 * W i * 1 + W i * 1 + W (i + 1) * 1 + 2 * W (i + 1) * 1) / 6) by ring, ← h2, Finset.mul_sum]
      refine Finset.sum_congr rfl fun p hp => ?_
      have hc := (Finset.mem_filter.1 hp).2
      rw [if_pos (by rw [hmark, hc, hv])]
      simp only [Line.p1, hc]
      ring
    · rw [if_neg hv]
      refine Finset.sum_eq_zero fun p hp => ?_
      rw [if_neg (by rw [hmark, (Finset.mem_filter.1 hp).2]; exact hv)]
  have hM0 : 0 ≤ M := by
    have := hM 0 L.N_pos
    rw [L.span_eq] at this
    exact this.const_nonneg (L.h_pos 0 L.N_pos)
  have e4 : |(∑ i ∈ (Finset.range L.N).filter (fun i => mark i = v), cap i * (L.h i * ((W i + W (i + 1)) / 2)))
      - ∑ i ∈ (Finset.range L.N).filter (fun i => mark i = v),
          ∫ x in L.node x0 i..L.node x0 (i + 1), cap i * w t x| ≤ L.mass cap ^ 2 * (M * H ^ 2 / 8) := by
    rw [← Finset.sum_sub_distrib]
    refine (Finset.abs_sum_le_sum_abs _ _).trans ?_
    refine (Finset.sum_le_sum_of_subset_of_nonneg (Finset.filter_subset _ _) fun p _ _ => abs_nonneg _).trans ?_
    rw [hmass, Finset.sum_mul]
    refine Finset.sum_le_sum fun i hi => ?_
    have hi := Finset.mem_range.1 hi
    have hh := L.h_pos i hi
    have hb := hM i hi
    rw [L.span_eq] at hb
    have h1 := cell_integral hh hb
    rw [intervalIntegral.integral_const_mul, ← mul_sub, abs_mul, abs_of_pos (hcap i hi), abs_sub_comm]
    have h2 : W (i + 1) = w t (L.node x0 i + L.h i) := by rw [hW, Line.nodal, L.node_succ]
    rw [h2, L.node_succ]
    have h3 : L.h i ^ 2 ≤ H ^ 2 := pow_le_pow_left₀ hh.le (hH i hi) 2
    calc cap i * |(∫ x in L.node x0 i..L.node x0 i + L.h i, w t x) - L.h i * ((W i + w t (L.node x0 i + L.h i)) / 2)|
        ≤ cap i * (L.h i * (M * L.h i ^ 2 / 8)) := mul_le_mul_of_nonneg_left h1 (hcap i hi).le
      _ ≤ cap i * (L.h i * (M * H ^ 2 / 8)) := by
          have := (hcap i hi).le
          gcongr
      _ = _ := by ring
  rw [e1, e3]
  rw [abs_le] at *
  constructor <;> nlinarith [e2.1, e2.2, e4.1, e4.2]

/-! ### The heat equation -/

/-- **C101.** The same for the temperature, with heat capacities and conductivities which do not depend on it. -/
theorem C101_heat (hL : L.Exact2) (hw : Diffuses L x0 final cap K (fun _ _ => 0) f w slope curv rate)
    (hM : SmoothBy L x0 final cap K (fun _ _ => 0) w curv rate Mt Mtx Ml Mx) {H k ε : ℝ} (hH : ∀ i < L.N, L.h i ≤ H)
    {m : ℕ} {τ : ℕ → ℝ} (h0 : 0 ≤ τ 0) (hlater : ∀ n < m, τ n < τ (n + 1)) (hfin : τ m ≤ final)
    {r : Fld Ω Bool 1} {mats : List Mat} {mat : Ω → Mat} {bcs : ℕ → List (Flux Bool × List ℕ)} {cond : ℕ → Ω → ℝ}
    {dir : ℕ → Bool → Prop} {val : ℕ → Bool → ℝ} {sources : ℕ → List ((Ω → ℝ) × List ℕ)} {U : ℕ → ℕ → ℝ}
    (hP : ∀ n < m, LinearHeat L r mats mat (some (τ (n + 1) - τ n)) (bcs n) (fun p => cap (L.cell p)) (cond n) (dir n))
    (hK : ∀ n < m, ∀ p, cond n p = K (τ (n + 1)) (L.cell p))
    (hsrc : ∀ n < m, ∀ p, |heatGivenAt L (sources n) p - f (τ (n + 1)) (L.cell p) (L.pos x0 p)| ≤ ε)
    (hfix : ∀ n < m, ∀ q, dir n q → val n q = w (τ (n + 1)) (L.node x0 (L.endNo q)))
    (hflux : ∀ n < m, ∀ q, ¬ dir n q → EndFlux L x0 K w slope (τ (n + 1)) q
      ((bcs n).map (heatBcGiven L r q)).sum ((bcs n).map (heatBcExchange L r q)).sum)
    (hU : ∀ n < m, HeatSolves L r mats (some (τ (n + 1) - τ n)) (sources n) (bcs n) (L.p1 (U n)) (dir n) (val n) (U (n + 1)))
    (hk : ∀ n < m, τ (n + 1) - τ n ≤ k) :
    ∀ n ≤ m, L.energy cap (U n - L.nodal x0 (w (τ n))) ≤ L.energy cap (U 0 - L.nodal x0 (w (τ 0)))
      + (τ n - τ 0) * (L.size cap * (Mt / 2 * k + H ^ 2 / 8 * (Mtx + Ml + 3 * Mx) + ε)) := by
  have mono : ∀ j n, n + j ≤ m → τ n ≤ τ (n + j) := by
    intro j
    induction j with
    | zero => intro n _; exact le_rfl
    | succ j ih => intro n hn; exact (ih n (by omega)).trans (hlater (n + j) (by omega)).le
  have times : ∀ n ≤ m, 0 ≤ τ n ∧ τ n ≤ final := by
    intro n hn
    refine ⟨h0.trans (by simpa using mono n 0 (by omega)), le_trans ?_ hfin⟩
    have := mono (m - n) n (by omega)
    rwa [Nat.add_sub_cancel' hn] at this
  have point : ∀ i < L.N, ∃ p, L.cell p = i := by
    intro i hi
    by_contra hn
    push Not at hn
    have := L.exact i hi
    rw [Finset.filter_false_of_mem fun p _ => hn p, Finset.sum_empty] at this
    exact (L.h_pos i hi).ne this
  intro n
  induction n with
  | zero => intro _; simp
  | succ n ih =>
    intro hn
    have hlt : n < m := hn
    have hpos : 0 < τ (n + 1) - τ n := sub_pos.2 (hlater n hlt)
    have hs : DiscreteStep L cap (K (τ (n + 1))) (fun _ => 0) (heatGivenAt L (sources n))
        (fun q => ((bcs n).map (heatBcGiven L r q)).sum) (fun q => ((bcs n).map (heatBcExchange L r q)).sum) (dir n)
        (τ (n + 1) - τ n) (U n) (U (n + 1)) := by
      intro v hv
      have h1 := (hU n hlt).2 v hv
      rw [(hP n hlt).residual] at h1
      have h2 := sub_eq_zero.1 h1
      have e1 : heatReaction (some (τ (n + 1) - τ n)) (fun p => cap (L.cell p))
          = fun p => (1 / (τ (n + 1) - τ n) + 0) * cap (L.cell p) := by
        funext p
        simp only [heatReaction]
        ring
      have e2 : cond n = fun p => K (τ (n + 1)) (L.cell p) := funext (hK n hlt)
      have e3 : heatLoad L (some (τ (n + 1) - τ n)) (sources n) (fun p => cap (L.cell p)) (L.p1 (U n))
          = fun p => cap (L.cell p) * (L.p1 (U n)).val p / (τ (n + 1) - τ n) + heatGivenAt L (sources n) p := by
        funext p
        simp only [heatLoad, heatReaction]
        ring
      rw [e1, e2, e3] at h2
      exact h2
    have h1 := accuracy_step hL (fun i hi => by
        obtain ⟨p, rfl⟩ := point i hi
        exact (hP n hlt).cap_pos p) hw hM (times n hlt.le).1 (hlater n hlt) (times (n + 1) hn).2 hH (hsrc n hlt)
      (hflux n hlt) (fun i hi => by
        obtain ⟨p, rfl⟩ := point i hi
        rw [← hK n hlt p]
        exact ((hP n hlt).cond_pos p).le) (fun _ _ => le_rfl)
      (fun q => List.sum_nonneg fun y hy => by
        obtain ⟨b, hb, rfl⟩ := List.mem_map.1 hy
        exact heatBcExchange_nonneg L r q ((hP n hlt).fluxes b hb)) hs fun q hq => by
          rw [(hU n hlt).1 q hq, hfix n hlt q hq]
    have h2 := ih hlt.le
    have hMt : 0 ≤ Mt := by
      have hN := L.N_pos
      have := hM.time 0 hN _ (L.node_left_mem x0 0 hN) (τ n) (times n hlt.le) (τ (n + 1)) (times (n + 1) hn)
      have h3 := (abs_nonneg _).trans this
      rw [abs_sub_comm] at h3
      exact nonneg_of_mul_nonneg_left h3 (abs_pos.2 hpos.ne')
    have h4 : (τ (n + 1) - τ n) * (L.size cap * (Mt / 2 * (τ (n + 1) - τ n) + H ^ 2 / 8 * (Mtx + Ml + 3 * Mx) + ε))
        ≤ (τ (n + 1) - τ n) * (L.size cap * (Mt / 2 * k + H ^ 2 / 8 * (Mtx + Ml + 3 * Mx) + ε)) := by
      refine mul_le_mul_of_nonneg_left (mul_le_mul_of_nonneg_left ?_ (Real.sqrt_nonneg _)) hpos.le
      nlinarith [mul_le_mul_of_nonneg_left (hk n hlt) hMt]
    calc _ ≤ _ := h1
      _ ≤ _ := add_le_add h2 h4
      _ = _ := by ring

end

/-! ### Two layers

`∂c/∂t = ∂/∂x (D ∂c/∂x) + 1` on `[0, 1]` with `D = 1` and `[1, 2]` with `D = 2`; `c = t` at the left, flux `2` into the
domain at the right. -/

namespace AccCase

noncomputable def L : Line (Fin 2 × Fin 3) :=
  { BoundCase.simpson 1 one_pos with vm := fun p => p.1.val + 1, vmR := 2 }

theorem exact2 : L.Exact2 where
  w_nonneg := (BoundCase.simpson_exact2 1 one_pos).w_nonneg
  lam_nonneg := (BoundCase.simpson_exact2 1 one_pos).lam_nonneg
  lam_le := (BoundCase.simpson_exact2 1 one_pos).lam_le
  one := (BoundCase.simpson_exact2 1 one_pos).one
  two := (BoundCase.simpson_exact2 1 one_pos).two

noncomputable def A : Mat := { uid := 0, ids := [1], D_0 := 1, E_D := 0 }
noncomputable def B : Mat := { uid := 1, ids := [2], D_0 := 2, E_D := 0 }
noncomputable def mat (p : Fin 2 × Fin 3) : Mat := if p.1 = 0 then A else B

noncomputable def P (dt : ℝ) : Problem (Fin 2 × Fin 3) Bool 1 where
  mesh := L.mesh (Fld.const 1)
  mats := [A, B]
  mv := { theta := false, sol := Fld.const 0, prev := Fld.const 0 }
  T := ⟨Fld.const 300, Fld.const 400⟩
  dt := some dt
  soret := false
  sources := [⟨.given fun _ => 1, [1, 2]⟩]
  traps := []

noncomputable def bcs : List (MobBC Bool) := [.flux (.value fun _ => 2) [2]]

/-- The exact solution. -/
noncomputable def w (t x : ℝ) : ℝ := t + if x ≤ 1 then 2 * x else 1 + x
def slope (_ : ℝ) (i : ℕ) (_ : ℝ) : ℝ := if i = 0 then 2 else 1
def K (_ : ℝ) (i : ℕ) : ℝ := if i = 0 then 1 else 2

theorem linear (dt : ℝ) (hdt : 0 < dt) : LinearLine L (P dt) bcs mat (fun q => if q then B else A) (· = false) where
  mesh := ⟨_, rfl⟩
  weights := exact2.w_nonneg
  cover := ⟨by intro p; by_cases h : p.1 = 0 <;> simp [mat, P, h],
    by
      rintro ⟨p, p'⟩
      fin_cases p <;> simp [mat, P, L, Line.mesh, A, B], by simp [P, A, B]⟩
  solubility := ⟨by simp [P], by simp [P], by simp [P], by simp [P]⟩
  law := by simp [P]
  uniform := by simp [P]
  D_pos := by simp [P, A, B]
  S_pos := by simp [P]
  step := by
    intro h hh
    simp only [P, Option.some.injEq] at hh
    exact hh ▸ hdt
  traps := rfl
  decay := by simp [P]
  fluxes := by simp [AffineFlux, bcs]
  fixed := Or.inl (by simp [P])

theorem span0 : L.span 0 0 = Set.Icc 0 1 := by simp [Line.span, Line.node, L, BoundCase.simpson]
theorem span1 : L.span 0 1 = Set.Icc 1 2 := by
  simp only [Line.span, Line.node, L, BoundCase.simpson, Finset.sum_const, Finset.card_range]
  norm_num

theorem lineN : L.N = 2 := rfl

theorem hasDeriv_affine (a b : ℝ) (s : Set ℝ) (x : ℝ) : HasDerivWithinAt (fun y => a + b * y) b s x := by
  have := ((hasDerivAt_id x).const_mul b).const_add a
  simpa using this.hasDerivWithinAt

theorem w_eq (t : ℝ) : (∀ x ∈ Set.Icc (0 : ℝ) 1, w t x = t + 2 * x) ∧ ∀ x ∈ Set.Icc (1 : ℝ) 2, w t x = t + 1 + 1 * x := by
  refine ⟨fun x hx => by simp [w, hx.2], fun x hx => ?_⟩
  unfold w
  split_ifs with h
  · have : x = 1 := le_antisymm h hx.1
    rw [this]; ring
  · ring

theorem diffuses (final : ℝ) : Diffuses L 0 final (fun _ => 1) K (fun _ _ => 0) (fun _ _ _ => 1) w slope (fun _ _ _ => 0)
    (fun _ _ => 1) where
  hasSlope := by
    intro t _ i hi x hx
    rw [lineN] at hi
    interval_cases i
    · rw [span0] at hx ⊢
      exact (hasDeriv_affine t 2 _ x).congr (fun y hy => (w_eq t).1 y hy) ((w_eq t).1 x hx)
    · rw [span1] at hx ⊢
      exact (hasDeriv_affine (t + 1) 1 _ x).congr (fun y hy => (w_eq t).2 y hy) ((w_eq t).2 x hx)
  hasCurv := by
    intro t _ i _ x _
    exact hasDerivWithinAt_const _ _ _
  hasRate := by
    intro t _ i _ x _
    exact (hasDerivWithinAt_id t _).add_const _
  equation := by intro t _ i _ x _; simp
  flux := by
    intro t _ i hi
    rw [lineN] at hi
    obtain rfl : i = 0 := by omega
    simp [K, slope]

theorem bend_const (a : ℝ) (s : Set ℝ) : Bend (fun _ => a) s 0 :=
  ⟨fun _ => 0, fun _ _ => hasDerivWithinAt_const _ _ _, by simp⟩

theorem smooth (final : ℝ) : SmoothBy L 0 final (fun _ => 1) K (fun _ _ => 0) w (fun _ _ _ => 0) (fun _ _ => 1) 0 0 0 0 where
  time := by simp
  bendRate := fun _ _ _ _ => bend_const _ _
  bendDecay := fun _ _ _ _ => by simpa using bend_const 0 _
  bendCurv := fun t _ i _ => bend_const (K t i * 0) _

theorem data (s t : ℝ) : StepData L 0 (fun _ => 1) K (fun _ _ => 0) (fun _ _ _ => 1) w slope 0 s t (P (t - s)) bcs mat
    (fun q => if q then B else A) (· = false) (fun _ => t) where
  dt := rfl
  content := by intro p; simp [unitConc, P]
  before := by intro p; simp [unitConc, P]
  conduct := by
    rintro ⟨p, p'⟩
    fin_cases p <;> simp [conductivity, P, mat, A, B, arr, K, L, BoundCase.simpson]
  decay := by
    rintro ⟨p, p'⟩
    fin_cases p <;> simp [decayAt, P, Src.lam, L, Line.mesh]
  source := by
    rintro ⟨p, p'⟩
    fin_cases p <;> simp [givenAt, P, Src.rate, L, Line.mesh]
  fixed := by
    rintro q rfl
    simp [w, Line.node, Line.endNo]
  flux := by
    intro q hq
    have : q = true := by simpa using hq
    subst this
    simp [EndFlux, Line.normal, Line.endCell, K, slope, Weak.fluxAt, exchangeAt, bcs, bcGiven, bcExchange, P, L,
      Line.mesh, BoundCase.simpson, inward]

/-- Whatever the stepsizes, the nodal values are exact. -/
example (τ : ℕ → ℝ) (h0 : τ 0 = 0) (hτ : ∀ n, τ n < τ (n + 1)) : ∃ U : ℕ → ℕ → ℝ,
    (∀ n, LineSolves L ((P (τ (n + 1) - τ n)).withPrev (L.p1 (U n))) bcs (· = false) (fun _ => τ (n + 1)) (U (n + 1))) ∧
    ∀ n, ∀ i ≤ 2, U n i = w (τ n) (L.node 0 i) := by
  obtain ⟨⟨U, hU0, hU⟩, -⟩ := C90_run (fun n => P (τ (n + 1) - τ n)) (fun _ => bcs) (fun _ => mat)
    (fun _ q => if q then B else A) (fun _ => (· = false)) (fun n _ => τ (n + 1))
    (fun n => linear _ (sub_pos.2 (hτ n))) (L.nodal 0 (w 0))
  refine ⟨U, hU, fun n => ?_⟩
  refine C101_exact (m := n) exact2 (diffuses (τ n)) (smooth (τ n)) ⟨h0.ge, fun n _ => hτ n, le_rfl,
    fun n _ => linear _ (sub_pos.2 (hτ n)), fun n _ => data _ _, fun n _ => hU n⟩ ?_ n le_rfl
  intro i _
  rw [hU0, h0]
  rfl

/-- The program, with ten steps of `1`. -/
example (o : Opts) (ha : 0 < o.atol) (hr : o.rtol ≤ 1) (hm : 0 < o.maxIt) (init : Fin (L.N + 1) → ℝ) :
    ∃ sys : ℚ → ℚ → (Fin (L.N + 1) → ℝ) → System (Fin (L.N + 1)),
      let s := exec (Stepsize.new { initialValue := 1 }) 10 (newton sys (fun A b => A⁻¹.mulVec b) o) init init 10
      Returned s.run ∧ ∀ i, ∀ hi : i < s.recs.length,
        L.energy (fun _ => 1) (extend L.N s.recs[i].u - L.nodal 0 (w s.recs[i].t))
          ≤ L.energy (fun _ => 1) (extend L.N init - L.nodal 0 (w 0))
            + o.atol * ((i + 1) * L.mass (fun _ => 1) + s.recs[i].t * √6) := by
  have : Nonempty (System (Fin (L.N + 1))) := ⟨⟨fun _ _ => 0, fun _ => 0, [], fun _ => 1⟩⟩
  have hP : ∀ t dt : ℚ, 0 < dt → LinearLine L (P (dt : ℝ)) bcs mat (fun q => if q then B else A) (· = false) :=
    fun t dt h => linear _ (by exact_mod_cast h)
  choose! sys hsys using fun (t dt : ℚ) (un : Fin (L.N + 1) → ℝ) (hdt : 0 < dt) =>
    line_system_exists (LinearLine.withPrev (hP t dt hdt) (L.p1 (extend L.N un))) fun _ => (t : ℝ)
  refine ⟨sys, ?_⟩
  intro s
  obtain ⟨h1, -, h3, h4, -⟩ := C96_linear (Stepsize.new { initialValue := 1 }) 10 1
    ⟨by norm_num, le_rfl, by simp [Stepsize.new], by simp [Stepsize.new], by simp [Stepsize.new, setMilestones]⟩
    (by simp [Stepsize.new]) (fun _ dt => P (dt : ℝ)) _ _ _ _ _ hP sys hsys inverse_solves o ha hm init init 10
    (by norm_num) s rfl
  obtain ⟨k, hk⟩ : ∃ k : ℝ, ∀ r ∈ s.recs, (r.dtH : ℝ) ≤ k := by
    refine ⟨(s.recs.map fun r => |(r.dtH : ℝ)|).sum, fun r hr => (le_abs_self _).trans ?_⟩
    exact List.single_le_sum (fun x hx => by
      obtain ⟨r, -, rfl⟩ := List.mem_map.1 hx
      exact abs_nonneg _) _ (List.mem_map.2 ⟨r, hr, rfl⟩)
  have h := (C101_run (final := 10) (ε := 1) (k := k) (H := 1) (η := 0) (μ := 1) exact2 (diffuses 10) (smooth 10)
    (by simp [L, BoundCase.simpson]) one_pos (by simp [L, BoundCase.simpson]) (Stepsize.new { initialValue := 1 })
    ⟨by norm_num, le_rfl, by simp [Stepsize.new], by simp [Stepsize.new], by simp [Stepsize.new, setMilestones]⟩
    (by simp [Stepsize.new]) (by norm_num) (fun _ dt => P (dt : ℝ)) (fun _ => bcs) (fun _ => mat) _ (fun _ => (· = false))
    (fun t _ => (t : ℝ)) hP (fun t dt _ _ _ => by
      have := data ((t : ℝ) - dt) t
      rwa [sub_sub_cancel] at this) sys hsys inverse_solves o ha hr hm init init 10 (by norm_num) s rfl hk).2.2
  refine ⟨h1, fun i hi => (h i hi).trans (le_of_eq ?_)⟩
  simp

noncomputable def hmat (p : Fin 2 × Fin 3) : Mat := if p.1 = 0 then LineCase.hA else LineCase.hB

theorem heat (dt : ℝ) (hdt : 0 < dt) : LinearHeat L (Fld.const 1) [LineCase.hA, LineCase.hB] hmat (some dt)
    [(.value fun _ => 2, [2])] (fun _ => 1) (fun p => K 0 (L.cell p)) (· = false) where
  weights := exact2.w_nonneg
  cover := ⟨by intro p; by_cases h : p.1 = 0 <;> simp [hmat, h],
    by
      rintro ⟨p, p'⟩
      fin_cases p <;> simp [hmat, L, Line.mesh, LineCase.hA, LineCase.hB], by simp [LineCase.hA, LineCase.hB]⟩
  capacity := by
    rintro ⟨p, p'⟩ T
    fin_cases p <;> simp [hmat, LineCase.hA, LineCase.hB, Mat.vcap]
  conduct := by
    rintro ⟨p, p'⟩ T
    fin_cases p <;> simp [hmat, LineCase.hA, LineCase.hB, K, L, BoundCase.simpson]
  cap_pos := by simp
  cond_pos := by
    intro p
    simp only [K]
    split_ifs <;> norm_num
  step := by
    intro h hh
    rw [Option.some.injEq] at hh
    exact hh ▸ hdt
  fluxes := by simp [AffineHeat]
  fixed := Or.inl (by simp)

/-- The same equation for a temperature, from any initial temperatures: the error does not grow. -/
example (τ : ℕ → ℝ) (h0 : τ 0 = 0) (hτ : ∀ n, τ n < τ (n + 1)) (U : ℕ → ℕ → ℝ)
    (hU : ∀ n, HeatSolves L (Fld.const 1) [LineCase.hA, LineCase.hB] (some (τ (n + 1) - τ n)) [(fun _ => 1, [1, 2])]
      [(.value fun _ => 2, [2])] (L.p1 (U n)) (· = false) (fun _ => τ (n + 1)) (U (n + 1))) (n : ℕ) :
    L.energy (fun _ => 1) (U n - L.nodal 0 (w (τ n))) ≤ L.energy (fun _ => 1) (U 0 - L.nodal 0 (w (τ 0))) := by
  obtain ⟨k, hk⟩ : ∃ k : ℝ, ∀ j < n, τ (j + 1) - τ j ≤ k :=
    ⟨∑ j ∈ Finset.range n, (τ (j + 1) - τ j), fun j hj => Finset.single_le_sum (f := fun j => τ (j + 1) - τ j)
      (fun i _ => (sub_pos.2 (hτ i)).le) (Finset.mem_range.2 hj)⟩
  have h := C101_heat (H := 1) (ε := 0) (m := n) exact2 (diffuses (τ n)) (smooth (τ n)) (by simp [L, BoundCase.simpson])
    h0.ge (fun n _ => hτ n) le_rfl (fun n _ => heat _ (sub_pos.2 (hτ n))) (fun _ _ _ => rfl)
    (sources := fun _ => [(fun _ => 1, [1, 2])])
    (fun n _ => by
      rintro ⟨p, p'⟩
      fin_cases p <;> simp [heatGivenAt, L]) (val := fun n _ => τ (n + 1))
    (fun n _ => by
      rintro q rfl
      simp [w, Line.node, Line.endNo])
    (fun n _ q hq => by
      have : q = true := by simpa using hq
      subst this
      simp [EndFlux, Line.normal, Line.endCell, K, slope, heatBcGiven, heatBcExchange, L, Line.mesh, BoundCase.simpson,
        inward])
    (fun n _ => hU n) hk n le_rfl
  simpa using h

end AccCase

end Festim.Props
