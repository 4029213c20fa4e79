import Verif.Props.ReportedBalance
import Verif.Props.Relaxation

/-!
# C114: the time lag of permeation
-/

open scoped BigOperators

set_option linter.unusedSectionVars false
set_option linter.unusedSimpArgs false

namespace Festim.Weak

open Festim.Props

section
variable {Ω : Type} [Fintype Ω]

/-- Thickness of the wall. -/
noncomputable def Line.thickness (L : Line Ω) : ℝ := ∑ i ∈ Finset.range L.N, L.h i

/-- Part of the resistance of the wall which is before a point, the last node excepted: at nodal point `j` the resistance
of the cells before it over the one of the wall, and 0 at the right end. -/
noncomputable def before (L : Line Ω) (K : Ω → ℝ) (j : ℕ) : ℝ := resistance L K j / resistance L K L.N - hat L.N j

variable {L : Line Ω} {P : Problem Ω Bool 1} {bcs : List (MobBC Bool)} {mat : Ω → Mat}
  {matS : Bool → Mat} {u : ℕ → ℝ} {dir : Bool → Prop} {k : ℝ}

theorem before_ends (K : Ω → ℝ) (hK : ∀ i < L.N, 0 < cellInt L K i) : before L K 0 = 0 ∧ before L K L.N = 0 := by
  have hR := resistance_pos L K hK
  have h0 : (0 : ℕ) ≠ L.N := by have := L.N_pos; omega
  constructor
  · simp [before, resistance, hat, h0]
  · simp [before, hat, hR.ne']

/-- The flux term for this test function. -/
theorem before_term (K : Ω → ℝ) (hK : ∀ i < L.N, 0 < cellInt L K i) (u : ℕ → ℝ) :
    (∑ i ∈ Finset.range L.N, cellFlux L K u i * (before L K (i + 1) - before L K i))
      = (u L.N - u 0) / resistance L K L.N - cellFlux L K u (L.N - 1) := by
  have hR := resistance_pos L K hK
  have hN := L.N_pos
  have e1 := hat_sum (cellFlux L K u) L.N L.N le_rfl
  simp only [hN, if_true, lt_irrefl, if_false, sub_zero] at e1
  have e2 : (∑ i ∈ Finset.range L.N, cellFlux L K u i * (resistance L K (i + 1) - resistance L K i)) = u L.N - u 0 := by
    rw [← Finset.sum_range_sub]
    refine Finset.sum_congr rfl fun i hi => ?_
    have hi' := Finset.mem_range.1 hi
    have hh := (L.h_pos i hi').ne'
    have hk := (hK i hi').ne'
    unfold resistance cellFlux
    rw [Finset.sum_range_succ]
    field_simp
    ring
  rw [← e1, ← e2, Finset.sum_div, ← Finset.sum_sub_distrib]
  refine Finset.sum_congr rfl fun i _ => ?_
  unfold before
  ring

/-- One step: what leaves through the right end. -/
theorem TransientLine.permeates (hP : TransientLine L P bcs mat matS u (fun _ => True) k)
    (hK : ∀ i < L.N, 0 < cellInt L (conductivity P mat) i) :
    k * -cellFlux L (conductivity P mat) u (L.N - 1)
      = k * ((u 0 - u L.N) / resistance L (conductivity P mat) L.N)
        + k * produced P mat (L.p1 (before L (conductivity P mat))).val
        - (held P mat (L.p1 (before L (conductivity P mat))).val
          - heldBefore P mat (L.p1 (before L (conductivity P mat))).val) := by
  obtain ⟨h0, hN⟩ := before_ends (L := L) (conductivity P mat) hK
  have h := hP.balance (before L (conductivity P mat)) (by
    intro q _
    cases q <;> simp [Line.p1, h0, hN])
  rw [before_term _ hK, h0, hN] at h
  rw [h]
  ring

end

end Festim.Weak

namespace Festim.Props

open Festim.Weak Filter Topology

section
variable {Ω : Type} [Fintype Ω] {L : Line Ω} {mat : Ω → Mat} {matS : Bool → Mat}

/-- **C114 (a).** A wall with concentrations imposed at both ends, possibly changing from step to step, made of any layers
and containing any traps and sources: what has left through the right end according to the reported fluxes is what would
have left had the steady flux been reached at once at each step, less what is stored: the hydrogen present, mobile and trapped,
at each point with the part of the resistance which is before it (the cell at the end being counted differently). -/
theorem C114_cumulated (P : ℕ → Problem Ω Bool 1) (bcs : ℕ → List (MobBC Bool)) (u : ℕ → ℕ → ℝ) (k : ℕ → ℝ)
    (e : ℕ → PostEnv Ω Bool 1) (proj : ℕ → Bool) (K : Ω → ℝ) (n : ℕ)
    (hP : ∀ i ≤ n, TransientLine L (P i) (bcs i) mat matS (u i) (fun _ => True) (k i))
    (he : ∀ i ≤ n, LineReport L (P i) mat matS (u i) (e i))
    (hfol : ∀ i < n, Follows (P i) (P (i + 1)) (bcs i) (bcs (i + 1)))
    (hcond : ∀ i ≤ n, conductivity (P i) mat = K) (hK : ∀ i < L.N, 0 < cellInt L K i) :
    ∃ x : ℕ → ℝ, (∀ i ≤ n, (hydrogenFlux L.right).value (e i) (proj i) = .ok (x i)) ∧
      ∑ i ∈ Finset.range (n + 1), k i * -x i
        = ∑ i ∈ Finset.range (n + 1), k i * ((u i 0 - u i L.N) / resistance L K L.N)
          + ∑ i ∈ Finset.range (n + 1), k i * produced (P i) mat (L.p1 (before L K)).val
          - (held (P n) mat (L.p1 (before L K)).val - heldBefore (P 0) mat (L.p1 (before L K)).val) := by
  refine ⟨fun i => cellFlux L K (u i) (L.N - 1), fun i hi => ?_, ?_⟩
  · have := (line_reported (hP i hi).toLineData (e i) (proj i) (he i hi).mesh (he i hi).normal (he i hi).soret
      (he i hi).properties (he i hi).grad (he i hi).ends).1
    rwa [hcond i hi] at this
  · suffices h : ∀ m ≤ n, ∑ i ∈ Finset.range (m + 1), k i * -cellFlux L K (u i) (L.N - 1)
        = ∑ i ∈ Finset.range (m + 1), k i * ((u i 0 - u i L.N) / resistance L K L.N)
          + ∑ i ∈ Finset.range (m + 1), k i * produced (P i) mat (L.p1 (before L K)).val
          - (held (P m) mat (L.p1 (before L K)).val - heldBefore (P 0) mat (L.p1 (before L K)).val) from h n le_rfl
    intro m
    induction m with
    | zero =>
      intro hm
      have h := (hP 0 hm).permeates (by rw [hcond 0 hm]; exact hK)
      rw [hcond 0 hm] at h
      simpa using h
    | succ m ih =>
      intro hm
      have h := (hP (m + 1) hm).permeates (by rw [hcond _ hm]; exact hK)
      rw [hcond _ hm, follows_held (hfol m (by omega))] at h
      rw [Finset.sum_range_succ, ih (by omega), h, Finset.sum_range_succ _ (m + 1), Finset.sum_range_succ _ (m + 1)]
      ring

end

section
variable {Ω : Type} [Fintype Ω] {L : Line Ω} {P : Problem Ω Bool 1} {bcs : List (MobBC Bool)} {mat : Ω → Mat}
  {matS : Bool → Mat}

theorem line_cell_pos {dir : Bool → Prop} (hP : LinearLine L P bcs mat matS dir) :
    ∀ i < L.N, 0 < cellInt L (conductivity P mat) i := by
  intro i hi
  have hh := L.exact i hi ▸ L.h_pos i hi
  obtain ⟨p, hp, hw⟩ : ∃ p ∈ Finset.univ.filter (fun p => L.cell p = i), 0 < L.w p := by
    by_contra hn
    push Not at hn
    exact absurd hh (not_lt.2 (Finset.sum_nonpos hn))
  unfold cellInt
  refine Finset.sum_pos' (fun p _ => mul_nonneg (hP.weights p) (conductivity_pos hP p).le) ⟨p, hp, mul_pos hw (conductivity_pos hP p)⟩

/-- What is stored in the state with nodal values `u`, with the weight of `C114_cumulated`. -/
noncomputable def storedBefore (L : Line Ω) (P : Problem Ω Bool 1) (mat : Ω → Mat) (u : ℕ → ℝ) : ℝ :=
  ∑ p, L.w p * (unitConc P.mv.theta (mat p) (P.T.T.val p) * (L.p1 u).val p
    * (L.p1 (before L (conductivity P mat))).val p)

/-- The profile of the steady state. -/
noncomputable def steadyProfile (L : Line Ω) (P : Problem Ω Bool 1) (mat : Ω → Mat) (val : Bool → ℝ) (j : ℕ) : ℝ :=
  val false + (val true - val false) * (resistance L (conductivity P mat) j / resistance L (conductivity P mat) L.N)

/-- Without sources a solution of the steady problem is this profile. -/
theorem steady_profile_of (hP : LinearLine L P bcs mat matS fun _ => True) (hs : P.dt = none) (hsrc : P.sources = [])
    (val : Bool → ℝ) (us : ℕ → ℝ) (hus : LineSolves L P bcs (fun _ => True) val us) :
    ∀ j ≤ L.N, us j = steadyProfile L P mat val j := by
  have hK := line_cell_pos hP
  set K := conductivity P mat with hKd
  have hst : SteadyLine L (P.withSol (L.p1 us)) bcs mat matS us fun _ => True :=
    { mesh := hP.mesh
      sol := rfl
      cover := hP.cover
      solubility := ⟨hP.solubility.vol, hP.solubility.memS, hP.solubility.hasS, hP.solubility.surf⟩
      law := hP.law
      uniform := hP.uniform
      noSK := fun b vs hb => hP.fluxes _ hb
      steady := hs
      sources := ⟨hsrc, by rw [show (P.withSol (L.p1 us)).traps = [] from hP.traps]; simp⟩
      outside := by rw [show (P.withSol (L.p1 us)).traps = [] from hP.traps]; simp
      solves := by
        intro v hv
        obtain ⟨F, hF, hz⟩ := hus.2 v hv
        refine ⟨F, ?_, hz⟩
        rw [show (P.withSol (L.p1 us)).traps = [] from hP.traps]
        exact hF }
  obtain ⟨J, -, hJ, -, -⟩ := C89_profile hst hK
  have hR := (resistance_pos L K hK).ne'
  have v0 : us 0 = val false := by simpa [Line.p1] using hus.1 false trivial
  have vN : us L.N = val true := by simpa [Line.p1] using hus.1 true trivial
  have eJ : val true = val false + J * resistance L K L.N := by
    have := hJ L.N le_rfl
    rwa [vN, v0] at this
  intro j hj
  have := hJ j hj
  rw [v0] at this
  rw [this]
  unfold steadyProfile
  rw [show conductivity (P.withSol (L.p1 us)) mat = K from rfl, ← hKd, eJ]
  field_simp
  ring

/-- **C114 (b).** Constant data, no sources and traps: whatever the stepsizes (not below some `hmin`) and the initial values,
the amount which has left through the right end according to the reported fluxes approaches an asymptote, the slope of which is
the steady flux; its intercept is what is stored initially less what is stored in the steady state. -/
theorem C114_asymptote (hq : ∀ p, 0 ≤ L.lam p ∧ L.lam p ≤ 1) (hP : LinearLine L P bcs mat matS fun _ => True)
    (hs : P.dt = none) (hT : P.mv.theta = true → ∀ p, P.T.Tn.val p = P.T.T.val p) (hsrc : P.sources = [])
    (val : Bool → ℝ) (hmin : ℝ) (h0 : 0 < hmin) (k : ℕ → ℝ) (hk : ∀ n, hmin ≤ k n) (U : ℕ → ℕ → ℝ)
    (hU : ∀ n, LineSolves L ((P.withStep (k n)).withPrev (L.p1 (U n))) bcs (fun _ => True) val (U (n + 1)))
    (e : ℕ → PostEnv Ω Bool 1) (proj : ℕ → Bool)
    (he : ∀ n, LineReport L (((P.withStep (k n)).withPrev (L.p1 (U n))).withSol (L.p1 (U (n + 1)))) mat matS (U (n + 1)) (e n)) :
    ∃ x : ℕ → ℝ, (∀ n, (hydrogenFlux L.right).value (e n) (proj n) = .ok (x n)) ∧
      Tendsto (fun n => ∑ i ∈ Finset.range n, k i * -x i
          - (val false - val true) / resistance L (conductivity P mat) L.N * ∑ i ∈ Finset.range n, k i) atTop
        (𝓝 (storedBefore L P mat (U 0) - storedBefore L P mat (steadyProfile L P mat val))) := by
  have hK := line_cell_pos hP
  set K := conductivity P mat with hKd
  set w : Ω → ℝ := (L.p1 (before L K)).val with hw
  set Q : ℕ → Problem Ω Bool 1 := fun n => ((P.withStep (k n)).withPrev (L.p1 (U n))).withSol (L.p1 (U (n + 1))) with hQ
  have hkpos : ∀ n, 0 < k n := fun n => lt_of_lt_of_le h0 (hk n)
  have hstep : ∀ n, TransientLine L (Q n) bcs mat matS (U (n + 1)) (fun _ => True) (k n) := fun n =>
    { mesh := hP.mesh
      sol := rfl
      cover := hP.cover
      solubility := ⟨hP.solubility.vol, hP.solubility.memS, hP.solubility.hasS, hP.solubility.surf⟩
      law := hP.law
      uniform := hP.uniform
      noSK := fun b vs hb => hP.fluxes _ hb
      transient := rfl
      pos := hkpos n
      solves := by
        intro v hv
        obtain ⟨F, hF, hz⟩ := (hU n).2 v hv
        refine ⟨F, ?_, hz⟩
        have ht : (Q n).traps = [] := hP.traps
        rw [ht]
        exact hF }
  have hheld : ∀ n, held (Q n) mat w = storedBefore L P mat (U (n + 1)) := by
    intro n
    unfold held storedBefore volume
    have ht : (Q n).traps = [] := hP.traps
    obtain ⟨r, hm⟩ := hP.mesh
    have hmw : (Q n).mesh.w = L.w := by
      show P.mesh.w = L.w
      rw [hm]; rfl
    refine Finset.sum_congr rfl fun p _ => ?_
    rw [hmw, ht]
    have := physConc_linear P.mv.theta (mat p) (P.T.T.val p) ((L.p1 (U (n + 1))).val p)
      fun h => hP.law h _ (hP.cover.mem p)
    simp only [List.map_nil, List.sum_nil, add_zero]
    rw [show (Q n).c mat p = _ from this]
  have hprev : ∀ n, heldBefore (Q n) mat w = storedBefore L P mat (U n) := by
    intro n
    unfold heldBefore storedBefore volume
    have ht : (Q n).traps = [] := hP.traps
    obtain ⟨r, hm⟩ := hP.mesh
    have hmw : (Q n).mesh.w = L.w := by
      show P.mesh.w = L.w
      rw [hm]; rfl
    refine Finset.sum_congr rfl fun p _ => ?_
    rw [hmw, ht]
    have h1 := physConc_linear P.mv.theta (mat p) (P.T.Tn.val p) ((L.p1 (U n)).val p)
      fun h => hP.law h _ (hP.cover.mem p)
    have h2 : unitConc P.mv.theta (mat p) (P.T.Tn.val p) = unitConc P.mv.theta (mat p) (P.T.T.val p) := by
      cases hth : P.mv.theta with
      | false => rfl
      | true => rw [hT hth p]
    rw [h2] at h1
    simp only [List.map_nil, List.sum_nil, add_zero]
    rw [show (Q n).cPrev mat p = _ from h1]
  have hprod : ∀ n, produced (Q n) mat w = 0 := by
    intro n
    have ht : (Q n).traps = [] := hP.traps
    have hs : (Q n).sources = [] := hsrc
    unfold produced
    rw [ht, hs]
    simp
  refine ⟨fun n => cellFlux L K (U (n + 1)) (L.N - 1), fun n => (line_reported (hstep n).toLineData (e n) (proj n)
    (he n).mesh (he n).normal (he n).soret (he n).properties (he n).grad (he n).ends).1, ?_⟩
  -- the cumulated amount
  have hsum : ∀ n, ∑ i ∈ Finset.range n, k i * -cellFlux L K (U (i + 1)) (L.N - 1)
      - (val false - val true) / resistance L K L.N * ∑ i ∈ Finset.range n, k i
      = storedBefore L P mat (U 0) - storedBefore L P mat (U n) := by
    intro n
    induction n with
    | zero => simp
    | succ n ih =>
      have h := (hstep n).permeates hK
      rw [show conductivity (Q n) mat = K from rfl, hheld, hprev, hprod] at h
      have v0 : U (n + 1) 0 = val false := by simpa [Line.p1] using (hU n).1 false trivial
      have vN : U (n + 1) L.N = val true := by simpa [Line.p1] using (hU n).1 true trivial
      rw [v0, vN] at h
      rw [Finset.sum_range_succ, Finset.sum_range_succ, h]
      linarith
  simp only [hsum]
  -- the steady state
  obtain ⟨us, hus, hlim⟩ := C91_limit hq hP hs hT val
  have hl := hlim hmin k U h0 hk hU
  have hprofile := steady_profile_of hP hs hsrc val us hus
  have hS : storedBefore L P mat (steadyProfile L P mat val) = storedBefore L P mat us := by
    unfold storedBefore
    rw [p1_congr L fun i hi => hprofile i hi]
  rw [hS]
  refine Tendsto.sub tendsto_const_nhds ?_
  unfold storedBefore
  refine tendsto_finsetSum _ fun p _ => Tendsto.const_mul _ (Tendsto.mul_const _ (Tendsto.const_mul _ ?_))
  have hc := L.cell_lt p
  exact ((hl _ hc.le).const_mul _).add ((hl _ hc).const_mul _)

/-- Integral of a quadratic function of the position. -/
theorem line_moments (hL : L.Exact2) (x : ℕ → ℝ) (hx0 : x 0 = 0) (hx : ∀ i < L.N, x (i + 1) = x i + L.h i) :
    (∑ p, L.w p * (L.p1 x).val p) = x L.N ^ 2 / 2 ∧ (∑ p, L.w p * (L.p1 x).val p ^ 2) = x L.N ^ 3 / 3 := by
  have fib : ∀ f : Ω → ℝ, (∑ p, f p)
      = ∑ i ∈ Finset.range L.N, ∑ p ∈ Finset.univ.filter (fun p => L.cell p = i), f p := fun f =>
    (Finset.sum_fiberwise_of_maps_to (s := Finset.univ) (t := Finset.range L.N) (g := L.cell)
      (fun p _ => Finset.mem_range.2 (L.cell_lt p)) f).symm
  have hv : ∀ i < L.N, ∀ p, L.cell p = i → (L.p1 x).val p = x i + L.lam p * L.h i := by
    intro i hi p hp
    simp only [Line.p1, hp, hx i hi]
    ring
  constructor
  · rw [fib, show x L.N ^ 2 / 2 = x L.N ^ 2 / 2 - x 0 ^ 2 / 2 by rw [hx0]; ring,
      ← Finset.sum_range_sub (fun i => x i ^ 2 / 2)]
    refine Finset.sum_congr rfl fun i hi => ?_
    have hi' := Finset.mem_range.1 hi
    rw [Finset.sum_congr rfl (g := fun p => L.w p * x i + (L.w p * L.lam p) * L.h i) fun p hp => by
      rw [hv i hi' p (Finset.mem_filter.1 hp).2]; ring]
    rw [Finset.sum_add_distrib, ← Finset.sum_mul, ← Finset.sum_mul, L.exact i hi', hL.one i hi', hx i hi']
    ring
  · rw [fib, show x L.N ^ 3 / 3 = x L.N ^ 3 / 3 - x 0 ^ 3 / 3 by rw [hx0]; ring,
      ← Finset.sum_range_sub (fun i => x i ^ 3 / 3)]
    refine Finset.sum_congr rfl fun i hi => ?_
    have hi' := Finset.mem_range.1 hi
    rw [Finset.sum_congr rfl (g := fun p => L.w p * x i ^ 2 + (L.w p * L.lam p) * (2 * x i * L.h i)
        + (L.w p * L.lam p ^ 2) * L.h i ^ 2) fun p hp => by
      rw [hv i hi' p (Finset.mem_filter.1 hp).2]; ring]
    rw [Finset.sum_add_distrib, Finset.sum_add_distrib, ← Finset.sum_mul, ← Finset.sum_mul, ← Finset.sum_mul, L.exact i hi',
      hL.one i hi', hL.two i hi', hx i hi']
    ring

/-- What a uniform wall stores in the steady state. -/
theorem stored_uniform (hL : L.Exact2) (hth : P.mv.theta = false) (D : ℝ) (hD : 0 < D)
    (huni : ∀ p, conductivity P mat p = D) (c₀ : ℝ) :
    storedBefore L P mat (steadyProfile L P mat fun q => if q then 0 else c₀)
      = c₀ * (L.thickness ^ 2 - L.h (L.N - 1) ^ 2) / (6 * L.thickness) := by
  have hN := L.N_pos
  set x : ℕ → ℝ := fun j => ∑ i ∈ Finset.range j, L.h i with hx
  set l := L.thickness with hl
  have hxN : x L.N = l := rfl
  have hlpos : 0 < l := Finset.sum_pos (fun i hi => L.h_pos i (Finset.mem_range.1 hi)) ⟨0, Finset.mem_range.2 hN⟩
  have hxs : ∀ i < L.N, x (i + 1) = x i + L.h i := fun i _ => Finset.sum_range_succ _ _
  have hres : ∀ j ≤ L.N, resistance L (conductivity P mat) j = x j / D := by
    intro j hj
    rw [resistance_layers L _ (fun _ => D) (fun p => huni p) j hj, ← Finset.sum_div]
  have hrho : ∀ j ≤ L.N, resistance L (conductivity P mat) j / resistance L (conductivity P mat) L.N = x j / l := by
    intro j hj
    rw [hres j hj, hres L.N le_rfl, hxN]
    field_simp
  have hval : ∀ p, (L.p1 (steadyProfile L P mat fun q => if q then 0 else c₀)).val p
      = c₀ * (1 - (L.p1 x).val p / l) := by
    intro p
    have hc := L.cell_lt p
    simp only [Line.p1, steadyProfile, hrho _ hc.le, hrho _ hc, if_true, Bool.false_eq_true, if_false]
    ring
  have hbef : ∀ p, (L.p1 (before L (conductivity P mat))).val p = (L.p1 x).val p / l - L.atEnd true p := by
    intro p
    have hc := L.cell_lt p
    simp only [Line.p1, before, hrho _ hc.le, hrho _ hc, Line.atEnd, Line.endNode, if_true]
    ring
  obtain ⟨m1, m2⟩ := line_moments hL x rfl hxs
  have hlt : L.N - 1 < L.N := by omega
  have last : ∑ p, L.w p * ((1 - (L.p1 x).val p / l) * L.atEnd true p) = L.h (L.N - 1) ^ 2 / (6 * l) := by
    have e : ∑ p, L.w p * ((1 - (L.p1 x).val p / l) * L.atEnd true p)
        = ∑ p ∈ Finset.univ.filter (fun p => L.cell p = L.N - 1),
          (L.w p * L.lam p - L.w p * L.lam p ^ 2) * (L.h (L.N - 1) / l) := by
      rw [Finset.sum_filter]
      refine Finset.sum_congr rfl fun p _ => ?_
      split_ifs with hp
      · have hxp : (L.p1 x).val p = l - (1 - L.lam p) * L.h (L.N - 1) := by
          have h1 := hxs _ hlt
          have h2 : L.N - 1 + 1 = L.N := by omega
          rw [h2, hxN] at h1
          simp only [Line.p1, hp, h2, hxN]
          rw [h1]
          ring
        rw [atEnd_of_eq true p (by simpa [Line.endCell] using hp), hxp, if_pos rfl]
        field_simp
        ring
      · rw [atEnd_of_ne true p (by simpa [Line.endCell] using hp)]
        ring
    rw [e, ← Finset.sum_mul, Finset.sum_sub_distrib, hL.one _ hlt, hL.two _ hlt]
    field_simp
    ring
  unfold storedBefore
  have e : ∀ p, L.w p * (unitConc P.mv.theta (mat p) (P.T.T.val p)
      * (L.p1 (steadyProfile L P mat fun q => if q then 0 else c₀)).val p * (L.p1 (before L (conductivity P mat))).val p)
      = c₀ / l * (L.w p * (L.p1 x).val p) - c₀ / l ^ 2 * (L.w p * (L.p1 x).val p ^ 2)
        - c₀ * (L.w p * ((1 - (L.p1 x).val p / l) * L.atEnd true p)) := by
    intro p
    rw [hval, hbef, hth]
    simp only [unitConc, Bool.false_eq_true, if_false]
    field_simp
  rw [Finset.sum_congr rfl fun p _ => e p, Finset.sum_sub_distrib, Finset.sum_sub_distrib, ← Finset.mul_sum,
    ← Finset.mul_sum, ← Finset.mul_sum, m1, m2, last, hxN]
  field_simp
  ring

/-- **C114 (c).** The time lag: a uniform wall, initially empty, with concentration `c₀` at the left and 0 at the right.  The
amount which has left according to the reported fluxes approaches `D c₀ / l (t - τ)` with `τ = (l² - h²) / (6 D)`, `h` being the
size of the last cell; neither the stepsizes nor the rest of the mesh matter. -/
theorem C114_lag (hL : L.Exact2) (hP : LinearLine L P bcs mat matS fun _ => True) (hs : P.dt = none)
    (hth : P.mv.theta = false) (hsrc : P.sources = []) (D : ℝ) (huni : ∀ p, conductivity P mat p = D) (c₀ : ℝ)
    (hmin : ℝ) (h0 : 0 < hmin) (k : ℕ → ℝ) (hk : ∀ n, hmin ≤ k n) (U : ℕ → ℕ → ℝ) (hU0 : U 0 = 0)
    (hU : ∀ n, LineSolves L ((P.withStep (k n)).withPrev (L.p1 (U n))) bcs (fun _ => True)
      (fun q => if q then 0 else c₀) (U (n + 1)))
    (e : ℕ → PostEnv Ω Bool 1) (proj : ℕ → Bool)
    (he : ∀ n, LineReport L (((P.withStep (k n)).withPrev (L.p1 (U n))).withSol (L.p1 (U (n + 1)))) mat matS (U (n + 1)) (e n)) :
    ∃ x : ℕ → ℝ, (∀ n, (hydrogenFlux L.right).value (e n) (proj n) = .ok (x n)) ∧
      Tendsto (fun n => ∑ i ∈ Finset.range n, k i * -x i
          - D * c₀ / L.thickness
            * (∑ i ∈ Finset.range n, k i - (L.thickness ^ 2 - L.h (L.N - 1) ^ 2) / (6 * D))) atTop (𝓝 0) := by
  have hN := L.N_pos
  have hD : 0 < D := by
    obtain ⟨p⟩ : Nonempty Ω := by
      by_contra hn
      rw [not_nonempty_iff] at hn
      have := L.exact 0 hN
      rw [Finset.univ_eq_empty, Finset.filter_empty, Finset.sum_empty] at this
      exact absurd (L.h_pos 0 hN) (by rw [← this]; exact lt_irrefl _)
    exact huni p ▸ conductivity_pos hP p
  have hlpos : 0 < L.thickness :=
    Finset.sum_pos (fun i hi => L.h_pos i (Finset.mem_range.1 hi)) ⟨0, Finset.mem_range.2 hN⟩
  obtain ⟨x, hx, hlim⟩ := C114_asymptote (fun p => ⟨hL.lam_nonneg p, hL.lam_le p⟩) hP hs (by simp [hth]) hsrc
    (fun q => if q then 0 else c₀) hmin h0 k hk U hU e proj he
  refine ⟨x, hx, ?_⟩
  have hS0 : storedBefore L P mat (U 0) = 0 := by
    unfold storedBefore
    refine Finset.sum_eq_zero fun p _ => ?_
    simp [hU0, Line.p1]
  have hR : resistance L (conductivity P mat) L.N = L.thickness / D := by
    rw [resistance_layers L _ (fun _ => D) (fun p => huni p) _ le_rfl, ← Finset.sum_div]
    rfl
  rw [hS0, stored_uniform hL hth D hD huni c₀, hR, zero_sub] at hlim
  have := hlim.add_const (c₀ * (L.thickness ^ 2 - L.h (L.N - 1) ^ 2) / (6 * L.thickness))
  rw [neg_add_cancel] at this
  refine this.congr fun n => ?_
  simp only [if_true, Bool.false_eq_true, if_false, sub_zero]
  field_simp
  ring

end

/-! ## A wall of two cells charged from the left -/

namespace LagCase

noncomputable def L : Line (Fin 2 × Fin 3) := BoundCase.simpson 1 one_pos
noncomputable def M : Mat := { uid := 0, ids := [1], D_0 := 1, E_D := 0 }

noncomputable def P : Problem (Fin 2 × Fin 3) Bool 1 where
  mesh := L.mesh (Fld.const 1)
  mats := [M]
  mv := { theta := false, sol := Fld.const 0, prev := Fld.const 0 }
  T := ⟨Fld.const 300, Fld.const 300⟩
  dt := none
  soret := false
  sources := []
  traps := []

theorem linear : LinearLine L P [] (fun _ => M) (fun _ => M) fun _ => True where
  mesh := ⟨_, rfl⟩
  weights := (BoundCase.simpson_exact2 1 one_pos).w_nonneg
  cover := ⟨by simp [P], by simp [P, L, Line.mesh, BoundCase.simpson, M], by simp [P, M]⟩
  solubility := ⟨by simp [P], by simp [P], by simp [P], by simp [P]⟩
  law := by simp [P]
  uniform := by simp [P]
  D_pos := by simp [P, M]
  S_pos := by simp [P]
  step := by simp [P]
  traps := rfl
  decay := by simp [P]
  fluxes := by simp
  fixed := Or.inr ⟨true, Or.inl trivial⟩

noncomputable def env (u : ℕ → ℝ) : PostEnv (Fin 2 × Fin 3) Bool 1 where
  mesh := P.mesh
  n := Line.normal
  D _ := 1
  cond := none
  Q := none
  T := EndCase.fun1 fun _ => 300
  soret := false
  solute := EndCase.fun1 u
  traps := []
  ids := []
  adsorbed := []

/-- The simulation with stepsizes `1, 2, 1, 2, ...` exists and its time lag is `(2² - 1²) / 6 = 1/2`, to be compared with
`2² / 6 = 2/3` for the equation. -/
example : ∃ (U : ℕ → ℕ → ℝ) (x : ℕ → ℝ), U 0 = 0 ∧
    (∀ n, LineSolves L ((P.withStep (if n % 2 = 0 then 1 else 2)).withPrev (L.p1 (U n))) [] (fun _ => True)
      (fun q => if q then 0 else 5) (U (n + 1))) ∧
    (∀ n, (hydrogenFlux L.right).value (env (U (n + 1))) false = .ok (x n)) ∧
    Tendsto (fun n => ∑ i ∈ Finset.range n, (if i % 2 = 0 then (1 : ℝ) else 2) * -x i
      - 5 / 2 * (∑ i ∈ Finset.range n, (if i % 2 = 0 then (1 : ℝ) else 2) - 1 / 2)) atTop (𝓝 0) := by
  have hpos : ∀ n : ℕ, (0 : ℝ) < if n % 2 = 0 then 1 else 2 := fun n => by split_ifs <;> norm_num
  obtain ⟨U, hU0, hU⟩ := (C90_run (fun n => P.withStep (if n % 2 = 0 then 1 else 2)) (fun _ => []) (fun _ _ => M)
    (fun _ _ => M) (fun _ _ => True) (fun _ q => if q then 0 else 5)
    (fun n => LinearLine.withStep linear (hpos n)) 0).1
  obtain ⟨x, hx, hlim⟩ := C114_lag (BoundCase.simpson_exact2 1 one_pos) linear rfl rfl rfl 1
    (fun p => by simp [conductivity, P, M, arr]) 5 1 one_pos (fun n => if n % 2 = 0 then 1 else 2)
    (fun n => by split_ifs <;> norm_num) U hU0 hU (fun n => env (U (n + 1))) (fun _ => false) (fun n =>
      { mesh := rfl
        normal := rfl
        soret := rfl
        properties := ⟨by intro q; cases q <;> simp [P, L, Line.mesh, env, findMat, M, BoundCase.simpson, Problem.withSol,
            Problem.withPrev, Problem.withStep],
          by intro q; cases q <;> simp [P, L, Line.mesh, env, arrheniusCoeff, findMat, M, BoundCase.simpson, Problem.withSol,
            Problem.withPrev, Problem.withStep], by simp [env], by simp [env]⟩
        grad := by intro q; simp [env, P, EndCase.fun1, Problem.withSol, Problem.withPrev, Problem.withStep]; rfl
        ends := by
          intro q p _
          cases q <;> simp [P, env, Fld.const, EndCase.fun1, Line.p1, Problem.withSol, Problem.withPrev, Problem.withStep] })
  have e : (BoundCase.simpson 1 one_pos).thickness = 2 := by
    norm_num [Line.thickness, BoundCase.simpson, Finset.sum_range_succ]
  refine ⟨U, x, hU0, hU, hx, ?_⟩
  rw [e] at hlim
  refine hlim.congr fun n => ?_
  norm_num [BoundCase.simpson]

/-- Two steps of the plate of C112. -/
example : ∃ x : ℕ → ℝ, (∀ i ≤ 1, (hydrogenFlux L.right).value (EndCase.env i) false = .ok (x i)) ∧
    ∑ i ∈ Finset.range (1 + 1), 1 * -x i
      = ∑ i ∈ Finset.range (1 + 1), 1 * ((EndCase.U (i + 1) 0 - EndCase.U (i + 1) L.N) / resistance L (fun _ => 1) L.N)
        + ∑ i ∈ Finset.range (1 + 1), 1 * produced (EndCase.P i) (fun _ => EndCase.M) (L.p1 (before L fun _ => 1)).val
        - (held (EndCase.P 1) (fun _ => EndCase.M) (L.p1 (before L fun _ => 1)).val
          - heldBefore (EndCase.P 0) (fun _ => EndCase.M) (L.p1 (before L fun _ => 1)).val) :=
  C114_cumulated EndCase.P (fun _ => []) (fun i => EndCase.U (i + 1)) (fun _ => 1) EndCase.env (fun _ => false) (fun _ => 1) 1
    EndCase.solved (fun i _ => EndCase.report i) (by
      intro i hi
      obtain rfl : i = 0 := by omega
      exact EndCase.follows)
    (by intro i _; funext p; simp [conductivity, EndCase.P, EndCase.M, arr])
    (fun i hi => cellInt_pos L (BoundCase.simpson_exact2 1 one_pos) _ (fun _ => one_pos) i hi)

end LagCase

end Festim.Props
