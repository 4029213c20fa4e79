import Verif.Props.TimeLag

/-!
# C112: what a desorption simulation reports as desorbed
-/

open scoped BigOperators

set_option linter.unusedSectionVars false
set_option linter.unusedSimpArgs false

namespace Festim.Props

open Festim.Weak Filter Topology

section
variable {Ω : Type} [Fintype Ω] {L : Line Ω} {P : Problem Ω Bool 1} {bcs : List (MobBC Bool)} {mat : Ω → Mat}
  {matS : Bool → Mat}

/-- Hydrogen in the state with nodal values `u`, with the weight `v`. -/
noncomputable def inventory (L : Line Ω) (P : Problem Ω Bool 1) (mat : Ω → Mat) (u : ℕ → ℝ) (v : Ω → ℝ) : ℝ :=
  ∑ p, L.w p * (unitConc P.mv.theta (mat p) (P.T.T.val p) * (L.p1 u).val p * v p)

/-- **C112 (d).** Desorption into vacuum at both ends, without sources and traps, from any initial state and with any stepsizes
not below some `hmin`: the amount which has left according to the reported fluxes tends to the initial inventory less what was
initially in the cells at the ends, counted with the functions which decrease from 1 to 0 there. -/
theorem C112_desorbed (hq : ∀ p, 0 ≤ L.lam p ∧ L.lam p ≤ 1) (hP : LinearLine L P bcs mat matS fun _ => True)
    (hs : P.dt = none) (hT : P.mv.theta = true → ∀ p, P.T.Tn.val p = P.T.T.val p) (hsrc : P.sources = [])
    (hmin : ℝ) (h0 : 0 < hmin) (k : ℕ → ℝ) (hk : ∀ n, hmin ≤ k n) (U : ℕ → ℕ → ℝ)
    (hU : ∀ n, LineSolves L ((P.withStep (k n)).withPrev (L.p1 (U n))) bcs (fun _ => True) (fun _ => 0) (U (n + 1)))
    (e : ℕ → PostEnv Ω Bool 1) (proj : ℕ → Bool)
    (he : ∀ n, LineReport L (((P.withStep (k n)).withPrev (L.p1 (U n))).withSol (L.p1 (U (n + 1)))) mat matS (U (n + 1)) (e n)) :
    ∃ x : ℕ → Bool → ℝ, (∀ n, (hydrogenFlux L.right).value (e n) (proj n) = .ok (x n true) ∧
        (hydrogenFlux L.left).value (e n) (proj n) = .ok (x n false)) ∧
      Tendsto (fun n => ∑ i ∈ Finset.range n, k i * (-x i true - x i false)) atTop
        (𝓝 (inventory L P mat (U 0) (fun _ => 1) - inventory L P mat (U 0) (L.atEnd false)
          - inventory L P mat (U 0) (L.atEnd true))) := by
  set Q : ℕ → Problem Ω Bool 1 := fun n => ((P.withStep (k n)).withPrev (L.p1 (U n))).withSol (L.p1 (U (n + 1))) with hQ
  have hkpos : ∀ n, 0 < k n := fun n => lt_of_lt_of_le h0 (hk n)
  have hstep : ∀ n, TransientLine L (Q n) bcs mat matS (U (n + 1)) (fun _ => True) (k n) := fun n =>
    { mesh := hP.mesh
      sol := rfl
      cover := hP.cover
      solubility := ⟨hP.solubility.vol, hP.solubility.memS, hP.solubility.hasS, hP.solubility.surf⟩
      law := hP.law
      uniform := hP.uniform
      noSK := fun b vs hb => hP.fluxes _ hb
      transient := rfl
      pos := hkpos n
      solves := by
        intro v hv
        obtain ⟨F, hF, hz⟩ := (hU n).2 v hv
        refine ⟨F, ?_, hz⟩
        have ht : (Q n).traps = [] := hP.traps
        rw [ht]
        exact hF }
  have hheld : ∀ n w, held (Q n) mat w = inventory L P mat (U (n + 1)) w := by
    intro n w
    unfold held inventory volume
    have ht : (Q n).traps = [] := hP.traps
    obtain ⟨r, hm⟩ := hP.mesh
    have hmw : (Q n).mesh.w = L.w := by
      show P.mesh.w = L.w
      rw [hm]; rfl
    refine Finset.sum_congr rfl fun p _ => ?_
    rw [hmw, ht]
    have := physConc_linear P.mv.theta (mat p) (P.T.T.val p) ((L.p1 (U (n + 1))).val p)
      fun h => hP.law h _ (hP.cover.mem p)
    simp only [List.map_nil, List.sum_nil, add_zero]
    rw [show (Q n).c mat p = _ from this]
  have hprev : ∀ n w, heldBefore (Q n) mat w = inventory L P mat (U n) w := by
    intro n w
    unfold heldBefore inventory volume
    have ht : (Q n).traps = [] := hP.traps
    obtain ⟨r, hm⟩ := hP.mesh
    have hmw : (Q n).mesh.w = L.w := by
      show P.mesh.w = L.w
      rw [hm]; rfl
    refine Finset.sum_congr rfl fun p _ => ?_
    rw [hmw, ht]
    have h1 := physConc_linear P.mv.theta (mat p) (P.T.Tn.val p) ((L.p1 (U n)).val p)
      fun h => hP.law h _ (hP.cover.mem p)
    have h2 : unitConc P.mv.theta (mat p) (P.T.Tn.val p) = unitConc P.mv.theta (mat p) (P.T.T.val p) := by
      cases hth : P.mv.theta with
      | false => rfl
      | true => rw [hT hth p]
    rw [h2] at h1
    simp only [List.map_nil, List.sum_nil, add_zero]
    rw [show (Q n).cPrev mat p = _ from h1]
  have hprod : ∀ n w, produced (Q n) mat w = 0 := by
    intro n w
    have ht : (Q n).traps = [] := hP.traps
    have hs : (Q n).sources = [] := hsrc
    unfold produced
    rw [ht, hs]
    simp
  have h := fun n => C112_step (hstep n) (e n) (proj n) (he n)
  choose x h1 h2 h3 using h
  refine ⟨x, fun n => ⟨h1 n, h2 n⟩, ?_⟩
  have hsum : ∀ n, ∑ i ∈ Finset.range n, k i * (-x i true - x i false)
      = (inventory L P mat (U 0) (fun _ => 1) - inventory L P mat (U 0) (L.atEnd false) - inventory L P mat (U 0) (L.atEnd true))
        - (inventory L P mat (U n) (fun _ => 1) - inventory L P mat (U n) (L.atEnd false)
          - inventory L P mat (U n) (L.atEnd true)) := by
    intro n
    induction n with
    | zero => simp
    | succ n ih =>
      have h := h3 n
      simp only [hheld, hprev, hprod] at h
      simp only [entering, overEnds, Fintype.sum_bool, if_true] at h
      rw [Finset.sum_range_succ, ih]
      linarith
  simp only [hsum]
  obtain ⟨us, hus, hlim⟩ := C91_limit hq hP hs hT fun _ => 0
  have hl := hlim hmin k U h0 hk hU
  have hz : ∀ j ≤ L.N, us j = 0 := by
    intro j hj
    rw [steady_profile_of hP hs hsrc _ us hus j hj]
    simp [steadyProfile]
  have hi : ∀ w, Tendsto (fun n => inventory L P mat (U n) w) atTop (𝓝 0) := by
    intro w
    have : inventory L P mat us w = 0 := by
      unfold inventory
      refine Finset.sum_eq_zero fun p _ => ?_
      have hc := L.cell_lt p
      simp [Line.p1, hz _ hc.le, hz _ hc]
    rw [← this]
    unfold inventory
    refine tendsto_finsetSum _ fun p _ => Tendsto.const_mul _ (Tendsto.mul_const _ (Tendsto.const_mul _ ?_))
    have hc := L.cell_lt p
    exact ((hl _ hc.le).const_mul _).add ((hl _ hc).const_mul _)
  have := ((hi fun _ => 1).sub (hi (L.atEnd false))).sub (hi (L.atEnd true))
  simpa using tendsto_const_nhds.sub this

end

namespace LagCase

/-- The wall of `LagCase`, initially with concentration 1 everywhere: 2 are present, 1 is reported as desorbed. -/
example : ∃ (U : ℕ → ℕ → ℝ) (x : ℕ → Bool → ℝ), (U 0 = fun _ => 1) ∧
    (∀ n, LineSolves L ((P.withStep 1).withPrev (L.p1 (U n))) [] (fun _ => True) (fun _ => 0) (U (n + 1))) ∧
    inventory L P (fun _ => M) (U 0) (fun _ => 1) = 2 ∧
    (∀ n, (hydrogenFlux L.right).value (env (U (n + 1))) false = .ok (x n true) ∧
      (hydrogenFlux L.left).value (env (U (n + 1))) false = .ok (x n false)) ∧
    Tendsto (fun n => ∑ i ∈ Finset.range n, 1 * (-x i true - x i false)) atTop (𝓝 1) := by
  have hL := BoundCase.simpson_exact2 1 one_pos
  obtain ⟨U, hU0, hU⟩ := (C90_run (fun _ => P.withStep 1) (fun _ => []) (fun _ _ => M)
    (fun _ _ => M) (fun _ _ => True) (fun _ _ => 0) (fun _ => LinearLine.withStep linear one_pos) fun _ => 1).1
  obtain ⟨x, hx, hlim⟩ := C112_desorbed (L := L) (fun p => ⟨hL.lam_nonneg p, hL.lam_le p⟩) linear rfl (by simp [P]) rfl 1 one_pos
    (fun _ => 1) (fun _ => le_rfl) U hU (fun n => env (U (n + 1))) (fun _ => false) (fun n =>
      { mesh := rfl
        normal := rfl
        soret := rfl
        properties := ⟨by intro q; cases q <;> simp [P, L, Line.mesh, env, findMat, M, BoundCase.simpson, Problem.withSol,
            Problem.withPrev, Problem.withStep],
          by intro q; cases q <;> simp [P, L, Line.mesh, env, arrheniusCoeff, findMat, M, BoundCase.simpson, Problem.withSol,
            Problem.withPrev, Problem.withStep], by simp [env], by simp [env]⟩
        grad := by intro q; simp [env, P, EndCase.fun1, Problem.withSol, Problem.withPrev, Problem.withStep]; rfl
        ends := by
          intro q p _
          cases q <;> simp [P, env, Fld.const, EndCase.fun1, Line.p1, Problem.withSol, Problem.withPrev, Problem.withStep] })
  have h21 : ¬ (2 : Fin 3) = 1 := by decide
  have e1 : inventory L P (fun _ => M) (U 0) (fun _ => 1) = 2 := by
    rw [hU0]
    norm_num [inventory, P, unitConc, Line.p1, L, BoundCase.simpson, Fintype.sum_prod_type, Fin.sum_univ_two,
      Fin.sum_univ_three, h21]
  have e2 : ∀ q, inventory L P (fun _ => M) (U 0) (L.atEnd q) = 1 / 2 := by
    intro q
    rw [hU0]
    cases q <;> norm_num [inventory, P, unitConc, Line.p1, L, BoundCase.simpson, Fintype.sum_prod_type, Fin.sum_univ_two,
      Fin.sum_univ_three, h21, Line.atEnd, hat, Line.endNode]
  refine ⟨U, x, hU0, hU, e1, hx, ?_⟩
  rw [e1, e2, e2] at hlim
  norm_num at hlim ⊢
  exact hlim

end LagCase

end Festim.Props
