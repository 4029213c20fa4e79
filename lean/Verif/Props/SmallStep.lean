import Verif.Proofs.Space
import Verif.Proofs.SmallStep
import Verif.Props.Closed

/-!
# C100: small enough stepsizes
-/

open scoped BigOperators

set_option linter.unusedSectionVars false

namespace Festim.Solve

open Newton Spec Weak

section
variable {Ω Γ : Type} [Fintype Ω] [Fintype Γ] {d : ℕ} {ι : Type} [Fintype ι] [DecidableEq ι]
  {P : Problem Ω Γ d} {bcs : List (MobBC Γ)} {mat : Ω → Mat} {e : ι → MixedFun Ω Γ d}

/-- The equations have the form of `Verif.Proofs.SmallStep`. -/
theorem step_system (hP : Regular P bcs mat e) (imposed : List (List (ι × ℝ))) :
    ∃ (M : Matrix ι ι ℝ) (m : ι → ℝ) (G : (ι → ℝ) → ι → ℝ), PosOn imposed M ∧ ContDiff ℝ 1 G ∧
      ∀ h S, StepOf P bcs e imposed h S → StepSystem imposed M m G h S := by
  have hth : P.mv.theta = true → ∀ mt ∈ P.mats, mt.law = .sievert := fun h mt hm => ((hP.sievert h).1 mt hm).1
  let M : Matrix ι ι ℝ := Matrix.of fun j i => P.massForm bcs (e i) (e j)
  have hM : ∀ x j, M.mulVec x j = P.massForm bcs (MixedFun.comb x e) (e j) := by
    intro x j
    refine Eq.trans ?_ (lin_mass (e := e) P bcs hth hP.covers (e j) x).symm
    unfold Matrix.mulVec dotProduct
    exact Finset.sum_congr rfl fun i _ => mul_comm _ _
  have hsplit := fun i => splits_form P bcs hP.smooth (e i) (u := fun x : ι → ℝ => MixedFun.comb x e)
    (smooth_comb _) (fun k => smooth_comb _) (fun k => smooth_lin _)
  choose m B hB hform using hsplit
  have hG : ContDiff ℝ 1 fun x i => B i x := contDiff_pi.2 hB
  refine ⟨M, m, fun x i => B i x, ?_, hG, ?_⟩
  · intro v _ hv
    have e1 : ∑ i, v i * M.mulVec v i = P.massForm bcs (MixedFun.comb v e) (MixedFun.comb v e) := by
      refine Eq.trans ?_ (lin_mass' (e := e) P bcs hth hP.covers (MixedFun.comb v e) v).symm
      exact Finset.sum_congr rfl fun i _ => by rw [hM]
    rw [e1]
    obtain ⟨h1, h2⟩ := mass_pos P bcs (fun h => (hP.sievert h).1) hP.covers hP.weights hP.facets
      (fun h => (hP.sievert h).2) hP.kinetics (MixedFun.comb v e)
    refine lt_of_le_of_ne h1 fun h0 => hv ?_
    obtain ⟨a, b, c⟩ := h2 h0.symm
    exact hP.basis v a b c
  · intro h S hS
    have hF : S.F = fun x i => h⁻¹ * (M.mulVec x i - m i) + B i x := by
      funext x i
      obtain ⟨f, hf, hv⟩ := hS.residual x i
      rw [hv, hform i h x f hf, hM]
    refine ⟨hS.imposed_eq, fun x i _ => by rw [hF], fun x v i _ => ?_, hS.cells⟩
    have d1 : HasFDerivAt S.F (h⁻¹ • LinearMap.toContinuousLinearMap (Matrix.toLin' M)
        + fderiv ℝ (fun x i => B i x) x) x := by
      rw [hF]
      have l : HasFDerivAt (fun x : ι → ℝ => h⁻¹ • (LinearMap.toContinuousLinearMap (Matrix.toLin' M) x - m))
          (h⁻¹ • LinearMap.toContinuousLinearMap (Matrix.toLin' M)) x :=
        HasFDerivAt.const_smul (((LinearMap.toContinuousLinearMap (Matrix.toLin' M)).hasFDerivAt).sub_const m) h⁻¹
      exact l.add ((hG.differentiable one_ne_zero).differentiableAt.hasFDerivAt)
    have := congrArg (fun L => L v i) ((hS.jacobian x).unique d1)
    simpa using this

/-- There are such equations. -/
theorem step_exists (hP : Regular P bcs mat e) (imposed : List (List (ι × ℝ))) (h : ℝ)
    (hok : ∀ x i, ∃ F, ({ P with dt := some h } : Problem Ω Γ d).mixedForm bcs (MixedFun.comb x e) (e i) = .ok F) :
    ∃ S, StepOf P bcs e imposed h S := by
  choose F hF using hok
  have hsplit := fun i => splits_form P bcs hP.smooth (e i) (u := fun x : ι → ℝ => MixedFun.comb x e)
    (smooth_comb _) (fun k => smooth_comb _) (fun k => smooth_lin _)
  choose m B hB hform using hsplit
  have hth : P.mv.theta = true → ∀ mt ∈ P.mats, mt.law = .sievert := fun h mt hm => ((hP.sievert h).1 mt hm).1
  have hd : Differentiable ℝ fun (x : ι → ℝ) i => P.mesh.assemble (F x i) := by
    rw [differentiable_pi]
    intro i
    have : (fun x => P.mesh.assemble (F x i))
        = fun x => h⁻¹ * ((∑ j, x j * P.massForm bcs (e j) (e i)) - m i) + B i x := by
      funext x
      rw [hform i h x _ (hF x i)]
      have := lin_mass (e := e) P bcs hth hP.covers (e i) x
      dsimp only at this ⊢
      rw [this]
    rw [this]
    exact ((contDiff_const.mul ((smooth_lin _).sub contDiff_const)).add (hB i)).differentiable one_ne_zero
  refine ⟨⟨fun x i => P.mesh.assemble (F x i),
    fun x => LinearMap.toMatrix' (fderiv ℝ (fun (x : ι → ℝ) i => P.mesh.assemble (F x i)) x).toLinearMap,
    imposed, fun _ => 1⟩, rfl, fun _ => one_pos, fun x => ?_, fun x i => ⟨F x i, hF x i, rfl⟩⟩
  dsimp only
  rw [Matrix.toLin'_toMatrix']
  exact (hd x).hasFDerivAt

end

theorem iterate_failed {ι : Type} [Fintype ι] [DecidableEq ι] (S : System ι)
    (lin : Matrix ι ι ℝ → (ι → ℝ) → ι → ℝ) (o : Opts) (r0 : ℝ) (fuel : ℕ) :
    ∀ it x, (iterate S lin o r0 fuel it x).2.1 = false → (iterate S lin o r0 fuel it x).1 = it + fuel := by
  induction fuel with
  | zero =>
    intro it x h
    unfold iterate at h ⊢
    by_cases hs : Small o r0 (norm2 (S.rhs x))
    · rw [if_pos hs] at h; simp at h
    · rw [if_neg hs]; rfl
  | succ n ih =>
    intro it x h
    unfold iterate at h ⊢
    by_cases hs : Small o r0 (norm2 (S.rhs x))
    · rw [if_pos hs] at h; simp at h
    · rw [if_neg hs] at h ⊢
      rw [ih _ _ h]
      omega

end Festim.Solve

namespace Festim.Closed

open Festim.Run Festim.Spec Festim.Props

section
variable {U : Type} {cfg : Stepsize} {final : ℚ} {solve : ℚ → ℚ → U → U → ℕ × Bool × U} {guess init : U}

/-- `s'` is `s` after an accepted step. -/
structure Accepted (s s' : CoupledState U Unit) : Prop where
  recs : ∃ r, s'.recs = s.recs ++ [r] ∧ r.t = s.run.t ∧ r.prev = s.un ∧ r.guess = s.u ∧ 0 < r.dtH ∧
    r.dtH ≤ s.run.value
  live : Solving s'.run ∨ Returned s'.run

theorem afterSolve_error {a : Adaptive} (ha : cfg.adaptive = some a) (hr : 1 < a.ratio) {m : ℚ}
    (hm : a.dtMin = some m) {v t : ℚ} (hcap : ∃ c, a.maxStep.eval t = .ok c) {o : Outcome} {err : PyErr}
    (h : afterSolve cfg v t o = .error err) :
    o.converged = false ∧ v / a.ratio < m ∧ err = .valueError "stepsize reached minimal value" := by
  have hr0 : a.ratio ≠ 0 := by linarith
  obtain ⟨c, hc⟩ := hcap
  have hcap' : ∀ w, ∃ w', a.cap t w = .ok w' := by
    intro w
    unfold Adaptive.cap
    rw [hc]
    cases c with
    | none => exact ⟨w, rfl⟩
    | some c =>
      dsimp only
      split
      · exact ⟨_, rfl⟩
      · exact ⟨_, rfl⟩
  have hit : ∀ w, ∃ w', a.onIterations w o.nbIt = .ok w' := by
    intro w
    unfold Adaptive.onIterations pyDiv
    rw [if_neg hr0]
    split
    · exact ⟨_, rfl⟩
    · exact ⟨_, rfl⟩
  unfold afterSolve Stepsize.adapt adaptAdaptive at h
  rw [ha] at h
  simp only [Option.isSome_some, Bool.true_or, if_true] at h
  cases hd : a.onDivergence v o.converged with
  | ok w =>
    obtain ⟨w2, h2⟩ := hit w
    obtain ⟨w3, h3⟩ := hcap' w2
    simp [hd, h2, h3] at h
  | error e' =>
    simp only [hd, Except.error.injEq] at h
    subst h
    unfold Adaptive.onDivergence pyDiv at hd
    rw [hm] at hd
    cases ho : o.converged with
    | true => rw [ho] at hd; simp at hd
    | false =>
      rw [ho] at hd
      simp only [Bool.false_eq_true, if_false, if_neg hr0] at hd
      split at hd
      · rename_i hlt
        rw [Except.error.injEq] at hd
        exact ⟨rfl, hlt, hd.symm⟩
      · simp at hd

theorem exec_facts (hpos : PositiveSteps cfg) (k : ℕ) (hs : Solving (exec cfg final solve guess init k).run) :
    0 < (exec cfg final solve guess init k).run.value ∧
    (exec cfg final solve guess init k).saved = (exec cfg final solve guess init k).u := by
  obtain ⟨as, -, h2, h3⟩ := exec_eq cfg final solve guess init k
  rw [h3] at hs ⊢
  refine ⟨?_, (Coupled.inv cfg final guess init () as).saved hs⟩
  rw [C83_clock cfg final guess init () as fun a ha => (h2 a ha).1] at hs ⊢
  exact (increasing hpos _).pos hs

/-- The retries of a step. -/
theorem retries {a : Adaptive} (ha : cfg.adaptive = some a) (hr : 1 < a.ratio) {m : ℚ} (hm : a.dtMin = some m)
    (hpos : PositiveSteps cfg) (k : ℕ) (hs : Solving (exec cfg final solve guess init k).run)
    (hcap : ∃ c, a.maxStep.eval (exec cfg final solve guess init k).run.t = .ok c) {δ : ℝ} (hδ : 0 < δ)
    (hconv : ∀ dt : ℚ, 0 < dt → (dt : ℝ) ≤ δ → (solve (exec cfg final solve guess init k).run.t dt
      (exec cfg final solve guess init k).un (exec cfg final solve guess init k).u).2.1 = true)
    (hfail : ∀ t dt un u, (solve t dt un u).2.1 = false → 5 ≤ (solve t dt un u).1) :
    ∃ j, Accepted (exec cfg final solve guess init k) (exec cfg final solve guess init (k + j)) ∨
      ((exec cfg final solve guess init (k + j)).run.phase = .raised (.valueError "stepsize reached minimal value") ∧
        δ < m * a.ratio) := by
  set s := exec cfg final solve guess init k with hsdef
  have hr0 : 0 < a.ratio := by linarith
  have key : ∀ j, (∃ j', Accepted s (exec cfg final solve guess init (k + j')) ∨
      ((exec cfg final solve guess init (k + j')).run.phase = .raised (.valueError "stepsize reached minimal value") ∧
        δ < m * a.ratio)) ∨
      (Solving (exec cfg final solve guess init (k + j)).run ∧
        (exec cfg final solve guess init (k + j)).run.t = s.run.t ∧
        (exec cfg final solve guess init (k + j)).recs = s.recs ∧
        (exec cfg final solve guess init (k + j)).un = s.un ∧
        (exec cfg final solve guess init (k + j)).u = s.u ∧
        (exec cfg final solve guess init (k + j)).run.value ≤ s.run.value / a.ratio ^ (2 * j)) := by
    intro j
    induction j with
    | zero => exact .inr ⟨hs, rfl, rfl, rfl, rfl, by simp [← hsdef]⟩
    | succ j ih =>
      rcases ih with ih | ⟨h1, h2, h3, h4, h5, h6⟩
      · exact .inl ih
      · have hf := exec_facts hpos (k + j) h1
        have hstep : exec cfg final solve guess init (k + (j + 1))
            = Coupled.step cfg final (exec cfg final solve guess init (k + j))
                (attempt solve (exec cfg final solve guess init (k + j))) := rfl
        set s1 := exec cfg final solve guess init (k + j) with hs1
        have hle : s1.run.value ≤ s.run.value := by
          refine h6.trans (div_le_self (exec_facts hpos k hs).1.le (one_le_pow₀ hr.le))
        obtain ⟨nom, f, hp⟩ := h1
        have hout : (attempt solve s1).out = ⟨(solve s1.run.t s1.run.value s1.un s1.u).1,
          (solve s1.run.t s1.run.value s1.un s1.u).2.1⟩ := rfl
        have hn : (attempt solve s1).n = some () := rfl
        have hbig : (attempt solve s1).out.converged = false → δ < s1.run.value := by
          intro hc
          by_contra hcon
          have := hconv s1.run.value hf.1 (not_lt.1 hcon)
          rw [hout] at hc
          simp only [h2, h4, h5] at hc
          rw [this] at hc
          simp at hc
        unfold Coupled.step at hstep
        rw [hp] at hstep
        dsimp only at hstep
        cases hafter : afterSolve cfg s1.run.value s1.run.t (attempt solve s1).out with
        | error err =>
          left
          refine ⟨j + 1, .inr ?_⟩
          obtain ⟨b1, b2, b3⟩ := afterSolve_error ha hr hm (by rw [h2]; exact hcap) hafter
          rw [hafter] at hstep
          dsimp only at hstep
          rw [hstep]
          refine ⟨by rw [b3], (hbig b1).trans ?_⟩
          rw [div_lt_iff₀ hr0] at b2
          exact_mod_cast b2
        | ok v =>
          rw [hafter] at hstep
          dsimp only at hstep
          cases hc : (attempt solve s1).out.converged with
          | true =>
            left
            refine ⟨j + 1, .inl ?_⟩
            rw [hc, hn] at hstep
            simp only [if_true] at hstep
            rw [hstep]
            refine ⟨?_, ?_⟩
            · rw [(Coupled.enter_rest _).2.2.2]
              refine ⟨SolveRec.mk s1.run.t s1.run.value s1.u s1.un s1.dens (attempt solve s1).u v s1.dens (), ?_, h2, h4,
                h5, hf.1, hle⟩
              simp only [CoupledState.solveDensities, CoupledState.updatePrevious, h3]
            · unfold CoupledState.enter
              simp only [CoupledState.solveDensities, CoupledState.updatePrevious]
              unfold loopHead
              by_cases hg : loopGuard final s1.run.t = true
              · rw [if_pos hg]; exact .inl ⟨_, _, rfl⟩
              · rw [if_neg hg]; exact .inr rfl
          | false =>
            right
            rw [hc] at hstep
            simp only [Bool.false_eq_true, if_false] at hstep
            rw [hstep]
            refine ⟨⟨_, _, rfl⟩, h2, h3, h4, ?_, ?_⟩
            · rw [← h5]; exact hf.2
            · have h7 : 5 ≤ (attempt solve s1).out.nbIt := hfail _ _ _ _ hc
              obtain ⟨-, -, -, h8⟩ := afterSolve_diverged ha hc h7 hafter
              refine h8.trans ?_
              rw [show 2 * (j + 1) = 2 * j + 2 by ring, pow_add, ← div_div]
              exact div_le_div_of_nonneg_right h6 (by positivity)
  obtain ⟨j, hj⟩ : ∃ j : ℕ, ((s.run.value / a.ratio ^ (2 * j) : ℚ) : ℝ) ≤ δ := by
    obtain ⟨q, hq0, hq⟩ := exists_rat_btwn hδ
    obtain ⟨j, hj⟩ := pow_unbounded_of_one_lt (s.run.value / q) (one_lt_pow₀ hr (n := 2) (by norm_num))
    refine ⟨j, le_trans ?_ hq.le⟩
    have hq0' : (0 : ℚ) < q := by exact_mod_cast hq0
    rw [← pow_mul] at hj
    rw [div_lt_iff₀ hq0'] at hj
    have : s.run.value / a.ratio ^ (2 * j) ≤ q := by
      rw [div_le_iff₀ (by positivity), mul_comm]
      exact hj.le
    exact_mod_cast this
  rcases key j with h | ⟨h1, h2, h3, h4, h5, h6⟩
  · exact h
  rcases key (j + 1) with h | ⟨g1, g2, g3, g4, g5, g6⟩
  · exact h
  exfalso
  -- the attempt with this stepsize converges, so the next state is not a retry
  have hf := exec_facts hpos (k + j) h1
  have hstep : exec cfg final solve guess init (k + (j + 1))
      = Coupled.step cfg final (exec cfg final solve guess init (k + j))
          (attempt solve (exec cfg final solve guess init (k + j))) := rfl
  set s1 := exec cfg final solve guess init (k + j) with hs1
  have hc : (attempt solve s1).out.converged = true := by
    have := hconv s1.run.value hf.1 (le_trans (by exact_mod_cast h6) hj)
    change (solve s1.run.t s1.run.value s1.un s1.u).2.1 = true
    rw [h2, h4, h5]
    exact this
  have hn : (attempt solve s1).n = some () := rfl
  obtain ⟨nom, f, hp⟩ := h1
  unfold Coupled.step at hstep
  rw [hp] at hstep
  dsimp only at hstep
  cases hafter : afterSolve cfg s1.run.value s1.run.t (attempt solve s1).out with
  | error err =>
    obtain ⟨b1, -, -⟩ := afterSolve_error ha hr hm (by rw [h2]; exact hcap) hafter
    rw [hc] at b1
    simp at b1
  | ok v =>
    rw [hafter] at hstep
    dsimp only at hstep
    rw [hc, hn] at hstep
    simp only [if_true] at hstep
    rw [hstep, (Coupled.enter_rest _).2.2.2] at g3
    simp only [CoupledState.solveDensities, CoupledState.updatePrevious, h3] at g3
    have := congrArg List.length g3
    simp at this

end

end Festim.Closed

namespace Festim.Props

open Run Spec Newton Solve Closed Weak

section
variable {Ω Γ : Type} [Fintype Ω] [Fintype Γ] {d : ℕ} {ι : Type} [Fintype ι] [DecidableEq ι]
  {P : Problem Ω Γ d} {bcs : List (MobBC Γ)} {mat : Ω → Mat} {e : ι → MixedFun Ω Γ d}

/-- **C100 (a).** Any mesh, dimension, coordinates and elements; any traps, sources, temperature, Soret effect; any
smooth flux conditions and surface kinetics; any initial guess.  There is a stepsize below which Newton's method
converges in two iterations at most. -/
theorem C100_attempt (hP : Regular P bcs mat e) (imposed : List (List (ι × ℝ))) (o : Opts) (ha : 0 < o.atol)
    (hm : 2 ≤ o.maxIt) (guess : ι → ℝ) :
    ∃ δ > 0, ∀ h, 0 < h → h ≤ δ → ∀ S, StepOf P bcs e imposed h S → ∀ lin, LinearSolver lin →
      ∃ n y, solveOnce S lin o guess = (n, true, y) ∧ n ≤ 2 := by
  obtain ⟨M, m, G, hM, hG, hS⟩ := step_system hP imposed
  obtain ⟨δ, hδ, h⟩ := two_iterations hM m hG o ha hm guess
  exact ⟨δ, hδ, fun k h1 h2 S hS' lin hl => h k h1 h2 S (hS k S hS') lin hl⟩

/-- **C100 (b).** And then the equations have exactly one solution in any large ball. -/
theorem C100_solution (hP : Regular P bcs mat e) (imposed : List (List (ι × ℝ))) :
    ∃ R0, ∀ R, R0 ≤ R → ∃ δ > 0, ∀ h, 0 < h → h ≤ δ → ∀ S, StepOf P bcs e imposed h S →
      ∃! x, ‖x‖ ≤ R ∧ Spec.Solves S x := by
  obtain ⟨M, m, G, hM, hG, hS⟩ := step_system hP imposed
  obtain ⟨R0, h⟩ := step_solution hM m hG
  refine ⟨R0, fun R hR => ?_⟩
  obtain ⟨δ, hδ, h⟩ := h R hR
  refine ⟨δ, hδ, fun k h1 h2 S hS' => ?_⟩
  have hs := hS k S hS'
  have hiff : ∀ x, Spec.Solves S x ↔ Solve.StepSolved imposed M m G k x := by
    intro x
    unfold Spec.Solves Solve.StepSolved
    rw [hs.bcs_eq]
    refine and_congr_right fun _ => forall₂_congr fun i hi => ?_
    rw [hs.residual x i hi]
  simp only [hiff]
  exact h k h1 h2

/-- Equations of a simulation: at each time, for each previous solution, those of a problem of the setting above. -/
structure Simulates (sys : ℚ → ℚ → (ι → ℝ) → System ι) : Prop where
  step : ∀ t un, ∃ (P : Problem Ω Γ d) (bcs : List (MobBC Γ)) (mat : Ω → Mat) (e : ι → MixedFun Ω Γ d)
    (imposed : List (List (ι × ℝ))), Regular P bcs mat e ∧ ∀ dt : ℚ, 0 < dt → StepOf P bcs e imposed dt (sys t dt un)

/-- **C100 (c).** Hence in an adaptive simulation the retries of a step always come to an end, by the acceptance of the step
or by "stepsize reached minimal value"; there is a `δ > 0` such that the latter happens only if `dt_min` times the
change ratio is above it. -/
theorem C100_retry (cfg : Stepsize) (a : Adaptive) (ha : cfg.adaptive = some a) (hr : 1 < a.ratio) (m : ℚ)
    (hm : a.dtMin = some m) (hpos : PositiveSteps cfg) (hcap : ∀ t, ∃ c, a.maxStep.eval t = .ok c) (final : ℚ)
    (sys : ℚ → ℚ → (ι → ℝ) → System ι) (hsys : Simulates (Ω := Ω) (Γ := Γ) (d := d) sys)
    {lin : Matrix ι ι ℝ → (ι → ℝ) → ι → ℝ} (hl : LinearSolver lin) (o : Opts) (hat : 0 < o.atol) (hmax : 5 ≤ o.maxIt)
    (guess init : ι → ℝ) (k : ℕ) (s : CoupledState (ι → ℝ) Unit)
    (hs : s = exec cfg final (newton sys lin o) guess init k) (hsol : Solving s.run) :
    ∃ δ > 0, (∀ dt : ℚ, 0 < dt → (dt : ℝ) ≤ δ → (newton sys lin o s.run.t dt s.un s.u).2.1 = true) ∧
    ∃ j s', s' = exec cfg final (newton sys lin o) guess init (k + j) ∧
      (Accepted s s' ∨
        s'.run.phase = .raised (.valueError "stepsize reached minimal value") ∧ δ < m * a.ratio) := by
  subst hs
  obtain ⟨P, bcs, mat, e, imposed, hP, hS⟩ := hsys.step (exec cfg final (newton sys lin o) guess init k).run.t
    (exec cfg final (newton sys lin o) guess init k).un
  obtain ⟨δ, hδ, h⟩ := C100_attempt hP imposed o hat (by omega) (exec cfg final (newton sys lin o) guess init k).u
  have hconv : ∀ dt : ℚ, 0 < dt → (dt : ℝ) ≤ δ → (newton sys lin o
      (exec cfg final (newton sys lin o) guess init k).run.t dt
      (exec cfg final (newton sys lin o) guess init k).un
      (exec cfg final (newton sys lin o) guess init k).u).2.1 = true := by
    intro dt h1 h2
    obtain ⟨n, y, h3, -⟩ := h dt (by exact_mod_cast h1) h2 _ (hS dt h1) lin hl
    change (solveOnce _ lin o _).2.1 = true
    rw [h3]
  refine ⟨δ, hδ, hconv, ?_⟩
  obtain ⟨j, hj⟩ := retries ha hr hm hpos k hsol (hcap _) hδ hconv (fun t dt un u hf => by
    have := iterate_failed _ _ _ _ _ _ _ hf
    change 5 ≤ (solveOnce (sys t dt un) lin o u).1
    unfold solveOnce
    rw [this]
    omega)
  exact ⟨j, _, rfl, hj⟩

/-- **C100 (d).** With `dt_min = 0` such a simulation neither raises nor hangs: it returns or accepts as many steps as
wanted. -/
theorem C100_progress (cfg : Stepsize) (a : Adaptive) (ha : cfg.adaptive = some a) (hr : 1 < a.ratio)
    (hm : a.dtMin = some 0) (hpos : PositiveSteps cfg) (hcap : ∀ t, ∃ c, a.maxStep.eval t = .ok c) (final : ℚ)
    (sys : ℚ → ℚ → (ι → ℝ) → System ι) (hsys : Simulates (Ω := Ω) (Γ := Γ) (d := d) sys)
    {lin : Matrix ι ι ℝ → (ι → ℝ) → ι → ℝ} (hl : LinearSolver lin) (o : Opts) (hat : 0 < o.atol) (hmax : 5 ≤ o.maxIt)
    (guess init : ι → ℝ) (n : ℕ) :
    ∃ k s, s = exec cfg final (newton sys lin o) guess init k ∧
      (Returned s.run ∨ Solving s.run ∧ s.recs.length = n) := by
  induction n with
  | zero =>
    refine ⟨0, _, rfl, ?_⟩
    have h0 : (exec cfg final (newton sys lin o) guess init 0).run = start cfg final := by
      obtain ⟨as, hlen, -, h⟩ := exec_eq cfg final (newton sys lin o) guess init 0
      change (Coupled.start cfg final guess init ()).run = _
      unfold Coupled.start CoupledState.enter
      split <;> rfl
    have h1 : (exec cfg final (newton sys lin o) guess init 0).recs = [] :=
      (Coupled.enter_rest _).2.2.2
    rw [h0, h1]
    unfold start loopHead
    by_cases hg : loopGuard final 0 = true
    · rw [if_pos hg]; exact .inr ⟨⟨_, _, rfl⟩, rfl⟩
    · rw [if_neg hg]; exact .inl rfl
  | succ n ih =>
    obtain ⟨k, s, hs, h | ⟨h1, h2⟩⟩ := ih
    · exact ⟨k, s, hs, .inl h⟩
    · obtain ⟨δ, hδ, -, j, s', hs', h | ⟨-, h⟩⟩ := C100_retry cfg a ha hr 0 hm hpos hcap final sys hsys hl o hat hmax
        guess init k s hs h1
      · obtain ⟨⟨r, hr', -⟩, hlive⟩ := h
        refine ⟨k + j, s', hs', ?_⟩
        rcases hlive with h | h
        · exact .inr ⟨h, by rw [hr']; simp [h2]⟩
        · exact .inl h
      · simp at h
        linarith

end

namespace SmallStepCase

/-- Two nodes, with the quadrature at the nodes. -/
noncomputable def mesh : Mesh Bool Bool 1 :=
  ⟨fun _ => 1 / 2, fun _ => 1, fun _ => 1, fun q => if q then 2 else 1, fun _ => 1,
    ⟨fun p => if p then 1 else 0, fun _ _ => 1, fun q => if q then 1 else 0⟩, .cartesian⟩

def W : Mat := { uid := 0, ids := [1], D_0 := 1, E_D := 0 }

/-- Hat function of a node. -/
def hat (n : Bool) : Fld Bool Bool 1 :=
  ⟨fun p => if p = n then 1 else 0, fun _ _ => if n then 1 else -1, fun q => if q = n then 1 else 0⟩

def zero : Fld Bool Bool 1 := ⟨fun _ => 0, fun _ _ => 0, fun _ => 0⟩

def one : Fld Bool Bool 1 := ⟨fun _ => 1, fun _ _ => 0, fun _ => 1⟩

/-- Two degrees of freedom for the solute, one for the trap, one for the adsorbed concentration. -/
def basis : Fin 4 → MixedFun Bool Bool 1 :=
  ![⟨hat false, fun _ => zero, fun _ => 0⟩, ⟨hat true, fun _ => zero, fun _ => 0⟩, ⟨zero, fun _ => one, fun _ => 0⟩,
    ⟨zero, fun _ => zero, fun _ => 1⟩]

def trap : Trap Bool Bool 1 :=
  { k_0 := .num 3, E_k := .num 0, p_0 := .num 5, E_p := .num 0, density := [fun _ => 7], materials := [W], sol := zero,
    prev := zero }

noncomputable def prob (un : Fin 4 → ℝ) : Problem Bool Bool 1 :=
  { mesh := mesh, mats := [W], mv := ⟨false, zero, Fld.comb un fun i => (basis i).mob, Fld.const 1⟩,
    T := ⟨Fld.const 300, Fld.const 300⟩, dt := none, soret := true, sources := [⟨.decay 2, [1]⟩],
    traps := [{ trap with prev := Fld.comb un fun i => (basis i).trap 0 }] }

/-- Recombination on one side, surface kinetics on the other. -/
noncomputable def bcs (un : Fin 4 → ℝ) : List (MobBC Bool) :=
  [.flux (.recomb (fun _ => 1) (fun _ => 0) 2) [1],
    .sk { k_sb := fun _ _ _ _ => 1, k_bs := fun _ _ _ _ => 1, J_vs := fun _ _ cs _ => 1 - cs ^ 2, lambda_IS := 1,
          n_surf := 10, n_IS := 20, surfaces := [⟨2, 0, ∑ i, un i * (basis i).ads 0⟩] } []]

theorem regular (un : Fin 4 → ℝ) : Regular (prob un) (bcs un) (fun _ => W) basis where
  covers := ⟨by simp [prob], by simp [prob, mesh, W], by simp [prob, W]⟩
  weights := by intro p; simp [prob, mesh]
  facets := by intro p; simp [prob, mesh]
  sievert := by simp [prob]
  smooth := by
    intro bc hbc
    simp only [bcs, List.mem_cons, List.not_mem_nil, or_false] at hbc
    rcases hbc with rfl | rfl
    · change (1 : ℝ) ≤ 2; norm_num
    · intro q T
      exact ⟨contDiff_const, contDiff_const, contDiff_const.sub (contDiff_fst.pow 2)⟩
  kinetics := by
    intro bc hbc
    simp only [bcs, List.mem_cons, List.not_mem_nil, or_false] at hbc
    rcases hbc with rfl | rfl
    · trivial
    · refine ⟨zero_le_one, fun s hs => ⟨true, ?_⟩⟩
      rw [List.mem_singleton] at hs
      subst hs
      exact ⟨rfl, by simp [prob, mesh]⟩
  basis := by
    intro x h1 h2 h3
    have a := h1 false
    have b := h1 true
    have c := h2 0 (by simp [prob]) false
    have d := h3 0 (by simp [bcs, adsCount])
    simp [Fin.sum_univ_four, basis, hat, zero, one] at a b c d
    funext i
    fin_cases i <;> simp [a, b, c, d]

theorem form_ok (un : Fin 4 → ℝ) (h : ℝ) (x : Fin 4 → ℝ) (i : Fin 4) :
    ∃ F, ({ prob un with dt := some h } : Problem Bool Bool 1).mixedForm (bcs un) (MixedFun.comb x basis) (basis i)
      = .ok F := ⟨_, rfl⟩

/-- A simulation with surface kinetics, recombination, a trap and decay: with `dt_min = 0` it never raises. -/
example (o : Opts) (ha : 0 < o.atol) (hm : 5 ≤ o.maxIt) (guess init : Fin 4 → ℝ) (final : ℚ) (n : ℕ) :
    ∃ sys : ℚ → ℚ → (Fin 4 → ℝ) → System (Fin 4), ∃ k,
    let s := exec (Stepsize.new { initialValue := 1, changeRatio := some 2, dtMin := some 0 }) final
      (newton sys (fun A b => A⁻¹.mulVec b) o) guess init k
    Returned s.run ∨ Solving s.run ∧ s.recs.length = n := by
  choose sys hsys using fun (t dt : ℚ) (un : Fin 4 → ℝ) => step_exists (regular un) [[(0, (t : ℝ))]] (dt : ℝ)
    (fun x i => form_ok un dt x i)
  refine ⟨sys, ?_⟩
  obtain ⟨k, s, rfl, h⟩ := C100_progress (Ω := Bool) (Γ := Bool) (d := 1)
    (Stepsize.new { initialValue := 1, changeRatio := some 2, dtMin := some 0 }) _ rfl (by norm_num) rfl
    ⟨by norm_num [Stepsize.new], by
      intro a ha
      simp only [Stepsize.new, Option.some.injEq] at ha
      subst ha
      refine ⟨by norm_num, fun t m hm => ?_⟩
      simp [truthy, MaxStep.eval] at hm⟩
    (fun t => ⟨none, by simp [truthy, MaxStep.eval]⟩) final sys
    ⟨fun t un => ⟨prob un, bcs un, _, _, _, regular un, fun dt _ => hsys t dt un⟩⟩ inverse_solves
    o ha hm guess init n
  exact ⟨k, h⟩

end SmallStepCase

end Festim.Props
