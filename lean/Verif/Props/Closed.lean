import Verif.Model.Closed
import Verif.Props.Coupled
import Verif.Props.SolveLine
import Verif.Props.Termination

/-!
# C96: transient simulations with their solver
-/

open scoped BigOperators

set_option linter.unusedSectionVars false

namespace Festim.Closed

open Festim.Run Festim.Spec Festim.Props Newton Solve

section
variable {U : Type} {cfg : Stepsize} {final : ℚ} {solve : ℚ → ℚ → U → U → ℕ × Bool × U} {guess init : U}

theorem exec_succ {k : ℕ} {as : List (Attempt U Unit)}
    (h : exec cfg final solve guess init k = Coupled.exec cfg final guess init () as) :
    exec cfg final solve guess init (k + 1) = Coupled.exec cfg final guess init ()
      (as ++ [attempt solve (exec cfg final solve guess init k)]) := by
  rw [Coupled.exec, List.foldl_append, List.foldl_cons, List.foldl_nil, ← Coupled.exec, ← h]
  rfl

/-- The attempts made so far. -/
theorem exec_eq (cfg : Stepsize) (final : ℚ) (solve : ℚ → ℚ → U → U → ℕ × Bool × U) (guess init : U) (k : ℕ) :
    ∃ as : List (Attempt U Unit), as.length = k ∧
      (∀ a ∈ as, a.n.isSome ∧ ∃ t dt un u, (a.out.nbIt, a.out.converged, a.u) = solve t dt un u) ∧
      exec cfg final solve guess init k = Coupled.exec cfg final guess init () as := by
  induction k with
  | zero => exact ⟨[], rfl, by simp, rfl⟩
  | succ k ih =>
    obtain ⟨as, h1, h2, h3⟩ := ih
    refine ⟨as ++ [attempt solve (exec cfg final solve guess init k)], by simp [h1], ?_, ?_⟩
    · intro a ha
      rw [List.mem_append, List.mem_singleton] at ha
      rcases ha with ha | rfl
      · exact h2 a ha
      · exact ⟨rfl, _, _, _, _, rfl⟩
    · exact exec_succ h3

/-- What was accepted came from the solver. -/
theorem accepted (cfg : Stepsize) (final : ℚ) (solve : ℚ → ℚ → U → U → ℕ × Bool × U) (guess init : U) (k : ℕ) :
    ∀ r ∈ (exec cfg final solve guess init k).recs, ∃ n, solve r.t r.dtH r.prev r.guess = (n, true, r.u) := by
  induction k with
  | zero =>
    have : (Coupled.start cfg final guess init ()).recs = [] := (Coupled.enter_rest _).2.2.2
    unfold exec
    rw [this]
    simp
  | succ k ih =>
    unfold exec
    set s := exec cfg final solve guess init k with hs
    dsimp only
    unfold Coupled.step
    cases hp : s.run.phase with
    | finished => exact ih
    | raised e => exact ih
    | solving nom f =>
      cases ha : afterSolve cfg s.run.value s.run.t (attempt solve s).out with
      | error e => simp only [ha]; exact ih
      | ok v =>
        cases ho : (attempt solve s).out.converged with
        | false => simp only [ha, ho]; exact ih
        | true =>
          have hn : (attempt solve s).n = some () := rfl
          simp only [ha, ho, hn, if_true, CoupledState.updatePrevious, CoupledState.solveDensities]
          rw [(Coupled.enter_rest _).2.2.2]
          intro r hr
          rw [List.mem_append, List.mem_singleton] at hr
          rcases hr with hr | rfl
          · exact ih r hr
          · refine ⟨(attempt solve s).out.nbIt, ?_⟩
            rw [← ho]
            rfl

/-- A run in which every solve converges refuses nothing. -/
theorem none_failed (cfg : Stepsize) (final : ℚ) (outs : List Outcome) (ho : ∀ o ∈ outs, o.converged = true) :
    ∀ r ∈ (run cfg final outs).log, r.failed = 0 := by
  have : (∀ r ∈ (run cfg final outs).log, r.failed = 0) ∧
      ∀ nom k, (run cfg final outs).phase = .solving nom k → k = 0 := by
    refine run_induction_mem (P := fun s => (∀ r ∈ s.log, r.failed = 0) ∧ ∀ nom k, s.phase = .solving nom k → k = 0)
      (Q := fun o => o.converged = true) ?_ ?_ outs ho
    · refine ⟨by simp [Run.start, log_loopHead], ?_⟩
      intro nom k h
      unfold Run.start at h
      rw [(solving_loopHead ⟨nom, k, h⟩).2] at h
      simp at h
      exact h.2.symm
    · rintro s o hq ⟨h1, h2⟩
      cases hp : s.phase with
      | finished => rw [step_finished o hp]; exact ⟨h1, by simp [hp]⟩
      | raised e => rw [step_raised o hp]; exact ⟨h1, by simp [hp]⟩
      | solving nom k =>
        cases ha : afterSolve cfg s.value s.t o with
        | error e => rw [step_error hp ha]; exact ⟨h1, by simp⟩
        | ok v =>
          rw [step_accept hp ha hq]
          refine ⟨?_, ?_⟩
          · rw [log_loopHead]
            intro r hr
            rw [List.mem_append, List.mem_singleton] at hr
            rcases hr with hr | rfl
            · exact h1 r hr
            · exact h2 nom k hp
          · intro nom' k' h
            rw [(solving_loopHead ⟨nom', k', h⟩).2] at h
            simp at h
            exact h.2.symm
  exact this.1

/-- If the solver always converges in few iterations, so do the solves of the run. -/
theorem fast_attempts {ε : ℚ} (he : StepsAtLeast cfg ε) (m : ℕ)
    (hfast : ∀ t dt un u, 0 < dt → (solve t dt un u).1 ≤ m ∧ (solve t dt un u).2.1 = true) (hm : m < 5) (k : ℕ) :
    ∃ as : List (Attempt U Unit), (∀ a ∈ as, a.n.isSome ∧ a.out.converged = true ∧ a.out.nbIt ≤ m) ∧
      exec cfg final solve guess init k = Coupled.exec cfg final guess init () as ∧
      (¬ Returned (exec cfg final solve guess init k).run → as.length = k) := by
  have hpos : PositiveSteps cfg := by
    have h0 := he.pos
    refine ⟨h0.trans_le he.initial, fun a ha => ⟨zero_lt_one.trans_le (he.ratio a ha), fun t c hc => ?_⟩⟩
    rcases he.cap a ha t with h | ⟨c', h, hle⟩
    · rw [h] at hc; simp at hc
    · rw [h] at hc
      simp at hc
      exact hc ▸ h0.trans_le hle
  induction k with
  | zero => exact ⟨[], by simp, rfl, fun _ => rfl⟩
  | succ k ih =>
    obtain ⟨as, h1, h2, h3⟩ := ih
    have hclock := C83_clock cfg final guess init () as fun a ha => (h1 a ha).1
    rw [← h2] at hclock
    by_cases hret : Returned (exec cfg final solve guess init k).run
    · have hsame : exec cfg final solve guess init (k + 1) = exec cfg final solve guess init k := by
        change Coupled.step cfg final _ _ = _
        unfold Coupled.step
        rw [hret]
      rw [hsame]
      exact ⟨as, h1, h2, fun h => absurd hret h⟩
    · have hlen := h3 hret
      have hsol : Solving (exec cfg final solve guess init k).run := by
        cases hp : (exec cfg final solve guess init k).run.phase with
        | finished => exact absurd hp hret
        | solving nom f => exact ⟨nom, f, hp⟩
        | raised e =>
          exfalso
          have hr : ¬ Raised (run cfg final (as.map (·.out))) := by
            have hfo : ∀ o ∈ as.map (·.out), FastOutcome cfg o := by
              intro o ho
              obtain ⟨a, ha, rfl⟩ := List.mem_map.1 ho
              exact ⟨(h1 a ha).2.1, fun _ => lt_of_le_of_lt (h1 a ha).2.2 hm⟩
            -- more solves would end the run, but a run which has raised does not move
            intro hr
            obtain ⟨n, hn⟩ := exists_nat_ge (final / ε)
            have := C14_terminates cfg final ε he (as.map (·.out) ++ List.replicate n ⟨0, true⟩) (by
              intro o ho
              rw [List.mem_append] at ho
              rcases ho with ho | ho
              · exact hfo o ho
              · rw [List.eq_of_mem_replicate ho]
                exact ⟨rfl, fun _ => by norm_num⟩) (by
              rw [div_le_iff₀ he.pos] at hn
              have h0 := he.pos
              rw [List.length_append, List.length_replicate]
              push_cast
              nlinarith [Nat.cast_nonneg (α := ℚ) (as.map (·.out)).length])
            rw [C09_stopped cfg final _ _ (Or.inr hr)] at this
            obtain ⟨e, he⟩ := hr
            unfold Returned at this
            rw [this] at he
            simp at he
          rw [← hclock] at hr
          exact hr ⟨e, hp⟩
      have hv : 0 < (exec cfg final solve guess init k).run.value := by
        rw [hclock] at hsol ⊢
        exact (increasing hpos _).pos hsol
      refine ⟨as ++ [attempt solve (exec cfg final solve guess init k)], ?_, exec_succ h2, fun _ => by simp [hlen]⟩
      intro a ha
      rw [List.mem_append, List.mem_singleton] at ha
      rcases ha with ha | rfl
      · exact h1 a ha
      · obtain ⟨a1, a2⟩ := hfast (exec cfg final solve guess init k).run.t _
          (exec cfg final solve guess init k).un (exec cfg final solve guess init k).u hv
        exact ⟨rfl, a2, a1⟩

end

end Festim.Closed

namespace Festim.Props

open Run Spec Newton Solve Closed Weak

section
variable {ι : Type} [Fintype ι] [DecidableEq ι]

/-- **C96 (a).** Any transient simulation without extrinsic traps, linear or not: each accepted step was solved with
the field before it as previous solution and as initial guess; the field it leaves either is that guess (accepted
without iteration), or attains all the imposed values of its time exactly and solves its equations up to the
tolerances. -/
theorem C96_accepted (cfg : Stepsize) (final : ℚ) (sys : ℚ → ℚ → (ι → ℝ) → System ι)
    {lin : Matrix ι ι ℝ → (ι → ℝ) → ι → ℝ} (hl : LinearSolver lin) (o : Opts)
    (hu : ∀ t dt un x, IsUnit ((sys t dt un).matrix x).det) (hc : ∀ t dt un i, 0 < (sys t dt un).cells i)
    (guess init : ι → ℝ) (k : ℕ) (recs : List (SolveRec (ι → ℝ) Unit))
    (hrecs : recs = (exec cfg final (newton sys lin o) guess init k).recs) :
    Fits guess init () recs ∧
    ∀ r ∈ recs, r.u = r.guess ∨
      (∀ i g, Spec.Imposed (sys r.t r.dtH r.prev).bcs i g → r.u i = g) ∧
      ∀ i, Free (sys r.t r.dtH r.prev).bcs i → |(sys r.t r.dtH r.prev).F r.u i|
        < max (o.atol : ℝ) (o.rtol * norm2 ((sys r.t r.dtH r.prev).rhs r.guess)) := by
  subst hrecs
  obtain ⟨as, -, -, h⟩ := exec_eq cfg final (newton sys lin o) guess init k
  refine ⟨h ▸ (C83_fields cfg final guess init () as).1, fun r hr => ?_⟩
  obtain ⟨n, hn⟩ := accepted cfg final (newton sys lin o) guess init k r hr
  obtain ⟨-, h0, h1⟩ := C95_converged (sys r.t r.dtH r.prev) hl o (hu _ _ _) (hc _ _ _) r.guess n r.u hn
  by_cases hn : n = 0
  · exact Or.inl (h0 hn)
  · exact Or.inr (h1 hn)

end

section
variable {Ω : Type} [Fintype Ω] {L : Line Ω}

/-- **C96 (b).** A linear transient simulation on a line always succeeds: if the stepsize cannot get below `ε`, `run` has
returned after `final / ε` solves, without having raised or refused a step.  The last time is the final time (up to
its tolerance); each time is the one before plus the stepsize in the equations; and each field solves the discrete
equations of its time and stepsize, with the field before as previous solution, unless it was accepted as it was because
its residual was below the tolerances already. -/
theorem C96_linear (cfg : Stepsize) (final ε : ℚ) (he : StepsAtLeast cfg ε) (hif : cfg.initialValue ≤ final)
    (P : ℚ → ℚ → Problem Ω Bool 1) (bcs : ℚ → List (MobBC Bool)) (mat : ℚ → Ω → Mat) (matS : ℚ → Bool → Mat)
    (dir : ℚ → Bool → Prop) (val : ℚ → Bool → ℝ)
    (hP : ∀ t dt, 0 < dt → LinearLine L (P t dt) (bcs t) (mat t) (matS t) (dir t))
    (sys : ℚ → ℚ → (Fin (L.N + 1) → ℝ) → System (Fin (L.N + 1)))
    (hsys : ∀ t dt un, 0 < dt → LineSystem L ((P t dt).withPrev (L.p1 (extend L.N un))) (bcs t) (sys t dt un) ∧
      IsJacobian (sys t dt un) ∧ (∀ i, 0 < (sys t dt un).cells i) ∧ EndValues L (sys t dt un) (dir t) (val t))
    {lin : Matrix _ _ ℝ → (Fin (L.N + 1) → ℝ) → Fin (L.N + 1) → ℝ} (hl : LinearSolver lin) (o : Opts)
    (ha : 0 < o.atol) (hm : 0 < o.maxIt) (guess init : Fin (L.N + 1) → ℝ) (k : ℕ) (hk : final ≤ k * ε)
    (s : CoupledState (Fin (L.N + 1) → ℝ) Unit) (hs : s = exec cfg final (newton sys lin o) guess init k) :
    Returned s.run ∧ Fits guess init () s.recs ∧
    (∃ before last, s.recs = before ++ [last] ∧ final * (1 - 1 / 100000) ≤ last.t ∧ last.t ≤ final) ∧
    (∀ i, ∀ hi : i < s.recs.length, s.recs[i].t = ((s.recs.take (i + 1)).map (·.dtH)).sum ∧ 0 < s.recs[i].dtH) ∧
    ∀ r ∈ s.recs,
      LineSolves L ((P r.t r.dtH).withPrev (L.p1 (extend L.N r.prev))) (bcs r.t) (dir r.t) (val r.t)
        (extend L.N r.u) ∨
      r.u = r.guess ∧ Small o (norm2 ((sys r.t r.dtH r.prev).rhs r.u)) (norm2 ((sys r.t r.dtH r.prev).rhs r.u)) := by
  have hsolve : ∀ t dt un u, 0 < dt → (Small o (norm2 ((sys t dt un).rhs u)) (norm2 ((sys t dt un).rhs u)) ∧
      newton sys lin o t dt un u = (0, true, u)) ∨ ∃ x, newton sys lin o t dt un u = (1, true, x) ∧
      LineSolves L ((P t dt).withPrev (L.p1 (extend L.N un))) (bcs t) (dir t) (val t) (extend L.N x) := by
    intro t dt un u hdt
    obtain ⟨h1, h2, h3, h4⟩ := hsys t dt un hdt
    rcases C95_line (LinearLine.withPrev (hP t dt hdt) (L.p1 (extend L.N un))) (val t) (sys t dt un) h1 h2 h3 h4 hl o
      ha hm u with h | ⟨x, h, hx, -⟩
    · exact Or.inl h
    · exact Or.inr ⟨x, h, hx⟩
  have hfast : ∀ t dt un u, 0 < dt → (newton sys lin o t dt un u).1 ≤ 1 ∧ (newton sys lin o t dt un u).2.1 = true := by
    intro t dt un u hdt
    rcases hsolve t dt un u hdt with ⟨-, h⟩ | ⟨x, h, -⟩ <;> rw [h] <;> simp
  obtain ⟨as, h1, h2, h3⟩ := fast_attempts (final := final) (guess := guess) (init := init) he 1 hfast (by norm_num) k
  subst hs
  have hclock := C83_clock cfg final guess init () as fun a ha => (h1 a ha).1
  rw [← h2] at hclock
  obtain ⟨hfits, hsame⟩ := C83_fields cfg final guess init () as
  rw [← h2] at hfits hsame
  have hpos : PositiveSteps cfg := by
    have h0 := he.pos
    refine ⟨h0.trans_le he.initial, fun a ha => ⟨zero_lt_one.trans_le (he.ratio a ha), fun t c hc => ?_⟩⟩
    rcases he.cap a ha t with h | ⟨c', h, hle⟩
    · rw [h] at hc; simp at hc
    · rw [h] at hc
      simp at hc
      exact hc ▸ h0.trans_le hle
  have hdt := C83_positive_steps cfg final hpos guess init () as
  rw [← h2] at hdt
  have hret : Returned (exec cfg final (newton sys lin o) guess init k).run := by
    by_contra hn
    apply hn
    rw [hclock]
    refine C14_terminates cfg final ε he _ ?_ (by simpa [h3 hn] using hk)
    intro o ho
    obtain ⟨a, ha, rfl⟩ := List.mem_map.1 ho
    exact ⟨(h1 a ha).2.1, fun _ => lt_of_le_of_lt (h1 a ha).2.2 (by norm_num)⟩
  have hconv : ∀ o ∈ as.map (·.out), o.converged = true := by
    intro o ho
    obtain ⟨a, ha, rfl⟩ := List.mem_map.1 ho
    exact (h1 a ha).2.1
  have hfail := none_failed cfg final (as.map (·.out)) hconv
  rw [SameSteps, hclock] at hsame
  have hnom : ((run cfg final (as.map (·.out))).log.map (·.dtUsed))
      = (run cfg final (as.map (·.out))).log.map (·.dtNominal) := by
    apply List.ext_getElem (by simp)
    intro i hi hi'
    simp only [List.getElem_map]
    exact C12_first_attempt cfg final _ i (by simpa using hi) (hfail _ (List.getElem_mem _))
  have htimes : (exec cfg final (newton sys lin o) guess init k).recs.map (·.t)
      = (run cfg final (as.map (·.out))).times := by
    have := congrArg (List.map fun x : ℚ × ℚ × ℚ => x.1) hsame
    rw [List.map_map, List.map_map] at this
    exact this
  have hdts : (exec cfg final (newton sys lin o) guess init k).recs.map (·.dtH)
      = (run cfg final (as.map (·.out))).log.map (·.dtUsed) := by
    have := congrArg (List.map fun x : ℚ × ℚ × ℚ => x.2.1) hsame
    rw [List.map_map, List.map_map] at this
    exact this
  refine ⟨hret, hfits, ?_, ?_, ?_⟩
  · rw [hclock] at hret
    obtain ⟨before, last, hb, h4, h5, -⟩ := (C03_ends_at_final cfg final (as.map (·.out)) hpos.1 hif).2 hret
    rw [← htimes] at hb
    obtain ⟨l1, l2, e, e1, e2⟩ := List.map_eq_append_iff.1 hb
    obtain ⟨r, l3, rfl, e3, e4⟩ := List.map_eq_cons_iff.1 e2
    rw [List.map_eq_nil_iff] at e4
    subst e4
    exact ⟨l1, r, e, e3 ▸ h4, e3 ▸ h5⟩
  · intro i hi
    refine ⟨?_, (hdt _ (List.getElem_mem hi)).1⟩
    have hlen : (run cfg final (as.map (·.out))).log.length
        = (exec cfg final (newton sys lin o) guess init k).recs.length := by
      have := congrArg List.length hdts
      simpa using this.symm
    have h4 := C12_increments_sum cfg final (as.map (·.out)) i (by omega)
    have h5 : (exec cfg final (newton sys lin o) guess init k).recs[i].t
        = ((run cfg final (as.map (·.out))).log[i]'(by omega)).t := by
      have : ((exec cfg final (newton sys lin o) guess init k).recs.map (·.t))[i]'(by simpa using hi)
          = (run cfg final (as.map (·.out))).times[i]'(by rw [← htimes]; simpa using hi) := by
        simp only [htimes]
      simpa [RunState.times] using this
    rw [h5, ← h4, List.map_take, List.map_take, hdts, hnom]
  · intro r hr
    obtain ⟨n, hn⟩ := accepted cfg final (newton sys lin o) guess init k r hr
    rcases hsolve r.t r.dtH r.prev r.guess (hdt r hr).1 with ⟨h4, h5⟩ | ⟨x, h4, h5⟩
    · rw [hn] at h5
      simp only [Prod.mk.injEq] at h5
      exact Or.inr ⟨h5.2.2, by rw [h5.2.2]; exact h4⟩
    · rw [hn] at h4
      simp only [Prod.mk.injEq] at h4
      exact Or.inl (h4.2.2 ▸ h5)

end

/-! ### The two layers of `LineCase` up to `t = 10`, with steps of `1` -/

example (o : Opts) (ha : 0 < o.atol) (hm : 0 < o.maxIt) (init : Fin (LineCase.L.N + 1) → ℝ) :
    ∃ sys : ℚ → ℚ → (Fin (LineCase.L.N + 1) → ℝ) → System (Fin (LineCase.L.N + 1)),
      let s := exec (Stepsize.new { initialValue := 1 }) 10 (newton sys (fun A b => A⁻¹.mulVec b) o) init init 10
      Returned s.run ∧ (∃ before last, s.recs = before ++ [last] ∧ 10 * (1 - 1 / 100000) ≤ last.t ∧ last.t ≤ 10) ∧
      ∀ r ∈ s.recs, r.u = r.guess ∨
        LineSolves LineCase.L ((LineCase.linP (some (r.dtH : ℝ))).withPrev (LineCase.L.p1 (extend LineCase.L.N r.prev)))
          [.flux (.mass (fun _ => 2) fun _ => 1) [2], .flux (.value fun _ => 5) [1]] (fun _ => False) (fun _ => 0)
          (extend LineCase.L.N r.u) := by
  have hP : ∀ t dt : ℚ, 0 < dt → LinearLine LineCase.L (LineCase.linP (some (dt : ℝ)))
      [.flux (.mass (fun _ => 2) fun _ => 1) [2], .flux (.value fun _ => 5) [1]] LineCase.mat
      (fun q => if q then LineCase.B else LineCase.A) fun _ => False := by
    intro _ dt hdt
    refine LineCase.linear_case _ ?_
    intro h hh
    rw [Option.some.injEq] at hh
    rw [← hh]
    exact_mod_cast hdt
  haveI : Nonempty (System (Fin (LineCase.L.N + 1))) := ⟨⟨fun _ _ => 0, fun _ => 0, [], fun _ => 1⟩⟩
  choose! sys hsys using fun (t dt : ℚ) (un : Fin (LineCase.L.N + 1) → ℝ) (hdt : 0 < dt) =>
    line_system_exists (LinearLine.withPrev (hP t dt hdt) (LineCase.L.p1 (extend LineCase.L.N un))) fun _ => 0
  refine ⟨sys, ?_⟩
  obtain ⟨h1, -, h2, -, h3⟩ := C96_linear (Stepsize.new { initialValue := 1 }) 10 1
    ⟨by norm_num, le_rfl, by simp [Stepsize.new], by simp [Stepsize.new], by simp [Stepsize.new, setMilestones]⟩
    (by simp [Stepsize.new]) _ _ _ _ _ _ hP sys hsys inverse_solves o ha hm init init 10 (by norm_num) _ rfl
  exact ⟨h1, h2, fun r hr => (h3 r hr).symm.imp And.left id⟩

end Festim.Props
