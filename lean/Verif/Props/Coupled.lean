import Verif.Model.Coupled
import Verif.Props.TimeStepping
import Verif.Props.Traps

/-! # The fields in the equations of each step (C83) -/

namespace Festim.Props

open Run Spec

section
variable {U N : Type}

/-- **Statement of C83.** The accepted steps `recs` fit together: the first one starts from the initial concentrations
with zero densities; each one takes as previous concentrations, as first guess and as densities of the extrinsic traps
what the step before found; and the densities are then advanced from the ones used in the step. -/
structure Fits (guess init : U) (zero : N) (recs : List (SolveRec U N)) : Prop where
  first : ∀ r, recs.head? = some r → r.guess = guess ∧ r.prev = init ∧ r.dens = zero
  next : ∀ i, ∀ hi : i + 1 < recs.length,
    recs[i + 1].guess = recs[i].u ∧ recs[i + 1].prev = recs[i].u ∧ recs[i + 1].dens = recs[i].n
  density : ∀ r ∈ recs, r.prevN = r.dens

/-- The accepted steps are those of the clock. -/
def SameSteps (recs : List (SolveRec U N)) (log : List StepRec) : Prop :=
  recs.map (fun r => (r.t, r.dtH, r.dtN)) = log.map fun r => (r.t, r.dtUsed, r.dtExtrinsic)

/-- The clock does not depend on the fields: as long as the densities are solved, it is that of the time loop alone. -/
theorem C83_clock (cfg : Stepsize) (final : ℚ) (guess init : U) (zero : N)
    (as : List (Attempt U N)) (hn : ∀ a ∈ as, a.n.isSome) :
    (Coupled.exec cfg final guess init zero as).run = run cfg final (as.map (·.out)) := by
  have henter : ∀ s : CoupledState U N, s.enter.run = s.run := by
    intro s
    unfold CoupledState.enter
    split <;> rfl
  have h : ∀ (as : List (Attempt U N)), (∀ a ∈ as, a.n.isSome) → ∀ s : CoupledState U N,
      (as.foldl (Coupled.step cfg final) s).run
        = (as.map (·.out)).foldl (Run.step cfg final) s.run := by
    intro as
    induction as with
    | nil => intro _ s; rfl
    | cons a as ih =>
      intro hn s
      rw [List.foldl_cons, List.map_cons, List.foldl_cons, ih (fun b hb => hn b (by simp [hb]))]
      congr 1
      obtain ⟨n, hsome⟩ := Option.isSome_iff_exists.1 (hn a (by simp))
      unfold Coupled.step Run.step
      cases s.run.phase with
      | finished => rfl
      | raised e => rfl
      | solving nom k =>
        cases ha : afterSolve cfg s.run.value s.run.t a.out with
        | error e => simp
        | ok v =>
          cases ho : a.out.converged with
          | true => simp [hsome, henter]
          | false => simp
  unfold Coupled.exec
  rw [h as hn]
  unfold Coupled.start
  rw [henter]
  rfl

end

end Festim.Props

namespace Festim.Coupled

open Festim.Run Festim.Spec Festim.Props

section
variable {U N : Type}

theorem enter_run (s : CoupledState U N) : s.enter.run = s.run := by
  unfold CoupledState.enter
  split <;> rfl

theorem enter_rest (s : CoupledState U N) :
    s.enter.u = s.u ∧ s.enter.un = s.un ∧ s.enter.dens = s.dens ∧ s.enter.recs = s.recs := by
  unfold CoupledState.enter
  split <;> simp

theorem enter_saved (s : CoupledState U N) (nom : ℚ) (k : ℕ) (h : s.run.phase = .solving nom k) :
    s.enter.saved = s.u := by
  unfold CoupledState.enter
  rw [h]

/-- What holds between two solves. -/
structure Inv (cfg : Stepsize) (final : ℚ) (guess init : U) (zero : N) (s : CoupledState U N) : Prop where
  fits : Fits guess init zero s.recs
  same : SameSteps s.recs s.run.log
  clock : ∃ outs, s.run.log = (run cfg final outs).log ∧ (Solving s.run → s.run = run cfg final outs)
  saved : Solving s.run → s.saved = s.u
  start : Solving s.run → s.recs = [] → s.u = guess ∧ s.un = init ∧ s.dens = zero
  last : Solving s.run → ∀ r, s.recs.getLast? = some r → s.u = r.u ∧ s.un = r.u ∧ s.dens = r.n

theorem fits_append {guess init : U} {zero : N} {recs : List (SolveRec U N)} {r : SolveRec U N}
    (h : Fits guess init zero recs)
    (h0 : recs = [] → r.guess = guess ∧ r.prev = init ∧ r.dens = zero)
    (h1 : ∀ q, recs.getLast? = some q → r.guess = q.u ∧ r.prev = q.u ∧ r.dens = q.n)
    (h2 : r.prevN = r.dens) : Fits guess init zero (recs ++ [r]) := by
  refine ⟨?_, ?_, ?_⟩
  · intro q hq
    cases hr : recs with
    | nil =>
      rw [hr] at hq
      simp at hq
      subst hq
      exact h0 hr
    | cons a l =>
      rw [hr] at hq
      simp at hq
      subst hq
      exact h.first a (by simp [hr])
  · intro i hi
    simp only [List.length_append, List.length_singleton] at hi
    rcases Nat.lt_or_ge (i + 1) recs.length with hlt | hge
    · rw [List.getElem_append_left hlt, List.getElem_append_left (by omega)]
      exact h.next i hlt
    · have e : i + 1 = recs.length := by omega
      have hi' : i < recs.length := by omega
      rw [List.getElem_append_left hi']
      have : (recs ++ [r])[i + 1]'(by simp; omega) = r := by simp [e]
      rw [this]
      refine h1 recs[i] ?_
      rw [List.getLast?_eq_getElem?, ← e]
      simp [hi']
  · intro q hq
    rw [List.mem_append, List.mem_singleton] at hq
    rcases hq with hq | rfl
    · exact h.density q hq
    · exact h2

theorem inv_start (cfg : Stepsize) (final : ℚ) (guess init : U) (zero : N) :
    Inv cfg final guess init zero (start cfg final guess init zero) := by
  obtain ⟨e1, e2, e3, e4⟩ := enter_rest (U := U) (N := N)
    { run := Run.start cfg final, u := guess, un := init, saved := guess, dens := zero,
      densPrev := zero, recs := [] }
  have e0 := enter_run (U := U) (N := N)
    { run := Run.start cfg final, u := guess, un := init, saved := guess, dens := zero,
      densPrev := zero, recs := [] }
  have hlog : (Run.start cfg final).log = [] := by
    unfold Run.start loopHead; split <;> rfl
  unfold Coupled.start
  refine ⟨?_, ?_, ⟨[], ?_⟩, ?_, ?_, ?_⟩
  · rw [e4]; exact ⟨by simp, by simp, by simp⟩
  · rw [e4, e0]; simp [SameSteps, hlog]
  · rw [e0]; exact ⟨rfl, fun _ => rfl⟩
  · rw [e0]
    rintro ⟨nom, k, h⟩
    rw [enter_saved _ nom k h, e1]
  · rw [e0, e1, e2, e3]; intro _ _; exact ⟨rfl, rfl, rfl⟩
  · rw [e4]; simp

theorem inv_step {cfg : Stepsize} {final : ℚ} {guess init : U} {zero : N} {s : CoupledState U N}
    (a : Attempt U N) (h : Inv cfg final guess init zero s) :
    Inv cfg final guess init zero (step cfg final s a) := by
  unfold Coupled.step
  cases hp : s.run.phase with
  | finished => exact h
  | raised e => exact h
  | solving nom k =>
    have hsol : Solving s.run := ⟨nom, k, hp⟩
    obtain ⟨outs, hlog, hrun⟩ := h.clock
    have hrun := hrun hsol
    cases ha : afterSolve cfg s.run.value s.run.t a.out with
    | error e =>
      simp only [ha]
      refine ⟨h.fits, h.same, ⟨outs, hlog, ?_⟩, ?_, ?_, ?_⟩ <;>
      · rintro ⟨_, _, hx⟩; simp at hx
    | ok v =>
      cases ho : a.out.converged with
      | false =>
        simp only [ha, ho]
        refine ⟨h.fits, h.same, ⟨outs ++ [a.out], ?_, ?_⟩, fun _ => rfl, ?_, ?_⟩
        · rw [run_concat, ← hrun, step_retry hp ha ho]
          rfl
        · intro _
          rw [run_concat, ← hrun, step_retry hp ha ho]
          rfl
        · intro _ hr
          have := h.start hsol hr
          exact ⟨(h.saved hsol).trans this.1, this.2⟩
        · intro _ r hr
          have := h.last hsol r hr
          exact ⟨(h.saved hsol).trans this.1, this.2⟩
      | true =>
        cases hn : a.n with
        | none =>
          simp only [ha, ho, hn, if_true, CoupledState.updatePrevious]
          refine ⟨h.fits, h.same, ⟨outs, hlog, ?_⟩, ?_, ?_, ?_⟩ <;>
          · rintro ⟨_, _, hx⟩; simp at hx
        | some n =>
          simp only [ha, ho, hn, if_true, CoupledState.updatePrevious, CoupledState.solveDensities]
          set s' : CoupledState U N := _ with hs'
          change Inv cfg final guess init zero (CoupledState.enter s')
          obtain ⟨e1, e2, e3, e4⟩ := enter_rest s'
          have e0 := enter_run s'
          have hr : s'.run = run cfg final (outs ++ [a.out]) := by
            rw [run_concat, ← hrun, step_accept hp ha ho]
          refine ⟨?_, ?_, ⟨outs ++ [a.out], ?_⟩, ?_, ?_, ?_⟩
          · rw [e4]
            refine fits_append h.fits ?_ ?_ rfl
            · intro hnil
              exact h.start hsol hnil
            · intro q hq
              exact h.last hsol q hq
          · rw [e4, e0]
            have := h.same
            unfold SameSteps at this ⊢
            have hlg : s'.run.log = s.run.log ++
                [StepRec.mk s.run.t nom s.run.value v a.out.nbIt k] := by
              simp only [hs']
              exact log_loopHead ..
            rw [hlg, List.map_append, List.map_append, this]
            rfl
          · rw [e0]; exact ⟨by rw [hr], fun _ => hr⟩
          · rw [e0]
            rintro ⟨nom', k', hx⟩
            rw [enter_saved _ nom' k' hx, e1]
          · rw [e4]; intro _ hx; simp [hs'] at hx
          · rw [e1, e2, e3, e4]
            intro _ r hx
            simp [hs'] at hx
            subst hx
            exact ⟨rfl, rfl, rfl⟩

theorem inv (cfg : Stepsize) (final : ℚ) (guess init : U) (zero : N) (as : List (Attempt U N)) :
    Inv cfg final guess init zero (exec cfg final guess init zero as) := by
  unfold exec
  generalize hs : start cfg final guess init zero = s
  have h0 : Inv cfg final guess init zero s := hs ▸ inv_start cfg final guess init zero
  clear hs
  induction as generalizing s with
  | nil => exact h0
  | cons a as ih => exact ih _ (inv_step a h0)

end

end Festim.Coupled

namespace Festim.Props

open Run Spec

section
variable {U N : Type}

/-- **C83 (a).** Whatever the solvers do, and however many attempts are refused, the accepted steps fit together and
are those of the clock; a step uses the densities found *before* it. -/
theorem C83_fields (cfg : Stepsize) (final : ℚ) (guess init : U) (zero : N)
    (as : List (Attempt U N)) :
    Fits guess init zero (Coupled.exec cfg final guess init zero as).recs ∧
    SameSteps (Coupled.exec cfg final guess init zero as).recs
      (Coupled.exec cfg final guess init zero as).run.log :=
  let h := Coupled.inv cfg final guess init zero as
  ⟨h.fits, h.same⟩

/-- **C83 (b).** The densities used in the step to `t` have been advanced, in all, by `t` minus the
initial stepsize: they are late by exactly one initial stepsize, whatever the later stepsizes (as long as
no stepsize was cut at the final time). -/
theorem C83_lag (cfg : Stepsize) (final : ℚ) (guess init : U) (zero : N)
    (as : List (Attempt U N)) (i : ℕ)
    (hi : i < (Coupled.exec cfg final guess init zero as).recs.length)
    (hend : ∀ j, ∀ hj : j < i, (Coupled.exec cfg final guess init zero as).recs[j].t
      + (Coupled.exec cfg final guess init zero as).recs[j].dtN ≤ final) :
    (((Coupled.exec cfg final guess init zero as).recs.take i).map (·.dtN)).sum
      = (Coupled.exec cfg final guess init zero as).recs[i].t - cfg.initialValue := by
  obtain ⟨_, hsame, ⟨outs, hlog, _⟩, _, _, _⟩ := Coupled.inv cfg final guess init zero as
  set recs := (Coupled.exec cfg final guess init zero as).recs with hrecs
  rw [SameSteps, hlog] at hsame
  set log := (run cfg final outs).log with hl
  have hlen : recs.length = log.length := by
    have := congrArg List.length hsame
    simpa using this
  have hget : ∀ j, ∀ hj : j < recs.length, recs[j].t = (log[j]'(hlen ▸ hj)).t ∧
      recs[j].dtN = (log[j]'(hlen ▸ hj)).dtExtrinsic := by
    intro j hj
    have h1 : (recs.map fun r => (r.t, r.dtH, r.dtN))[j]'(by simpa using hj)
        = (log.map fun r => (r.t, r.dtUsed, r.dtExtrinsic))[j]'(by simpa using hlen ▸ hj) := by
      simp only [hsame]
    simp only [List.getElem_map, Prod.mk.injEq] at h1
    exact ⟨h1.1, h1.2.2⟩
  have hdt : recs.map (·.dtN) = log.map (·.dtExtrinsic) := by
    have := congrArg (List.map fun x : ℚ × ℚ × ℚ => x.2.2) hsame
    rw [List.map_map, List.map_map] at this
    exact this
  have hc := C13_density_clock cfg final outs i (hlen ▸ hi) (by
    intro j hj
    have := hend j hj
    rw [(hget j (by omega)).1, (hget j (by omega)).2] at this
    exact this)
  rw [List.map_take, hdt, ← List.map_take]
  rw [List.take_add_one, List.map_append, List.sum_append] at hc
  rw [(hget i hi).1]
  have e : ((run cfg final outs).log[i]?.toList.map (·.dtExtrinsic)).sum
      = (log[i]'(hlen ▸ hi)).dtExtrinsic := by
    rw [List.getElem?_eq_getElem (hlen ▸ hi)]
    simp
    rfl
  rw [e] at hc
  linarith

/-- The stepsizes in the equations are positive. -/
theorem C83_positive_steps (cfg : Stepsize) (final : ℚ) (hpos : PositiveSteps cfg)
    (guess init : U) (zero : N) (as : List (Attempt U N)) :
    ∀ r ∈ (Coupled.exec cfg final guess init zero as).recs, 0 < r.dtH ∧ 0 < r.dtN := by
  obtain ⟨_, hsame, ⟨outs, hlog, _⟩, _, _, _⟩ := Coupled.inv cfg final guess init zero as
  rw [SameSteps, hlog] at hsame
  have hlogpos : ∀ q ∈ (run cfg final outs).log, 0 < q.dtUsed ∧ 0 < q.dtExtrinsic := by
    have h : (∀ q ∈ (run cfg final outs).log, 0 < q.dtUsed ∧ 0 < q.dtExtrinsic) ∧
        Increasing (run cfg final outs) := by
      refine run_induction (P := fun s => (∀ q ∈ s.log, 0 < q.dtUsed ∧ 0 < q.dtExtrinsic) ∧
        Increasing s) ⟨?_, increasing_start hpos⟩ ?_ outs
      · intro q hq
        have : (Run.start cfg final).log = [] := by unfold Run.start loopHead; split <;> rfl
        rw [this] at hq
        simp at hq
      · rintro s o ⟨h1, h2⟩
        refine ⟨?_, increasing_step hpos o h2⟩
        cases hp : s.phase with
        | finished => rw [step_finished o hp]; exact h1
        | raised e => rw [step_raised o hp]; exact h1
        | solving nom k =>
          have hv := h2.pos ⟨nom, k, hp⟩
          cases ha : afterSolve cfg s.value s.t o with
          | error e => rw [step_error hp ha]; exact h1
          | ok v =>
            cases ho : o.converged with
            | false => rw [step_retry hp ha ho]; exact h1
            | true =>
              rw [step_accept hp ha ho, log_loopHead]
              intro q hq
              rw [List.mem_append, List.mem_singleton] at hq
              rcases hq with hq | rfl
              · exact h1 q hq
              · exact ⟨hv, afterSolve_conv_pos hpos hv ha⟩
    exact h.1
  intro r hr
  have hm : (r.t, r.dtH, r.dtN) ∈
      (run cfg final outs).log.map fun q => (q.t, q.dtUsed, q.dtExtrinsic) := by
    rw [← hsame]
    exact List.mem_map.2 ⟨r, hr, rfl⟩
  obtain ⟨q, hq, e⟩ := List.mem_map.1 hm
  simp only [Prod.mk.injEq] at e
  rw [← e.2.1, ← e.2.2]
  exact hlogpos q hq

end

section
open Festim.Weak
variable {Ω Γ : Type} [Fintype Ω] [Fintype Γ] {d : ℕ} {U : Type}

/-- The equations of the step `r` hold: that of the trapped concentration, with the density the step contains, and
that of the density of the extrinsic trap.  `ct` and `mob` read the trapped and the mobile
concentrations in the solution. -/
def StepSolved (m : Mesh Ω Γ d) (mats : List Mat) (T : ℚ → Temp Ω Γ d) (ct : U → Fld Ω Γ d)
    (mob : U → U → Mobile Ω Γ d) (trap : Trap Ω Γ d) (e : Extrinsic Ω)
    (r : SolveRec U (Ω → ℝ)) : Prop :=
  TrapSolved m mats (mob r.u r.prev) (T r.t) (some (r.dtH : ℝ))
    { trap with density := [r.dens], sol := ct r.u, prev := ct r.prev } ∧
  ∀ v, m.assemble (e.form (r.dtN : ℝ) r.n r.prevN v) = 0

/-- An extrinsic trap, without sources, with its parameters at `p`. -/
structure ExtrinsicAt (m : Mesh Ω Γ d) (trap : Trap Ω Γ d) (e : Extrinsic Ω) (p : Ω) (a : Mat) : Prop where
  weight : m.w p ≠ 0
  disjoint : (trap.materials.flatMap (·.ids)).Nodup
  noSource : trap.sources = []
  mem : a ∈ trap.materials
  here : m.vm p ∈ a.ids
  rates : ∃ k Ek ν Ep, trap.k_0 = .num k ∧ trap.E_k = .num Ek ∧ trap.p_0 = .num ν ∧
    trap.E_p = .num Ep ∧ 0 ≤ k ∧ 0 < ν
  phi : 0 ≤ e.phi_0 p
  na : 0 < e.n_amax p
  nb : 0 < e.n_bmax p
  ea : 0 ≤ e.eta_a p
  eb : 0 ≤ e.eta_b p
  fa : 0 ≤ e.f_a p
  fb : 0 ≤ e.f_b p

/-- **C83 (c).** During the first step an extrinsic trap does not exist: it traps nothing. -/
theorem C83_first_step (cfg : Stepsize) (final : ℚ) (hpos : PositiveSteps cfg) (guess init : U)
    (as : List (Attempt U (Ω → ℝ))) (m : Mesh Ω Γ d) (mats : List Mat) (T : ℚ → Temp Ω Γ d)
    (ct : U → Fld Ω Γ d) (mob : U → U → Mobile Ω Γ d) (trap : Trap Ω Γ d) (e : Extrinsic Ω) (p : Ω)
    (a : Mat) (hx : ExtrinsicAt m trap e p a) (r : SolveRec U (Ω → ℝ))
    (hr : (Coupled.exec cfg final guess init (fun _ => 0) as).recs.head? = some r)
    (hsolved : StepSolved m mats T ct mob trap e r)
    (hc : 0 ≤ physConc (mob r.u r.prev).theta a ((T r.t).T.val p) ((mob r.u r.prev).sol.val p))
    (h0 : (ct init).val p = 0) : (ct r.u).val p = 0 := by
  obtain ⟨hfit, _⟩ := C83_fields cfg final guess init (fun _ => 0) as
  obtain ⟨_, hprev, hdens⟩ := hfit.first r hr
  have hdt := (C83_positive_steps cfg final hpos guess init (fun _ => 0) as r
    (List.mem_of_mem_head? hr)).1
  obtain ⟨k, Ek, ν, Ep, e1, e2, e3, e4, hk, hν⟩ := hx.rates
  obtain ⟨j, hj⟩ := List.getElem?_of_mem hx.mem
  have hv := C45_value m mats (mob r.u r.prev) (T r.t) (r.dtH : ℝ) _ hsolved.1 hx.disjoint
    hx.noSource (by exact_mod_cast hdt) p hx.weight j a hj hx.here k Ek ν Ep r.dens
    (Or.inr ⟨e1, e2, e3, e4, rfl⟩) hk hν.le hc
  rw [hv, hprev, hdens]
  simp [h0]

/-- **C83 (d).** In a steady simulation the density of an extrinsic trap stays what it is created as, zero: the trap
holds nothing. -/
theorem C83_steady (m : Mesh Ω Γ d) (mats : List Mat) (mv : Mobile Ω Γ d) (T : Temp Ω Γ d)
    (trap : Trap Ω Γ d) (e : Extrinsic Ω) (hd : trap.density = [fun _ => 0])
    (hsolved : TrapSolved m mats mv T none trap)
    (mat : Ω → Mat) (hcov : Covers m mats mat) (hsub : ∀ a ∈ trap.materials, a ∈ mats)
    (p : Ω) (a : Mat) (hx : ExtrinsicAt m trap e p a)
    (hc : 0 ≤ physConc mv.theta a (T.T.val p) (mv.sol.val p)) : trap.sol.val p = 0 := by
  obtain ⟨k, Ek, ν, Ep, e1, e2, e3, e4, hk, hν⟩ := hx.rates
  obtain ⟨j, hj⟩ := List.getElem?_of_mem hx.mem
  have := (C45_steady m mats mv T trap hsolved mat hcov hsub hx.disjoint hx.noSource p hx.weight j a
    hj hx.here k Ek ν Ep (fun _ => 0) (Or.inr ⟨e1, e2, e3, e4, by rw [hd]; rfl⟩) hk hν hc le_rfl).1
  rw [this]
  simp

/-- **C83 (e).** Through any transient run the trapped concentration is non-negative and at most the density
its own step was solved with, which is at most the density found after it; densities never decrease. -/
theorem C83_occupancy (cfg : Stepsize) (final : ℚ) (hpos : PositiveSteps cfg) (guess init : U)
    (as : List (Attempt U (Ω → ℝ))) (m : Mesh Ω Γ d) (mats : List Mat) (T : ℚ → Temp Ω Γ d)
    (ct : U → Fld Ω Γ d) (mob : U → U → Mobile Ω Γ d) (trap : Trap Ω Γ d) (e : Extrinsic Ω) (p : Ω)
    (a : Mat) (hx : ExtrinsicAt m trap e p a)
    (hsolved : ∀ r ∈ (Coupled.exec cfg final guess init (fun _ => 0) as).recs,
      StepSolved m mats T ct mob trap e r)
    (hc : ∀ r ∈ (Coupled.exec cfg final guess init (fun _ => 0) as).recs,
      0 ≤ physConc (mob r.u r.prev).theta a ((T r.t).T.val p) ((mob r.u r.prev).sol.val p))
    (h0 : (ct init).val p = 0) :
    ∀ r ∈ (Coupled.exec cfg final guess init (fun _ => 0) as).recs,
      0 ≤ (ct r.u).val p ∧ (ct r.u).val p ≤ r.dens p ∧ r.dens p ≤ r.n p := by
  obtain ⟨hfit, _⟩ := C83_fields cfg final guess init (fun _ => 0 : Ω → ℝ) as
  have hdt := C83_positive_steps cfg final hpos guess init (fun _ => 0 : Ω → ℝ) as
  set recs := (Coupled.exec cfg final guess init (fun _ => 0) as).recs
  obtain ⟨k, Ek, ν, Ep, e1, e2, e3, e4, hk, hν⟩ := hx.rates
  obtain ⟨j, hj⟩ := List.getElem?_of_mem hx.mem
  set S := e.phi_0 p * (e.eta_a p * e.f_a p + e.eta_b p * e.f_b p) with hS
  set R := e.phi_0 p * (e.eta_a p * e.f_a p / e.n_amax p + e.eta_b p * e.f_b p / e.n_bmax p) with hR
  have hS0 : 0 ≤ S := mul_nonneg hx.phi (add_nonneg (mul_nonneg hx.ea hx.fa) (mul_nonneg hx.eb hx.fb))
  have hR0 : 0 ≤ R := mul_nonneg hx.phi (add_nonneg
    (div_nonneg (mul_nonneg hx.ea hx.fa) hx.na.le) (div_nonneg (mul_nonneg hx.eb hx.fb) hx.nb.le))
  -- one step
  have one : ∀ r ∈ recs, 0 ≤ (ct r.prev).val p → (ct r.prev).val p ≤ r.dens p → r.dens p * R ≤ S →
      0 ≤ (ct r.u).val p ∧ (ct r.u).val p ≤ r.dens p ∧ r.dens p ≤ r.n p ∧ r.n p * R ≤ S := by
    intro r hr hp0 hp1 hp2
    obtain ⟨ht, hd⟩ := hsolved r hr
    obtain ⟨d1, d2⟩ := hdt r hr
    have d1' : (0 : ℝ) < r.dtH := by exact_mod_cast d1
    have d2' : (0 : ℝ) < r.dtN := by exact_mod_cast d2
    obtain ⟨b1, b2⟩ := C45_occupancy m mats (mob r.u r.prev) (T r.t) (r.dtH : ℝ) _ ht hx.disjoint
      hx.noSource d1' p hx.weight j a hj hx.here k Ek ν Ep r.dens
      (Or.inr ⟨e1, e2, e3, e4, rfl⟩) hk hν.le (hc r hr) hp0 hp1
    have eq := C46_equation m e (r.dtN : ℝ) r.n r.prevN hd p hx.weight
    rw [hfit.density r hr] at eq
    have eq2 : (r.n p - r.dens p) / r.dtN = S - R * r.n p := by
      rw [eq, hS, hR]; ring
    rw [div_eq_iff d2'.ne'] at eq2
    have hD : 0 < 1 + R * r.dtN := by positivity
    have k1 : (r.n p - r.dens p) * (1 + R * r.dtN) = (S - r.dens p * R) * r.dtN := by
      linear_combination eq2
    have k2 : 0 ≤ r.n p - r.dens p := by
      have : 0 ≤ (r.n p - r.dens p) * (1 + R * r.dtN) := by
        rw [k1]; exact mul_nonneg (by linarith) d2'.le
      exact nonneg_of_mul_nonneg_left this hD
    refine ⟨b1, b2, by linarith, ?_⟩
    have : 0 ≤ (S - R * r.n p) * r.dtN := by rw [← eq2]; exact k2
    have := nonneg_of_mul_nonneg_left this d2'
    linarith
  have all : ∀ i, ∀ hi : i < recs.length, 0 ≤ (ct recs[i].u).val p ∧
      (ct recs[i].u).val p ≤ recs[i].dens p ∧ recs[i].dens p ≤ recs[i].n p ∧
      recs[i].n p * R ≤ S := by
    intro i
    induction i with
    | zero =>
      intro hi
      obtain ⟨_, f1, f2⟩ := hfit.first recs[0] (by rw [List.head?_eq_getElem?]; simp [hi])
      refine one _ (List.getElem_mem hi) ?_ ?_ ?_
      · rw [f1, h0]
      · rw [f1, f2, h0]
      · rw [f2]; simpa using hS0
    | succ i ih =>
      intro hi
      obtain ⟨c1, c2, c3, c4⟩ := ih (by omega)
      obtain ⟨_, f1, f2⟩ := hfit.next i hi
      refine one _ (List.getElem_mem hi) ?_ ?_ ?_
      · rw [f1]; exact c1
      · rw [f1, f2]; exact c2.trans c3
      · rw [f2]; exact c4
  intro r hr
  obtain ⟨i, hi, rfl⟩ := List.getElem_of_mem hr
  obtain ⟨c1, c2, c3, _⟩ := all i hi
  exact ⟨c1, c2, c3⟩

end

/-! ## Examples -/

namespace CoupledCase

/-- Concentrations and densities are numbers, one attempt is refused. -/
def attempts : List (Attempt ℕ ℕ) :=
  [⟨⟨3, true⟩, 11, some 21⟩, ⟨⟨30, false⟩, 99, some 99⟩, ⟨⟨3, true⟩, 12, some 22⟩,
    ⟨⟨3, true⟩, 13, some 23⟩]

def cfg : Stepsize := Stepsize.new { initialValue := 1, changeRatio := some 2, dtMin := some (1 / 10) }

/-- C83 (a), (b): the third step, to `t = 4`, uses the density 22, advanced by `2 + 1 = 4 - 1`. -/
example : (Coupled.exec cfg 100 0 10 0 attempts).recs.map
      (fun r => ((r.t, r.dtH, r.dtN), [r.guess, r.prev, r.dens, r.u, r.prevN, r.n]))
    = [((1, 1, 2), [0, 10, 0, 11, 0, 21]), ((3, 1 / 2, 1), [11, 11, 21, 12, 21, 22]),
       ((4, 1, 2), [12, 12, 22, 13, 22, 23])] := by
  decide +kernel

end CoupledCase

namespace Case

open Festim.Weak

/-- An extrinsic trap in the first of two materials. -/
noncomputable def exTrap : Trap (Fin 2) (Fin 2) 1 where
  k_0 := .num 1
  E_k := .num 0
  p_0 := .num 4
  E_p := .num 0
  density := []
  materials := [mat1]
  sol := Fld.const 0
  prev := Fld.const 0

noncomputable def exDensity : Extrinsic (Fin 2) :=
  ⟨fun _ => 1, fun _ => 2, fun _ => 2, fun _ => 1, fun _ => 1, fun _ => 1, fun _ => 1⟩

/-- The densities grow from 0 to 1 to 3/2; nothing is trapped in the first step, 1/2 in the second. -/
noncomputable def exAttempts : List (Attempt (Fld (Fin 2) (Fin 2) 1) (Fin 2 → ℝ)) :=
  [⟨⟨3, true⟩, Fld.const 0, some fun _ => 1⟩,
   ⟨⟨3, true⟩, ⟨![1 / 2, 0], fun _ _ => 0, fun _ => 0⟩, some fun _ => 3 / 2⟩]

def exStep : Stepsize := ⟨1, none, none⟩

theorem exRecs : (Coupled.exec exStep 2 (Fld.const 0) (Fld.const 0) (fun _ => 0) exAttempts).recs
    = [⟨1, 1, Fld.const 0, Fld.const 0, fun _ => 0, Fld.const 0, 1, fun _ => 0, fun _ => 1⟩,
       ⟨2, 1, Fld.const 0, Fld.const 0, fun _ => 1, ⟨![1 / 2, 0], fun _ _ => 0, fun _ => 0⟩, 1,
        fun _ => 1, fun _ => 3 / 2⟩] := by
  have g0 : loopGuard 2 0 = true := by decide +kernel
  have g1 : loopGuard 2 1 = true := by decide +kernel
  have g2 : loopGuard 2 2 = false := by decide +kernel
  have c1 : clipFinal 2 1 1 = 1 := by decide +kernel
  simp [Coupled.exec, exAttempts, Coupled.start, Coupled.step, Run.start, loopHead, exStep, g0, g1,
    CoupledState.enter, afterSolve, CoupledState.updatePrevious, CoupledState.solveDensities, c1, one_add_one_eq_two, g2]

example : PositiveSteps exStep := ⟨by decide +kernel, by simp [exStep]⟩

example : ExtrinsicAt (meshOf .cartesian) exTrap exDensity 0 mat1 where
  weight := by simp [meshOf]
  disjoint := by simp [exTrap, mat1]
  noSource := rfl
  mem := by simp [exTrap]
  here := by simp [meshOf, mat1]
  rates := ⟨1, 0, 4, 0, rfl, rfl, rfl, rfl, by norm_num, by norm_num⟩
  phi := by simp [exDensity]
  na := by simp [exDensity]
  nb := by simp [exDensity]
  ea := by simp [exDensity]
  eb := by simp [exDensity]
  fa := by simp [exDensity]
  fb := by simp [exDensity]

/-- C83 (c), (e): the equations of both steps hold. -/
example : ∀ r ∈ (Coupled.exec exStep 2 (Fld.const 0) (Fld.const 0) (fun _ => 0) exAttempts).recs,
    StepSolved (meshOf .cartesian) [mat1, mat2] (fun _ => temp300) id (fun _ _ => mobile5) exTrap
      exDensity r := by
  rw [exRecs]
  intro r hr
  simp only [List.mem_cons, List.not_mem_nil, or_false] at hr
  rcases hr with rfl | rfl
  · refine ⟨fun v => ⟨_, rfl, ?_⟩, fun v => ?_⟩
    · simp [exTrap, meshOf, mat1, Mesh.assemble, Mesh.integrate, Mobile.conc, mobile5, temp300,
        trapSourceForm, Fld.const]
    · simp [Extrinsic.form, exDensity, Mesh.assemble, Mesh.integrate]
      ring
  · refine ⟨fun v => ⟨_, rfl, ?_⟩, fun v => ?_⟩
    · simp [exTrap, meshOf, mat1, Mesh.assemble, Mesh.integrate, Mobile.conc, mobile5, temp300,
        trapSourceForm, Fld.const]
      ring
    · simp [Extrinsic.form, exDensity, Mesh.assemble, Mesh.integrate]
      ring

/-- C83 (d): the steady equation with the density of an extrinsic trap. -/
example : TrapSolved (meshOf .cartesian) [mat1, mat2] mobile5 temp300 none
    { exTrap with density := [fun _ => 0] } := by
  intro v
  refine ⟨_, rfl, ?_⟩
  simp [exTrap, meshOf, mat1, mat2, Mesh.assemble, Mesh.integrate, Mobile.conc, mobile5, temp300,
    trapSourceForm, Fld.const]

end Case

end Festim.Props
