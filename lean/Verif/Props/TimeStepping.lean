import Verif.Proofs.Times
import Mathlib.Tactic.NormNum

/-!
# Properties of transient time stepping (C01-C03, C05-C09, C12, C13)

`run cfg final outs` is the state of a transient run after the Newton outcomes `outs`; all
statements hold for every list of outcomes, hence for every reachable state.
-/

namespace Festim.Props

open Run Spec

/-- Configuration used in the examples: adaptive, capped, with two milestones given unsorted. -/
def exCfg : Stepsize :=
  Stepsize.new { initialValue := 1, changeRatio := some 2, dtMin := some (1 / 10),
                 milestones := some [5, 3], maxStepsize := .const 4 }

/-- Six quickly converging solves. -/
def exOuts : List Outcome := List.replicate 6 ⟨2, true⟩

/-- A history with a divergence and slow convergence. -/
def exOuts2 : List Outcome := [⟨2, true⟩, ⟨30, false⟩, ⟨7, true⟩, ⟨3, true⟩]

theorem exCfg_positive : PositiveSteps exCfg := by
  refine ⟨by decide +kernel, ?_⟩
  rintro a ⟨⟩
  refine ⟨by decide +kernel, ?_⟩
  rintro t m h
  simp [truthy, MaxStep.eval] at h
  subst h; norm_num

/-! ## C01 -/

/-- C01 (a): neither a solve nor an accepted step is ever past `final_time`, if the initial
stepsize is not. -/
theorem C01_never_past_final (cfg : Stepsize) (final : ℚ) (outs : List Outcome)
    (h : cfg.initialValue ≤ final) :
    (∀ t ∈ (run cfg final outs).times, t ≤ final) ∧
    (Solving (run cfg final outs) → (run cfg final outs).t ≤ final) := by
  have : BelowFinal final (run cfg final outs) := by
    refine run_induction ?_ (fun _ o => belowFinal_step o) outs
    refine ⟨by simp [start, log_loopHead], ?_⟩
    intro hs
    rw [start, (solving_loopHead hs).2]
    simpa using h
  refine ⟨?_, this.2⟩
  intro t ht
  obtain ⟨r, hr, rfl⟩ := List.mem_map.1 ht
  exact this.1 r hr

/-- C01 (b): if the initial stepsize exceeds a positive `final_time`, the only step ever accepted
is the one at `t = initial_value`, past `final_time`, and then the run is over. -/
theorem C01_overshoot (cfg : Stepsize) (final : ℚ) (outs : List Outcome)
    (h0 : 0 < final) (h : final < cfg.initialValue) :
    ((run cfg final outs).times = [] ∧ ¬ Returned (run cfg final outs)) ∨
    ((run cfg final outs).times = [cfg.initialValue] ∧ Returned (run cfg final outs)) := by
  have tr := trace cfg final outs
  have hg : ¬ loopGuard final cfg.initialValue = true := by
    intro hg; have := loopGuard_lt hg; linarith
  have h1 : (run cfg final outs).log.length ≤ 1 := by
    by_contra hlen
    have hl := (linked (cfg := cfg) (final := final) (outs := outs) 0 (by omega)).guard
    rw [(head_time (by omega)).1] at hl
    exact hg hl
  rcases hlog : (run cfg final outs).log with _ | ⟨r, _ | ⟨r', l⟩⟩
  · left
    refine ⟨by simp [RunState.times, hlog], ?_⟩
    intro hf
    have := (tr.finished hf).1 hlog
    rw [loopGuard_zero h0] at this
    exact absurd this (by simp)
  · right
    have hr := tr.head r (by simp [hlog])
    refine ⟨by simp [RunState.times, hlog, hr.1], ?_⟩
    cases hp : (run cfg final outs).phase with
    | finished => exact hp
    | raised e =>
      have := tr.raised e hp r (by simp [hlog])
      rw [hr.1] at this
      exact absurd this hg
    | solving nom k =>
      have := last_of_solving ⟨nom, k, hp⟩ r (by simp [hlog])
      rw [hr.1] at this
      exact absurd this hg
  · rw [hlog] at h1; simp at h1

example : exCfg.initialValue ≤ (10 : ℚ) ∧ (run exCfg 10 exOuts).times = [1, 3, 5, 9, 10] := by
  decide +kernel

example : (0 : ℚ) < 1 / 2 ∧ (1 / 2 : ℚ) < exCfg.initialValue ∧
    (run exCfg (1 / 2) exOuts).times = [1] := by decide +kernel

/-! ## C02 -/

/-- C02: accepted times are strictly increasing and positive. -/
theorem C02_times_increase (cfg : Stepsize) (final : ℚ) (outs : List Outcome)
    (h : PositiveSteps cfg) : (0 :: (run cfg final outs).times).Pairwise (· < ·) :=
  (increasing h outs).pairwise

example : PositiveSteps exCfg ∧ (run exCfg 10 exOuts2).times = [1, 3, 13 / 4] := by
  exact ⟨exCfg_positive, by decide +kernel⟩

/-! ## C03 -/

/-- C03: `run()` returns exactly when a step has been accepted in the tolerance band
`[final*(1-1e-5), final]`; it is then the last accepted step, and all earlier accepted steps are
strictly before the band. -/
theorem C03_ends_at_final (cfg : Stepsize) (final : ℚ) (outs : List Outcome)
    (h0 : 0 < cfg.initialValue) (h : cfg.initialValue ≤ final) :
    (Returned (run cfg final outs) ↔
      ∃ t ∈ (run cfg final outs).times, final * (1 - 1 / 100000) ≤ t) ∧
    (Returned (run cfg final outs) → ∃ before last,
      (run cfg final outs).times = before ++ [last] ∧
      final * (1 - 1 / 100000) ≤ last ∧ last ≤ final ∧
      ∀ t ∈ before, t < final * (1 - 1 / 100000)) := by
  have hf : 0 < final := by linarith
  have tr := trace cfg final outs
  have key : Returned (run cfg final outs) → ∃ before last,
      (run cfg final outs).times = before ++ [last] ∧
      final * (1 - 1 / 100000) ≤ last ∧ last ≤ final ∧
      ∀ t ∈ before, t < final * (1 - 1 / 100000) := by
    intro hret
    obtain ⟨hf1, hf2⟩ := tr.finished hret
    rcases List.eq_nil_or_concat' (run cfg final outs).log with hl | ⟨l, r, hl⟩
    · have := hf1 hl
      rw [loopGuard_zero hf] at this
      exact absurd this (by simp)
    · have hr := hf2 r (by simp [hl])
      refine ⟨l.map (·.t), r.t, by simp [RunState.times, hl], ?_, ?_, ?_⟩
      · by_contra hc
        rw [(loopGuard_pos_iff hf).2 (not_le.1 hc)] at hr
        simp at hr
      · exact (C01_never_past_final cfg final outs h).1 r.t (by simp [RunState.times, hl])
      · intro t ht
        obtain ⟨r', hr', rfl⟩ := List.mem_map.1 ht
        obtain ⟨i, hi, rfl⟩ := List.getElem_of_mem hr'
        have hlen : i + 1 < (run cfg final outs).log.length := by
          rw [hl]; simpa using hi
        have hg := (linked i hlen).guard
        simp only [hl] at hg
        rw [List.getElem_append_left hi] at hg
        exact (loopGuard_pos_iff hf).1 hg
  refine ⟨⟨?_, ?_⟩, key⟩
  · intro hret
    obtain ⟨b, l, h1, h2, _⟩ := key hret
    exact ⟨l, by simp [h1], h2⟩
  · rintro ⟨t, ht, hle⟩
    obtain ⟨r, hr, rfl⟩ := List.mem_map.1 ht
    have hng : ¬ loopGuard final r.t = true := by
      rw [loopGuard_pos_iff hf]; exact not_lt.2 hle
    cases hp : (run cfg final outs).phase with
    | finished => exact hp
    | solving nom k => exact absurd (last_of_solving ⟨nom, k, hp⟩ r hr) hng
    | raised e =>
      obtain ⟨i, hi, rfl⟩ := List.getElem_of_mem hr
      by_cases hl : i + 1 < (run cfg final outs).log.length
      · exact absurd (linked i hl).guard hng
      · refine absurd (tr.raised e hp _ ?_) hng
        rw [List.getLast?_eq_getElem?]
        have : (run cfg final outs).log.length - 1 = i := by omega
        rw [this]; simp [hi]

example : (0 : ℚ) < exCfg.initialValue ∧ exCfg.initialValue ≤ 10 ∧
    Returned (run exCfg 10 exOuts) := by
  refine ⟨by decide +kernel, by decide +kernel, ?_⟩
  show (run exCfg 10 exOuts).phase = .finished
  decide +kernel

/-! ## C05 and C06 -/

/-- Milestones stored by the constructor: sorted, same elements. -/
theorem new_milestones (args : StepsizeArgs) (l : List ℚ) (h : args.milestones = some l) :
    ∃ l', (Stepsize.new args).milestones = some l' ∧ l'.Pairwise (· ≤ ·) ∧
      ∀ m, m ∈ l' ↔ m ∈ l := by
  cases l with
  | nil => exact ⟨[], by simp [Stepsize.new, h, setMilestones], by simp, by simp⟩
  | cons a l =>
    exact ⟨pySorted (a :: l), by simp [Stepsize.new, h, setMilestones], pySorted_pairwise _,
      fun m => mem_pySorted⟩

/-- C05 (a): an accepted step crossing a milestone starts within relative `1e-5` of the first
milestone after its start.  `ms` is the (sorted) milestone list held by the stepsize. -/
theorem C05_crossing_only_from_band (cfg : Stepsize) (final : ℚ) (outs : List Outcome)
    (ms : List ℚ) (hms : cfg.milestones = some ms) (hsort : ms.Pairwise (· ≤ ·))
    (i : ℕ) (hi : i + 1 < (run cfg final outs).log.length) (m : ℚ) (hm : m ∈ ms)
    (h1 : (run cfg final outs).log[i].t < m) (h2 : m < (run cfg final outs).log[i + 1].t) :
    ∃ m₁ ∈ ms, (run cfg final outs).log[i].t < m₁ ∧ Near (run cfg final outs).log[i].t m₁ ∧
      ∀ m₂ ∈ ms, (run cfg final outs).log[i].t < m₂ → m₁ ≤ m₂ := by
  obtain ⟨m₁, hm1, hnext, hlt, hmin⟩ := nextMilestone_sorted hsort hm h1
  refine ⟨m₁, hm1, hlt, ?_, hmin⟩
  have hl := linked i hi
  have ha := (recOK (cfg := cfg) (final := final) (outs := outs) i (by omega)).adapted
  rcases afterSolve_milestone (by rw [hms]; exact hnext) ha with h | h
  · exfalso
    have h3 := hl.t_eq
    rw [hl.nom_eq] at h3
    have h4 := clipFinal_le (final := final) (t := (run cfg final outs).log[i].t)
      (v := (run cfg final outs).log[i].dtExtrinsic)
    have h5 := hmin m hm h1
    linarith
  · exact h

/-- discrete intermediate value -/
theorem exists_step_around (l : List ℚ) (m : ℚ) (hne : 0 < l.length) (h0 : l[0] ≤ m)
    (h1 : m ≤ l[l.length - 1]) :
    m ∈ l ∨ ∃ i, ∃ h : i + 1 < l.length, l[i] < m ∧ m < l[i + 1] := by
  induction l with
  | nil => simp at hne
  | cons a l ih =>
    cases l with
    | nil =>
      left
      simp at h0 h1
      simp [le_antisymm h1 h0]
    | cons b l =>
      by_cases hb : m < b
      · rcases eq_or_lt_of_le h0 with he | hlt
        · left; simp at he; simp [he]
        · right; exact ⟨0, by simp, hlt, hb⟩
      · rcases ih (by simp) (not_lt.1 hb) (by simpa using h1) with h | ⟨i, hi, h⟩
        · left; simp at h ⊢; right; exact h
        · right; exact ⟨i + 1, by simpa using hi, by simpa using h⟩

/-- C05 (b): each milestone between the first and the last accepted time is an accepted time,
unless it is crossed by a step starting in the band below a milestone. -/
theorem C05_milestones_hit_or_band (args : StepsizeArgs) (final : ℚ) (outs : List Outcome)
    (ms : List ℚ) (hms : args.milestones = some ms) (m : ℚ) (hm : m ∈ ms) (ts : List ℚ)
    (hts : ts = (run (Stepsize.new args) final outs).times) (hne : 0 < ts.length)
    (h0 : ts[0] ≤ m) (h1 : m ≤ ts[ts.length - 1]) :
    m ∈ ts ∨ ∃ i, ∃ hi : i + 1 < ts.length, ts[i] < m ∧ m < ts[i + 1] ∧
      ∃ m₁ ∈ ms, ts[i] < m₁ ∧ m₁ ≤ m ∧ Near ts[i] m₁ := by
  obtain ⟨l', hl', hs, hmem⟩ := new_milestones args ms hms
  rcases exists_step_around ts m hne h0 h1 with h | ⟨i, hi, ha, hb⟩
  · exact .inl h
  · right
    refine ⟨i, hi, ha, hb, ?_⟩
    subst hts
    have hi' : i + 1 < (run (Stepsize.new args) final outs).log.length := by
      simpa [RunState.times] using hi
    simp only [RunState.times, List.getElem_map] at ha hb ⊢
    obtain ⟨m₁, h1, h2, h3, h4⟩ := C05_crossing_only_from_band (Stepsize.new args) final outs l' hl'
      hs i hi' m ((hmem m).2 hm) ha hb
    exact ⟨m₁, (hmem _).1 h1, h2, h4 m ((hmem m).2 hm) ha, h3⟩

example : (∃ ms, exCfg.milestones = some ms ∧ ms = [3, 5]) ∧
    (run exCfg 10 exOuts).times = [1, 3, 5, 9, 10] := by
  exact ⟨⟨_, rfl, by decide +kernel⟩, by decide +kernel⟩

/-- increments after the first are bounded by `H` -/
theorem increments_le (cfg : Stepsize) (final : ℚ) (outs : List Outcome) (H : ℚ)
    (hH : StepsAtMost cfg H) (i : ℕ) (hi : i + 1 < (run cfg final outs).log.length) :
    (run cfg final outs).log[i + 1].dtNominal ≤ H := by
  have hl := linked i hi
  have hok := (recOK (cfg := cfg) (final := final) (outs := outs) i (by omega)).adapted
  rw [hl.nom_eq]
  refine le_trans clipFinal_le ?_
  unfold StepsAtMost at hH
  split at hH
  · rename_i hn
    refine le_trans (afterSolve_nonadaptive_le hn hok) ?_
    refine le_trans ?_ hH
    have hinv : (∀ r ∈ (run cfg final outs).log, r.dtUsed ≤ cfg.initialValue) ∧
        (run cfg final outs).value ≤ cfg.initialValue := by
      refine run_induction (P := fun s => (∀ r ∈ s.log, r.dtUsed ≤ cfg.initialValue) ∧
        s.value ≤ cfg.initialValue) ?_ ?_ outs
      · simp [start, log_loopHead, value_loopHead]
      · intro s o h
        cases hp : s.phase with
        | finished => rw [step_finished o hp]; exact h
        | raised e => rw [step_raised o hp]; exact h
        | solving nom k =>
          cases ha : afterSolve cfg s.value s.t o with
          | error e => rw [step_error hp ha]; exact h
          | ok v =>
            have hv := afterSolve_nonadaptive_le hn ha
            cases ho : o.converged with
            | false => rw [step_retry hp ha ho]; exact ⟨h.1, hv.trans h.2⟩
            | true =>
              rw [step_accept hp ha ho]
              refine ⟨?_, ?_⟩
              · rw [log_loopHead]
                intro r hr
                rw [List.mem_append, List.mem_singleton] at hr
                rcases hr with hr | rfl
                · exact h.1 r hr
                · exact h.2
              · rw [value_loopHead]
                exact clipFinal_le.trans (hv.trans h.2)
    exact hinv.1 _ (List.getElem_mem _)
  · rename_i a ha
    obtain ⟨m, hm, hle⟩ := hH ((run cfg final outs).log[i].t)
    exact (afterSolve_cap ha hm hok).trans hle

/-- C06: if steps are bounded by `H` and distinct milestones are at least `H` apart, each
milestone between the first and last accepted times is matched by an accepted time within relative
`1e-5`. -/
theorem C06_milestones_reached (args : StepsizeArgs) (final : ℚ) (outs : List Outcome)
    (ms : List ℚ) (hms : args.milestones = some ms) (H : ℚ)
    (hH : StepsAtMost (Stepsize.new args) H)
    (hsep : ∀ m₁ ∈ ms, ∀ m₂ ∈ ms, m₁ < m₂ → H ≤ m₂ - m₁)
    (m : ℚ) (hm : m ∈ ms) (ts : List ℚ)
    (hts : ts = (run (Stepsize.new args) final outs).times) (hne : 0 < ts.length)
    (h0 : ts[0] ≤ m) (h1 : m ≤ ts[ts.length - 1]) : ∃ t ∈ ts, Near t m := by
  rcases C05_milestones_hit_or_band args final outs ms hms m hm ts hts hne h0 h1 with
    h | ⟨i, hi, ha, hb, m₁, hm₁, h2, h3, h4⟩
  · refine ⟨m, h, ?_⟩
    unfold Near
    rw [sub_self, abs_zero]
    positivity
  · rcases eq_or_lt_of_le h3 with rfl | hlt
    · exact ⟨ts[i], List.getElem_mem _, h4⟩
    · exfalso
      have hs := hsep m₁ hm₁ m hm hlt
      subst hts
      have hi' : i + 1 < (run (Stepsize.new args) final outs).log.length := by
        simpa [RunState.times] using hi
      simp only [RunState.times, List.getElem_map] at ha hb h2
      have h5 := increments_le (Stepsize.new args) final outs H hH i hi'
      have h6 := (linked i hi').t_eq
      linarith

example : StepsAtMost (Stepsize.new { initialValue := 1, milestones := some [7 / 2, 5 / 2] }) 1 ∧
    (run (Stepsize.new { initialValue := 1, milestones := some [7 / 2, 5 / 2] }) 4 exOuts).times
      = [1, 2, 5 / 2, 3, 7 / 2, 4] := by
  constructor
  · show (1 : ℚ) ≤ 1; exact le_rfl
  · decide +kernel

/-- C06, the separation hypothesis is needed: with milestones `1.000001` and `1.5` and a constant
stepsize of 1, the run goes from 1 to 2 and misses `1.5`. -/
theorem C06_unseparated_counterexample :
    let cfg := Stepsize.new { initialValue := 1, milestones := some [1000001 / 1000000, 3 / 2] }
    (run cfg 4 exOuts).times = [1, 2, 3, 4] ∧
    ¬ ∃ t ∈ (run cfg 4 exOuts).times, Near t (3 / 2) := by
  have h : (run (Stepsize.new { initialValue := 1, milestones := some [1000001 / 1000000, 3 / 2] })
      4 exOuts).times = [1, 2, 3, 4] := by decide +kernel
  refine ⟨h, ?_⟩
  rw [h]
  rintro ⟨t, ht, hn⟩
  simp at ht
  unfold Near at hn
  rcases ht with rfl | rfl | rfl | rfl <;> norm_num [abs_le] at hn

/-! ## C07 -/

/-- C07 (a): each step after the first is at most `max_stepsize` evaluated at its start. -/
theorem C07_max_stepsize (cfg : Stepsize) (final : ℚ) (outs : List Outcome) (a : Adaptive)
    (ha : cfg.adaptive = some a) (i : ℕ) (hi : i + 1 < (run cfg final outs).times.length) (m : ℚ)
    (hm : a.maxStep.eval (run cfg final outs).times[i] = .ok (some m)) :
    (run cfg final outs).times[i + 1] - (run cfg final outs).times[i] ≤ m := by
  have hi' : i + 1 < (run cfg final outs).log.length := by simpa [RunState.times] using hi
  simp only [RunState.times, List.getElem_map] at hm ⊢
  have hl := linked i hi'
  have hok := (recOK (cfg := cfg) (final := final) (outs := outs) i (by omega)).adapted
  have h1 := afterSolve_cap ha hm hok
  have h2 := clipFinal_le (final := final) (t := (run cfg final outs).log[i].t)
    (v := (run cfg final outs).log[i].dtExtrinsic)
  have h3 := hl.t_eq
  have h4 := hl.nom_eq
  linarith

/-- C07 (b): the first step is `initial_value`, whatever the cap. -/
theorem C07_first_step (cfg : Stepsize) (final : ℚ) (outs : List Outcome)
    (h : 0 < (run cfg final outs).times.length) :
    (run cfg final outs).times[0] = cfg.initialValue := by
  simp only [RunState.times, List.getElem_map]
  exact (head_time (by simpa [RunState.times] using h)).1

/-- C07 (c): what the constructor stores: constant or callable `max_stepsize`; the deprecated pair
`t_stop`, `stepsize_stop_max` caps by `stepsize_stop_max` exactly from `t_stop` on. -/
theorem C07_constructor (args : StepsizeArgs) (r : ℚ) (hr : args.changeRatio = some r) :
    ∃ a, (Stepsize.new args).adaptive = some a ∧ a.ratio = r ∧ a.dtMin = args.dtMin ∧
      (args.tStop = none → args.stepsizeStopMax = none → a.maxStep = args.maxStepsize) ∧
      (∀ ts sm, args.tStop = some ts → args.stepsizeStopMax = some sm → (ts ≠ 0 ∨ sm ≠ 0) →
        ∀ t, a.maxStep.eval t = .ok (if ts ≤ t then some sm else none)) := by
  refine ⟨{ ratio := r, maxStep := (if truthy args.tStop || truthy args.stepsizeStopMax then
      (MaxStep.fn (tStopMax args.tStop args.stepsizeStopMax)) else args.maxStepsize), dtMin := args.dtMin },
    by simp only [Stepsize.new, hr], rfl, rfl, ?_, ?_⟩
  · intro h1 h2; simp [h1, h2, truthy]
  · intro ts sm h1 h2 h3 t
    have : (truthy args.tStop || truthy args.stepsizeStopMax) = true := by
      simpa [truthy, h1, h2] using h3
    simp only [this, if_true]
    simp only [MaxStep.eval, tStopMax, h1, h2]
    split <;> rfl

/-- C07 (d): without `stepsize_change_ratio`, `max_stepsize` (and `dt_min`, `t_stop`,
`stepsize_stop_max`) have no effect on the object built. -/
theorem C07_ignored_without_ratio (args : StepsizeArgs) (ms : MaxStep) (d t s : Option ℚ)
    (hr : args.changeRatio = none) :
    Stepsize.new { args with maxStepsize := ms, dtMin := d, tStop := t, stepsizeStopMax := s } =
      Stepsize.new args := by
  simp [Stepsize.new, hr]

example : ∃ a, exCfg.adaptive = some a ∧ ∃ hi : 2 + 1 < (run exCfg 10 exOuts).times.length,
    a.maxStep.eval (run exCfg 10 exOuts).times[2] = .ok (some 4) ∧
    (run exCfg 10 exOuts).times[3] - (run exCfg 10 exOuts).times[2] = 4 :=
  ⟨_, rfl, by decide +kernel, rfl, by decide +kernel⟩

/-- C07 (e): `stepsize_stop_max` without `t_stop` in an adaptive run: no step is ever accepted, the run raises after the first
solve, `TypeError` if that solve converged. -/
theorem C07_stop_max_alone (args : StepsizeArgs) (r m final : ℚ) (hr : args.changeRatio = some r) (hr0 : r ≠ 0)
    (hs : args.tStop = none) (hm : args.stepsizeStopMax = some m) (hm0 : m ≠ 0) (hf : 0 < final) (o : Outcome)
    (outs : List Outcome) :
    (run (Stepsize.new args) final (o :: outs)).times = [] ∧
    ∃ e, (run (Stepsize.new args) final (o :: outs)).phase = .raised e ∧
      (o.converged = true → ∃ msg, e = .typeError msg) := by
  have hg : loopGuard final 0 = true := by
    simp only [loopGuard, isclose, zero_sub, abs_neg, Bool.and_eq_true, decide_eq_true_eq, Bool.not_eq_true', decide_eq_false_iff_not,
      not_le, abs_of_pos hf]
    constructor <;> linarith
  have hst : start (Stepsize.new args) final =
      ⟨0 + args.initialValue, args.initialValue, .solving args.initialValue 0, []⟩ := by
    simp [start, loopHead, hg, Stepsize.new]
  have hcap : ∀ v t, (⟨r, .fn (tStopMax none (some m)), args.dtMin⟩ : Adaptive).cap t v =
      .error (.typeError "'>=' not supported between instances of 'float' and 'NoneType'") := by
    intro v t; simp [Adaptive.cap, MaxStep.eval, tStopMax]
  have hit : ∀ v, ∃ w, (⟨r, .fn (tStopMax none (some m)), args.dtMin⟩ :
      Adaptive).onIterations v o.nbIt = .ok w := by
    intro v
    unfold Adaptive.onIterations pyDiv
    by_cases h5 : o.nbIt < 5 <;> simp [h5, hr0]
  have had : ∃ e, afterSolve (Stepsize.new args) args.initialValue (0 + args.initialValue) o = .error e ∧
      (o.converged = true → ∃ msg, e = .typeError msg) := by
    simp only [afterSolve, Stepsize.new, hr, hs, hm, truthy, Option.isSome_some, Bool.true_or, if_true, Stepsize.adapt,
      adaptAdaptive, Bool.false_or, decide_eq_true_eq, hm0, ne_eq, not_false_eq_true]
    cases hd : (⟨r, .fn (tStopMax none (some m)), args.dtMin⟩ :
      Adaptive).onDivergence args.initialValue o.converged with
    | error e =>
      refine ⟨e, by simp, fun hc => ?_⟩
      simp [Adaptive.onDivergence, hc] at hd
    | ok v1 =>
      obtain ⟨w, hw⟩ := hit v1
      simp [hw, hcap]
  obtain ⟨e, he, hty⟩ := had
  have hstep : Run.step (Stepsize.new args) final (start (Stepsize.new args) final) o =
      { start (Stepsize.new args) final with phase := .raised e } := by
    rw [hst]
    simp only [Run.step, he]
  have hstay : ∀ l : List Outcome, ∀ s : RunState, s.phase = .raised e → l.foldl (Run.step (Stepsize.new args) final) s = s := by
    intro l
    induction l with
    | nil => intro s _; rfl
    | cons a l ih => intro s h; rw [List.foldl_cons, step_raised a h]; exact ih s h
  have hrun : run (Stepsize.new args) final (o :: outs) = { start (Stepsize.new args) final with phase := .raised e } := by
    show (o :: outs).foldl _ _ = _
    rw [List.foldl_cons, hstep, hstay outs _ rfl]
  rw [hrun]
  exact ⟨by simp [RunState.times, hst], e, rfl, hty⟩

/-- A case of `C07_stop_max_alone`. -/
example : ∃ e, (run (Stepsize.new { initialValue := 1, changeRatio := some 2, stepsizeStopMax := some 5 }) 10
    [⟨3, true⟩, ⟨3, true⟩]).phase = .raised (.typeError e) := by
  obtain ⟨-, e, h1, h2⟩ := C07_stop_max_alone { initialValue := 1, changeRatio := some 2, stepsizeStopMax := some 5 } 2 5 10 rfl
    (by norm_num) rfl rfl (by norm_num) (by norm_num) ⟨3, true⟩ [⟨3, true⟩]
  obtain ⟨msg, rfl⟩ := h2 rfl
  exact ⟨msg, h1⟩

/-! ## C08 -/

/-- C08: a step is at most `ratio` times the stepsize of the previous accepted solve, and at most
that stepsize divided by the ratio if the accepted solve needed 5 iterations or more. -/
theorem C08_growth (cfg : Stepsize) (final : ℚ) (outs : List Outcome) (a : Adaptive)
    (ha : cfg.adaptive = some a) (i : ℕ) (hi : i + 1 < (run cfg final outs).log.length) :
    ((run cfg final outs).log[i].nbIt < 5 →
      (run cfg final outs).log[i + 1].dtNominal ≤ (run cfg final outs).log[i].dtUsed * a.ratio) ∧
    (5 ≤ (run cfg final outs).log[i].nbIt →
      (run cfg final outs).log[i + 1].dtNominal ≤ (run cfg final outs).log[i].dtUsed / a.ratio) := by
  have hl := linked i hi
  have hok := (recOK (cfg := cfg) (final := final) (outs := outs) i (by omega)).adapted
  have h := afterSolve_growth ha hok
  have h2 := clipFinal_le (final := final) (t := (run cfg final outs).log[i].t)
    (v := (run cfg final outs).log[i].dtExtrinsic)
  rw [hl.nom_eq]
  exact ⟨fun hn => h2.trans (h.1 hn), fun hn => h2.trans (h.2 hn)⟩

example : (∃ a, exCfg.adaptive = some a) ∧ 0 + 1 < (run exCfg 10 exOuts2).log.length :=
  ⟨⟨_, rfl⟩, by decide +kernel⟩

/-! ## C09 -/

/-- C09 (a): a step is added to the accepted steps exactly when the driver was solving, the solve
converged and the stepsize adaptation did not raise; otherwise the accepted steps are unchanged. -/
theorem C09_accept_iff (cfg : Stepsize) (final : ℚ) (outs : List Outcome) (o : Outcome) :
    ((Solving (run cfg final outs) ∧ o.converged = true ∧
        ∃ v, afterSolve cfg (run cfg final outs).value (run cfg final outs).t o = .ok v) →
      ∃ r, (run cfg final (outs ++ [o])).log = (run cfg final outs).log ++ [r] ∧
        r.t = (run cfg final outs).t ∧ r.dtUsed = (run cfg final outs).value ∧
        r.nbIt = o.nbIt) ∧
    (¬ (Solving (run cfg final outs) ∧ o.converged = true ∧
        ∃ v, afterSolve cfg (run cfg final outs).value (run cfg final outs).t o = .ok v) →
      (run cfg final (outs ++ [o])).log = (run cfg final outs).log) := by
  rw [run_concat]
  constructor
  · rintro ⟨⟨nom, k, hp⟩, ho, v, ha⟩
    rw [step_accept hp ha ho, log_loopHead]
    exact ⟨_, rfl, rfl, rfl, rfl⟩
  · intro hn
    cases hp : (run cfg final outs).phase with
    | finished => rw [step_finished o hp]
    | raised e => rw [step_raised o hp]
    | solving nom k =>
      cases ha : afterSolve cfg (run cfg final outs).value (run cfg final outs).t o with
      | error e => rw [step_error hp ha]
      | ok v =>
        cases ho : o.converged with
        | false => rw [step_retry hp ha ho]
        | true => exact absurd ⟨⟨nom, k, hp⟩, ho, v, ha⟩ hn

/-- C09 (b): while the run is going on, the accepted steps are in one-to-one order-preserving
correspondence with the converged solves. -/
theorem C09_accepted_are_converged (cfg : Stepsize) (final : ℚ) (outs : List Outcome)
    (h : Solving (run cfg final outs)) :
    (run cfg final outs).log.map (·.nbIt) = (outs.filter (·.converged)).map (·.nbIt) := by
  induction outs using List.reverseRecOn with
  | nil => simp [start, log_loopHead]
  | append_singleton l o ih =>
    rw [run_concat] at h ⊢
    cases hp : (run cfg final l).phase with
    | finished => rw [step_finished o hp] at h; obtain ⟨_, _, h⟩ := h; simp [hp] at h
    | raised e => rw [step_raised o hp] at h; obtain ⟨_, _, h⟩ := h; simp [hp] at h
    | solving nom k =>
      have ih := ih ⟨nom, k, hp⟩
      cases ha : afterSolve cfg (run cfg final l).value (run cfg final l).t o with
      | error e => rw [step_error hp ha] at h; obtain ⟨_, _, h⟩ := h; simp at h
      | ok v =>
        cases ho : o.converged with
        | false => rw [step_retry hp ha ho]; simpa [ho] using ih
        | true => rw [step_accept hp ha ho, log_loopHead]; simp [ho, ih]

/-- C09 (c): a diverged solve of an adaptive run without `dt_min` raises `ValueError`. -/
theorem C09_diverged_without_dt_min (cfg : Stepsize) (final : ℚ) (outs : List Outcome)
    (o : Outcome) (a : Adaptive) (ha : cfg.adaptive = some a) (hd : a.dtMin = none)
    (hs : Solving (run cfg final outs)) (ho : o.converged = false) :
    (run cfg final (outs ++ [o])).phase =
      .raised (.valueError "Solver diverged but dt_min is not set.") := by
  obtain ⟨nom, k, hp⟩ := hs
  rw [run_concat]
  have : afterSolve cfg (run cfg final outs).value (run cfg final outs).t o =
      .error (.valueError "Solver diverged but dt_min is not set.") := by
    simp [afterSolve, ha, Stepsize.adapt, adaptAdaptive, Adaptive.onDivergence, ho, hd]
  rw [step_error hp this]

/-- C09 (d): once `run()` has returned or raised nothing is accepted any more. -/
theorem C09_stopped (cfg : Stepsize) (final : ℚ) (outs more : List Outcome)
    (h : Returned (run cfg final outs) ∨ Raised (run cfg final outs)) :
    run cfg final (outs ++ more) = run cfg final outs := by
  rw [run_append]
  apply foldl_stuck
  intro o
  rcases h with h | ⟨e, h⟩
  · exact step_finished o h
  · exact step_raised o h

example : Solving (run exCfg 10 exOuts2) ∧
    (run exCfg 10 exOuts2).log.map (·.nbIt) = [2, 7, 3] := by
  refine ⟨⟨1 / 2, 0, ?_⟩, ?_⟩ <;> decide +kernel

/-! ## C12 -/

/-- C12 (a): the time of each accepted step is the sum of the clock increments up to it. -/
theorem C12_increments_sum (cfg : Stepsize) (final : ℚ) (outs : List Outcome) (i : ℕ)
    (hi : i < (run cfg final outs).log.length) :
    (((run cfg final outs).log.take (i + 1)).map (·.dtNominal)).sum =
      (run cfg final outs).log[i].t := by
  induction i with
  | zero =>
    have h := head_time hi
    rw [h.1, ← h.2.1]
    rw [List.take_one, List.head?_eq_getElem?]
    simp [hi]
  | succ i ih =>
    rw [List.take_add_one, List.map_append, List.sum_append, ih (by omega)]
    have hl := linked i hi
    rw [hl.t_eq]
    simp [hi]

/-- C12 (b): a step accepted at the first attempt was solved with the clock increment. -/
theorem C12_first_attempt (cfg : Stepsize) (final : ℚ) (outs : List Outcome) (i : ℕ)
    (hi : i < (run cfg final outs).log.length) (h : (run cfg final outs).log[i].failed = 0) :
    (run cfg final outs).log[i].dtUsed = (run cfg final outs).log[i].dtNominal :=
  (recOK i hi).first h

/-- C12 (c): after `k` diverged solves (5 iterations or more) in a step, the equations are solved
with at most `increment / ratio^(2k)`: strictly less than the clock increment if `k > 0`. -/
theorem C12_retried_steps_shorter (cfg : Stepsize) (final : ℚ) (outs : List Outcome)
    (a : Adaptive) (ha : cfg.adaptive = some a) (hr : 1 < a.ratio) (hp : PositiveSteps cfg)
    (hit : ∀ o ∈ outs, o.converged = false → 5 ≤ o.nbIt)
    (i : ℕ) (hi : i < (run cfg final outs).log.length) :
    (run cfg final outs).log[i].dtUsed ≤
      (run cfg final outs).log[i].dtNominal / a.ratio ^ (2 * (run cfg final outs).log[i].failed) ∧
    (0 < (run cfg final outs).log[i].failed →
      (run cfg final outs).log[i].dtUsed < (run cfg final outs).log[i].dtNominal) := by
  have hr0 : 0 < a.ratio := by linarith
  have inv : (∀ r ∈ (run cfg final outs).log, 0 < r.dtNominal ∧
        r.dtUsed ≤ r.dtNominal / a.ratio ^ (2 * r.failed)) ∧
      (∀ nom k, (run cfg final outs).phase = .solving nom k →
        (run cfg final outs).value ≤ nom / a.ratio ^ (2 * k)) ∧
      Increasing (run cfg final outs) := by
    refine run_induction_mem (P := fun s => (∀ r ∈ s.log, 0 < r.dtNominal ∧
        r.dtUsed ≤ r.dtNominal / a.ratio ^ (2 * r.failed)) ∧
      (∀ nom k, s.phase = .solving nom k → s.value ≤ nom / a.ratio ^ (2 * k)) ∧ Increasing s)
      (Q := fun o => o.converged = false → 5 ≤ o.nbIt) ?_ ?_ outs hit
    · refine ⟨by simp [start, log_loopHead], ?_, increasing_start hp⟩
      intro nom k h
      unfold start at h ⊢
      have := (solving_loopHead ⟨nom, k, h⟩).2
      rw [this] at h ⊢
      simp at h
      obtain ⟨h, rfl⟩ := h
      simp [h]
    · rintro s o hq ⟨h1, h2, h3⟩
      refine ⟨?_, ?_, increasing_step hp o h3⟩
      · cases hph : s.phase with
        | finished => rw [step_finished o hph]; exact h1
        | raised e => rw [step_raised o hph]; exact h1
        | solving nom k =>
          cases hs : afterSolve cfg s.value s.t o with
          | error e => rw [step_error hph hs]; exact h1
          | ok v =>
            cases ho : o.converged with
            | false => rw [step_retry hph hs ho]; exact h1
            | true =>
              rw [step_accept hph hs ho, log_loopHead]
              intro r hr
              rw [List.mem_append, List.mem_singleton] at hr
              rcases hr with hr | rfl
              · exact h1 r hr
              · exact ⟨h3.nomPos _ _ hph, h2 nom k hph⟩
      · intro nom' k' hph'
        cases hph : s.phase with
        | finished => rw [step_finished o hph] at hph' ⊢; exact h2 _ _ hph'
        | raised e => rw [step_raised o hph] at hph' ⊢; exact h2 _ _ hph'
        | solving nom k =>
          cases hs : afterSolve cfg s.value s.t o with
          | error e => rw [step_error hph hs] at hph'; simp at hph'
          | ok v =>
            cases ho : o.converged with
            | false =>
              rw [step_retry hph hs ho] at hph' ⊢
              simp at hph'
              obtain ⟨rfl, rfl⟩ := hph'
              have hv := h2 nom k hph
              have h5 := hq ho
              simp only
              unfold afterSolve Stepsize.adapt adaptAdaptive at hs
              rw [ha, ho] at hs
              simp only [Option.isSome_some, Bool.true_or, if_true] at hs
              cases hd : a.onDivergence s.value false with
              | error e => simp [hd] at hs
              | ok v1 =>
                obtain ⟨_, _, _, rfl, _⟩ := onDivergence_false hd
                cases hi2 : a.onIterations (s.value / a.ratio) o.nbIt with
                | error e => simp [hd, hi2] at hs
                | ok v2 =>
                  rcases onIterations_ok hi2 with ⟨hlt, _⟩ | ⟨_, _, rfl⟩
                  · omega
                  · cases hc : a.cap s.t (s.value / a.ratio / a.ratio) with
                    | error e => simp [hd, hi2, hc] at hs
                    | ok v3 =>
                      simp only [hd, hi2, hc, Except.ok.injEq] at hs
                      have h6 := clipMilestone_le cfg.milestones s.t v3
                      have h7 := (cap_ok hc).1
                      have h8 : s.value / a.ratio / a.ratio ≤ nom / a.ratio ^ (2 * (k + 1)) := by
                        rw [mul_add, pow_add, ← div_div, div_div, mul_one, ← pow_two]
                        exact div_le_div_of_nonneg_right hv (by positivity)
                      linarith
            | true =>
              rw [step_accept hph hs ho] at hph' ⊢
              obtain ⟨hg, he⟩ := solving_loopHead ⟨nom', k', hph'⟩
              rw [he] at hph' ⊢
              simp at hph'
              obtain ⟨rfl, rfl⟩ := hph'
              simp
  obtain ⟨hn, hle⟩ := inv.1 _ (List.getElem_mem hi)
  refine ⟨hle, fun hk => lt_of_le_of_lt hle ?_⟩
  apply div_lt_self hn
  exact one_lt_pow₀ hr (by omega)

example : ∃ i, ∃ hi : i < (run exCfg 10 exOuts2).log.length,
    (run exCfg 10 exOuts2).log[i].failed = 1 ∧ (run exCfg 10 exOuts2).log[i].dtNominal = 2 ∧
    (run exCfg 10 exOuts2).log[i].dtUsed = 1 / 2 := by
  refine ⟨1, ?_, ?_⟩ <;> decide +kernel

/-! ## C13 -/

/-- C13 (a): with a constant stepsize (no adaptivity, no milestones) the extrinsic trap densities
advance with the stepsize just used. -/
theorem C13_constant_stepsize (cfg : Stepsize) (final : ℚ) (outs : List Outcome)
    (h1 : cfg.adaptive = none) (h2 : cfg.milestones = none) :
    ∀ r ∈ (run cfg final outs).log, r.dtExtrinsic = r.dtUsed := by
  intro r hr
  have := ((trace cfg final outs).recs r hr).adapted
  simp [afterSolve, h1, h2] at this
  exact this.symm

/-- C13 (b): in general they advance with the length chosen for the *next* step: it is the next
clock increment up to the clipping at `final_time`. -/
theorem C13_uses_next_step (cfg : Stepsize) (final : ℚ) (outs : List Outcome) (i : ℕ)
    (hi : i + 1 < (run cfg final outs).log.length) :
    (run cfg final outs).log[i + 1].dtNominal =
      min (run cfg final outs).log[i].dtExtrinsic (final - (run cfg final outs).log[i].t) := by
  rw [(linked i hi).nom_eq]
  unfold clipFinal
  split
  · rw [min_eq_right]; linarith
  · rw [min_eq_left]; linarith

/-- C13 (c): as long as `final_time` is not reached, the time accumulated by the extrinsic density
equation lags by the initial step and is ahead by the next one. -/
theorem C13_density_clock (cfg : Stepsize) (final : ℚ) (outs : List Outcome) (i : ℕ)
    (hi : i < (run cfg final outs).log.length)
    (hend : ∀ j, ∀ hj : j < i, (run cfg final outs).log[j].t +
      (run cfg final outs).log[j].dtExtrinsic ≤ final) :
    (((run cfg final outs).log.take (i + 1)).map (·.dtExtrinsic)).sum =
      (run cfg final outs).log[i].t - cfg.initialValue + (run cfg final outs).log[i].dtExtrinsic := by
  induction i with
  | zero =>
    have h := head_time hi
    rw [h.1, List.take_one, List.head?_eq_getElem?]
    simp [hi]
  | succ i ih =>
    rw [List.take_add_one, List.map_append, List.sum_append,
      ih (by omega) (fun j hj => hend j (by omega))]
    have hl := linked i hi
    have he := hend i (by omega)
    have h3 := C13_uses_next_step cfg final outs i hi
    rw [min_eq_left (by linarith)] at h3
    rw [hl.t_eq, h3]
    simp [hi]
    ring

/-- C13 (d): hence in an adaptive run whose step grows freely, the density equation uses `ratio`
times the stepsize of the step just solved. -/
theorem C13_adaptive_mismatch (cfg : Stepsize) (final : ℚ) (outs : List Outcome) (a : Adaptive)
    (h1 : cfg.adaptive = some a) (h2 : cfg.milestones = none) (h3 : a.maxStep = .none)
    (r : StepRec) (hr : r ∈ (run cfg final outs).log) (hn : r.nbIt < 5) :
    r.dtExtrinsic = r.dtUsed * a.ratio := by
  have := ((trace cfg final outs).recs r hr).adapted
  simp [afterSolve, h1, h2, h3, Stepsize.adapt, adaptAdaptive, Adaptive.onDivergence,
    Adaptive.onIterations, hn, Adaptive.cap, MaxStep.eval, clipMilestone, nextMilestone] at this
  exact this.symm

example : let cfg := Stepsize.new { initialValue := 1, changeRatio := some 2 }
    (run cfg 10 exOuts).log.map (fun r => (r.dtUsed, r.dtExtrinsic)) =
      [(1, 2), (2, 4), (4, 8), (3, 6)] := by decide +kernel

end Festim.Props
