import Verif.Proofs.Temperature

/-!
# C55, C56, C57, C68: temperature and time-dependent data during a run
-/

set_option linter.unusedSectionVars false

namespace Festim.Props

open Festim.Spec

section
variable {F : Type}

/-! ## The driver refines the clock -/

/-- **C55.** With its temperature and expressions, the driver goes through exactly the times of
`Verif.Model.Run` (so C01-C15 hold for it), or an exception has been raised. -/
theorem C55_driver (cfg : SimCfg F) (zero : F) (outs : List Outcome) (s : SimState F)
    (h : cfg.exec zero outs = .ok s) :
    s.run = Run.run cfg.dt cfg.final outs ∨ ∃ e, s.run.phase = .raised e := by
  unfold SimCfg.exec SimCfg.start at h
  cases hc : cfg.temp.create zero (fun _ => 0) with
  | error e => rw [hc] at h; cases h
  | ok temp =>
    rw [hc] at h
    simp only [Except.ok.injEq] at h
    subst h
    unfold Run.run
    have h0 : ∀ s0 : SimState F, ∀ r0 : RunState, (s0.run = r0 ∨ ∃ e, s0.run.phase = .raised e) →
        ((outs.foldl cfg.step s0).run = outs.foldl (Run.step cfg.dt cfg.final) r0 ∨
          ∃ e, (outs.foldl cfg.step s0).run.phase = .raised e) := by
      induction outs with
      | nil => intro s0 r0 h; exact h
      | cons o outs ih =>
        intro s0 r0 h
        rw [List.foldl_cons, List.foldl_cons]
        apply ih
        rcases h with rfl | ⟨e, he⟩
        · unfold SimCfg.step Run.step
          cases hp : s0.run.phase with
          | finished => exact Or.inl rfl
          | raised e => exact Or.inl rfl
          | solving nom failed =>
            simp only
            cases ha : afterSolve cfg.dt s0.run.value s0.run.t o with
            | error e => exact Or.inl rfl
            | ok v =>
              simp only
              by_cases hcv : o.converged
              · simp only [hcv, if_true]
                exact cfg.enter_run _
              · simp only [hcv]
                exact Or.inl rfl
        · right
          refine ⟨e, ?_⟩
          unfold SimCfg.step
          rw [he]
          exact he
    exact h0 _ _ (cfg.enter_run _)

/-- **C55.** Only a heat transfer problem solved in time can make a run fail: with the other
temperatures, the times are always those of `Verif.Model.Run`. -/
theorem C55_driver_exact (cfg : SimCfg F) (zero : F) (outs : List Outcome) (s : SimState F)
    (hT : ∀ ic subs solve, cfg.temp ≠ .heatTransient ic subs solve)
    (h : cfg.exec zero outs = .ok s) : s.run = Run.run cfg.dt cfg.final outs := by
  have hupd : ∀ (s : SimState F), (cfg.enter s).run = s.run := by
    intro s
    unfold SimCfg.enter
    cases hp : s.run.phase with
    | finished => rfl
    | raised e => rfl
    | solving nom failed =>
      cases ht : cfg.temp with
      | heatTransient ic subs solve => exact absurd ht (hT ic subs solve)
      | analytical e i => rfl
      | fromXDMF T => rfl
      | heatSteady f => rfl
  unfold SimCfg.exec SimCfg.start at h
  cases hc : cfg.temp.create zero (fun _ => 0) with
  | error e => rw [hc] at h; cases h
  | ok temp =>
    rw [hc] at h
    simp only [Except.ok.injEq] at h
    subst h
    unfold Run.run
    have h0 : ∀ s0 : SimState F, ∀ r0 : RunState, s0.run = r0 →
        (outs.foldl cfg.step s0).run = outs.foldl (Run.step cfg.dt cfg.final) r0 := by
      induction outs with
      | nil => intro s0 r0 h; exact h
      | cons o outs ih =>
        intro s0 r0 h
        rw [List.foldl_cons, List.foldl_cons]
        apply ih
        subst h
        unfold SimCfg.step Run.step
        cases hp : s0.run.phase with
        | finished => rfl
        | raised e => rfl
        | solving nom failed =>
          simp only
          cases ha : afterSolve cfg.dt s0.run.value s0.run.t o with
          | error e => rfl
          | ok v =>
            simp only
            by_cases hcv : o.converged
            · simp only [hcv, if_true]; exact hupd _
            · simp only [hcv]; rfl
    exact h0 _ _ (hupd _)

/-- The records of accepted steps have the times of the log. -/
theorem recs_times (cfg : SimCfg F) (zero : F) (outs : List Outcome) (s : SimState F)
    (h : cfg.exec zero outs = .ok s) : s.recs.map (·.t) = s.run.log.map (·.t) := by
  refine SimCfg.exec_inv (fun s => s.recs.map (·.t) = s.run.log.map (·.t)) ?_ ?_ ?_ ?_ outs s h
  · intro temp _
    simp only [SimCfg.enter_recs, SimCfg.enter_log]
    rw [Run.start, loopHead_log]
    rfl
  · intro s e nom failed hs _; exact hs
  · intro s v nom failed hs _; exact hs
  · intro s v nom failed o hs _
    simp only [SimCfg.enter_recs, SimCfg.enter_log, loopHead_log, List.map_append, hs]
    rfl

/-! ## C55: temperature and previous temperature -/

/-- **C55.** With a `Temperature` given by an expression, each accepted step is solved with the
temperature at its time, and with `T_n` equal to the temperature at the previous accepted time (`0`
for the first step), whatever the number of diverged attempts. -/
theorem C55_analytical (cfg : SimCfg F) (e : SExpr) (interp : ℚ → F) (zero : F)
    (outs : List Outcome) (s : SimState F) (hT : cfg.temp = .analytical e interp)
    (h : cfg.exec zero outs = .ok s) :
    s.recs.map (fun r => (r.t, r.temp.T, r.temp.Tn)) =
      pairedTemperatures interp 0 (s.run.log.map (·.t)) := by
  have key := SimCfg.exec_inv (cfg := cfg) (zero := zero)
    (fun s => s.recs.map (fun r => (r.t, r.temp.T, r.temp.Tn)) =
        pairedTemperatures interp 0 (s.run.log.map (·.t)) ∧
      ∀ nom failed, s.run.phase = .solving nom failed →
        s.temp = ⟨interp s.run.t, interp ((s.run.log.map (·.t)).getLastD 0)⟩)
  have hent : ∀ s : SimState F,
      s.recs.map (fun r => (r.t, r.temp.T, r.temp.Tn)) =
        pairedTemperatures interp 0 (s.run.log.map (·.t)) →
      s.temp.T = interp ((s.run.log.map (·.t)).getLastD 0) →
      ((cfg.enter s).recs.map (fun r => (r.t, r.temp.T, r.temp.Tn)) =
        pairedTemperatures interp 0 ((cfg.enter s).run.log.map (·.t)) ∧
      ∀ nom failed, (cfg.enter s).run.phase = .solving nom failed →
        (cfg.enter s).temp =
          ⟨interp (cfg.enter s).run.t, interp (((cfg.enter s).run.log.map (·.t)).getLastD 0)⟩) := by
    intro s h1 h2
    rw [SimCfg.enter_recs, SimCfg.enter_log]
    refine ⟨h1, fun nom failed hp => ?_⟩
    unfold SimCfg.enter at hp ⊢
    rw [hT] at hp ⊢
    cases hph : s.run.phase with
    | finished => rw [hph] at hp; simp only at hp; rw [hph] at hp; cases hp
    | raised e => rw [hph] at hp; simp only at hp; rw [hph] at hp; cases hp
    | solving n f =>
      simp only [TempModel.update, h2]
  refine (key ?_ ?_ ?_ ?_ outs s h).1
  · intro temp hc
    rw [hT] at hc
    simp only [TempModel.create, Except.ok.injEq] at hc
    subst hc
    apply hent
    · simp only [Run.start, loopHead_log]; rfl
    · simp only [Run.start, loopHead_log]; rfl
  · intro s e nom failed hs _
    exact ⟨hs.1, fun _ _ hp => by cases hp⟩
  · intro s v nom failed hs hp
    exact ⟨hs.1, fun _ _ _ => hs.2 nom failed hp⟩
  · intro s v nom failed o hs hp
    have ht := hs.2 nom failed hp
    apply hent
    · simp only [loopHead_log, List.map_append, List.map_cons, List.map_nil, hs.1,
        pairedTemperatures_append, ht]
    · simp only [loopHead_log, List.map_append, List.map_cons, List.map_nil, ht]
      simp

/-- **C55.** With a temperature read in a file or a stationary heat transfer problem, all the steps are
solved with the temperature of the initialisation, and `T_n = T`. -/
theorem C55_constant (cfg : SimCfg F) (zero : F) (outs : List Outcome) (s : SimState F)
    (hT : (∃ T, cfg.temp = .fromXDMF T) ∨ ∃ solve, cfg.temp = .heatSteady solve)
    (h : cfg.exec zero outs = .ok s) :
    ∃ T, cfg.temp.create zero (fun _ => 0) = .ok ⟨T, T⟩ ∧ ∀ r ∈ s.recs, r.temp = ⟨T, T⟩ := by
  have hcr : ∃ T, cfg.temp.create zero (fun _ => 0) = .ok ⟨T, T⟩ := by
    have h' := h
    unfold SimCfg.exec SimCfg.start at h'
    rcases hT with ⟨T, hT⟩ | ⟨solve, hT⟩
    · exact ⟨T, by rw [hT]; rfl⟩
    · rw [hT] at h' ⊢
      unfold TempModel.create at h' ⊢
      simp only at h' ⊢
      cases hs : solve (fun _ => 0) zero with
      | error e => rw [hs] at h'; cases h'
      | ok T => exact ⟨T, by simp⟩
  obtain ⟨T, hc⟩ := hcr
  refine ⟨T, hc, ?_⟩
  have hent : ∀ s : SimState F, (cfg.enter s).temp = s.temp := by
    intro s
    unfold SimCfg.enter
    rcases hT with ⟨T, hT⟩ | ⟨solve, hT⟩ <;> rw [hT] <;> cases s.run.phase <;> rfl
  refine (SimCfg.exec_inv (fun s => s.temp = ⟨T, T⟩ ∧ ∀ r ∈ s.recs, r.temp = ⟨T, T⟩)
    ?_ ?_ ?_ ?_ outs s h).2
  · intro temp hc'
    rw [hc] at hc'
    simp only [Except.ok.injEq] at hc'
    subst hc'
    rw [hent, SimCfg.enter_recs]
    exact ⟨rfl, fun r hr => by cases hr⟩
  · intro s e nom failed hs _; exact hs
  · intro s v nom failed hs _; exact hs
  · intro s v nom failed o hs _
    rw [hent, SimCfg.enter_recs]
    refine ⟨hs.1, fun r hr => ?_⟩
    rcases List.mem_append.1 hr with hr | hr
    · exact hs.2 r hr
    · rw [List.mem_singleton.1 hr]; exact hs.1

/-- The initial temperature of a transient heat transfer problem. -/
def heatInitial (zero : F) : HeatIC F → Option F
  | .missing => none
  | .expr T => some T
  | .xdmf T => some T
  | .otherString => some zero

/-- **C55.** With a transient heat transfer problem whose data are all registered (C57_heat_registry),
the temperatures of the accepted steps are an implicit Euler scheme from the initial condition: each
one is the solution with the data at the time of the step, the increment of the clock and the previous
temperature.  When hydrogen transport is solved, `T_n` is already the new temperature. -/
theorem C55_heat (cfg : SimCfg F) (ic : HeatIC F) (subs : List ℕ)
    (solve : (ℕ → ℚ) → ℚ → F → F → Except PyErr F) (zero : F)
    (outs : List Outcome) (s : SimState F) (hT : cfg.temp = .heatTransient ic subs solve)
    (hdata : ∀ env env' : ℕ → ℚ, (∀ i ∈ subs, env i = env' i) → solve env = solve env')
    (h : cfg.exec zero outs = .ok s) :
    ∃ T0, heatInitial zero ic = some T0 ∧
      EulerChain (fun t => solve fun _ => t) T0 zero
        (List.zipWith (fun (l : StepRec) (r : SimRec F) => (l.dtNominal, r.t, r.temp.T))
          s.run.log s.recs) ∧
      ∀ r ∈ s.recs, r.temp.Tn = r.temp.T := by
  have hcr : ∃ T0, heatInitial zero ic = some T0 ∧
      cfg.temp.create zero (fun _ => 0) = .ok ⟨zero, T0⟩ := by
    have h' := h
    unfold SimCfg.exec SimCfg.start at h'
    rw [hT] at h' ⊢
    cases ic with
    | missing => cases h'
    | expr T => exact ⟨T, rfl, rfl⟩
    | xdmf T => exact ⟨T, rfl, rfl⟩
    | otherString => exact ⟨zero, rfl, rfl⟩
  obtain ⟨T0, hT0, hc⟩ := hcr
  refine ⟨T0, hT0, ?_⟩
  let L : SimState F → List (ℚ × ℚ × F) := fun s =>
    List.zipWith (fun (l : StepRec) (r : SimRec F) => (l.dtNominal, r.t, r.temp.T)) s.run.log s.recs
  -- what holds before `enter`
  let Pre : SimState F → Prop := fun s =>
    s.run.log.length = s.recs.length ∧ EulerChain (fun t => solve fun _ => t) T0 zero (L s) ∧
    (∀ r ∈ s.recs, r.temp.Tn = r.temp.T) ∧
    (s.recs = [] → s.temp = ⟨zero, T0⟩) ∧
    (∀ T', ((L s).map fun x => x.2.2).getLast? = some T' → s.temp = ⟨T', T'⟩)
  let Inv : SimState F → Prop := fun s =>
    s.run.log.length = s.recs.length ∧ EulerChain (fun t => solve fun _ => t) T0 zero (L s) ∧
    (∀ r ∈ s.recs, r.temp.Tn = r.temp.T) ∧
    ∀ nom failed, s.run.phase = .solving nom failed → s.temp.Tn = s.temp.T ∧
      EulerChain (fun t => solve fun _ => t) T0 zero (L s ++ [(nom, s.run.t, s.temp.T)])
  have hent : ∀ s : SimState F, (∀ nom failed, s.run.phase = .solving nom failed →
      s.run.value = nom) → Pre s → Inv (cfg.enter s) := by
    intro s hv ⟨h1, h2, h3, h4, h5⟩
    have hL : L (cfg.enter s) = L s := by
      simp only [L, SimCfg.enter_recs, SimCfg.enter_log]
    simp only [Inv]
    rw [SimCfg.enter_recs, SimCfg.enter_log, hL]
    refine ⟨h1, h2, h3, fun nom failed hp => ?_⟩
    unfold SimCfg.enter at hp ⊢
    rw [hT] at hp ⊢
    cases hph : s.run.phase with
    | finished => rw [hph] at hp; simp only at hp; rw [hph] at hp; cases hp
    | raised e => rw [hph] at hp; simp only at hp; rw [hph] at hp; cases hp
    | solving n f =>
      rw [hph] at hp
      simp only [TempModel.update] at hp ⊢
      have he : solve (updateExpressions subs s.run.t s.env) = solve fun _ => s.run.t := by
        apply hdata
        intro i hi
        rw [updateExpressions_apply, if_pos hi]
      rw [he] at hp ⊢
      cases hs : solve (fun _ => s.run.t) s.run.value s.temp.Tn s.temp.T with
      | error e => rw [hs] at hp; cases hp
      | ok T =>
        rw [hs] at hp
        simp only at hp ⊢
        have hn : s.run.value = nom := hv nom failed hp
        refine ⟨trivial, h2.append (fun hl => ?_) (fun T' hT' => ?_)⟩
        · have hr : s.recs = [] := by
            have : (L s).length = 0 := by rw [hl]; rfl
            simp only [L, List.length_zipWith, h1, min_self] at this
            exact List.length_eq_zero_iff.1 this
          rw [h4 hr, hn] at hs
          exact hs
        · rw [h5 T' hT', hn] at hs
          exact hs
  have key := SimCfg.exec_inv (cfg := cfg) (zero := zero) Inv ?_ ?_ ?_ ?_ outs s h
  · exact ⟨key.2.1, key.2.2.1⟩
  · intro temp hc'
    rw [hc] at hc'
    simp only [Except.ok.injEq] at hc'
    subst hc'
    apply hent
    · intro nom failed hp
      simp only [Run.start, loopHead] at hp ⊢
      split at hp
      · rename_i hg
        simp only [Phase.solving.injEq] at hp
        simp only [hg, if_true]
        exact hp.1
      · cases hp
    · refine ⟨?_, ?_, ?_, ?_, ?_⟩
      · simp only [Run.start, loopHead_log]; rfl
      · simp only [L, Run.start, loopHead_log]; exact .nil _ _
      · intro r hr; cases hr
      · intro _; rfl
      · intro T' hT'
        simp [L, Run.start, loopHead_log] at hT'
  · intro s e nom failed hs _
    exact ⟨hs.1, hs.2.1, hs.2.2.1, fun _ _ hp => by cases hp⟩
  · intro s v nom failed hs hp
    refine ⟨hs.1, hs.2.1, hs.2.2.1, fun n f hp' => ?_⟩
    simp only [Phase.solving.injEq] at hp'
    have := hs.2.2.2 nom failed hp
    rw [← hp'.1]
    exact this
  · intro s v nom failed o hs hp
    obtain ⟨ht, hch⟩ := hs.2.2.2 nom failed hp
    have hlast : List.zipWith (fun (l : StepRec) (r : SimRec F) => (l.dtNominal, r.t, r.temp.T))
        (s.run.log ++ [({ t := s.run.t, dtNominal := nom, dtUsed := s.run.value,
                          dtExtrinsic := v, nbIt := o.nbIt, failed := failed } : StepRec)])
        (s.recs ++ [⟨s.run.t, s.temp, s.env⟩]) = L s ++ [(nom, s.run.t, s.temp.T)] := by
      rw [List.zipWith_append hs.1]
      rfl
    apply hent
    · intro n f hp'
      simp only [loopHead] at hp' ⊢
      split at hp'
      · rename_i hg
        simp only [Phase.solving.injEq] at hp'
        simp only [hg, if_true]
        exact hp'.1
      · cases hp'
    · refine ⟨?_, ?_, ?_, ?_, ?_⟩
      · simp only [loopHead_log, List.length_append, hs.1, List.length_cons, List.length_nil]
      · simp only [L, loopHead_log]
        rw [hlast]; exact hch
      · intro r hr
        rcases List.mem_append.1 hr with hr | hr
        · exact hs.2.2.1 r hr
        · rw [List.mem_singleton.1 hr]; exact ht
      · intro hr
        simp at hr
      · intro T' hT'
        simp only [L, loopHead_log] at hT'
        rw [hlast] at hT'
        simp only [List.map_append, List.map_cons, List.map_nil, List.getLast?_append,
          List.getLast?_singleton, Option.some_or, Option.some.injEq] at hT'
        subst hT'
        cases hte : s.temp with
        | mk a b => rw [hte] at ht; simp only at ht; rw [ht]

/-! ## C57: time-dependent data -/

/-- The expressions updated by the temperature itself. -/
def heatSubs : TempModel F → List ℕ
  | .heatTransient _ subs _ => subs
  | _ => []

/-- **C57.** During every Newton solve (accepted or not, whatever the number of retries), each
registered expression is evaluated at the time of the step, and each expression which is registered
nowhere is evaluated at `t = 0`. -/
theorem C57_run (cfg : SimCfg F) (zero : F) (outs : List Outcome) (s : SimState F)
    (h : cfg.exec zero outs = .ok s) :
    (∀ r ∈ s.recs, (∀ i ∈ cfg.registry, r.env i = r.t) ∧
      ∀ i, i ∉ cfg.registry → i ∉ heatSubs cfg.temp → r.env i = 0) ∧
    ∀ nom failed, s.run.phase = .solving nom failed →
      (∀ i ∈ cfg.registry, s.env i = s.run.t) ∧
      ∀ i, i ∉ cfg.registry → i ∉ heatSubs cfg.temp → s.env i = 0 := by
  have hent : ∀ s : SimState F,
      (∀ i, i ∉ cfg.registry → i ∉ heatSubs cfg.temp → s.env i = 0) →
      (∀ i, i ∉ cfg.registry → i ∉ heatSubs cfg.temp → (cfg.enter s).env i = 0) ∧
      ∀ nom failed, (cfg.enter s).run.phase = .solving nom failed →
        ∀ i ∈ cfg.registry, (cfg.enter s).env i = (cfg.enter s).run.t := by
    intro s h0
    unfold SimCfg.enter
    cases hph : s.run.phase with
    | finished => exact ⟨h0, fun _ _ hp => by rw [hph] at hp; cases hp⟩
    | raised e => exact ⟨h0, fun _ _ hp => by rw [hph] at hp; cases hp⟩
    | solving n f =>
      have main : ∀ env : ℕ → ℚ,
          (∀ i, i ∉ cfg.registry → i ∉ heatSubs cfg.temp → env i = 0) →
          (∀ i, i ∉ cfg.registry → i ∉ heatSubs cfg.temp →
            updateExpressions cfg.registry s.run.t env i = 0) ∧
          ∀ i ∈ cfg.registry, updateExpressions cfg.registry s.run.t env i = s.run.t := by
        intro env henv
        refine ⟨fun i hi hi' => ?_, fun i hi => ?_⟩
        · rw [updateExpressions_apply, if_neg hi]; exact henv i hi hi'
        · rw [updateExpressions_apply, if_pos hi]
      cases ht : cfg.temp with
      | analytical e interp =>
        rw [ht] at main h0
        exact ⟨(main _ h0).1, fun _ _ _ => (main _ h0).2⟩
      | fromXDMF T =>
        rw [ht] at main h0
        exact ⟨(main _ h0).1, fun _ _ _ => (main _ h0).2⟩
      | heatSteady solve =>
        rw [ht] at main h0
        exact ⟨(main _ h0).1, fun _ _ _ => (main _ h0).2⟩
      | heatTransient ic subs solve =>
        rw [ht] at main h0
        simp only [TempModel.update]
        cases solve (updateExpressions subs s.run.t s.env) s.run.value s.temp.Tn s.temp.T with
        | error e => exact ⟨h0, fun _ _ hp => by cases hp⟩
        | ok T =>
          have h1 : ∀ i, i ∉ cfg.registry → i ∉ heatSubs (.heatTransient ic subs solve) →
              updateExpressions subs s.run.t s.env i = 0 := by
            intro i hi hi'
            have hi2 : i ∉ subs := hi'
            rw [updateExpressions_apply, if_neg hi2]
            exact h0 i hi hi'
          exact ⟨(main _ h1).1, fun _ _ _ => (main _ h1).2⟩
  have key := SimCfg.exec_inv (cfg := cfg) (zero := zero)
    (fun s => (∀ r ∈ s.recs, (∀ i ∈ cfg.registry, r.env i = r.t) ∧
        ∀ i, i ∉ cfg.registry → i ∉ heatSubs cfg.temp → r.env i = 0) ∧
      (∀ i, i ∉ cfg.registry → i ∉ heatSubs cfg.temp → s.env i = 0) ∧
      ∀ nom failed, s.run.phase = .solving nom failed → ∀ i ∈ cfg.registry, s.env i = s.run.t)
    ?_ ?_ ?_ ?_ outs s h
  · exact ⟨key.1, fun nom failed hp => ⟨key.2.2 nom failed hp, key.2.1⟩⟩
  · intro temp _
    rw [SimCfg.enter_recs]
    exact ⟨fun r hr => absurd hr List.not_mem_nil, hent _ fun _ _ _ => rfl⟩
  · intro s e nom failed hs _
    exact ⟨hs.1, hs.2.1, fun _ _ hp => by cases hp⟩
  · intro s v nom failed hs hp
    exact ⟨hs.1, hs.2.1, fun _ _ _ => hs.2.2 nom failed hp⟩
  · intro s v nom failed o hs hp
    rw [SimCfg.enter_recs]
    refine ⟨fun r hr => ?_, hent _ hs.2.1⟩
    rcases List.mem_append.1 hr with hr | hr
    · exact hs.1 r hr
    · rw [List.mem_singleton.1 hr]
      exact ⟨hs.2.2 nom failed hp, hs.2.1⟩

/-! ## C68: temperature at initialisation -/

/-- **C68.** After the initialisation, the temperature that is used to compute solubilities and to
convert initial concentrations is the initial one, and equals `T_n`, for all kinds of temperature
except a transient heat transfer problem: there `T` is still the zero function. -/
theorem C68_initial_temperature (m : TempModel F) (zero : F) (env : ℕ → ℚ) (s : TempState F)
    (h : m.create zero env = .ok s) :
    (match m with
      | .analytical _ interp => s.T = interp 0 ∧ s.Tn = interp 0
      | .fromXDMF T => s.T = T ∧ s.Tn = T
      | .heatSteady solve => solve env zero = .ok s.T ∧ s.Tn = s.T
      | .heatTransient ic _ _ => s.T = zero ∧ heatInitial zero ic = some s.Tn) := by
  cases m with
  | analytical e interp =>
    simp only [TempModel.create, Except.ok.injEq] at h
    subst h; exact ⟨rfl, rfl⟩
  | fromXDMF T =>
    simp only [TempModel.create, Except.ok.injEq] at h
    subst h; exact ⟨rfl, rfl⟩
  | heatSteady solve =>
    simp only [TempModel.create] at h ⊢
    cases hs : solve env zero with
    | error e => rw [hs] at h; cases h
    | ok T =>
      rw [hs] at h
      simp only [Except.ok.injEq] at h
      subst h; exact ⟨rfl, rfl⟩
  | heatTransient ic subs solve =>
    cases ic <;> simp only [TempModel.create, Except.ok.injEq] at h
    · cases h
    all_goals subst h; exact ⟨rfl, rfl⟩

/-- **C68.** A transient heat transfer problem without initial condition is refused. -/
theorem C68_missing_condition (zero : F) (env : ℕ → ℚ) (subs : List ℕ)
    (solve : (ℕ → ℚ) → ℚ → F → F → Except PyErr F) (ic : HeatIC F) :
    (∃ s, (TempModel.heatTransient ic subs solve).create zero env = .ok s) ↔ ic ≠ .missing := by
  cases ic <;> simp [TempModel.create]

/-! ## C56: steady temperatures -/

theorem not_mem_append {c : Char} {a b : String} :
    c ∉ (a ++ b).toList ↔ c ∉ a.toList ∧ c ∉ b.toList := by
  simp

theorem steady_eval (I : Interp) (e : SExpr) (h : 't' ∉ e.ccode.toList) :
    TimeIndependent I e := by
  intro σ σ' hσ
  induction e with
  | num s v => rfl
  | sym n =>
    apply hσ
    intro hn
    subst hn
    exact h (by decide)
  | add a b iha ihb =>
    simp only [SExpr.ccode, not_mem_append] at h
    simp only [SExpr.eval, iha h.1.1, ihb h.2]
  | mul a b iha ihb =>
    simp only [SExpr.ccode, not_mem_append] at h
    simp only [SExpr.eval, iha h.1.1.1.2, ihb h.1.2]
  | pow a b iha ihb =>
    simp only [SExpr.ccode, not_mem_append] at h
    simp only [SExpr.eval, iha h.1.1.1.2, ihb h.1.2]
  | fn n a iha =>
    simp only [SExpr.ccode, not_mem_append] at h
    simp only [SExpr.eval, iha h.1.2]
  | fn2 n a b iha ihb =>
    simp only [SExpr.ccode, not_mem_append] at h
    simp only [SExpr.eval, iha h.1.1.1.2, ihb h.1.2]
  | ite op a b x y iha ihb ihx ihy =>
    simp only [SExpr.ccode, not_mem_append] at h
    simp only [SExpr.eval, iha h.1.1.1.1.1.1.1.2, ihb h.1.1.1.1.1.2, ihx h.1.1.1.2, ihy h.1.2]

/-- **C56.** A sympy expression which `is_steady_state` accepts does not depend on time. -/
theorem C56_steady_sound (I : Interp) (e : SExpr) (h : e.steady = true) : TimeIndependent I e := by
  apply steady_eval
  simpa [SExpr.steady] using h

theorem symbols_ccode (e : SExpr) (h : "t" ∈ symbols e) : 't' ∈ e.ccode.toList := by
  induction e with
  | num s v => cases h
  | sym n =>
    have := List.mem_singleton.1 h
    subst this
    decide
  | add a b iha ihb =>
    rcases List.mem_append.1 h with h | h
    · simp [SExpr.ccode, iha h]
    · simp [SExpr.ccode, ihb h]
  | mul a b iha ihb =>
    rcases List.mem_append.1 h with h | h
    · simp [SExpr.ccode, iha h]
    · simp [SExpr.ccode, ihb h]
  | pow a b iha ihb =>
    rcases List.mem_append.1 h with h | h
    · simp [SExpr.ccode, iha h]
    · simp [SExpr.ccode, ihb h]
  | fn n a iha => simp [SExpr.ccode, iha h]
  | fn2 n a b iha ihb =>
    rcases List.mem_append.1 h with h | h
    · simp [SExpr.ccode, iha h]
    · simp [SExpr.ccode, ihb h]
  | ite op a b x y iha ihb ihx ihy =>
    rcases List.mem_append.1 h with h | h
    · rcases List.mem_append.1 h with h | h
      · rcases List.mem_append.1 h with h | h
        · simp [SExpr.ccode, iha h]
        · simp [SExpr.ccode, ihb h]
      · simp [SExpr.ccode, ihx h]
    · simp [SExpr.ccode, ihy h]

/-- **C56.** Conversely an expression in which the symbol `t` is written is never flagged as steady. -/
theorem C56_symbol_detected (e : SExpr) (h : "t" ∈ symbols e) : e.steady = false := by
  simpa [SExpr.steady] using symbols_ccode e h

/-- The pieces of text written in an expression: numbers, symbols, functions and comparisons. -/
def texts : SExpr → List String
  | .num s _ => [s]
  | .sym n => [n]
  | .add a b | .mul a b | .pow a b => texts a ++ texts b
  | .fn n a => n :: texts a
  | .fn2 n a b => n :: (texts a ++ texts b)
  | .ite op a b x y => op :: (texts a ++ texts b ++ texts x ++ texts y)

/-- **C56.** Exactly: an expression is flagged as steady when the letter `t` is in none of the pieces of text it is written with. -/
theorem C56_exact (e : SExpr) : e.steady = true ↔ ∀ s ∈ texts e, 't' ∉ s.toList := by
  have : 't' ∉ e.ccode.toList ↔ ∀ s ∈ texts e, 't' ∉ s.toList := by
    induction e with
    | num => simp [SExpr.ccode, texts]
    | sym => simp [SExpr.ccode, texts]
    | add a b iha ihb => simp [SExpr.ccode, texts, iha, ihb, or_imp, forall_and]
    | mul a b iha ihb => simp [SExpr.ccode, texts, iha, ihb, or_imp, forall_and]
    | pow a b iha ihb => simp [SExpr.ccode, texts, iha, ihb, or_imp, forall_and]
    | fn n a iha => simp [SExpr.ccode, texts, iha]
    | fn2 n a b iha ihb => simp [SExpr.ccode, texts, iha, ihb, or_imp, forall_and]
    | ite op a b x y iha ihb ihx ihy =>
      simp [SExpr.ccode, texts, iha, ihb, ihx, ihy, or_imp, forall_and]
      tauto
  simpa [SExpr.steady] using this

example : (SExpr.add (.num "300" 300) (.mul (.num "2" 2) (.sym "x[0]"))).steady = true ∧
    (SExpr.add (.num "300" 300) (.mul (.num "2" 2) (.sym "x[0]"))).eval ⟨fun _ x => x, fun _ x _ => x, fun x _ => x, fun _ _ _ => true⟩
      (fun n => if n = "x[0]" then 3 else 0) = 306 := by decide +kernel

/-- **C56.** The test is not complete: an expression of space only whose name of function contains the
letter `t`, such as a square root, is not flagged as steady. -/
theorem C56_not_complete :
    ∃ e : SExpr, (∀ I, TimeIndependent I e) ∧ e.steady = false := by
  refine ⟨.fn "sqrt" (.sym "x[0]"), fun I σ σ' h => ?_, by decide +kernel⟩
  simp only [SExpr.eval, h "x[0]" (by decide)]

/-- **C56.** In any run, if `is_steady_state` holds then every step is solved with the temperature of the
initialisation.  An analytical temperature is its expression interpolated at points `X`. -/
theorem C56_run {X : Type} (I : Interp) (at_ : ℚ → X → String → ℚ)
    (hat : ∀ t t' x n, n ≠ "t" → at_ t x n = at_ t' x n)
    (cfg : SimCfg (X → ℚ)) (zero : X → ℚ) (outs : List Outcome) (s : SimState (X → ℚ))
    (hform : ∀ e interp, cfg.temp = .analytical e interp →
      interp = fun t x => e.eval I (at_ t x))
    (hsteady : cfg.temp.isSteadyState = true) (h : cfg.exec zero outs = .ok s) :
    ∃ T, cfg.temp.create zero (fun _ => 0) = .ok ⟨T, T⟩ ∧ ∀ r ∈ s.recs, r.temp = ⟨T, T⟩ := by
  cases ht : cfg.temp with
  | fromXDMF T => rw [← ht]; exact C55_constant cfg zero outs s (Or.inl ⟨T, ht⟩) h
  | heatSteady f => rw [← ht]; exact C55_constant cfg zero outs s (Or.inr ⟨f, ht⟩) h
  | heatTransient ic subs f => rw [ht] at hsteady; cases hsteady
  | analytical e interp =>
    have hi := hform e interp ht
    have hind : ∀ t, interp t = interp 0 := by
      intro t
      rw [hi]
      funext x
      rw [ht] at hsteady
      exact C56_steady_sound I e hsteady _ _ fun n hn => hat t 0 x n hn
    refine ⟨interp 0, rfl, fun r hr => ?_⟩
    have hp := C55_analytical cfg e interp zero outs s ht h
    have hall : ∀ (ts : List ℚ) (p : ℚ) q, q ∈ pairedTemperatures interp p ts →
        q.2.1 = interp 0 ∧ q.2.2 = interp 0 := by
      intro ts
      induction ts with
      | nil => intro p q hq; cases hq
      | cons a ts ih =>
        intro p q hq
        rcases List.mem_cons.1 hq with rfl | hq
        · exact ⟨hind a, hind p⟩
        · exact ih a q hq
    have hm : (r.t, r.temp.T, r.temp.Tn) ∈ pairedTemperatures interp 0 (s.run.log.map (·.t)) := by
      rw [← hp]; exact List.mem_map.2 ⟨r, hr, rfl⟩
    have := hall _ _ _ hm
    cases hte : r.temp with
    | mk a b => rw [hte] at this; simp only at this; rw [this.1, this.2]

end

/-! ## Concrete cases -/

/-- Three accepted steps, one of them after a diverged solve; two registered expressions. -/
def sampleCfg (temp : TempModel ℚ) : SimCfg ℚ where
  dt := { initialValue := 1, adaptive := none, milestones := none }
  final := 3
  registry := [4, 7]
  temp := temp

def sampleOuts : List Outcome := [⟨3, true⟩, ⟨30, false⟩, ⟨3, true⟩, ⟨2, true⟩]

/-- The hypotheses of C55_analytical are met by a run of three steps. -/
example :
    ((sampleCfg (.analytical (.add (.num "300" 300) (.sym "t")) fun t => 300 + t)).exec 0
      sampleOuts).toOption.map (fun s => s.recs.map fun r => (r.t, r.temp.T, r.temp.Tn)) =
    some [(1, 301, 300), (2, 302, 301), (3, 303, 302)] := by
  decide +kernel

example :
    ((sampleCfg (.analytical (.add (.num "300" 300) (.sym "t")) fun t => 300 + t)).exec 0
      sampleOuts).toOption.map (fun s => s.recs.map fun r => (r.t, r.env 4, r.env 5)) =
    some [(1, 1, 0), (2, 2, 0), (3, 3, 0)] := by
  decide +kernel

/-- A heat problem `T = (T_n + dt*q)`, with the source `q` equal to the time (expression 9). -/
def sampleHeat : TempModel ℚ :=
  .heatTransient (.expr 500) [9] fun env dt Tn _ => .ok (Tn + dt * env 9)

example :
    ((sampleCfg sampleHeat).exec 0 sampleOuts).toOption.map (fun s => s.recs.map fun r =>
        (r.t, r.temp.T, r.temp.Tn, r.env 9)) =
    some [(1, 501, 501, 1), (2, 503, 503, 2), (3, 506, 506, 3)] := by
  decide +kernel

/-- Its data are registered, as C55_heat asks. -/
example (env env' : ℕ → ℚ) (h : ∀ i ∈ [9], env i = env' i) :
    (fun (dt Tn _g : ℚ) => (Except.ok (Tn + dt * env 9) : Except PyErr ℚ)) =
      fun dt Tn _ => .ok (Tn + dt * env' 9) := by
  rw [h 9 (by simp)]

/-- A heat problem that fails at the second step stops the run. -/
example :
    ((sampleCfg (.heatTransient (.expr 500) [9] fun env _ Tn _ =>
        if env 9 = 2 then .error (.runtimeError "newton") else .ok Tn)).exec 0
      sampleOuts).toOption.map (fun s => s.run.phase) =
    some (.raised (.runtimeError "newton")) := by
  decide +kernel

example : (SExpr.add (.num "300" 300) (.mul (.sym "x[0]") (.num "2" 2))).steady = true := by
  decide +kernel

example : (SExpr.add (.num "300" 300) (.sym "t")).steady = false := by decide +kernel

end Festim.Props
