import Verif.Model.Reinit
import Verif.Props.Registry

/-!
# C99: initialising again
-/

set_option linter.unusedSectionVars false

namespace Festim.Spec

open Festim.Weak

section
variable {Ω Γ : Type} {d : ℕ}

/-- A flux condition whose user-defined parameters are taken at `τ`, everything else at `0`. -/
def fluxAt (τ : ℚ) : TFlux Γ → Flux Γ
  | .custom prms f => .custom (f (prms.map (·.now fun _ => τ)))
  | f => f.now fun _ => 0

/-- The same for all conditions on the mobile concentration. -/
def mobBCAt (τ : ℚ) : TMobBC Γ → MobBC Γ
  | .flux f s => .flux (fluxAt τ f) s
  | .sk b vs => .sk (b.now fun _ => τ) vs

/-- The same for the conditions which impose a value. -/
def dirichletAt (τ : ℚ) : TDirichlet Γ → Dirichlet Γ
  | .custom prms f => .custom (f (prms.map (·.now fun _ => τ)))
  | b => b.now fun _ => 0

/-- The hydrogen equations with sources, trap densities and user-defined parameters at `τ`, and all other
conditions at `0`. -/
noncomputable def mixedForm (P : TProblem Ω Γ d) (τ : ℚ) (v : Fld Ω Γ d) (vt : List (Fld Ω Γ d)) :
    Except PyErr (Form Ω Γ) :=
  (P.now fun _ => τ).form (P.bcs.map (mobBCAt τ)) v vt

/-- Objects made in constructors. -/
def fluxKept : TFlux Γ → List ℕ
  | .custom prms _ => prms.flatMap TVal.ids
  | _ => []

def mobBCKept : TMobBC Γ → List ℕ
  | .flux f _ => fluxKept f
  | .sk b _ => b.prms.flatMap TVal.ids

def dirichletKept : TDirichlet Γ → List ℕ
  | .custom prms _ => prms.flatMap TVal.ids
  | _ => []

/-- The other objects. -/
def fluxFresh : TFlux Γ → List ℕ
  | .custom _ _ => []
  | f => f.subs

def mobBCFresh : TMobBC Γ → List ℕ
  | .flux f _ => fluxFresh f
  | .sk _ _ => []

def dirichletFresh : TDirichlet Γ → List ℕ
  | .custom _ _ => []
  | b => b.subs

/-- Each expression object belongs to one kind. -/
def Separate (P : TProblem Ω Γ d) : Prop :=
  ∀ i, i ∈ P.sources.flatMap TSrc.subs ++ P.traps.flatMap TTrap.subs ++ P.bcs.flatMap mobBCKept ++
    P.dirichlet.flatMap dirichletKept →
    i ∉ P.bcs.flatMap mobBCFresh ++ P.dirichlet.flatMap dirichletFresh

end

end Festim.Spec

namespace Festim.Props

open Festim.Weak Festim.Spec

section
variable {Ω Γ : Type} {d : ℕ}

theorem fluxAt_eq (x : TFlux Γ) (τ : ℚ) (env : ℕ → ℚ) (h1 : ∀ i ∈ fluxKept x, env i = τ)
    (h2 : ∀ i ∈ x.made, env i = 0) : x.now env = fluxAt τ x := by
  cases x with
  | custom prms f =>
    simp only [TFlux.now, fluxAt]
    rw [TVal.map_now_congr prms env (fun _ => τ) h1]
  | value f => exact TFlux.now_congr _ env _ h2
  | recomb K E o => exact TFlux.now_congr _ env _ h2
  | dissoc K E P => exact TFlux.now_congr _ env _ h2
  | mass a b => exact TFlux.now_congr _ env _ h2
  | convective a b => exact TFlux.now_congr _ env _ h2

theorem mobBCAt_eq (x : TMobBC Γ) (τ : ℚ) (env : ℕ → ℚ) (h1 : ∀ i ∈ mobBCKept x, env i = τ)
    (h2 : ∀ i ∈ x.made, env i = 0) : x.now env = mobBCAt τ x := by
  cases x with
  | flux f s => simp only [TMobBC.now, mobBCAt]; rw [fluxAt_eq f τ env h1 h2]
  | sk b vs => exact TMobBC.now_congr (.sk b vs) env (fun _ => τ) h1

theorem dirichletAt_eq (x : TDirichlet Γ) (τ : ℚ) (env : ℕ → ℚ) (h1 : ∀ i ∈ dirichletKept x, env i = τ)
    (h2 : ∀ i ∈ x.made, env i = 0) : x.now env = dirichletAt τ x := by
  cases x with
  | custom prms f =>
    simp only [TDirichlet.now, dirichletAt]
    rw [TVal.map_now_congr prms env (fun _ => τ) h1]
  | value f => exact TDirichlet.now_congr _ env _ h2
  | sieverts S E p => exact TDirichlet.now_congr _ env _ h2
  | henrys S E p => exact TDirichlet.now_congr _ env _ h2
  | implantation phi R D E Kr EKr Kd EKd P => exact TDirichlet.now_congr _ env _ h2

theorem fluxKept_subs (x : TFlux Γ) : ∀ i ∈ fluxKept x, i ∈ x.subs := by
  intro i hi
  cases x <;> first | exact hi | cases hi

theorem mobBCKept_subs (x : TMobBC Γ) : ∀ i ∈ mobBCKept x, i ∈ x.subs := by
  intro i hi
  cases x with
  | flux f s => exact fluxKept_subs f i hi
  | sk b vs => exact hi

theorem dirichletKept_subs (x : TDirichlet Γ) : ∀ i ∈ dirichletKept x, i ∈ x.subs := by
  intro i hi
  cases x <;> first | exact hi | cases hi

theorem mobBCFresh_eq (x : TMobBC Γ) : x.made = mobBCFresh x := by
  cases x with
  | flux f s => cases f <;> rfl
  | sk b vs => rfl

theorem dirichletFresh_eq (x : TDirichlet Γ) : x.made = dirichletFresh x := by
  cases x <;> rfl

theorem made_eq (P : TProblem Ω Γ d) :
    P.made = P.bcs.flatMap mobBCFresh ++ P.dirichlet.flatMap dirichletFresh := by
  unfold TProblem.made
  rw [show (TMobBC.made : TMobBC Γ → List ℕ) = mobBCFresh from funext mobBCFresh_eq,
    show (TDirichlet.made : TDirichlet Γ → List ℕ) = dirichletFresh from funext dirichletFresh_eq]

/-- After `initialise` on objects whose expressions were left at time `τ`, the equations and the imposed
values are the mixed ones. -/
theorem reinit_mixed (P : TProblem Ω Γ d) (hsep : Separate P) (τ : ℚ) (env : ℕ → ℚ)
    (henv : ∀ i ∈ P.expressions, env i = τ) :
    (∀ v vt, P.form (P.reinit env) v vt = mixedForm P τ v vt) ∧
    P.dirichlet.map (·.now (P.reinit env)) = P.dirichlet.map (dirichletAt τ) := by
  have hkeep : ∀ i, i ∈ P.expressions → i ∉ P.made → P.reinit env i = τ := by
    intro i hi hn
    unfold TProblem.reinit
    rw [if_neg hn]
    exact henv i hi
  have hzero : ∀ i ∈ P.made, P.reinit env i = 0 := by
    intro i hi
    unfold TProblem.reinit
    rw [if_pos hi]
  generalize P.reinit env = env' at hkeep hzero ⊢
  unfold TProblem.expressions at hkeep
  unfold Separate at hsep
  rw [← made_eq] at hsep
  simp only [List.mem_append] at hkeep hsep
  refine ⟨fun v vt => ?_, ?_⟩
  · have hsrc : P.sources.map (·.now env') = P.sources.map (·.now fun _ => τ) :=
      List.map_congr_left fun x hx => x.now_congr env' _ fun i hi => by
        have hm : i ∈ P.sources.flatMap TSrc.subs := List.mem_flatMap.2 ⟨x, hx, hi⟩
        exact hkeep i (.inl (.inl (.inl hm))) (hsep i (.inl (.inl (.inl hm))))
    have hbc : P.bcs.map (·.now env') = P.bcs.map (mobBCAt τ) :=
      List.map_congr_left fun x hx => mobBCAt_eq x τ env'
        (fun i hi => hkeep i (.inl (.inl (.inr (List.mem_flatMap.2 ⟨x, hx, mobBCKept_subs x i hi⟩))))
          (hsep i (.inl (.inr (List.mem_flatMap.2 ⟨x, hx, hi⟩)))))
        (fun i hi => hzero i (List.mem_append.2 (.inl (List.mem_flatMap.2 ⟨x, hx, hi⟩))))
    have htr : List.Forall₂ SameUsed (P.traps.map (·.now env')) (P.traps.map (·.now fun _ => τ)) := by
      rw [List.forall₂_map_left_iff, List.forall₂_map_right_iff, List.forall₂_same]
      intro x hx
      refine x.now_sameUsed env' _ fun i hi => ?_
      have hm : i ∈ P.traps.flatMap TTrap.subs := List.mem_flatMap.2 ⟨x, hx, hi⟩
      exact hkeep i (.inl (.inr hm)) (hsep i (.inl (.inl (.inr hm))))
    unfold mixedForm TProblem.form Problem.form mobileForm diffusionForm TProblem.now
    simp only
    rw [hsrc, hbc, mobileTraps_congr _ _ _ _ _ htr, trapsForm_congr _ _ _ _ _ _ _ htr]
  · exact List.map_congr_left fun x hx => dirichletAt_eq x τ env'
      (fun i hi => hkeep i (.inr (List.mem_flatMap.2 ⟨x, hx, dirichletKept_subs x i hi⟩))
        (hsep i (.inr (List.mem_flatMap.2 ⟨x, hx, hi⟩))))
      (fun i hi => hzero i (List.mem_append.2 (.inr (List.mem_flatMap.2 ⟨x, hx, hi⟩))))

theorem step_finished_env {F : Type} (cfg : SimCfg F) (s : SimState F) (o : Outcome)
    (hs : s.run.phase = .finished → s.recs = [] ∨ ∃ r, s.recs.getLast? = some r ∧ s.env = r.env) :
    (cfg.step s o).run.phase = .finished →
      (cfg.step s o).recs = [] ∨
        ∃ r, (cfg.step s o).recs.getLast? = some r ∧ (cfg.step s o).env = r.env := by
  unfold SimCfg.step
  cases hp : s.run.phase with
  | finished => simp only; intro _; exact hs hp
  | raised e => simp only; intro h; rw [hp] at h; cases h
  | solving nom failed =>
    simp only
    cases ha : afterSolve cfg.dt s.run.value s.run.t o with
    | error e => simp only; intro h; cases h
    | ok v =>
      simp only
      by_cases hc : o.converged = true
      · rw [if_pos hc]
        generalize hst : ({ s with
            run := loopHead cfg.final s.run.t (clipFinal cfg.final s.run.t v)
              (s.run.log ++ [{ t := s.run.t, dtNominal := nom, dtUsed := s.run.value,
                               dtExtrinsic := v, nbIt := o.nbIt, failed := failed }])
            recs := s.recs ++ [⟨s.run.t, s.temp, s.env⟩] } : SimState F) = st
        have h1 : st.recs.getLast? = some ⟨s.run.t, s.temp, s.env⟩ := by rw [← hst]; simp
        have h2 : st.env = s.env := by rw [← hst]
        intro hf
        refine .inr ⟨⟨s.run.t, s.temp, s.env⟩, ?_⟩
        unfold SimCfg.enter at hf ⊢
        cases hq : st.run.phase with
        | finished => exact ⟨h1, h2⟩
        | raised e => exact ⟨h1, h2⟩
        | solving a b =>
          rw [hq] at hf
          simp only at hf
          split at hf
          · cases hf
          · simp only at hf; rw [hq] at hf; cases hf
      · rw [if_neg hc]; intro h; cases h

/-- When a run has returned after at least one step, the expressions are as the last step left them. -/
theorem finished_env {F : Type} (cfg : SimCfg F) (zero : F) (outs : List Outcome) (s : SimState F)
    (h : cfg.exec zero outs = .ok s) (hf : s.run.phase = .finished) :
    s.recs = [] ∨ ∃ r, s.recs.getLast? = some r ∧ s.env = r.env := by
  unfold SimCfg.exec at h
  cases hst : cfg.start zero with
  | error e => rw [hst] at h; cases h
  | ok s0 =>
    rw [hst] at h
    cases h
    have h0 : s0.recs = [] := by
      unfold SimCfg.start at hst
      split at hst
      · cases hst
      · cases hst
        unfold SimCfg.enter
        split
        · split <;> rfl
        · rfl
    have : ∀ (outs : List Outcome) (s : SimState F),
        (s.run.phase = .finished → s.recs = [] ∨ ∃ r, s.recs.getLast? = some r ∧ s.env = r.env) →
        ((outs.foldl cfg.step s).run.phase = .finished → (outs.foldl cfg.step s).recs = [] ∨
          ∃ r, (outs.foldl cfg.step s).recs.getLast? = some r ∧ (outs.foldl cfg.step s).env = r.env) := by
      intro outs
      induction outs with
      | nil => intro s hs; exact hs
      | cons o outs ih => intro s hs; exact ih _ (step_finished_env cfg s o hs)
    exact this outs s0 (fun _ => .inl h0) hf

/-- **C99.** A transient run is made and returns, its last step ending at `τ`; then the simulation is made a
steady one and initialised again, without making its sources, traps and conditions again.  The steady equations
have the sources, the trap densities and the parameters of user-defined conditions of time `τ`, and all
other conditions of time `0`. -/
theorem C99_steady_after_transient {F : Type} (P P' : TProblem Ω Γ d) (cfg : SimCfg F) (zero : F)
    (outs : List Outcome) (s : SimState F) (hreg : cfg.registry = P.expressions)
    (h : cfg.exec zero outs = .ok s) (hf : s.run.phase = .finished) (r : SimRec F)
    (hr : s.recs.getLast? = some r) (hsame : P'.expressions = P.expressions) (hsep : Separate P') :
    (∀ v vt, P'.form (P'.reinit s.env) v vt = mixedForm P' r.t v vt) ∧
    P'.dirichlet.map (·.now (P'.reinit s.env)) = P'.dirichlet.map (dirichletAt r.t) := by
  refine reinit_mixed P' hsep r.t s.env fun i hi => ?_
  rcases finished_env cfg zero outs s h hf with hn | ⟨r', hr', he⟩
  · rw [hn] at hr; cases hr
  · rw [hr] at hr'
    cases hr'
    rw [he]
    refine ((C57_run cfg zero outs s h).1 r (List.mem_of_getLast? hr)).1 i ?_
    rw [hreg, ← hsame]
    exact hi

/-- **C99.** A first initialisation, or one after which a transient run follows, is not concerned: with all
attributes `t` at `0` the equations are those of time `0`, and the data of each transient step are those of
the time of the step whatever was left before. -/
theorem C99_fresh (P : TProblem Ω Γ d) (env : ℕ → ℚ) (t : ℚ) :
    (∀ v vt, P.form (P.reinit fun _ => 0) v vt = P.form (fun _ => 0) v vt) ∧
    (∀ v vt, P.form (updateExpressions P.expressions t (P.reinit env)) v vt = P.form (fun _ => t) v vt) ∧
    P.dirichlet.map (·.now (updateExpressions P.expressions t (P.reinit env))) =
      P.dirichlet.map (·.now fun _ => t) := by
  refine ⟨fun v vt => ?_, (C57_registry_complete P t _).1, (C57_registry_complete P t _).2⟩
  have : (P.reinit fun _ => 0) = fun _ => 0 := by
    funext i
    unfold TProblem.reinit
    split <;> rfl
  rw [this]

end

/-- **C99.** A transient heat transfer problem whose initial temperature is a number or an expression can be
initialised once only: every later call raises.  With a field read in a file all calls succeed and give the
same temperatures. -/
theorem C99_heat {F : Type} (zero T : F) (n : ℕ) :
    (∃ e, initialiseTimes zero (n + 1) (some (.sympy T)) = .ok ⟨zero, T⟩ :: List.replicate n (.error e)) ∧
    initialiseTimes zero n (some (.xdmf T)) = List.replicate n (.ok ⟨zero, T⟩) := by
  constructor
  · refine ⟨.runtimeError "ccode of a fenics Expression", ?_⟩
    have : ∀ m, initialiseTimes zero m (some (.fenics T)) =
        List.replicate m (.error (.runtimeError "ccode of a fenics Expression")) := by
      intro m
      induction m with
      | zero => rfl
      | succ m ih =>
        show _ :: initialiseTimes zero m (some (.fenics T)) = _
        rw [ih]; rfl
    show _ :: initialiseTimes zero n (some (.fenics T)) = _
    rw [this]
  · induction n with
    | zero => rfl
    | succ n ih =>
      show _ :: initialiseTimes zero n (some (.xdmf T)) = _
      rw [ih]; rfl

/-- The first call is the one of C68. -/
theorem C99_heat_first {F : Type} (zero : F) (T : F) (subs : List ℕ)
    (solve : (ℕ → ℚ) → ℚ → F → F → Except PyErr F) (env : ℕ → ℚ) :
    (createTransientHeat zero (some (.sympy T))).map Prod.fst =
      (TempModel.heatTransient (.expr T) subs solve).create zero env ∧
    (createTransientHeat zero (some (.xdmf T))).map Prod.fst =
      (TempModel.heatTransient (.xdmf T) subs solve).create zero env ∧
    (createTransientHeat zero (some .otherString)).map Prod.fst =
      (TempModel.heatTransient .otherString subs solve).create zero env ∧
    (createTransientHeat zero none).map Prod.fst =
      (TempModel.heatTransient .missing subs solve).create zero env :=
  ⟨rfl, rfl, rfl, rfl⟩

/-- The problem of C57: the source and the density keep their objects, the others are made again. -/
example : Separate regProblem := by
  intro i hi
  have h1 : i ∈ [10, 11] := hi
  have h2 : regProblem.bcs.flatMap mobBCFresh ++ regProblem.dirichlet.flatMap dirichletFresh =
      [13, 14, 15, 16] := rfl
  rw [h2]
  revert i
  decide

/-- The run of C57 ends at `3`; initialised again, the source is the one of time `3`, the imposed flux and the
pressure are those of time `0`. -/
example : ∃ s, ({ sampleCfg (.fromXDMF 300) with registry := regProblem.expressions } :
      SimCfg ℚ).exec 0 sampleOuts = .ok s ∧ s.run.phase = .finished ∧
      s.recs.getLast?.map (·.t) = some 3 ∧
      [10, 11, 13, 16].map (regProblem.reinit s.env) = [3, 3, 0, 0] := by
  refine ⟨_, rfl, ?_⟩
  unfold TProblem.reinit
  rw [show regProblem.made = [13, 14, 15, 16] from rfl,
    show regProblem.expressions = [10, 13, 14, 15, 11, 16] from rfl]
  decide +kernel

example : (regProblem.dirichlet.map (dirichletAt 3)) = [.sieverts 1 0 fun _ => ((0 : ℚ) : ℝ)] := rfl

example : initialiseTimes (0 : ℚ) 3 (some (.sympy 300)) =
    [.ok ⟨0, 300⟩, .error (.runtimeError "ccode of a fenics Expression"),
      .error (.runtimeError "ccode of a fenics Expression")] := rfl

end Festim.Props
