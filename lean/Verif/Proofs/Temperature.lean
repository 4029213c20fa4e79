import Verif.Spec.Temperature

/-! # Lemmas on the driver with temperature and expressions -/

namespace Festim

theorem updateExpressions_apply (ids : List ℕ) (t : ℚ) (env : ℕ → ℚ) (i : ℕ) :
    updateExpressions ids t env i = if i ∈ ids then t else env i := by
  unfold updateExpressions
  induction ids generalizing env with
  | nil => simp
  | cons a ids ih =>
    rw [List.foldl_cons, ih]
    by_cases h : i ∈ ids
    · simp [h]
    · by_cases h' : i = a
      · subst h'; simp
      · simp [h, h']

theorem foldl_inv {α β : Type} {P : α → Prop} (f : α → β → α) (h : ∀ a b, P a → P (f a b))
    (l : List β) {a : α} (h0 : P a) : P (l.foldl f a) := by
  induction l generalizing a with
  | nil => exact h0
  | cons b l ih => exact ih (h a b h0)

namespace Spec

theorem pairedTemperatures_append {F : Type} (T : ℚ → F) (p t : ℚ) (ts : List ℚ) :
    pairedTemperatures T p (ts ++ [t]) =
      pairedTemperatures T p ts ++ [(t, T t, T (ts.getLastD p))] := by
  induction ts generalizing p with
  | nil => rfl
  | cons a ts ih =>
    rw [List.cons_append, pairedTemperatures, ih, pairedTemperatures, List.cons_append]
    cases ts <;> simp [List.getLastD]

theorem EulerChain.append {F E : Type} {solve : E → ℚ → F → F → Except PyErr F} {Tn g T : F}
    {dt : ℚ} {e : E} {l : List (ℚ × E × F)} (h : EulerChain solve Tn g l)
    (h1 : l = [] → solve e dt Tn g = .ok T)
    (h2 : ∀ T', (l.map fun x => x.2.2).getLast? = some T' → solve e dt T' T' = .ok T) :
    EulerChain solve Tn g (l ++ [(dt, e, T)]) := by
  induction h with
  | nil Tn g => exact .cons (h1 rfl) (.nil _ _)
  | @cons Tn g T0 dt0 e0 l hs rest ih =>
    refine .cons hs (ih (fun hl => ?_) (fun T' hT' => ?_))
    · subst hl; exact h2 T0 rfl
    · apply h2
      rw [List.map_cons, List.getLast?_cons, hT']
      rfl

end Spec

section
variable {F : Type}

/-- Wherever the driver is, it is where the clock of `Verif.Model.Run` is, unless an exception was
raised. -/
theorem SimCfg.enter_run (cfg : SimCfg F) (s : SimState F) :
    (cfg.enter s).run = s.run ∨ ∃ e, (cfg.enter s).run.phase = .raised e := by
  unfold SimCfg.enter
  split
  · split
    · exact Or.inr ⟨_, rfl⟩
    · exact Or.inl rfl
  · exact Or.inl rfl

theorem SimCfg.enter_recs (cfg : SimCfg F) (s : SimState F) : (cfg.enter s).recs = s.recs := by
  unfold SimCfg.enter
  split
  · split <;> rfl
  · rfl

theorem SimCfg.enter_log (cfg : SimCfg F) (s : SimState F) :
    (cfg.enter s).run.log = s.run.log := by
  unfold SimCfg.enter
  split
  · split <;> rfl
  · rfl

theorem loopHead_log (final t value : ℚ) (log : List StepRec) :
    (loopHead final t value log).log = log := by
  unfold loopHead
  split <;> rfl

/-- Induction over the states of the driver: `P` must hold initially, be kept by exceptions and
diverged solves, and be re-established when a step is accepted. -/
theorem SimCfg.exec_inv {cfg : SimCfg F} {zero : F} (P : SimState F → Prop)
    (h0 : ∀ temp, cfg.temp.create zero (fun _ => 0) = .ok temp →
      P (cfg.enter ⟨Run.start cfg.dt cfg.final, temp, fun _ => 0, []⟩))
    (hraise : ∀ s e nom failed, P s → s.run.phase = .solving nom failed →
      P { s with run := { s.run with phase := .raised e } })
    (hretry : ∀ s v nom failed, P s → s.run.phase = .solving nom failed →
      P { s with run := { s.run with value := v, phase := .solving nom (failed + 1) } })
    (haccept : ∀ s v nom failed (o : Outcome), P s → s.run.phase = .solving nom failed →
      P (cfg.enter
          { s with
            run := loopHead cfg.final s.run.t (clipFinal cfg.final s.run.t v)
              (s.run.log ++ [{ t := s.run.t, dtNominal := nom, dtUsed := s.run.value,
                               dtExtrinsic := v, nbIt := o.nbIt, failed := failed }])
            recs := s.recs ++ [⟨s.run.t, s.temp, s.env⟩] }))
    (outs : List Outcome) (s : SimState F) (h : cfg.exec zero outs = .ok s) : P s := by
  unfold SimCfg.exec SimCfg.start at h
  cases hc : cfg.temp.create zero (fun _ => 0) with
  | error e => rw [hc] at h; cases h
  | ok temp =>
    rw [hc] at h
    simp only [Except.ok.injEq] at h
    subst h
    refine foldl_inv cfg.step ?_ outs (h0 temp hc)
    intro s o hs
    unfold SimCfg.step
    split
    · exact hs
    · exact hs
    · rename_i nom failed hph
      split
      · exact hraise s _ nom failed hs hph
      · split
        · exact haccept s _ nom failed o hs hph
        · exact hretry s _ nom failed hs hph

end

end Festim
