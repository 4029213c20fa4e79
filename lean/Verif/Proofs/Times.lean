import Verif.Proofs.Adapt

/-! # Invariants of accepted times (helper lemmas) -/

namespace Festim
namespace Run

open Spec

theorem run_induction_mem {cfg : Stepsize} {final : ℚ} {P : RunState → Prop} {Q : Outcome → Prop}
    (h0 : P (start cfg final)) (hs : ∀ s o, Q o → P s → P (step cfg final s o))
    (outs : List Outcome) (hQ : ∀ o ∈ outs, Q o) : P (run cfg final outs) := by
  induction outs using List.reverseRecOn with
  | nil => exact h0
  | append_singleton l a ih =>
    rw [run_concat]
    exact hs _ _ (hQ a (by simp)) (ih (fun o ho => hQ o (by simp [ho])))

/-- consecutive accepted steps -/
theorem linked {cfg : Stepsize} {final : ℚ} {outs : List Outcome} (i : ℕ)
    (h : i + 1 < (run cfg final outs).log.length) :
    Linked final (run cfg final outs).log[i] (run cfg final outs).log[i + 1].t
      (run cfg final outs).log[i + 1].dtNominal :=
  List.isChain_iff_getElem.1 (trace cfg final outs).chain i h

theorem recOK {cfg : Stepsize} {final : ℚ} {outs : List Outcome} (i : ℕ)
    (h : i < (run cfg final outs).log.length) : RecOK cfg (run cfg final outs).log[i] :=
  (trace cfg final outs).recs _ (List.getElem_mem h)

theorem head_time {cfg : Stepsize} {final : ℚ} {outs : List Outcome}
    (h : 0 < (run cfg final outs).log.length) :
    (run cfg final outs).log[0].t = cfg.initialValue ∧
    (run cfg final outs).log[0].dtNominal = cfg.initialValue ∧ loopGuard final 0 = true := by
  apply (trace cfg final outs).head
  rw [List.head?_eq_getElem?]
  simp [h]

theorem last_of_solving {cfg : Stepsize} {final : ℚ} {outs : List Outcome}
    (h : Solving (run cfg final outs)) : ∀ r ∈ (run cfg final outs).log,
      loopGuard final r.t = true := by
  intro r hr
  obtain ⟨i, hi, rfl⟩ := List.getElem_of_mem hr
  obtain ⟨nom, k, hs⟩ := h
  by_cases hl : i + 1 < (run cfg final outs).log.length
  · exact (linked i hl).guard
  · have := ((trace cfg final outs).solving nom k hs).2.1 ((run cfg final outs).log[i]) (by
      rw [List.getLast?_eq_getElem?]
      have : (run cfg final outs).log.length - 1 = i := by omega
      rw [this]; simp [hi])
    exact this.guard

/-- Invariant behind C01. -/
def BelowFinal (final : ℚ) (s : RunState) : Prop :=
  (∀ r ∈ s.log, r.t ≤ final) ∧ (Solving s → s.t ≤ final)

theorem solving_loopHead {final t v : ℚ} {l : List StepRec}
    (h : Solving (loopHead final t v l)) : loopGuard final t = true ∧
      loopHead final t v l = { t := t + v, value := v, phase := .solving v 0, log := l } := by
  unfold loopHead at h ⊢
  split at h
  · rename_i hg; simp [hg]
  · obtain ⟨nom, k, hk⟩ := h; simp at hk

theorem log_loopHead {final t v : ℚ} {l : List StepRec} : (loopHead final t v l).log = l := by
  unfold loopHead; split <;> rfl

theorem value_loopHead {final t v : ℚ} {l : List StepRec} : (loopHead final t v l).value = v := by
  unfold loopHead; split <;> rfl

theorem belowFinal_step {cfg : Stepsize} {final : ℚ} {s : RunState} (o : Outcome)
    (h : BelowFinal final s) : BelowFinal final (step cfg final s o) := by
  cases hp : s.phase with
  | finished => rw [step_finished o hp]; exact h
  | raised e => rw [step_raised o hp]; exact h
  | solving nom k =>
    have ht := h.2 ⟨nom, k, hp⟩
    cases ha : afterSolve cfg s.value s.t o with
    | error e =>
      rw [step_error hp ha]
      exact ⟨h.1, by rintro ⟨_, _, h⟩; simp at h⟩
    | ok v =>
      cases ho : o.converged with
      | false =>
        rw [step_retry hp ha ho]
        exact ⟨h.1, fun _ => ht⟩
      | true =>
        rw [step_accept hp ha ho]
        refine ⟨?_, ?_⟩
        · rw [log_loopHead]
          intro r hr
          rw [List.mem_append, List.mem_singleton] at hr
          rcases hr with hr | rfl
          · exact h.1 r hr
          · exact ht
        · intro hs
          rw [(solving_loopHead hs).2]
          exact add_clipFinal_le

/-- Invariant behind C02. -/
structure Increasing (s : RunState) : Prop where
  pairwise : (0 :: s.times).Pairwise (· < ·)
  pos : Solving s → 0 < s.value
  current : Solving s → ∀ x ∈ 0 :: s.times, x < s.t
  nomPos : ∀ nom k, s.phase = .solving nom k → 0 < nom

theorem increasing_start {cfg : Stepsize} {final : ℚ} (hp : PositiveSteps cfg) :
    Increasing (start cfg final) := by
  unfold start loopHead
  split
  · refine ⟨by simp [RunState.times], fun _ => hp.1, fun _ => ?_, ?_⟩
    · simpa [RunState.times] using hp.1
    · intro nom k h
      simp at h
      rw [← h.1]; exact hp.1
  · refine ⟨by simp [RunState.times], ?_, ?_, by simp⟩ <;> rintro ⟨_, _, h⟩ <;> simp at h

theorem increasing_step {cfg : Stepsize} {final : ℚ} (hpos : PositiveSteps cfg) {s : RunState}
    (o : Outcome) (h : Increasing s) : Increasing (step cfg final s o) := by
  cases hp : s.phase with
  | finished => rw [step_finished o hp]; exact h
  | raised e => rw [step_raised o hp]; exact h
  | solving nom k =>
    have hv := h.pos ⟨nom, k, hp⟩
    have hc := h.current ⟨nom, k, hp⟩
    have hn := h.nomPos nom k hp
    cases ha : afterSolve cfg s.value s.t o with
    | error e =>
      rw [step_error hp ha]
      refine ⟨h.pairwise, ?_, ?_, by simp⟩ <;> rintro ⟨_, _, h⟩ <;> simp at h
    | ok v =>
      have hvp := afterSolve_conv_pos hpos hv ha
      cases ho : o.converged with
      | false =>
        rw [step_retry hp ha ho]
        refine ⟨h.pairwise, fun _ => hvp, fun _ => hc, ?_⟩
        intro nom' k' h'
        simp at h'
        rw [← h'.1]; exact hn
      | true =>
        rw [step_accept hp ha ho]
        have hpw : (0 :: (s.times ++ [s.t])).Pairwise (· < ·) := by
          rw [← List.cons_append, List.pairwise_append]
          exact ⟨h.pairwise, by simp, by simpa using hc⟩
        refine ⟨?_, ?_, ?_, ?_⟩
        · simpa [RunState.times, log_loopHead] using hpw
        · intro hs
          obtain ⟨hg, hs⟩ := solving_loopHead hs
          rw [hs]
          exact clipFinal_pos (loopGuard_lt hg) hvp
        · intro hs
          obtain ⟨hg, hs⟩ := solving_loopHead hs
          rw [hs]
          have := clipFinal_pos (loopGuard_lt hg) hvp
          intro x hx
          simp only [RunState.times, List.map_append, List.map_cons, List.map_nil] at hx
          rw [← List.cons_append, List.mem_append] at hx
          rcases hx with hx | hx
          · have := hc x hx
            simp only; linarith
          · simp at hx; subst hx; simp only; linarith
        · intro nom' k' h'
          obtain ⟨hg, hs⟩ := solving_loopHead ⟨nom', k', h'⟩
          rw [hs] at h'
          simp at h'
          rw [← h'.1]
          exact clipFinal_pos (loopGuard_lt hg) hvp

theorem increasing {cfg : Stepsize} {final : ℚ} (hp : PositiveSteps cfg) (outs : List Outcome) :
    Increasing (run cfg final outs) :=
  run_induction (increasing_start hp) (fun _ o => increasing_step hp o) outs

end Run
end Festim
