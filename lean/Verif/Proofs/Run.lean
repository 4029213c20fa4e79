import Verif.Model.Run
import Mathlib.Tactic.Linarith
import Mathlib.Tactic.Ring
import Mathlib.Tactic.FieldSimp
import Mathlib.Tactic.Positivity
import Mathlib.Data.List.Chain

/-! # Structure of transient runs (helper lemmas) -/

namespace Festim

theorem isclose_iff {a b : ℚ} : isclose a b = true ↔ |a - b| ≤ 1 / 100000 * |b| := by
  simp [isclose]

theorem loopGuard_iff {final t : ℚ} :
    loopGuard final t = true ↔ t < final ∧ ¬ |t - final| ≤ 1 / 100000 * |final| := by
  simp [loopGuard, isclose]

theorem loopGuard_lt {final t : ℚ} (h : loopGuard final t = true) : t < final :=
  (loopGuard_iff.1 h).1

theorem loopGuard_zero {final : ℚ} (h : 0 < final) : loopGuard final 0 = true := by
  rw [loopGuard_iff]
  refine ⟨h, ?_⟩
  rw [zero_sub, abs_neg, abs_of_pos h]
  linarith

/-- for a positive final time the loop guard is a plain threshold -/
theorem loopGuard_pos_iff {final t : ℚ} (h : 0 < final) :
    loopGuard final t = true ↔ t < final * (1 - 1 / 100000) := by
  rw [loopGuard_iff]
  constructor
  · rintro ⟨h1, h2⟩
    rw [abs_of_pos h, abs_of_neg (by linarith)] at h2
    linarith
  · intro h1
    have : t < final := by linarith
    refine ⟨this, ?_⟩
    rw [abs_of_pos h, abs_of_neg (by linarith)]
    linarith

theorem add_clipFinal_le {final t v : ℚ} : t + clipFinal final t v ≤ final := by
  unfold clipFinal; split <;> linarith

theorem clipFinal_le {final t v : ℚ} : clipFinal final t v ≤ v := by
  unfold clipFinal; split <;> linarith

theorem clipFinal_pos {final t v : ℚ} (h : t < final) (hv : 0 < v) : 0 < clipFinal final t v := by
  unfold clipFinal; split <;> linarith

namespace Run

@[simp] theorem run_nil (cfg : Stepsize) (final : ℚ) : run cfg final [] = start cfg final := rfl

@[simp] theorem run_concat (cfg : Stepsize) (final : ℚ) (outs : List Outcome) (o : Outcome) :
    run cfg final (outs ++ [o]) = step cfg final (run cfg final outs) o := by
  simp [run]

theorem run_append (cfg : Stepsize) (final : ℚ) (o1 o2 : List Outcome) :
    run cfg final (o1 ++ o2) = o2.foldl (step cfg final) (run cfg final o1) := by
  simp [run]

theorem run_induction {cfg : Stepsize} {final : ℚ} {P : RunState → Prop}
    (h0 : P (start cfg final)) (hs : ∀ s o, P s → P (step cfg final s o)) (outs : List Outcome) :
    P (run cfg final outs) := by
  induction outs using List.reverseRecOn with
  | nil => exact h0
  | append_singleton l a ih => rw [run_concat]; exact hs _ _ ih

theorem step_finished {cfg : Stepsize} {final : ℚ} {s : RunState} (o : Outcome)
    (h : s.phase = .finished) : step cfg final s o = s := by
  simp [step, h]

theorem step_raised {cfg : Stepsize} {final : ℚ} {s : RunState} (o : Outcome) {e : PyErr}
    (h : s.phase = .raised e) : step cfg final s o = s := by
  simp [step, h]

theorem foldl_stuck {cfg : Stepsize} {final : ℚ} {s : RunState} (outs : List Outcome)
    (h : ∀ o, step cfg final s o = s) : outs.foldl (step cfg final) s = s := by
  induction outs with
  | nil => rfl
  | cons o os ih => simp [h o, ih]

theorem step_error {cfg : Stepsize} {final : ℚ} {s : RunState} {o : Outcome} {nom : ℚ} {k : ℕ}
    {e : PyErr} (h : s.phase = .solving nom k) (ha : afterSolve cfg s.value s.t o = .error e) :
    step cfg final s o = { s with phase := .raised e } := by
  simp [step, h, ha]

theorem step_accept {cfg : Stepsize} {final : ℚ} {s : RunState} {o : Outcome} {nom : ℚ} {k : ℕ}
    {v : ℚ} (h : s.phase = .solving nom k) (ha : afterSolve cfg s.value s.t o = .ok v)
    (ho : o.converged = true) :
    step cfg final s o = loopHead final s.t (clipFinal final s.t v)
      (s.log ++ [{ t := s.t, dtNominal := nom, dtUsed := s.value, dtExtrinsic := v,
                   nbIt := o.nbIt, failed := k }]) := by
  simp [step, h, ha, ho]

theorem step_retry {cfg : Stepsize} {final : ℚ} {s : RunState} {o : Outcome} {nom : ℚ} {k : ℕ}
    {v : ℚ} (h : s.phase = .solving nom k) (ha : afterSolve cfg s.value s.t o = .ok v)
    (ho : o.converged = false) :
    step cfg final s o = { s with value := v, phase := .solving nom (k + 1) } := by
  simp [step, h, ha, ho]

/-- The successor of an accepted step `r` starts from the value computed by `adapt`, clipped to
the final time. -/
structure Linked (final : ℚ) (r : StepRec) (t nom : ℚ) : Prop where
  nom_eq : nom = clipFinal final r.t r.dtExtrinsic
  t_eq : t = r.t + nom
  guard : loopGuard final r.t = true

/-- What holds of each accepted step taken alone. -/
structure RecOK (cfg : Stepsize) (r : StepRec) : Prop where
  adapted : afterSolve cfg r.dtUsed r.t ⟨r.nbIt, true⟩ = .ok r.dtExtrinsic
  first : r.failed = 0 → r.dtUsed = r.dtNominal

/-- Structural invariant of a run. -/
structure Trace (cfg : Stepsize) (final : ℚ) (s : RunState) : Prop where
  recs : ∀ r ∈ s.log, RecOK cfg r
  chain : s.log.IsChain (fun r r' => Linked final r r'.t r'.dtNominal)
  head : ∀ r, s.log.head? = some r →
    r.t = cfg.initialValue ∧ r.dtNominal = cfg.initialValue ∧ loopGuard final 0 = true
  solving : ∀ nom k, s.phase = .solving nom k →
    (s.log = [] → s.t = cfg.initialValue ∧ nom = cfg.initialValue ∧ loopGuard final 0 = true) ∧
    (∀ r, s.log.getLast? = some r → Linked final r s.t nom) ∧ (k = 0 → s.value = nom)
  finished : s.phase = .finished →
    (s.log = [] → loopGuard final 0 = false) ∧
    (∀ r, s.log.getLast? = some r → loopGuard final r.t = false ∧ s.t = r.t)
  raised : ∀ e, s.phase = .raised e →
    (∀ r, s.log.getLast? = some r → loopGuard final r.t = true)

theorem trace_start (cfg : Stepsize) (final : ℚ) : Trace cfg final (start cfg final) := by
  unfold start loopHead
  split
  · rename_i h
    constructor <;> simp_all
  · rename_i h
    constructor <;> simp_all

theorem trace_step {cfg : Stepsize} {final : ℚ} {s : RunState} (o : Outcome)
    (h : Trace cfg final s) : Trace cfg final (step cfg final s o) := by
  cases hp : s.phase with
  | finished => rw [step_finished o hp]; exact h
  | raised e => rw [step_raised o hp]; exact h
  | solving nom k =>
    obtain ⟨h1, h2, h3⟩ := h.solving nom k hp
    cases ha : afterSolve cfg s.value s.t o with
    | error e =>
      rw [step_error hp ha]
      refine ⟨h.recs, h.chain, h.head, by simp, by simp, ?_⟩
      intro e' _ r hr
      exact (h2 r hr).guard
    | ok v =>
      cases ho : o.converged with
      | false =>
        rw [step_retry hp ha ho]
        refine ⟨h.recs, h.chain, h.head, ?_, by simp, by simp⟩
        rintro nom' k' hk
        simp only [Phase.solving.injEq] at hk
        obtain ⟨rfl, rfl⟩ := hk
        exact ⟨h1, h2, by simp⟩
      | true =>
        rw [step_accept hp ha ho]
        obtain ⟨rec, hrec0⟩ : ∃ rec : StepRec, rec = StepRec.mk s.t nom s.value v o.nbIt k :=
          ⟨_, rfl⟩
        rw [← hrec0]
        have hrec : ∀ r ∈ s.log ++ [rec], RecOK cfg r := by
          intro r hr
          rw [List.mem_append, List.mem_singleton] at hr
          rcases hr with hr | rfl
          · exact h.recs r hr
          · subst hrec0
            refine ⟨?_, h3⟩
            have : o = ⟨o.nbIt, true⟩ := by cases o; simp_all
            rw [this] at ha
            exact ha
        have hchain : (s.log ++ [rec]).IsChain
              (fun r r' => Linked final r r'.t r'.dtNominal) := by
          rw [List.isChain_append]
          refine ⟨h.chain, by simp, ?_⟩
          intro x hx y hy
          simp at hy
          subst hy hrec0
          exact h2 x hx
        have hhead : ∀ r, (s.log ++ [rec]).head? = some r →
              r.t = cfg.initialValue ∧ r.dtNominal = cfg.initialValue ∧
                loopGuard final 0 = true := by
          intro r hr
          cases hl : s.log with
          | nil =>
            rw [hl] at hr
            simp at hr
            subst hr hrec0
            exact h1 hl
          | cons a l =>
            rw [hl] at hr
            simp at hr
            subst hr
            exact h.head a (by simp [hl])
        unfold loopHead
        split
        · rename_i hg
          refine ⟨hrec, hchain, hhead, ?_, by simp, by simp⟩
          rintro nom' k' hk
          simp only [Phase.solving.injEq] at hk
          obtain ⟨rfl, rfl⟩ := hk
          refine ⟨by simp, ?_, by simp⟩
          intro r hr
          simp at hr
          subst hr hrec0
          exact ⟨rfl, rfl, hg⟩
        · rename_i hg
          refine ⟨hrec, hchain, hhead, by simp, ?_, by simp⟩
          intro _
          refine ⟨by simp, ?_⟩
          intro r hr
          simp at hr
          subst hr hrec0
          exact ⟨by simpa using hg, rfl⟩

theorem trace (cfg : Stepsize) (final : ℚ) (outs : List Outcome) :
    Trace cfg final (run cfg final outs) :=
  run_induction (trace_start cfg final) (fun _ o => trace_step o) outs

end Run
end Festim
