import Verif.Spec.Floats
import Verif.Proofs.Times
import Mathlib.Tactic.NormNum

/-! # Runs in floating-point arithmetic (helper lemmas)

The first part repeats `Verif.Proofs.Run` for an arbitrary rounding `fl`. -/

namespace Festim.Fl

open Spec

@[simp] theorem run_nil (fl : ℚ → ℚ) (cfg : Stepsize) (final : ℚ) : run fl cfg final [] = start fl cfg final := rfl

@[simp] theorem run_concat (fl : ℚ → ℚ) (cfg : Stepsize) (final : ℚ) (outs : List Outcome) (o : Outcome) :
    run fl cfg final (outs ++ [o]) = step fl cfg final (run fl cfg final outs) o := by
  simp [run]

theorem run_append (fl : ℚ → ℚ) (cfg : Stepsize) (final : ℚ) (o1 o2 : List Outcome) :
    run fl cfg final (o1 ++ o2) = o2.foldl (step fl cfg final) (run fl cfg final o1) := by
  simp [run]

theorem run_induction {fl : ℚ → ℚ} {cfg : Stepsize} {final : ℚ} {P : RunState → Prop}
    (h0 : P (start fl cfg final)) (hs : ∀ s o, P s → P (step fl cfg final s o)) (outs : List Outcome) :
    P (run fl cfg final outs) := by
  induction outs using List.reverseRecOn with
  | nil => exact h0
  | append_singleton l a ih => rw [run_concat]; exact hs _ _ ih

theorem step_finished {fl : ℚ → ℚ} {cfg : Stepsize} {final : ℚ} {s : RunState} (o : Outcome)
    (h : s.phase = .finished) : step fl cfg final s o = s := by
  simp [step, h]

theorem step_raised {fl : ℚ → ℚ} {cfg : Stepsize} {final : ℚ} {s : RunState} (o : Outcome) {e : PyErr}
    (h : s.phase = .raised e) : step fl cfg final s o = s := by
  simp [step, h]

theorem foldl_stuck {fl : ℚ → ℚ} {cfg : Stepsize} {final : ℚ} {s : RunState} (outs : List Outcome)
    (h : ∀ o, step fl cfg final s o = s) : outs.foldl (step fl cfg final) s = s := by
  induction outs with
  | nil => rfl
  | cons o os ih => simp [h o, ih]

theorem step_error {fl : ℚ → ℚ} {cfg : Stepsize} {final : ℚ} {s : RunState} {o : Outcome} {nom : ℚ} {k : ℕ}
    {e : PyErr} (h : s.phase = .solving nom k) (ha : afterSolve fl cfg s.value s.t o = .error e) :
    step fl cfg final s o = { s with phase := .raised e } := by
  simp [step, h, ha]

theorem step_accept {fl : ℚ → ℚ} {cfg : Stepsize} {final : ℚ} {s : RunState} {o : Outcome} {nom : ℚ} {k : ℕ}
    {v : ℚ} (h : s.phase = .solving nom k) (ha : afterSolve fl cfg s.value s.t o = .ok v)
    (ho : o.converged = true) :
    step fl cfg final s o = loopHead fl final s.t (clipFinal fl final s.t v)
      (s.log ++ [{ t := s.t, dtNominal := nom, dtUsed := s.value, dtExtrinsic := v,
                   nbIt := o.nbIt, failed := k }]) := by
  simp [step, h, ha, ho]

theorem step_retry {fl : ℚ → ℚ} {cfg : Stepsize} {final : ℚ} {s : RunState} {o : Outcome} {nom : ℚ} {k : ℕ}
    {v : ℚ} (h : s.phase = .solving nom k) (ha : afterSolve fl cfg s.value s.t o = .ok v)
    (ho : o.converged = false) :
    step fl cfg final s o = { s with value := v, phase := .solving nom (k + 1) } := by
  simp [step, h, ha, ho]

/-- The successor of an accepted step `r` starts from the value computed by `adapt`, clipped to
the final time. -/
structure Linked (fl : ℚ → ℚ) (final : ℚ) (r : StepRec) (t nom : ℚ) : Prop where
  nom_eq : nom = clipFinal fl final r.t r.dtExtrinsic
  t_eq : t = fl (r.t + nom)
  guard : loopGuard fl final r.t = true

/-- What holds of each accepted step taken alone. -/
structure RecOK (fl : ℚ → ℚ) (cfg : Stepsize) (r : StepRec) : Prop where
  adapted : afterSolve fl cfg r.dtUsed r.t ⟨r.nbIt, true⟩ = .ok r.dtExtrinsic
  first : r.failed = 0 → r.dtUsed = r.dtNominal

/-- Structural invariant of a run. -/
structure Trace (fl : ℚ → ℚ) (cfg : Stepsize) (final : ℚ) (s : RunState) : Prop where
  recs : ∀ r ∈ s.log, RecOK fl cfg r
  chain : s.log.IsChain (fun r r' => Linked fl final r r'.t r'.dtNominal)
  head : ∀ r, s.log.head? = some r →
    r.t = fl (0 + cfg.initialValue) ∧ r.dtNominal = cfg.initialValue ∧ loopGuard fl final 0 = true
  solving : ∀ nom k, s.phase = .solving nom k →
    (s.log = [] → s.t = fl (0 + cfg.initialValue) ∧ nom = cfg.initialValue ∧ loopGuard fl final 0 = true) ∧
    (∀ r, s.log.getLast? = some r → Linked fl final r s.t nom) ∧ (k = 0 → s.value = nom)
  finished : s.phase = .finished →
    (s.log = [] → loopGuard fl final 0 = false) ∧
    (∀ r, s.log.getLast? = some r → loopGuard fl final r.t = false ∧ s.t = r.t)
  raised : ∀ e, s.phase = .raised e →
    (∀ r, s.log.getLast? = some r → loopGuard fl final r.t = true)

theorem trace_start (fl : ℚ → ℚ) (cfg : Stepsize) (final : ℚ) : Trace fl cfg final (start fl cfg final) := by
  unfold start loopHead
  split
  · rename_i h
    constructor <;> simp_all
  · rename_i h
    constructor <;> simp_all

theorem trace_step {fl : ℚ → ℚ} {cfg : Stepsize} {final : ℚ} {s : RunState} (o : Outcome)
    (h : Trace fl cfg final s) : Trace fl cfg final (step fl cfg final s o) := by
  cases hp : s.phase with
  | finished => rw [step_finished o hp]; exact h
  | raised e => rw [step_raised o hp]; exact h
  | solving nom k =>
    obtain ⟨h1, h2, h3⟩ := h.solving nom k hp
    cases ha : afterSolve fl cfg s.value s.t o with
    | error e =>
      rw [step_error hp ha]
      refine ⟨h.recs, h.chain, h.head, by simp, by simp, ?_⟩
      intro e' _ r hr
      exact (h2 r hr).guard
    | ok v =>
      cases ho : o.converged with
      | false =>
        rw [step_retry hp ha ho]
        refine ⟨h.recs, h.chain, h.head, ?_, by simp, by simp⟩
        rintro nom' k' hk
        simp only [Phase.solving.injEq] at hk
        obtain ⟨rfl, rfl⟩ := hk
        exact ⟨h1, h2, by simp⟩
      | true =>
        rw [step_accept hp ha ho]
        obtain ⟨rec, hrec0⟩ : ∃ rec : StepRec, rec = StepRec.mk s.t nom s.value v o.nbIt k :=
          ⟨_, rfl⟩
        rw [← hrec0]
        have hrec : ∀ r ∈ s.log ++ [rec], RecOK fl cfg r := by
          intro r hr
          rw [List.mem_append, List.mem_singleton] at hr
          rcases hr with hr | rfl
          · exact h.recs r hr
          · subst hrec0
            refine ⟨?_, h3⟩
            have : o = ⟨o.nbIt, true⟩ := by cases o; simp_all
            rw [this] at ha
            exact ha
        have hchain : (s.log ++ [rec]).IsChain
              (fun r r' => Linked fl final r r'.t r'.dtNominal) := by
          rw [List.isChain_append]
          refine ⟨h.chain, by simp, ?_⟩
          intro x hx y hy
          simp at hy
          subst hy hrec0
          exact h2 x hx
        have hhead : ∀ r, (s.log ++ [rec]).head? = some r →
              r.t = fl (0 + cfg.initialValue) ∧ r.dtNominal = cfg.initialValue ∧
                loopGuard fl final 0 = true := by
          intro r hr
          cases hl : s.log with
          | nil =>
            rw [hl] at hr
            simp at hr
            subst hr hrec0
            exact h1 hl
          | cons a l =>
            rw [hl] at hr
            simp at hr
            subst hr
            exact h.head a (by simp [hl])
        unfold loopHead
        split
        · rename_i hg
          refine ⟨hrec, hchain, hhead, ?_, by simp, by simp⟩
          rintro nom' k' hk
          simp only [Phase.solving.injEq] at hk
          obtain ⟨rfl, rfl⟩ := hk
          refine ⟨by simp, ?_, by simp⟩
          intro r hr
          simp at hr
          subst hr hrec0
          exact ⟨rfl, rfl, hg⟩
        · rename_i hg
          refine ⟨hrec, hchain, hhead, by simp, ?_, by simp⟩
          intro _
          refine ⟨by simp, ?_⟩
          intro r hr
          simp at hr
          subst hr hrec0
          exact ⟨by simpa using hg, rfl⟩

theorem trace (fl : ℚ → ℚ) (cfg : Stepsize) (final : ℚ) (outs : List Outcome) :
    Trace fl cfg final (run fl cfg final outs) :=
  run_induction (trace_start fl cfg final) (fun _ o => trace_step o) outs


/-! ## Rounding -/

section
variable (R : Rounding)

theorem rnd_zero : R.rnd 0 = 0 := by
  have := R.err 0
  simp only [sub_zero, abs_zero, mul_zero] at this
  exact abs_eq_zero.1 (le_antisymm this (abs_nonneg _))

theorem rnd_nonneg {x : ℚ} (h : 0 ≤ x) : 0 ≤ R.rnd x := by
  have := R.mono 0 x h
  rwa [rnd_zero] at this

theorem u_lt_one : R.u < 1 := lt_of_le_of_lt R.u_small (by norm_num)

theorem err_nonneg {x : ℚ} (h : 0 ≤ x) : |R.rnd x - x| ≤ R.u * x := by
  have := R.err x
  rwa [abs_of_nonneg h] at this

theorem rnd_le {x : ℚ} (h : 0 ≤ x) : R.rnd x ≤ (1 + R.u) * x := by
  have := R.err x
  rw [abs_of_nonneg h, abs_le] at this
  linarith [this.2]

theorem le_rnd {x : ℚ} (h : 0 ≤ x) : (1 - R.u) * x ≤ R.rnd x := by
  have := R.err x
  rw [abs_of_nonneg h, abs_le] at this
  linarith [this.1]

theorem rnd_pos {x : ℚ} (h : 0 < x) : 0 < R.rnd x := by
  refine lt_of_lt_of_le ?_ (le_rnd R h.le)
  have := u_lt_one R
  exact mul_pos (by linarith) h

theorem rnd_le_float {x m : ℚ} (hm : R.IsFloat m) (h : x ≤ m) : R.rnd x ≤ m := by
  have := R.mono x m h
  rwa [hm] at this

theorem le_rnd_float {x m : ℚ} (hm : R.IsFloat m) (h : m ≤ x) : m ≤ R.rnd x := by
  have := R.mono m x h
  rwa [hm] at this

theorem lt_of_lt_rnd {x m : ℚ} (hm : R.IsFloat m) (h : m < R.rnd x) : m < x := by
  by_contra hc
  exact absurd (rnd_le_float R hm (not_lt.1 hc)) (not_le.2 h)

theorem isFloat_rnd (x : ℚ) : R.IsFloat (R.rnd x) := R.idem x

theorem abs_rnd_bounds (x : ℚ) :
    (1 - R.u) * |x| ≤ |R.rnd x| ∧ |R.rnd x| ≤ (1 + R.u) * |x| := by
  have h := R.err x
  have h1 := abs_sub_abs_le_abs_sub x (R.rnd x)
  have h2 := abs_sub_abs_le_abs_sub (R.rnd x) x
  rw [abs_sub_comm] at h1
  constructor <;> linarith

/-- the tolerance actually used by `isclose` -/
theorem tol_bounds {b : ℚ} :
    1 / 100000 * (1 - 1 / 10 ^ 10) * |b| ≤ R.rnd (R.rnd (1 / 100000) * |b|) ∧
    R.rnd (R.rnd (1 / 100000) * |b|) ≤ 1 / 100000 * (1 + 1 / 10 ^ 10) * |b| := by
  have hb := abs_nonneg b
  have hu := R.u_nonneg
  have hs := R.u_small
  have h1 : R.rnd (1 / 100000) ≤ (1 + R.u) * (1 / 100000) := rnd_le R (by norm_num)
  have h2 : (1 - R.u) * (1 / 100000) ≤ R.rnd (1 / 100000) := le_rnd R (by norm_num)
  have h0 : 0 ≤ R.rnd (1 / 100000) := rnd_nonneg R (by norm_num)
  have h3 := rnd_le R (mul_nonneg h0 hb)
  have h4 := le_rnd R (mul_nonneg h0 hb)
  have e1 : (1 + R.u) * (R.rnd (1 / 100000) * |b|) ≤
      (1 + R.u) * (((1 + R.u) * (1 / 100000)) * |b|) := by
    gcongr
  have e2 : (1 - R.u) * (((1 - R.u) * (1 / 100000)) * |b|) ≤
      (1 - R.u) * (R.rnd (1 / 100000) * |b|) := by
    have : 0 ≤ 1 - R.u := by linarith [u_lt_one R]
    gcongr
  have k1 : (1 + R.u) * (1 + R.u) ≤ 1 + 1 / 10 ^ 10 := by nlinarith
  have k2 : 1 - 1 / 10 ^ 10 ≤ (1 - R.u) * (1 - R.u) := by nlinarith
  constructor
  · refine le_trans ?_ (e2.trans h4)
    calc 1 / 100000 * (1 - 1 / 10 ^ 10) * |b| = (1 - 1 / 10 ^ 10) * (1 / 100000 * |b|) := by ring
      _ ≤ ((1 - R.u) * (1 - R.u)) * (1 / 100000 * |b|) := by gcongr
      _ = _ := by ring
  · refine (h3.trans e1).trans ?_
    calc (1 + R.u) * (((1 + R.u) * (1 / 100000)) * |b|) =
          ((1 + R.u) * (1 + R.u)) * (1 / 100000 * |b|) := by ring
      _ ≤ (1 + 1 / 10 ^ 10) * (1 / 100000 * |b|) := by gcongr
      _ = _ := by ring

theorem near_of_isclose {a b : ℚ} (h : isclose R.rnd a b = true) :
    |a - b| ≤ 1 / 100000 * (1 + 1 / 10 ^ 6) * |b| := by
  simp only [isclose, decide_eq_true_eq] at h
  have h1 := (abs_rnd_bounds R (a - b)).1
  have h2 := (tol_bounds R (b := b)).2
  have hb := abs_nonneg b
  have hd := abs_nonneg (a - b)
  have hs := R.u_small
  have h3 : (1 - 1 / 10 ^ 10) * |a - b| ≤ (1 - R.u) * |a - b| := by
    gcongr
    exact hs.trans (by norm_num)
  have h4 : (1 - 1 / 10 ^ 10) * |a - b| ≤ 1 / 100000 * (1 + 1 / 10 ^ 10) * |b| := by linarith
  by_contra hc
  have hc := not_le.1 hc
  nlinarith

theorem isclose_of_near {a b : ℚ} (h : |a - b| ≤ 1 / 100000 * (1 - 1 / 10 ^ 6) * |b|) :
    isclose R.rnd a b = true := by
  simp only [isclose, decide_eq_true_eq]
  have h1 := (abs_rnd_bounds R (a - b)).2
  have h2 := (tol_bounds R (b := b)).1
  have hb := abs_nonneg b
  have hd := abs_nonneg (a - b)
  have hs := R.u_small
  have h3 : (1 + R.u) * |a - b| ≤ (1 + 1 / 10 ^ 10) * |a - b| := by
    gcongr
    exact hs.trans (by norm_num)
  have h4 : (1 + 1 / 10 ^ 10) * |a - b| ≤
      (1 + 1 / 10 ^ 10) * (1 / 100000 * (1 - 1 / 10 ^ 6) * |b|) := by gcongr
  linarith

/-! ## Guard of the loop -/

theorem guard_lt {fl : ℚ → ℚ} {final t : ℚ} (h : loopGuard fl final t = true) : t < final := by
  simp only [loopGuard, Bool.and_eq_true, decide_eq_true_eq] at h
  exact h.1

theorem guard_of_lt {final t : ℚ} (hf : 0 < final)
    (h : t < final * (1 - 1 / 100000 * (1 + 1 / 10 ^ 6))) : loopGuard R.rnd final t = true := by
  have hlt : t < final := by nlinarith
  simp only [loopGuard, Bool.and_eq_true, decide_eq_true_eq, hlt, true_and]
  cases hc : isclose R.rnd t final with
  | false => rfl
  | true =>
    have := near_of_isclose R hc
    rw [abs_of_pos hf, abs_of_neg (by linarith)] at this
    linarith

theorem lt_of_guard {final t : ℚ} (hf : 0 < final) (h : loopGuard R.rnd final t = true) :
    t < final * (1 - 1 / 100000 * (1 - 1 / 10 ^ 6)) := by
  have hlt := guard_lt h
  by_contra hc
  have hcl : isclose R.rnd t final = true := by
    apply isclose_of_near
    rw [abs_of_pos hf, abs_of_neg (by linarith)]
    linarith [not_lt.1 hc]
  simp [loopGuard, hcl] at h

theorem guard_zero {final : ℚ} (hf : 0 < final) : loopGuard R.rnd final 0 = true := by
  apply guard_of_lt R hf
  have : (0 : ℚ) < 1 - 1 / 100000 * (1 + 1 / 10 ^ 6) := by norm_num
  positivity

/-! ## Clipping -/

theorem clipFinal_pos {final t v : ℚ} (h : t < final) (hv : 0 < v) :
    0 < clipFinal R.rnd final t v := by
  unfold clipFinal
  split
  · exact rnd_pos R (by linarith)
  · exact hv

theorem clipFinal_float {final t v : ℚ} (hv : R.IsFloat v) :
    R.IsFloat (clipFinal R.rnd final t v) := by
  unfold clipFinal
  split
  · exact isFloat_rnd R _
  · exact hv

theorem clipFinal_le {final t v : ℚ} (hf : R.IsFloat final) (hv : R.IsFloat v) :
    clipFinal R.rnd final t v ≤ v := by
  unfold clipFinal
  split
  · rename_i h
    have := lt_of_lt_rnd R hf h
    exact rnd_le_float R hv (by linarith)
  · exact le_rfl

/-- the next time never exceeds `final` by more than two roundings -/
theorem next_le {final t v : ℚ} (ht : 0 ≤ t) (hlt : t < final) :
    R.rnd (t + clipFinal R.rnd final t v) ≤ final * (1 + R.u) ^ 2 := by
  have hu := R.u_nonneg
  unfold clipFinal
  split
  · have h1 := rnd_le R (x := final - t) (by linarith)
    have h0 := rnd_nonneg R (x := final - t) (by linarith)
    have h2 := rnd_le R (x := t + R.rnd (final - t)) (by linarith)
    have h3 : t + R.rnd (final - t) ≤ (1 + R.u) * final := by nlinarith
    calc _ ≤ (1 + R.u) * (t + R.rnd (final - t)) := h2
      _ ≤ (1 + R.u) * ((1 + R.u) * final) := by gcongr
      _ = _ := by ring
  · rename_i h
    have h0 : 0 ≤ final := by linarith
    refine (not_lt.1 h).trans ?_
    nlinarith [mul_nonneg h0 hu, mul_nonneg (mul_nonneg h0 hu) hu]

theorem clipMilestone_good {ms : Option (List ℚ)} {t v : ℚ} (hv : 0 < v) (hf : R.IsFloat v) :
    0 < clipMilestone R.rnd ms t v ∧ R.IsFloat (clipMilestone R.rnd ms t v) := by
  unfold clipMilestone
  split
  · exact ⟨hv, hf⟩
  · rename_i m hm
    have := nextMilestone_lt hm
    split
    · exact ⟨rnd_pos R (by linarith), isFloat_rnd R _⟩
    · exact ⟨hv, hf⟩

theorem clipMilestone_le {ms : Option (List ℚ)} {t v : ℚ}
    (hms : ∀ l, ms = some l → ∀ m ∈ l, R.IsFloat m) (hf : R.IsFloat v) :
    clipMilestone R.rnd ms t v ≤ v := by
  unfold clipMilestone
  split
  · exact le_rfl
  · rename_i m hm
    have hmf : R.IsFloat m := by
      cases hl : ms with
      | none => rw [hl] at hm; simp [nextMilestone] at hm
      | some l =>
        rw [hl] at hm
        exact hms l hl m (List.mem_of_find?_eq_some hm)
    split
    · rename_i h
      have := lt_of_lt_rnd R hmf h.1
      exact rnd_le_float R hf (by linarith)
    · exact le_rfl

theorem pyDiv_ok {fl : ℚ → ℚ} {v r w : ℚ} (h : pyDiv fl v r = .ok w) :
    r ≠ 0 ∧ w = fl (v / r) := by
  unfold pyDiv at h
  split at h
  · simp at h
  · rename_i h0; simp at h; exact ⟨h0, h.symm⟩

theorem onDivergence_good {a : Adaptive} {v w : ℚ} {c : Bool} (hr : 0 < a.ratio) (hv : 0 < v)
    (hf : R.IsFloat v) (h : onDivergence R.rnd a v c = .ok w) : 0 < w ∧ R.IsFloat w := by
  unfold onDivergence at h
  split at h
  · simp at h; subst h; exact ⟨hv, hf⟩
  · split at h
    · simp at h
    · split at h
      · simp at h
      · rename_i v' hv'
        obtain ⟨_, rfl⟩ := pyDiv_ok hv'
        split at h
        · simp at h
        · simp at h
          subst h
          exact ⟨rnd_pos R (by positivity), isFloat_rnd R _⟩

theorem onIterations_good {a : Adaptive} {v w : ℚ} {n : ℕ} (hr : 0 < a.ratio) (hv : 0 < v)
    (h : onIterations R.rnd a v n = .ok w) : 0 < w ∧ R.IsFloat w := by
  unfold onIterations at h
  split at h
  · simp at h; subst h; exact ⟨rnd_pos R (by positivity), isFloat_rnd R _⟩
  · obtain ⟨_, rfl⟩ := pyDiv_ok h
    exact ⟨rnd_pos R (by positivity), isFloat_rnd R _⟩

theorem afterSolve_good {cfg : Stepsize} (hp : PositiveSteps cfg) (hd : FloatData R cfg)
    {v t w : ℚ} {o : Outcome} (hv : 0 < v) (hf : R.IsFloat v)
    (h : afterSolve R.rnd cfg v t o = .ok w) : 0 < w ∧ R.IsFloat w := by
  unfold afterSolve at h
  split at h
  · unfold adapt at h
    split at h
    · simp at h
    · rename_i v' hv'
      simp at h
      subst h
      suffices h' : 0 < v' ∧ R.IsFloat v' from clipMilestone_good R h'.1 h'.2
      unfold adaptAdaptive at hv'
      split at hv'
      · simp at hv'; subst hv'; exact ⟨hv, hf⟩
      · rename_i a ha
        obtain ⟨hr, hm⟩ := hp.2 a ha
        split at hv'
        · simp at hv'
        · rename_i v1 hv1
          have h1 := onDivergence_good R hr hv hf hv1
          split at hv'
          · simp at hv'
          · rename_i v2 hv2
            have h2 := onIterations_good R hr h1.1 hv2
            obtain ⟨_, h3 | ⟨m, h3, _, h4⟩⟩ := cap_ok hv'
            · rw [h3.2]; exact h2
            · rcases h4 with rfl | rfl
              · exact ⟨hm _ _ h3, hd.cap a ha _ _ h3⟩
              · exact h2
  · simp at h; subst h; exact ⟨hv, hf⟩

end

/-! ## Invariant of a run -/

theorem log_loopHead {fl : ℚ → ℚ} {final t v : ℚ} {l : List StepRec} :
    (loopHead fl final t v l).log = l := by
  unfold loopHead; split <;> rfl

theorem solving_loopHead {fl : ℚ → ℚ} {final t v : ℚ} {l : List StepRec}
    (h : Solving (loopHead fl final t v l)) : loopGuard fl final t = true ∧
      loopHead fl final t v l =
        { t := fl (t + v), value := v, phase := .solving v 0, log := l } := by
  unfold loopHead at h ⊢
  split at h
  · rename_i hg; simp [hg]
  · obtain ⟨nom, k, hk⟩ := h; simp at hk

/-- Positive floating-point steps, non-decreasing positive floating-point times. -/
structure Good (R : Rounding) (s : RunState) : Prop where
  pairwise : (0 :: s.times).Pairwise (· ≤ ·)
  recs : ∀ r ∈ s.log, 0 < r.t ∧ R.IsFloat r.t ∧ 0 < r.dtExtrinsic ∧ R.IsFloat r.dtExtrinsic ∧
    0 < r.dtNominal ∧ R.IsFloat r.dtUsed
  cur : Solving s → 0 < s.value ∧ R.IsFloat s.value ∧ 0 < s.t ∧ R.IsFloat s.t ∧
    ∀ x ∈ 0 :: s.times, x ≤ s.t
  nom : ∀ n k, s.phase = .solving n k → 0 < n

theorem good_start (R : Rounding) {cfg : Stepsize} {final : ℚ} (hp : PositiveSteps cfg)
    (hd : FloatData R cfg) : Good R (start R.rnd cfg final) := by
  unfold start loopHead
  split
  · have h0 : 0 < R.rnd (0 + cfg.initialValue) := rnd_pos R (by simpa using hp.1)
    refine ⟨by simp [RunState.times], by simp, fun _ => ⟨hp.1, hd.initial, h0, isFloat_rnd R _, ?_⟩,
      ?_⟩
    · simpa [RunState.times] using h0.le
    · intro n k h
      simp at h
      rw [← h.1]; exact hp.1
  · refine ⟨by simp [RunState.times], by simp, ?_, by simp⟩
    rintro ⟨_, _, h⟩; simp at h

theorem good_step (R : Rounding) {cfg : Stepsize} {final : ℚ} (hpos : PositiveSteps cfg)
    (hd : FloatData R cfg) {s : RunState} (o : Outcome) (h : Good R s) :
    Good R (step R.rnd cfg final s o) := by
  cases hp : s.phase with
  | finished => rw [step_finished o hp]; exact h
  | raised e => rw [step_raised o hp]; exact h
  | solving nom k =>
    obtain ⟨hv, hvf, ht, htf, hc⟩ := h.cur ⟨nom, k, hp⟩
    have hn := h.nom nom k hp
    cases ha : afterSolve R.rnd cfg s.value s.t o with
    | error e =>
      rw [step_error hp ha]
      refine ⟨h.pairwise, h.recs, ?_, by simp⟩
      rintro ⟨_, _, h⟩; simp at h
    | ok v =>
      obtain ⟨hvp, hvf'⟩ := afterSolve_good R hpos hd hv hvf ha
      cases ho : o.converged with
      | false =>
        rw [step_retry hp ha ho]
        refine ⟨h.pairwise, h.recs, fun _ => ⟨hvp, hvf', ht, htf, hc⟩, ?_⟩
        intro n' k' h'
        simp at h'
        rw [← h'.1]; exact hn
      | true =>
        rw [step_accept hp ha ho]
        have hpw : (0 :: (s.times ++ [s.t])).Pairwise (· ≤ ·) := by
          rw [← List.cons_append, List.pairwise_append]
          exact ⟨h.pairwise, by simp, by simpa using hc⟩
        refine ⟨?_, ?_, ?_, ?_⟩
        · simpa [RunState.times, log_loopHead] using hpw
        · rw [log_loopHead]
          intro r hr
          rw [List.mem_append, List.mem_singleton] at hr
          rcases hr with hr | rfl
          · exact h.recs r hr
          · exact ⟨ht, htf, hvp, hvf', hn, hvf⟩
        · intro hs
          obtain ⟨hg, hs⟩ := solving_loopHead hs
          rw [hs]
          have hcp := clipFinal_pos R (guard_lt hg) hvp
          have hle : s.t ≤ R.rnd (s.t + clipFinal R.rnd final s.t v) :=
            le_rnd_float R htf (by linarith)
          refine ⟨hcp, clipFinal_float R hvf', by simp only; linarith, isFloat_rnd R _, ?_⟩
          intro x hx
          simp only [RunState.times, List.map_append, List.map_cons, List.map_nil] at hx
          rw [← List.cons_append, List.mem_append] at hx
          rcases hx with hx | hx
          · exact (hc x hx).trans hle
          · simp at hx; subst hx; exact hle
        · intro n' k' h'
          obtain ⟨hg, hs⟩ := solving_loopHead ⟨n', k', h'⟩
          rw [hs] at h'
          simp at h'
          rw [← h'.1]
          exact clipFinal_pos R (guard_lt hg) hvp

theorem good (R : Rounding) {cfg : Stepsize} {final : ℚ} (hp : PositiveSteps cfg)
    (hd : FloatData R cfg) (outs : List Outcome) : Good R (run R.rnd cfg final outs) :=
  run_induction (good_start R hp hd) (fun _ o => good_step R hp hd o) outs

theorem linked {fl : ℚ → ℚ} {cfg : Stepsize} {final : ℚ} {outs : List Outcome} (i : ℕ)
    (h : i + 1 < (run fl cfg final outs).log.length) :
    Linked fl final (run fl cfg final outs).log[i] (run fl cfg final outs).log[i + 1].t
      (run fl cfg final outs).log[i + 1].dtNominal :=
  List.isChain_iff_getElem.1 (trace fl cfg final outs).chain i h

theorem recOK {fl : ℚ → ℚ} {cfg : Stepsize} {final : ℚ} {outs : List Outcome} (i : ℕ)
    (h : i < (run fl cfg final outs).log.length) : RecOK fl cfg (run fl cfg final outs).log[i] :=
  (trace fl cfg final outs).recs _ (List.getElem_mem h)

theorem head_time {fl : ℚ → ℚ} {cfg : Stepsize} {final : ℚ} {outs : List Outcome}
    (h : 0 < (run fl cfg final outs).log.length) :
    (run fl cfg final outs).log[0].t = fl (0 + cfg.initialValue) ∧
    (run fl cfg final outs).log[0].dtNominal = cfg.initialValue ∧ loopGuard fl final 0 = true := by
  apply (trace fl cfg final outs).head
  rw [List.head?_eq_getElem?]
  simp [h]

theorem last_of_solving {fl : ℚ → ℚ} {cfg : Stepsize} {final : ℚ} {outs : List Outcome}
    (h : Solving (run fl cfg final outs)) : ∀ r ∈ (run fl cfg final outs).log,
      loopGuard fl final r.t = true := by
  intro r hr
  obtain ⟨i, hi, rfl⟩ := List.getElem_of_mem hr
  obtain ⟨nom, k, hs⟩ := h
  by_cases hl : i + 1 < (run fl cfg final outs).log.length
  · exact (linked i hl).guard
  · have := ((trace fl cfg final outs).solving nom k hs).2.1 ((run fl cfg final outs).log[i]) (by
      rw [List.getLast?_eq_getElem?]
      have : (run fl cfg final outs).log.length - 1 = i := by omega
      rw [this]; simp [hi])
    exact this.guard

end Festim.Fl
