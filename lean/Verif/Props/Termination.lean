import Verif.Props.TimeStepping
import Mathlib.Algebra.Order.Floor.Ring
import Mathlib.Data.Rat.Floor
import Mathlib.Algebra.Order.Ring.Pow

/-!
# Termination, livelock and dt_min (C04, C10, C11, C14, C15)
-/

namespace Festim.Props

open Run Spec

/-! ## C04 -/

/-- C04: constant stepsize `h`, solver always converging: the `k`-th accepted time is
`min (k*h) final`, as many steps as solves are accepted until the run returns, and it has returned
after `⌈final/h⌉` solves. -/
theorem C04_uniform_grid (h final : ℚ) (h0 : 0 < h) (hf : h ≤ final) (outs : List Outcome)
    (hc : ∀ o ∈ outs, o.converged = true) (s : RunState)
    (hs : s = run (Stepsize.new { initialValue := h }) final outs) :
    (∀ i, ∀ hi : i < s.times.length, s.times[i] = min ((i + 1 : ℕ) * h) final) ∧
    ¬ Raised s ∧ (¬ Returned s → s.times.length = outs.length) ∧
    (⌈final / h⌉₊ ≤ outs.length → Returned s) := by
  set cfg := Stepsize.new { initialValue := h } with hcfg
  have hini : cfg.initialValue = h := rfl
  have hfin : 0 < final := by linarith
  have hsolve : ∀ v t o, afterSolve cfg v t o = .ok v := by
    intro v t o
    simp [afterSolve, hcfg, Stepsize.new, setMilestones]
  have inv : (∀ i, ∀ hi : i < s.log.length, s.log[i].t = min ((i + 1 : ℕ) * h) final) ∧
      ¬ Raised s ∧
      (Solving s → (s.t = (s.log.length + 1 : ℕ) * h ∧ s.value = h ∧ s.t ≤ final) ∨
        (s.t = final ∧ final ≤ (s.log.length + 1 : ℕ) * h)) := by
    subst hs
    refine run_induction_mem (P := fun s =>
      (∀ i, ∀ hi : i < s.log.length, s.log[i].t = min ((i + 1 : ℕ) * h) final) ∧
      ¬ Raised s ∧
      (Solving s → (s.t = (s.log.length + 1 : ℕ) * h ∧ s.value = h ∧ s.t ≤ final) ∨
        (s.t = final ∧ final ≤ (s.log.length + 1 : ℕ) * h)))
      (Q := fun o => o.converged = true) ?_ ?_ outs hc
    · have : start cfg final = { t := h, value := h, phase := .solving h 0, log := [] } := by
        simp [start, loopHead, loopGuard_zero hfin, hini]
      rw [this]
      refine ⟨by simp, by rintro ⟨e, he⟩; simp at he, fun _ => .inl ?_⟩
      simp [hf]
    · rintro s o ho ⟨h1, h2, h3⟩
      cases hp : s.phase with
      | finished => rw [step_finished o hp]; exact ⟨h1, h2, h3⟩
      | raised e => exact absurd ⟨e, hp⟩ h2
      | solving nom k =>
        rw [step_accept hp (hsolve _ _ _) ho]
        have h3 := h3 ⟨nom, k, hp⟩
        have hst : s.t = min ((s.log.length + 1 : ℕ) * h) final := by
          rcases h3 with ⟨a, _, b⟩ | ⟨a, b⟩
          · rw [← a, min_eq_left b]
          · rw [a, min_eq_right b]
        refine ⟨?_, ?_, ?_⟩
        · rw [log_loopHead]
          intro i hi
          rw [List.length_append, List.length_singleton] at hi
          rw [List.getElem_append]
          split
          · rename_i hlt; exact h1 i hlt
          · have : i = s.log.length := by omega
            subst this
            simpa using hst
        · rintro ⟨e, he⟩
          unfold loopHead at he
          split at he <;> simp at he
        · intro hsol
          obtain ⟨hg, he⟩ := solving_loopHead hsol
          rw [he]
          have hlt := loopGuard_lt hg
          simp only [List.length_append, List.length_singleton]
          rcases h3 with ⟨a, b, _⟩ | ⟨a, _⟩
          · rw [b]
            unfold clipFinal
            split
            · right
              refine ⟨by ring, ?_⟩
              rename_i hcl
              push_cast at a ⊢
              rw [a] at hcl
              linarith
            · left
              rename_i hcl
              refine ⟨?_, rfl, not_lt.1 hcl⟩
              push_cast at a ⊢
              rw [a]; ring
          · linarith
  have hcnt : Solving s → s.log.length = outs.length := by
    intro hsol
    rw [hs] at hsol ⊢
    have := congrArg List.length (C09_accepted_are_converged cfg final outs hsol)
    rw [List.length_map, List.length_map, List.filter_eq_self.2 hc] at this
    exact this
  have hph : ¬ Returned s → Solving s := by
    intro hn
    cases hp : s.phase with
    | finished => exact absurd hp hn
    | raised e => exact absurd ⟨e, hp⟩ inv.2.1
    | solving nom k => exact ⟨nom, k, hp⟩
  refine ⟨?_, inv.2.1, ?_, ?_⟩
  · intro i hi
    simp only [RunState.times, List.getElem_map]
    exact inv.1 i (by simpa [RunState.times] using hi)
  · intro hn
    simpa [RunState.times] using hcnt (hph hn)
  · intro hlen
    by_contra hn
    have hsol := hph hn
    have hl := hcnt hsol
    have hpos : 0 < s.log.length := by
      rw [hl]
      have : 0 < ⌈final / h⌉₊ := Nat.ceil_pos.2 (by positivity)
      omega
    have hlast := inv.1 (s.log.length - 1) (by omega)
    have hg : loopGuard final (s.log[s.log.length - 1]).t = true := by
      subst hs
      exact last_of_solving hsol _ (List.getElem_mem _)
    have hlt := loopGuard_lt hg
    rw [hlast, hl] at hlt
    have hle : final / h ≤ (outs.length : ℚ) :=
      le_trans (Nat.le_ceil _) (by exact_mod_cast hlen)
    rw [div_le_iff₀ h0] at hle
    have he : outs.length - 1 + 1 = outs.length := by omega
    rw [he] at hlt
    rw [min_eq_right hle] at hlt
    exact lt_irrefl _ hlt

example : (0 : ℚ) < 3 ∧ (3 : ℚ) ≤ 10 ∧
    (run (Stepsize.new { initialValue := 3 }) 10 exOuts).times = [3, 6, 9, 10] := by
  decide +kernel

/-! ## C10 -/

theorem afterSolve_diverged {cfg : Stepsize} {a : Adaptive} (ha : cfg.adaptive = some a)
    {v t w : ℚ} {o : Outcome} (ho : o.converged = false) (hn : 5 ≤ o.nbIt)
    (h : afterSolve cfg v t o = .ok w) :
    ∃ m, a.dtMin = some m ∧ m ≤ v / a.ratio ∧ w ≤ v / a.ratio ^ 2 := by
  unfold afterSolve Stepsize.adapt adaptAdaptive at h
  rw [ha, ho] at h
  simp only [Option.isSome_some, Bool.true_or, if_true] at h
  cases hd : a.onDivergence v false with
  | error e => simp [hd] at h
  | ok v1 =>
    obtain ⟨m, hm, _, rfl, hle⟩ := onDivergence_false hd
    cases hi2 : a.onIterations (v / a.ratio) o.nbIt with
    | error e => simp [hd, hi2] at h
    | ok v2 =>
      rcases onIterations_ok hi2 with ⟨hlt, _⟩ | ⟨_, _, rfl⟩
      · omega
      · cases hc : a.cap t (v / a.ratio / a.ratio) with
        | error e => simp [hd, hi2, hc] at h
        | ok v3 =>
          simp only [hd, hi2, hc, Except.ok.injEq] at h
          refine ⟨m, hm, hle, ?_⟩
          rw [pow_two, ← div_div, ← h]
          exact (clipMilestone_le _ _ _).trans (cap_ok hc).1

theorem afterSolve_diverged_error {cfg : Stepsize} {a : Adaptive} (ha : cfg.adaptive = some a) (hr : a.ratio ≠ 0)
    {m : ℚ} (hm : a.dtMin = some m) {v t : ℚ} {o : Outcome} (ho : o.converged = false) {e : PyErr}
    (h : afterSolve cfg v t o = .error e) :
    e = .valueError "stepsize reached minimal value" ∧ v / a.ratio < m ∨ a.maxStep.eval t = .error e := by
  unfold afterSolve Stepsize.adapt adaptAdaptive at h
  rw [ha, ho] at h
  simp only [Option.isSome_some, Bool.true_or, if_true] at h
  have hd : a.onDivergence v false = if v / a.ratio < m then
      .error (.valueError "stepsize reached minimal value") else .ok (v / a.ratio) := by
    simp [Adaptive.onDivergence, hm, pyDiv, hr]
  rw [hd] at h
  split_ifs at h with hlt
  · left
    simp only [Except.error.injEq] at h
    exact ⟨h.symm, hlt⟩
  · right
    have hi : ∃ w, a.onIterations (v / a.ratio) o.nbIt = .ok w := by
      unfold Adaptive.onIterations pyDiv
      split_ifs
      · exact ⟨_, rfl⟩
      · exact ⟨_, rfl⟩
    obtain ⟨w, hw⟩ := hi
    simp only [hw] at h
    cases hc : a.cap t w with
    | ok v3 => simp [hc] at h
    | error e' =>
      simp only [hc, Except.error.injEq] at h
      subst h
      unfold Adaptive.cap at hc
      split at hc
      · rename_i e' he; simp only [Except.error.injEq] at hc; rw [he, hc]
      · simp at hc
      · split at hc <;> simp at hc

/-- C10 (a): from any reachable state, diverging solves with 5 iterations or more: as soon as
`value < dt_min * r^(2n-1)`, `n` of them make the run raise "stepsize reached minimal value" (or the exception of a
`max_stepsize` function which cannot be evaluated at this time); nothing is accepted meanwhile. -/
theorem C10_divergence_raises (cfg : Stepsize) (final : ℚ) (outs : List Outcome) (a : Adaptive)
    (ha : cfg.adaptive = some a) (hr : 1 < a.ratio) (m : ℚ) (hm : a.dtMin = some m)
    (hs : Solving (run cfg final outs)) (fails : List Outcome)
    (hf : ∀ o ∈ fails, o.converged = false ∧ 5 ≤ o.nbIt) (hne : fails ≠ [])
    (hb : (run cfg final outs).value < m * a.ratio ^ (2 * fails.length - 1)) :
    ((run cfg final (outs ++ fails)).phase = .raised (.valueError "stepsize reached minimal value") ∨
      ∃ e, a.maxStep.eval (run cfg final outs).t = .error e ∧ (run cfg final (outs ++ fails)).phase = .raised e) ∧
    (run cfg final (outs ++ fails)).log = (run cfg final outs).log := by
  have hr0 : 0 < a.ratio := by linarith
  rw [run_append]
  have key : ∀ (fails : List Outcome) (s : RunState),
      (∀ o ∈ fails, o.converged = false ∧ 5 ≤ o.nbIt) → Solving s →
      (((fails.foldl (step cfg final) s).phase = .raised (.valueError "stepsize reached minimal value") ∨
          ∃ e, a.maxStep.eval s.t = .error e ∧ (fails.foldl (step cfg final) s).phase = .raised e) ∨
        (Solving (fails.foldl (step cfg final) s) ∧
          (fails ≠ [] → m * a.ratio ^ (2 * fails.length - 1) ≤ s.value))) ∧
      (fails.foldl (step cfg final) s).log = s.log := by
    intro fails
    induction fails with
    | nil => intro s _ h; exact ⟨.inr ⟨h, fun h => absurd rfl h⟩, rfl⟩
    | cons o os ih =>
      intro s hos h
      rw [List.foldl_cons]
      obtain ⟨nom, k, hp⟩ := h
      · obtain ⟨ho1, ho2⟩ := hos o (by simp)
        cases hsv : afterSolve cfg s.value s.t o with
        | error e =>
          rw [step_error hp hsv]
          have hst := foldl_stuck (cfg := cfg) (final := final) os
            (fun o => step_raised (s := { s with phase := .raised e }) o rfl)
          rw [hst]
          refine ⟨.inl ?_, rfl⟩
          rcases afterSolve_diverged_error ha hr0.ne' hm ho1 hsv with ⟨rfl, -⟩ | h
          · exact .inl rfl
          · exact .inr ⟨e, h, rfl⟩
        | ok v =>
          obtain ⟨m', hm', hle, hv⟩ := afterSolve_diverged ha ho1 ho2 hsv
          rw [hm] at hm'; simp at hm'; subst hm'
          rw [step_retry hp hsv ho1]
          obtain ⟨h1, h2⟩ := ih { s with value := v, phase := .solving nom (k + 1) }
            (fun o ho => hos o (by simp [ho])) ⟨_, _, rfl⟩
          refine ⟨?_, h2⟩
          rcases h1 with h1 | ⟨h1, h3⟩
          · exact .inl h1
          · right
            refine ⟨h1, fun _ => ?_⟩
            cases hos' : os with
            | nil =>
              simp
              rwa [le_div_iff₀ hr0] at hle
            | cons o' os' =>
              have h4 := h3 (by simp [hos'])
              rw [hos'] at h4
              simp only [List.length_cons] at h4 ⊢
              have h5 : 2 * (os'.length + 1 + 1) - 1 = (2 * (os'.length + 1) - 1) + 2 := by omega
              rw [h5, pow_add, ← mul_assoc]
              rw [← le_div_iff₀ (by positivity)]
              exact h4.trans hv
  obtain ⟨h1, h2⟩ := key fails (run cfg final outs) hf hs
  refine ⟨?_, h2⟩
  rcases h1 with h1 | ⟨_, h3⟩
  · exact h1
  · exact absurd (h3 hne) (not_le.2 hb)

/-- C10 (b): hence a bounded number of attempts, from Bernoulli's inequality. -/
theorem C10_bounded_attempts (cfg : Stepsize) (final : ℚ) (outs : List Outcome) (a : Adaptive)
    (ha : cfg.adaptive = some a) (hr : 1 < a.ratio) (m : ℚ) (hm : a.dtMin = some m) (hm0 : 0 < m)
    (hs : Solving (run cfg final outs)) (fails : List Outcome)
    (hf : ∀ o ∈ fails, o.converged = false ∧ 5 ≤ o.nbIt)
    (hlen : ⌈(run cfg final outs).value / (m * (a.ratio - 1))⌉₊ + 1 ≤ fails.length) :
    (run cfg final (outs ++ fails)).phase = .raised (.valueError "stepsize reached minimal value") ∨
      ∃ e, a.maxStep.eval (run cfg final outs).t = .error e ∧ (run cfg final (outs ++ fails)).phase = .raised e := by
  have hne : fails ≠ [] := by rintro rfl; simp at hlen
  refine (C10_divergence_raises cfg final outs a ha hr m hm hs fails hf hne ?_).1
  have hr1 : 0 < a.ratio - 1 := by linarith
  have h1 : (run cfg final outs).value / (m * (a.ratio - 1)) ≤ (fails.length - 1 : ℕ) :=
    (Nat.le_ceil _).trans (by exact_mod_cast by omega)
  rw [div_le_iff₀ (by positivity)] at h1
  have h2 := one_add_mul_le_pow (a := a.ratio - 1) (by linarith) (fails.length - 1)
  have h3 : a.ratio ^ (fails.length - 1) ≤ a.ratio ^ (2 * fails.length - 1) :=
    pow_le_pow_right₀ hr.le (by omega)
  rw [add_sub_cancel] at h2
  have h4 : m * (1 + ((fails.length - 1 : ℕ) : ℚ) * (a.ratio - 1)) ≤
      m * a.ratio ^ (2 * fails.length - 1) :=
    mul_le_mul_of_nonneg_left (h2.trans h3) hm0.le
  have h5 : m * (1 + ((fails.length - 1 : ℕ) : ℚ) * (a.ratio - 1)) =
      m + ((fails.length - 1 : ℕ) : ℚ) * (m * (a.ratio - 1)) := by ring
  linarith

/-- C10 (c): each of these failed attempts divides the stepsize by `r²` at least; time and accepted steps stay. -/
theorem C10_factor (cfg : Stepsize) (final : ℚ) (outs : List Outcome) (a : Adaptive)
    (ha : cfg.adaptive = some a) (hs : Solving (run cfg final outs)) (o : Outcome)
    (ho : o.converged = false ∧ 5 ≤ o.nbIt) (hs' : Solving (run cfg final (outs ++ [o]))) :
    (run cfg final (outs ++ [o])).value ≤ (run cfg final outs).value / (a.ratio * a.ratio) ∧
    (run cfg final (outs ++ [o])).t = (run cfg final outs).t ∧
    (run cfg final (outs ++ [o])).log = (run cfg final outs).log := by
  obtain ⟨nom, k, hp⟩ := hs
  rw [run_concat] at hs' ⊢
  cases hsv : afterSolve cfg (run cfg final outs).value (run cfg final outs).t o with
  | error e =>
    rw [step_error hp hsv] at hs'
    obtain ⟨_, _, h⟩ := hs'
    simp at h
  | ok v =>
    obtain ⟨m, -, -, hv⟩ := afterSolve_diverged ha ho.1 ho.2 hsv
    rw [step_retry hp hsv ho.1]
    exact ⟨by rw [← pow_two]; exact hv, rfl, rfl⟩

example : Solving (run exCfg 10 exOuts2) ∧ (run exCfg 10 exOuts2).value = 1 / 2 ∧
    (run exCfg 10 (exOuts2 ++ List.replicate 6 ⟨50, false⟩)).phase =
      .raised (.valueError "stepsize reached minimal value") := by
  refine ⟨⟨1 / 2, 0, ?_⟩, ?_⟩ <;> decide +kernel

/-! ## C11 -/

/-- C11 (a): without adaptive stepsize a diverging solver makes `run()` hang: after any number of
diverged solves it is still solving at the same time and has accepted nothing more. -/
theorem C11_hang_not_adaptive (cfg : Stepsize) (final : ℚ) (outs : List Outcome)
    (ha : cfg.adaptive = none) (hs : Solving (run cfg final outs)) (fails : List Outcome)
    (hf : ∀ o ∈ fails, o.converged = false) :
    Solving (run cfg final (outs ++ fails)) ∧
    (run cfg final (outs ++ fails)).t = (run cfg final outs).t ∧
    (run cfg final (outs ++ fails)).log = (run cfg final outs).log := by
  rw [run_append]
  generalize run cfg final outs = s at hs
  induction fails generalizing s with
  | nil => exact ⟨hs, rfl, rfl⟩
  | cons o os ih =>
    obtain ⟨nom, k, hp⟩ := hs
    have : ∃ v, afterSolve cfg s.value s.t o = .ok v := by
      unfold afterSolve
      split
      · simp [Stepsize.adapt, ha, adaptAdaptive]
      · exact ⟨_, rfl⟩
    obtain ⟨v, hv⟩ := this
    rw [List.foldl_cons, step_retry hp hv (hf o (by simp))]
    obtain ⟨h1, h2, h3⟩ := ih (fun o ho => hf o (by simp [ho]))
      { s with value := v, phase := .solving nom (k + 1) } ⟨_, _, rfl⟩
    exact ⟨h1, h2, h3⟩

/-- the value left by a failed solve with less than 5 iterations is a fixed point of `adapt` -/
theorem afterSolve_fixpoint {cfg : Stepsize} {a : Adaptive} (ha : cfg.adaptive = some a)
    {m : ℚ} (hm : a.dtMin = some m) {v t w : ℚ} {o o' : Outcome} (ho : o.converged = false)
    (hn : o.nbIt < 5) (h : afterSolve cfg v t o = .ok w) (hw : m ≤ w / a.ratio)
    (ho' : o'.converged = false) (hn' : o'.nbIt < 5) : afterSolve cfg w t o' = .ok w := by
  unfold afterSolve Stepsize.adapt adaptAdaptive at h
  rw [ha, ho] at h
  simp only [Option.isSome_some, Bool.true_or, if_true] at h
  cases hd : a.onDivergence v false with
  | error e => simp [hd] at h
  | ok v1 =>
    obtain ⟨m', _, hr0, rfl, hle⟩ := onDivergence_false hd
    cases hi2 : a.onIterations (v / a.ratio) o.nbIt with
    | error e => simp [hd, hi2] at h
    | ok v2 =>
      rcases onIterations_ok hi2 with ⟨_, rfl⟩ | ⟨hlt, _, _⟩
      · cases hc : a.cap t (v / a.ratio * a.ratio) with
        | error e => simp [hd, hi2, hc] at h
        | ok v3 =>
          simp only [hd, hi2, hc, Except.ok.injEq] at h
          have hwv3 : w ≤ v3 := by rw [← h]; exact clipMilestone_le _ _ _
          have hcap : a.cap t w = .ok w := by
            rcases (cap_ok hc).2 with ⟨he, _⟩ | ⟨M, he, hle', _⟩
            · simp [Adaptive.cap, he]
            · simp only [Adaptive.cap, he]
              rw [if_neg (not_lt.2 (hwv3.trans hle'))]
          have hclip : clipMilestone cfg.milestones t w = w := by
            rw [← h]
            cases hnm : nextMilestone cfg.milestones t with
            | none => simp [clipMilestone, hnm]
            | some mm =>
              simp only [clipMilestone, hnm]
              by_cases hcond : mm < t + v3 ∧ ¬ (isclose t mm = true)
              · rw [if_pos hcond]; simp
              · rw [if_neg hcond, if_neg hcond]
          unfold afterSolve Stepsize.adapt adaptAdaptive
          rw [ha, ho']
          simp only [Option.isSome_some, Bool.true_or, if_true]
          have h1 : a.onDivergence w false = .ok (w / a.ratio) := by
            simp [Adaptive.onDivergence, hm, pyDiv, hr0, not_lt.2 hw]
          have h2 : a.onIterations (w / a.ratio) o'.nbIt = .ok w := by
            simp [Adaptive.onIterations, hn', div_mul_cancel₀ _ hr0]
          simp only [h1, h2, hcap, hclip]
      · omega

/-- C11 (b): adaptive run, diverged solves reporting less than 5 iterations.  If the first of them
does not raise and leaves a stepsize `w` with `w/ratio ≥ dt_min`, then no number of further such
failures changes anything: the run hangs with stepsize `w`. -/
theorem C11_hang_adaptive (cfg : Stepsize) (final : ℚ) (outs : List Outcome) (a : Adaptive)
    (ha : cfg.adaptive = some a) (m : ℚ) (hm : a.dtMin = some m) (o : Outcome)
    (ho : o.converged = false) (hn : o.nbIt < 5)
    (hs : Solving (run cfg final outs)) (w : ℚ)
    (hs' : Solving (run cfg final (outs ++ [o]))) (hw : (run cfg final (outs ++ [o])).value = w)
    (hwm : m ≤ w / a.ratio) (fails : List Outcome)
    (hf : ∀ o ∈ fails, o.converged = false ∧ o.nbIt < 5) :
    Solving (run cfg final (outs ++ [o] ++ fails)) ∧
    (run cfg final (outs ++ [o] ++ fails)).value = w ∧
    (run cfg final (outs ++ [o] ++ fails)).t = (run cfg final outs).t ∧
    (run cfg final (outs ++ [o] ++ fails)).log = (run cfg final outs).log := by
  obtain ⟨nom, k, hp⟩ := hs
  rw [run_append]
  have hstep : ∃ v, afterSolve cfg (run cfg final outs).value (run cfg final outs).t o = .ok v := by
    cases hv : afterSolve cfg (run cfg final outs).value (run cfg final outs).t o with
    | ok v => exact ⟨v, rfl⟩
    | error e =>
      rw [run_concat, step_error hp hv] at hs'
      obtain ⟨_, _, h⟩ := hs'
      simp at h
  obtain ⟨v, hv⟩ := hstep
  have hrun : run cfg final (outs ++ [o]) =
      { run cfg final outs with value := v, phase := .solving nom (k + 1) } := by
    rw [run_concat, step_retry hp hv ho]
  have hvw : v = w := by rw [← hw, hrun]
  subst hvw
  have key : ∀ (fails : List Outcome) (s : RunState), Solving s → s.value = v →
      s.t = (run cfg final outs).t → (∀ o ∈ fails, o.converged = false ∧ o.nbIt < 5) →
      Solving (fails.foldl (step cfg final) s) ∧ (fails.foldl (step cfg final) s).value = v ∧
      (fails.foldl (step cfg final) s).t = s.t ∧
      (fails.foldl (step cfg final) s).log = s.log := by
    intro fails
    induction fails with
    | nil => intro s h1 h2 _ _; exact ⟨h1, h2, rfl, rfl⟩
    | cons o' os ih =>
      rintro s ⟨nom', k', hp'⟩ h2 h3 hos
      obtain ⟨ho1, ho2⟩ := hos o' (by simp)
      have hfix : afterSolve cfg s.value s.t o' = .ok v := by
        rw [h2, h3]
        exact afterSolve_fixpoint ha hm ho hn hv hwm ho1 ho2
      rw [List.foldl_cons, step_retry hp' hfix ho1]
      exact ih { s with value := v, phase := .solving nom' (k' + 1) } ⟨_, _, rfl⟩ rfl h3
        (fun o ho => hos o (by simp [ho]))
  have := key fails (run cfg final (outs ++ [o])) hs' hw (by rw [hrun]) hf
  rw [hrun] at this ⊢
  exact this

/-- C11 (c): exactly when an adaptive run hangs.  With failures reporting less than 5 iterations the first two
decide: if the run has not raised after two of them it never will, otherwise it has raised "stepsize reached minimal value"
(if `max_stepsize` can be evaluated and the change ratio is not zero). -/
theorem C11_exact (cfg : Stepsize) (final : ℚ) (outs : List Outcome) (a : Adaptive)
    (ha : cfg.adaptive = some a) (hr : a.ratio ≠ 0) (m : ℚ) (hm : a.dtMin = some m)
    (hs : Solving (run cfg final outs)) (hcap : ∃ c, a.maxStep.eval (run cfg final outs).t = .ok c)
    (o₁ o₂ : Outcome) (h₁ : o₁.converged = false ∧ o₁.nbIt < 5) (h₂ : o₂.converged = false ∧ o₂.nbIt < 5)
    (fails : List Outcome) (hf : ∀ o ∈ fails, o.converged = false ∧ o.nbIt < 5) :
    let s₁ := run cfg final (outs ++ [o₁])
    let s := run cfg final (outs ++ [o₁, o₂] ++ fails)
    (Solving s ↔ m ≤ (run cfg final outs).value / a.ratio ∧ m ≤ s₁.value / a.ratio) ∧
    (¬ Solving s → s.phase = .raised (.valueError "stepsize reached minimal value")) := by
  obtain ⟨nom, k, hp⟩ := hs
  obtain ⟨c, hc⟩ := hcap
  intro s₁ s
  have hsplit : outs ++ [o₁, o₂] ++ fails = outs ++ [o₁] ++ (o₂ :: fails) := by simp
  cases hv : afterSolve cfg (run cfg final outs).value (run cfg final outs).t o₁ with
  | error e =>
    have hs1 : s₁ = { run cfg final outs with phase := .raised e } := by
      simp only [s₁]; rw [run_concat, step_error hp hv]
    have hss : s = { run cfg final outs with phase := .raised e } := by
      simp only [s]
      rw [hsplit, run_append]
      rw [show run cfg final (outs ++ [o₁]) = _ from hs1]
      exact foldl_stuck (cfg := cfg) (final := final) _
        (fun o => step_raised (s := { run cfg final outs with phase := .raised e }) o rfl)
    rcases afterSolve_diverged_error ha hr hm h₁.1 hv with ⟨rfl, hlt⟩ | h
    · rw [hss]
      refine ⟨⟨?_, fun h => absurd h.1 (not_le.2 hlt)⟩, fun _ => rfl⟩
      rintro ⟨_, _, h⟩
      simp at h
    · rw [hc] at h; simp at h
  | ok v =>
    have hs1 : s₁ = { run cfg final outs with value := v, phase := .solving nom (k + 1) } := by
      simp only [s₁]; rw [run_concat, step_retry hp hv h₁.1]
    have hle : m ≤ (run cfg final outs).value / a.ratio := by
      obtain ⟨w, hw⟩ : ∃ w, a.onDivergence (run cfg final outs).value false = .ok w := by
        cases hd : a.onDivergence (run cfg final outs).value false with
        | ok w => exact ⟨w, rfl⟩
        | error e =>
          exfalso
          unfold afterSolve Stepsize.adapt adaptAdaptive at hv
          rw [ha, h₁.1] at hv
          simp [hd] at hv
      obtain ⟨m', hm', -, rfl, hle⟩ := onDivergence_false hw
      rw [hm] at hm'; simp only [Option.some.injEq] at hm'; subst hm'
      exact hle
    by_cases hvm : m ≤ s₁.value / a.ratio
    · have hS := C11_hang_adaptive cfg final outs a ha m hm o₁ h₁.1 h₁.2 ⟨nom, k, hp⟩ s₁.value
        (by rw [show run cfg final (outs ++ [o₁]) = _ from hs1]; exact ⟨_, _, rfl⟩) rfl hvm (o₂ :: fails)
        (by
          intro o ho
          rcases List.mem_cons.1 ho with rfl | ho
          · exact h₂
          · exact hf o ho)
      rw [← hsplit] at hS
      exact ⟨⟨fun _ => ⟨hle, hvm⟩, fun _ => hS.1⟩, fun h => absurd hS.1 h⟩
    · have hp1 : s₁.phase = .solving nom (k + 1) := by rw [hs1]
      have ht1 : s₁.t = (run cfg final outs).t := by rw [hs1]
      have herr : afterSolve cfg s₁.value s₁.t o₂ = .error (.valueError "stepsize reached minimal value") := by
        unfold afterSolve Stepsize.adapt adaptAdaptive
        rw [ha, h₂.1]
        have hd : a.onDivergence s₁.value false = .error (.valueError "stepsize reached minimal value") := by
          simp only [Adaptive.onDivergence, hm, pyDiv, if_neg hr, if_pos (not_le.1 hvm)]
          simp
        simp [hd]
      have hss : s = { s₁ with phase := .raised (.valueError "stepsize reached minimal value") } := by
        simp only [s]
        rw [hsplit, run_append, List.foldl_cons]
        rw [show run cfg final (outs ++ [o₁]) = s₁ from rfl, step_error hp1 herr]
        exact foldl_stuck (cfg := cfg) (final := final) _
          (fun o => step_raised (s := { s₁ with phase := .raised _ }) o rfl)
      rw [hss]
      refine ⟨⟨?_, fun h => absurd h.2 hvm⟩, fun _ => rfl⟩
      rintro ⟨_, _, h⟩
      simp at h

/-- C11 (d): in particular, with neither `max_stepsize` nor milestones, the run hangs exactly when the stepsize divided once
by the ratio is not below `dt_min`. -/
theorem C11_exact_plain (cfg : Stepsize) (final : ℚ) (outs : List Outcome) (a : Adaptive)
    (ha : cfg.adaptive = some a) (hr : a.ratio ≠ 0) (m : ℚ) (hm : a.dtMin = some m) (hcap : a.maxStep = .none)
    (hms : cfg.milestones = none) (hs : Solving (run cfg final outs)) (fails : List Outcome) (hne : fails ≠ [])
    (hf : ∀ o ∈ fails, o.converged = false ∧ o.nbIt < 5) :
    Solving (run cfg final (outs ++ fails)) ↔ m ≤ (run cfg final outs).value / a.ratio := by
  have hfix : ∀ o : Outcome, o.converged = false → o.nbIt < 5 → ∀ v t, afterSolve cfg v t o =
      if v / a.ratio < m then .error (.valueError "stepsize reached minimal value") else .ok v := by
    intro o h1 h2 v t
    unfold afterSolve Stepsize.adapt adaptAdaptive
    rw [ha, h1]
    by_cases h : v / a.ratio < m
    · simp [Adaptive.onDivergence, hm, pyDiv, hr, h]
    · simp [Adaptive.onDivergence, hm, pyDiv, hr, h, Adaptive.onIterations, h2, Adaptive.cap, hcap, MaxStep.eval,
        clipMilestone, hms, nextMilestone]
  rw [run_append]
  generalize run cfg final outs = s at hs
  induction fails generalizing s with
  | nil => exact absurd rfl hne
  | cons o os ih =>
    obtain ⟨nom, k, hp⟩ := hs
    obtain ⟨h1, h2⟩ := hf o (by simp)
    rw [List.foldl_cons]
    by_cases h : s.value / a.ratio < m
    · have hv := hfix o h1 h2 s.value s.t
      rw [if_pos h] at hv
      rw [step_error hp hv, foldl_stuck (cfg := cfg) (final := final) _
        (fun o => step_raised (s := { s with phase := .raised _ }) o rfl)]
      refine ⟨?_, fun h' => absurd h' (not_le.2 h)⟩
      rintro ⟨_, _, h⟩
      simp at h
    · have hv := hfix o h1 h2 s.value s.t
      rw [if_neg h] at hv
      rw [step_retry hp hv h1]
      by_cases hos : os = []
      · subst hos
        exact ⟨fun _ => not_lt.1 h, fun _ => ⟨_, _, rfl⟩⟩
      · exact ih hos (fun o ho => hf o (by simp [ho])) { s with phase := .solving nom (k + 1) } ⟨_, _, rfl⟩

example : (run exCfg 10 [⟨3, false⟩]).value = 1 ∧ (run exCfg 10 [⟨3, false⟩]).phase =
    .solving 1 1 ∧ (1 / 10 : ℚ) ≤ 1 / 2 := by decide +kernel

/-- adaptive stepsize capped at 1/8 -/
def exCapped : Stepsize := Stepsize.new { initialValue := 1, changeRatio := some 2, maxStepsize := .const (1 / 8), dtMin := some (1 / 10) }

/-- with a cap the first failure can be survived and the second one not: `1/2 ≥ 1/10` but `(1/8)/2 < 1/10` -/
example : (run exCapped 10 [⟨3, false⟩]).value = 1 / 8 ∧
    (run exCapped 10 [⟨3, false⟩, ⟨3, false⟩]).phase
      = .raised (.valueError "stepsize reached minimal value") := by decide +kernel

/-! ## C14 -/

/-- Everything `adapt` can do keeps the step at least `ε` (fast convergence, ratio at least 1). -/
structure StepsAtLeast (cfg : Stepsize) (ε : ℚ) : Prop where
  pos : 0 < ε
  initial : ε ≤ cfg.initialValue
  ratio : ∀ a, cfg.adaptive = some a → 1 ≤ a.ratio
  cap : ∀ a, cfg.adaptive = some a → ∀ t,
    a.maxStep.eval t = .ok none ∨ ∃ c, a.maxStep.eval t = .ok (some c) ∧ ε ≤ c
  milestones : ∀ ms, cfg.milestones = some ms → ∀ m ∈ ms, 0 < m → ε ≤ 1 / 100000 * m

/-- the solver always converges, and in less than 5 iterations if the stepsize is adaptive -/
def FastOutcome (cfg : Stepsize) (o : Outcome) : Prop :=
  o.converged = true ∧ (cfg.adaptive.isSome = true → o.nbIt < 5)

theorem afterSolve_atLeast {cfg : Stepsize} {ε : ℚ} (he : StepsAtLeast cfg ε) {v t : ℚ}
    {o : Outcome} (ho : FastOutcome cfg o) (hv : ε ≤ v) (ht : 0 < t) :
    ∃ w, afterSolve cfg v t o = .ok w ∧ ε ≤ w := by
  have hclip : ∀ v', ε ≤ v' → ε ≤ clipMilestone cfg.milestones t v' := by
    intro v' hv'
    unfold clipMilestone
    split
    · exact hv'
    · rename_i m hm
      split
      · rename_i hc
        have hlt := nextMilestone_lt hm
        have hmem : ∃ ms, cfg.milestones = some ms ∧ m ∈ ms := by
          unfold nextMilestone at hm
          split at hm
          · simp at hm
          · rename_i l hl
            exact ⟨l, hl, List.mem_of_find?_eq_some hm⟩
        obtain ⟨ms, hms, hin⟩ := hmem
        have h1 := he.milestones ms hms m hin (by linarith)
        have h2 := hc.2
        rw [isclose_iff, not_le, abs_of_pos (by linarith : 0 < m),
          abs_of_neg (by linarith : t - m < 0)] at h2
        linarith
      · exact hv'
  unfold afterSolve
  split
  · cases hadp : cfg.adaptive with
    | none =>
      refine ⟨clipMilestone cfg.milestones t v, ?_, hclip v hv⟩
      simp [Stepsize.adapt, hadp, adaptAdaptive]
    | some a =>
      have hn := ho.2 (by simp [hadp])
      have hr := he.ratio a hadp
      have hpos := he.pos
      have h1 : ε ≤ v * a.ratio := by nlinarith
      rcases he.cap a hadp t with hc | ⟨c, hc, hle⟩
      · refine ⟨clipMilestone cfg.milestones t (v * a.ratio), ?_, hclip _ h1⟩
        simp [Stepsize.adapt, hadp, adaptAdaptive, Adaptive.onDivergence, ho.1,
          Adaptive.onIterations, hn, Adaptive.cap, hc]
      · by_cases hlt : c < v * a.ratio
        · refine ⟨clipMilestone cfg.milestones t c, ?_, hclip _ hle⟩
          simp [Stepsize.adapt, hadp, adaptAdaptive, Adaptive.onDivergence, ho.1,
            Adaptive.onIterations, hn, Adaptive.cap, hc, hlt]
        · refine ⟨clipMilestone cfg.milestones t (v * a.ratio), ?_, hclip _ h1⟩
          simp [Stepsize.adapt, hadp, adaptAdaptive, Adaptive.onDivergence, ho.1,
            Adaptive.onIterations, hn, Adaptive.cap, hc, hlt]
  · exact ⟨v, rfl, hv⟩

/-- C14 (a): if steps cannot get below `ε` and solves converge fast, `run()` has returned once
`final ≤ n * ε` where `n` is the number of solves; it never raises. -/
theorem C14_terminates (cfg : Stepsize) (final ε : ℚ) (he : StepsAtLeast cfg ε)
    (outs : List Outcome) (ho : ∀ o ∈ outs, FastOutcome cfg o)
    (hlen : final ≤ outs.length * ε) : Returned (run cfg final outs) := by
  have inv : (∀ i, ∀ hi : i < (run cfg final outs).log.length,
        (i + 1 : ℕ) * ε ≤ (run cfg final outs).log[i].t ∨
          final ≤ (run cfg final outs).log[i].t) ∧
      ¬ Raised (run cfg final outs) ∧
      (Solving (run cfg final outs) → 0 < (run cfg final outs).t ∧
        (((run cfg final outs).log.length + 1 : ℕ) * ε ≤ (run cfg final outs).t ∧
          ε ≤ (run cfg final outs).value ∨ final ≤ (run cfg final outs).t)) := by
    refine run_induction_mem (P := fun s => (∀ i, ∀ hi : i < s.log.length,
        (i + 1 : ℕ) * ε ≤ s.log[i].t ∨ final ≤ s.log[i].t) ∧ ¬ Raised s ∧
      (Solving s → 0 < s.t ∧ ((s.log.length + 1 : ℕ) * ε ≤ s.t ∧ ε ≤ s.value ∨ final ≤ s.t)))
      (Q := FastOutcome cfg) ?_ ?_ outs ho
    · refine ⟨by simp [start, log_loopHead], ?_, ?_⟩
      · rintro ⟨e, h⟩
        unfold start loopHead at h
        split at h <;> simp at h
      · intro hs
        unfold start at hs ⊢
        rw [(solving_loopHead hs).2]
        have h1 := he.pos
        have h2 := he.initial
        simp only [zero_add, List.length_nil, Nat.cast_one, one_mul]
        exact ⟨by linarith, .inl ⟨h2, h2⟩⟩
    · rintro s o hq ⟨h1, h2, h3⟩
      cases hp : s.phase with
      | finished => rw [step_finished o hp]; exact ⟨h1, h2, h3⟩
      | raised e => exact absurd ⟨e, hp⟩ h2
      | solving nom k =>
        obtain ⟨htp, h3⟩ := h3 ⟨nom, k, hp⟩
        -- the adaptation never raises
        have hok : ∃ w, afterSolve cfg s.value s.t o = .ok w ∧
            (ε ≤ s.value → ε ≤ w) := by
          by_cases hv : ε ≤ s.value
          · obtain ⟨w, hw, hle⟩ := afterSolve_atLeast he hq hv htp
            exact ⟨w, hw, fun _ => hle⟩
          · refine ⟨?_, ?_, fun h => absurd h hv⟩
            · exact (match afterSolve cfg s.value s.t o with | .ok w => w | .error _ => 0)
            · unfold afterSolve
              split
              · cases hadp : cfg.adaptive with
                | none => simp [Stepsize.adapt, hadp, adaptAdaptive]
                | some a =>
                  have hn := hq.2 (by simp [hadp])
                  rcases he.cap a hadp s.t with hc | ⟨c, hc, _⟩
                  · simp [Stepsize.adapt, hadp, adaptAdaptive, Adaptive.onDivergence, hq.1,
                      Adaptive.onIterations, hn, Adaptive.cap, hc]
                  · by_cases hlt : c < s.value * a.ratio
                    · simp [Stepsize.adapt, hadp, adaptAdaptive, Adaptive.onDivergence, hq.1,
                        Adaptive.onIterations, hn, Adaptive.cap, hc, hlt]
                    · simp [Stepsize.adapt, hadp, adaptAdaptive, Adaptive.onDivergence, hq.1,
                        Adaptive.onIterations, hn, Adaptive.cap, hc, hlt]
              · rfl
        obtain ⟨w, hw, hwe⟩ := hok
        rw [step_accept hp hw hq.1]
        refine ⟨?_, ?_, ?_⟩
        · rw [log_loopHead]
          intro i hi
          rw [List.length_append, List.length_singleton] at hi
          rw [List.getElem_append]
          split
          · rename_i hlt; exact h1 i hlt
          · have : i = s.log.length := by omega
            subst this
            simp only [Nat.sub_self, List.getElem_cons_zero]
            rcases h3 with h | h
            · exact .inl h.1
            · exact .inr h
        · rintro ⟨e, h⟩
          unfold loopHead at h
          split at h <;> simp at h
        · intro hsol
          obtain ⟨hg, heq⟩ := solving_loopHead hsol
          rw [heq]
          have hlt := loopGuard_lt hg
          rcases h3 with ⟨ha, hb⟩ | hb
          · have hwe := hwe hb
            have hpos := he.pos
            simp only [List.length_append, List.length_singleton]
            unfold clipFinal
            split
            · exact ⟨by linarith, .inr (by linarith)⟩
            · refine ⟨by linarith, .inl ⟨?_, hwe⟩⟩
              push_cast at ha ⊢
              linarith
          · linarith
  by_contra hn
  have hsol : Solving (run cfg final outs) := by
    cases hp : (run cfg final outs).phase with
    | finished => exact absurd hp hn
    | raised e => exact absurd ⟨e, hp⟩ inv.2.1
    | solving nom k => exact ⟨nom, k, hp⟩
  have hl : (run cfg final outs).log.length = outs.length := by
    have := congrArg List.length (C09_accepted_are_converged cfg final outs hsol)
    rw [List.length_map, List.length_map, List.filter_eq_self.2 (fun o h => (ho o h).1)] at this
    exact this
  rcases Nat.eq_zero_or_pos outs.length with h0 | hpos
  · rw [h0] at hlen
    simp at hlen
    rw [List.length_eq_zero_iff] at h0
    subst h0
    unfold Run.run at hsol
    simp [start] at hsol
    have := loopGuard_lt (solving_loopHead hsol).1
    linarith
  · have hi : outs.length - 1 < (run cfg final outs).log.length := by omega
    have hg := loopGuard_lt (last_of_solving hsol _ (List.getElem_mem hi))
    rcases inv.1 _ hi with h | h
    · have : outs.length - 1 + 1 = outs.length := by omega
      rw [this] at h
      linarith
    · linarith

/-- C14 (b): an explicit positive lower bound `ε` always exists: any finite milestone list, any
`max_stepsize` bounded below by a positive `δ`. -/
theorem C14_bound_exists (cfg : Stepsize) (δ : ℚ) (hδ : 0 < δ) (hi : 0 < cfg.initialValue)
    (hr : ∀ a, cfg.adaptive = some a → 1 ≤ a.ratio)
    (hc : ∀ a, cfg.adaptive = some a → ∀ t,
      a.maxStep.eval t = .ok none ∨ ∃ c, a.maxStep.eval t = .ok (some c) ∧ δ ≤ c) :
    ∃ ε, StepsAtLeast cfg ε := by
  have hms : ∀ ms : List ℚ, ∃ ε, 0 < ε ∧ ∀ m ∈ ms, 0 < m → ε ≤ 1 / 100000 * m := by
    intro ms
    induction ms with
    | nil => exact ⟨1, by norm_num, by simp⟩
    | cons m ms ih =>
      obtain ⟨ε, h0, h1⟩ := ih
      by_cases hm : 0 < m
      · refine ⟨min ε (1 / 100000 * m), lt_min h0 (by positivity), ?_⟩
        intro m' hm' hp
        rcases List.mem_cons.1 hm' with rfl | h
        · exact min_le_right _ _
        · exact (min_le_left _ _).trans (h1 m' h hp)
      · refine ⟨ε, h0, ?_⟩
        intro m' hm' hp
        rcases List.mem_cons.1 hm' with rfl | h
        · exact absurd hp hm
        · exact h1 m' h hp
  obtain ⟨ε, h0, h1⟩ := hms (match cfg.milestones with | none => [] | some l => l)
  refine ⟨min (min ε δ) cfg.initialValue, lt_min (lt_min h0 hδ) hi, min_le_right _ _, hr, ?_, ?_⟩
  · intro a ha t
    rcases hc a ha t with h | ⟨c, h, hle⟩
    · exact .inl h
    · exact .inr ⟨c, h, (min_le_left _ _).trans ((min_le_right _ _).trans hle)⟩
  · intro ms hms m hm hp
    rw [hms] at h1
    exact (min_le_left _ _).trans ((min_le_left _ _).trans (h1 m hm hp))

/-- C14 (c): Zeno behaviour.  If every solve converges but needs 5 iterations or more, the steps
shrink geometrically: `run()` never returns when `final*(1-1e-5)` is at least
`initial*r/(r-1)`, whatever `dt_min`. -/
theorem C14_zeno (cfg : Stepsize) (final : ℚ) (a : Adaptive) (ha : cfg.adaptive = some a)
    (hr : 1 < a.ratio) (hp : PositiveSteps cfg)
    (hfinal : cfg.initialValue * a.ratio / (a.ratio - 1) ≤ final * (1 - 1 / 100000))
    (outs : List Outcome) (ho : ∀ o ∈ outs, o.converged = true ∧ 5 ≤ o.nbIt) :
    ¬ Returned (run cfg final outs) ∧
    ∀ t ∈ (run cfg final outs).times, t < cfg.initialValue * a.ratio / (a.ratio - 1) := by
  have hr0 : 0 < a.ratio := by linarith
  have hr1 : 0 < a.ratio - 1 := by linarith
  have hini := hp.1
  set B := cfg.initialValue * a.ratio / (a.ratio - 1) with hB
  have hB0 : 0 < B := by positivity
  have hf : 0 < final := by
    by_contra h
    have : final * (1 - 1 / 100000) ≤ 0 := mul_nonpos_of_nonpos_of_nonneg (not_lt.1 h) (by norm_num)
    linarith
  have inv : ¬ Returned (run cfg final outs) ∧ (∀ t ∈ (run cfg final outs).times, t < B) ∧
      (Solving (run cfg final outs) →
        (run cfg final outs).t + (run cfg final outs).value / (a.ratio - 1) ≤ B) ∧
      Increasing (run cfg final outs) := by
    refine run_induction_mem (P := fun s => ¬ Returned s ∧ (∀ t ∈ s.times, t < B) ∧
      (Solving s → s.t + s.value / (a.ratio - 1) ≤ B) ∧ Increasing s)
      (Q := fun o => o.converged = true ∧ 5 ≤ o.nbIt) ?_ ?_ outs ho
    · have hst : start cfg final = ⟨cfg.initialValue, cfg.initialValue,
          .solving cfg.initialValue 0, []⟩ := by
        simp [start, loopHead, loopGuard_zero hf]
      refine ⟨?_, ?_, ?_, increasing_start hp⟩
      · rw [hst]; simp [Returned]
      · rw [hst]; simp [RunState.times]
      · rw [hst]
        intro _
        simp only
        rw [hB]
        apply le_of_eq
        field_simp
        ring
    · rintro s o ⟨hq1, hq2⟩ ⟨h1, h2, h3, h4⟩
      cases hph : s.phase with
      | finished => exact absurd hph h1
      | raised e => rw [step_raised o hph]; exact ⟨h1, h2, h3, h4⟩
      | solving nom k =>
        have h3 := h3 ⟨nom, k, hph⟩
        have hv := h4.pos ⟨nom, k, hph⟩
        cases hs : afterSolve cfg s.value s.t o with
        | error e =>
          have h5 := increasing_step (final := final) hp o h4
          rw [step_error hph hs] at h5 ⊢
          refine ⟨by simp [Returned], h2, ?_, h5⟩
          rintro ⟨_, _, h⟩; simp at h
        | ok v =>
          have hvle : v ≤ s.value / a.ratio := by
            have : o = ⟨o.nbIt, true⟩ := by cases o; simp_all
            rw [this] at hs
            exact (afterSolve_growth ha hs).2 hq2
          have hvp := afterSolve_conv_pos hp hv hs
          have htB : s.t < B := by
            have : 0 < s.value / (a.ratio - 1) := by positivity
            linarith
          have hg : loopGuard final s.t = true := (loopGuard_pos_iff hf).2 (by linarith)
          have h5 := increasing_step (final := final) hp o h4
          rw [step_accept hph hs hq1] at h5 ⊢
          refine ⟨?_, ?_, ?_, h5⟩
          · simp [Returned, loopHead, hg]
          · intro t ht
            simp only [RunState.times, log_loopHead, List.map_append, List.mem_append] at ht
            rcases ht with ht | ht
            · exact h2 t ht
            · simp at ht; subst ht; exact htB
          · intro hsol
            rw [(solving_loopHead hsol).2]
            simp only
            have hcl := clipFinal_le (final := final) (t := s.t) (v := v)
            have h6 : clipFinal final s.t v ≤ s.value / a.ratio := hcl.trans hvle
            have h7 : clipFinal final s.t v + clipFinal final s.t v / (a.ratio - 1) ≤
                s.value / (a.ratio - 1) := by
              have e1 : clipFinal final s.t v + clipFinal final s.t v / (a.ratio - 1) =
                  clipFinal final s.t v * (a.ratio / (a.ratio - 1)) := by
                field_simp; ring
              have e2 : s.value / (a.ratio - 1) =
                  s.value / a.ratio * (a.ratio / (a.ratio - 1)) := by
                field_simp
              rw [e1, e2]
              exact mul_le_mul_of_nonneg_right h6 (by positivity)
            linarith
  exact ⟨inv.1, inv.2.1⟩

example : StepsAtLeast exCfg (3 / 100000) := by
  refine ⟨by norm_num, by decide +kernel, ?_, ?_, ?_⟩
  · rintro a ⟨⟩; decide +kernel
  · rintro a ⟨⟩ t
    right
    exact ⟨4, rfl, by norm_num⟩
  · rintro ms hms m hm -
    have : exCfg.milestones = some [3, 5] := by decide +kernel
    rw [this] at hms
    simp at hms
    subst hms
    simp at hm
    rcases hm with rfl | rfl <;> norm_num

example : let cfg := Stepsize.new { initialValue := 1, changeRatio := some 2, dtMin := some 1 }
    PositiveSteps cfg ∧ cfg.initialValue * 2 / (2 - 1) ≤ (3 : ℚ) * (1 - 1 / 100000) ∧
    (run cfg 3 (List.replicate 4 ⟨5, true⟩)).times = [1, 3 / 2, 7 / 4, 15 / 8] := by
  refine ⟨⟨by decide +kernel, ?_⟩, by decide +kernel, by decide +kernel⟩
  rintro a ⟨⟩
  refine ⟨by decide +kernel, ?_⟩
  intro t m h
  simp [truthy, MaxStep.eval] at h

/-! ## C15 -/

/-- C15 (a): two stepsizes differing only in `dt_min` give the same run as long as no solve
diverges. -/
theorem C15_dt_min_unused_when_converging (args : StepsizeArgs) (d : Option ℚ) (final : ℚ)
    (outs : List Outcome) (hc : ∀ o ∈ outs, o.converged = true) :
    run (Stepsize.new { args with dtMin := d }) final outs = run (Stepsize.new args) final outs := by
  induction outs using List.reverseRecOn with
  | nil => rfl
  | append_singleton l o ih =>
    rw [run_concat, run_concat, ih (fun o ho => hc o (by simp [ho]))]
    have ho := hc o (by simp)
    have : ∀ v t, afterSolve (Stepsize.new { args with dtMin := d }) v t o =
        afterSolve (Stepsize.new args) v t o := by
      intro v t
      unfold afterSolve Stepsize.adapt adaptAdaptive
      cases hr : args.changeRatio with
      | none => simp [Stepsize.new, hr]
      | some r =>
        simp only [Stepsize.new, hr, ho, Adaptive.onDivergence, Adaptive.onIterations,
          Adaptive.cap, if_true, Option.isSome_some, Bool.true_or]
    simp only [step, this]

/-- C15 (b): after a diverged solve with `dt_min` set, the error "stepsize reached minimal value"
is raised exactly when `stepsize/ratio < dt_min`. -/
theorem C15_raise_iff (cfg : Stepsize) (final : ℚ) (outs : List Outcome) (a : Adaptive)
    (ha : cfg.adaptive = some a) (hr : a.ratio ≠ 0) (m : ℚ) (hm : a.dtMin = some m)
    (hcap : ∀ t, ∃ c, a.maxStep.eval t = .ok c)
    (hs : Solving (run cfg final outs)) (o : Outcome) (ho : o.converged = false) :
    (run cfg final (outs ++ [o])).phase = .raised (.valueError "stepsize reached minimal value") ↔
      (run cfg final outs).value / a.ratio < m := by
  obtain ⟨nom, k, hp⟩ := hs
  rw [run_concat]
  by_cases hlt : (run cfg final outs).value / a.ratio < m
  · have : afterSolve cfg (run cfg final outs).value (run cfg final outs).t o =
        .error (.valueError "stepsize reached minimal value") := by
      simp [afterSolve, ha, Stepsize.adapt, adaptAdaptive, Adaptive.onDivergence, ho, hm, pyDiv,
        hr, hlt]
    rw [step_error hp this]
    simp [hlt]
  · have : ∃ w, afterSolve cfg (run cfg final outs).value (run cfg final outs).t o = .ok w := by
      obtain ⟨c, hc⟩ := hcap (run cfg final outs).t
      have h2 : ∃ v2, a.onIterations ((run cfg final outs).value / a.ratio) o.nbIt = .ok v2 := by
        unfold Adaptive.onIterations pyDiv
        rw [if_neg hr]
        split <;> exact ⟨_, rfl⟩
      obtain ⟨v2, h2⟩ := h2
      have h3 : ∃ v3, a.cap (run cfg final outs).t v2 = .ok v3 := by
        unfold Adaptive.cap
        rw [hc]
        cases c with
        | none => exact ⟨_, rfl⟩
        | some c =>
          simp only
          split <;> exact ⟨_, rfl⟩
      obtain ⟨v3, h3⟩ := h3
      refine ⟨clipMilestone cfg.milestones (run cfg final outs).t v3, ?_⟩
      simp [afterSolve, ha, Stepsize.adapt, adaptAdaptive, Adaptive.onDivergence, ho, hm, pyDiv,
        hr, hlt, h2, h3]
    obtain ⟨w, hw⟩ := this
    rw [step_retry hp hw ho]
    simp [hlt]

example : ∃ a, exCfg.adaptive = some a ∧ a.ratio ≠ 0 ∧ a.dtMin = some (1 / 10) ∧
    ∀ t, ∃ c, a.maxStep.eval t = .ok c :=
  ⟨_, rfl, by decide +kernel, rfl, fun _ => ⟨some 4, rfl⟩⟩

end Festim.Props
