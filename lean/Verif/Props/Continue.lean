import Verif.Model.Continue
import Verif.Props.TimeStepping

/-!
# C92: calling `run` again
-/

namespace Festim.Props

open Run Spec

/-- The stepsize left behind by an accepted step which ends the run. -/
structure LeftOver (final : ℚ) (s : RunState) : Prop where
  value : Returned s → s.log ≠ [] → s.t + s.value ≤ final ∧ (s.t ≤ final → 0 ≤ s.value)

theorem leftOver (cfg : Stepsize) (final : ℚ) (hp : PositiveSteps cfg) (outs : List Outcome) :
    LeftOver final (run cfg final outs) := by
  induction outs using List.reverseRecOn with
  | nil =>
    refine ⟨fun _ h => absurd ?_ h⟩
    rw [run_nil, start, log_loopHead]
  | append_singleton outs o ih =>
    rw [run_concat]
    set s := run cfg final outs with hs
    cases hph : s.phase with
    | finished => rw [step_finished o hph]; exact ih
    | raised e => rw [step_raised o hph]; exact ih
    | solving nom k =>
      have hpos : 0 < s.value := (increasing hp outs).pos ⟨nom, k, hph⟩
      cases ha : afterSolve cfg s.value s.t o with
      | error e =>
        rw [step_error hph ha]
        exact ⟨fun h => by simp [Returned] at h⟩
      | ok v =>
        have hv := afterSolve_conv_pos hp hpos ha
        cases ho : o.converged with
        | false =>
          rw [step_retry hph ha ho]
          exact ⟨fun h => by simp [Returned] at h⟩
        | true =>
          rw [step_accept hph ha ho]
          refine ⟨fun h _ => ?_⟩
          unfold loopHead at h ⊢
          split at h
          · simp [Returned] at h
          · rename_i hg
            rw [if_neg hg]
            refine ⟨add_clipFinal_le, fun hle => ?_⟩
            simp only at hle ⊢
            unfold clipFinal
            split <;> linarith

theorem returned_log {cfg : Stepsize} {final : ℚ} (hf : 0 < final) {outs : List Outcome}
    (h : Returned (run cfg final outs)) : (run cfg final outs).log ≠ [] := by
  intro hl
  have := ((trace cfg final outs).finished h).1 hl
  rw [loopGuard_zero hf] at this
  cases this

/-- **C92 (a).** Calling `run` a second time with the same settings does nothing. -/
theorem C92_same_final (cfg : Stepsize) (final : ℚ) (outs more : List Outcome)
    (h : Returned (run cfg final outs)) :
    resume cfg final (run cfg final outs) more = run cfg final outs := by
  set s := run cfg final outs with hs
  have hg : loopGuard final s.t = false := by
    have tr := (trace cfg final outs).finished h
    rcases List.eq_nil_or_concat s.log with hl | ⟨l, r, hl⟩
    · have h0 := tr.1 hl
      have : s.t = 0 := by
        have key : (run cfg final outs) = start cfg final := by
          apply foldl_stuck
          intro o
          apply step_finished
          unfold start loopHead
          rw [h0]
          rfl
        rw [hs, key]
        unfold start loopHead
        rw [h0]
        rfl
      rw [this]
      exact h0
    · have := tr.2 r (by rw [← hs, hl]; simp)
      rw [hs, this.2]
      exact this.1
  have e : loopHead final s.t s.value s.log = s := by
    unfold loopHead
    rw [if_neg (by rw [hg]; simp)]
    cases hs' : s with
    | mk t v ph lg =>
      have : ph = .finished := by rw [hs'] at h; exact h
      rw [this]
  unfold resume
  rw [e]
  exact foldl_stuck more fun o => step_finished o h

/-- **C92 (b).** With a larger `final_time`: the first step of the second call goes at most to the `final_time` of
the first one, and has length zero if the first call ended exactly there.  If the first call had overshot (initial
stepsize beyond `final_time`) it goes back in time. -/
theorem C92_first_step (cfg : Stepsize) (final final' : ℚ) (hp : PositiveSteps cfg) (hf : 0 < final)
    (outs : List Outcome) (h : Returned (run cfg final outs)) :
    let s := run cfg final outs
    (loopGuard final' s.t = true → (resume cfg final' s []).t = s.t + s.value ∧ s.t + s.value ≤ final) ∧
    (s.t ≤ final → 0 ≤ s.value ∧ s.value ≤ 1 / 100000 * final) ∧ (s.t = final → s.value = 0) ∧
    (final < s.t → s.value < 0) := by
  intro s
  obtain ⟨h1, h2⟩ := (leftOver cfg final hp outs).value h (returned_log hf h)
  have hnear : final * (1 - 1 / 100000) ≤ s.t := by
    obtain ⟨l, r, hl⟩ : ∃ l r, s.log = l ++ [r] := by
      rcases List.eq_nil_or_concat s.log with hl | ⟨l, r, hl⟩
      · exact absurd hl (returned_log hf h)
      · exact ⟨l, r, by rw [hl]; simp⟩
    have := ((trace cfg final outs).finished h).2 r (by
      show s.log.getLast? = _
      rw [hl]
      simp)
    by_contra hlt
    rw [not_le, show s.t = r.t from this.2] at hlt
    rw [(loopGuard_pos_iff hf).2 hlt] at this
    cases this.1
  refine ⟨fun hg => ⟨?_, h1⟩, fun hle => ⟨h2 hle, ?_⟩, fun he => ?_, fun hlt => ?_⟩
  · simp only [resume, List.foldl_nil]
    unfold loopHead
    rw [if_pos hg]
  · have : s.t + s.value ≤ final := h1
    linarith
  · have h3 : s.t + s.value ≤ final := h1
    have h4 := h2 he.le
    rw [he] at h3
    exact le_antisymm (by linarith) h4
  · have h3 : s.t + s.value ≤ final := h1
    linarith

/-- A zero stepsize stays zero. -/
theorem afterSolve_zero {cfg : Stepsize} (hp : PositiveSteps cfg) {t w : ℚ} {o : Outcome}
    (h : afterSolve cfg 0 t o = .ok w) : w = 0 := by
  have clip : ∀ ms : Option (List ℚ), clipMilestone ms t 0 = 0 := by
    intro ms
    unfold clipMilestone
    cases hm : nextMilestone ms t with
    | none => rfl
    | some m =>
      have := nextMilestone_lt hm
      simp only
      rw [if_neg]
      rintro ⟨h1, -⟩
      linarith
  unfold afterSolve at h
  split at h
  · unfold Stepsize.adapt at h
    split at h
    · simp at h
    · rename_i v' hv'
      simp only [Except.ok.injEq] at h
      subst h
      have : v' = 0 := by
        unfold adaptAdaptive at hv'
        split at hv'
        · simpa using hv'.symm
        · rename_i a ha
          obtain ⟨hr, hm⟩ := hp.2 a ha
          split at hv'
          · simp at hv'
          · rename_i v1 hv1
            have hv1p : v1 = 0 := by
              cases hc : o.converged with
              | true => rw [hc] at hv1; rw [onDivergence_true hv1]
              | false =>
                rw [hc] at hv1
                obtain ⟨m, _, _, rfl, _⟩ := onDivergence_false hv1
                simp
            split at hv'
            · simp at hv'
            · rename_i v2 hv2
              have hv2p : v2 = 0 := by
                rcases onIterations_ok hv2 with ⟨_, rfl⟩ | ⟨_, _, rfl⟩ <;> simp [hv1p]
              obtain ⟨h0, h1 | ⟨m, h1, h3, h2⟩⟩ := cap_ok hv'
              · rw [h1.2, hv2p]
              · rcases h2 with rfl | rfl
                · have := hm _ _ h1
                  exact absurd h0 (by rw [hv2p]; linarith)
                · exact hv2p
      rw [this]
      exact clip _
  · simpa using h.symm

/-- **C92 (c).** If the first call ended exactly at `final_time`, a second call with a larger `final_time` never
gets anywhere, whatever the Newton solver answers and whatever the stepsize options: the time stays at the old
`final_time`, every solve is made with stepsize zero, and the call never returns (it goes on for ever or raises). -/
theorem C92_stuck (cfg : Stepsize) (final final' : ℚ) (hp : PositiveSteps cfg) (hf : 0 < final)
    (outs more : List Outcome) (h : Returned (run cfg final outs)) (hex : (run cfg final outs).t = final)
    (hnew : final < final' * (1 - 1 / 100000)) :
    let s := resume cfg final' (run cfg final outs) more
    ¬ Returned s ∧ s.t = final ∧ s.value = 0 ∧
    ∃ new, s.log = (run cfg final outs).log ++ new ∧ ∀ r ∈ new, r.t = final ∧ r.dtUsed = 0 := by
  have hv : (run cfg final outs).value = 0 := (C92_first_step cfg final final' hp hf outs h).2.2.1 hex
  have hf' : 0 < final' := by linarith
  have hg : loopGuard final' final = true := (loopGuard_pos_iff hf').2 hnew
  induction more using List.reverseRecOn with
  | nil =>
    simp only [resume, List.foldl_nil]
    unfold loopHead
    rw [hex, if_pos hg, hv]
    exact ⟨by simp [Returned], by simp, rfl, [], by simp, by simp⟩
  | append_singleton more o ih =>
    have e : resume cfg final' (run cfg final outs) (more ++ [o])
        = step cfg final' (resume cfg final' (run cfg final outs) more) o := by
      simp [resume]
    rw [e]
    obtain ⟨h1, h2, h3, new, h4, h5⟩ := ih
    generalize resume cfg final' (run cfg final outs) more = s at h1 h2 h3 h4
    cases hph : s.phase with
    | finished => exact absurd hph h1
    | raised e' => rw [step_raised o hph]; exact ⟨h1, h2, h3, new, h4, h5⟩
    | solving nom k =>
      cases ha : afterSolve cfg s.value s.t o with
      | error e' =>
        rw [step_error hph ha]
        exact ⟨by simp [Returned], h2, h3, new, h4, h5⟩
      | ok w =>
        have hw : w = 0 := by rw [h3] at ha; exact afterSolve_zero hp ha
        cases ho : o.converged with
        | false =>
          rw [step_retry hph ha ho]
          exact ⟨by simp [Returned], h2, hw, new, h4, h5⟩
        | true =>
          rw [step_accept hph ha ho, hw]
          have hc : clipFinal final' s.t 0 = 0 := by
            unfold clipFinal
            rw [if_neg]
            rw [h2]
            linarith [loopGuard_lt hg]
          rw [hc]
          unfold loopHead
          rw [h2, if_pos hg]
          refine ⟨by simp [Returned], by simp, rfl, new ++ [_], by rw [h4, List.append_assoc], ?_⟩
          intro r hr
          rw [List.mem_append, List.mem_singleton] at hr
          rcases hr with hr | rfl
          · exact h5 r hr
          · exact ⟨rfl, h3⟩

/-- Constant stepsize 1, `final_time = 2`, then `final_time = 4`. -/
example :
    let cfg := Stepsize.new { initialValue := 1 }
    let s := run cfg 2 [⟨1, true⟩, ⟨1, true⟩]
    Returned s ∧ s.t = 2 ∧ (resume cfg 4 s [⟨1, true⟩, ⟨1, true⟩, ⟨1, true⟩]).times = [1, 2, 2, 2, 2] := by
  refine ⟨?_, ?_, ?_⟩
  · show (run _ _ _).phase = .finished
    decide +kernel
  · decide +kernel
  · decide +kernel

/-- Adaptive stepsize, the same. -/
example :
    let cfg := Stepsize.new { initialValue := 1, changeRatio := some 2, dtMin := some (1 / 10) }
    let s := run cfg 2 [⟨1, true⟩, ⟨1, true⟩]
    Returned s ∧ s.t = 2 ∧ (resume cfg 4 s [⟨1, true⟩, ⟨1, false⟩]).phase
      = .raised (.valueError "stepsize reached minimal value") := by
  refine ⟨?_, ?_, ?_⟩
  · show (run _ _ _).phase = .finished
    decide +kernel
  · decide +kernel
  · decide +kernel

end Festim.Props
