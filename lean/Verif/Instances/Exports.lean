import Verif.Props.Exports

/-!
# Concrete cases of C16-C20 and C25

Each theorem applied to the exports and the run of `Verif.Props.Exports`.
-/

namespace Festim.Props

open Run Spec

theorem inst_of_ok {ε α : Type} {r : Except ε α} (h : r.isOk = true) : ∃ a, r = .ok a := by
  cases r with
  | ok a => exact ⟨a, rfl⟩
  | error e => simp [Except.isOk, Except.toBool] at h

theorem inst_written : ∃ ex', exExports.writeAll exSteps = .ok ex' := inst_of_ok exExports_ok

theorem inst_returned : Returned (run exCfg 10 exOuts) := by
  show (run exCfg 10 exOuts).phase = .finished
  decide +kernel

/-- The table of `exExports`, as initialised. -/
def inst_dq : DQ (List ℚ) :=
  { quantities := [{ title := "a", kind := .plain, eval := fun s => s.sum },
                   { title := "b", kind := .volumeExtremum, eval := fun s => s.getD 0 0 }],
    filename := some "out/dq.csv", betweenCompute := 2 }

theorem inst_fresh : Fresh inst_dq := ⟨rfl, rfl, by simp [inst_dq]⟩

theorem inst_item : exExports.items[2]? = some (.dq inst_dq) := rfl

/-- `C16_xdmf_cadence` and `C16_append_flags`: the times 1, 5 and 10. -/
example : ∃ ex' x', exExports.writeAll exSteps = .ok ex' ∧ ex'.items[0]? = some (.xdmf x') ∧
    x'.records.map (fun r => (r.field, r.t)) = [([1, 2], 1), ([3, 4], 5), ([5, 6], 10)] := by
  obtain ⟨ex', h⟩ := inst_written
  obtain ⟨x', h1, -, h2⟩ := C16_xdmf_cadence exExports ex' exSteps h 0 2 { mode := .every 2 } rfl rfl
  exact ⟨ex', x', h, h1, h2.trans (by decide +kernel)⟩

example : ∃ ex' x', exExports.writeAll exSteps = .ok ex' ∧ ex'.items[0]? = some (.xdmf x') ∧
    ∀ k, ∀ hk : k < x'.records.length, x'.records[k].append = decide (k ≠ 0) := by
  obtain ⟨ex', h⟩ := inst_written
  obtain ⟨x', h1, h2⟩ := C16_append_flags exExports ex' exSteps h 0 2 { mode := .every 2 } rfl rfl rfl rfl
  exact ⟨ex', x', h, h1, h2⟩

/-- `C17_last_once`: the state at time 10. -/
example : ∃ ex' x' p, exExports.writeAll exSteps = .ok ex' ∧ ex'.items[1]? = some (.xdmf x') ∧
    exSteps.getLast? = some p ∧ x'.records.map (fun r => (r.field, r.t)) = [p] := by
  obtain ⟨ex', h⟩ := inst_written
  obtain ⟨x', p, h1, h2, h3⟩ := C17_last_once exCfg 10 exOuts (by decide +kernel) (by decide +kernel) inst_returned exExports ex'
    rfl exSteps exSteps_times h 1 { mode := .last } rfl rfl rfl
  exact ⟨ex', x', p, h, h1, h2, h3⟩

/-- `C17_overshoot_writes_nothing`: a first step of 2 with final time 1. -/
example : ∃ ex' x', ({ items := [.xdmf { mode := .last }], finalTime := some 1 } : Exports (List ℚ)).writeAll [([7], 2)] = .ok ex' ∧
    ex'.items[0]? = some (.xdmf x') ∧ x'.records = [] := by
  obtain ⟨ex', h⟩ := inst_of_ok (r := ({ items := [.xdmf { mode := .last }], finalTime := some 1 } :
    Exports (List ℚ)).writeAll [([7], 2)]) (by decide +kernel)
  obtain ⟨x', h1, h2⟩ := C17_overshoot_writes_nothing (Stepsize.new { initialValue := 2 }) 1 [⟨2, true⟩] (by norm_num)
    (by show (1 : ℚ) * (1 + 1 / 100000) < 2; norm_num) { items := [.xdmf { mode := .last }], finalTime := some 1 } ex' rfl
    [(([7] : List ℚ), 2)] (by decide +kernel) h 0 { mode := .last } rfl rfl rfl
  exact ⟨ex', x', h, h1, h2⟩

/-- `C17_steady_raises`. -/
example : ∃ e, ({ items := [.xdmf { mode := .last }] } : Exports (List ℚ)).writeAll [([7], 0)] = .error e :=
  C17_steady_raises { items := [.xdmf { mode := .last }] } rfl [7] 0 0 { mode := .last } rfl rfl

/-- `C18_table`. -/
example : ∃ ex' d', exExports.writeAll exSteps = .ok ex' ∧ ex'.items[2]? = some (.dq d') ∧
    d'.data = csvTable ["a", "b"] [fun s => s.sum, fun s => s.getD 0 0] (atMultiples 2 0 exSteps) := by
  obtain ⟨ex', h⟩ := inst_written
  obtain ⟨d', h1, h2⟩ := C18_table exExports ex' exSteps h 2 inst_dq inst_item inst_fresh (by simp [inst_dq])
  exact ⟨ex', d', h, h1, h2.2.2⟩

/-- `C19_csv_content`: the file is written at time 10 with the three computed rows. -/
example : ∃ ex' d', exExports.writeAll exSteps = .ok ex' ∧ ex'.items[2]? = some (.dq d') ∧
    d'.file = some [[.text "t(s)", .text "a", .text "b"], [.num 1, .num 3, .num 1], [.num 5, .num 7, .num 3],
      [.num 10, .num 11, .num 5]] := by
  obtain ⟨ex', h⟩ := inst_written
  obtain ⟨d', h1, h2⟩ := C19_csv_content exExports ex' (exSteps.take 4) [] ([5, 6], 10) h 2 inst_dq inst_item inst_fresh
    (by simp [inst_dq]) "out/dq.csv" rfl (by show Near 10 10; unfold Near; norm_num) (by simp)
  exact ⟨ex', d', h, h1, h2.trans (by decide +kernel)⟩

/-- `C19_csv_untouched`: not due at time 1 when the final time is 10. -/
example : ∃ ex' d', ({ items := [.dq inst_dq], finalTime := some 10 } : Exports (List ℚ)).writeAll [([1, 2], 1)] = .ok ex' ∧
    ex'.items[0]? = some (.dq d') ∧ d'.file = none := by
  obtain ⟨ex', h⟩ := inst_of_ok (r := ({ items := [.dq inst_dq], finalTime := some 10 } :
    Exports (List ℚ)).writeAll [([1, 2], 1)]) (by decide +kernel)
  obtain ⟨d', h1, h2⟩ := C19_csv_untouched { items := [.dq inst_dq], finalTime := some 10 } ex' [(([1, 2] : List ℚ), 1)] h 0
    inst_dq rfl inst_fresh (by simp [inst_dq]) (Or.inr (by
      intro k hk
      have : k = 0 := by simpa using hk
      subst this
      show ¬ Near 1 10
      unfold Near
      norm_num))
  exact ⟨ex', d', h, h1, h2⟩

/-- `C19_zero_period`. -/
example : ({ inst_dq with betweenCompute := 0 } : DQ (List ℚ)).write [1, 2] 1 none 0 = .error .zeroDivisionError :=
  C19_zero_period _ _ _ _ _ rfl

/-- `C19_bare_filename`. -/
example : ∃ e, ({ items := [.dq { inst_dq with filename := some "dq.csv" }] } : Exports (List ℚ)).writeAll [([1, 2], 0)]
    = .error e :=
  C19_bare_filename { items := [.dq { inst_dq with filename := some "dq.csv" }] } [(([1, 2] : List ℚ), 0)] 0 _ rfl inst_fresh
    (by simp [inst_dq]) "dq.csv" rfl (by decide) 0 (by simp) trivial

/-- `C20_final_csv_complete`. -/
example : ∃ ex' d', exExports.writeAll exSteps = .ok ex' ∧ ex'.items[2]? = some (.dq d') ∧ d'.file = some d'.data := by
  obtain ⟨ex', h⟩ := inst_written
  obtain ⟨d', h1, h2, -⟩ := C20_final_csv_complete exCfg 10 exOuts (by decide +kernel) (by decide +kernel) inst_returned exExports
    ex' rfl exSteps exSteps_times h 2 inst_dq inst_item inst_fresh (by simp [inst_dq]) "out/dq.csv" rfl rfl
  exact ⟨ex', d', h, h1, h2⟩

/-- `C20_periodic_csv`: every third iteration, hence after the fourth step and not after the fifth. -/
example : ∃ ex' d', ({ items := [.dq { inst_dq with betweenExports := some 3 }], finalTime := some 10 } :
      Exports (List ℚ)).writeAll exSteps = .ok ex' ∧ ex'.items[0]? = some (.dq d') ∧
    d'.file = some [[.text "t(s)", .text "a", .text "b"], [.num 1, .num 3, .num 1], [.num 5, .num 7, .num 3]] := by
  obtain ⟨ex', h⟩ := inst_of_ok (r := ({ items := [.dq { inst_dq with betweenExports := some 3 }], finalTime := some 10 } :
    Exports (List ℚ)).writeAll exSteps) (by decide +kernel)
  obtain ⟨d', h1, h2⟩ := C20_periodic_csv { items := [.dq { inst_dq with betweenExports := some 3 }], finalTime := some 10 } ex'
    exSteps 10 rfl h 0 3 { inst_dq with betweenExports := some 3 } rfl inst_fresh (by simp [inst_dq]) "out/dq.csv" rfl rfl 3
    (by decide) (by decide) (by
      intro j h1 h2
      have : j = 4 := by simp [exSteps] at h2; omega
      subst this
      decide)
  exact ⟨ex', d', h, h1, h2.trans (by decide +kernel)⟩

/-- Exports which have already been used: five rows in the table, counter at 5. -/
theorem inst_again : ∃ ex₁ ex₂, exExports.writeAll exSteps = .ok ex₁ ∧
    (ex₁.initialise (some 10) false [0, 1] [] [0, 1]).writeAll exSteps = .ok ex₂ := by
  obtain ⟨ex₁, h⟩ := inst_written
  refine ⟨ex₁, ?_⟩
  have key : (match exExports.writeAll exSteps with
    | .ok e => ((e.initialise (some 10) false [0, 1] [] [0, 1]).writeAll exSteps).isOk
    | .error _ => false) = true := by decide +kernel
  rw [h] at key
  cases h2 : (ex₁.initialise (some 10) false [0, 1] [] [0, 1]).writeAll exSteps with
  | ok a => exact ⟨a, h, rfl⟩
  | error e => simp [h2, Except.isOk, Except.toBool] at key

/-- `C25_counter_not_reset`: five steps are not a multiple of two, so the second run is sampled differently. -/
example : ∃ ex', exExports.writeAll exSteps = .ok ex' ∧ (ex'.initialise (some 10) false [0, 1] [] [0, 1]).nb = 5 := by
  obtain ⟨ex', h⟩ := inst_written
  have h1 := C25_counter_not_reset
    { items :=
        [.xdmf { mode := .every 2 },
         .xdmf { mode := .last },
         .dq inst_dq,
         .txt { times := some [3, 9], filename := some "./c.txt", sol := id, writeAtLast := true }] } ex' (some 10) (some 10) false
    [0, 1] [] [0, 1] exSteps (by simp [exSteps]) h
  exact ⟨ex', h, h1.1⟩

/-- The number of derived quantities in an export. -/
def inst_count : Export (List ℚ) → ℕ
  | .dq d => d.quantities.length
  | _ => 0

/-- `C25_reinitialised_table`: a second run with the same exports. -/
example : ∃ ex₁ ex₂ d₁ d₂, exExports.writeAll exSteps = .ok ex₁ ∧
    (ex₁.initialise (some 10) false [0, 1] [] [0, 1]).writeAll exSteps = .ok ex₂ ∧ ex₁.items[2]? = some (.dq d₁) ∧
    ex₂.items[2]? = some (.dq d₂) ∧
    d₂.data = csvTable (d₁.quantities.map (·.title)) (d₁.quantities.map (·.eval)) (atMultiples d₁.betweenCompute ex₁.nb exSteps) := by
  obtain ⟨ex₁, ex₂, h, h2⟩ := inst_again
  obtain ⟨d₁, hd, hq⟩ : ∃ d₁, ex₁.items[2]? = some (.dq d₁) ∧ d₁.quantities ≠ [] := by
    have key : ((exExports.writeAll exSteps).toOption.bind fun e => e.items[2]?.map inst_count) = some 2 := by
      decide +kernel
    rw [h] at key
    revert key
    cases hi : ex₁.items[2]? with
    | none => simp [Except.toOption, hi]
    | some e =>
      cases e with
      | dq d => intro key; exact ⟨d, rfl, by intro h0; simp [Except.toOption, hi, inst_count, h0] at key⟩
      | xdmf _ => simp [Except.toOption, hi, inst_count]
      | txt _ => simp [Except.toOption, hi, inst_count]
      | bare _ => simp [Except.toOption, hi, inst_count]
  obtain ⟨d₂, h3, h4, -⟩ := C25_reinitialised_table ex₁ ex₂ (some 10) false [0, 1] [] [0, 1] exSteps h2 2 d₁ hd hq
  exact ⟨ex₁, ex₂, d₁, d₂, h, h2, hd, h3, h4⟩

/-- `C25_reinitialised_txt` on a first initialisation. -/
example : ∃ ex' x', exExports.writeAll exSteps = .ok ex' ∧ ex'.items[3]? = some (.txt x') ∧
    x'.rows = txtRows id [0, 1] (uniqueIndices false true [0, 1] [] [0, 1]) (exSteps.filter fun p => decide (TxtDue (some [3, 9]) p.2)) := by
  obtain ⟨ex', h⟩ := inst_written
  obtain ⟨x', h1, h2⟩ := C25_reinitialised_txt
    { items :=
        [.xdmf { mode := .every 2 },
         .xdmf { mode := .last },
         .dq inst_dq,
         .txt { times := some [3, 9], filename := some "./c.txt", sol := id, writeAtLast := true }] } ex' (some 10) false
    [0, 1] [] [0, 1] exSteps h 3 { times := some [3, 9], filename := some "./c.txt", sol := id, writeAtLast := true } rfl
  exact ⟨ex', x', h, h1, h2⟩

/-- `C25_xdmf_appends`: an export whose file exists already. -/
example : ∃ ex' x' new, (({ items := [.xdmf { mode := .every 1, append := true }] } : Exports (List ℚ)).initialise (some 10) false [] []
      []).writeAll [([7], 1)] = .ok ex' ∧ ex'.items[0]? = some (.xdmf x') ∧ x'.records = [] ++ new ∧ ∀ r ∈ new, r.append = true := by
  obtain ⟨x', new, h1, h2, h3⟩ := C25_xdmf_appends { items := [.xdmf { mode := .every 1, append := true }] } _ (some 10) false [] [] []
    [(([7] : List ℚ), 1)] rfl 0 { mode := .every 1, append := true } rfl rfl
  exact ⟨_, x', new, rfl, h1, h2, h3⟩

end Festim.Props
