import Verif.Proofs.Exports
import Verif.Proofs.TxtIndices
import Verif.Props.TimeStepping

/-!
# Properties of the exports (C16-C25)

`ex.writeAll steps = .ok ex'` is the effect on the exports of a run whose accepted steps are
`steps` (solution snapshot and time); nothing raised.  `i` is the position of an export in the list.
-/

namespace Festim.Props

open Run Spec

variable {σ : Type}

/-! ## Example data -/

/-- Two degrees of freedom as solution snapshots. -/
def exSteps : List (List ℚ × ℚ) :=
  [([1, 2], 1), ([2, 3], 3), ([3, 4], 5), ([4, 5], 9), ([5, 6], 10)]

/-- Four exports: an XDMF every second step, an XDMF at the end, a table of two quantities, a txt. -/
def exExports : Exports (List ℚ) :=
  Exports.initialise
    { items :=
        [.xdmf { mode := .every 2 },
         .xdmf { mode := .last },
         .dq { quantities := [{ title := "a", kind := .plain, eval := fun s => s.sum },
                              { title := "b", kind := .volumeExtremum, eval := fun s => s.getD 0 0 }],
               filename := some "out/dq.csv", betweenCompute := 2 },
         .txt { times := some [3, 9], filename := some "./c.txt", sol := id, writeAtLast := true }] }
    (some 10) false [0, 1] [] [0, 1]

/-- A quantity: the sum of the values. -/
def exQ : Quantity (List ℚ) := { title := "a", kind := .plain, eval := fun s => s.sum }

theorem exExports_ok : (exExports.writeAll exSteps).isOk = true := by decide +kernel

theorem exSteps_times : exSteps.map (·.2) = (run exCfg 10 exOuts).times := by decide +kernel

/-! ## C16 -/

/-- C16 (a): an XDMF export with integer mode `n` writes exactly the steps whose iteration number is
a multiple of `n`, in order, each with its own time and fields. -/
theorem C16_xdmf_cadence (ex ex' : Exports σ) (steps : List (σ × ℚ))
    (h : ex.writeAll steps = .ok ex') (i n : ℕ) (x : XDMF σ)
    (hx : ex.items[i]? = some (.xdmf x)) (hm : x.mode = .every n) :
    ∃ x', ex'.items[i]? = some (.xdmf x') ∧ x'.mode = .every n ∧
      x'.records.map (fun r => (r.field, r.t)) =
        x.records.map (fun r => (r.field, r.t)) ++ atMultiples n ex.nb steps := by
  obtain ⟨x', h1, h2⟩ := writeAll_xdmf h hx
  obtain ⟨i1, i2, -⟩ := xdmf_fold (x := x) (sel := fun l k => atMultiples n k l) (fun _ => rfl)
    (fun p l k b hb => by
      simp only [XDMF.isExport, hm] at hb
      rw [atMultiples_cons, everyN_ok hb]; simp) h2
  exact ⟨x', h1, i1.trans hm, i2⟩

/-- C16 (b): the setter accepts exactly the positive integers and "last", and keeps them; everything else
raises ValueError. -/
theorem C16_mode_setter (a : PyModeArg) :
    (∀ m, XMode.set a = .ok m ↔
      (m = .last ∧ a = .str "last") ∨ ∃ n : ℕ, 0 < n ∧ m = .every n ∧ a = .int n) ∧
    ∀ e, XMode.set a = .error e → ∃ msg, e = .valueError msg := by
  constructor
  · intro m
    constructor
    · intro h
      unfold XMode.set at h
      split at h
      · cases h
      · rename_i n
        split at h
        · cases h
        · cases h
          right
          exact ⟨n.toNat, by omega, rfl, by congr 1; omega⟩
      · rename_i s
        split at h
        · cases h
        · cases h
          rename_i hs
          left
          simp only [ne_eq, not_not] at hs
          exact ⟨rfl, by rw [hs]⟩
    · rintro (⟨rfl, rfl⟩ | ⟨n, hn, rfl, rfl⟩)
      · rfl
      · simp [XMode.set]; omega
  · intro e h
    unfold XMode.set at h
    split at h
    · cases h; exact ⟨_, rfl⟩
    · split at h <;> cases h
      exact ⟨_, rfl⟩
    · split at h <;> cases h
      exact ⟨_, rfl⟩

/-- C16 (c): in a file written from a new export object, exactly the first record is written without
`append`. -/
theorem C16_append_flags (ex ex' : Exports σ) (steps : List (σ × ℚ))
    (h : ex.writeAll steps = .ok ex') (i n : ℕ) (x : XDMF σ)
    (hx : ex.items[i]? = some (.xdmf x)) (hm : x.mode = .every n)
    (hnew : x.append = false) (hrec : x.records = []) :
    ∃ x', ex'.items[i]? = some (.xdmf x') ∧
      ∀ k, ∀ hk : k < x'.records.length, x'.records[k].append = decide (k ≠ 0) := by
  obtain ⟨x', h1, h2⟩ := writeAll_xdmf h hx
  obtain ⟨-, -, i3⟩ := xdmf_fold (x := x) (sel := fun l k => atMultiples n k l) (fun _ => rfl)
    (fun p l k b hb => by
      simp only [XDMF.isExport, hm] at hb
      rw [atMultiples_cons, everyN_ok hb]; simp) h2
  refine ⟨x', h1, fun k hk => ?_⟩
  rw [hrec, hnew] at i3
  simp only [List.map_nil, List.nil_append] at i3
  have h4 : x'.records[k].append = (x'.records.map (·.append))[k]'(by simpa using hk) := by simp
  rw [h4]
  simp only [i3]
  generalize hl : (atMultiples n ex.nb steps).length = m at *
  cases m with
  | zero =>
    have := congrArg List.length i3
    simp [appendFlags] at this
    simp [this] at hk
  | succ m =>
    cases k with
    | zero => simp [appendFlags]
    | succ k => simp [appendFlags]

example : atMultiples 2 0 exSteps = [([1, 2], 1), ([3, 4], 5), ([5, 6], 10)] := by decide +kernel

/-! ## C17 -/

/-- last accepted time of a returned run is the only one close to `final` -/
theorem near_final_only_last {cfg : Stepsize} {final : ℚ} {outs : List Outcome}
    (h0 : 0 < cfg.initialValue) (h : cfg.initialValue ≤ final) (hr : Returned (run cfg final outs)) :
    ∃ before last, (run cfg final outs).times = before ++ [last] ∧ Near last final ∧
      ∀ t ∈ before, ¬ Near t final := by
  obtain ⟨b, l, h1, h2, h3, h4⟩ := (C03_ends_at_final cfg final outs h0 h).2 hr
  have hf : 0 < final := by linarith
  refine ⟨b, l, h1, ?_, ?_⟩
  · unfold Near
    rw [abs_of_pos hf, abs_le]
    constructor <;> linarith
  · intro t ht hn
    have := h4 t ht
    unfold Near at hn
    rw [abs_of_pos hf, abs_le] at hn
    linarith [hn.1]

/-- splitting accepted steps along their times -/
theorem split_steps {steps : List (σ × ℚ)} {before : List ℚ} {last : ℚ}
    (h : steps.map (·.2) = before ++ [last]) :
    ∃ pre p, steps = pre ++ [p] ∧ p.2 = last ∧ pre.map (·.2) = before := by
  rcases List.eq_nil_or_concat' steps with rfl | ⟨pre, p, rfl⟩
  · simp at h
  · rw [List.map_append] at h
    obtain ⟨h1, h2⟩ := List.append_inj' h (by simp)
    exact ⟨pre, p, rfl, by simpa using h2, h1⟩

/-- C17 (a): in a transient run that returns, a new XDMF export in mode "last" holds exactly one
record: the last accepted step. -/
theorem C17_last_once (cfg : Stepsize) (final : ℚ) (outs : List Outcome)
    (h0 : 0 < cfg.initialValue) (hle : cfg.initialValue ≤ final)
    (hr : Returned (run cfg final outs))
    (ex ex' : Exports σ) (hf : ex.finalTime = some final) (steps : List (σ × ℚ))
    (hsteps : steps.map (·.2) = (run cfg final outs).times)
    (h : ex.writeAll steps = .ok ex') (i : ℕ) (x : XDMF σ)
    (hx : ex.items[i]? = some (.xdmf x)) (hm : x.mode = .last) (hrec : x.records = []) :
    ∃ x' p, ex'.items[i]? = some (.xdmf x') ∧ steps.getLast? = some p ∧
      x'.records.map (fun r => (r.field, r.t)) = [p] := by
  obtain ⟨b, l, h1, h2, h3⟩ := near_final_only_last h0 hle hr
  obtain ⟨pre, p, rfl, rfl, rfl⟩ := split_steps (hsteps.trans h1)
  obtain ⟨x', h4, h5⟩ := writeAll_xdmf h hx
  obtain ⟨-, i2, -⟩ := xdmf_fold (x := x)
    (sel := fun l _ => l.filter fun p => isclose p.2 final) (fun _ => rfl)
    (fun p l k b hb => by
      simp only [XDMF.isExport, hm, hf] at hb
      cases hb
      simp only [List.filter_cons]
      split <;> simp) h5
  refine ⟨x', p, h4, by simp, ?_⟩
  rw [i2, hrec, List.filter_append]
  have e1 : pre.filter (fun p => isclose p.2 final) = [] := by
    rw [List.filter_eq_nil_iff]
    intro q hq
    rw [isclose_true]
    exact h3 _ (List.mem_map_of_mem hq)
  have e2 : isclose p.2 final = true := isclose_true.2 h2
  simp [e1, e2]

example : 0 < exCfg.initialValue ∧ exCfg.initialValue ≤ 10 ∧ Returned (run exCfg 10 exOuts) ∧
    exExports.finalTime = some 10 ∧ exSteps.map (·.2) = (run exCfg 10 exOuts).times ∧
    (exExports.writeAll exSteps).isOk = true ∧
    ∃ x, exExports.items[1]? = some (.xdmf x) ∧ x.mode = .last ∧ x.records = [] := by
  refine ⟨by decide +kernel, by decide +kernel, ?_, rfl, exSteps_times, exExports_ok,
    _, rfl, rfl, rfl⟩
  show (run exCfg 10 exOuts).phase = .finished
  decide +kernel

/-- C17 (b): if the initial stepsize exceeds the final time by more than relative `1e-5`, the single
accepted step is past the end and mode "last" writes nothing. -/
theorem C17_overshoot_writes_nothing (cfg : Stepsize) (final : ℚ) (outs : List Outcome)
    (h0 : 0 < final) (hgt : final * (1 + 1 / 100000) < cfg.initialValue)
    (ex ex' : Exports σ) (hf : ex.finalTime = some final) (steps : List (σ × ℚ))
    (hsteps : steps.map (·.2) = (run cfg final outs).times)
    (h : ex.writeAll steps = .ok ex') (i : ℕ) (x : XDMF σ)
    (hx : ex.items[i]? = some (.xdmf x)) (hm : x.mode = .last) (hrec : x.records = []) :
    ∃ x', ex'.items[i]? = some (.xdmf x') ∧ x'.records = [] := by
  obtain ⟨x', h4, h5⟩ := writeAll_xdmf h hx
  obtain ⟨-, i2, -⟩ := xdmf_fold (x := x)
    (sel := fun l _ => l.filter fun p => isclose p.2 final) (fun _ => rfl)
    (fun p l k b hb => by
      simp only [XDMF.isExport, hm, hf] at hb
      cases hb
      simp only [List.filter_cons]
      split <;> simp) h5
  refine ⟨x', h4, ?_⟩
  have e1 : steps.filter (fun p => isclose p.2 final) = [] := by
    rw [List.filter_eq_nil_iff]
    intro q hq
    rw [isclose_true]
    have hq2 : q.2 ∈ (run cfg final outs).times := hsteps ▸ List.mem_map_of_mem hq
    have hq3 : q.2 = cfg.initialValue := by
      rcases C01_overshoot cfg final outs h0 (by linarith) with h | h
      · simp [h.1] at hq2
      · simpa [h.1] using hq2
    rw [hq3]
    unfold Near
    rw [abs_of_pos h0, abs_le]
    intro hn
    linarith [hn.2]
  rw [e1, hrec] at i2
  simpa using i2

/-- C17 (c): in a steady run (`final_time` is `None`) an XDMF export in mode "last" makes the
post-processing raise, whatever the other exports are. -/
theorem C17_steady_raises (ex : Exports σ) (hf : ex.finalTime = none) (s : σ) (t : ℚ) (i : ℕ)
    (x : XDMF σ) (hx : ex.items[i]? = some (.xdmf x)) (hm : x.mode = .last) :
    ∃ e, ex.writeAll [(s, t)] = .error e := by
  cases h : ex.writeAll [(s, t)] with
  | error e => exact ⟨e, rfl⟩
  | ok ex' =>
    exfalso
    obtain ⟨x', -, h5⟩ := writeAll_xdmf h hx
    obtain ⟨c, h6, -⟩ := runOn_cons_ok.1 h5
    simp only [XDMF.write, XDMF.isExport, hm, hf] at h6
    cases h6

/-! ## C18 -/

/-- C18: table and quantities after any run.  With `cs` the steps whose iteration number is a
multiple of `nb_iterations_between_compute`: `t` lists their times, each quantity holds its own value
and time at each of them, and the table is a title row followed by one row per computed step holding
the time and the values in the order of the titles. -/
theorem C18_table (ex ex' : Exports σ) (steps : List (σ × ℚ)) (h : ex.writeAll steps = .ok ex')
    (i : ℕ) (d : DQ σ) (hd : ex.items[i]? = some (.dq d)) (hfresh : Fresh d)
    (hne : d.quantities ≠ []) :
    ∃ d', ex'.items[i]? = some (.dq d') ∧
      let cs := atMultiples d.betweenCompute ex.nb steps
      d'.t = cs.map (·.2) ∧
      d'.quantities.map (fun q => (q.title, q.data, q.t)) =
        d.quantities.map (fun q => (q.title, cs.map (fun p => q.eval p.1), cs.map (·.2))) ∧
      d'.data = csvTable (d.quantities.map (·.title)) (d.quantities.map (·.eval)) cs := by
  obtain ⟨d', h1, h2⟩ := writeAll_dq h hd
  have inv := dq_fold hne (DQInv.fresh hfresh) h2
  rw [List.nil_append] at inv
  refine ⟨d', h1, inv.t, ?_, inv.data⟩
  rw [inv.quantities]
  simp

/-- C18, without quantities: the table never gets a title row. -/
theorem C18_empty_has_no_header (d d' : DQ σ) (h : d.quantities = []) (s : σ) (t : ℚ)
    (hc : d.compute s t = .ok d') : d'.data = d.data ++ [[.num t]] := by
  simp only [DQ.compute, h, DQ.computeLoop] at hc
  cases hc
  rfl

example : (∃ d, exExports.items[2]? = some (.dq d) ∧ Fresh d ∧ d.quantities ≠ []) ∧
    csvTable ["a"] [fun s : List ℚ => s.sum] (atMultiples 2 0 exSteps) =
      [[.text "t(s)", .text "a"], [.num 1, .num 3], [.num 5, .num 7], [.num 10, .num 11]] := by
  refine ⟨⟨_, rfl, ⟨rfl, rfl, ?_⟩, by simp [DQ.reset]⟩, by decide +kernel⟩
  simp [DQ.reset]

/-! ## C19 -/

/-- C19 (a): the csv file holds the table as it was at the last step at which it was due: when
`nb_iterations_between_exports` is set, iterations that are multiples of it; otherwise, times within
relative `1e-5` of the final time; in a steady run, always. -/
theorem C19_csv_content (ex ex' : Exports σ) (pre post : List (σ × ℚ)) (p : σ × ℚ)
    (h : ex.writeAll (pre ++ p :: post) = .ok ex') (i : ℕ) (d : DQ σ)
    (hd : ex.items[i]? = some (.dq d)) (hfresh : Fresh d) (hne : d.quantities ≠ [])
    (f : String) (hfile : d.filename = some f)
    (hdue : CsvDue d ex.finalTime p.2 (ex.nb + pre.length))
    (hpost : ∀ k, ∀ hk : k < post.length,
      ¬ CsvDue d ex.finalTime post[k].2 (ex.nb + pre.length + 1 + k)) :
    ∃ d', ex'.items[i]? = some (.dq d') ∧
      d'.file = some (csvTable (d.quantities.map (·.title)) (d.quantities.map (·.eval))
        (atMultiples d.betweenCompute ex.nb (pre ++ [p]))) := by
  obtain ⟨d', h1, h2⟩ := writeAll_dq h hd
  refine ⟨d', h1, ?_⟩
  obtain ⟨d1, h3, h4⟩ := runOn_append_ok.1 h2
  obtain ⟨d2, h5, h6⟩ := runOn_cons_ok.1 h4
  have inv1 := dq_fold hne (DQInv.fresh hfresh) h3
  obtain ⟨inv2, -, -, hs⟩ := inv1.write hne h5
  rw [dq_fold_file_eq hne inv2 h6 (.inr hpost), (hs f hfile hdue).1, inv2.data]
  rw [atMultiples_append, atMultiples_cons, atMultiples_nil]
  simp

/-- C19 (b): if it was never due, or has no name, no file is written. -/
theorem C19_csv_untouched (ex ex' : Exports σ) (steps : List (σ × ℚ))
    (h : ex.writeAll steps = .ok ex') (i : ℕ) (d : DQ σ)
    (hd : ex.items[i]? = some (.dq d)) (hfresh : Fresh d) (hne : d.quantities ≠ [])
    (hno : d.filename = none ∨
      ∀ k, ∀ hk : k < steps.length, ¬ CsvDue d ex.finalTime steps[k].2 (ex.nb + k)) :
    ∃ d', ex'.items[i]? = some (.dq d') ∧ d'.file = d.file := by
  obtain ⟨d', h1, h2⟩ := writeAll_dq h hd
  exact ⟨d', h1, dq_fold_file_eq hne (DQInv.fresh hfresh) h2 hno⟩

/-- C19 (c): a period of zero raises `ZeroDivisionError` at the first step. -/
theorem C19_zero_period (d : DQ σ) (s : σ) (t : ℚ) (final : Option ℚ) (nb : ℕ)
    (h : d.betweenCompute = 0) : d.write s t final nb = .error .zeroDivisionError := by
  simp [DQ.write, DQ.maybeCompute, DQ.isCompute, everyN, h]

/-- C19 (d): a file name without a directory part makes the write fail; no run in which such a file
is due returns. -/
theorem C19_bare_filename (ex : Exports σ) (steps : List (σ × ℚ)) (i : ℕ) (d : DQ σ)
    (hd : ex.items[i]? = some (.dq d)) (hfresh : Fresh d) (hne : d.quantities ≠ [])
    (f : String) (hfile : d.filename = some f) (hbare : '/' ∉ f.toList)
    (k : ℕ) (hk : k < steps.length) (hdue : CsvDue d ex.finalTime steps[k].2 (ex.nb + k)) :
    ∃ e, ex.writeAll steps = .error e := by
  cases h : ex.writeAll steps with
  | error e => exact ⟨e, rfl⟩
  | ok ex' =>
    exfalso
    obtain ⟨d', h1, h2⟩ := writeAll_dq h hd
    have hsplit : steps = steps.take k ++ steps[k] :: steps.drop (k + 1) := by simp
    rw [hsplit] at h2
    obtain ⟨d1, h3, h4⟩ := runOn_append_ok.1 h2
    obtain ⟨d2, h5, h6⟩ := runOn_cons_ok.1 h4
    have inv1 := dq_fold hne (DQInv.fresh hfresh) h3
    obtain ⟨-, -, -, hs⟩ := inv1.write hne h5
    have hl : (steps.take k).length = k := by simp; omega
    rw [hl] at hs
    exact hbare (hs f hfile hdue).2

/-! ## C20 -/

/-- C20 (a): without `nb_iterations_between_exports`, when a transient run returns the csv file holds
all rows computed during the run. -/
theorem C20_final_csv_complete (cfg : Stepsize) (final : ℚ) (outs : List Outcome)
    (h0 : 0 < cfg.initialValue) (hle : cfg.initialValue ≤ final)
    (hr : Returned (run cfg final outs))
    (ex ex' : Exports σ) (hf : ex.finalTime = some final) (steps : List (σ × ℚ))
    (hsteps : steps.map (·.2) = (run cfg final outs).times)
    (h : ex.writeAll steps = .ok ex') (i : ℕ) (d : DQ σ)
    (hd : ex.items[i]? = some (.dq d)) (hfresh : Fresh d) (hne : d.quantities ≠ [])
    (f : String) (hfile : d.filename = some f) (hbe : d.betweenExports = none) :
    ∃ d', ex'.items[i]? = some (.dq d') ∧ d'.file = some d'.data ∧
      d'.data = csvTable (d.quantities.map (·.title)) (d.quantities.map (·.eval))
        (atMultiples d.betweenCompute ex.nb steps) := by
  obtain ⟨b, l, h1, h2, h3⟩ := near_final_only_last h0 hle hr
  obtain ⟨pre, p, rfl, rfl, rfl⟩ := split_steps (hsteps.trans h1)
  obtain ⟨d1, h4, h5⟩ := C19_csv_content ex ex' pre [] p h i d hd hfresh hne f hfile
    (by simpa [CsvDue, hf, hbe] using h2) (by simp)
  obtain ⟨d2, h6, -, -, h7⟩ := C18_table ex ex' (pre ++ [p]) h i d hd hfresh hne
  rw [h4] at h6
  cases h6
  exact ⟨d1, h4, by rw [h5, h7], h7⟩

/-- C20 (b): with `nb_iterations_between_exports = n` the file of a finished run holds exactly the
rows computed up to the last iteration that is a multiple of `n`; later rows are not saved. -/
theorem C20_periodic_csv (ex ex' : Exports σ) (steps : List (σ × ℚ)) (final : ℚ)
    (hf : ex.finalTime = some final) (h : ex.writeAll steps = .ok ex') (i n : ℕ) (d : DQ σ)
    (hd : ex.items[i]? = some (.dq d)) (hfresh : Fresh d) (hne : d.quantities ≠ [])
    (f : String) (hfile : d.filename = some f) (hbe : d.betweenExports = some n)
    (k : ℕ) (hk : k < steps.length) (hmul : (ex.nb + k) % n = 0)
    (hlast : ∀ j, k < j → j < steps.length → (ex.nb + j) % n ≠ 0) :
    ∃ d', ex'.items[i]? = some (.dq d') ∧
      d'.file = some (csvTable (d.quantities.map (·.title)) (d.quantities.map (·.eval))
        (atMultiples d.betweenCompute ex.nb (steps.take (k + 1)))) := by
  have hsplit : steps = steps.take k ++ steps[k] :: steps.drop (k + 1) := by simp
  have hl : (steps.take k).length = k := by simp; omega
  have := C19_csv_content ex ex' (steps.take k) (steps.drop (k + 1)) steps[k] (hsplit ▸ h) i d hd
    hfresh hne f hfile (by rw [hl]; simpa [CsvDue, hf, hbe] using hmul) (by
      intro j hj
      simp only [List.length_drop] at hj
      rw [hl]
      simp only [CsvDue, hf, hbe]
      have := hlast (k + 1 + j) (by omega) (by omega)
      rwa [show ex.nb + k + 1 + j = ex.nb + (k + 1 + j) by omega])
  simpa using this

/-- C20 (c): so the last row of a finished run can be missing from the file: two steps, exports every
second iteration. -/
theorem C20_periodic_loses_last_row :
    let d : DQ (List ℚ) := { quantities := [exQ], filename := some "out/dq.csv", betweenExports := some 2 }
    let ex : Exports (List ℚ) := { items := [.dq d], finalTime := some 2 }
    ∃ ex' d', ex.writeAll [([1], 1), ([5], 2)] = .ok ex' ∧ ex'.items[0]? = some (.dq d') ∧
      d'.data = [[.text "t(s)", .text "a"], [.num 1, .num 1], [.num 2, .num 5]] ∧
      d'.file = some [[.text "t(s)", .text "a"], [.num 1, .num 1]] := by
  refine ⟨_, _, rfl, rfl, ?_, ?_⟩ <;> decide +kernel

/-! ## C21 -/

/-- a txt export just after `initialise` -/
theorem txtInv_initialise (y : TXT σ) (dg : Bool) (xs borders : List ℚ) (order : List ℕ)
    (final : Option ℚ) :
    TXTInv (y.initialise dg xs borders order) final xs [] (y.initialise dg xs borders order) :=
  ⟨rfl, rfl, rfl, rfl, rfl, rfl, by simp [TXT.initialise, txtRows]⟩

/-- C21: columns of a txt export after any run: the coordinates of the selected degrees of freedom,
then for each exported step the values of that step at the same degrees of freedom; as many labels as
value columns, each naming its time. -/
theorem C21_txt_columns (ex ex' : Exports σ) (steps : List (σ × ℚ))
    (h : ex.writeAll steps = .ok ex') (i : ℕ) (y : TXT σ) (dg : Bool) (xs borders : List ℚ)
    (order : List ℕ) (hx : ex.items[i]? = some (.txt (y.initialise dg xs borders order))) :
    ∃ x', ex'.items[i]? = some (.txt x') ∧
      let es := steps.filter fun p => decide (TxtDue y.times p.2)
      x'.header = txtHeader ex.finalTime es ∧
      x'.rows = txtRows y.sol xs (uniqueIndices dg y.filter xs borders order) es ∧
      x'.header.length = es.length ∧ ∀ r ∈ x'.rows, r.length = 1 + x'.header.length := by
  obtain ⟨x', h1, h2⟩ := writeAll_txt h hx
  have inv := txt_fold (txtInv_initialise y dg xs borders order ex.finalTime) h2
  rw [List.nil_append] at inv
  refine ⟨x', h1, inv.header, inv.rows, ?_, ?_⟩
  · rw [inv.header]; simp [txtHeader, TXT.initialise]
  · intro r hr
    rw [inv.rows] at hr
    rw [inv.header]
    simp only [txtRows, List.mem_map] at hr
    obtain ⟨j, -, rfl⟩ := hr
    simp only [List.length_cons, List.length_map, txtHeader]
    omega

example : ∃ y : TXT (List ℚ), exExports.items[3]? = some (.txt (y.initialise false [0, 1] [] [0, 1])) ∧
    (exSteps.filter fun p => decide (TxtDue y.times p.2)) = [([2, 3], 3), ([4, 5], 9)] := by
  refine ⟨_, rfl, ?_⟩
  decide +kernel

/-! ## C22 -/

theorem foldl_insert_mem (ts acc : List ℚ) (m : ℚ) :
    m ∈ ts.foldl (fun acc t => if t ∈ acc then acc else acc ++ [t]) acc ↔ m ∈ acc ∨ m ∈ ts := by
  induction ts generalizing acc with
  | nil => simp
  | cons a ts ih =>
    rw [List.foldl_cons, ih]
    by_cases ha : a ∈ acc
    · simp only [ha, if_true, List.mem_cons]
      constructor
      · rintro (h | h) <;> tauto
      · rintro (h | rfl | h) <;> tauto
    · simp only [ha, if_false, List.mem_append, List.mem_cons, List.not_mem_nil, or_false]
      tauto

/-- sorted, or absent -/
def SortedOpt (o : Option (List ℚ)) : Prop := ∀ l, o = some l → l.Pairwise (· ≤ ·)

theorem addMilestones_spec (ms times : Option (List ℚ)) (hs : SortedOpt ms) :
    SortedOpt (addMilestones ms times) ∧
    (∀ m, (∃ l, addMilestones ms times = some l ∧ m ∈ l) ↔
      (∃ l, ms = some l ∧ m ∈ l) ∨ ∃ l, times = some l ∧ m ∈ l) := by
  unfold addMilestones
  split
  · exact ⟨hs, by simp⟩
  · exact ⟨hs, by simp⟩
  · rename_i ts hts
    refine ⟨?_, ?_⟩
    · rintro l ⟨⟩; exact pySorted_pairwise _
    · intro m
      simp only [Option.some.injEq, exists_eq_left', mem_pySorted, foldl_insert_mem]
      cases ms <;> simp

theorem milestones_spec (items : List (Export σ)) (ms : Option (List ℚ)) (hs : SortedOpt ms) :
    let r := (Exports.mk items none 0).milestones ms
    SortedOpt r ∧ ∀ m, (∃ l, r = some l ∧ m ∈ l) ↔
      (∃ l, ms = some l ∧ m ∈ l) ∨ ∃ x l, .txt x ∈ items ∧ x.times = some l ∧ m ∈ l := by
  induction items generalizing ms with
  | nil => simpa [Exports.milestones] using hs
  | cons e es ih =>
    cases e with
    | txt x =>
      obtain ⟨h1, h2⟩ := addMilestones_spec ms x.times hs
      obtain ⟨h3, h4⟩ := ih _ h1
      refine ⟨h3, fun m => (h4 m).trans ?_⟩
      rw [h2]
      simp only [List.mem_cons, Export.txt.injEq]
      constructor
      · rintro ((h | ⟨l, h⟩) | ⟨y, l, hy, h⟩)
        · exact .inl h
        · exact .inr ⟨x, l, .inl rfl, h⟩
        · exact .inr ⟨y, l, .inr hy, h⟩
      · rintro (h | ⟨y, l, rfl | hy, h⟩)
        · exact .inl (.inl h)
        · exact .inl (.inr ⟨l, h⟩)
        · exact .inr ⟨y, l, hy, h⟩
    | dq d =>
      obtain ⟨h3, h4⟩ := ih ms hs
      refine ⟨h3, fun m => (h4 m).trans ?_⟩
      simp
    | xdmf d =>
      obtain ⟨h3, h4⟩ := ih ms hs
      refine ⟨h3, fun m => (h4 m).trans ?_⟩
      simp
    | bare d =>
      obtain ⟨h3, h4⟩ := ih ms hs
      refine ⟨h3, fun m => (h4 m).trans ?_⟩
      simp

/-- C22 (a): after `initialise`, the milestones of the stepsize are exactly the user's milestones and
the requested times of all txt exports. -/
theorem C22_times_become_milestones (ex : Exports σ) (args : StepsizeArgs) (m : ℚ) :
    (∃ l, ex.milestones (Stepsize.new args).milestones = some l ∧ m ∈ l) ↔
      (∃ l, args.milestones = some l ∧ m ∈ l) ∨
      ∃ x l, .txt x ∈ ex.items ∧ x.times = some l ∧ m ∈ l := by
  have hs : SortedOpt (Stepsize.new args).milestones := by
    intro l hl
    cases ha : args.milestones with
    | none => simp [Stepsize.new, ha, setMilestones] at hl
    | some l0 =>
      obtain ⟨l', h1, h2, -⟩ := new_milestones args l0 ha
      rw [h1] at hl; cases hl; exact h2
  have := (milestones_spec ex.items _ hs).2 m
  refine Iff.trans this ?_
  have : (∃ l, (Stepsize.new args).milestones = some l ∧ m ∈ l) ↔
      ∃ l, args.milestones = some l ∧ m ∈ l := by
    cases ha : args.milestones with
    | none => simp [Stepsize.new, ha, setMilestones]
    | some l0 =>
      obtain ⟨l', h1, -, h3⟩ := new_milestones args l0 ha
      simp [h1, h3]
  rw [this]

/-- milestones reached, for a configuration with a sorted list -/
theorem sorted_milestone_reached (cfg : Stepsize) (final : ℚ) (outs : List Outcome)
    (ms : List ℚ) (hms : cfg.milestones = some ms) (hs : ms.Pairwise (· ≤ ·)) (H : ℚ)
    (hH : StepsAtMost cfg H)
    (hsep : ∀ m₁ ∈ ms, ∀ m₂ ∈ ms, m₁ < m₂ → H ≤ m₂ - m₁)
    (m : ℚ) (hm : m ∈ ms) (hm0 : cfg.initialValue ≤ m) (hmf : m ≤ final)
    (h0 : 0 < cfg.initialValue) (hr : Returned (run cfg final outs)) :
    ∃ t ∈ (run cfg final outs).times, Near t m ∧ t ≤ m := by
  obtain ⟨b, l, h1, h2, h3, h4⟩ := (C03_ends_at_final cfg final outs h0 (hm0.trans hmf)).2 hr
  have hmpos : 0 < m := by linarith
  by_cases hlm : l < m
  · refine ⟨l, by simp [h1], ?_, hlm.le⟩
    unfold Near
    rw [abs_of_pos hmpos, abs_le]
    constructor <;> linarith
  · have hlen : 0 < (run cfg final outs).times.length := by rw [h1]; simp
    have hlast : (run cfg final outs).times[(run cfg final outs).times.length - 1] = l := by
      simp [h1]
    rcases exists_step_around (run cfg final outs).times m hlen
      (by rw [C07_first_step cfg final outs hlen]; exact hm0)
      (by rw [hlast]; exact not_lt.1 hlm) with h | ⟨i, hi, ha, hb⟩
    · refine ⟨m, h, ?_, le_rfl⟩
      unfold Near
      rw [sub_self, abs_zero]
      positivity
    · have hi' : i + 1 < (run cfg final outs).log.length := by simpa [RunState.times] using hi
      have ha' := ha
      simp only [RunState.times, List.getElem_map] at ha hb
      obtain ⟨m₁, g1, g2, g3, g4⟩ := C05_crossing_only_from_band cfg final outs ms hms hs i hi' m hm ha hb
      rcases eq_or_lt_of_le (g4 m hm ha) with rfl | hlt
      · refine ⟨_, List.getElem_mem (by omega : i < (run cfg final outs).times.length), ?_, ha'.le⟩
        simpa [RunState.times] using g3
      · exfalso
        have hs := hsep m₁ g1 m hm hlt
        have h5 := increments_le cfg final outs H hH i hi'
        have h6 := (linked i hi').t_eq
        linarith

/-- C22 (b): in a transient run that returns, with step lengths at most `H` and milestones at least
`H` apart, for every requested time `τ` between the initial stepsize and the final time either a
column is recorded at an accepted time `t` with `|τ - t| ≤ 1e-5 |t|`, or the run stopped at a time
in the sliver `τ (1 - 1e-5) ≤ t < τ / (1 + 1e-5)`: close enough to be treated as the milestone by the
stepsize, not close enough to be exported. -/
theorem C22_requested_times_exported (args : StepsizeArgs) (final : ℚ) (outs : List Outcome)
    (ex₀ ex' : Exports σ) (dg : Bool) (xs borders : List ℚ) (order : List ℕ)
    (cfg : Stepsize)
    (hcfg : cfg = { Stepsize.new args with
      milestones := ex₀.milestones (Stepsize.new args).milestones })
    (h0 : 0 < args.initialValue) (hr : Returned (run cfg final outs)) (H : ℚ)
    (hH : StepsAtMost cfg H)
    (hsep : ∀ ms, cfg.milestones = some ms → ∀ m₁ ∈ ms, ∀ m₂ ∈ ms, m₁ < m₂ → H ≤ m₂ - m₁)
    (steps : List (σ × ℚ)) (hsteps : steps.map (·.2) = (run cfg final outs).times)
    (h : (ex₀.initialise (some final) dg xs borders order).writeAll steps = .ok ex')
    (i : ℕ) (y : TXT σ) (hy : ex₀.items[i]? = some (.txt y)) (l : List ℚ) (hl : y.times = some l)
    (τ : ℚ) (hτ : τ ∈ l) (hτ0 : args.initialValue ≤ τ) (hτf : τ ≤ final) :
    ∃ x', ex'.items[i]? = some (.txt x') ∧ ∃ t ∈ (run cfg final outs).times,
      (|τ - t| ≤ 1 / 100000 * |t| ∧ TLabel.time t ∈ x'.header) ∨
      (1 / 100000 * t < τ - t ∧ τ - t ≤ 1 / 100000 * τ) := by
  have hinit : cfg.initialValue = args.initialValue := by rw [hcfg]; rfl
  have hs0 : SortedOpt (Stepsize.new args).milestones := by
    intro l hl
    cases ha : args.milestones with
    | none => simp [Stepsize.new, ha, setMilestones] at hl
    | some l0 =>
      obtain ⟨l', h1, h2, -⟩ := new_milestones args l0 ha
      rw [h1] at hl; cases hl; exact h2
  obtain ⟨hs1, hmem⟩ := milestones_spec ex₀.items _ hs0
  obtain ⟨ms, hms, hτms⟩ := (hmem τ).2 (.inr ⟨y, l, List.mem_of_getElem? hy, hl, hτ⟩)
  have hms' : cfg.milestones = some ms := by rw [hcfg]; exact hms
  obtain ⟨t, ht, hnear, hle⟩ := sorted_milestone_reached cfg final outs ms hms' (hs1 ms hms) H hH
    (hsep ms hms') τ hτms (hinit ▸ hτ0) hτf (hinit ▸ h0) hr
  have hx : (ex₀.initialise (some final) dg xs borders order).items[i]? =
      some (.txt (y.initialise dg xs borders order)) := by
    simp [Exports.initialise, hy, Export.initialise]
  obtain ⟨x', h1, h2, -⟩ := C21_txt_columns _ ex' steps h i y dg xs borders order hx
  refine ⟨x', h1, t, ht, ?_⟩
  by_cases hc : |τ - t| ≤ 1 / 100000 * |t|
  · left
    refine ⟨hc, ?_⟩
    rw [h2]
    rw [← hsteps, List.mem_map] at ht
    obtain ⟨p, hp, rfl⟩ := ht
    simp only [txtHeader, List.mem_map, List.mem_filter, decide_eq_true_eq]
    refine ⟨p, ⟨hp, ?_⟩, by simp [Exports.initialise]⟩
    rw [hl]
    exact ⟨τ, hτ, hc⟩
  · right
    have hτpos : 0 < τ := by linarith
    unfold Near at hnear
    rw [abs_of_pos hτpos, abs_le] at hnear
    have ht0 : 0 ≤ t := by linarith [hnear.1]
    rw [abs_of_nonneg (by linarith : (0 : ℚ) ≤ τ - t), abs_of_nonneg ht0, not_le] at hc
    exact ⟨hc, by linarith [hnear.1]⟩

/-- Stepsize of the next two examples, as prepared by `initialise`. -/
def exTxt : Exports (List ℚ) :=
  { items := [.txt { times := some [7 / 2, 5 / 2], filename := some "./c.txt", sol := id }] }

example :
    let cfg := { Stepsize.new { initialValue := 1 } with
      milestones := exTxt.milestones (Stepsize.new { initialValue := 1 }).milestones }
    (run cfg 4 exOuts).times = [1, 2, 5 / 2, 3, 7 / 2, 4] ∧ StepsAtMost cfg 1 := by
  refine ⟨by decide +kernel, ?_⟩
  show (1 : ℚ) ≤ 1; exact le_rfl

/-- C22 (c): the sliver is reachable: constant stepsize `0.999990000005`, requested time 1. The run
never exports a column. -/
theorem C22_sliver_counterexample :
    let ex₀ : Exports (List ℚ) :=
      { items := [.txt { times := some [1], filename := some "./c.txt", sol := id }] }
    let cfg := { Stepsize.new { initialValue := 999990000005 / 1000000000000 } with
      milestones := ex₀.milestones none }
    cfg.milestones = some [1] ∧
    (run cfg 2 [⟨1, true⟩, ⟨1, true⟩, ⟨1, true⟩]).times =
      [999990000005 / 1000000000000, 999990000005 / 500000000000] ∧
    Returned (run cfg 2 [⟨1, true⟩, ⟨1, true⟩, ⟨1, true⟩]) ∧
    ∀ t ∈ (run cfg 2 [⟨1, true⟩, ⟨1, true⟩, ⟨1, true⟩]).times, ¬ TxtDue (some [1]) t := by
  intro ex₀ cfg
  have h : (run cfg 2 [⟨1, true⟩, ⟨1, true⟩, ⟨1, true⟩]).times =
      [999990000005 / 1000000000000, 999990000005 / 500000000000] := by decide +kernel
  refine ⟨by decide +kernel, h, ?_, ?_⟩
  · show (run cfg 2 [⟨1, true⟩, ⟨1, true⟩, ⟨1, true⟩]).phase = .finished
    decide +kernel
  · rw [h]
    decide +kernel

/-! ## C23 -/

/-- C23 (a): the txt file holds the columns exported up to (and including) the last step at which the
file is due: any exported step, or with `write_at_last` an exported step at the end (final time, or
the largest requested time; always in steady state). -/
theorem C23_txt_content (ex ex' : Exports σ) (pre post : List (σ × ℚ)) (p : σ × ℚ)
    (h : ex.writeAll (pre ++ p :: post) = .ok ex') (i : ℕ) (y : TXT σ) (dg : Bool)
    (xs borders : List ℚ) (order : List ℕ)
    (hx : ex.items[i]? = some (.txt (y.initialise dg xs borders order)))
    (hdue : TxtDue y.times p.2) (hlast : y.writeAtLast = true → TxtLastDue y.times ex.finalTime p.2)
    (hpost : ∀ q ∈ post,
      ¬ (TxtDue y.times q.2 ∧ (y.writeAtLast = true → TxtLastDue y.times ex.finalTime q.2))) :
    ∃ x', ex'.items[i]? = some (.txt x') ∧
      let es := (pre ++ [p]).filter fun p => decide (TxtDue y.times p.2)
      x'.file = some ⟨txtHeader ex.finalTime es,
        txtRows y.sol xs (uniqueIndices dg y.filter xs borders order) es⟩ := by
  obtain ⟨x', h1, h2⟩ := writeAll_txt h hx
  refine ⟨x', h1, ?_⟩
  obtain ⟨x1, h3, h4⟩ := runOn_append_ok.1 h2
  obtain ⟨x2, h5, h6⟩ := runOn_cons_ok.1 h4
  have inv1 := txt_fold (txtInv_initialise y dg xs borders order ex.finalTime) h3
  obtain ⟨inv2, -, hs⟩ := inv1.write h5
  rw [txt_fold_file_eq inv2 h6 hpost, hs hdue hlast, inv2.header, inv2.rows]
  have e : (y.initialise dg xs borders order).times = y.times := rfl
  simp only [e, hdue, if_true, List.nil_append, List.filter_append, List.filter_cons,
    decide_true, List.filter_nil]
  rfl

/-- C23 (b): if it is never due the file is not written. -/
theorem C23_txt_untouched (ex ex' : Exports σ) (steps : List (σ × ℚ))
    (h : ex.writeAll steps = .ok ex') (i : ℕ) (y : TXT σ) (dg : Bool)
    (xs borders : List ℚ) (order : List ℕ)
    (hx : ex.items[i]? = some (.txt (y.initialise dg xs borders order)))
    (hno : ∀ q ∈ steps,
      ¬ (TxtDue y.times q.2 ∧ (y.writeAtLast = true → TxtLastDue y.times ex.finalTime q.2))) :
    ∃ x', ex'.items[i]? = some (.txt x') ∧ x'.file = y.file := by
  obtain ⟨x', h1, h2⟩ := writeAll_txt h hx
  have := txt_fold_file_eq (txtInv_initialise y dg xs borders order ex.finalTime) h2 hno
  exact ⟨x', h1, this⟩

/-- C23 (c): without requested times, when a transient run returns the file holds a column for every
accepted step, with or without `write_at_last`. -/
theorem C23_complete_without_times (cfg : Stepsize) (final : ℚ) (outs : List Outcome)
    (h0 : 0 < cfg.initialValue) (hle : cfg.initialValue ≤ final)
    (hr : Returned (run cfg final outs))
    (ex ex' : Exports σ) (hf : ex.finalTime = some final) (steps : List (σ × ℚ))
    (hsteps : steps.map (·.2) = (run cfg final outs).times)
    (h : ex.writeAll steps = .ok ex') (i : ℕ) (y : TXT σ) (dg : Bool)
    (xs borders : List ℚ) (order : List ℕ)
    (hx : ex.items[i]? = some (.txt (y.initialise dg xs borders order))) (ht : y.times = none) :
    ∃ x', ex'.items[i]? = some (.txt x') ∧
      x'.file = some ⟨(run cfg final outs).times.map .time,
        txtRows y.sol xs (uniqueIndices dg y.filter xs borders order) steps⟩ := by
  obtain ⟨b, l, h1, h2, h3⟩ := near_final_only_last h0 hle hr
  obtain ⟨pre, p, rfl, rfl, rfl⟩ := split_steps (hsteps.trans h1)
  obtain ⟨x', h4, h5⟩ := C23_txt_content ex ex' pre [] p h i y dg xs borders order hx
    (by simp [TxtDue, ht]) (fun _ => by simpa [TxtLastDue, ht, hf] using h2) (by simp)
  refine ⟨x', h4, ?_⟩
  rw [h5]
  have : (pre ++ [p]).filter (fun p => decide (TxtDue y.times p.2)) = pre ++ [p] := by
    rw [List.filter_eq_self]; intro a _; simp [TxtDue, ht]
  simp only [this]
  rw [← hsteps]
  simp [txtHeader, hf]

/-- C23 (d): with `write_at_last` and a largest requested time more than relative `1e-5` above every
accepted time (for instance beyond the final time), no file is ever written although columns were
recorded. -/
theorem C23_last_request_unreached (ex ex' : Exports σ) (steps : List (σ × ℚ))
    (final : ℚ) (hf : ex.finalTime = some final)
    (h : ex.writeAll steps = .ok ex') (i : ℕ) (y : TXT σ) (dg : Bool)
    (xs borders : List ℚ) (order : List ℕ)
    (hx : ex.items[i]? = some (.txt (y.initialise dg xs borders order)))
    (hw : y.writeAtLast = true) (l : List ℚ) (m : ℚ) (hl : y.times = some (l ++ [m])) (hm : 0 < m)
    (hfar : ∀ q ∈ steps, q.2 < m * (1 - 1 / 100000)) :
    ∃ x', ex'.items[i]? = some (.txt x') ∧ x'.file = y.file := by
  refine C23_txt_untouched ex ex' steps h i y dg xs borders order hx ?_
  rintro q hq ⟨-, h2⟩
  have h3 := h2 hw
  simp only [TxtLastDue, hf, hl, List.getLast?_append, List.getLast?_singleton, Option.mem_def,
    Option.some_or, Option.some.injEq, exists_eq_left'] at h3
  unfold Near at h3
  rw [abs_of_pos hm, abs_le] at h3
  linarith [h3.1, hfar q hq]

theorem getLast_sorted {l : List ℚ} (hs : l.Pairwise (· ≤ ·)) {M : ℚ} (hM : M ∈ l) (hmax : ∀ τ ∈ l, τ ≤ M) :
    l.getLast? = some M := by
  obtain ⟨init, last, rfl⟩ : ∃ init last, l = init ++ [last] := by
    rcases List.eq_nil_or_concat l with rfl | ⟨i, a, rfl⟩
    · cases hM
    · exact ⟨i, a, by simp⟩
  rw [List.getLast?_append]
  simp only [List.getLast?_singleton, Option.some_or, Option.some.injEq]
  refine le_antisymm (hmax last (by simp)) ?_
  rcases List.mem_append.1 hM with h | h
  · exact (List.pairwise_append.1 hs).2.2 M h last (by simp)
  · simp only [List.mem_singleton] at h
    exact h.le

/-- C23 (e): in a transient simulation with `write_at_last` and times requested in any order, the file holds the
columns exported up to the last step at the largest of the requested times. -/
theorem C23_largest_request (ex ex' : Exports σ) (pre post : List (σ × ℚ)) (p : σ × ℚ) (final : ℚ)
    (hf : ex.finalTime = some final) (h : ex.writeAll (pre ++ p :: post) = .ok ex') (i : ℕ) (y : TXT σ) (dg : Bool)
    (xs borders : List ℚ) (order : List ℕ)
    (hx : ex.items[i]? = some (.txt (y.initialise dg xs borders order)))
    (l : List ℚ) (M : ℚ) (hM : M ∈ l) (hmax : ∀ τ ∈ l, τ ≤ M) (ht : y.times = TXT.setTimes (some l))
    (hw : y.writeAtLast = true) (hp : Near M p.2) (hp' : Near p.2 M) (hpost : ∀ q ∈ post, ¬ Near q.2 M) :
    ∃ x', ex'.items[i]? = some (.txt x') ∧
      let es := (pre ++ [p]).filter fun p => decide (TxtDue (some l) p.2)
      x'.file = some ⟨txtHeader (some final) es,
        txtRows y.sol xs (uniqueIndices dg y.filter xs borders order) es⟩ := by
  have e : TXT.setTimes (some l) = some (pySorted l) := by
    cases l with
    | nil => cases hM
    | cons a l => rfl
  have hl : (pySorted l).getLast? = some M :=
    getLast_sorted (pySorted_pairwise l) (mem_pySorted.2 hM) fun τ hτ => hmax τ (mem_pySorted.1 hτ)
  have hdue : ∀ t, TxtDue y.times t ↔ TxtDue (some l) t := by
    intro t
    rw [ht, e]
    simp only [TxtDue, mem_pySorted]
  have hlast : ∀ t, TxtLastDue y.times ex.finalTime t ↔ Near t M := by
    intro t
    simp [TxtLastDue, ht, e, hf, hl]
  obtain ⟨x', h1, h2⟩ := C23_txt_content ex ex' pre post p h i y dg xs borders order hx
    ((hdue _).2 ⟨M, hM, hp⟩) (fun _ => (hlast _).2 hp')
    (fun q hq hn => hpost q hq ((hlast _).1 (hn.2 hw)))
  refine ⟨x', h1, ?_⟩
  rw [hf] at h2
  simpa only [hdue] using h2

/-- The file at position `i`. -/
def txtFileAt (r : Except PyErr (Exports (List ℚ))) (i : ℕ) : Option TFile :=
  match r with
  | .error _ => none
  | .ok ex => match ex.items[i]? with
    | some (.txt x) => x.file
    | _ => none

example : txtFileAt (exExports.writeAll exSteps) 3 =
    some ⟨[.time 3, .time 9], [[0, 2, 4], [1, 3, 5]]⟩ := by decide +kernel

/-- Times given as `[9, 3]`: the file is written at 9, with both columns. -/
def exUnsorted : TXT (List ℚ) :=
  { times := TXT.setTimes (some [9, 3]), filename := some "./c.txt", sol := id, writeAtLast := true }

example : txtFileAt ((({ items := [.txt exUnsorted] } : Exports (List ℚ)).initialise (some 10) false
    [0, 1] [] [0, 1]).writeAll [([2, 3], 3), ([4, 5], 9), ([6, 7], 10)]) 0
      = some ⟨[.time 3, .time 9], [[0, 2, 4], [1, 3, 5]]⟩ := by
  decide +kernel

/-! ## C24 -/

/-- C24 (a): rows are sorted by coordinate, every degree of freedom appears at most once, and every
coordinate of the mesh appears. -/
theorem C24_sorted_complete (dg fl : Bool) (xs borders : List ℚ) (order : List ℕ)
    (h : IsArgsort xs order) :
    let idx := uniqueIndices dg fl xs borders order
    (idx.map fun i => xs.getD i 0).Pairwise (· ≤ ·) ∧ idx.Nodup ∧ (∀ i ∈ idx, i < xs.length) ∧
    ∀ i < xs.length, ∃ j ∈ idx, xs.getD j 0 = xs.getD i 0 := by
  intro idx
  have hsub := uniqueIndices_sublist dg fl xs borders order
  have hnd : order.Nodup := h.1.nodup_iff.2 List.nodup_range
  have hmem : ∀ i, i ∈ order ↔ i < xs.length := fun i => by rw [h.1.mem_iff, List.mem_range]
  refine ⟨h.2.sublist (hsub.map _), hsub.nodup hnd, fun i hi => (hmem i).1 (hsub.subset hi), ?_⟩
  intro i hi
  by_cases hc : (dg && fl) = true
  · obtain ⟨j, hj, he, hf⟩ := exists_first xs i
    refine ⟨j, ?_, he⟩
    simp only [idx, uniqueIndices, hc, if_true, List.mem_filter, hmem]
    exact ⟨by omega, by simp [hf]⟩
  · refine ⟨i, ?_, rfl⟩
    simp only [idx, uniqueIndices, hc]
    exact (hmem i).2 hi

/-- C24 (b): without filtering (or with a continuous field) nothing is dropped. -/
theorem C24_unfiltered (dg fl : Bool) (xs borders : List ℚ) (order : List ℕ)
    (h : IsArgsort xs order) (hc : (dg && fl) = false) :
    (uniqueIndices dg fl xs borders order).Perm (List.range xs.length) := by
  simp only [uniqueIndices, hc]
  exact h.1

/-- C24 (c): with filtering, for each material border one coordinate closest to it keeps all its
degrees of freedom (both sides of an interface). -/
theorem C24_interfaces_kept (xs borders : List ℚ) (order : List ℕ)
    (h : IsArgsort xs order) (hne : xs ≠ []) (b : ℚ) (hb : b ∈ borders) :
    ∃ c, (∃ k < xs.length, xs.getD k 0 = c) ∧ (∀ j < xs.length, |c - b| ≤ |xs.getD j 0 - b|) ∧
      ∀ i < xs.length, xs.getD i 0 = c → i ∈ uniqueIndices true true xs borders order := by
  have hl : (xs.map fun x => |x - b|) ≠ [] := by simpa using hne
  obtain ⟨h1, h2, -⟩ := argmin_spec _ hl
  have hk : argmin (xs.map fun x => |x - b|) < xs.length := by simpa using h1
  refine ⟨_, ⟨_, hk, rfl⟩, ?_, ?_⟩
  · intro j hj
    have := h2 j (by simpa using hj)
    rwa [getD_map_abs xs b hk, getD_map_abs xs b hj] at this
  · intro i hi he
    exact (mem_uniqueIndices h).2 ⟨hi, .inr ⟨b, hb, he⟩⟩

/-- C24 (d): a border that is a mesh coordinate keeps all the degrees of freedom at that
coordinate. -/
theorem C24_exact_border (xs borders : List ℚ) (order : List ℕ) (h : IsArgsort xs order)
    (i : ℕ) (hi : i < xs.length) (hb : xs.getD i 0 ∈ borders) :
    i ∈ uniqueIndices true true xs borders order := by
  have hne : xs ≠ [] := by rintro rfl; simp at hi
  obtain ⟨c, ⟨k, hk, hkc⟩, h2, h3⟩ := C24_interfaces_kept xs borders order h hne _ hb
  apply h3 i hi
  have := h2 i hi
  rw [sub_self, abs_zero] at this
  have h5 := abs_eq_zero.1 (le_antisymm this (abs_nonneg _))
  linarith

/-- C24 (e): elsewhere exactly one degree of freedom per coordinate is kept: two distinct rows with
the same coordinate only occur at a coordinate closest to a border. -/
theorem C24_duplicates_only_at_interfaces (xs borders : List ℚ) (order : List ℕ)
    (h : IsArgsort xs order) (i j : ℕ) (hi : i ∈ uniqueIndices true true xs borders order)
    (hj : j ∈ uniqueIndices true true xs borders order) (hij : i ≠ j)
    (he : xs.getD i 0 = xs.getD j 0) :
    ∃ b ∈ borders, ∀ k < xs.length, |xs.getD i 0 - b| ≤ |xs.getD k 0 - b| := by
  obtain ⟨li, hi⟩ := (mem_uniqueIndices h).1 hi
  obtain ⟨lj, hj⟩ := (mem_uniqueIndices h).1 hj
  have key : ∀ a, a < xs.length → (∃ b ∈ borders,
      xs.getD a 0 = xs.getD (argmin (xs.map fun x => |x - b|)) 0) →
      ∃ b ∈ borders, ∀ k < xs.length, |xs.getD a 0 - b| ≤ |xs.getD k 0 - b| := by
    rintro a ha ⟨b, hb, hab⟩
    refine ⟨b, hb, fun k hk => ?_⟩
    have hl : (xs.map fun x => |x - b|) ≠ [] := by
      intro hn; simp at hn; subst hn; simp at ha
    obtain ⟨h1, h2, -⟩ := argmin_spec _ hl
    have hk' : argmin (xs.map fun x => |x - b|) < xs.length := by simpa using h1
    have := h2 k (by simpa using hk)
    rw [getD_map_abs xs b hk', getD_map_abs xs b hk] at this
    rwa [hab]
  rcases hi with hi | hi
  · rcases hj with hj | hj
    · exfalso
      rcases lt_or_gt_of_ne hij with hlt | hlt
      · exact hj i hlt he
      · exact hi j hlt he.symm
    · rw [he]; exact key j lj hj
  · exact key i li hi

/-- Discontinuous field on the cells [0,1], [1,2], [2,3] with an interface at 2. -/
example : IsArgsort [0, 1, 1, 2, 2, 3] [0, 1, 2, 3, 4, 5] ∧
    uniqueIndices true true [0, 1, 1, 2, 2, 3] [0, 2, 3] [0, 1, 2, 3, 4, 5] = [0, 1, 3, 4, 5] := by
  refine ⟨⟨by decide, by decide +kernel⟩, by decide +kernel⟩

/-! ## C25 -/

/-- C25 (a): initialising again and running: the tables hold only the rows of the new run, computed at
the iterations `ex.nb + k` that are multiples of the period. -/
theorem C25_reinitialised_table (ex ex' : Exports σ) (final : Option ℚ) (dg : Bool)
    (xs borders : List ℚ) (order : List ℕ) (steps : List (σ × ℚ))
    (h : (ex.initialise final dg xs borders order).writeAll steps = .ok ex')
    (i : ℕ) (d : DQ σ) (hd : ex.items[i]? = some (.dq d)) (hne : d.quantities ≠ []) :
    ∃ d', ex'.items[i]? = some (.dq d') ∧
      d'.data = csvTable (d.quantities.map (·.title)) (d.quantities.map (·.eval))
        (atMultiples d.betweenCompute ex.nb steps) ∧
      ∀ q ∈ d'.quantities, q.t = (atMultiples d.betweenCompute ex.nb steps).map (·.2) := by
  have hx : (ex.initialise final dg xs borders order).items[i]? = some (.dq d.reset) := by
    simp [Exports.initialise, hd, Export.initialise]
  obtain ⟨d', h1, h2, h3, h4⟩ := C18_table _ ex' steps h i d.reset hx
    ⟨rfl, rfl, by simp [DQ.reset]⟩ (by simpa [DQ.reset] using hne)
  refine ⟨d', h1, ?_, ?_⟩
  · rw [h4]; simp [DQ.reset, Exports.initialise, Function.comp_def]
  · intro q hq
    have h5 : (q.title, q.data, q.t) ∈ d'.quantities.map (fun q => (q.title, q.data, q.t)) :=
      List.mem_map_of_mem hq
    rw [h3, List.mem_map] at h5
    obtain ⟨q', -, h6⟩ := h5
    simp only [Prod.mk.injEq] at h6
    rw [← h6.2.2]
    rfl

theorem atMultiples_congr {α : Type} (n k k' : ℕ) (l : List α) (h : k % n = k' % n) :
    atMultiples n k l = atMultiples n k' l := by
  induction l generalizing k k' with
  | nil => rfl
  | cons a l ih =>
    rw [atMultiples_cons, atMultiples_cons, ih (k + 1) (k' + 1) (by rw [Nat.add_mod, h, ← Nat.add_mod]), h]

/-- C25 (b): the iteration counter is not reset: it counts the accepted steps of all runs, so the
schedule of a second run is the one of a first run exactly if the period divides that number. -/
theorem C25_counter_not_reset (ex ex' : Exports σ) (final final' : Option ℚ) (dg : Bool)
    (xs borders : List ℚ) (order : List ℕ) (steps : List (σ × ℚ)) (hne : steps ≠ [])
    (h : (ex.initialise final dg xs borders order).writeAll steps = .ok ex') :
    (ex'.initialise final' dg xs borders order).nb = ex.nb + steps.length ∧
    ∀ n > 0, n ∣ steps.length ↔ ∀ steps' : List (σ × ℚ),
      atMultiples n (ex'.initialise final' dg xs borders order).nb steps' =
        atMultiples n ex.nb steps' := by
  have h1 : (ex'.initialise final' dg xs borders order).nb = ex.nb + steps.length := by
    have := (writeAll_nb h).1
    simpa [Exports.initialise] using this
  refine ⟨h1, fun n hn0 => ⟨fun hn steps' => ?_, fun hall => ?_⟩⟩
  · rw [h1]
    apply atMultiples_congr
    obtain ⟨k, hk⟩ := hn
    rw [hk, Nat.add_mul_mod_self_left]
  · obtain ⟨a, l, -⟩ := List.exists_cons_of_ne_nil hne
    -- one value per step: the first step written by the old schedule must be written by the new one
    rw [h1] at hall
    set j := (n - ex.nb % n) % n with hj
    have hz : (ex.nb + j) % n = 0 := by
      have h2 : ex.nb % n < n := Nat.mod_lt _ hn0
      rw [hj, Nat.add_mod, Nat.mod_mod, ← Nat.add_mod, Nat.add_mod]
      rcases Nat.eq_zero_or_pos (ex.nb % n) with h3 | h3
      · simp [h3]
      · rw [Nat.mod_eq_of_lt (show n - ex.nb % n < n by omega), Nat.add_sub_cancel' h2.le, Nat.mod_self]
    have e1 := hall (List.replicate j a)
    have e2 := hall (List.replicate (j + 1) a)
    rw [List.replicate_succ', atMultiples_append, atMultiples_append, e1, List.append_cancel_left_eq,
      List.length_replicate, atMultiples_cons, atMultiples_cons, if_pos hz, atMultiples_nil, atMultiples_nil] at e2
    split_ifs at e2 with h4
    · have h5 : (ex.nb + steps.length + j) % n = 0 := h4
      rw [← Nat.dvd_iff_mod_eq_zero] at h5 hz
      have : ex.nb + steps.length + j = (ex.nb + j) + steps.length := by ring
      rw [this] at h5
      exact (Nat.dvd_add_right hz).1 h5
    · simp at e2

/-- C25 (c): concrete loss: with `nb_iterations_between_compute = 2`, initialising and running the
same single-step simulation a second time leaves an empty table. -/
theorem C25_second_run_empty_table :
    let d : DQ (List ℚ) := { quantities := [exQ], betweenCompute := 2, betweenExports := some 1 }
    let ex : Exports (List ℚ) := { items := [.dq d] }
    ∃ ex₁ d₁ ex₂ d₂,
      (ex.initialise (some 1) false [] [] []).writeAll [([5], 1)] = .ok ex₁ ∧
      ex₁.items[0]? = some (.dq d₁) ∧ d₁.data = [[.text "t(s)", .text "a"], [.num 1, .num 5]] ∧
      (ex₁.initialise (some 1) false [] [] []).writeAll [([5], 1)] = .ok ex₂ ∧
      ex₂.items[0]? = some (.dq d₂) ∧ d₂.data = [] := by
  refine ⟨_, _, _, _, rfl, rfl, ?_, rfl, rfl, ?_⟩ <;> decide +kernel

/-- C25 (d): the txt content after initialising again depends only on the new run. -/
theorem C25_reinitialised_txt (ex ex' : Exports σ) (final : Option ℚ) (dg : Bool)
    (xs borders : List ℚ) (order : List ℕ) (steps : List (σ × ℚ))
    (h : (ex.initialise final dg xs borders order).writeAll steps = .ok ex')
    (i : ℕ) (y : TXT σ) (hy : ex.items[i]? = some (.txt y)) :
    ∃ x', ex'.items[i]? = some (.txt x') ∧
      x'.rows = txtRows y.sol xs (uniqueIndices dg y.filter xs borders order)
        (steps.filter fun p => decide (TxtDue y.times p.2)) := by
  have hx : (ex.initialise final dg xs borders order).items[i]? =
      some (.txt (y.initialise dg xs borders order)) := by
    simp [Exports.initialise, hy, Export.initialise]
  obtain ⟨x', h1, -, h3, -⟩ := C21_txt_columns _ ex' steps h i y dg xs borders order hx
  exact ⟨x', h1, h3⟩

/-- C25 (e): an XDMF export keeps its `append` flag: after a run that wrote at least one record, the
records of the next run are all appended to the same file. -/
theorem C25_xdmf_appends (ex ex' : Exports σ) (final : Option ℚ) (dg : Bool)
    (xs borders : List ℚ) (order : List ℕ) (steps : List (σ × ℚ))
    (h : (ex.initialise final dg xs borders order).writeAll steps = .ok ex') (i : ℕ) (x : XDMF σ)
    (hx : ex.items[i]? = some (.xdmf x)) (happ : x.append = true) :
    ∃ x' new, ex'.items[i]? = some (.xdmf x') ∧ x'.records = x.records ++ new ∧
      ∀ r ∈ new, r.append = true := by
  have hx' : (ex.initialise final dg xs borders order).items[i]? = some (.xdmf x) := by
    simp [Exports.initialise, hx, Export.initialise]
  obtain ⟨x', h1, h2⟩ := writeAll_xdmf h hx'
  refine ⟨x', ?_⟩
  have key : ∀ (nb : ℕ) (x : XDMF σ), x.append = true →
      runOn (fun x s t nb => XDMF.write x s t
        (ex.initialise final dg xs borders order).finalTime nb) nb x steps = .ok x' →
      ∃ new, x'.records = x.records ++ new ∧ ∀ r ∈ new, r.append = true := by
    clear h2 h h1
    induction steps with
    | nil => rintro nb x - h; cases h; exact ⟨[], by simp⟩
    | cons p ps ih =>
      intro nb x ha h
      obtain ⟨x1, h3, h4⟩ := runOn_cons_ok.1 h
      simp only [XDMF.write] at h3
      split at h3
      · cases h3
      · cases h3; exact ih nb.succ _ ha h4
      · cases h3
        obtain ⟨new, h5, h6⟩ := ih nb.succ _ rfl h4
        refine ⟨⟨p.2, x.append, p.1⟩ :: new, by simpa using h5, ?_⟩
        intro r hr
        rcases List.mem_cons.1 hr with rfl | hr
        · exact ha
        · exact h6 r hr
  obtain ⟨new, h5, h6⟩ := key _ x happ h2
  exact ⟨new, h1, h5, h6⟩

end Festim.Props
