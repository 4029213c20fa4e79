import Verif.Model.Newton

/-!
# C94: which solver parameters are used
-/

namespace Festim.Spec

open Newton

/-- The options in force after a session: the last ones given. -/
def lastSettings (o : Opts) : List Op → Opts
  | [] => o
  | .setSettings o' :: l => lastSettings o' l
  | _ :: l => lastSettings o l

def lastHeatOpts (o : Opts) : List Op → Opts
  | [] => o
  | .setHeatOpts o' :: l => lastHeatOpts o' l
  | _ :: l => lastHeatOpts o l

def lastTrapOpts (i : ℕ) (o : Opts) : List Op → Opts
  | [] => o
  | .setTrapOpts j o' :: l => lastTrapOpts i (if j = i then o' else o) l
  | _ :: l => lastTrapOpts i o l

/-- The user assigns a solver (or `None`) to the heat problem. -/
def AssignsHeat : Op → Prop
  | .setHeat .none => True
  | .setHeat (.solver _) => True
  | _ => False

end Festim.Spec

namespace Festim.Props

open Newton Spec

/-- What one operation does to each part. -/
theorem step_settings (s : Sim) (op : Op) :
    (s.step op).settings = (match op with | .setSettings o => o | _ => s.settings) ∧
    (s.step op).transient = s.transient := by
  cases op with
  | setHydrogen v => cases hh : s.hydrogen <;> cases v <;> simp [Sim.step, Sim.apply, Owner.set, hh]
  | setTrap i v =>
    cases ht : s.traps[i]? <;> cases v <;> simp [Sim.step, Sim.apply, setAt, Owner.set, ht]
  | setHeat v => cases v <;> simp [Sim.step, Sim.apply, Owner.set]
  | setTrapOpts i o => cases ht : s.traps[i]? <;> simp [Sim.step, Sim.apply, ht]
  | setSettings o => exact ⟨rfl, rfl⟩
  | setHeatOpts o => exact ⟨rfl, rfl⟩
  | initialise => exact ⟨rfl, rfl⟩

theorem step_heat (s : Sim) (op : Op) :
    (s.step op).heat = match op with
      | .setHeatOpts o => { s.heat with opts := o }
      | .setHeat .none => { s.heat with solver := none }
      | .setHeat (.solver x) => { s.heat with solver := some x }
      | .initialise => s.heat.initHeat
      | _ => s.heat := by
  cases op with
  | setHydrogen v => cases hh : s.hydrogen <;> cases v <;> simp [Sim.step, Sim.apply, Owner.set, hh]
  | setTrap i v =>
    cases ht : s.traps[i]? <;> cases v <;> simp [Sim.step, Sim.apply, setAt, Owner.set, ht]
  | setHeat v => cases v <;> simp [Sim.step, Sim.apply, Owner.set]
  | setTrapOpts i o => cases ht : s.traps[i]? <;> simp [Sim.step, Sim.apply, ht]
  | setSettings o => rfl
  | setHeatOpts o => rfl
  | initialise => rfl

theorem step_trapOpts (s : Sim) (op : Op) (i : ℕ) :
    ((s.step op).traps[i]?).map (·.opts) = (s.traps[i]?).map fun t => match op with
      | .setTrapOpts j o => if j = i then o else t.opts
      | _ => t.opts := by
  cases op with
  | setHydrogen v => cases hh : s.hydrogen <;> cases v <;> simp [Sim.step, Sim.apply, Owner.set, hh]
  | setTrap j v =>
    cases ht : s.traps[j]? with
    | none => cases v <;> simp [Sim.step, Sim.apply, setAt, ht]
    | some t =>
      cases v <;> simp only [Sim.step, Sim.apply, setAt, Owner.set, ht, List.getElem?_set] <;>
      by_cases hj : j = i
      all_goals simp only [hj, if_true, if_false]
      all_goals subst hj
      all_goals
        obtain ⟨hlt, he⟩ := List.getElem?_eq_some_iff.1 ht
        simp [hlt, he]
  | setHeat v => cases v <;> simp [Sim.step, Sim.apply, Owner.set]
  | setTrapOpts j o =>
    cases ht : s.traps[j]? with
    | none =>
      by_cases hj : j = i
      · subst hj; simp [Sim.step, Sim.apply, ht]
      · simp [Sim.step, Sim.apply, ht, hj]
    | some t =>
      simp only [Sim.step, Sim.apply, ht, List.getElem?_set]
      by_cases hj : j = i
      · subst hj
        obtain ⟨hlt, -⟩ := List.getElem?_eq_some_iff.1 ht
        simp [hlt]
      · simp [hj]
  | setSettings o => rfl
  | setHeatOpts o => rfl
  | initialise =>
    simp only [Sim.step, Sim.apply, Sim.initialise]
    cases s.transient
    · simp
    · cases ht : s.traps[i]? <;> simp [Owner.define, ht]

theorem settings_session (s : Sim) (ops : List Op) :
    (s.session ops).settings = lastSettings s.settings ops ∧ (s.session ops).transient = s.transient := by
  induction ops generalizing s with
  | nil => exact ⟨rfl, rfl⟩
  | cons op ops ih =>
    have h := ih (s.step op)
    rw [(step_settings s op).1, (step_settings s op).2] at h
    refine ⟨h.1.trans ?_, h.2⟩
    cases op <;> rfl

theorem heatOpts_session (s : Sim) (ops : List Op) :
    (s.session ops).heat.opts = lastHeatOpts s.heat.opts ops := by
  induction ops generalizing s with
  | nil => rfl
  | cons op ops ih =>
    have h := ih (s.step op)
    rw [step_heat s op] at h
    refine h.trans ?_
    cases op with
    | setHeat v => cases v <;> rfl
    | initialise =>
      simp only [lastHeatOpts, Owner.initHeat]
      cases s.heat.solver <;> rfl
    | _ => rfl

theorem trapOpts_session (s : Sim) (ops : List Op) (i : ℕ) :
    ((s.session ops).traps[i]?).map (·.opts) = (s.traps[i]?).map fun t => lastTrapOpts i t.opts ops := by
  induction ops generalizing s with
  | nil => rfl
  | cons op ops ih =>
    have h1 := ih (s.step op)
    have h2 := step_trapOpts s op i
    refine h1.trans ?_
    cases ht : s.traps[i]? with
    | none =>
      rw [ht, Option.map_none, Option.map_eq_none_iff] at h2
      rw [h2]
      rfl
    | some t =>
      rw [ht, Option.map_some, Option.map_eq_some_iff] at h2
      obtain ⟨t', ht', ho⟩ := h2
      rw [ht', Option.map_some, Option.map_some, ho]
      cases op <;> rfl

theorem session_append (s : Sim) (a b : List Op) : s.session (a ++ b) = (s.session a).session b :=
  List.foldl_append

/-- **C94 (a).** Whatever was done before, after `initialise` the hydrogen problem is solved with the current
settings, and a solve which does not converge does not raise; a solver the user had given is forgotten. -/
theorem C94_hydrogen (s : Sim) (ops : List Op) :
    (s.session (ops ++ [.initialise])).hydrogen = some (some ⟨lastSettings s.settings ops, false⟩) := by
  rw [session_append]
  show some (some (⟨(s.session ops).settings, false⟩ : Solver)) = _
  rw [(settings_session s ops).1]

/-- **C94 (b).** The same for every extrinsic trap in transient simulations, with the options of the trap; but a solve
which does not converge raises. -/
theorem C94_trap (s : Sim) (hs : s.transient = true) (ops : List Op) (i : ℕ) :
    ((s.session (ops ++ [.initialise])).traps[i]?).map (·.solver)
      = (s.traps[i]?).map fun t => some ⟨lastTrapOpts i t.opts ops, true⟩ := by
  rw [session_append]
  have h : ((s.session ops).session [.initialise]).traps = (s.session ops).traps.map (·.define true) := by
    show (if (s.session ops).transient then (s.session ops).traps.map (·.define true)
      else (s.session ops).traps) = _
    rw [(settings_session s ops).2, hs, if_pos rfl]
  rw [h]
  have h2 := trapOpts_session s ops i
  cases ht : s.traps[i]? with
  | none =>
    rw [ht, Option.map_none, Option.map_eq_none_iff] at h2
    simp [h2]
  | some t =>
    rw [ht, Option.map_some, Option.map_eq_some_iff] at h2
    obtain ⟨t', ht', ho⟩ := h2
    simp [ht', Owner.define, ho]

theorem heat_kept (s : Sim) (ops : List Op) (x : Solver) (hs : s.heat.solver = some x)
    (hn : ∀ op ∈ ops, ¬ AssignsHeat op) : (s.session ops).heat.solver = some x := by
  induction ops generalizing s with
  | nil => exact hs
  | cons op ops ih =>
    refine ih (s.step op) ?_ fun o ho => hn o (List.mem_cons_of_mem _ ho)
    rw [step_heat]
    have := hn op (List.mem_cons_self ..)
    cases op with
    | setHeat v =>
      cases v with
      | none => exact absurd trivial this
      | solver y => exact absurd trivial this
      | other => exact hs
    | initialise => simp only [Owner.initHeat, hs]
    | _ => exact hs

theorem heat_none (s : Sim) (ops : List Op) (hs : s.heat.solver = none)
    (hn : ∀ op ∈ ops, ¬ AssignsHeat op ∧ op ≠ .initialise) : (s.session ops).heat.solver = none := by
  induction ops generalizing s with
  | nil => exact hs
  | cons op ops ih =>
    refine ih (s.step op) ?_ fun o ho => hn o (List.mem_cons_of_mem _ ho)
    rw [step_heat]
    have := hn op (List.mem_cons_self ..)
    cases op with
    | setHeat v =>
      cases v with
      | none => exact absurd trivial this.1
      | solver y => exact absurd trivial this.1
      | other => exact hs
    | initialise => exact absurd rfl this.2
    | _ => exact hs

/-- **C94 (c).** A solver given by the user to the heat problem is kept by every later `initialise`, whatever happens to
the options. -/
theorem C94_heat_user (s : Sim) (before after : List Op) (x : Solver)
    (hn : ∀ op ∈ after, ¬ AssignsHeat op) :
    (s.session (before ++ .setHeat (.solver x) :: after)).heat.solver = some x := by
  rw [session_append]
  refine heat_kept ((s.session before).step (.setHeat (.solver x))) after x ?_ hn
  rw [step_heat]

/-- **C94 (d).** Without such a solver (none was ever given, or the last assignment was `None`), the options used are
those of the first `initialise` since; options given later are ignored. -/
theorem C94_heat_first (s : Sim) (before between after : List Op)
    (h0 : (s.session before).heat.solver = none)
    (hb : ∀ op ∈ between, ¬ AssignsHeat op ∧ op ≠ .initialise) (ha : ∀ op ∈ after, ¬ AssignsHeat op) :
    (s.session (before ++ between ++ .initialise :: after)).heat.solver
      = some ⟨lastHeatOpts s.heat.opts (before ++ between), true⟩ := by
  rw [session_append]
  refine heat_kept ((s.session (before ++ between)).step .initialise) after _ ?_ ha
  rw [step_heat]
  have h1 : (s.session (before ++ between)).heat.solver = none := by
    rw [session_append]
    exact heat_none _ _ h0 hb
  simp only [Owner.initHeat, h1, Owner.define]
  rw [heatOpts_session]

/-- **C94 (e).** Anything else than a solver or `None` is refused with `TypeError`, for each of the three, and nothing is
changed; before the first `initialise` the hydrogen problem cannot be given a solver at all. -/
theorem C94_types (s : Sim) (i : ℕ) (t : Owner) (hi : s.traps[i]? = some t) (v : Value) :
    ((∃ m, s.apply (.setHeat v) = .error (.typeError m)) ↔ v = .other) ∧
    ((∃ m, s.apply (.setTrap i v) = .error (.typeError m)) ↔ v = .other) ∧
    (s.hydrogen.isSome → ((∃ m, s.apply (.setHydrogen v) = .error (.typeError m)) ↔ v = .other)) ∧
    (s.hydrogen = none → ∃ m, s.apply (.setHydrogen v) = .error (.attributeError m)) ∧
    s.step (.setHeat .other) = s ∧ s.step (.setTrap i .other) = s ∧ s.step (.setHydrogen .other) = s := by
  refine ⟨?_, ?_, ?_, ?_, rfl, ?_, ?_⟩
  · cases v <;> simp [Sim.apply, Owner.set]
  · cases v <;> simp [Sim.apply, setAt, hi, Owner.set]
  · intro h
    obtain ⟨x, hx⟩ := Option.isSome_iff_exists.1 h
    cases v <;> simp [Sim.apply, hx, Owner.set]
  · intro h
    simp [Sim.apply, h]
  · simp [Sim.step, Sim.apply, setAt, hi, Owner.set]
  · cases hx : s.hydrogen <;> simp [Sim.step, Sim.apply, hx, Owner.set]

/-! ### Examples -/

def exTol (a : ℚ) : Opts := ⟨a, 1, 30, none, "default"⟩

def exSim : Sim := { settings := exTol 1, transient := true, heat := ⟨exTol 2, none⟩, traps := [⟨exTol 3, none⟩] }

/-- The tolerances are tightened between two runs: the heat problem is still solved with the old ones. -/
def exOps : List Op :=
  [.initialise, .setSettings (exTol 0), .setHeatOpts (exTol 0), .setTrapOpts 0 (exTol 0), .initialise]

example : (exSim.session exOps).hydrogen = some (some ⟨exTol 0, false⟩) ∧
    (exSim.session exOps).heat.solver = some ⟨exTol 2, true⟩ ∧
    (exSim.session exOps).traps.map (·.solver) = [some ⟨exTol 0, true⟩] := by decide +kernel

/-- Solvers given by the user: the one of the heat problem is kept, the others are not. -/
def exUser : List Op :=
  [.initialise, .setHydrogen (.solver ⟨exTol 7, true⟩), .setHeat (.solver ⟨exTol 8, false⟩),
    .setTrap 0 (.solver ⟨exTol 9, false⟩), .initialise]

example : (exSim.session exUser).hydrogen = some (some ⟨exTol 1, false⟩) ∧
    (exSim.session exUser).heat.solver = some ⟨exTol 8, false⟩ ∧
    (exSim.session exUser).traps.map (·.solver) = [some ⟨exTol 3, true⟩] := by decide +kernel

/-- Hypotheses of (d) after an assignment of `None`. -/
example : (exSim.session [.initialise, .setHeat .none]).heat.solver = none := by decide +kernel

end Festim.Props
