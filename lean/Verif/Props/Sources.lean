import Verif.Spec.Sources
import Verif.Props.Fields

/-! # C110: values of sources -/

namespace Festim.Props

open Spec

theorem sourceInit_due (given : ℕ → Given) (o : Obj) (s : Source) (hd : s.decay = false) :
    sourceInit (given s.uid) = if DocumentedValue (given s.uid) then some (due given o s) else none := by
  unfold due
  rw [hd]
  cases given s.uid <;> simp [sourceInit, DocumentedValue]

/-- The store as the sources of `ss` need it: values of the sources that are not decays are in place. -/
def Ready (given : ℕ → Given) (ss : List Source) (σ : Store) : Prop :=
  ∀ s ∈ ss, s.decay = false → σ s.uid = sourceInit (given s.uid)

theorem ready_fresh (given : ℕ → Given) (ss : List Source) (hid : ∀ s ∈ ss, ∀ s' ∈ ss, s.uid = s'.uid → s = s') :
    Ready given ss (Store.fresh given ss) ∧ ∀ s ∈ ss, s.decay = true → Store.fresh given ss s.uid = none := by
  have key : ∀ s ∈ ss, ss.find? (fun x => x.uid = s.uid) = some s := by
    intro s hs
    cases hf : ss.find? (fun x => x.uid = s.uid) with
    | none => exact absurd (List.find?_eq_none.1 hf s hs) (by simp)
    | some x =>
      have h1 := List.mem_of_find?_eq_some hf
      have h2 := List.find?_some hf
      rw [hid x h1 s hs (by simpa using h2)]
  constructor
  · intro s hs hd
    simp [Store.fresh, key s hs, hd]
  · intro s hs hd
    simp [Store.fresh, key s hs, hd, sourceInit]

theorem readSources_eq (given : ℕ → Given) (ss : List Source) (hid : ∀ s ∈ ss, ∀ s' ∈ ss, s.uid = s'.uid → s = s') (o : Obj)
    (l : List Source) (hl : ∀ s ∈ l, s ∈ ss) : ∀ σ, Ready given ss σ →
      if ∀ s ∈ l, s.decay = false → DocumentedValue (given s.uid) then
        ∃ σ', Ready given ss σ' ∧ readSources o σ l = .ok (l.map fun s => (o, s.uid, due given o s), σ')
      else readSources o σ l = .error (.attributeError "value") := by
  induction l with
  | nil => intro σ hσ; simpa [readSources] using hσ
  | cons a l ih =>
    intro σ hσ
    have ha := hl a List.mem_cons_self
    set σ1 := if a.decay then σ.set a.uid (.decayOf o) else σ with hσ1
    have h1 : Ready given ss σ1 := by
      intro s hs hd
      rw [hσ1]
      split
      · rename_i hda
        have : s.uid ≠ a.uid := by
          intro h
          rw [hid s hs a ha h, hda] at hd
          cases hd
        simp [Store.set, this, hσ s hs hd]
      · exact hσ s hs hd
    have hval : σ1 a.uid = if (a.decay = false → DocumentedValue (given a.uid)) then some (due given o a) else none := by
      cases hd : a.decay with
      | true => simp [hσ1, hd, Store.set, due]
      | false => rw [h1 a ha hd, sourceInit_due given o a hd]; simp
    have ih' := ih (fun s hs => hl s (List.mem_cons_of_mem _ hs)) σ1 h1
    unfold readSources
    dsimp only
    rw [← hσ1, hval]
    by_cases hA : a.decay = false → DocumentedValue (given a.uid)
    · rw [if_pos hA]
      dsimp only
      by_cases hL : ∀ s ∈ l, s.decay = false → DocumentedValue (given s.uid)
      · rw [if_pos hL] at ih'
        obtain ⟨σ', h2, h3⟩ := ih'
        rw [if_pos (by simpa using ⟨by simpa using hA, by simpa using hL⟩), h3]
        exact ⟨σ', h2, rfl⟩
      · rw [if_neg hL] at ih'
        rw [if_neg (fun h => hL fun s hs => h s (List.mem_cons_of_mem _ hs)), ih']
    · rw [if_neg hA, if_neg fun h => hA (h a List.mem_cons_self)]

theorem readHeat_eq (given : ℕ → Given) (ss : List Source) (σ : Store) (hσ : Ready given ss σ)
    (hdec : ∀ s ∈ ss, s.decay = true → σ s.uid = none) (l : List Source) (hl : ∀ s ∈ l, s ∈ ss) :
    readHeat σ l = if ∀ s ∈ l, s.decay = false ∧ DocumentedValue (given s.uid) then .ok (l.map fun s => (.temp, s.uid, due given .temp s))
      else .error (.attributeError "value") := by
  induction l with
  | nil => simp [readHeat]
  | cons a l ih =>
    have ha := hl a List.mem_cons_self
    have hval : σ a.uid = if a.decay = false ∧ DocumentedValue (given a.uid) then some (due given .temp a) else none := by
      cases hd : a.decay with
      | true => rw [hdec a ha hd]; simp
      | false => rw [hσ a ha hd, sourceInit_due given .temp a hd]; simp
    unfold readHeat
    rw [hval, ih fun s hs => hl s (List.mem_cons_of_mem _ hs)]
    by_cases hA : a.decay = false ∧ DocumentedValue (given a.uid)
    · rw [if_pos hA]
      dsimp only
      by_cases hL : ∀ s ∈ l, s.decay = false ∧ DocumentedValue (given s.uid)
      · rw [if_pos hL, if_pos (fun s hs => (List.mem_cons.1 hs).elim (fun e => e ▸ hA) (hL s))]
        rfl
      · rw [if_neg hL, if_neg (fun h => hL fun s hs => h s (List.mem_cons_of_mem _ hs))]
    · rw [if_neg hA]
      dsimp only
      rw [if_neg fun h => hA (h a List.mem_cons_self)]

theorem readTraps_eq (given : ℕ → Given) (ss : List Source) (hid : ∀ s ∈ ss, ∀ s' ∈ ss, s.uid = s'.uid → s = s')
    (ls : List (List Source)) (hl : ∀ l ∈ ls, ∀ s ∈ l, s ∈ ss) : ∀ k σ, Ready given ss σ →
      readTraps k σ ls = if ∀ l ∈ ls, ∀ s ∈ l, s.decay = false → DocumentedValue (given s.uid) then
        .ok ((List.range' k ls.length).flatMap fun j => (ls.getD (j - k) []).map fun s => (.trap j, s.uid, due given (.trap j) s))
      else .error (.attributeError "value") := by
  induction ls with
  | nil => intro k σ _; simp [readTraps]
  | cons a ls ih =>
    intro k σ hσ
    have h := readSources_eq given ss hid (.trap k) a (hl a List.mem_cons_self) σ hσ
    unfold readTraps
    by_cases hA : ∀ s ∈ a, s.decay = false → DocumentedValue (given s.uid)
    · rw [if_pos hA] at h
      obtain ⟨σ', h2, h3⟩ := h
      rw [h3]
      dsimp only
      rw [ih (fun l hl' => hl l (List.mem_cons_of_mem _ hl')) (k + 1) σ' h2]
      by_cases hL : ∀ l ∈ ls, ∀ s ∈ l, s.decay = false → DocumentedValue (given s.uid)
      · rw [if_pos hL, if_pos (fun s hs => (List.mem_cons.1 hs).elim (fun e => e ▸ hA) (hL s))]
        dsimp only
        rw [List.length_cons, List.range'_succ, List.flatMap_cons]
        congr 2
        · simp
        · refine List.flatMap_congr fun j hj => ?_
          have hj' := (List.mem_range'_1.1 hj).1
          rw [show j - k = (j - (k + 1)) + 1 by omega]
          rfl
      · rw [if_neg hL, if_neg (fun h => hL fun s hs => h s (List.mem_cons_of_mem _ hs))]
    · rw [if_neg hA] at h
      rw [h, if_neg fun h => hA (h a List.mem_cons_self)]

theorem targets_temp (n : ℕ) (s : Source) : Targets n s .temp ↔ s.field = .name "T" := by
  unfold Targets
  split
  · rename_i h0
    constructor
    · rintro (h1 | ⟨k, -, -, h1⟩) <;> cases h1
    · intro h1
      rw [h1] at h0
      exact absurd h0.2 (by decide)
  · rcases hf : s.field with k | k | t
    · rcases k with _ | k
      · simp [fieldObj]
      · simp only [fieldObj]; split <;> simp
    · rcases k with _ | k
      · simp [fieldObj]
      · simp only [fieldObj]; split <;> simp
    · unfold fieldObj
      split <;> simp_all

open Classical in
/-- **C110 (a).** Once the sources have been attributed to their equations, writing the equations succeeds exactly when every source is
usable; then each equation gets the values of the sources which target it, in order, a decay being that of its own concentration.
Otherwise `initialise` ends with AttributeError. -/
theorem C110_write (heat : Bool) (old : SrcState) (ss : List Source) (given : ℕ → Given)
    (hid : ∀ s ∈ ss, ∀ s' ∈ ss, s.uid = s'.uid → s = s') (h : (attributeSources heat old ss).2 = none) :
    writeSources (Store.fresh given ss) (attributeSources heat old ss).1 =
      if ∀ s ∈ ss, Usable given s then
        .ok ((equations old.traps.length).flatMap fun o =>
          (ss.filter fun s => decide (Targets old.traps.length s o)).map fun s => (o, s.uid, due given o s))
      else .error (.attributeError "value") := by
  set n := old.traps.length with hn
  set S := (attributeSources heat old ss).1 with hS
  have hlen : S.traps.length = n := by
    have h1 := attributeLoop_spec heat n ss old.reset (by simp [SrcState.reset, hn])
    exact ((h1.2 (h1.1.1 h)).1)
  have hget := fun o ho => C34_routing heat old ss h o ho
  rw [← hS, ← hn] at hget
  have hacc := (C34_accepts_iff heat old ss).1 h
  obtain ⟨hready, hdec⟩ := ready_fresh given ss hid
  have htemp : S.temp = ss.filter fun s => decide (Targets n s .temp) := hget .temp trivial
  have hmob : S.mobile = ss.filter fun s => decide (Targets n s .mobile) := hget .mobile trivial
  have htrap : ∀ k, 1 ≤ k → k ≤ n → S.traps.getD (k - 1) [] = ss.filter fun s => decide (Targets n s (.trap k)) :=
    fun k h1 h2 => hget (.trap k) ⟨h1, h2⟩
  have hsub : ∀ l ∈ S.traps, ∀ s ∈ l, s ∈ ss ∧ ∃ k, 1 ≤ k ∧ k ≤ n ∧ Targets n s (.trap k) := by
    intro l hl s hs
    obtain ⟨i, hi, rfl⟩ := List.getElem_of_mem hl
    have := htrap (i + 1) (by omega) (by omega)
    rw [Nat.add_sub_cancel, List.getD_eq_getElem?_getD, List.getElem?_eq_getElem hi, Option.getD_some] at this
    rw [this, List.mem_filter] at hs
    exact ⟨hs.1, i + 1, by omega, by omega, by simpa using hs.2⟩
  have hfieldT := targets_temp n
  rw [writeSources, readHeat_eq given ss _ hready hdec S.temp (fun s hs => by rw [htemp] at hs; exact (List.mem_filter.1 hs).1)]
  by_cases hU : ∀ s ∈ ss, Usable given s
  · rw [if_pos hU]
    have hdoc : ∀ s ∈ ss, s.decay = false → DocumentedValue (given s.uid) := by
      intro s hs hd
      have := hU s hs
      simpa [Usable, hd] using this
    rw [if_pos (by
      intro s hs
      rw [htemp, List.mem_filter] at hs
      have hT := (hfieldT s).1 (by simpa using hs.2)
      have := hU s hs.1
      cases hd : s.decay with
      | true => simp [Usable, hd, hT] at this
      | false => exact ⟨rfl, hdoc s hs.1 hd⟩)]
    dsimp only
    have hm := readSources_eq given ss hid .mobile S.mobile (fun s hs => by rw [hmob] at hs; exact (List.mem_filter.1 hs).1) _ hready
    rw [if_pos fun s hs => hdoc s (by rw [hmob] at hs; exact (List.mem_filter.1 hs).1)] at hm
    obtain ⟨σ', h2, h3⟩ := hm
    rw [h3]
    dsimp only
    rw [readTraps_eq given ss hid S.traps (fun l hl s hs => (hsub l hl s hs).1) 1 σ' h2,
      if_pos fun l hl s hs => hdoc s (hsub l hl s hs).1]
    dsimp only
    rw [equations, List.flatMap_cons, List.flatMap_cons, htemp, hmob, List.append_assoc, List.flatMap_map, hlen]
    congr 3
    refine List.flatMap_congr fun k hk => ?_
    have hk' := List.mem_range'_1.1 hk
    rw [htrap k hk'.1 (by omega)]
  · rw [if_neg hU]
    push Not at hU
    obtain ⟨s, hs, hbad⟩ := hU
    split
    · rename_i e he
      split at he
      · cases he
      · cases he; rfl
    · rename_i a ha
      split at ha
      swap
      · cases ha
      rename_i hheat
      -- the bad source is not one of the temperature
      have hnT : s.field ≠ .name "T" := by
        intro hT
        have := hheat s (by rw [htemp, List.mem_filter]; exact ⟨hs, by simpa using (hfieldT s).2 hT⟩)
        apply hbad
        simp [Usable, this.1, this.2]
      have hd : s.decay = false := by
        by_contra hd
        apply hbad
        simp [Usable, hd, hnT]
      have hnd : ¬ DocumentedValue (given s.uid) := by
        intro h'
        exact hbad (by simp [Usable, hd, h'])
      have hm := readSources_eq given ss hid .mobile S.mobile (fun s hs => by rw [hmob] at hs; exact (List.mem_filter.1 hs).1) _ hready
      by_cases hM : ∀ s ∈ S.mobile, s.decay = false → DocumentedValue (given s.uid)
      · rw [if_pos hM] at hm
        obtain ⟨σ', h2, h3⟩ := hm
        rw [h3]
        dsimp only
        rw [readTraps_eq given ss hid S.traps (fun l hl s hs => (hsub l hl s hs).1) 1 σ' h2, if_neg]
        intro hL
        obtain ⟨o, ho⟩ := (hacc s hs).1
        have ho' : ∃ k, 1 ≤ k ∧ k ≤ n ∧ o = .trap k := by
          cases o with
          | temp => exact absurd ((hfieldT s).1 ho) hnT
          | mobile => exact absurd (hM s (by rw [hmob, List.mem_filter]; exact ⟨hs, by simpa using ho⟩) hd) hnd
          | trap k =>
            refine ⟨k, ?_, ?_, rfl⟩
            all_goals
              unfold Targets at ho
              rw [if_neg (by simp [hd])] at ho
              rcases hf : s.field with j | j | t <;> rw [hf] at ho
              · rcases j with _ | j
                · simp [fieldObj] at ho
                · simp only [fieldObj] at ho; split at ho <;> simp at ho; omega
              · rcases j with _ | j
                · simp [fieldObj] at ho
                · simp only [fieldObj] at ho; split at ho <;> simp at ho; omega
              · unfold fieldObj at ho
                split at ho <;> simp_all
        obtain ⟨k, hk1, hk2, rfl⟩ := ho'
        have hmem : S.traps.getD (k - 1) [] ∈ S.traps := by
          rw [List.getD_eq_getElem?_getD, List.getElem?_eq_getElem (by omega : k - 1 < S.traps.length), Option.getD_some]
          exact List.getElem_mem _
        exact hnd (hL _ hmem s (by rw [htrap k hk1 hk2, List.mem_filter]; exact ⟨hs, by simpa using ho⟩) hd)
      · rw [if_neg hM] at hm
        rw [hm]

open Classical in
/-- **C110 (b).** The values which follow the time of the simulation (the attribute `t` of the value is set at each step): in the
equations of hydrogen those given as sympy expression, `Expression` or `UserExpression`, and no other; all those of the temperature. -/
theorem C110_updated (heat : Bool) (old : SrcState) (ss : List Source) (given : ℕ → Given)
    (hid : ∀ s ∈ ss, ∀ s' ∈ ss, s.uid = s'.uid → s = s') (h : (attributeSources heat old ss).2 = none)
    (hU : ∀ s ∈ ss, Usable given s) (terms : List (Obj × ℕ × Held))
    (ht : writeSources (Store.fresh given ss) (attributeSources heat old ss).1 = .ok terms) (s : Source) (hs : s ∈ ss) :
    s.uid ∈ registered terms ↔
      s.field = .name "T" ∨ s.decay = false ∧ (given s.uid = .sympy ∨ given s.uid = .expression ∨ given s.uid = .userExpression) := by
  set n := old.traps.length with hn
  have hacc := (C34_accepts_iff heat old ss).1 h
  rw [C110_write heat old ss given hid h, if_pos hU] at ht
  cases ht
  rw [← hn] at hacc ⊢
  have hmemeq : ∀ o, o ∈ equations n ↔ Equation n o := by
    intro o
    cases o with
    | temp => simp [equations, Equation]
    | mobile => simp [equations, Equation]
    | trap k =>
      simp only [equations, Equation, List.mem_cons, reduceCtorEq, List.mem_map, Obj.trap.injEq, exists_eq_right, List.mem_range'_1, false_or]
      omega
  have htarget : ∀ o, Targets n s o → Equation n o := by
    intro o ho
    unfold Targets at ho
    split at ho
    · rcases ho with rfl | ⟨k, h1, h2, rfl⟩
      · trivial
      · exact ⟨h1, h2⟩
    · rcases hf : s.field with j | j | t <;> rw [hf] at ho
      · rcases j with _ | j
        · cases ho; trivial
        · simp only [fieldObj] at ho
          split at ho <;> cases ho
          exact ⟨by omega, by omega⟩
      · rcases j with _ | j
        · cases ho; trivial
        · simp only [fieldObj] at ho
          split at ho <;> cases ho
          exact ⟨by omega, by omega⟩
      · unfold fieldObj at ho
        split at ho <;> first | (cases ho; trivial) | simp_all
  have hmem : s.uid ∈ registered ((equations n).flatMap fun o =>
        (ss.filter fun s => decide (Targets n s o)).map fun s => (o, s.uid, due given o s)) ↔
      ∃ o, Targets n s o ∧ (o = .temp ∨ due given o s = .expression ∨ due given o s = .userExpression) := by
    simp only [registered, List.mem_map, List.mem_filter, List.mem_flatMap, decide_eq_true_eq]
    constructor
    · rintro ⟨t, ⟨⟨o, ho, s', ⟨hs', hT⟩, rfl⟩, hreg⟩, hu⟩
      have := hid s' hs' s hs hu
      subst this
      exact ⟨o, hT, by simpa [or_assoc] using hreg⟩
    · rintro ⟨o, hT, hreg⟩
      exact ⟨(o, s.uid, due given o s), ⟨⟨o, (hmemeq o).2 (htarget o hT), s, ⟨hs, hT⟩, rfl⟩, by simpa [or_assoc] using hreg⟩, rfl⟩
  rw [hmem]
  have hdue : ∀ o, (due given o s = .expression ∨ due given o s = .userExpression) ↔
      s.decay = false ∧ (given s.uid = .sympy ∨ given s.uid = .expression ∨ given s.uid = .userExpression) := by
    intro o
    unfold due
    cases s.decay <;> cases given s.uid <;> simp
  constructor
  · rintro ⟨o, hT, rfl | hd⟩
    · exact .inl ((targets_temp n s).1 hT)
    · exact .inr ((hdue o).1 hd)
  · rintro (hT | hd)
    · exact ⟨.temp, (targets_temp n s).2 hT, .inl rfl⟩
    · obtain ⟨o, ho⟩ := (hacc s hs).1
      exact ⟨o, ho, .inr ((hdue o).2 hd)⟩

/-- **C110 (c).** A decay constant is accepted exactly if it is a positive number; `True` stands for 1.  Anything that is not a number
raises TypeError, other numbers ValueError. -/
theorem C110_decay (a : DecayArg) :
    (∀ q, setDecay a = .ok q ↔ 0 < q ∧ (a = .float q ∨ (∃ n : ℤ, a = .int n ∧ (n : ℚ) = q) ∨ a = .bool true ∧ q = 1)) ∧
    ((∃ m, setDecay a = .error (.typeError m)) ↔ a = .other) := by
  cases a with
  | float x =>
    simp only [setDecay]
    split <;> simp_all
    rintro q hq h
    subst h
    linarith
  | int x =>
    simp only [setDecay]
    split <;> simp_all
    rintro q hq h
    subst h
    exact absurd (by exact_mod_cast hq) (not_lt.2 ‹x ≤ 0›)
  | bool b =>
    cases b
    · simp [setDecay]
    · simp only [setDecay]
      simp
      intro q; constructor
      · rintro rfl; norm_num
      · rintro ⟨_, h⟩; exact h.symm
  | other => simp [setDecay]

/-- Two traps, a heat equation; the numbers are those of the sources. -/
def someSources : List Source :=
  [⟨1, .name "solute", false⟩, ⟨2, .name "all", true⟩, ⟨3, .strInt 2, false⟩, ⟨4, .name "T", false⟩, ⟨5, .int 0, false⟩]

def someGiven : ℕ → Given
  | 1 => .sympy
  | 3 => .function
  | 4 => .number
  | 5 => .number
  | _ => .other

example : writeSources (Store.fresh someGiven someSources) (attributeSources true ⟨[], [], [[], []]⟩ someSources).1 =
    .ok [(.temp, 4, .constant), (.mobile, 1, .expression), (.mobile, 2, .decayOf .mobile), (.mobile, 5, .constant),
      (.trap 1, 2, .decayOf (.trap 1)), (.trap 2, 2, .decayOf (.trap 2)), (.trap 2, 3, .function)] := by
  decide

example : ∃ terms, writeSources (Store.fresh someGiven someSources) (attributeSources true ⟨[], [], [[], []]⟩ someSources).1 = .ok terms ∧
    registered terms = [4, 1] := ⟨_, rfl, by decide⟩

/-- The hypotheses of C110 hold for these sources. -/
example : (∀ s ∈ someSources, ∀ s' ∈ someSources, s.uid = s'.uid → s = s') ∧
    (attributeSources true ⟨[], [], [[], []]⟩ someSources).2 = none ∧ ∀ s ∈ someSources, Usable someGiven s := by
  decide

/-- A source whose value is a `fenics.Constant`, or a decay of the temperature: noticed only when the equations are written. -/
example : (attributeSources true ⟨[], [], []⟩ [⟨1, .int 0, false⟩]).2 = none ∧
    writeSources (Store.fresh (fun _ => .other) [⟨1, .int 0, false⟩]) (attributeSources true ⟨[], [], []⟩ [⟨1, .int 0, false⟩]).1 =
      .error (.attributeError "value") ∧
    (attributeSources true ⟨[], [], []⟩ [⟨1, .name "T", true⟩]).2 = none ∧
    writeSources (Store.fresh (fun _ => .number) [⟨1, .name "T", true⟩]) (attributeSources true ⟨[], [], []⟩ [⟨1, .name "T", true⟩]).1 =
      .error (.attributeError "value") := by
  decide

example : setDecay (.float (1 / 2)) = .ok (1 / 2) ∧ setDecay (.bool true) = .ok 1 ∧
    setDecay (.int 0) = .error (.valueError "decay_constant must be positive") := by decide +kernel

end Festim.Props
