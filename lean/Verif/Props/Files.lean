import Verif.Model.Files

/-! # Names of the exported files (C84) -/

namespace Festim.Spec

open Files

/-- The documented automatic labels: one per field, the trap number for a trap. -/
inductive DefaultLabel : List Char → List Char → Prop where
  | solute : DefaultLabel "solute".toList "mobile_concentration".toList
  | temperature : DefaultLabel "T".toList "temperature".toList
  | retention : DefaultLabel "retention".toList "retention".toList
  | template : DefaultLabel "trap".toList "trap_i_concentration".toList
  | trap (f : List Char) (hne : f ≠ []) (hd : ∀ c ∈ f, c.isDigit = true) :
      DefaultLabel f ("trap_".toList ++ f ++ "_concentration".toList)

/-- The documented arguments for a file name. -/
def GoodName (ext : List Char) (a : Arg) : Prop := a = .none ∨ ∃ s, a = .str (s ++ ext)

end Festim.Spec

namespace Festim.Files

open Spec

theorem isDigitStr_iff (f : List Char) :
    isDigitStr f = true ↔ f ≠ [] ∧ ∀ c ∈ f, c.isDigit = true := by
  unfold isDigitStr
  rw [Bool.and_eq_true, List.all_eq_true]
  cases f <;> simp

/-- The four fixed fields are not made of digits. -/
theorem lookup_digits (f : List Char) (hd : isDigitStr f = true) : fieldToLabel.lookup f = none := by
  obtain ⟨hne, hall⟩ := (isDigitStr_iff f).1 hd
  have key : ∀ k : List Char, k.any (fun c => !c.isDigit) = true → (f == k) = false := by
    intro k hk
    obtain ⟨c, hc, hcd⟩ := List.any_eq_true.1 hk
    rw [beq_eq_false_iff_ne]
    rintro rfl
    rw [hall c hc] at hcd
    exact absurd hcd (by decide)
  have h1 := key "solute".toList (by decide +kernel)
  have h2 := key "T".toList (by decide +kernel)
  have h3 := key "retention".toList (by decide +kernel)
  have h4 := key "trap".toList (by decide +kernel)
  unfold fieldToLabel
  simp only [List.lookup_cons, h1, h2, h3, h4, List.lookup_nil]

theorem replace_template (f : List Char) :
    replaceFirst 'i' f "trap_i_concentration".toList
      = "trap_".toList ++ f ++ "_concentration".toList := by
  have e : "trap_i_concentration".toList
      = "trap_".toList ++ 'i' :: "_concentration".toList := by decide +kernel
  have h : ∀ l r : List Char, (∀ c ∈ l, c ≠ 'i') → replaceFirst 'i' f (l ++ 'i' :: r) = l ++ f ++ r := by
    intro l r hl
    induction l with
    | nil => simp [replaceFirst]
    | cons a l ih =>
      rw [List.cons_append, replaceFirst, if_neg (hl a (by simp)), ih (fun c hc => hl c (by simp [hc]))]
      simp
  rw [e]
  exact h _ _ (by decide +kernel)

end Festim.Files

namespace Festim.Props

open Files Spec

/-- **C84 (a).** Without a label, a field gets the documented one, and nothing else does. -/
theorem C84_default_label (f l : List Char) :
    setLabel (.str f) none = .ok (some l) ↔ DefaultLabel f l := by
  constructor
  · intro h
    unfold setLabel at h
    simp only at h
    cases hl : fieldToLabel.lookup f with
    | some l' =>
      rw [hl] at h
      simp only [Except.ok.injEq, Option.some.injEq] at h
      subst h
      have hm : (f, l') ∈ fieldToLabel := by
        have : ∀ L : List (List Char × List Char), L.lookup f = some l' → (f, l') ∈ L := by
          intro L
          induction L with
          | nil => simp
          | cons p L ih =>
            obtain ⟨a, b⟩ := p
            rw [List.lookup_cons]
            cases hb : f == a with
            | true =>
              intro hx
              simp only [Option.some.injEq] at hx
              rw [beq_iff_eq] at hb
              subst hx hb
              simp
            | false =>
              intro hx
              exact List.mem_cons_of_mem _ (ih hx)
        exact this _ hl
      unfold fieldToLabel at hm
      simp only [List.mem_cons, Prod.mk.injEq, List.not_mem_nil, or_false] at hm
      rcases hm with ⟨rfl, rfl⟩ | ⟨rfl, rfl⟩ | ⟨rfl, rfl⟩ | ⟨rfl, rfl⟩
      · exact .solute
      · exact .temperature
      · exact .retention
      · exact .template
    | none =>
      rw [hl] at h
      simp only at h
      split at h
      · rename_i hd
        simp only [Except.ok.injEq, Option.some.injEq] at h
        rw [replace_template] at h
        subst h
        obtain ⟨hne, hall⟩ := (isDigitStr_iff f).1 hd
        exact .trap f hne hall
      · cases h
  · intro h
    cases h with
    | solute => decide +kernel
    | temperature => decide +kernel
    | retention => decide +kernel
    | template => decide +kernel
    | trap _ hne hd =>
      have hdig := (isDigitStr_iff f).2 ⟨hne, hd⟩
      unfold setLabel
      simp only [lookup_digits f hdig, hdig, if_true, replace_template]

/-- The documented labels of two fields differ. -/
theorem C84_labels_distinct (f g l : List Char) (hf : DefaultLabel f l) (hg : DefaultLabel g l) :
    f = g := by
  have key : ∀ (h k : List Char), (∀ c ∈ h, c.isDigit = true) →
      k = "trap_".toList ++ h ++ "_concentration".toList →
      ∀ c ∈ (k.drop 5).take (k.length - 19), c.isDigit = true := by
    rintro h k hd rfl
    have e1 : ("trap_".toList ++ h ++ "_concentration".toList).drop 5
        = h ++ "_concentration".toList := by
      rw [List.append_assoc]
      exact List.drop_left' (by decide +kernel)
    have e2 : ("trap_".toList ++ h ++ "_concentration".toList).length - 19 = h.length := by
      simp only [List.length_append]
      have : "trap_".toList.length = 5 := by decide +kernel
      have : "_concentration".toList.length = 14 := by decide +kernel
      omega
    rw [e1, e2, List.take_left' rfl]
    exact hd
  have trapne : ∀ (h k : List Char), (∀ c ∈ h, c.isDigit = true) →
      ("trap_".toList ++ h ++ "_concentration".toList = "trap_i_concentration".toList) → False := by
    intro h k hd e
    have := key h _ hd e.symm
    exact absurd this (by decide +kernel)
  have first : ∀ (h : List Char) (s : List Char), s.take 5 ≠ "trap_".toList →
      ("trap_".toList ++ h ++ "_concentration".toList = s) → False := by
    rintro h s hs rfl
    apply hs
    rw [List.append_assoc]
    exact List.take_left' (by decide +kernel)
  cases hf with
  | solute =>
    generalize hl : "mobile_concentration".toList = l at hg
    cases hg with
    | solute => rfl
    | temperature => exact absurd hl (by decide +kernel)
    | retention => exact absurd hl (by decide +kernel)
    | template => exact absurd hl (by decide +kernel)
    | trap _ hne hd => exact (first g _ (by decide +kernel) hl.symm).elim
  | temperature =>
    generalize hl : "temperature".toList = l at hg
    cases hg with
    | solute => exact absurd hl (by decide +kernel)
    | temperature => rfl
    | retention => exact absurd hl (by decide +kernel)
    | template => exact absurd hl (by decide +kernel)
    | trap _ hne hd => exact (first g _ (by decide +kernel) hl.symm).elim
  | retention =>
    generalize hl : "retention".toList = l at hg
    cases hg with
    | solute => exact absurd hl (by decide +kernel)
    | temperature => exact absurd hl (by decide +kernel)
    | retention => rfl
    | template => exact absurd hl (by decide +kernel)
    | trap _ hne hd => exact (first g _ (by decide +kernel) hl.symm).elim
  | template =>
    generalize hl : "trap_i_concentration".toList = l at hg
    cases hg with
    | solute => exact absurd hl (by decide +kernel)
    | temperature => exact absurd hl (by decide +kernel)
    | retention => exact absurd hl (by decide +kernel)
    | template => rfl
    | trap _ hne hd => exact (trapne g g hd hl.symm).elim
  | trap _ hne hd =>
    generalize hl : "trap_".toList ++ f ++ "_concentration".toList = l at hg
    cases hg with
    | solute => exact (first f _ (by decide +kernel) hl).elim
    | temperature => exact (first f _ (by decide +kernel) hl).elim
    | retention => exact (first f _ (by decide +kernel) hl).elim
    | template => exact (trapne f f hd hl).elim
    | trap _ hne' hd' =>
      rw [List.append_left_inj, List.append_right_inj] at hl
      exact hl

/-- **C84 (b).** The checks of the file names of the three kinds of export. -/
theorem C84_filename (ext : List Char) (a : Arg) :
    (∃ r, setFilename ext a = .ok r) ↔ GoodName ext a := by
  unfold GoodName setFilename
  cases a with
  | none => simp
  | other => simp
  | str s =>
    simp only [reduceCtorEq, Arg.str.injEq, false_or]
    by_cases h : ext.isSuffixOf s
    · rw [if_pos h]
      obtain ⟨t, ht⟩ := List.isSuffixOf_iff_suffix.1 h
      exact ⟨fun _ => ⟨t, ht.symm⟩, fun _ => ⟨_, rfl⟩⟩
    · rw [if_neg h]
      constructor
      · rintro ⟨r, hr⟩; cases hr
      · rintro ⟨t, ht⟩
        exact absurd (List.isSuffixOf_iff_suffix.2 ⟨t, ht.symm⟩) h

/-- **C84 (c).** An `XDMFExport` can be created exactly when the folder and file name are of the documented form and
either a label was given, or the field is a string and has an automatic label or a file name was given. -/
theorem C84_created (field : Arg) (label : Option (List Char)) (filename folder : Arg) :
    (∃ x, XFile.new field label filename folder = .ok x) ↔
      GoodName ".xdmf".toList filename ∧ folder ≠ .other ∧
      (label = none → ∃ f, field = .str f ∧ (filename = .none → ∃ l, DefaultLabel f l)) := by
  have hlab : ∀ f, (∃ l, setLabel (.str f) none = .ok l) := by
    intro f
    unfold setLabel
    simp only
    split
    · exact ⟨_, rfl⟩
    · split <;> exact ⟨_, rfl⟩
  rw [← C84_filename]
  unfold XFile.new
  cases label with
  | some l =>
    simp only [setLabel, reduceCtorEq, false_implies, and_true]
    cases folder with
    | other => simp [setFolder]
    | none =>
      simp only [setFolder, ne_eq, reduceCtorEq, not_false_eq_true, and_true]
      cases hf : setFilename ".xdmf".toList filename with
      | error e => simp
      | ok r => cases r <;> simp [defaultFilename]
    | str d =>
      simp only [setFolder, ne_eq, reduceCtorEq, not_false_eq_true, and_true]
      cases hf : setFilename ".xdmf".toList filename with
      | error e => simp
      | ok r => cases r <;> simp [defaultFilename]
  | none =>
    cases field with
    | none => simp [setLabel]
    | other => simp [setLabel]
    | str f =>
      obtain ⟨l, hl⟩ := hlab f
      have hiff : (∃ l', DefaultLabel f l') ↔ l.isSome := by
        constructor
        · rintro ⟨l', h⟩
          rw [← C84_default_label, hl] at h
          simp only [Except.ok.injEq] at h
          rw [h]
          rfl
        · intro h
          obtain ⟨l', rfl⟩ := Option.isSome_iff_exists.1 h
          exact ⟨l', (C84_default_label f l').1 hl⟩
      simp only [hl, Arg.str.injEq, exists_eq_left', true_implies]
      have hnone : filename = .none ↔ setFilename ".xdmf".toList filename = .ok none := by
        cases filename with
        | none => simp [setFilename]
        | other => simp [setFilename]
        | str n =>
          simp only [setFilename, reduceCtorEq, false_iff]
          split <;> simp
      rw [hiff]
      cases folder with
      | other => simp [setFolder]
      | none =>
        simp only [setFolder, ne_eq, reduceCtorEq, not_false_eq_true, true_and]
        rw [hnone]
        cases hf : setFilename ".xdmf".toList filename with
        | error e => simp
        | ok r => cases r <;> cases l <;> simp [defaultFilename]
      | str d =>
        simp only [setFolder, ne_eq, reduceCtorEq, not_false_eq_true, true_and]
        rw [hnone]
        cases hf : setFilename ".xdmf".toList filename with
        | error e => simp
        | ok r => cases r <;> cases l <;> simp [defaultFilename]

/-- **C84.** Why an export cannot be created: TypeError for a folder or a file name which is not a string, ValueError for the
ending of the file name, AttributeError if no label can be found. -/
theorem C84_refused (field : Arg) (label : Option (List Char)) (filename folder : Arg) (e : PyErr)
    (h : XFile.new field label filename folder = .error e) :
    (e = .typeError "folder must be a string" ∧ folder = .other) ∨
    (e = .typeError "filename must be a string" ∧ filename = .other) ∨
    (e = .valueError "filename must end with .xdmf" ∧ ∃ s, filename = .str s ∧ ¬ ".xdmf".toList <:+ s) ∨
    ((∃ m, e = .attributeError m) ∧ label = none ∧
      ((∀ f, field ≠ .str f) ∨ ∃ f, field = .str f ∧ filename = .none ∧ ∀ l, ¬ DefaultLabel f l)) := by
  unfold XFile.new at h
  split at h
  · rename_i e' hl
    cases h
    right; right; right
    unfold setLabel at hl
    split at hl
    · cases hl
    · split at hl
      · split at hl
        · cases hl
        · split at hl <;> cases hl
      · rename_i hf
        cases hl
        exact ⟨⟨_, rfl⟩, rfl, Or.inl fun f hf' => hf f hf'⟩
  · rename_i l hl
    split at h
    · rename_i e' hd
      cases h
      left
      cases folder with
      | none => simp [setFolder] at hd
      | str s => simp [setFolder] at hd
      | other => simp only [setFolder, Except.error.injEq] at hd; exact ⟨hd.symm, rfl⟩
    · split at h
      · rename_i e' hn
        cases h
        cases filename with
        | none => simp [setFilename] at hn
        | other => simp only [setFilename, Except.error.injEq] at hn; exact Or.inr (Or.inl ⟨hn.symm, rfl⟩)
        | str s =>
          simp only [setFilename] at hn
          split at hn
          · cases hn
          · rename_i hs
            simp only [Except.error.injEq] at hn
            refine Or.inr (Or.inr (Or.inl ⟨?_, s, rfl, ?_⟩))
            · rw [← hn]; decide +kernel
            · intro h'
              exact hs (List.isSuffixOf_iff_suffix.2 h')
      · cases h
      · rename_i hn
        have hfn : filename = .none := by
          cases filename with
          | none => rfl
          | other => simp [setFilename] at hn
          | str s =>
            simp only [setFilename] at hn
            split at hn <;> cases hn
        split at h
        · rename_i e' hdf
          cases h
          cases l with
          | some l => simp [defaultFilename] at hdf
          | none =>
            simp only [defaultFilename, Except.error.injEq] at hdf
            right; right; right
            refine ⟨⟨_, hdf.symm⟩, ?_⟩
            have hlab : label = none := by
              cases label with
              | none => rfl
              | some l => simp [setLabel] at hl
            subst hlab
            refine ⟨rfl, ?_⟩
            cases field with
            | none => left; simp
            | other => left; simp
            | str f =>
              right
              refine ⟨f, rfl, hfn, fun l hl' => ?_⟩
              rw [← C84_default_label, hl] at hl'
              cases hl'
        · cases h

example : XFile.new (.str "solute".toList) none (.str "a.txt".toList) .none
    = .error (.valueError "filename must end with .xdmf") := by decide +kernel
example : XFile.new (.str "flux".toList) none .none .none
    = .error (.attributeError "'XDMFExport' object has no attribute '_label'") := by decide +kernel

theorem label_no_slash (f l : List Char) (h : DefaultLabel f l) : '/' ∉ l := by
  cases h with
  | solute => decide +kernel
  | temperature => decide +kernel
  | retention => decide +kernel
  | template => decide +kernel
  | trap _ hne hd =>
    rw [List.mem_append, List.mem_append]
    rintro ((h | h) | h)
    · exact absurd h (by decide +kernel)
    · exact absurd (hd _ h) (by decide +kernel)
    · exact absurd h (by decide +kernel)

/-- The last `/` of a path separates the folder from the file. -/
theorem split_last {a b x y : List Char} (hx : '/' ∉ x) (hy : '/' ∉ y)
    (h : a ++ '/' :: x = b ++ '/' :: y) : a = b ∧ x = y := by
  induction a generalizing b with
  | nil =>
    cases b with
    | nil => simpa using h
    | cons c b =>
      simp only [List.nil_append, List.cons_append, List.cons.injEq] at h
      obtain ⟨_, rfl⟩ := h
      exact absurd (by simp) hx
  | cons c a ih =>
    cases b with
    | nil =>
      simp only [List.nil_append, List.cons_append, List.cons.injEq] at h
      obtain ⟨_, rfl⟩ := h
      exact absurd (by simp) hy
    | cons c' b =>
      simp only [List.cons_append, List.cons.injEq] at h
      obtain ⟨rfl, h⟩ := h
      obtain ⟨rfl, rfl⟩ := ih h
      exact ⟨rfl, rfl⟩

/-- **C84 (d).** Without labels and file names, two exports share a file only if they export the same field to the same
folder; and then they do. -/
theorem C84_distinct_files (f g : List Char) (dir dir' : Arg) (x y : XFile)
    (hx : XFile.new (.str f) none .none dir = .ok x)
    (hy : XFile.new (.str g) none .none dir' = .ok y) :
    x.path = y.path ↔ f = g ∧ dir = dir' := by
  have shape : ∀ (f : List Char) (dir : Arg) (x : XFile),
      XFile.new (.str f) none .none dir = .ok x →
      ∃ l d, DefaultLabel f l ∧ x.path = definePath d (l ++ ".xdmf".toList) ∧
        (dir = .none ∧ d = none ∨ ∃ s, dir = .str s ∧ d = some s) := by
    intro f dir x h
    unfold XFile.new at h
    cases hl : setLabel (.str f) none with
    | error e => rw [hl] at h; cases h
    | ok l =>
      rw [hl] at h
      cases hd : setFolder dir with
      | error e => rw [hd] at h; cases h
      | ok d =>
        rw [hd] at h
        simp only [setFilename] at h
        cases l with
        | none => cases h
        | some l =>
          simp only [defaultFilename, Except.ok.injEq] at h
          subst h
          refine ⟨l, d, (C84_default_label f l).1 hl, rfl, ?_⟩
          cases dir with
          | none => left; simp [setFolder] at hd; exact ⟨rfl, hd.symm⟩
          | str s => right; simp [setFolder] at hd; exact ⟨s, rfl, hd.symm⟩
          | other => simp [setFolder] at hd
  obtain ⟨l, d, h1, h2, h3⟩ := shape f dir x hx
  obtain ⟨l', d', h1', h2', h3'⟩ := shape g dir' y hy
  have hs : ∀ l : List Char, '/' ∉ l → '/' ∉ l ++ ".xdmf".toList := by
    intro l hl hm
    rcases List.mem_append.1 hm with hm | hm
    · exact hl hm
    · exact absurd hm (by decide +kernel)
  have n1 := hs l (label_no_slash f l h1)
  have n2 := hs l' (label_no_slash g l' h1')
  constructor
  · intro h
    rw [h2, h2'] at h
    rcases h3 with ⟨rfl, rfl⟩ | ⟨s, rfl, rfl⟩ <;> rcases h3' with ⟨rfl, rfl⟩ | ⟨s', rfl, rfl⟩
    · simp only [definePath, List.append_left_inj] at h
      subst h
      exact ⟨C84_labels_distinct f g l h1 h1', rfl⟩
    · simp only [definePath] at h
      exact absurd (h ▸ (by simp : '/' ∈ s' ++ '/' :: (l' ++ ".xdmf".toList))) n1
    · simp only [definePath] at h
      exact absurd (h ▸ (by simp : '/' ∈ s ++ '/' :: (l ++ ".xdmf".toList))) n2
    · simp only [definePath] at h
      obtain ⟨rfl, e⟩ := split_last n1 n2 h
      rw [List.append_left_inj] at e
      subst e
      exact ⟨C84_labels_distinct f g l h1 h1', rfl⟩
  · rintro ⟨rfl, rfl⟩
    rw [hx] at hy
    cases hy
    rfl

/-- **C84 (e).** A created export can be written exactly when a label was given or the field has an automatic one: with
only a file name, an unknown field is noticed when it is first written. -/
theorem C84_written (f : List Char) (label : Option (List Char)) (filename folder : Arg) (x : XFile)
    (h : XFile.new (.str f) label filename folder = .ok x) :
    (∃ l, x.written = .ok l) ↔ label.isSome ∨ ∃ l, DefaultLabel f l := by
  have hx : ∃ l, setLabel (.str f) label = .ok l ∧ x.label = l := by
    unfold XFile.new at h
    cases hl : setLabel (.str f) label with
    | error e => rw [hl] at h; cases h
    | ok l =>
      rw [hl] at h
      refine ⟨l, rfl, ?_⟩
      cases hd : setFolder folder with
      | error e => rw [hd] at h; cases h
      | ok d =>
        rw [hd] at h
        cases hf : setFilename ".xdmf".toList filename with
        | error e => rw [hf] at h; cases h
        | ok r =>
          rw [hf] at h
          cases r with
          | some n => simp only [Except.ok.injEq] at h; rw [← h]
          | none =>
            cases l with
            | none => cases h
            | some l => simp only [defaultFilename, Except.ok.injEq] at h; rw [← h]
  obtain ⟨l, hl, he⟩ := hx
  have hw : (∃ l, x.written = .ok l) ↔ l.isSome := by
    unfold XFile.written
    rw [he]
    cases l <;> simp
  rw [hw]
  cases label with
  | some l' =>
    simp only [setLabel, Except.ok.injEq] at hl
    rw [← hl]
    simp
  | none =>
    simp only [Option.isSome_none, Bool.false_eq_true, false_or]
    constructor
    · intro hs
      obtain ⟨l', rfl⟩ := Option.isSome_iff_exists.1 hs
      exact ⟨l', (C84_default_label f l').1 hl⟩
    · rintro ⟨l', h'⟩
      rw [← C84_default_label, hl] at h'
      simp only [Except.ok.injEq] at h'
      rw [h']
      rfl

/-! ## Examples -/

/-- C84 (a), (d): trap 12 in a folder. -/
example : XFile.new (.str "12".toList) none .none (.str "results".toList)
    = .ok ⟨some "trap_12_concentration".toList, "results/trap_12_concentration.xdmf".toList⟩ := by
  decide +kernel

example : DefaultLabel "12".toList "trap_12_concentration".toList :=
  (C84_default_label _ _).1 (by decide +kernel)

/-- An empty folder is the root directory. -/
example : XFile.new (.str "T".toList) none .none (.str []) = .ok ⟨some "temperature".toList,
    "/temperature.xdmf".toList⟩ := by decide +kernel

/-- An integer as field is refused, unless a label is given. -/
example : XFile.new .other none .none .none
    = .error (.attributeError "object has no attribute 'isdigit'") := by decide +kernel
example : XFile.new .other (some "trap".toList) .none .none
    = .ok ⟨some "trap".toList, "trap.xdmf".toList⟩ := by decide +kernel

/-- C84 (e): an unknown field is refused without a file name, and accepted with one, until it is written. -/
example : XFile.new (.str "temperature".toList) none .none .none
    = .error (.attributeError "'XDMFExport' object has no attribute '_label'") := by decide +kernel
example : XFile.new (.str "temperature".toList) none (.str "T.xdmf".toList) .none
    = .ok ⟨none, "T.xdmf".toList⟩ := by decide +kernel

example : setFilename ".csv".toList (.str "a/b.csv".toList) = .ok (some "a/b.csv".toList) := by
  decide +kernel

end Festim.Props
