import Verif.Spec.Titles

/-!
# C78: the csv file of derived quantities can be read back
-/

namespace Festim.Props
open Festim Festim.Weak

/-- How Python writes floats: not empty, without separators and brackets. -/
structure Writes (repr : ℝ → List Char) : Prop where
  nonempty : ∀ a, repr a ≠ []
  comma : ∀ a, ',' ∉ repr a
  newline : ∀ a, '\n' ∉ repr a
  space : ∀ a, ' ' ∉ repr a
  paren : ∀ a, '(' ∉ repr a

/-! ## Splitting -/

theorem length_splitOn (c : Char) (s : List Char) : (s.splitOn c).length = s.count c + 1 := by
  induction s with
  | nil => simp
  | cons a s ih =>
    rw [List.splitOn_cons_eq_if_modifyHead]
    by_cases h : a = c
    · subst h; simp [ih]
    · simp [h, ih]

theorem count_intercalate (c : Char) (l : List (List Char)) (h : l ≠ []) :
    ([c].intercalate l).count c + 1 = (l.map fun x => x.count c + 1).sum := by
  induction l with
  | nil => exact absurd rfl h
  | cons a l ih =>
    cases l with
    | nil => simp
    | cons b l =>
      have := ih (by simp)
      simp only [List.intercalate_cons_cons, List.map_cons, List.sum_cons, List.count_append] at this ⊢
      simp only [List.count_singleton_self]
      omega

theorem toDigits_avoid (n : ℕ) (c : Char) (h : c.isDigit = false) : c ∉ Nat.toDigits 10 n := by
  intro hc
  rw [Nat.isDigit_of_mem_toDigits (by decide) (by decide) hc] at h
  exact absurd h (by decide)

theorem toDigits_inj {a b : ℕ} (h : Nat.toDigits 10 a = Nat.toDigits 10 b) : a = b := by
  rw [← Nat.ofDigitChars_ten_toDigits (n := a), h, Nat.ofDigitChars_ten_toDigits]

theorem mem_intercalate {c : Char} {sep : List Char} {l : List (List Char)}
    (h : c ∈ sep.intercalate l) : c ∈ sep ∨ ∃ x ∈ l, c ∈ x := by
  induction l with
  | nil => simp at h
  | cons a l ih =>
    cases l with
    | nil => exact Or.inr ⟨a, by simp, by simpa using h⟩
    | cons b l =>
      rw [List.intercalate_cons_cons, List.mem_append, List.mem_append] at h
      rcases h with (h | h) | h
      · exact Or.inr ⟨a, by simp, h⟩
      · exact Or.inl h
      · rcases ih h with h | ⟨x, hx, h⟩
        · exact Or.inl h
        · exact Or.inr ⟨x, List.mem_cons_of_mem _ hx, h⟩

theorem readLines (rows : List (List Char)) (h : ∀ r ∈ rows, '\n' ∉ r) :
    ((rows.flatMap fun r => r ++ ['\n']).splitOn '\n').dropLast = rows := by
  have : (rows.flatMap fun r => r ++ ['\n']).splitOn '\n' = rows ++ [[]] := by
    induction rows with
    | nil => simp
    | cons r rows ih =>
      rw [List.flatMap_cons, List.append_assoc, List.singleton_append,
        List.splitOn_append_cons_self_of_not_mem (h r (by simp)),
        ih fun x hx => h x (List.mem_cons_of_mem _ hx), List.cons_append]
  rw [this, List.dropLast_concat]

/-- Cells without newline come back in lines, each line split at its commas. -/
theorem readCsv_savetxt (rows : List (List (List Char))) (h : ∀ r ∈ rows, ∀ x ∈ r, '\n' ∉ x) :
    readCsv (savetxt rows) = rows.map fun r => ([','].intercalate r).splitOn ',' := by
  have hl : ∀ r ∈ rows.map ([','].intercalate ·), '\n' ∉ r := by
    intro r hr hn
    obtain ⟨r, hr', rfl⟩ := List.mem_map.1 hr
    rcases mem_intercalate hn with hc | ⟨x, hx, hx'⟩
    · exact absurd hc (by decide)
    · exact h r hr' x hx hx'
  have := readLines _ hl
  rw [List.flatMap_map] at this
  unfold readCsv savetxt
  rw [this, List.map_map]
  rfl

/-! ## Characters of titles -/

theorem known_text {f : Field} (h : KnownField f) (c : Char) (hd : c.isDigit = false)
    (h1 : c ∉ "solute".toList) (h2 : c ∉ "T".toList) (h3 : c ∉ "retention".toList) :
    c ∉ fieldText f := by
  cases f with
  | int n => exact toDigits_avoid n c hd
  | strInt n => exact toDigits_avoid n c hd
  | name s =>
    rcases h with rfl | rfl | rfl
    · exact h1
    · exact h2
    · exact h3

theorem text_count (repr : ℝ → List Char) (hw : Writes repr) (seq : Seq) (f : Field) (x : List ℝ) :
    (seq.text repr x).count ',' = extraCells (.pointValue f x, seq) := by
  have hi : ∀ l : List ℝ, ([',', ' '].intercalate (l.map repr)).count ',' = l.length - 1 := by
    intro l
    induction l with
    | nil => simp
    | cons a l ih =>
      cases l with
      | nil => simpa using List.count_eq_zero.2 (hw.comma a)
      | cons b l =>
        rw [List.map_cons, List.map_cons, List.intercalate_cons_cons, List.count_append,
          List.count_append, List.count_eq_zero.2 (hw.comma a), ← List.map_cons, ih]
        simp
        omega
  cases seq with
  | list => simp [Seq.text, extraCells, Quantity.parts, hi]
  | tuple =>
    rcases x with _ | ⟨a, _ | ⟨b, l⟩⟩
    · simp [Seq.text, extraCells, Quantity.parts]
    · simp [Seq.text, extraCells, Quantity.parts, List.count_eq_zero.2 (hw.comma a)]
    · have := hi (a :: b :: l)
      simp only [Seq.text, extraCells, Quantity.parts, List.count_cons, List.count_append, this]
      simp

/-- Characters that separate cells and lines, or begin a unit. -/
def Separator (c : Char) : Prop := c = ',' ∨ c = '\n' ∨ c = '('

theorem fieldTitle_avoid {f : Field} (h : KnownField f) {c : Char} (hc : Separator c)
    (pre mid : String) (id : ℕ) (hp : ∀ c, Separator c → c ∉ pre.toList)
    (hm : ∀ c, Separator c → c ∉ mid.toList) : c ∉ fieldTitle pre f mid id := by
  unfold fieldTitle
  simp only [List.mem_append, not_or]
  refine ⟨⟨⟨hp c hc, ?_⟩, hm c hc⟩, ?_⟩
  · rcases hc with rfl | rfl | rfl <;>
      exact known_text h _ (by decide +kernel) (by decide +kernel) (by decide +kernel) (by decide +kernel)
  · rcases hc with rfl | rfl | rfl <;> exact toDigits_avoid _ _ (by decide +kernel)

theorem base_avoid (repr : ℝ → List Char) (seq : Seq) (q : Quantity) (hk : KnownQuantity q)
    (hp : q.parts.2.2.2 = none) {c : Char} (hc : Separator c) : c ∉ q.baseTitle repr seq := by
  have lit : ∀ s : String, s.toList.all (fun c => c ≠ ',' ∧ c ≠ '\n' ∧ c ≠ '(') = true →
      ∀ c, Separator c → c ∉ s.toList := by
    intro s hs c hc hcs
    have := List.all_eq_true.1 hs c hcs
    simp only [ne_eq, decide_eq_true_eq] at this
    rcases hc with rfl | rfl | rfl
    · exact this.1 rfl
    · exact this.2.1 rfl
    · exact this.2.2 rfl
  have dig : ∀ n, c ∉ Nat.toDigits 10 n := fun n => by
    rcases hc with rfl | rfl | rfl <;> exact toDigits_avoid _ _ (by decide +kernel)
  cases q with
  | surfaceFlux g f s =>
    have hf : KnownField f := hk f rfl
    have h1 := lit "Heat flux surface " (by decide +kernel) c hc
    by_cases hT : f = .name "T"
    · rw [show (Quantity.surfaceFlux g f s).baseTitle repr seq
        = "Heat flux surface ".toList ++ Nat.toDigits 10 s from if_pos hT]
      exact fun h => (List.mem_append.1 h).elim h1 (dig s)
    · rw [show (Quantity.surfaceFlux g f s).baseTitle repr seq
        = fieldTitle "" f " flux surface " s from if_neg hT]
      exact fieldTitle_avoid hf hc _ _ _ (lit _ (by decide +kernel)) (lit _ (by decide +kernel))
  | pointValue f x => simp [Quantity.parts] at hp
  | adsorbed s =>
    have h1 := lit "Adsorbed H on surface " (by decide +kernel) c hc
    exact fun h => (List.mem_append.1 h).elim h1 (dig s)
  | totalVolume g f v => exact fieldTitle_avoid (hk f rfl) hc _ _ _ (lit _ (by decide +kernel)) (lit _ (by decide +kernel))
  | totalSurface g f v => exact fieldTitle_avoid (hk f rfl) hc _ _ _ (lit _ (by decide +kernel)) (lit _ (by decide +kernel))
  | averageVolume g f v => exact fieldTitle_avoid (hk f rfl) hc _ _ _ (lit _ (by decide +kernel)) (lit _ (by decide +kernel))
  | averageSurface g f v => exact fieldTitle_avoid (hk f rfl) hc _ _ _ (lit _ (by decide +kernel)) (lit _ (by decide +kernel))
  | maximumVolume f v => exact fieldTitle_avoid (hk f rfl) hc _ _ _ (lit _ (by decide +kernel)) (lit _ (by decide +kernel))
  | minimumVolume f v => exact fieldTitle_avoid (hk f rfl) hc _ _ _ (lit _ (by decide +kernel)) (lit _ (by decide +kernel))
  | maximumSurface f v => exact fieldTitle_avoid (hk f rfl) hc _ _ _ (lit _ (by decide +kernel)) (lit _ (by decide +kernel))
  | minimumSurface f v => exact fieldTitle_avoid (hk f rfl) hc _ _ _ (lit _ (by decide +kernel)) (lit _ (by decide +kernel))

theorem count_three (a b c : List Char) (ha : ',' ∉ a) (hb : ',' ∉ b) :
    (a ++ b ++ c).count ',' = c.count ',' := by
  simp [List.count_eq_zero.2 ha, List.count_eq_zero.2 hb]

theorem base_count (repr : ℝ → List Char) (hw : Writes repr) (seq : Seq) (q : Quantity)
    (hk : KnownQuantity q) : (q.baseTitle repr seq).count ',' = extraCells (q, seq) := by
  rcases hx : q.parts.2.2.2 with _ | x
  · rw [List.count_eq_zero.2 (base_avoid repr seq q hk hx (Or.inl rfl))]
    simp [extraCells, hx]
  · cases q with
    | pointValue f y =>
      exact (count_three _ _ _
        (known_text (hk f rfl) ',' (by decide) (by decide) (by decide) (by decide))
        (by decide +kernel)).trans (text_count repr hw seq f y)
    | _ => simp [Quantity.parts] at hx

/-! ## Characters of units -/

theorem replace_avoid {c : Char} {s : List Char} (old new : String) (hs : c ∉ s)
    (hn : c ∉ new.toList) : c ∉ pyReplace s old new := by
  unfold pyReplace
  suffices h : ∀ n (s : List Char), c ∉ s → c ∉ pyReplaceAux old.toList new.toList n s from h _ s hs
  intro n
  induction n with
  | zero => exact fun s h => h
  | succ n ih =>
    intro s h
    cases s with
    | nil => simp [pyReplaceAux]
    | cons a s =>
      simp only [pyReplaceAux]
      split
      · rw [List.mem_append, not_or]
        exact ⟨hn, ih _ fun hm => h (List.mem_of_mem_drop hm)⟩
      · rw [List.mem_cons, not_or]
        exact ⟨fun e => h (by simp [e]), ih _ fun hm => h (List.mem_cons_of_mem _ hm)⟩

theorem fmtInt_avoid {c : Char} (hc : Separator c) (z : ℤ) : c ∉ fmtInt z := by
  have dig : ∀ n, c ∉ Nat.toDigits 10 n := fun n => by
    rcases hc with rfl | rfl | rfl <;> exact toDigits_avoid _ _ (by decide +kernel)
  unfold fmtInt
  cases z with
  | ofNat n =>
    show c ∉ (Nat.repr n).toList
    rw [Nat.toList_repr]; exact dig n
  | negSucc n =>
    show c ∉ ("-" ++ Nat.repr (n + 1)).toList
    rw [String.toList_append, Nat.toList_repr, List.mem_append, not_or]
    refine ⟨?_, dig _⟩
    rcases hc with rfl | rfl | rfl <;> decide

theorem unit_avoid {c : Char} (hc : Separator c) (q : Quantity) (dim : ℤ) : c ∉ q.exportUnit dim := by
  have lit : ∀ s : String, s.toList.all (fun c => c ≠ ',' ∧ c ≠ '\n' ∧ c ≠ '(') = true →
      c ∉ s.toList := by
    intro s hs hcs
    have := List.all_eq_true.1 hs c hcs
    simp only [ne_eq, decide_eq_true_eq] at this
    rcases hc with rfl | rfl | rfl
    · exact this.1 rfl
    · exact this.2.1 rfl
    · exact this.2.2 rfl
  have fs : ∀ (a : String) z (b : String), c ∉ a.toList → c ∉ b.toList → c ∉ fstr a z b := by
    intro a z b ha hb
    simp only [fstr, List.mem_append, not_or]
    exact ⟨⟨ha, fmtInt_avoid hc z⟩, hb⟩
  cases q with
  | surfaceFlux g f s =>
    cases g <;> simp only [Quantity.exportUnit] <;> split <;>
      first
        | exact lit _ (by decide +kernel)
        | exact replace_avoid _ _ (fs _ _ _ (lit _ (by decide +kernel)) (lit _ (by decide +kernel))) (lit _ (by decide +kernel))
  | totalVolume g f s =>
    cases g <;> simp only [Quantity.exportUnit] <;> split <;>
      first
        | exact lit _ (by decide +kernel)
        | exact fs _ _ _ (lit _ (by decide +kernel)) (lit _ (by decide +kernel))
        | exact replace_avoid _ _ (fs _ _ _ (lit _ (by decide +kernel)) (lit _ (by decide +kernel))) (lit _ (by decide +kernel))
  | totalSurface g f s =>
    cases g <;> simp only [Quantity.exportUnit] <;> split <;>
      first
        | exact lit _ (by decide +kernel)
        | exact replace_avoid _ _ (fs _ _ _ (lit _ (by decide +kernel)) (lit _ (by decide +kernel))) (lit _ (by decide +kernel))
        | exact replace_avoid _ _ (replace_avoid _ _ (fs _ _ _ (lit _ (by decide +kernel)) (lit _ (by decide +kernel)))
            (lit _ (by decide +kernel))) (lit _ (by decide +kernel))
  | adsorbed s => exact lit "H m-2" (by decide +kernel)
  | averageVolume s f v =>
    simp only [Quantity.exportUnit]; split <;> exact lit _ (by decide +kernel)
  | averageSurface s f v =>
    simp only [Quantity.exportUnit]; split <;> exact lit _ (by decide +kernel)
  | maximumVolume f v => simp only [Quantity.exportUnit]; split <;> exact lit _ (by decide +kernel)
  | minimumVolume f v => simp only [Quantity.exportUnit]; split <;> exact lit _ (by decide +kernel)
  | maximumSurface f v => simp only [Quantity.exportUnit]; split <;> exact lit _ (by decide +kernel)
  | minimumSurface f v => simp only [Quantity.exportUnit]; split <;> exact lit _ (by decide +kernel)
  | pointValue f v => simp only [Quantity.exportUnit]; split <;> exact lit _ (by decide +kernel)

/-! ## Reading back -/

theorem text_newline (repr : ℝ → List Char) (hw : Writes repr) (seq : Seq) (x : List ℝ) :
    '\n' ∉ seq.text repr x := by
  have hi : ∀ l : List ℝ, '\n' ∉ [',', ' '].intercalate (l.map repr) := by
    intro l h
    rcases mem_intercalate h with h | ⟨y, hy, h⟩
    · exact absurd h (by decide)
    · obtain ⟨a, -, rfl⟩ := List.mem_map.1 hy
      exact hw.newline a h
  cases seq with
  | list => simp [Seq.text, hi]
  | tuple =>
    rcases x with _ | ⟨a, _ | ⟨b, l⟩⟩
    · simp [Seq.text]
    · simp [Seq.text, hw.newline a]
    · have := hi (a :: b :: l)
      simp only [Seq.text, List.mem_cons, List.mem_append, not_or]
      exact ⟨by decide, this, by decide⟩

theorem base_newline (repr : ℝ → List Char) (hw : Writes repr) (seq : Seq) (q : Quantity)
    (hk : KnownQuantity q) : '\n' ∉ q.baseTitle repr seq := by
  rcases hx : q.parts.2.2.2 with _ | x
  · exact base_avoid repr seq q hk hx (Or.inr (Or.inl rfl))
  · cases q with
    | pointValue f y =>
      have h1 := known_text (hk f rfl) '\n' (by decide) (by decide) (by decide) (by decide)
      have h2 : '\n' ∉ " value at ".toList := by decide +kernel
      exact fun h => (List.mem_append.1 h).elim (fun h => (List.mem_append.1 h).elim h1 h2)
        (text_newline repr hw seq y)
    | _ => simp [Quantity.parts] at hx

theorem title_eq (repr : ℝ → List Char) (seq : Seq) (dim : ℤ) (q : Quantity) :
    q.title repr seq true dim = q.baseTitle repr seq ++ ' ' :: '(' :: (q.exportUnit dim ++ [')']) := by
  have h1 : " (".toList = [' ', '('] := by decide +kernel
  have h2 : ")".toList = [')'] := by decide +kernel
  simp [Quantity.title, h1, h2]

theorem title_newline (repr : ℝ → List Char) (hw : Writes repr) (seq : Seq) (u : Bool) (dim : ℤ)
    (q : Quantity) (hk : KnownQuantity q) : '\n' ∉ q.title repr seq u dim := by
  have hb := base_newline repr hw seq q hk
  cases u with
  | false => exact hb
  | true =>
    rw [title_eq]
    have := unit_avoid (Or.inr (Or.inl rfl)) (c := '\n') q dim
    simp only [List.mem_append, List.mem_cons, not_or]
    exact ⟨hb, by decide, by decide, this, by decide, by simp⟩

theorem title_count (repr : ℝ → List Char) (hw : Writes repr) (seq : Seq) (u : Bool) (dim : ℤ)
    (q : Quantity) (hk : KnownQuantity q) :
    (q.title repr seq u dim).count ',' = extraCells (q, seq) := by
  have hb := base_count repr hw seq q hk
  cases u with
  | false => exact hb
  | true =>
    rw [title_eq]
    have := List.count_eq_zero.2 (unit_avoid (Or.inl rfl) (c := ',') q dim)
    simp [hb, this]

theorem titleRow_newline (repr : ℝ → List Char) (hw : Writes repr) (u : Bool) (dim : ℤ)
    (qs : List (Quantity × Seq)) (hk : ∀ q ∈ qs, KnownQuantity q.1) :
    ∀ x ∈ titleRow repr u dim qs, '\n' ∉ x := by
  intro x hx
  rcases List.mem_cons.1 hx with rfl | hx
  · decide +kernel
  · obtain ⟨q, hq, rfl⟩ := List.mem_map.1 hx
    exact title_newline repr hw _ _ _ _ (hk q hq)

/-- **C78.** How many cells a reader finds in the first line: one for the time, one per quantity, and one
more for each comma written between the coordinates of a point. -/
theorem C78_header_cells (repr : ℝ → List Char) (hw : Writes repr) (u : Bool) (dim : ℤ)
    (qs : List (Quantity × Seq)) (hk : ∀ q ∈ qs, KnownQuantity q.1)
    (rows : List (List (List Char))) (hr : ∀ r ∈ rows, ∀ x ∈ r, '\n' ∉ x) :
    ∃ first rest, readCsv (savetxt (titleRow repr u dim qs :: rows)) = first :: rest ∧
      rest.length = rows.length ∧ first.length = 1 + qs.length + (qs.map extraCells).sum := by
  rw [readCsv_savetxt]
  · refine ⟨_, _, rfl, by simp, ?_⟩
    rw [length_splitOn, count_intercalate _ _ (by simp [titleRow])]
    have ht : ("t(s)".toList).count ',' = 0 := by decide +kernel
    simp only [titleRow, List.map_cons, List.sum_cons, ht, List.map_map]
    have : ∀ l : List (Quantity × Seq), (∀ q ∈ l, KnownQuantity q.1) →
        (l.map ((fun x : List Char => x.count ',' + 1) ∘ fun q => q.1.title repr q.2 u dim)).sum
          = l.length + (l.map extraCells).sum := by
      intro l hl
      induction l with
      | nil => rfl
      | cons q l ih =>
        have h1 : (q.1.title repr q.2 u dim).count ',' = extraCells q :=
          title_count repr hw q.2 u dim q.1 (hl q (by simp))
        have h2 := ih fun x hx => hl x (List.mem_cons_of_mem _ hx)
        simp only [List.map_cons, List.sum_cons, Function.comp_apply, h1, h2, List.length_cons]
        omega
    rw [this qs hk]
    omega
  · intro r hr'
    rcases List.mem_cons.1 hr' with rfl | hr'
    · exact titleRow_newline repr hw u dim qs hk
    · exact hr r hr'

/-- **C78.** With data rows of the right length, the file reads back as the table that was written
exactly when the titles contain no comma; otherwise the first line is longer than the others. -/
theorem C78_read_back (repr : ℝ → List Char) (hw : Writes repr) (u : Bool) (dim : ℤ)
    (qs : List (Quantity × Seq)) (hk : ∀ q ∈ qs, KnownQuantity q.1)
    (rows : List (List (List Char))) (hne : ∀ r ∈ rows, r ≠ [])
    (hr : ∀ r ∈ rows, ∀ x ∈ r, '\n' ∉ x ∧ ',' ∉ x) :
    readCsv (savetxt (titleRow repr u dim qs :: rows)) = titleRow repr u dim qs :: rows ↔
      ∀ q ∈ qs, extraCells q = 0 := by
  constructor
  · intro h q hq
    obtain ⟨first, rest, he, -, hl⟩ := C78_header_cells repr hw u dim qs hk rows
      fun r h x hx => (hr r h x hx).1
    rw [h] at he
    have h1 : titleRow repr u dim qs = first := (List.cons.inj he).1
    have h2 : (titleRow repr u dim qs).length = 1 + qs.length := by simp [titleRow, Nat.add_comm]
    rw [← h1, h2] at hl
    have h3 : (qs.map extraCells).sum = 0 := by omega
    exact List.sum_eq_zero_iff.1 h3 _ (List.mem_map.2 ⟨q, hq, rfl⟩)
  · intro h
    rw [readCsv_savetxt]
    · rw [List.map_cons]
      congr 1
      · refine List.splitOn_intercalate ',' ?_ (by simp [titleRow])
        intro x hx
        rcases List.mem_cons.1 hx with rfl | hx
        · decide +kernel
        · obtain ⟨q, hq, rfl⟩ := List.mem_map.1 hx
          rw [← List.count_eq_zero, title_count repr hw _ _ _ _ (hk q hq)]
          exact h q hq
      · conv_rhs => rw [← List.map_id rows]
        refine List.map_congr_left fun r hrm => ?_
        exact List.splitOn_intercalate ',' (fun x hx => (hr r hrm x hx).2) (hne r hrm)
    · intro r hr'
      rcases List.mem_cons.1 hr' with rfl | hr'
      · exact titleRow_newline repr hw u dim qs hk
      · exact fun x hx => (hr r hr' x hx).1

/-! ## Distinct titles -/

theorem fieldText_inj {f g : Field} (hf : KnownField f) (hg : KnownField g) :
    fieldText f = fieldText g ↔ fieldNumber f = fieldNumber g := by
  have hdn : ∀ (n : ℕ) (s : String), KnownField (.name s) → Nat.toDigits 10 n ≠ s.toList := by
    intro n s hs h
    have key : ∀ c, c ∈ s.toList → c.isDigit = true := by
      intro c hc
      rw [← h] at hc
      exact Nat.isDigit_of_mem_toDigits (by decide) (by decide) hc
    rcases hs with rfl | rfl | rfl
    · exact absurd (key 's' (by decide)) (by decide)
    · exact absurd (key 'T' (by decide)) (by decide)
    · exact absurd (key 'r' (by decide)) (by decide)
  have hdd : ∀ n k : ℕ, Nat.toDigits 10 n = Nat.toDigits 10 k ↔ (Sum.inl n : ℕ ⊕ String) = Sum.inl k :=
    fun n k => ⟨fun h => by rw [toDigits_inj h], fun h => by rw [Sum.inl.inj h]⟩
  cases f with
  | int n =>
    cases g with
    | int k => exact hdd n k
    | strInt k => exact hdd n k
    | name s => exact ⟨fun h => absurd h (hdn n s hg), fun h => by simp [fieldNumber] at h⟩
  | strInt n =>
    cases g with
    | int k => exact hdd n k
    | strInt k => exact hdd n k
    | name s => exact ⟨fun h => absurd h (hdn n s hg), fun h => by simp [fieldNumber] at h⟩
  | name s =>
    cases g with
    | int k => exact ⟨fun h => absurd h.symm (hdn k s hf), fun h => by simp [fieldNumber] at h⟩
    | strInt k => exact ⟨fun h => absurd h.symm (hdn k s hf), fun h => by simp [fieldNumber] at h⟩
    | name t => simp [fieldText, fieldNumber, String.toList_inj]

/-- The pieces between commas of written coordinates. -/
def coordPieces (repr : ℝ → List Char) : Seq → List ℝ → List (List Char)
  | .list, [] => [[]]
  | .list, a :: l => repr a :: l.map fun b => ' ' :: repr b
  | .tuple, [] => [[]]
  | .tuple, [a] => [repr a, []]
  | .tuple, a :: l => repr a :: l.map fun b => ' ' :: repr b

theorem intercalate_pieces (repr : ℝ → List Char) (a : ℝ) (l : List ℝ) :
    [',', ' '].intercalate ((a :: l).map repr)
      = [','].intercalate (repr a :: l.map fun b => ' ' :: repr b) := by
  induction l generalizing a with
  | nil => simp
  | cons b l ih =>
    have h := ih b
    rw [List.map_cons, List.map_cons, List.intercalate_cons_cons, ← List.map_cons, h, List.map_cons,
      List.intercalate_cons_cons]
    simp only [List.append_assoc, List.cons_append, List.nil_append]
    cases l with
    | nil => simp
    | cons c l => simp

theorem text_pieces (repr : ℝ → List Char) (seq : Seq) (x : List ℝ) :
    ∃ o c : Char, (match seq with
        | .list => o = '[' ∧ c = ']'
        | .tuple => o = '(' ∧ c = ')') ∧
      seq.text repr x = o :: ([','].intercalate (coordPieces repr seq x) ++ [c]) := by
  cases seq with
  | list =>
    refine ⟨'[', ']', ⟨rfl, rfl⟩, ?_⟩
    rcases x with _ | ⟨a, l⟩
    · simp [Seq.text, coordPieces]
    · simp only [Seq.text, coordPieces, intercalate_pieces]
  | tuple =>
    refine ⟨'(', ')', ⟨rfl, rfl⟩, ?_⟩
    rcases x with _ | ⟨a, _ | ⟨b, l⟩⟩
    · simp [Seq.text, coordPieces]
    · simp [Seq.text, coordPieces]
    · simp only [Seq.text, coordPieces, intercalate_pieces]

theorem pieces_comma (repr : ℝ → List Char) (hw : Writes repr) (seq : Seq) (x : List ℝ) :
    (∀ p ∈ coordPieces repr seq x, ',' ∉ p) ∧ coordPieces repr seq x ≠ [] := by
  rcases x with _ | ⟨a, l⟩
  · cases seq <;> simp [coordPieces]
  · have hg : ∀ p ∈ (repr a :: l.map fun b => ' ' :: repr b), ',' ∉ p := by
      intro p hp
      rcases List.mem_cons.1 hp with rfl | hp
      · exact hw.comma a
      · obtain ⟨b, -, rfl⟩ := List.mem_map.1 hp
        simp [hw.comma b]
    cases seq with
    | list => exact ⟨hg, by simp [coordPieces]⟩
    | tuple =>
      cases l with
      | nil => simp [coordPieces, hw.comma a]
      | cons b l => exact ⟨hg, by simp [coordPieces]⟩

theorem pieces_inj (repr : ℝ → List Char) (hw : Writes repr) (seq : Seq) (x y : List ℝ)
    (h : coordPieces repr seq x = coordPieces repr seq y) : x.map repr = y.map repr := by
  have hm : ∀ l m : List ℝ, (l.map fun b => ' ' :: repr b) = (m.map fun b => ' ' :: repr b) →
      l.map repr = m.map repr := by
    intro l m h
    have := congrArg (List.map List.tail) h
    simpa [Function.comp_def] using this
  cases seq with
  | list =>
    rcases x with _ | ⟨a, l⟩ <;> rcases y with _ | ⟨b, m⟩
    · rfl
    · exact absurd (List.cons.inj h).1.symm (hw.nonempty b)
    · exact absurd (List.cons.inj h).1 (hw.nonempty a)
    · simp only [coordPieces, List.cons.injEq] at h
      rw [List.map_cons (a := a), List.map_cons (a := b), h.1, hm _ _ h.2]
  | tuple =>
    rcases x with _ | ⟨a, _ | ⟨a', l⟩⟩ <;> rcases y with _ | ⟨b, _ | ⟨b', m⟩⟩
    · rfl
    · exact absurd (List.cons.inj h).1.symm (hw.nonempty b)
    · exact absurd (List.cons.inj h).1.symm (hw.nonempty b)
    · exact absurd (List.cons.inj h).1 (hw.nonempty a)
    · simp only [coordPieces, List.cons.injEq] at h
      simp [h.1]
    · simp [coordPieces] at h
    · exact absurd (List.cons.inj h).1 (hw.nonempty a)
    · simp [coordPieces] at h
    · simp only [coordPieces, List.cons.injEq] at h
      rw [List.map_cons (a := a), List.map_cons (a := b), h.1, hm _ _ h.2]

theorem text_inj (repr : ℝ → List Char) (hw : Writes repr) (s s' : Seq) (x y : List ℝ) :
    s.text repr x = s'.text repr y ↔ (s, x.map repr) = (s', y.map repr) := by
  constructor
  · intro h
    obtain ⟨o, c, hs, e⟩ := text_pieces repr s x
    obtain ⟨o', c', hs', e'⟩ := text_pieces repr s' y
    rw [e, e'] at h
    obtain ⟨ho, h⟩ := List.cons.inj h
    have hss : s = s' := by
      cases s <;> cases s' <;> simp only at hs hs' <;>
        first
          | rfl
          | (rw [hs.1, hs'.1] at ho; exact absurd ho (by decide))
    subst hss
    have hcc : c = c' := by
      cases s <;> simp only at hs hs' <;> rw [hs.2, hs'.2]
    subst hcc
    have h2 := List.append_cancel_right h
    have h3 := congrArg (List.splitOn ',') h2
    rw [List.splitOn_intercalate _ (pieces_comma repr hw s x).1 (pieces_comma repr hw s x).2,
      List.splitOn_intercalate _ (pieces_comma repr hw s y).1 (pieces_comma repr hw s y).2] at h3
    rw [pieces_inj repr hw s x y h3]
  · intro h
    simp only [Prod.mk.injEq] at h
    obtain ⟨rfl, h⟩ := h
    have hl : x.length = y.length := by simpa using congrArg List.length h
    cases s with
    | list => simp only [Seq.text, h]
    | tuple =>
      rcases x with _ | ⟨a, _ | ⟨a', l⟩⟩ <;> rcases y with _ | ⟨b, _ | ⟨b', m⟩⟩ <;>
        simp only [List.length_cons, List.length_nil] at hl
      all_goals first
        | rfl
        | (exfalso; omega)
        | (simp only [Seq.text]; rw [h])
        | (simp only [List.map_cons, List.cons.injEq] at h; simp [Seq.text, h])

/-! ### Words of a title -/

/-- First word of the title of a flux. -/
def fluxWord (f : Field) : List Char := if f = .name "T" then "Heat".toList else fieldText f

/-- Words of a title without unit. -/
def words (repr : ℝ → List Char) (seq : Seq) : Quantity → List (List Char)
  | .surfaceFlux _ f s => [fluxWord f, "flux".toList, "surface".toList, Nat.toDigits 10 s]
  | .totalVolume _ f v => ["Total".toList, fieldText f, "volume".toList, Nat.toDigits 10 v]
  | .totalSurface _ f s => ["Total".toList, fieldText f, "surface".toList, Nat.toDigits 10 s]
  | .averageVolume _ f v => ["Average".toList, fieldText f, "volume".toList, Nat.toDigits 10 v]
  | .averageSurface _ f s => ["Average".toList, fieldText f, "surface".toList, Nat.toDigits 10 s]
  | .maximumVolume f v => ["Maximum".toList, fieldText f, "volume".toList, Nat.toDigits 10 v]
  | .minimumVolume f v => ["Minimum".toList, fieldText f, "volume".toList, Nat.toDigits 10 v]
  | .maximumSurface f s => ["Maximum".toList, fieldText f, "surface".toList, Nat.toDigits 10 s]
  | .minimumSurface f s => ["Minimum".toList, fieldText f, "surface".toList, Nat.toDigits 10 s]
  | .pointValue f x =>
    fieldText f :: "value".toList :: "at".toList :: (seq.text repr x).splitOn ' '
  | .adsorbed s =>
    ["Adsorbed".toList, "H".toList, "on".toList, "surface".toList, Nat.toDigits 10 s]

theorem splitOn_four (a b c d : List Char) (ha : ' ' ∉ a) (hb : ' ' ∉ b) (hc : ' ' ∉ c) (hd : ' ' ∉ d) :
    (a ++ ' ' :: (b ++ ' ' :: (c ++ ' ' :: d))).splitOn ' ' = [a, b, c, d] := by
  rw [List.splitOn_append_cons_self_of_not_mem ha, List.splitOn_append_cons_self_of_not_mem hb,
    List.splitOn_append_cons_self_of_not_mem hc, List.splitOn_eq_singleton hd]

theorem fieldTitle_words (pre pre' mid mid' : String) (f : Field) (hf : KnownField f) (id : ℕ)
    (hp : pre.toList = pre'.toList ++ [' ']) (hp' : ' ' ∉ pre'.toList)
    (hm : mid.toList = ' ' :: (mid'.toList ++ [' '])) (hm' : ' ' ∉ mid'.toList) :
    (fieldTitle pre f mid id).splitOn ' '
      = [pre'.toList, fieldText f, mid'.toList, Nat.toDigits 10 id] := by
  rw [fieldTitle, hp, hm]
  simp only [List.append_assoc, List.cons_append, List.nil_append]
  exact splitOn_four _ _ _ _ hp' (known_text hf _ (by decide) (by decide) (by decide) (by decide)) hm'
    (toDigits_avoid _ _ (by decide))

theorem base_words (repr : ℝ → List Char) (seq : Seq) (q : Quantity) (hk : KnownQuantity q) :
    (q.baseTitle repr seq).splitOn ' ' = words repr seq q := by
  have dig : ∀ n, ' ' ∉ Nat.toDigits 10 n := fun n => toDigits_avoid n _ (by decide)
  have fld : ∀ f, KnownField f → ' ' ∉ fieldText f := fun f hf =>
    known_text hf _ (by decide) (by decide) (by decide) (by decide)
  cases q with
  | surfaceFlux g f s =>
    have hf := hk f rfl
    by_cases hT : f = .name "T"
    · rw [show (Quantity.surfaceFlux g f s).baseTitle repr seq
        = "Heat flux surface ".toList ++ Nat.toDigits 10 s from if_pos hT]
      rw [show "Heat flux surface ".toList
        = "Heat".toList ++ ' ' :: ("flux".toList ++ ' ' :: ("surface".toList ++ [' '])) by decide +kernel]
      simp only [List.append_assoc, List.cons_append, List.nil_append]
      rw [splitOn_four _ _ _ _ (by decide) (by decide) (by decide) (dig s)]
      simp only [words, fluxWord, if_pos hT]
    · rw [show (Quantity.surfaceFlux g f s).baseTitle repr seq
        = fieldTitle "" f " flux surface " s from if_neg hT, fieldTitle]
      rw [show " flux surface ".toList
        = ' ' :: ("flux".toList ++ ' ' :: ("surface".toList ++ [' '])) by decide +kernel,
        show "".toList = [] by decide]
      simp only [List.append_assoc, List.cons_append, List.nil_append]
      rw [splitOn_four _ _ _ _ (fld f hf) (by decide) (by decide) (dig s)]
      simp only [words, fluxWord, if_neg hT]
  | pointValue f x =>
    rw [show (Quantity.pointValue f x).baseTitle repr seq
      = fieldText f ++ " value at ".toList ++ seq.text repr x from rfl]
    rw [show " value at ".toList = ' ' :: ("value".toList ++ ' ' :: ("at".toList ++ [' ']))
      by decide +kernel]
    simp only [List.append_assoc, List.cons_append, List.nil_append]
    rw [List.splitOn_append_cons_self_of_not_mem (fld f (hk f rfl)),
      List.splitOn_append_cons_self_of_not_mem (by decide),
      List.splitOn_append_cons_self_of_not_mem (by decide)]
    rfl
  | adsorbed s =>
    rw [show (Quantity.adsorbed s).baseTitle repr seq
      = "Adsorbed H on surface ".toList ++ Nat.toDigits 10 s from rfl]
    rw [show "Adsorbed H on surface ".toList = "Adsorbed".toList ++ ' ' :: ("H".toList ++ ' ' ::
      ("on".toList ++ ' ' :: ("surface".toList ++ [' ']))) by decide +kernel]
    simp only [List.append_assoc, List.cons_append, List.nil_append]
    rw [List.splitOn_append_cons_self_of_not_mem (by decide),
      splitOn_four _ _ _ _ (by decide) (by decide) (by decide) (dig s)]
    rfl
  | totalVolume g f v =>
    exact fieldTitle_words _ "Total" _ "volume" f (hk f rfl) v (by decide +kernel) (by decide +kernel) (by decide +kernel) (by decide +kernel)
  | totalSurface g f v =>
    exact fieldTitle_words _ "Total" _ "surface" f (hk f rfl) v (by decide +kernel) (by decide +kernel) (by decide +kernel) (by decide +kernel)
  | averageVolume g f v =>
    exact fieldTitle_words _ "Average" _ "volume" f (hk f rfl) v (by decide +kernel) (by decide +kernel) (by decide +kernel) (by decide +kernel)
  | averageSurface g f v =>
    exact fieldTitle_words _ "Average" _ "surface" f (hk f rfl) v (by decide +kernel) (by decide +kernel) (by decide +kernel) (by decide +kernel)
  | maximumVolume f v =>
    exact fieldTitle_words _ "Maximum" _ "volume" f (hk f rfl) v (by decide +kernel) (by decide +kernel) (by decide +kernel) (by decide +kernel)
  | minimumVolume f v =>
    exact fieldTitle_words _ "Minimum" _ "volume" f (hk f rfl) v (by decide +kernel) (by decide +kernel) (by decide +kernel) (by decide +kernel)
  | maximumSurface f v =>
    exact fieldTitle_words _ "Maximum" _ "surface" f (hk f rfl) v (by decide +kernel) (by decide +kernel) (by decide +kernel) (by decide +kernel)
  | minimumSurface f v =>
    exact fieldTitle_words _ "Minimum" _ "surface" f (hk f rfl) v (by decide +kernel) (by decide +kernel) (by decide +kernel) (by decide +kernel)

/-- The family told by the words. -/
def familyOf (w : List (List Char)) : Family :=
  match w with
  | a :: b :: c :: _ =>
    if a = "Adsorbed".toList then .adsorbed
    else if b = "flux".toList then .flux
    else if b = "value".toList then .point
    else if c = "volume".toList then
      if a = "Total".toList then .totalVolume
      else if a = "Average".toList then .averageVolume
      else if a = "Maximum".toList then .maximumVolume
      else .minimumVolume
    else if a = "Total".toList then .totalSurface
      else if a = "Average".toList then .averageSurface
      else if a = "Maximum".toList then .maximumSurface
      else .minimumSurface
  | _ => .adsorbed

theorem known_ne {f : Field} (h : KnownField f) (w : List Char)
    (h0 : ∃ c ∈ w, c.isDigit = false) (h1 : w ≠ "solute".toList) (h2 : w ≠ "T".toList)
    (h3 : w ≠ "retention".toList) : fieldText f ≠ w := by
  have hn : ∀ n, Nat.toDigits 10 n ≠ w := by
    rintro n rfl
    obtain ⟨c, hc, hd⟩ := h0
    rw [Nat.isDigit_of_mem_toDigits (by decide) (by decide) hc] at hd
    exact absurd hd (by decide)
  cases f with
  | int n => exact hn n
  | strInt n => exact hn n
  | name s =>
    rcases h with rfl | rfl | rfl
    · exact h1.symm
    · exact h2.symm
    · exact h3.symm

theorem familyOf_words (repr : ℝ → List Char) (seq : Seq) (q : Quantity) (hk : KnownQuantity q) :
    familyOf (words repr seq q) = q.parts.1 := by
  have h1 : ∀ f, KnownField f → fieldText f ≠ "flux".toList := fun f hf =>
    known_ne hf _ ⟨'f', by decide, by decide⟩ (by decide) (by decide) (by decide)
  have h2 : ∀ f, KnownField f → fieldText f ≠ "value".toList := fun f hf =>
    known_ne hf _ ⟨'v', by decide, by decide⟩ (by decide) (by decide) (by decide)
  have h3 : ∀ f, KnownField f → fieldText f ≠ "Adsorbed".toList := fun f hf =>
    known_ne hf _ ⟨'A', by decide, by decide⟩ (by decide) (by decide) (by decide)
  cases q with
  | surfaceFlux g f s =>
    have h4 : fluxWord f ≠ "Adsorbed".toList := by
      unfold fluxWord
      split
      · decide
      · exact h3 f (hk f rfl)
    simp only [familyOf, words, if_neg h4, if_true, Quantity.parts]
  | pointValue f x =>
    simp only [familyOf, words, if_neg (h3 f (hk f rfl)), Quantity.parts]
    rw [if_neg (by decide), if_pos trivial]
  | adsorbed s => simp only [familyOf, words, if_true, Quantity.parts]
  | _ =>
    rename_i f _
    simp only [familyOf, words, if_neg (h1 f (hk f rfl)), if_neg (h2 f (hk f rfl)), Quantity.parts]
    rfl

theorem fluxWord_inj {f g : Field} (hf : KnownField f) (hg : KnownField g) :
    fluxWord f = fluxWord g ↔ fieldNumber f = fieldNumber g := by
  have hH : ∀ f, KnownField f → fieldText f ≠ "Heat".toList := fun f hf =>
    known_ne hf _ ⟨'H', by decide, by decide⟩ (by decide) (by decide) (by decide)
  have hnum : ∀ f : Field, fieldNumber f = fieldNumber (.name "T") → f = .name "T" := by
    intro f h
    cases f <;> simp [fieldNumber] at h
    rw [h]
  unfold fluxWord
  by_cases h1 : f = .name "T" <;> by_cases h2 : g = .name "T"
  · simp [h1, h2]
  · rw [if_pos h1, if_neg h2]
    exact ⟨fun h => absurd h.symm (hH g hg), fun h => absurd (hnum g (by rw [← h, h1])) h2⟩
  · rw [if_neg h1, if_pos h2]
    exact ⟨fun h => absurd h (hH f hf), fun h => absurd (hnum f (by rw [h, h2])) h1⟩
  · rw [if_neg h1, if_neg h2]
    exact fieldText_inj hf hg

theorem digits_iff {a b : ℕ} : Nat.toDigits 10 a = Nat.toDigits 10 b ↔ a = b :=
  ⟨toDigits_inj, fun h => by rw [h]⟩

theorem splitOn_iff {a b : List Char} : a.splitOn ' ' = b.splitOn ' ' ↔ a = b :=
  ⟨fun h => by rw [← List.intercalate_splitOn (xs := a) ' ', h, List.intercalate_splitOn],
    fun h => by rw [h]⟩

theorem words_inj (repr : ℝ → List Char) (hw : Writes repr) (a b : Quantity × Seq)
    (ha : KnownQuantity a.1) (hb : KnownQuantity b.1) :
    words repr a.2 a.1 = words repr b.2 b.1 ↔ SameLabel repr a b := by
  obtain ⟨q, s⟩ := a
  obtain ⟨q', s'⟩ := b
  by_cases hfam : q.parts.1 = q'.parts.1
  swap
  · refine ⟨fun h => absurd ?_ hfam, fun h => absurd h.1 hfam⟩
    rw [← familyOf_words repr s q ha, ← familyOf_words repr s' q' hb, h]
  cases q <;> cases q' <;> first | (exfalso; revert hfam; exact fun h => Family.noConfusion h) | skip
  case surfaceFlux.surfaceFlux g f n g' f' n' =>
    simp only [words, List.cons.injEq, fluxWord_inj (ha f rfl) (hb f' rfl), digits_iff, SameLabel,
      Quantity.parts, Option.map_some, Option.map_none, Option.some.injEq, true_and, and_true]
  case pointValue.pointValue f x f' x' =>
    simp only [words, List.cons.injEq, fieldText_inj (ha f rfl) (hb f' rfl), splitOn_iff, SameLabel,
      text_inj repr hw, Quantity.parts, Option.map_some, Option.some.injEq, true_and]
  case adsorbed.adsorbed n n' =>
    simp only [words, List.cons.injEq, digits_iff, SameLabel,
      Quantity.parts, Option.map_none, Option.some.injEq, true_and, and_true]
  case totalVolume.totalVolume g f n g' f' n' =>
    simp only [words, List.cons.injEq, fieldText_inj (ha f rfl) (hb f' rfl), digits_iff, SameLabel,
      Quantity.parts, Option.map_some, Option.map_none, Option.some.injEq, true_and, and_true]
  case totalSurface.totalSurface g f n g' f' n' =>
    simp only [words, List.cons.injEq, fieldText_inj (ha f rfl) (hb f' rfl), digits_iff, SameLabel,
      Quantity.parts, Option.map_some, Option.map_none, Option.some.injEq, true_and, and_true]
  case averageVolume.averageVolume g f n g' f' n' =>
    simp only [words, List.cons.injEq, fieldText_inj (ha f rfl) (hb f' rfl), digits_iff, SameLabel,
      Quantity.parts, Option.map_some, Option.map_none, Option.some.injEq, true_and, and_true]
  case averageSurface.averageSurface g f n g' f' n' =>
    simp only [words, List.cons.injEq, fieldText_inj (ha f rfl) (hb f' rfl), digits_iff, SameLabel,
      Quantity.parts, Option.map_some, Option.map_none, Option.some.injEq, true_and, and_true]
  case maximumVolume.maximumVolume f n f' n' =>
    simp only [words, List.cons.injEq, fieldText_inj (ha f rfl) (hb f' rfl), digits_iff, SameLabel,
      Quantity.parts, Option.map_some, Option.map_none, Option.some.injEq, true_and, and_true]
  case minimumVolume.minimumVolume f n f' n' =>
    simp only [words, List.cons.injEq, fieldText_inj (ha f rfl) (hb f' rfl), digits_iff, SameLabel,
      Quantity.parts, Option.map_some, Option.map_none, Option.some.injEq, true_and, and_true]
  case maximumSurface.maximumSurface f n f' n' =>
    simp only [words, List.cons.injEq, fieldText_inj (ha f rfl) (hb f' rfl), digits_iff, SameLabel,
      Quantity.parts, Option.map_some, Option.map_none, Option.some.injEq, true_and, and_true]
  case minimumSurface.minimumSurface f n f' n' =>
    simp only [words, List.cons.injEq, fieldText_inj (ha f rfl) (hb f' rfl), digits_iff, SameLabel,
      Quantity.parts, Option.map_some, Option.map_none, Option.some.injEq, true_and, and_true]

/-- **C78.** Without units two titles are the same exactly when the quantities belong to the same family
and have the same field (as written), subdomain and coordinates (as written): the coordinate system and
the angles of a quantity are not in its title. -/
theorem C78_titles (repr : ℝ → List Char) (hw : Writes repr) (a b : Quantity × Seq)
    (ha : KnownQuantity a.1) (hb : KnownQuantity b.1) (dim : ℤ) :
    a.1.title repr a.2 false dim = b.1.title repr b.2 false dim ↔ SameLabel repr a b := by
  rw [← words_inj repr hw a b ha hb, ← base_words repr a.2 a.1 ha, ← base_words repr b.2 b.1 hb,
    splitOn_iff]
  exact Iff.rfl

/-- The unit is what follows the last opening bracket. -/
theorem append_paren_inj {a b u v : List Char} (hu : '(' ∉ u) (hv : '(' ∉ v) :
    a ++ '(' :: u = b ++ '(' :: v ↔ a = b ∧ u = v := by
  refine ⟨fun h => ?_, fun h => by rw [h.1, h.2]⟩
  have h1 := congrArg List.reverse h
  simp only [List.reverse_append, List.reverse_cons, List.append_assoc, List.cons_append,
    List.nil_append] at h1
  have h2 := congrArg (List.splitOn '(') h1
  rw [List.splitOn_append_cons_self_of_not_mem (by simpa using hu),
    List.splitOn_append_cons_self_of_not_mem (by simpa using hv)] at h2
  have huv : u = v := List.reverse_injective (List.cons.inj h2).1
  subst huv
  exact ⟨List.append_cancel_right h, rfl⟩

/-- **C78.** With units the units must be the same too. -/
theorem C78_titles_with_units (repr : ℝ → List Char) (hw : Writes repr) (a b : Quantity × Seq)
    (ha : KnownQuantity a.1) (hb : KnownQuantity b.1) (dim : ℤ) :
    a.1.title repr a.2 true dim = b.1.title repr b.2 true dim ↔
      SameLabel repr a b ∧ a.1.exportUnit dim = b.1.exportUnit dim := by
  rw [← C78_titles repr hw a b ha hb dim, title_eq, title_eq]
  have hs : ∀ x y : List Char, x ++ ' ' :: '(' :: y = (x ++ [' ']) ++ '(' :: y := by simp
  rw [hs, hs, append_paren_inj]
  · rw [List.append_left_inj, List.append_left_inj]
    exact Iff.rfl
  · rw [List.mem_append, not_or]
    exact ⟨unit_avoid (Or.inr (Or.inr rfl)) _ _, by decide⟩
  · rw [List.mem_append, not_or]
    exact ⟨unit_avoid (Or.inr (Or.inr rfl)) _ _, by decide⟩

/-- **C78.** If no title contains a comma and no two titles are the same, what a reader finds under the
title of the `k`-th quantity is the column of this quantity. -/
theorem C78_column (repr : ℝ → List Char) (hw : Writes repr) (u : Bool) (dim : ℤ)
    (qs : List (Quantity × Seq)) (hk : ∀ q ∈ qs, KnownQuantity q.1)
    (rows : List (List (List Char))) (hne : ∀ r ∈ rows, r.length = qs.length + 1)
    (hr : ∀ r ∈ rows, ∀ x ∈ r, '\n' ∉ x ∧ ',' ∉ x) (hx : ∀ q ∈ qs, extraCells q = 0)
    (hd : qs.Pairwise fun a b => a.1.title repr a.2 u dim ≠ b.1.title repr b.2 u dim)
    (k : ℕ) (q : Quantity × Seq) (hq : qs[k]? = some q) :
    columnOf (q.1.title repr q.2 u dim) (readCsv (savetxt (titleRow repr u dim qs :: rows)))
      = rows.map fun r => r[k + 1]? := by
  rw [(C78_read_back repr hw u dim qs hk rows (fun r h => by
    have := hne r h
    intro h0
    rw [h0] at this
    simp at this) hr).2 hx]
  have ht : "t(s)".toList ≠ q.1.title repr q.2 u dim := by
    have key : ∀ (b : List Char), ' ' ∈ b → "t(s)".toList ≠ b := by
      rintro b hb rfl
      exact absurd hb (by decide)
    refine key _ ?_
    have hbase : ' ' ∈ q.1.baseTitle repr q.2 := by
      by_contra hc
      have h1 := base_words repr q.2 q.1 (hk q (List.mem_of_getElem? hq))
      rw [List.splitOn_eq_singleton hc] at h1
      cases hq1 : q.1 <;> rw [hq1] at h1 <;> simp [words] at h1
    cases u with
    | false => exact hbase
    | true => rw [title_eq]; exact List.mem_append_left _ hbase
  have hidx : (titleRow repr u dim qs).idxOf (q.1.title repr q.2 u dim) = k + 1 := by
    unfold titleRow
    rw [List.idxOf_cons_ne _ ht]
    congr 1
    clear ht hne hx hk
    induction qs generalizing k with
    | nil => simp at hq
    | cons a l ih =>
      rw [List.pairwise_cons] at hd
      cases k with
      | zero =>
        simp only [List.getElem?_cons_zero, Option.some.injEq] at hq
        subst hq
        rw [List.map_cons, List.idxOf_cons_self]
      | succ k =>
        rw [List.getElem?_cons_succ] at hq
        rw [List.map_cons, List.idxOf_cons_ne _ (hd.1 q (List.mem_of_getElem? hq))]
        exact congrArg (· + 1) (ih hd.2 k hq)
  simp only [columnOf, hidx]

/-! ## Cases -/

namespace Titles

/-- A way of writing numbers, enough for the examples. -/
noncomputable def rep (x : ℝ) : List Char := if x = 0 then ['0'] else ['0', '.', '5']

theorem rep_writes : Writes rep := by
  constructor <;> intro a <;> unfold rep <;> split <;> decide

/-- One of each kind, the point on a line. -/
noncomputable def columns : List (Quantity × Weak.Seq) :=
  [(.surfaceFlux .cartesian (.name "T") 1, .list), (.totalVolume .cartesian (.int 1) 2, .list),
   (.averageSurface .cartesian (.name "retention") 1, .list), (.pointValue (.name "solute") [0.5], .list),
   (.adsorbed 1, .list)]

theorem columns_known : ∀ q ∈ columns, KnownQuantity q.1 := by
  intro q hq f hf
  simp only [columns, List.mem_cons, List.not_mem_nil, or_false] at hq
  rcases hq with rfl | rfl | rfl | rfl | rfl <;> simp [Quantity.parts] at hf <;> subst hf <;>
    simp [KnownField]

theorem columns_extra : ∀ q ∈ columns, extraCells q = 0 := by
  intro q hq
  simp only [columns, List.mem_cons, List.not_mem_nil, or_false] at hq
  rcases hq with rfl | rfl | rfl | rfl | rfl <;> simp [extraCells, Quantity.parts]

/-- The titles on a mesh of dimension 1. -/
example : titleRow rep true 1 columns
    = ["t(s)".toList, "Heat flux surface 1 (W m-2)".toList, "Total 1 volume 2 (H m-2)".toList,
       "Average retention surface 1 (H m-3)".toList, "solute value at [0.5] (H m-3)".toList,
       "Adsorbed H on surface 1 (H m-2)".toList] := by
  have h : rep 0.5 = ['0', '.', '5'] := by unfold rep; rw [if_neg (by norm_num)]
  have h1 : (Quantity.surfaceFlux .cartesian (.name "T") 1).title rep .list true 1
    = "Heat flux surface 1 (W m-2)".toList := by decide +kernel
  have h2 : (Quantity.totalVolume .cartesian (.int 1) 2).title rep .list true 1
    = "Total 1 volume 2 (H m-2)".toList := by decide +kernel
  have h3 : (Quantity.averageSurface .cartesian (.name "retention") 1).title rep .list true 1
    = "Average retention surface 1 (H m-3)".toList := by decide +kernel
  have h4 : (Quantity.pointValue (.name "solute") [0.5]).title rep .list true 1
    = "solute value at [0.5] (H m-3)".toList := by
    have : ∀ w, rep 0.5 = w → (Quantity.pointValue (.name "solute") [0.5]).title rep .list true 1
      = (Quantity.pointValue (.name "solute") [0]).title (fun _ => w) .list true 1 := by
      rintro w rfl
      rfl
    rw [this _ h]
    decide +kernel
  have h5 : (Quantity.adsorbed 1).title rep .list true 1 = "Adsorbed H on surface 1 (H m-2)".toList := by
    decide +kernel
  unfold titleRow columns
  rw [List.map_cons, List.map_cons, List.map_cons, List.map_cons, List.map_cons, List.map_nil,
    h1, h2, h3, h4, h5]

/-- A table of two rows is read back. -/
example : readCsv (savetxt (titleRow rep true 1 columns
    :: List.replicate 2 (List.replicate 6 "1.5".toList)))
      = titleRow rep true 1 columns :: List.replicate 2 (List.replicate 6 "1.5".toList) := by
  refine (C78_read_back rep rep_writes true 1 columns columns_known _ ?_ ?_).2 columns_extra
  · intro r hr
    rw [List.eq_of_mem_replicate hr]
    simp
  · intro r hr x hx
    rw [List.eq_of_mem_replicate hr] at hx
    rw [List.eq_of_mem_replicate hx]
    decide +kernel

/-- A point of the plane: the title is cut in two, the first line has three cells, the others two. -/
example : ∃ first rest, readCsv (savetxt (titleRow rep true 2 [(.pointValue (.name "solute") [0, 0.5], .list)]
      :: [["0.1".toList, "1e20".toList]])) = first :: rest ∧ rest.length = 1 ∧ first.length = 3 := by
  have h := C78_header_cells rep rep_writes true 2 [(.pointValue (.name "solute") [0, 0.5], .list)]
    (by intro q hq f hf; simp at hq; subst hq; simp [Quantity.parts] at hf; subst hf; simp [KnownField])
    [["0.1".toList, "1e20".toList]]
    (by
      intro r hr x hx
      simp only [List.mem_singleton] at hr
      subst hr
      revert x
      decide +kernel)
  exact h

/-- Half and whole turn: the same title for different numbers (C63). -/
example : (Quantity.totalVolume (.cylindrical (0, Real.pi)) (.name "solute") 1).title rep .list true 2
    = (Quantity.totalVolume (.cylindrical (0, 2 * Real.pi)) (.name "solute") 1).title rep .list true 2 :=
  (C78_titles_with_units rep rep_writes (_, .list) (_, .list)
    (by intro f hf; simp [Quantity.parts] at hf; subst hf; simp [KnownField])
    (by intro f hf; simp [Quantity.parts] at hf; subst hf; simp [KnownField]) 2).2
    ⟨⟨rfl, rfl, rfl, rfl⟩, rfl⟩

/-- `0` and `"solute"` are the same field (C34, C61) but give different titles. -/
example : (Quantity.totalVolume .cartesian (.name "solute") 1).title rep .list false 1
    ≠ (Quantity.totalVolume .cartesian (.int 0) 1).title rep .list false 1 := by
  intro h
  have := (C78_titles rep rep_writes (_, .list) (_, .list)
    (by intro f hf; simp [Quantity.parts] at hf; subst hf; simp [KnownField])
    (by intro f hf; simp [Quantity.parts] at hf; subst hf; simp [KnownField]) 1).1 h
  simp [SameLabel, Quantity.parts, fieldNumber] at this

end Titles

end Festim.Props
