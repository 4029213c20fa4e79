import Verif.Model.TypedList
import Mathlib.Data.List.InsertIdx
import Mathlib.Data.List.TakeWhile

/-! # Typed containers (C40) -/

namespace Festim.Props

/-- `op` gives the container only elements it validates itself or that come from a container of the
same class; `+=` with anything else is excluded. -/
def Checked {α : Type} (valid : α → Bool) : ListOp α → Prop
  | .extend (.same l) => ∀ x ∈ l, valid x = true
  | .iadd o => ∀ x ∈ o.toList, valid x = true
  | _ => True

theorem extendLoop_spec {α : Type} (valid : α → Bool) : ∀ (l self : List α),
    extendLoop valid self l =
      (self ++ l.takeWhile valid,
        if l.all valid then none else some (.typeError "must be a list of"))
  | [], self => by simp [extendLoop]
  | x :: xs, self => by
    by_cases hx : valid x = true
    · simp [extendLoop, validate, hx, extendLoop_spec valid xs]
    · simp [extendLoop, validate, hx]

theorem apply_inv {α : Type} (valid : α → Bool) (self : List α) (op : ListOp α)
    (h : ∀ x ∈ self, valid x = true) (hc : Checked valid op) :
    ∀ x ∈ (op.apply valid self).1, valid x = true := by
  have hv : ∀ {x y : α}, validate valid x = .ok y → valid y = true := by
    intro x y hxy
    unfold validate at hxy
    split at hxy
    · cases hxy; assumption
    · cases hxy
  cases op with
  | setitem i x =>
    simp only [ListOp.apply]
    split
    · exact h
    · rename_i y hy
      split
      · exact h
      · intro z hz
        rcases List.mem_or_eq_of_mem_set hz with hz | rfl
        · exact h z hz
        · exact hv hy
  | insert i x =>
    simp only [ListOp.apply]
    split
    · exact h
    · rename_i y hy
      intro z hz
      rcases List.eq_or_mem_of_mem_insertIdx hz with rfl | hz
      · exact hv hy
      · exact h z hz
  | append x =>
    simp only [ListOp.apply]
    split
    · exact h
    · rename_i y hy
      intro z hz
      rcases List.mem_append.1 hz with hz | hz
      · exact h z hz
      · rw [List.mem_singleton] at hz; subst hz; exact hv hy
  | extend o =>
    cases o with
    | same l =>
      intro z hz
      rcases List.mem_append.1 hz with hz | hz
      · exact h z hz
      · exact hc z hz
    | iterable l =>
      simp only [ListOp.apply, extendLoop_spec]
      intro z hz
      rcases List.mem_append.1 hz with hz | hz
      · exact h z hz
      · exact List.mem_takeWhile_imp hz
    | notIterable => exact h
  | iadd o =>
    cases o with
    | same l | iterable l =>
      intro z hz
      rcases List.mem_append.1 hz with hz | hz
      · exact h z hz
      · exact hc z hz
    | notIterable => exact h
  | del i =>
    simp only [ListOp.apply]
    split
    · exact h
    · intro z hz; exact h z (List.mem_of_mem_eraseIdx hz)
  | reverse => intro z hz; exact h z (by simpa [ListOp.apply] using hz)
  | clear => intro z hz; simp [ListOp.apply] at hz

/-- C40 (a): a container built by the constructor and modified by any history of operations,
failing ones included, holds only valid elements, as long as `+=` is not used with invalid ones. -/
theorem C40_only_valid {α : Type} (valid : α → Bool) (arg : Option (List α)) (l : List α)
    (hl : mkTyped valid arg = .ok l) (ops : List (ListOp α)) (hc : ∀ op ∈ ops, Checked valid op) :
    ∀ x ∈ runOps valid l ops, valid x = true := by
  have h0 : ∀ x ∈ l, valid x = true := by
    cases arg with
    | none => cases hl; simp
    | some a =>
      simp only [mkTyped, extendLoop_spec, List.nil_append] at hl
      split at hl
      · rename_i l' heq
        cases hl
        simp only [Prod.mk.injEq] at heq
        intro x hx
        rw [← heq.1] at hx
        exact List.mem_takeWhile_imp hx
      · cases hl
  clear hl
  induction ops generalizing l with
  | nil => exact h0
  | cons op ops ih =>
    exact ih _ (fun o ho => hc o (by simp [ho])) (apply_inv valid l op h0 (hc op (by simp)))

/-- C40 (b): no valid argument is refused: the constructor accepts exactly the lists of valid elements
and then holds these elements in order. -/
theorem C40_constructor {α : Type} (valid : α → Bool) (a : List α) :
    ((∀ x ∈ a, valid x = true) → mkTyped valid (some a) = .ok a) ∧
    ((∃ x ∈ a, valid x = false) → ∃ msg, mkTyped valid (some a) = .error (.typeError msg)) := by
  simp only [mkTyped, extendLoop_spec, List.nil_append]
  constructor
  · intro h
    rw [if_pos (by simpa using h), List.takeWhile_eq_self_iff.2 h]
  · rintro ⟨x, hx, hv⟩
    rw [if_neg]
    · exact ⟨_, rfl⟩
    · simp only [List.all_eq_true]
      intro h
      rw [h x hx] at hv; cases hv

theorem pyInsertPos_le (n : ℕ) (i : ℤ) : pyInsertPos n i ≤ n := by
  unfold pyInsertPos
  generalize (if i < 0 then i + n else i) = j
  simp only
  split
  · exact Nat.zero_le _
  · exact min_le_right _ _

theorem insertIdx_split {α : Type} (x : α) : ∀ (l : List α) (k : ℕ), k ≤ l.length →
    l.insertIdx k x = l.take k ++ x :: l.drop k
  | l, 0, _ => by simp
  | [], k + 1, h => by simp at h
  | a :: l, k + 1, h => by
    simp [insertIdx_split x l k (by simpa using h)]

/-- C40 (c): single-element operations are atomic: they raise `TypeError` and leave the container
unchanged exactly when the element is invalid; a valid element is stored where asked. -/
theorem C40_append_insert {α : Type} (valid : α → Bool) (self : List α) (x : α) (i : ℤ) :
    (valid x = false → ∃ msg, (ListOp.append x).apply valid self = (self, some (.typeError msg)) ∧
      (ListOp.insert i x).apply valid self = (self, some (.typeError msg)) ∧
      (ListOp.setitem i x).apply valid self = (self, some (.typeError msg))) ∧
    (valid x = true → (ListOp.append x).apply valid self = (self ++ [x], none) ∧
      ∃ k, k ≤ self.length ∧
        (ListOp.insert i x).apply valid self = (self.take k ++ x :: self.drop k, none) ∧
        (0 ≤ i → i ≤ self.length → (k : ℤ) = i)) := by
  constructor
  · intro h
    exact ⟨_, by simp only [ListOp.apply, validate, h]; exact ⟨rfl, rfl, rfl⟩⟩
  · intro h
    refine ⟨by simp [ListOp.apply, validate, h], pyInsertPos self.length i, ?_, ?_, ?_⟩
    · exact pyInsertPos_le _ _
    · simp only [ListOp.apply, validate, h, if_true]
      rw [insertIdx_split _ _ _ (pyInsertPos_le _ _)]
    · intro h1 h2
      simp only [pyInsertPos]
      rw [if_neg (not_lt.2 h1)]
      split <;> omega

/-- C40: an element is replaced or deleted by its position from the left, or from the right with a negative index; an
index which is in neither range raises `IndexError` and changes nothing.  `insert` counts in the same way. -/
theorem C40_positions {α : Type} (valid : α → Bool) (a b : List α) (x y : α) (hx : valid x = true) :
    (∀ i : ℤ, i = a.length ∨ i = -(b.length + 1) →
      (ListOp.setitem i x).apply valid (a ++ y :: b) = (a ++ x :: b, none) ∧
      (ListOp.del i).apply valid (a ++ y :: b) = (a ++ b, none) ∧
      (ListOp.insert i x).apply valid (a ++ y :: b) = (a ++ x :: y :: b, none)) ∧
    ∀ (i : ℤ) (l : List α), (l.length ≤ i ∨ i < -l.length) →
      ∃ m, (ListOp.setitem i x).apply valid l = (l, some (.indexError m)) ∧
        (ListOp.del i : ListOp α).apply valid l = (l, some (.indexError m)) := by
  constructor
  · intro i hi
    have hj : (if i < 0 then i + ((a ++ y :: b).length : ℕ) else i) = (a.length : ℤ) := by
      simp only [List.length_append, List.length_cons]
      split <;> push_cast <;> omega
    have hp : pyIndex (a ++ y :: b).length i = some a.length := by
      unfold pyIndex
      rw [hj]
      simp only
      rw [if_pos (by simp only [List.length_append, List.length_cons]; omega)]
      simp
    have hq : pyInsertPos (a ++ y :: b).length i = a.length := by
      unfold pyInsertPos
      rw [hj]
      simp
    refine ⟨?_, ?_, ?_⟩
    · simp only [ListOp.apply, validate, hx, if_true, hp]
      rw [List.set_append_right _ _ le_rfl]
      simp
    · simp only [ListOp.apply, hp]
      rw [List.eraseIdx_append_of_length_le le_rfl]
      simp
    · simp only [ListOp.apply, validate, hx, if_true, hq]
      rw [insertIdx_split _ _ _ (by simp)]
      simp
  · intro i l hi
    have hp : pyIndex l.length i = none := by
      unfold pyIndex
      simp only
      rw [if_neg]
      split <;> omega
    refine ⟨"list assignment index out of range", ?_, ?_⟩
    · simp only [ListOp.apply, validate, hx, if_true, hp]
    · simp only [ListOp.apply, hp]

/-- C40 (d): `extend` with a list that contains an invalid element raises but keeps the elements
preceding it. -/
theorem C40_extend_not_atomic {α : Type} (valid : α → Bool) (self l₁ l₂ : List α) (x : α)
    (h1 : ∀ y ∈ l₁, valid y = true) (hx : valid x = false) :
    ∃ msg, (ListOp.extend (.iterable (l₁ ++ x :: l₂))).apply valid self =
      (self ++ l₁, some (.typeError msg)) := by
  refine ⟨"must be a list of", ?_⟩
  simp only [ListOp.apply, extendLoop_spec]
  rw [List.takeWhile_append_of_pos h1, List.takeWhile_cons, if_neg (by simp [hx]), if_neg]
  · simp
  · simp [hx]

/-- C40 (e): `+=` is not overridden: it stores anything. -/
theorem C40_iadd_unchecked {α : Type} (valid : α → Bool) (self l : List α) :
    (ListOp.iadd (.iterable l)).apply valid self = (self ++ l, none) := rfl

/-- Non-vacuity: even numbers are the valid elements. -/
example : runOps (fun n : ℕ => n % 2 == 0) [2]
      [.append 3, .append 4, .extend (.iterable [6, 8, 1, 10]), .insert (-1) 0, .setitem 7 2, .setitem 0 12] =
    [12, 4, 6, 0, 8] ∧ (∀ op ∈ ([.append 3, .extend (.iterable [6, 1])] : List (ListOp ℕ)),
      Checked (fun n : ℕ => n % 2 == 0) op) := by
  refine ⟨by decide, ?_⟩
  intro op hop
  simp only [List.mem_cons, List.not_mem_nil, or_false] at hop
  rcases hop with rfl | rfl <;> trivial

end Festim.Props
