import Verif.Spec.Exports
import Mathlib.Data.List.Perm.Basic
import Mathlib.Tactic.Linarith

/-! # Lemmas about the index selection of `TXTExport` -/

namespace Festim

open Spec

theorem argmin_spec : ∀ (l : List ℚ), l ≠ [] →
    argmin l < l.length ∧ (∀ j < l.length, l.getD (argmin l) 0 ≤ l.getD j 0) ∧
    ∀ j < argmin l, l.getD (argmin l) 0 < l.getD j 0
  | [], h => absurd rfl h
  | [a], _ => by simp [argmin]
  | a :: b :: l, _ => by
    obtain ⟨h1, h2, h3⟩ := argmin_spec (b :: l) (by simp)
    simp only [argmin]
    split
    · rename_i hle
      refine ⟨by simp, ?_, by simp⟩
      intro j hj
      cases j with
      | zero => simp
      | succ j =>
        have := h2 j (by simpa using hj)
        simp only [List.getD_cons_zero, List.getD_cons_succ] at this ⊢
        linarith
    · rename_i hle
      refine ⟨by simp only [List.length_cons] at h1 ⊢; omega, ?_, ?_⟩
      · intro j hj
        cases j with
        | zero => simp only [List.getD_cons_zero, List.getD_cons_succ]; exact (not_le.1 hle).le
        | succ j =>
          have := h2 j (by simpa using hj)
          simpa only [List.getD_cons_succ] using this
      · intro j hj
        cases j with
        | zero => simp only [List.getD_cons_zero, List.getD_cons_succ]; exact not_le.1 hle
        | succ j =>
          have := h3 j (by omega)
          simpa only [List.getD_cons_succ] using this

theorem getD_map_abs (xs : List ℚ) (b : ℚ) {i : ℕ} (h : i < xs.length) :
    (xs.map fun x => |x - b|).getD i 0 = |xs.getD i 0 - b| := by
  simp [List.getD_eq_getElem?_getD, List.getElem?_eq_getElem h]

theorem mem_borderIndices {xs borders : List ℚ} {i : ℕ} :
    i ∈ borderIndices xs borders ↔ i < xs.length ∧ ∃ b ∈ borders,
      xs.getD i 0 = xs.getD (argmin (xs.map fun x => |x - b|)) 0 := by
  simp only [borderIndices, List.mem_flatMap, List.mem_filter, List.mem_range, decide_eq_true_eq]
  constructor
  · rintro ⟨b, hb, h1, h2⟩; exact ⟨h1, b, hb, h2⟩
  · rintro ⟨h1, b, hb, h2⟩; exact ⟨b, hb, h1, h2⟩

theorem isFirstOccurrence_iff {xs : List ℚ} {i : ℕ} :
    isFirstOccurrence xs i = true ↔ ∀ j < i, xs.getD j 0 ≠ xs.getD i 0 := by
  simp [isFirstOccurrence]

/-- each index has a first occurrence of its coordinate -/
theorem exists_first (xs : List ℚ) (i : ℕ) :
    ∃ j ≤ i, xs.getD j 0 = xs.getD i 0 ∧ isFirstOccurrence xs j = true := by
  induction i using Nat.strong_induction_on with
  | _ i ih =>
    by_cases h : isFirstOccurrence xs i = true
    · exact ⟨i, le_rfl, rfl, h⟩
    · rw [isFirstOccurrence_iff] at h
      push Not at h
      obtain ⟨j, hj, he⟩ := h
      obtain ⟨k, hk, hke, hkf⟩ := ih j hj
      exact ⟨k, by omega, hke.trans he, hkf⟩

theorem mem_uniqueIndices {xs borders : List ℚ} {order : List ℕ} (h : IsArgsort xs order) {i : ℕ} :
    i ∈ uniqueIndices true true xs borders order ↔ i < xs.length ∧
      ((∀ j < i, xs.getD j 0 ≠ xs.getD i 0) ∨ ∃ b ∈ borders,
        xs.getD i 0 = xs.getD (argmin (xs.map fun x => |x - b|)) 0) := by
  simp only [uniqueIndices, Bool.and_self, if_true, List.mem_filter, Bool.or_eq_true,
    isFirstOccurrence_iff, decide_eq_true_eq, mem_borderIndices, h.1.mem_iff, List.mem_range]
  constructor
  · rintro ⟨h1, h2 | h2⟩
    · exact ⟨h1, .inl h2⟩
    · exact ⟨h1, .inr h2.2⟩
  · rintro ⟨h1, h2 | h2⟩
    · exact ⟨h1, .inl h2⟩
    · exact ⟨h1, .inr ⟨h1, h2⟩⟩

theorem uniqueIndices_sublist (dg fl : Bool) (xs borders : List ℚ) (order : List ℕ) :
    (uniqueIndices dg fl xs borders order).Sublist order := by
  unfold uniqueIndices
  split
  · exact List.filter_sublist
  · exact List.Sublist.refl _

end Festim
