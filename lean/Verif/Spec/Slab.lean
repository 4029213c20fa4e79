import Verif.Spec.Over
import Verif.Spec.Line

/-!
# A slab and its half

Vocabulary of C107: one-dimensional meshes symmetric about their middle.
-/

open scoped BigOperators

namespace Festim.Weak

variable {Ω : Type} [Fintype Ω]

/-- The slab whose left half is `L`: the cells of `L`, then the same in reverse order.  The right end is surface `s`. -/
noncomputable def Line.whole (L : Line Ω) (s : ℕ) (hs : L.left ≠ s) : Line (Ω ⊕ Ω) where
  N := 2 * L.N
  h i := if i < L.N then L.h i else L.h (2 * L.N - 1 - i)
  cell := Sum.elim L.cell fun p => 2 * L.N - 1 - L.cell p
  lam := Sum.elim L.lam fun p => 1 - L.lam p
  w := Sum.elim L.w L.w
  vm := Sum.elim L.vm L.vm
  left := L.left
  right := s
  vmL := L.vmL
  vmR := L.vmL
  N_pos := by have := L.N_pos; omega
  h_pos := by
    intro i hi
    split
    · exact L.h_pos i ‹_›
    · exact L.h_pos _ (by omega)
  cell_lt := by
    rintro (p | p)
    · have := L.cell_lt p; simp only [Sum.elim_inl]; omega
    · have := L.cell_lt p; simp only [Sum.elim_inr]; omega
  exact := by
    intro i hi
    rw [Finset.sum_filter, Fintype.sum_sum_type]
    show (∑ p, if L.cell p = i then L.w p else 0) + (∑ p, if 2 * L.N - 1 - L.cell p = i then L.w p else 0) =
      if i < L.N then L.h i else L.h (2 * L.N - 1 - i)
    by_cases h : i < L.N
    · rw [if_pos h, ← L.exact i h, ← Finset.sum_filter, ← Finset.sum_filter]
      have : (Finset.univ.filter fun p => 2 * L.N - 1 - L.cell p = i) = ∅ := by
        refine Finset.filter_eq_empty_iff.2 fun p _ hp => ?_
        have := L.cell_lt p
        omega
      rw [this, Finset.sum_empty, add_zero]
    · rw [if_neg h, ← L.exact (2 * L.N - 1 - i) (by omega), ← Finset.sum_filter, ← Finset.sum_filter]
      have h1 : (Finset.univ.filter fun p => L.cell p = i) = ∅ := by
        refine Finset.filter_eq_empty_iff.2 fun p _ hp => ?_
        have := L.cell_lt p
        omega
      have h2 : (Finset.univ.filter fun p => 2 * L.N - 1 - L.cell p = i) =
          Finset.univ.filter fun p => L.cell p = 2 * L.N - 1 - i := by
        refine Finset.filter_congr fun p _ => ?_
        have := L.cell_lt p
        omega
      rw [h1, h2, Finset.sum_empty, zero_add]
  ends := hs

/-- The nodal values completed by symmetry. -/
def Line.unfold (L : Line Ω) (u : ℕ → ℝ) (i : ℕ) : ℝ := if i ≤ L.N then u i else u (2 * L.N - i)

/-- The mesh of the whole slab, whose two ends have the same number, over that of its half. -/
noncomputable def slabOver (L : Line Ω) (s : ℕ) (hs : L.left ≠ s) (r : Fld Ω Bool 1) (r' : Fld (Ω ⊕ Ω) Bool 1) :
    Over (L.mesh r) { (L.whole s hs).mesh r' with sm := fun _ => L.left } where
  pt := Sum.elim id id
  ptS _ := false
  dir := Sum.elim (fun _ => LinearMap.id) fun _ => -LinearMap.id
  dir_dot := by
    rintro (p | p) a b
    · rfl
    · simp [dot]
  vm := by rintro (p | p) <;> rfl
  sm _ := rfl
  vmS := by intro q; cases q <;> rfl
  type := rfl
  r_val h := absurd rfl h
  r_grad h := absurd rfl h

/-- The test functions: piecewise affine, zero on the surfaces where the concentration is imposed (the left end of the half,
both ends of the whole). -/
def Line.tests (L : Line Ω) (imposed : Bool) (v : Fld Ω Bool 1) : Prop := ∃ x, (imposed → x 0 = 0) ∧ v = L.p1 x

def Line.wholeTests (L : Line Ω) (imposed : Bool) (v : Fld Ω Bool 1) : Prop :=
  ∃ x, (imposed → x 0 = 0 ∧ x L.N = 0) ∧ v = L.p1 x

end Festim.Weak
