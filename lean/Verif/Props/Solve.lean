import Verif.Model.Solve
import Mathlib.Analysis.Calculus.FDeriv.Add
import Mathlib.Analysis.Calculus.FDeriv.Linear
import Mathlib.Analysis.Normed.Module.FiniteDimension
import Mathlib.LinearAlgebra.Matrix.ToLin
import Mathlib.Tactic.Linarith

/-!
# C95: what one nonlinear solve returns
-/

namespace Festim.Spec

open Solve

variable {ι : Type}

/-- `g` is the value of the last condition on `i`. -/
def Imposed (bcs : List (List (ι × ℝ))) (i : ι) (g : ℝ) : Prop :=
  ∃ before after, bcs.flatten = before ++ (i, g) :: after ∧ ∀ e ∈ after, e.1 ≠ i

/-- No condition on `i`. -/
def Free (bcs : List (List (ι × ℝ))) (i : ι) : Prop := ∀ bc ∈ bcs, ∀ e ∈ bc, e.1 ≠ i

/-- The discrete problem: imposed values, and the equations of the other degrees of freedom. -/
def Solves (S : System ι) (x : ι → ℝ) : Prop :=
  (∀ i g, Imposed S.bcs i g → x i = g) ∧ ∀ i, Free S.bcs i → S.F x i = 0

/-- The Jacobian is the derivative of the residual. -/
def IsJacobian [Fintype ι] [DecidableEq ι] (S : System ι) : Prop :=
  ∀ x, HasFDerivAt S.F (LinearMap.toContinuousLinearMap (Matrix.toLin' (S.J x))) x

/-- A linear solver which solves. -/
def LinearSolver [Fintype ι] [DecidableEq ι] (lin : Matrix ι ι ℝ → (ι → ℝ) → ι → ℝ) : Prop :=
  ∀ (A : Matrix ι ι ℝ) (b : ι → ℝ), IsUnit A.det → A.mulVec (lin A b) = b

end Festim.Spec

set_option linter.unusedSectionVars false

namespace Festim.Solve

open Newton Spec

variable {ι : Type} [Fintype ι] [DecidableEq ι] {S : System ι}

theorem lookup_append_none {α : Type} [DecidableEq α] (l m : List (α × ℝ)) (i : α) (h : ∀ e ∈ l, e.1 ≠ i) :
    (l ++ m).lookup i = m.lookup i := by
  induction l with
  | nil => rfl
  | cons e l ih =>
    have he : (i == e.1) = false := by simpa using (h e (by simp)).symm
    rw [List.cons_append, List.lookup_cons, he]
    exact ih fun x hx => h x (by simp [hx])

theorem value_imposed {i : ι} {g : ℝ} (h : Imposed S.bcs i g) : S.value i = some g := by
  obtain ⟨a, b, e, hb⟩ := h
  unfold System.value
  rw [e, List.reverse_append, List.reverse_cons, List.append_assoc, lookup_append_none]
  · simp
  · intro x hx
    exact hb x (List.mem_reverse.1 hx)

theorem value_free {i : ι} (h : Free S.bcs i) : S.value i = none := by
  unfold System.value
  have := lookup_append_none S.bcs.flatten.reverse [] i (by
    intro e he
    obtain ⟨bc, hbc, hm⟩ := List.mem_flatten.1 (List.mem_reverse.1 he)
    exact h bc hbc e hm)
  rw [List.append_nil] at this
  rw [this]
  rfl

/-- Each degree of freedom is one or the other. -/
theorem imposed_or_free (bcs : List (List (ι × ℝ))) (i : ι) : (∃ g, Imposed bcs i g) ∨ Free bcs i := by
  by_cases h : Free bcs i
  · exact Or.inr h
  · left
    have hm : ∃ e ∈ bcs.flatten, e.1 = i := by
      unfold Free at h
      push Not at h
      obtain ⟨bc, hbc, e, he, hi⟩ := h
      exact ⟨e, List.mem_flatten.2 ⟨bc, hbc, he⟩, hi⟩
    suffices ∀ l : List (ι × ℝ), (∃ e ∈ l, e.1 = i) →
        ∃ g before after, l = before ++ (i, g) :: after ∧ ∀ e ∈ after, e.1 ≠ i from this _ hm
    intro l
    induction l with
    | nil => rintro ⟨e, he, _⟩; simp at he
    | cons e l ih =>
      intro hx
      by_cases hl : ∃ e ∈ l, e.1 = i
      · obtain ⟨g, a, b, h1, h2⟩ := ih hl
        exact ⟨g, e :: a, b, by rw [h1]; rfl, h2⟩
      · obtain ⟨x, hx, hi⟩ := hx
        rcases List.mem_cons.1 hx with rfl | hx
        · refine ⟨x.2, [], l, by rw [← hi]; rfl, fun y hy hyi => hl ⟨y, hy, hyi⟩⟩
        · exact absurd ⟨x, hx, hi⟩ hl

theorem value_some_iff {i : ι} {g : ℝ} : S.value i = some g ↔ Imposed S.bcs i g := by
  constructor
  · intro h
    rcases imposed_or_free S.bcs i with ⟨g', hg⟩ | hf
    · rw [value_imposed hg] at h
      rw [← Option.some.inj h]
      exact hg
    · rw [value_free hf] at h; cases h
  · exact value_imposed

/-- One iteration puts the boundary values in place. -/
theorem step_imposed {x dx : ι → ℝ} (h : (S.matrix x).mulVec dx = S.rhs x) {i : ι} {g : ℝ}
    (hg : Imposed S.bcs i g) (hc : 0 < S.cells i) : (x - dx) i = g := by
  have h1 := congrFun h i
  have hv := value_imposed hg
  unfold Matrix.mulVec dotProduct at h1
  simp only [System.matrix, System.rhs, hv, Matrix.of_apply, entry] at h1
  simp only [ite_mul, zero_mul, Finset.sum_ite_eq, Finset.mem_univ, if_true] at h1
  have hc' : (S.cells i : ℝ) ≠ 0 := by exact_mod_cast hc.ne'
  have := mul_left_cancel₀ hc' h1
  simp [this]

/-- With the boundary values in place the right-hand side is the residual. -/
theorem rhs_free {x : ι → ℝ} (hx : ∀ i g, Imposed S.bcs i g → x i = g) {i : ι} (hi : Free S.bcs i) :
    S.rhs x i = S.F x i := by
  unfold System.rhs
  rw [value_free hi]
  simp only
  rw [Finset.sum_eq_zero, sub_zero]
  intro j _
  cases hj : S.value j with
  | none => rfl
  | some g => simp only [moved, hx j g (value_some_iff.1 hj), sub_self, mul_zero]

theorem rhs_imposed {x : ι → ℝ} (hx : ∀ i g, Imposed S.bcs i g → x i = g) {i : ι} {g : ℝ}
    (hi : Imposed S.bcs i g) : S.rhs x i = 0 := by
  unfold System.rhs
  rw [value_imposed hi]
  simp [hx i g hi]

theorem norm2_nonneg (b : ι → ℝ) : 0 ≤ norm2 b := Real.sqrt_nonneg _

theorem abs_le_norm2 (b : ι → ℝ) (i : ι) : |b i| ≤ norm2 b := by
  rw [← Real.sqrt_sq_eq_abs]
  exact Real.sqrt_le_sqrt (Finset.single_le_sum (f := fun i => b i ^ 2) (fun _ _ => sq_nonneg _)
    (Finset.mem_univ i))

theorem norm2_zero_iff (b : ι → ℝ) : norm2 b = 0 ↔ ∀ i, b i = 0 := by
  constructor
  · intro h i
    have := abs_le_norm2 b i
    rw [h] at this
    exact abs_eq_zero.1 (le_antisymm this (abs_nonneg _))
  · intro h
    simp [norm2, h]

/-- The right-hand side vanishes exactly at the solutions. -/
theorem rhs_zero_iff {x : ι → ℝ} (hc : ∀ i, 0 < S.cells i) : (∀ i, S.rhs x i = 0) ↔ Solves S x := by
  constructor
  · intro h
    have hx : ∀ i g, Imposed S.bcs i g → x i = g := by
      intro i g hg
      have := h i
      unfold System.rhs at this
      rw [value_imposed hg] at this
      have hc' : (S.cells i : ℝ) ≠ 0 := by exact_mod_cast (hc i).ne'
      linarith [(mul_eq_zero.1 this).resolve_left hc']
    exact ⟨hx, fun i hi => by rw [← rhs_free hx hi]; exact h i⟩
  · intro h i
    rcases imposed_or_free S.bcs i with ⟨g, hg⟩ | hf
    · exact rhs_imposed h.1 hg
    · rw [rhs_free h.1 hf]; exact h.2 i hf

/-- What holds during the iterations. -/
theorem iterate_spec (S : System ι) {lin : Matrix ι ι ℝ → (ι → ℝ) → ι → ℝ} (hl : LinearSolver lin) (o : Opts)
    (hu : ∀ x, IsUnit (S.matrix x).det) (hc : ∀ i, 0 < S.cells i) (r0 : ℝ) (fuel it : ℕ) (x : ι → ℝ) :
    (iterate S lin o r0 fuel it x).1 ≤ it + fuel ∧ it ≤ (iterate S lin o r0 fuel it x).1 ∧
    ((iterate S lin o r0 fuel it x).2.1 = true → Small o r0 (norm2 (S.rhs (iterate S lin o r0 fuel it x).2.2))) ∧
    ((iterate S lin o r0 fuel it x).2.1 = false → (iterate S lin o r0 fuel it x).1 = it + fuel) ∧
    ((iterate S lin o r0 fuel it x).1 = it → (iterate S lin o r0 fuel it x).2.2 = x) ∧
    ((iterate S lin o r0 fuel it x).1 ≠ it ∨ (∀ i g, Imposed S.bcs i g → x i = g) →
      ∀ i g, Imposed S.bcs i g → (iterate S lin o r0 fuel it x).2.2 i = g) := by
  induction fuel generalizing it x with
  | zero =>
    unfold iterate
    split
    · rename_i h
      exact ⟨le_rfl, le_rfl, fun _ => h, by simp, fun _ => rfl, fun h => h.resolve_left (by simp)⟩
    · exact ⟨le_rfl, le_rfl, by simp, fun _ => rfl, fun _ => rfl, fun h => h.resolve_left (by simp)⟩
  | succ fuel ih =>
    unfold iterate
    split
    · rename_i h
      exact ⟨by omega, le_rfl, fun _ => h, by simp, fun _ => rfl, fun h => h.resolve_left (by simp)⟩
    · dsimp only
      obtain ⟨h1, h2, h3, h4, h5, h6⟩ := ih (it + 1) (x - lin (S.matrix x) (S.rhs x))
      refine ⟨by omega, by omega, h3, fun h => by rw [h4 h]; omega, fun h => by omega, fun _ => h6 (Or.inr ?_)⟩
      intro i g hg
      exact step_imposed (hl _ _ (hu x)) hg (hc i)

/-- The Jacobian of an affine residual. -/
theorem jacobian_affine (hJ : IsJacobian S) (K : Matrix ι ι ℝ) (f : ι → ℝ) (hF : ∀ x, S.F x = K.mulVec x - f)
    (x : ι → ℝ) : S.J x = K := by
  have h1 := hJ x
  have h2 : HasFDerivAt S.F (LinearMap.toContinuousLinearMap (Matrix.toLin' K)) x := by
    have e : S.F = fun x => LinearMap.toContinuousLinearMap (Matrix.toLin' K) x - f := by
      funext x
      rw [hF x]
      simp
    rw [e]
    exact (ContinuousLinearMap.hasFDerivAt _).sub_const f
  have h3 := h1.unique h2
  have h4 : Matrix.toLin' (S.J x) = Matrix.toLin' K := by
    have := congrArg ContinuousLinearMap.toLinearMap h3
    simpa using this
  exact Matrix.toLin'.injective h4

/-- One iteration solves an affine problem. -/
theorem step_affine (hJ : IsJacobian S) (K : Matrix ι ι ℝ) (f : ι → ℝ) (hF : ∀ x, S.F x = K.mulVec x - f)
    (hc : ∀ i, 0 < S.cells i) {x dx : ι → ℝ} (h : (S.matrix x).mulVec dx = S.rhs x) : Solves S (x - dx) := by
  have hx : ∀ i g, Imposed S.bcs i g → (x - dx) i = g := fun i g hg => step_imposed h hg (hc i)
  refine ⟨hx, ?_⟩
  intro i hi
  have h1 := congrFun h i
  have hJx := jacobian_affine hJ K f hF x
  unfold Matrix.mulVec dotProduct at h1
  simp only [System.matrix, System.rhs, value_free hi, hJx, Matrix.of_apply] at h1
  rw [hF] at h1 ⊢
  simp only [Pi.sub_apply, Matrix.mulVec, dotProduct] at h1 ⊢
  have e : ∑ j, K i j * (x j - dx j) = ∑ j, K i j * x j
      - ∑ j, (entry none (S.value j) (if i = j then (S.cells i : ℝ) else 0) (K i j) * dx j
        + moved (S.value j) (K i j) (x j)) := by
    rw [← Finset.sum_sub_distrib]
    refine Finset.sum_congr rfl fun j _ => ?_
    cases hj : S.value j with
    | none => simp only [entry, moved]; ring
    | some g =>
      have := hx j g (value_some_iff.1 hj)
      simp only [Pi.sub_apply] at this
      simp only [entry, moved]
      rw [show dx j = x j - g by linarith]
      ring
  rw [e, Finset.sum_add_distrib, h1]
  ring

end Festim.Solve

namespace Festim.Props

open Newton Solve Spec

variable {ι : Type} [Fintype ι] [DecidableEq ι]

/-- **C95 (a).** When a solve reports convergence: either no iteration was made and the field is what it was before, or
every imposed value is attained exactly (the last condition listed wins where several apply) and the residual of
every other equation is below the tolerances. -/
theorem C95_converged (S : System ι) {lin : Matrix ι ι ℝ → (ι → ℝ) → ι → ℝ} (hl : LinearSolver lin) (o : Opts)
    (hu : ∀ x, IsUnit (S.matrix x).det) (hc : ∀ i, 0 < S.cells i) (u : ι → ℝ) (n : ℕ) (x : ι → ℝ)
    (h : solveOnce S lin o u = (n, true, x)) :
    n ≤ o.maxIt ∧ (n = 0 → x = u) ∧
    (n ≠ 0 → (∀ i g, Imposed S.bcs i g → x i = g) ∧
      ∀ i, Free S.bcs i → |S.F x i| < max (o.atol : ℝ) (o.rtol * norm2 (S.rhs u))) := by
  obtain ⟨h1, -, h3, -, h5, h6⟩ := iterate_spec S hl o hu hc (norm2 (S.rhs u)) o.maxIt 0 u
  unfold solveOnce at h
  rw [h] at h1 h3 h5 h6
  refine ⟨by simpa using h1, fun hn => h5 hn, fun hn => ?_⟩
  have hx := h6 (Or.inl hn)
  refine ⟨hx, fun i hi => ?_⟩
  rw [← rhs_free hx hi]
  refine (abs_le_norm2 _ i).trans_lt ?_
  rcases h3 rfl with h | ⟨h0, h⟩
  · exact lt_max_of_lt_left h
  · refine lt_max_of_lt_right ?_
    have hp : 0 < norm2 (S.rhs u) := lt_of_le_of_ne (norm2_nonneg _) (Ne.symm h0)
    rwa [div_lt_iff₀ hp] at h

/-- **C95 (b).** A failed solve has used all its iterations. -/
theorem C95_failed (S : System ι) {lin : Matrix ι ι ℝ → (ι → ℝ) → ι → ℝ} (hl : LinearSolver lin) (o : Opts)
    (hu : ∀ x, IsUnit (S.matrix x).det) (hc : ∀ i, 0 < S.cells i) (u : ι → ℝ)
    (h : (solveOnce S lin o u).2.1 = false) : (solveOnce S lin o u).1 = o.maxIt := by
  obtain ⟨-, -, -, h4, -⟩ := iterate_spec S hl o hu hc (norm2 (S.rhs u)) o.maxIt 0 u
  exact (h4 h).trans (Nat.zero_add _)

/-- **C95 (c).** Nothing happens when the residual of the current field is below the absolute tolerance: in particular
new boundary values which differ from the old ones by less than that are not applied. -/
theorem C95_unchanged (S : System ι) (lin : Matrix ι ι ℝ → (ι → ℝ) → ι → ℝ) (o : Opts) (u : ι → ℝ)
    (h : norm2 (S.rhs u) < o.atol) : solveOnce S lin o u = (0, true, u) := by
  unfold solveOnce iterate
  rw [if_pos (show Small o _ _ from Or.inl h)]

/-- **C95 (d).** Linear problems: with a positive absolute tolerance and at least one iteration allowed the solve always
converges, in one iteration, to the exact solution of the discrete problem, unless the current field is already
accepted. -/
theorem C95_linear (S : System ι) {lin : Matrix ι ι ℝ → (ι → ℝ) → ι → ℝ} (hl : LinearSolver lin) (o : Opts)
    (hu : ∀ x, IsUnit (S.matrix x).det) (hc : ∀ i, 0 < S.cells i) (hJ : IsJacobian S)
    (hF : ∃ (K : Matrix ι ι ℝ) (f : ι → ℝ), ∀ x, S.F x = K.mulVec x - f) (ha : 0 < o.atol) (hm : 0 < o.maxIt)
    (u : ι → ℝ) :
    (Small o (norm2 (S.rhs u)) (norm2 (S.rhs u)) ∧ solveOnce S lin o u = (0, true, u)) ∨
    ∃ x, solveOnce S lin o u = (1, true, x) ∧ Solves S x := by
  by_cases h : Small o (norm2 (S.rhs u)) (norm2 (S.rhs u))
  · left
    refine ⟨h, ?_⟩
    unfold solveOnce iterate
    rw [if_pos h]
  · right
    obtain ⟨K, f, hF⟩ := hF
    have hs : Solves S (u - lin (S.matrix u) (S.rhs u)) := step_affine hJ K f hF hc (hl _ _ (hu u))
    refine ⟨_, ?_, hs⟩
    unfold solveOnce iterate
    rw [if_neg h]
    obtain ⟨m, hm'⟩ : ∃ m, o.maxIt = m + 1 := ⟨o.maxIt - 1, by omega⟩
    rw [hm']
    simp only
    unfold iterate
    rw [if_pos]
    left
    rw [(norm2_zero_iff _).2 ((rhs_zero_iff hc).2 hs)]
    exact_mod_cast ha

/-! ### Two unknowns, `2 x₀ - x₁ = 3` and `x₁ = 5` imposed (after `7`), and the default tolerances -/

namespace SolveCase

def K : Matrix (Fin 2) (Fin 2) ℝ := !![2, -1; -1, 2]

noncomputable def S : System (Fin 2) where
  F x := K.mulVec x - ![3, 0]
  J _ := K
  bcs := [[(1, 7)], [(1, 5)]]
  cells i := 1

noncomputable def o : Opts := { atol := 1 / 10, rtol := 1 / 10, maxIt := 30, linear := none, precond := "default" }

noncomputable def lin (A : Matrix (Fin 2) (Fin 2) ℝ) (b : Fin 2 → ℝ) : Fin 2 → ℝ := A⁻¹.mulVec b

theorem lin_ok : LinearSolver lin := by
  intro A b h
  rw [lin, Matrix.mulVec_mulVec, Matrix.mul_nonsing_inv A h, Matrix.one_mulVec]

theorem jac : IsJacobian S := by
  intro x
  have : S.F = fun x => LinearMap.toContinuousLinearMap (Matrix.toLin' K) x - ![3, 0] := by
    funext x
    simp [S]
  rw [this]
  exact (ContinuousLinearMap.hasFDerivAt _).sub_const _

theorem value0 : S.value 0 = none := by simp [System.value, S, List.lookup]

theorem value1 : S.value 1 = some 5 := by simp [System.value, S]

theorem regular (x : Fin 2 → ℝ) : IsUnit (S.matrix x).det := by
  rw [Matrix.det_fin_two]
  simp only [System.matrix, Matrix.of_apply, value0, value1, entry]
  simp [S, K]

theorem rhs_eq (x : Fin 2 → ℝ) : S.rhs x = ![2 * x 0 - 3 - 5, x 1 - 5] := by
  funext i
  fin_cases i
  · simp only [Fin.zero_eta, System.rhs, value0, value1, moved, Fin.sum_univ_two]
    simp [S, K, Matrix.mulVec, dotProduct, Fin.sum_univ_two]
    ring
  · simp only [Fin.mk_one, System.rhs, value1]
    simp [S]

/-- From zero: one iteration, and the solution is `(4, 5)`. -/
example : ∃ x, solveOnce S lin o 0 = (1, true, x) ∧ x 0 = 4 ∧ x 1 = 5 := by
  rcases C95_linear S lin_ok o regular (by simp [S]) jac ⟨K, ![3, 0], fun _ => rfl⟩ (by norm_num [o])
    (by norm_num [o]) 0 with ⟨h, -⟩ | ⟨x, h, hx⟩
  · exfalso
    have h8 : (8 : ℝ) ≤ norm2 (S.rhs 0) := by
      have := abs_le_norm2 (S.rhs 0) 0
      rw [rhs_eq] at this ⊢
      norm_num at this ⊢
      exact this
    rcases h with h | ⟨h0, h⟩
    · norm_num [o] at h; linarith
    · rw [div_self h0] at h; norm_num [o] at h
  · have h0 := (rhs_zero_iff (by simp [S])).2 hx
    have a := h0 0
    have b := h0 1
    rw [rhs_eq] at a b
    simp at a b
    exact ⟨x, h, by linarith, by linarith⟩

/-- From a field with the boundary value `5.05`: it is accepted, and the imposed value `5` is never applied. -/
example : solveOnce S lin o ![4, 5.05] = (0, true, ![4, 5.05]) := by
  apply C95_unchanged
  rw [rhs_eq]
  unfold norm2
  rw [Real.sqrt_lt' (by norm_num [o])]
  norm_num [Fin.sum_univ_two, o]

end SolveCase

end Festim.Props
