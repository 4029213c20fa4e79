import Verif.Spec.Kinetics
import Mathlib.Analysis.Calculus.MeanValue
import Mathlib.Analysis.SpecialFunctions.ExpDeriv
import Mathlib.Tactic.FieldSimp
import Mathlib.Tactic.Linarith
import Mathlib.Tactic.Positivity

/-!
# The implicit Euler recursion of a linear relaxation, and the exact solution
-/

open scoped BigOperators

namespace Festim.Spec

/-- Every solution of `Y' = rate (eq - Y)` is the exponential. -/
theorem evolves_exp {eq rate : ℝ} {rhs Y : ℝ → ℝ} (hr : ∀ y, rhs y = rate * (eq - y))
    (hY : Evolves rhs Y) (t : ℝ) (ht : 0 ≤ t) :
    Y t = eq + (Y 0 - eq) * Real.exp (-(rate * t)) := by
  have hE : ∀ x : ℝ, HasDerivAt (fun s => Real.exp (rate * s)) (Real.exp (rate * x) * rate) x := by
    intro x
    have := ((hasDerivAt_id x).const_mul rate).exp
    simpa using this
  have hd : ∀ x, 0 ≤ x →
      HasDerivWithinAt (fun s => (Y s - eq) * Real.exp (rate * s)) 0 (Set.Ici 0) x := by
    intro x hx
    have h1 := ((hY x hx).sub_const eq).mul (hE x).hasDerivWithinAt
    exact h1.congr_deriv (by rw [hr]; ring)
  have hc := constant_of_has_deriv_right_zero (a := 0) (b := t)
    (f := fun s => (Y s - eq) * Real.exp (rate * s))
    (fun x hx => ((hd x hx.1).continuousWithinAt).mono fun y hy => hy.1)
    (fun x hx => (hd x hx.1).mono fun y hy => le_trans hx.1 hy) t ⟨ht, le_refl t⟩
  simp only [mul_zero, Real.exp_zero, mul_one] at hc
  have h2 : Real.exp (rate * t) * Real.exp (-(rate * t)) = 1 := by
    rw [← Real.exp_add]; simp
  have : Y t - eq = (Y 0 - eq) * Real.exp (-(rate * t)) := by
    rw [← hc, mul_assoc, h2, mul_one]
  linarith

/-- The factor of the recursion after `i` steps. -/
noncomputable def damping (rate : ℝ) (h : ℕ → ℝ) : ℕ → ℝ
  | 0 => 1
  | i + 1 => damping rate h i / (1 + rate * h i)

theorem damping_pos {rate : ℝ} {h : ℕ → ℝ} (hr : 0 < rate) (i : ℕ) (hh : ∀ j < i, 0 < h j) :
    0 < damping rate h i := by
  induction i with
  | zero => simp [damping]
  | succ i ih =>
    have := ih fun j hj => hh j (by omega)
    have h2 := hh i (by omega)
    rw [damping]
    positivity

theorem damping_le_one {rate : ℝ} {h : ℕ → ℝ} (hr : 0 < rate) (i : ℕ) (hh : ∀ j < i, 0 < h j) :
    damping rate h i ≤ 1 := by
  induction i with
  | zero => simp [damping]
  | succ i ih =>
    have h1 := ih fun j hj => hh j (by omega)
    have h2 := hh i (by omega)
    rw [damping, div_le_one (by positivity)]
    have : 0 < rate * h i := by positivity
    linarith

theorem elapsed_nonneg {h : ℕ → ℝ} (i : ℕ) (hh : ∀ j < i, 0 < h j) : 0 ≤ elapsed h i :=
  Finset.sum_nonneg fun j hj => (hh j (Finset.mem_range.1 hj)).le

theorem damping_ge {rate : ℝ} {h : ℕ → ℝ} (hr : 0 < rate) (i : ℕ) (hh : ∀ j < i, 0 < h j) :
    Real.exp (-(rate * elapsed h i)) ≤ damping rate h i := by
  induction i with
  | zero => simp [damping, elapsed]
  | succ i ih =>
    have h1 := ih fun j hj => hh j (by omega)
    have h2 := hh i (by omega)
    have h3 : 0 < rate * h i := by positivity
    rw [damping, elapsed, Finset.sum_range_succ, ← elapsed, mul_add, neg_add, Real.exp_add,
      div_eq_mul_inv]
    refine mul_le_mul h1 ?_ (Real.exp_pos _).le ((Real.exp_pos _).le.trans h1)
    rw [Real.exp_neg]
    exact inv_anti₀ (by positivity) (by linarith [Real.add_one_le_exp (rate * h i)])

theorem damping_le {rate : ℝ} {h : ℕ → ℝ} (hr : 0 < rate) (i : ℕ) (hh : ∀ j < i, 0 < h j) :
    damping rate h i ≤ 1 / (1 + rate * elapsed h i) := by
  induction i with
  | zero => simp [damping, elapsed]
  | succ i ih =>
    have h1 := ih fun j hj => hh j (by omega)
    have h2 := hh i (by omega)
    have h0 := elapsed_nonneg (h := h) i fun j hj => hh j (by omega)
    have hs : elapsed h (i + 1) = elapsed h i + h i := by
      rw [elapsed, Finset.sum_range_succ, ← elapsed]
    rw [damping, hs, div_le_div_iff₀ (by positivity) (by positivity)]
    have h3 : 0 ≤ rate * elapsed h i := by positivity
    have h4 : 0 < rate * h i := by positivity
    rw [le_div_iff₀ (by positivity)] at h1
    have hp := damping_pos (h := h) hr i fun j hj => hh j (by omega)
    have hle := damping_le_one (h := h) hr i fun j hj => hh j (by omega)
    nlinarith [mul_le_mul_of_nonneg_right hle h4.le]

theorem damping_error {rate : ℝ} {h : ℕ → ℝ} (hr : 0 < rate) (i : ℕ) (hh : ∀ j < i, 0 < h j) :
    damping rate h i - Real.exp (-(rate * elapsed h i))
      ≤ rate ^ 2 * ∑ j ∈ Finset.range i, h j ^ 2 := by
  induction i with
  | zero => simp [damping, elapsed]
  | succ i ih =>
    have h1 := ih fun j hj => hh j (by omega)
    have h2 := hh i (by omega)
    have hp := damping_pos (h := h) hr i fun j hj => hh j (by omega)
    have hle := damping_le_one (h := h) hr i fun j hj => hh j (by omega)
    have hge := damping_ge (h := h) hr i fun j hj => hh j (by omega)
    have hx : 0 < rate * h i := by positivity
    have hs : elapsed h (i + 1) = elapsed h i + h i := by
      rw [elapsed, Finset.sum_range_succ, ← elapsed]
    rw [damping, hs, mul_add, neg_add, Real.exp_add, Finset.sum_range_succ, mul_add]
    set D := damping rate h i
    set E := Real.exp (-(rate * elapsed h i))
    set x := rate * h i with hxd
    have e1 : 1 - x ≤ Real.exp (-x) := by linarith [Real.add_one_le_exp (-x)]
    have e2 : Real.exp (-x) ≤ 1 := Real.exp_le_one_iff.2 (by linarith)
    have e3 : 1 / (1 + x) ≤ 1 - x + x ^ 2 := by
      rw [div_le_iff₀ (by positivity)]
      nlinarith [pow_pos hx 3]
    have e4 : D / (1 + x) ≤ D * (1 - x + x ^ 2) := by
      rw [div_eq_mul_one_div]
      exact mul_le_mul_of_nonneg_left e3 hp.le
    have e5 : rate ^ 2 * h i ^ 2 = x ^ 2 := by rw [hxd]; ring
    rw [e5]
    have e6 : D * (1 - x) ≤ D * Real.exp (-x) := mul_le_mul_of_nonneg_left e1 hp.le
    have e7 : (D - E) * Real.exp (-x) ≤ D - E := mul_le_of_le_one_right (by linarith) e2
    have e8 : D * x ^ 2 ≤ x ^ 2 := mul_le_of_le_one_left (by positivity) hle
    nlinarith

/-- The recursion of the implicit Euler scheme. -/
theorem relax_damping {eq rate : ℝ} {h y : ℕ → ℝ} (hr : 0 < rate) (i : ℕ) (hh : ∀ j < i, 0 < h j)
    (e : ∀ j < i, (y (j + 1) - y j) / h j = rate * (eq - y (j + 1))) :
    y i - eq = (y 0 - eq) * damping rate h i := by
  induction i with
  | zero => simp [damping]
  | succ i ih =>
    have h1 := ih (fun j hj => hh j (by omega)) fun j hj => e j (by omega)
    have h2 := hh i (by omega)
    have h3 := e i (by omega)
    have hx : 0 < rate * h i := by positivity
    rw [div_eq_iff h2.ne'] at h3
    rw [damping, mul_div_assoc', ← h1, eq_div_iff (by positivity)]
    linarith

/-- The computed values and any exact solution with the same initial value. -/
theorem relax_tracks {eq rate : ℝ} {rhs Y : ℝ → ℝ} {h y : ℕ → ℝ} (hr : 0 < rate) (i : ℕ)
    (hh : ∀ j < i, 0 < h j)
    (e : ∀ j < i, (y (j + 1) - y j) / h j = rate * (eq - y (j + 1)))
    (hrhs : ∀ z, rhs z = rate * (eq - z)) (hY : Evolves rhs Y) (h0 : Y 0 = y 0) :
    TracksExact eq rate h i (y 0) (y i) (Y (elapsed h i)) := by
  have h1 := relax_damping hr i hh e
  have h2 := evolves_exp hrhs hY _ (elapsed_nonneg i hh)
  rw [h0] at h2
  have hp := damping_pos hr i hh
  have hle := damping_le_one hr i hh
  have hge := damping_ge hr i hh
  have her := damping_error hr i hh
  have hne := damping_le hr i hh
  have hE := Real.exp_pos (-(rate * elapsed h i))
  set D := damping rate h i
  set E := Real.exp (-(rate * elapsed h i))
  have hy : y i = eq + (y 0 - eq) * D := by linarith
  refine ⟨fun hb => ?_, fun hb => ?_, ?_, ?_⟩
  · rw [hy, h2]
    refine ⟨?_, ?_, ?_⟩ <;> nlinarith
  · rw [hy, h2]
    refine ⟨?_, ?_, ?_⟩ <;> nlinarith
  · have : y i - Y (elapsed h i) = (y 0 - eq) * (D - E) := by rw [hy, h2]; ring
    rw [this, abs_mul, abs_of_nonneg (a := D - E) (by linarith), mul_assoc]
    exact mul_le_mul_of_nonneg_left her (abs_nonneg _)
  · rw [h1, abs_mul, abs_of_pos hp, div_eq_mul_one_div]
    exact mul_le_mul_of_nonneg_left hne (abs_nonneg _)

end Festim.Spec
