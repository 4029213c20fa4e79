import Verif.Props.Solve
import Mathlib.Analysis.Calculus.ContDiff.Defs
import Mathlib.Analysis.Calculus.ContDiff.Basic
import Mathlib.Analysis.Calculus.MeanValue
import Mathlib.Topology.Order.Compact
import Mathlib.Topology.MetricSpace.Contracting
import Mathlib.LinearAlgebra.Matrix.ToLinearEquiv

/-!
# Newton's method on `h⁻¹ (M x - m) + G x` for small `h`
-/

open scoped BigOperators

set_option linter.unusedSectionVars false

namespace Festim.Solve

open Newton Spec

variable {ι : Type} [Fintype ι] [DecidableEq ι] {S : System ι}

/-- One iteration solves the linearised equations. -/
theorem step_newton {x dx : ι → ℝ} (hc : ∀ i, 0 < S.cells i) (h : (S.matrix x).mulVec dx = S.rhs x) {i : ι}
    (hi : Free S.bcs i) : (S.J x).mulVec dx i = S.F x i := by
  have hx : ∀ i g, Imposed S.bcs i g → (x - dx) i = g := fun i g hg => step_imposed h hg (hc i)
  have h1 := congrFun h i
  unfold Matrix.mulVec dotProduct at h1 ⊢
  simp only [System.matrix, System.rhs, value_free hi, Matrix.of_apply] at h1
  have e : ∑ j, S.J x i j * dx j
      = ∑ j, (entry none (S.value j) (if i = j then (S.cells i : ℝ) else 0) (S.J x i j) * dx j
        + moved (S.value j) (S.J x i j) (x j)) := by
    refine Finset.sum_congr rfl fun j _ => ?_
    cases hj : S.value j with
    | none => simp only [entry, moved]; ring
    | some g =>
      have := hx j g (value_some_iff.1 hj)
      simp only [Pi.sub_apply] at this
      simp only [entry, moved]
      rw [show dx j = x j - g by linarith]
      ring
  rw [e, Finset.sum_add_distrib, h1]
  ring

/-- Vectors which vanish on the imposed degrees of freedom. -/
def Homog (bcs : List (List (ι × ℝ))) (v : ι → ℝ) : Prop := ∀ i, ¬ Free bcs i → v i = 0

/-- Matrices which are positive definite on these vectors. -/
def PosOn (bcs : List (List (ι × ℝ))) (M : Matrix ι ι ℝ) : Prop :=
  ∀ v, Homog bcs v → v ≠ 0 → 0 < ∑ i, v i * M.mulVec v i

/-- A lower bound. -/
theorem PosOn.bound {bcs : List (List (ι × ℝ))} {M : Matrix ι ι ℝ} (h : PosOn bcs M) :
    ∃ μ > 0, ∀ v, Homog bcs v → μ * ‖v‖ ^ 2 ≤ ∑ i, v i * M.mulVec v i := by
  classical
  set K : Set (ι → ℝ) := Metric.sphere 0 1 ∩ {v | Homog bcs v} with hK
  have hclosed : IsClosed {v : ι → ℝ | Homog bcs v} := by
    have : {v : ι → ℝ | Homog bcs v} = ⋂ i, ⋂ (_ : ¬ Free bcs i), {v : ι → ℝ | v i = 0} := by
      ext v; simp [Homog]
    rw [this]
    exact isClosed_iInter fun i => isClosed_iInter fun _ =>
      isClosed_eq (continuous_apply i) continuous_const
  have hcomp : IsCompact K := (isCompact_sphere 0 1).inter_right hclosed
  have hcont : Continuous fun v : ι → ℝ => ∑ i, v i * M.mulVec v i := by
    refine continuous_finsetSum _ fun i _ => (continuous_apply i).mul ?_
    unfold Matrix.mulVec dotProduct
    exact continuous_finsetSum _ fun j _ => continuous_const.mul (continuous_apply j)
  rcases K.eq_empty_or_nonempty with he | hne
  · refine ⟨1, one_pos, fun v hv => ?_⟩
    by_cases h0 : v = 0
    · subst h0; simp
    · exfalso
      have hn : ‖v‖ ≠ 0 := norm_ne_zero_iff.2 h0
      have : (‖v‖⁻¹ • v) ∈ K := by
        refine ⟨?_, fun i hi => ?_⟩
        · rw [mem_sphere_zero_iff_norm, norm_smul, norm_inv, norm_norm, inv_mul_cancel₀ hn]
        · simp [hv i hi]
      rw [he] at this
      exact this
  · obtain ⟨w, hw, hmin⟩ := hcomp.exists_isMinOn hne hcont.continuousOn
    have hw0 : w ≠ 0 := by
      intro h0
      have := hw.1
      rw [h0] at this
      simp at this
    refine ⟨∑ i, w i * M.mulVec w i, h w hw.2 hw0, fun v hv => ?_⟩
    by_cases h0 : v = 0
    · subst h0; simp
    · have hn : ‖v‖ ≠ 0 := norm_ne_zero_iff.2 h0
      have hm : (‖v‖⁻¹ • v) ∈ K := by
        refine ⟨?_, fun i hi => ?_⟩
        · rw [mem_sphere_zero_iff_norm, norm_smul, norm_inv, norm_norm, inv_mul_cancel₀ hn]
        · simp [hv i hi]
      have h1 := hmin hm
      simp only [Set.mem_ofPred_eq] at h1
      have e : ∑ i, (‖v‖⁻¹ • v) i * M.mulVec (‖v‖⁻¹ • v) i = (‖v‖ ^ 2)⁻¹ * ∑ i, v i * M.mulVec v i := by
        rw [Matrix.mulVec_smul, Finset.mul_sum]
        refine Finset.sum_congr rfl fun i _ => ?_
        simp only [Pi.smul_apply, smul_eq_mul]
        ring
      rw [e, inv_mul_eq_div, le_div_iff₀ (by positivity)] at h1
      exact h1

theorem sum_mul_le (v y : ι → ℝ) (C : ℝ) (hC : 0 ≤ C) (bcs : List (List (ι × ℝ))) (hv : Homog bcs v)
    (hy : ∀ i, Free bcs i → |y i| ≤ C) : ∑ i, v i * y i ≤ Fintype.card ι * (‖v‖ * C) := by
  calc ∑ i, v i * y i ≤ ∑ _i : ι, ‖v‖ * C := by
        refine Finset.sum_le_sum fun i _ => ?_
        by_cases hi : Free bcs i
        · calc v i * y i ≤ |v i * y i| := le_abs_self _
            _ = |v i| * |y i| := abs_mul _ _
            _ ≤ ‖v‖ * C := mul_le_mul (norm_le_pi_norm v i) (hy i hi) (abs_nonneg _) (norm_nonneg _)
        · rw [hv i hi, zero_mul]; positivity
    _ = Fintype.card ι * (‖v‖ * C) := by simp [Finset.card_univ]

/-- Solutions of the linearised equations are small with `h`. -/
theorem increment_bound {bcs : List (List (ι × ℝ))} {M : Matrix ι ι ℝ} {μ : ℝ} (hμ : 0 < μ)
    (hM : ∀ v, Homog bcs v → μ * ‖v‖ ^ 2 ≤ ∑ i, v i * M.mulVec v i) {A : (ι → ℝ) →L[ℝ] (ι → ℝ)} {K C h : ℝ}
    (hA : ‖A‖ ≤ K) (hh : 0 < h) (hsmall : 2 * (h * (Fintype.card ι * K)) ≤ μ) (hC : 0 ≤ C)
    {v : ι → ℝ} (hv : Homog bcs v) (he : ∀ i, Free bcs i → |M.mulVec v i + h * A v i| ≤ h * C) :
    ‖v‖ ≤ 2 * Fintype.card ι / μ * (h * C) := by
  have h1 := hM v hv
  have h2 := sum_mul_le v (fun i => M.mulVec v i + h * A v i) (h * C) (by positivity) bcs hv he
  have h3 := sum_mul_le v (fun i => -(h * A v i)) (h * (K * ‖v‖))
    (by have := (norm_nonneg A).trans hA; positivity) bcs hv (fun i _ => by
      rw [abs_neg, abs_mul, abs_of_pos hh]
      refine mul_le_mul_of_nonneg_left ?_ hh.le
      exact (norm_le_pi_norm (A v) i).trans ((A.le_opNorm v).trans
        (mul_le_mul_of_nonneg_right hA (norm_nonneg _))))
  have h4 : ∑ i, v i * M.mulVec v i
      = ∑ i, v i * (M.mulVec v i + h * A v i) + ∑ i, v i * -(h * A v i) := by
    rw [← Finset.sum_add_distrib]
    refine Finset.sum_congr rfl fun i _ => ?_
    ring
  have h5 : μ * ‖v‖ ^ 2 ≤ Fintype.card ι * (‖v‖ * (h * C)) + μ / 2 * ‖v‖ ^ 2 := by
    have : (Fintype.card ι : ℝ) * (‖v‖ * (h * (K * ‖v‖))) ≤ μ / 2 * ‖v‖ ^ 2 := by
      have := mul_le_mul_of_nonneg_right hsmall (sq_nonneg ‖v‖)
      nlinarith
    linarith
  rcases eq_or_lt_of_le (norm_nonneg v) with h0 | h0
  · rw [← h0]; positivity
  · have h6 : μ / 2 * ‖v‖ ≤ Fintype.card ι * (h * C) := by
      have : (μ / 2 * ‖v‖) * ‖v‖ ≤ (Fintype.card ι * (h * C)) * ‖v‖ := by nlinarith
      exact le_of_mul_le_mul_right this h0
    rw [div_mul_eq_mul_div, le_div_iff₀ hμ]
    linarith

/-- The equations of a step: `h⁻¹ (M x - m) + G x`. -/
structure StepSystem (bcs : List (List (ι × ℝ))) (M : Matrix ι ι ℝ) (m : ι → ℝ) (G : (ι → ℝ) → ι → ℝ) (h : ℝ)
    (S : System ι) : Prop where
  bcs_eq : S.bcs = bcs
  residual : ∀ x i, Free bcs i → S.F x i = h⁻¹ * (M.mulVec x i - m i) + G x i
  jacobian : ∀ x v i, Free bcs i → (S.J x).mulVec v i = h⁻¹ * M.mulVec v i + fderiv ℝ G x v i
  cells : ∀ i, 0 < S.cells i

section
variable {bcs : List (List (ι × ℝ))} {M : Matrix ι ι ℝ} {m : ι → ℝ} {G : (ι → ℝ) → ι → ℝ} {h μ : ℝ}

theorem not_free_imposed {i : ι} (h : ¬ Free bcs i) : ∃ g, Imposed bcs i g :=
  (imposed_or_free bcs i).resolve_right h

/-- The matrix of an iteration is regular for small `h`. -/
theorem StepSystem.regular (hS : StepSystem bcs M m G h S) (hμ : 0 < μ)
    (hM : ∀ v, Homog bcs v → μ * ‖v‖ ^ 2 ≤ ∑ i, v i * M.mulVec v i) {K : ℝ} (hh : 0 < h) {x : ι → ℝ}
    (hK : ‖fderiv ℝ G x‖ ≤ K) (hsmall : 2 * (h * (Fintype.card ι * K)) ≤ μ) :
    IsUnit (S.matrix x).det := by
  rw [isUnit_iff_ne_zero]
  intro hdet
  obtain ⟨v, hv0, hv⟩ := Matrix.exists_mulVec_eq_zero_iff.2 hdet
  apply hv0
  have himp : ∀ i, ¬ Free bcs i → v i = 0 := by
    intro i hi
    obtain ⟨g, hg⟩ := not_free_imposed hi
    rw [← hS.bcs_eq] at hg
    have h1 := congrFun hv i
    unfold Matrix.mulVec dotProduct at h1
    simp only [System.matrix, Matrix.of_apply, value_imposed hg, entry, Pi.zero_apply] at h1
    rw [Finset.sum_eq_single i (fun j _ hj => by simp [hj.symm]) (by simp)] at h1
    simp only [if_true] at h1
    have : (S.cells i : ℝ) ≠ 0 := by exact_mod_cast (hS.cells i).ne'
    exact (mul_eq_zero.1 h1).resolve_left this
  have hfree : ∀ i, Free bcs i → (S.J x).mulVec v i = 0 := by
    intro i hi
    have h1 := congrFun hv i
    unfold Matrix.mulVec dotProduct at h1 ⊢
    have hi' := hi
    rw [← hS.bcs_eq] at hi'
    simp only [System.matrix, Matrix.of_apply, value_free hi', Pi.zero_apply] at h1
    rw [← h1]
    refine Finset.sum_congr rfl fun j _ => ?_
    cases hj : S.value j with
    | none => rfl
    | some g =>
      have hnf : ¬ Free bcs j := by
        intro hf
        rw [← hS.bcs_eq] at hf
        rw [value_free hf] at hj
        cases hj
      rw [himp j hnf]; simp
  have hb := increment_bound hμ hM hK hh hsmall le_rfl himp (C := 0) (v := v) fun i hi => by
    have := hfree i hi
    rw [hS.jacobian x v i hi] at this
    have e : M.mulVec v i + h * fderiv ℝ G x v i = h * (h⁻¹ * M.mulVec v i + fderiv ℝ G x v i) := by
      field_simp
    rw [e, this]
    simp
  rw [mul_zero, mul_zero] at hb
  exact norm_eq_zero.1 (le_antisymm hb (norm_nonneg _))

/-- After an iteration the imposed values hold, and what remains of the other equations is the error of the
linearisation. -/
theorem StepSystem.iteration (hS : StepSystem bcs M m G h S) {x d : ι → ℝ}
    (hd : (S.matrix x).mulVec d = S.rhs x) :
    (∀ i g, Imposed bcs i g → (x - d) i = g) ∧
    (∀ i, Free bcs i → h⁻¹ * M.mulVec d i + fderiv ℝ G x d i = h⁻¹ * (M.mulVec x i - m i) + G x i) ∧
    (∀ i, Free bcs i → S.rhs (x - d) i = G (x - d) i - G x i + fderiv ℝ G x d i) ∧
    ∀ i, ¬ Free bcs i → S.rhs (x - d) i = 0 := by
  have h1 : ∀ i g, Imposed bcs i g → (x - d) i = g := by
    intro i g hg
    rw [← hS.bcs_eq] at hg
    exact step_imposed hd hg (hS.cells i)
  have h2 : ∀ i, Free bcs i →
      h⁻¹ * M.mulVec d i + fderiv ℝ G x d i = h⁻¹ * (M.mulVec x i - m i) + G x i := by
    intro i hi
    rw [← hS.jacobian x d i hi, ← hS.residual x i hi]
    exact step_newton hS.cells hd (by rw [hS.bcs_eq]; exact hi)
  have h1' : ∀ i g, Imposed S.bcs i g → (x - d) i = g := by rw [hS.bcs_eq]; exact h1
  refine ⟨h1, h2, fun i hi => ?_, fun i hi => ?_⟩
  · rw [rhs_free h1' (by rw [hS.bcs_eq]; exact hi), hS.residual _ i hi, Matrix.mulVec_sub, Pi.sub_apply]
    have := h2 i hi
    linear_combination -this
  · obtain ⟨g, hg⟩ := not_free_imposed hi
    rw [← hS.bcs_eq] at hg
    exact rhs_imposed h1' hg

/-- On a bounded set the derivative is bounded. -/
theorem fderiv_bounded (hG : ContDiff ℝ 1 G) (x : ι → ℝ) (R : ℝ) :
    ∃ K > 0, ∀ y ∈ Metric.closedBall x R, ‖fderiv ℝ G y‖ ≤ K := by
  have hc : Continuous fun y => ‖fderiv ℝ G y‖ := (hG.continuous_fderiv one_ne_zero).norm
  obtain ⟨K, hK⟩ := (isCompact_closedBall x R).exists_bound_of_continuousOn
    (f := fun y => ‖fderiv ℝ G y‖) hc.continuousOn
  refine ⟨max K 1, lt_max_of_lt_right one_pos, fun y hy => ?_⟩
  have := hK y hy
  rw [norm_norm] at this
  exact this.trans (le_max_left _ _)

theorem lipschitz_on_ball (hG : ContDiff ℝ 1 G) {x : ι → ℝ} {R K : ℝ}
    (hK : ∀ y ∈ Metric.closedBall x R, ‖fderiv ℝ G y‖ ≤ K) {y z : ι → ℝ} (hy : y ∈ Metric.closedBall x R)
    (hz : z ∈ Metric.closedBall x R) : ‖G z - G y‖ ≤ K * ‖z - y‖ :=
  (convex_closedBall x R).norm_image_sub_le_of_norm_fderiv_le
    (fun w _ => (hG.differentiable one_ne_zero).differentiableAt) hK hy hz

theorem norm2_le_of_abs_le {b : ι → ℝ} {C : ℝ} (hC : 0 ≤ C) (hb : ∀ i, |b i| ≤ C) :
    norm2 b ≤ (Fintype.card ι + 1) * C := by
  unfold norm2
  apply Real.sqrt_le_iff.2
  refine ⟨by positivity, ?_⟩
  have h1 : ∑ i, b i ^ 2 ≤ ∑ _i : ι, C ^ 2 := Finset.sum_le_sum fun i _ => by
    rw [← sq_abs]
    exact pow_le_pow_left₀ (abs_nonneg _) (hb i) 2
  rw [Finset.sum_const, Finset.card_univ, nsmul_eq_mul] at h1
  have h2 : (0 : ℝ) ≤ Fintype.card ι := Nat.cast_nonneg _
  nlinarith [mul_nonneg (mul_nonneg h2 h2) (sq_nonneg C), mul_nonneg h2 (sq_nonneg C)]

/-- If the guess, the first or the second iterate is good enough, the solve converges in at most two iterations. -/
theorem solveOnce_two (S : System ι) (lin : Matrix ι ι ℝ → (ι → ℝ) → ι → ℝ) (o : Opts) (hmax : 2 ≤ o.maxIt)
    (x : ι → ℝ)
    (h2 : ∀ x1 x2, x1 = x - lin (S.matrix x) (S.rhs x) → x2 = x1 - lin (S.matrix x1) (S.rhs x1) →
      norm2 (S.rhs x2) < o.atol) :
    ∃ n y, solveOnce S lin o x = (n, true, y) ∧ n ≤ 2 := by
  unfold solveOnce
  obtain ⟨f, hf⟩ : ∃ f, o.maxIt = f + 2 := ⟨o.maxIt - 2, by omega⟩
  rw [hf]
  by_cases h0 : Small o (norm2 (S.rhs x)) (norm2 (S.rhs x))
  · refine ⟨0, x, ?_, by omega⟩
    unfold iterate
    rw [if_pos h0]
  · unfold iterate
    rw [if_neg h0]
    dsimp only
    set x1 := x - lin (S.matrix x) (S.rhs x) with hx1
    by_cases h1 : Small o (norm2 (S.rhs x)) (norm2 (S.rhs x1))
    · refine ⟨1, x1, ?_, by omega⟩
      unfold iterate
      rw [if_pos h1]
    · unfold iterate
      rw [if_neg h1]
      dsimp only
      set x2 := x1 - lin (S.matrix x1) (S.rhs x1) with hx2
      refine ⟨2, x2, ?_, le_rfl⟩
      unfold iterate
      have hsm : Small o (norm2 (S.rhs x)) (norm2 (S.rhs x2)) := Or.inl (h2 x1 x2 rfl rfl)
      rw [if_pos hsm]

/-- For small stepsizes a solve converges in at most two iterations. -/
theorem two_iterations (hM : PosOn bcs M) (m : ι → ℝ) (hG : ContDiff ℝ 1 G) (o : Opts) (hatol : 0 < o.atol)
    (hmax : 2 ≤ o.maxIt) (x0 : ι → ℝ) :
    ∃ δ > 0, ∀ h, 0 < h → h ≤ δ → ∀ S, StepSystem bcs M m G h S → ∀ lin, LinearSolver lin →
      ∃ n y, solveOnce S lin o x0 = (n, true, y) ∧ n ≤ 2 := by
  classical
  obtain ⟨μ, hμ, hbound⟩ := hM.bound
  set N : ℝ := (Fintype.card ι : ℝ) with hN
  have hN0 : 0 ≤ N := Nat.cast_nonneg _
  -- what the first increment is on the imposed degrees of freedom
  let g : ι → ℝ := fun i => if hi : Free bcs i then 0 else x0 i - (not_free_imposed hi).choose
  set b : ι → ℝ := M.mulVec x0 - m - M.mulVec g with hb
  set c : ι → ℝ := G x0 - fderiv ℝ G x0 g with hc
  set R0 : ℝ := 2 * N / μ * (‖b‖ + ‖c‖) with hR0
  have hR00 : 0 ≤ R0 := by positivity
  set R : ℝ := R0 + ‖g‖ + 1 with hR
  have hRpos : 0 < R := by positivity
  obtain ⟨K, hK0, hK⟩ := fderiv_bounded hG x0 R
  have hx0 : x0 ∈ Metric.closedBall x0 R := Metric.mem_closedBall_self hRpos.le
  set C1 : ℝ := 2 * K * R with hC1
  have hC10 : 0 ≤ C1 := by positivity
  have hat : (0 : ℝ) < o.atol := by exact_mod_cast hatol
  -- the bound on the stepsize
  set E : ℝ := 2 * (N * K) / μ + 2 * N / μ * C1 + (N + 1) * (2 * K * (2 * N / μ * C1)) / o.atol + 1 with hE
  have hE1 : 1 ≤ E := by
    have : 0 ≤ 2 * (N * K) / μ + 2 * N / μ * C1 + (N + 1) * (2 * K * (2 * N / μ * C1)) / o.atol := by positivity
    linarith
  have hE0 : 0 < E := by linarith
  refine ⟨(2 * E)⁻¹, by positivity, ?_⟩
  intro h hh hle S hS lin hlin
  have hhE : h * E ≤ 1 / 2 := by
    have := mul_le_mul_of_nonneg_right hle hE0.le
    rw [mul_inv, mul_assoc, inv_mul_cancel₀ hE0.ne'] at this
    linarith
  have hh1 : h ≤ 1 := by nlinarith
  have t1 : h * (2 * (N * K) / μ) ≤ 1 := by
    have : 2 * (N * K) / μ ≤ E := by
      have : 0 ≤ 2 * N / μ * C1 + (N + 1) * (2 * K * (2 * N / μ * C1)) / o.atol := by positivity
      linarith
    nlinarith
  have hsmall : 2 * (h * (N * K)) ≤ μ := by
    have e : h * (2 * (N * K) / μ) = 2 * (h * (N * K)) / μ := by ring
    rw [e, div_le_one hμ] at t1
    exact t1
  have t2 : h * (2 * N / μ * C1) ≤ 1 := by
    have : 2 * N / μ * C1 ≤ E := by
      have : 0 ≤ 2 * (N * K) / μ + (N + 1) * (2 * K * (2 * N / μ * C1)) / o.atol := by positivity
      linarith
    nlinarith
  have t3 : h * ((N + 1) * (2 * K * (2 * N / μ * C1))) < o.atol := by
    have h1 : (N + 1) * (2 * K * (2 * N / μ * C1)) / o.atol ≤ E := by
      have : 0 ≤ 2 * (N * K) / μ + 2 * N / μ * C1 := by positivity
      linarith
    have h2 : h * ((N + 1) * (2 * K * (2 * N / μ * C1)) / o.atol) ≤ 1 / 2 :=
      (mul_le_mul_of_nonneg_left h1 hh.le).trans hhE
    rw [← mul_div_assoc, div_le_iff₀ hat] at h2
    linarith
  refine solveOnce_two S lin o hmax x0 ?_
  intro x1 x2 hx1 hx2
  -- first iteration
  have hreg0 := hS.regular hμ hbound hh (hK x0 hx0) hsmall
  obtain ⟨a1, a2, a3, a4⟩ := hS.iteration (hlin _ (S.rhs x0) hreg0)
  set d0 := lin (S.matrix x0) (S.rhs x0) with hd0
  rw [← hx1] at a1 a3 a4
  have hv0 : Homog bcs (d0 - g) := by
    intro i hi
    have h1 := a1 i _ (not_free_imposed hi).choose_spec
    rw [hx1, Pi.sub_apply] at h1
    have h2 : g i = x0 i - (not_free_imposed hi).choose := by
      change (if hi : Free bcs i then 0 else x0 i - (not_free_imposed hi).choose) = _
      rw [dif_neg hi]
    rw [Pi.sub_apply, h2]
    linarith
  have hv0b : ‖d0 - g‖ ≤ R0 := by
    have h1 := increment_bound hμ hbound (hK x0 hx0) hh hsmall (C := h⁻¹ * (‖b‖ + ‖c‖)) (by positivity) hv0
      (fun i hi => by
        have e : M.mulVec (d0 - g) i + h * fderiv ℝ G x0 (d0 - g) i = b i + h * c i := by
          have h2 := a2 i hi
          have h3 : M.mulVec d0 i + h * fderiv ℝ G x0 d0 i = M.mulVec x0 i - m i + h * G x0 i := by
            have := congrArg (fun z => h * z) h2
            simp only [mul_add, ← mul_assoc, mul_inv_cancel₀ hh.ne', one_mul] at this
            exact this
          rw [hb, hc, Matrix.mulVec_sub, map_sub]
          simp only [Pi.sub_apply]
          linear_combination h3
        rw [e, ← mul_assoc, mul_inv_cancel₀ hh.ne', one_mul]
        calc |b i + h * c i| ≤ |b i| + |h * c i| := abs_add_le _ _
          _ = |b i| + h * |c i| := by rw [abs_mul, abs_of_pos hh]
          _ ≤ ‖b‖ + 1 * ‖c‖ := add_le_add (norm_le_pi_norm b i)
              (mul_le_mul hh1 (norm_le_pi_norm c i) (abs_nonneg _) zero_le_one)
          _ = ‖b‖ + ‖c‖ := by ring)
    rw [← mul_assoc h, mul_inv_cancel₀ hh.ne', one_mul] at h1
    exact h1
  have hd0b : ‖d0‖ ≤ R0 + ‖g‖ := by
    calc ‖d0‖ = ‖(d0 - g) + g‖ := by rw [sub_add_cancel]
      _ ≤ ‖d0 - g‖ + ‖g‖ := norm_add_le _ _
      _ ≤ R0 + ‖g‖ := by linarith
  have hx1b : x1 ∈ Metric.closedBall x0 R := by
    rw [mem_closedBall_iff_norm, hx1, sub_sub_cancel_left, norm_neg]
    linarith
  have hlin1 : ∀ (y z d : ι → ℝ), z = y - d → y ∈ Metric.closedBall x0 R → z ∈ Metric.closedBall x0 R →
      ∀ i, |G z i - G y i + fderiv ℝ G y d i| ≤ 2 * K * ‖d‖ := by
    intro y z d hz hy hz' i
    have h1 := lipschitz_on_ball hG hK hy hz'
    have e : z - y = -d := by rw [hz]; abel
    rw [e, norm_neg] at h1
    have h2 : ‖fderiv ℝ G y d‖ ≤ K * ‖d‖ :=
      ((fderiv ℝ G y).le_opNorm d).trans (mul_le_mul_of_nonneg_right (hK y hy) (norm_nonneg _))
    calc |G z i - G y i + fderiv ℝ G y d i| ≤ |(G z - G y) i| + |fderiv ℝ G y d i| := abs_add_le _ _
      _ ≤ ‖G z - G y‖ + ‖fderiv ℝ G y d‖ := add_le_add (norm_le_pi_norm (G z - G y) i)
          (norm_le_pi_norm (fderiv ℝ G y d) i)
      _ ≤ 2 * K * ‖d‖ := by linarith
  have hr1 : ∀ i, Free bcs i → |S.rhs x1 i| ≤ C1 := by
    intro i hi
    rw [a3 i hi]
    refine (hlin1 x0 x1 d0 hx1 hx0 hx1b i).trans ?_
    have : ‖d0‖ ≤ R := by linarith
    exact mul_le_mul_of_nonneg_left this (by positivity)
  -- second iteration
  have hreg1 := hS.regular hμ hbound hh (hK x1 hx1b) hsmall
  obtain ⟨c1, c2, c3, c4⟩ := hS.iteration (hlin _ (S.rhs x1) hreg1)
  set d1 := lin (S.matrix x1) (S.rhs x1) with hd1
  rw [← hx2] at c1 c3 c4
  have hv1 : Homog bcs d1 := by
    intro i hi
    obtain ⟨g', hg'⟩ := not_free_imposed hi
    have h1 := c1 i g' hg'
    have h2 := a1 i g' hg'
    rw [hx2, Pi.sub_apply] at h1
    linarith
  have hd1b : ‖d1‖ ≤ 2 * N / μ * (h * C1) := by
    refine increment_bound hμ hbound (hK x1 hx1b) hh hsmall hC10 hv1 fun i hi => ?_
    have hres : S.rhs x1 i = h⁻¹ * (M.mulVec x1 i - m i) + G x1 i := by
      have h1' : ∀ i g, Imposed S.bcs i g → x1 i = g := by rw [hS.bcs_eq]; exact a1
      rw [rhs_free h1' (by rw [hS.bcs_eq]; exact hi), hS.residual _ i hi]
    have e : M.mulVec d1 i + h * fderiv ℝ G x1 d1 i = h * S.rhs x1 i := by
      rw [hres, ← c2 i hi]
      field_simp
    rw [e, abs_mul, abs_of_pos hh]
    exact mul_le_mul_of_nonneg_left (hr1 i hi) hh.le
  have hd1s : ‖d1‖ ≤ 1 := by
    refine hd1b.trans ?_
    have e : 2 * N / μ * (h * C1) = h * (2 * N / μ * C1) := by ring
    rw [e]
    exact t2
  have hx2b : x2 ∈ Metric.closedBall x0 R := by
    rw [mem_closedBall_iff_norm, hx2, hx1]
    have e : x0 - d0 - d1 - x0 = -(d0 + d1) := by abel
    rw [e, norm_neg]
    exact (norm_add_le _ _).trans (by linarith)
  have hr2 : ∀ i, |S.rhs x2 i| ≤ 2 * K * (2 * N / μ * (h * C1)) := by
    intro i
    by_cases hi : Free bcs i
    · rw [c3 i hi]
      exact (hlin1 x1 x2 d1 hx2 hx1b hx2b i).trans (mul_le_mul_of_nonneg_left hd1b (by positivity))
    · rw [c4 i hi, abs_zero]
      positivity
  refine (norm2_le_of_abs_le (by positivity) hr2).trans_lt ?_
  refine lt_of_eq_of_lt ?_ t3
  ring

/-- The imposed values and the equations of a step. -/
def StepSolved (bcs : List (List (ι × ℝ))) (M : Matrix ι ι ℝ) (m : ι → ℝ) (G : (ι → ℝ) → ι → ℝ) (h : ℝ)
    (x : ι → ℝ) : Prop :=
  (∀ i g, Imposed bcs i g → x i = g) ∧ ∀ i, Free bcs i → h⁻¹ * (M.mulVec x i - m i) + G x i = 0

theorem imposed_unique {i : ι} {g g' : ℝ} (h : Imposed bcs i g) (h' : Imposed bcs i g') : g = g' := by
  let S : System ι := ⟨fun _ _ => 0, fun _ => 0, bcs, fun _ => 1⟩
  have h1 : S.value i = some g := value_imposed (S := S) h
  have h2 : S.value i = some g' := value_imposed (S := S) h'
  rw [h1] at h2
  exact Option.some.inj h2

/-- Linear problems with the mass matrix. -/
theorem mass_solve (hM : PosOn bcs M) (b : ι → ℝ) :
    ∃ x, (∀ i g, Imposed bcs i g → x i = g) ∧ ∀ i, Free bcs i → M.mulVec x i = b i := by
  classical
  let A : Matrix ι ι ℝ := Matrix.of fun i j => if Free bcs i then M i j else if i = j then 1 else 0
  have hAf : ∀ i, Free bcs i → ∀ v, A.mulVec v i = M.mulVec v i := by
    intro i hi v
    unfold Matrix.mulVec dotProduct
    refine Finset.sum_congr rfl fun j _ => ?_
    simp [A, hi]
  have hAb : ∀ i, ¬ Free bcs i → ∀ v, A.mulVec v i = v i := by
    intro i hi v
    unfold Matrix.mulVec dotProduct
    simp [A, hi]
  have hu : IsUnit A.det := by
    rw [isUnit_iff_ne_zero]
    intro hdet
    obtain ⟨v, hv0, hv⟩ := Matrix.exists_mulVec_eq_zero_iff.2 hdet
    have hv1 : Homog bcs v := fun i hi => by rw [← hAb i hi v, hv]; rfl
    have := hM v hv1 hv0
    have hz : ∑ i, v i * M.mulVec v i = 0 := Finset.sum_eq_zero fun i _ => by
      by_cases hi : Free bcs i
      · rw [← hAf i hi v, hv]; simp
      · rw [hv1 i hi, zero_mul]
    linarith
  let c : ι → ℝ := fun i => if hi : Free bcs i then b i else (not_free_imposed hi).choose
  have hx : A.mulVec (A⁻¹.mulVec c) = c := by
    rw [Matrix.mulVec_mulVec, Matrix.mul_nonsing_inv _ hu, Matrix.one_mulVec]
  refine ⟨A⁻¹.mulVec c, fun i g hg => ?_, fun i hi => ?_⟩
  · have hi : ¬ Free bcs i := by
      intro hf
      obtain ⟨x, y, e, -⟩ := hg
      have : (i, g) ∈ bcs.flatten := by rw [e]; simp
      obtain ⟨l, hl, hm⟩ := List.mem_flatten.1 this
      exact hf l hl _ hm rfl
    have h1 := congrFun hx i
    rw [hAb i hi] at h1
    have h2 : c i = (not_free_imposed hi).choose := by
      change (if hi : Free bcs i then b i else (not_free_imposed hi).choose) = _
      rw [dif_neg hi]
    rw [h1, h2]
    exact imposed_unique (not_free_imposed hi).choose_spec hg
  · have h1 := congrFun hx i
    rw [hAf i hi] at h1
    rw [h1]
    change (if hi : Free bcs i then b i else (not_free_imposed hi).choose) = _
    rw [dif_pos hi]

theorem homog_sub {x y : ι → ℝ} (hx : ∀ i g, Imposed bcs i g → x i = g) (hy : ∀ i g, Imposed bcs i g → y i = g) :
    Homog bcs (x - y) := by
  intro i hi
  obtain ⟨g, hg⟩ := not_free_imposed hi
  rw [Pi.sub_apply, hx i g hg, hy i g hg, sub_self]

/-- For small stepsizes the equations of a step have exactly one solution in any large ball. -/
theorem step_solution (hM : PosOn bcs M) (m : ι → ℝ) (hG : ContDiff ℝ 1 G) :
    ∃ R0, ∀ R, R0 ≤ R → ∃ δ > 0, ∀ h, 0 < h → h ≤ δ → ∃! x, ‖x‖ ≤ R ∧ StepSolved bcs M m G h x := by
  classical
  obtain ⟨μ, hμ, hbound⟩ := hM.bound
  set N : ℝ := (Fintype.card ι : ℝ) with hN
  have hN0 : 0 ≤ N := Nat.cast_nonneg _
  obtain ⟨xs, hxs1, hxs2⟩ := mass_solve hM m
  refine ⟨‖xs‖ + 1, fun R hR => ?_⟩
  have hR0 : 0 < R := by have := norm_nonneg xs; linarith
  obtain ⟨K, hK0, hK⟩ := fderiv_bounded hG 0 R
  have hGb : ∀ y ∈ Metric.closedBall (0 : ι → ℝ) R, ‖G y‖ ≤ ‖G 0‖ + K * R := by
    intro y hy
    have h1 := lipschitz_on_ball hG hK (Metric.mem_closedBall_self hR0.le) hy
    have h2 : ‖y‖ ≤ R := by simpa using hy
    rw [sub_zero] at h1
    calc ‖G y‖ = ‖G 0 + (G y - G 0)‖ := by rw [add_sub_cancel]
      _ ≤ ‖G 0‖ + ‖G y - G 0‖ := norm_add_le _ _
      _ ≤ ‖G 0‖ + K * R := by
        have := mul_le_mul_of_nonneg_left h2 hK0.le
        linarith
  set B : ℝ := ‖G 0‖ + K * R with hB
  have hB0 : 0 ≤ B := by positivity
  set E : ℝ := 2 * N / μ * B + 2 * N / μ * K + 1 with hE
  have hE0 : 0 < E := by positivity
  refine ⟨(2 * E)⁻¹, by positivity, ?_⟩
  intro h hh hle
  have hhE : h * E ≤ 1 / 2 := by
    have := mul_le_mul_of_nonneg_right hle hE0.le
    rw [mul_inv, mul_assoc, inv_mul_cancel₀ hE0.ne'] at this
    linarith
  have hcB : 0 ≤ 2 * N / μ * B := by positivity
  have hcK : 0 ≤ 2 * N / μ * K := by positivity
  have t1 : 2 * N / μ * (h * B) ≤ 1 := by
    have : h * (2 * N / μ * B) ≤ h * E := mul_le_mul_of_nonneg_left (by linarith) hh.le
    calc 2 * N / μ * (h * B) = h * (2 * N / μ * B) := by ring
      _ ≤ 1 := by linarith
  have t2 : 2 * N / μ * (h * K) ≤ 1 / 2 := by
    have : h * (2 * N / μ * K) ≤ h * E := mul_le_mul_of_nonneg_left (by linarith) hh.le
    calc 2 * N / μ * (h * K) = h * (2 * N / μ * K) := by ring
      _ ≤ 1 / 2 := by linarith
  -- differences of solutions of the mass problem
  have hdiff : ∀ (v : ι → ℝ) (C : ℝ), 0 ≤ C → Homog bcs v → (∀ i, Free bcs i → |M.mulVec v i| ≤ h * C) →
      ‖v‖ ≤ 2 * N / μ * (h * C) := by
    intro v C hC hv hb
    refine increment_bound (A := 0) (K := 0) hμ hbound (by simp) hh (by simpa using hμ.le) hC hv fun i hi => ?_
    simpa using hb i hi
  choose T hT1 hT2 using fun y : ι → ℝ => mass_solve hM (fun i => m i - h * G y i)
  have hTball : Set.MapsTo T (Metric.closedBall 0 R) (Metric.closedBall 0 R) := by
    intro y hy
    have h1 := hdiff (T y - xs) B hB0 (homog_sub (hT1 y) hxs1) fun i hi => by
      rw [Matrix.mulVec_sub, Pi.sub_apply, hT2 y i hi, hxs2 i hi]
      have e : m i - h * G y i - m i = -(h * G y i) := by ring
      rw [e, abs_neg, abs_mul, abs_of_pos hh]
      exact mul_le_mul_of_nonneg_left ((norm_le_pi_norm (G y) i).trans (hGb y hy)) hh.le
    rw [mem_closedBall_zero_iff]
    calc ‖T y‖ = ‖(T y - xs) + xs‖ := by rw [sub_add_cancel]
      _ ≤ ‖T y - xs‖ + ‖xs‖ := norm_add_le _ _
      _ ≤ R := by linarith
  have hTlip : ∀ y ∈ Metric.closedBall (0 : ι → ℝ) R, ∀ z ∈ Metric.closedBall (0 : ι → ℝ) R,
      ‖T y - T z‖ ≤ 1 / 2 * ‖y - z‖ := by
    intro y hy z hz
    have h1 := hdiff (T y - T z) (K * ‖y - z‖) (by positivity) (homog_sub (hT1 y) (hT1 z)) fun i hi => by
      rw [Matrix.mulVec_sub, Pi.sub_apply, hT2 y i hi, hT2 z i hi]
      have e : m i - h * G y i - (m i - h * G z i) = -(h * (G y - G z) i) := by
        rw [Pi.sub_apply]; ring
      rw [e, abs_neg, abs_mul, abs_of_pos hh]
      exact mul_le_mul_of_nonneg_left ((norm_le_pi_norm (G y - G z) i).trans
        (lipschitz_on_ball hG hK hz hy)) hh.le
    calc ‖T y - T z‖ ≤ 2 * N / μ * (h * (K * ‖y - z‖)) := h1
      _ = 2 * N / μ * (h * K) * ‖y - z‖ := by ring
      _ ≤ 1 / 2 * ‖y - z‖ := mul_le_mul_of_nonneg_right t2 (norm_nonneg _)
  have hsolved : ∀ x, StepSolved bcs M m G h x ↔ T x = x := by
    intro x
    constructor
    · rintro ⟨h1, h2⟩
      have h3 := hdiff (T x - x) 0 le_rfl (homog_sub (hT1 x) h1) fun i hi => by
        rw [Matrix.mulVec_sub, Pi.sub_apply, hT2 x i hi]
        have := h2 i hi
        have e : m i - h * G x i - M.mulVec x i = -(h * (h⁻¹ * (M.mulVec x i - m i) + G x i)) := by
          field_simp
          ring
        rw [e, this]
        simp
      rw [mul_zero, mul_zero] at h3
      exact sub_eq_zero.1 (norm_eq_zero.1 (le_antisymm h3 (norm_nonneg _)))
    · intro hx
      refine ⟨fun i g hg => ?_, fun i hi => ?_⟩
      · have := hT1 x i g hg
        rwa [hx] at this
      · have := hT2 x i hi
        rw [hx] at this
        rw [this]
        field_simp
        ring
  have hcontr : ContractingWith (1 / 2) (hTball.restrict T _ _) := by
    refine ⟨by rw [← NNReal.coe_lt_coe]; norm_num, LipschitzWith.of_dist_le_mul fun y z => ?_⟩
    have := hTlip y y.2 z z.2
    rw [Subtype.dist_eq, dist_eq_norm, Subtype.dist_eq, dist_eq_norm]
    simpa using this
  obtain ⟨x, hx, hfix, -⟩ := ContractingWith.exists_fixedPoint' Metric.isClosed_closedBall.isComplete hTball hcontr
    (x := 0) (Metric.mem_closedBall_self hR0.le) (edist_ne_top _ _)
  refine ⟨x, ⟨by simpa using hx, (hsolved x).2 hfix⟩, ?_⟩
  rintro y ⟨hy1, hy2⟩
  have h1 := hTlip y (by simpa using hy1) x hx
  rw [(hsolved y).1 hy2, hfix] at h1
  have : ‖y - x‖ = 0 := by have := norm_nonneg (y - x); linarith
  exact sub_eq_zero.1 (norm_eq_zero.1 this)

end

end Festim.Solve
