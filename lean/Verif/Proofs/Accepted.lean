import Verif.Proofs.Accuracy
import Verif.Props.SolveLine

/-!
# Steps accepted without iterating

The solver does not iterate if the residual of the field it starts from is below the absolute tolerance.  How far that
field is from the solution of the step.
-/

open scoped BigOperators

namespace Festim.Weak

open Solve Spec

variable {Ω : Type} [Fintype Ω] {L : Line Ω} {cap : ℕ → ℝ}

theorem p1_sub_val (L : Line Ω) (u v : ℕ → ℝ) (p : Ω) : (L.p1 (u - v)).val p = (L.p1 u).val p - (L.p1 v).val p := by
  simp only [Line.p1, Pi.sub_apply]
  ring

theorem p1_sub_tr (L : Line Ω) (u v : ℕ → ℝ) (q : Bool) : (L.p1 (u - v)).tr q = (L.p1 u).tr q - (L.p1 v).tr q := by
  simp only [p1_node, Pi.sub_apply]

theorem energy_congr (L : Line Ω) (cap : ℕ → ℝ) {u v : ℕ → ℝ} (h : ∀ i ≤ L.N, u i = v i) :
    L.energy cap u = L.energy cap v := by
  unfold Line.energy
  rw [p1_congr L h]

theorem energy_add_le (hL : L.Exact2) (hcap : ∀ i < L.N, 0 < cap i) (u v : ℕ → ℝ) :
    L.energy cap (u + v) ≤ L.energy cap u + L.energy cap v := by
  refine abs_le_of_sq_le_sq' ?_ (add_nonneg (Real.sqrt_nonneg _) (Real.sqrt_nonneg _)) |>.2
  have h := energy_inner L hL hcap u v
  change L.energy cap (u + v) ^ 2 ≤ (L.energy cap u + L.energy cap v) ^ 2
  rw [add_sq, energy_sq L hL hcap, energy_sq L hL hcap, energy_sq L hL hcap]
  have e : ∑ p, L.w p * (cap (L.cell p) * (L.p1 (u + v)).val p ^ 2)
      = ∑ p, L.w p * (cap (L.cell p) * (L.p1 u).val p ^ 2)
        + 2 * ∑ p, L.w p * (cap (L.cell p) * ((L.p1 u).val p * (L.p1 v).val p))
        + ∑ p, L.w p * (cap (L.cell p) * (L.p1 v).val p ^ 2) := by
    rw [Finset.mul_sum, ← Finset.sum_add_distrib, ← Finset.sum_add_distrib]
    refine Finset.sum_congr rfl fun p _ => ?_
    rw [p1_val_add]
    ring
  rw [e, mul_assoc]
  linarith

/-- `√ ∫ cap`. -/
noncomputable def Line.mass (L : Line Ω) (cap : ℕ → ℝ) : ℝ := √(∑ i ∈ Finset.range L.N, L.h i * cap i)

theorem content_cells (L : Line Ω) (cap : ℕ → ℝ) :
    ∑ p, L.w p * cap (L.cell p) = ∑ i ∈ Finset.range L.N, L.h i * cap i := by
  rw [cells_sum]
  refine Finset.sum_congr rfl fun i hi => ?_
  rw [← L.exact i (Finset.mem_range.1 hi), Finset.sum_mul]
  refine Finset.sum_congr rfl fun p hp => ?_
  rw [(Finset.mem_filter.1 hp).2]

theorem energy_sup (hL : L.Exact2) (hcap : ∀ i < L.N, 0 < cap i) {v : ℕ → ℝ} {a : ℝ} (ha : 0 ≤ a)
    (hv : ∀ i ≤ L.N, |v i| ≤ a) : L.energy cap v ≤ a * L.mass cap := by
  unfold Line.energy Line.mass
  rw [← content_cells, Real.sqrt_le_left (mul_nonneg ha (Real.sqrt_nonneg _)), mul_pow, Real.sq_sqrt
    (Finset.sum_nonneg fun p _ => mul_nonneg (hL.w_nonneg p) (hcap _ (L.cell_lt p)).le), Finset.mul_sum]
  refine Finset.sum_le_sum fun p _ => ?_
  have hb : |(L.p1 v).val p| ≤ a := by
    have h1 := hv _ (L.cell_lt p).le
    have h2 := hv _ (L.cell_lt p)
    have h3 := hL.lam_nonneg p
    have h4 := hL.lam_le p
    simp only [Line.p1]
    rw [abs_le] at *
    constructor <;> nlinarith [h1.1, h1.2, h2.1, h2.2]
  have h5 : (L.p1 v).val p ^ 2 ≤ a ^ 2 := sq_le_sq' (abs_le.1 hb).1 (abs_le.1 hb).2
  have h6 := mul_le_mul_of_nonneg_left h5 (mul_nonneg (hL.w_nonneg p) (hcap _ (L.cell_lt p)).le)
  linarith

/-- The sum of the squares of the nodal values. -/
theorem sum_sq_le (hL : L.Exact2) (hcap : ∀ i < L.N, 0 < cap i) {μ : ℝ} (hμ : 0 < μ)
    (hm : ∀ i < L.N, μ ≤ cap i * L.h i) (v : ℕ → ℝ) :
    ∑ i : Fin (L.N + 1), v i ^ 2 ≤ 6 / μ * L.energy cap v ^ 2 := by
  rw [energy_sq L hL hcap, energy_cells L hL, Fin.sum_univ_eq_sum_range (fun i => v i ^ 2) (L.N + 1),
    Finset.sum_range_succ]
  have h1 : ∑ i ∈ Finset.range L.N, (v i ^ 2 + v (i + 1) ^ 2) * (μ / 6)
      ≤ ∑ i ∈ Finset.range L.N, cap i * (L.h i * (v i ^ 2 + v i * v (i + 1) + v (i + 1) ^ 2) / 3) := by
    refine Finset.sum_le_sum fun i hi => ?_
    have hi := Finset.mem_range.1 hi
    have h2 := hm i hi
    have h3 : (v i ^ 2 + v (i + 1) ^ 2) / 2 ≤ v i ^ 2 + v i * v (i + 1) + v (i + 1) ^ 2 := by
      nlinarith [sq_nonneg (v i + v (i + 1))]
    have h4 : 0 ≤ v i ^ 2 + v (i + 1) ^ 2 := by positivity
    calc (v i ^ 2 + v (i + 1) ^ 2) * (μ / 6) = μ * ((v i ^ 2 + v (i + 1) ^ 2) / 2) / 3 := by ring
      _ ≤ cap i * L.h i * ((v i ^ 2 + v (i + 1) ^ 2) / 2) / 3 := by gcongr
      _ ≤ cap i * L.h i * (v i ^ 2 + v i * v (i + 1) + v (i + 1) ^ 2) / 3 := by
          have := mul_pos (hcap i hi) (L.h_pos i hi)
          gcongr
      _ = _ := by ring
  rw [← Finset.sum_mul, Finset.sum_add_distrib] at h1
  have h2 : v L.N ^ 2 ≤ ∑ i ∈ Finset.range L.N, v (i + 1) ^ 2 := by
    have hN := L.N_pos
    have := Finset.single_le_sum (f := fun i => v (i + 1) ^ 2) (s := Finset.range L.N) (fun i _ => sq_nonneg _)
      (Finset.mem_range.2 (Nat.sub_lt hN one_pos))
    rwa [show L.N - 1 + 1 = L.N from Nat.sub_add_cancel hN] at this
  rw [div_mul_eq_mul_div, le_div_iff₀ hμ]
  nlinarith

section
variable {S : System (Fin (L.N + 1))} {α K : Ω → ℝ} {β : Bool → ℝ} {f : Ω → ℝ} {g : Bool → ℝ}
  {dir : Bool → Prop} {val : Bool → ℝ}

/-- A field `u` whose residual is below `a`, and the solution `x` of the step. -/
theorem accepted_close (hL : L.Exact2) (hcap : ∀ i < L.N, 0 < cap i) {μ k a : ℝ} (hμ : 0 < μ) (hk : 0 < k)
    (hm : ∀ i < L.N, μ ≤ cap i * L.h i) (hα : ∀ p, cap (L.cell p) / k ≤ α p) (hK : ∀ p, 0 ≤ K p) (hβ : ∀ q, 0 ≤ β q)
    (hJ : IsJacobian S) (hcell : ∀ i, 0 < S.cells i) (hd : EndValues L S dir val)
    (hF : ∀ x (j : Fin (L.N + 1)), S.F x j = bil L α K β (extend L.N x) (hat j) - lin L f g (hat j))
    {u : Fin (L.N + 1) → ℝ} (hu : norm2 (S.rhs u) ≤ a) {x : ℕ → ℝ} (hx : ∀ q, dir q → (L.p1 x).tr q = val q)
    (hsol : ∀ v : ℕ → ℝ, (∀ q, dir q → (L.p1 v).tr q = 0) → bil L α K β x v = lin L f g v) :
    L.energy cap (extend L.N u - x) ≤ a * (L.mass cap + k * √(6 / μ)) := by
  have ha : 0 ≤ a := (Real.sqrt_nonneg _).trans hu
  have hsum : ∑ i, S.rhs u i ^ 2 ≤ a ^ 2 := (Real.sqrt_le_left ha).1 hu
  have hri : ∀ i, |S.rhs u i| ≤ a := fun i => by
    refine abs_le_of_sq_le_sq ?_ ha
    exact (Finset.single_le_sum (f := fun i => S.rhs u i ^ 2) (fun i _ => sq_nonneg _) (Finset.mem_univ i)).trans hsum
  set ut : Fin (L.N + 1) → ℝ := fun i => (S.value i).getD (u i) with hut
  have hJu := jacobian_affine hJ _ _ (affine_of_bil hF) u
  -- the residual of the free nodes is that of `ut`
  have hfree : ∀ i, Free S.bcs i → S.F ut i = S.rhs u i := by
    intro i hi
    simp only [System.rhs, value_free hi]
    rw [affine_of_bil hF ut, affine_of_bil hF u, hJu]
    simp only [Pi.sub_apply, Matrix.mulVec, dotProduct]
    rw [sub_right_comm, ← Finset.sum_sub_distrib]
    congr 1
    refine Finset.sum_congr rfl fun j _ => ?_
    cases hj : S.value j with
    | none => simp [moved, hut, hj]
    | some v => simp only [moved, hut, hj, Option.getD_some]; ring
  set z : ℕ → ℝ := extend L.N ut - x with hz
  have hzd : ∀ q, dir q → (L.p1 z).tr q = 0 := by
    intro q hq
    rw [hz, p1_sub_tr, tr_extend, hx q hq]
    simp [hut, value_imposed (hd.imposed q hq)]
  have hbil : bil L α K β z z = ∑ i : Fin (L.N + 1), z i * S.rhs u i := by
    have e1 : bil L α K β z z = bil L α K β (extend L.N ut) z - lin L f g z := by
      rw [← hsol z hzd]
      exact bil_sub L α K β _ _ _
    rw [e1, ← bil_congr L α K β (u := extend L.N ut) rfl (restrict_extend L z),
      ← lin_congr L f g (restrict_extend L z), bil_symm, bil_expand, lin_expand, ← Finset.sum_sub_distrib]
    refine Finset.sum_congr rfl fun i _ => ?_
    by_cases hi : ∀ q, dir q → i ≠ endNode L q
    · rw [← hfree i (hd.free i hi), hF, bil_symm]
      ring
    · push Not at hi
      obtain ⟨q, hq, rfl⟩ := hi
      have := hzd q hq
      rw [← restrict_extend L z, tr_extend] at this
      rw [this]
      ring
  have hlow : L.energy cap z ^ 2 / k ≤ bil L α K β z z := by
    rw [energy_sq L hL hcap]
    unfold bil
    have hb : 0 ≤ ∑ q, β q * ((L.p1 z).tr q * (L.p1 z).tr q) :=
      Finset.sum_nonneg fun q _ => mul_nonneg (hβ q) (mul_self_nonneg _)
    refine le_trans ?_ (le_add_of_nonneg_right hb)
    rw [Finset.sum_div]
    refine Finset.sum_le_sum fun p _ => ?_
    have a1 : 0 ≤ K p * ((L.p1 z).grad p 0 * (L.p1 z).grad p 0) := mul_nonneg (hK p) (mul_self_nonneg _)
    rw [mul_div_assoc]
    refine mul_le_mul_of_nonneg_left ?_ (hL.w_nonneg p)
    have a2 := mul_le_mul_of_nonneg_right (hα p) (mul_self_nonneg ((L.p1 z).val p))
    have : cap (L.cell p) * (L.p1 z).val p ^ 2 / k
        = cap (L.cell p) / k * ((L.p1 z).val p * (L.p1 z).val p) := by ring
    rw [this]
    linarith
  have hE0 : 0 ≤ L.energy cap z := Real.sqrt_nonneg _
  have hup : ∑ i : Fin (L.N + 1), z i * S.rhs u i ≤ √(6 / μ) * L.energy cap z * a := by
    refine abs_le_of_sq_le_sq' ?_ (mul_nonneg (mul_nonneg (Real.sqrt_nonneg _) hE0) ha) |>.2
    have h1 := Finset.sum_sq_le_sum_mul_sum_of_sq_le_mul Finset.univ (r := fun i : Fin (L.N + 1) => z i * S.rhs u i)
      (f := fun i => z i ^ 2) (g := fun i => S.rhs u i ^ 2) (fun i _ => sq_nonneg _) (fun i _ => sq_nonneg _)
      (fun i _ => (mul_pow _ _ _).le)
    refine h1.trans ?_
    rw [mul_pow, mul_pow, Real.sq_sqrt (by positivity)]
    exact mul_le_mul (sum_sq_le hL hcap hμ hm z) hsum (Finset.sum_nonneg fun i _ => sq_nonneg _) (by positivity)
  have hz1 : L.energy cap z ≤ a * (k * √(6 / μ)) := by
    have h1 : L.energy cap z ^ 2 / k ≤ √(6 / μ) * L.energy cap z * a := hlow.trans (hbil.le.trans hup)
    rw [div_le_iff₀ hk] at h1
    rcases hE0.eq_or_lt with h0 | h0
    · rw [← h0]; positivity
    · have h2 : L.energy cap z * L.energy cap z ≤ L.energy cap z * (a * (k * √(6 / μ))) := by
        calc _ = L.energy cap z ^ 2 := by ring
          _ ≤ _ := h1
          _ = _ := by ring
      exact le_of_mul_le_mul_left h2 h0
  have hdiff : ∀ i : Fin (L.N + 1), |u i - ut i| ≤ a := by
    intro i
    cases hv : S.value i with
    | none => simp [hut, hv, ha]
    | some v =>
      have h1 := hri i
      simp only [System.rhs, hv, abs_mul, Nat.abs_cast] at h1
      simp only [hut, hv, Option.getD_some]
      refine le_trans ?_ h1
      have : (1 : ℝ) ≤ S.cells i := by exact_mod_cast hcell i
      exact le_mul_of_one_le_left (abs_nonneg _) this
  have h2 : L.energy cap (extend L.N u - extend L.N ut) ≤ a * L.mass cap := by
    refine energy_sup hL hcap ha fun i hi => ?_
    have := hdiff ⟨i, Nat.lt_succ_of_le hi⟩
    simpa [extend, Nat.lt_succ_of_le hi] using this
  have h3 := energy_add_le hL hcap (extend L.N u - extend L.N ut) z
  rw [show extend L.N u - extend L.N ut + z = extend L.N u - x by rw [hz]; abel] at h3
  linarith

end

end Festim.Weak
