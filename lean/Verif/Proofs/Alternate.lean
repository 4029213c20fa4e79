import Verif.Proofs.SteadyTraps

/-! # Piecewise affine functions orthogonal to the nodes, with a weight (C111) -/

open scoped BigOperators

set_option linter.unusedSectionVars false

namespace Festim.Weak

section
variable {Ω : Type} [Fintype Ω] {L : Line Ω}

/-- A positive weight against a function which is not negative and has a positive integral. -/
theorem weighted_pos (s : Finset Ω) (ω g : Ω → ℝ) (hω : ∀ p ∈ s, 0 < ω p) (hg : ∀ p ∈ s, 0 ≤ g p) (h : 0 < ∑ p ∈ s, g p) :
    0 < ∑ p ∈ s, ω p * g p := by
  refine Finset.sum_pos' (fun p hp => mul_nonneg (hω p hp).le (hg p hp)) ?_
  by_contra hc
  push Not at hc
  have : ∑ p ∈ s, g p ≤ 0 := Finset.sum_nonpos fun p hp => by
    have := hc p hp
    by_contra h0
    push Not at h0
    exact absurd (mul_pos (hω p hp) h0) (not_lt.2 this)
  linarith

/-- What node `j` sees. -/
theorem hat_row (L : Line Ω) (g : Ω → ℝ) (j : ℕ) (hj : 0 < j) :
    ∑ p, g p * (L.p1 (hat j)).val p
      = ∑ p ∈ Finset.univ.filter (fun p => L.cell p = j - 1), g p * L.lam p
        + ∑ p ∈ Finset.univ.filter (fun p => L.cell p = j), g p * (1 - L.lam p) := by
  rw [Finset.sum_filter, Finset.sum_filter, ← Finset.sum_add_distrib]
  refine Finset.sum_congr rfl fun p _ => ?_
  by_cases h1 : L.cell p = j - 1
  · have h2 : L.cell p ≠ j := by omega
    have h3 : L.cell p + 1 = j := by omega
    simp [Line.p1, hat, h1]
    simp [show ¬ j - 1 = j by omega, show j - 1 + 1 = j by omega]
  · by_cases h2 : L.cell p = j
    · simp [Line.p1, hat, h2, show ¬ j = j - 1 by omega]
    · have h3 : L.cell p + 1 ≠ j := by omega
      simp [Line.p1, hat, h1, h2, h3]

/-- A piecewise affine function orthogonal, with a weight which is positive from the cell `m` on, to the nodes after `m`
changes sign at each of them. -/
theorem alternates_weighted (hL : L.Exact2) (δ : ℕ → ℝ) (ω : Ω → ℝ) (m : ℕ) (hω : ∀ p, m ≤ L.cell p → 0 < ω p)
    (h : ∀ j, m < j → j ≤ L.N → ∑ p, L.w p * (ω p * (L.p1 δ).val p * (L.p1 (hat j)).val p) = 0) :
    ∀ j, m ≤ j → j < L.N → ∃ ρ : ℝ, 0 < ρ ∧ δ (j + 1) = -ρ * δ j := by
  set S : ℕ → Finset Ω := fun i => Finset.univ.filter (fun p => L.cell p = i) with hS
  set A : ℕ → ℝ := fun i => ∑ p ∈ S i, ω p * (L.w p * (1 - L.lam p) ^ 2) with hA
  set B : ℕ → ℝ := fun i => ∑ p ∈ S i, ω p * (L.w p * (L.lam p * (1 - L.lam p))) with hB
  set C : ℕ → ℝ := fun i => ∑ p ∈ S i, ω p * (L.w p * L.lam p ^ 2) with hC
  have hcell : ∀ i, m ≤ i → ∀ p ∈ S i, 0 < ω p := fun i hi p hp =>
    hω p (by rw [(Finset.mem_filter.1 hp).2]; exact hi)
  have hBpos : ∀ i, m ≤ i → i < L.N → 0 < B i := by
    intro i hi hN
    refine weighted_pos _ ω _ (hcell i hi) (fun p _ => ?_) ?_
    · have a := hL.w_nonneg p
      have b := hL.lam_nonneg p
      have c := hL.lam_le p
      exact mul_nonneg a (mul_nonneg b (by linarith))
    · have e : ∑ p ∈ S i, L.w p * (L.lam p * (1 - L.lam p)) = L.h i / 6 := by
        have : ∑ p ∈ S i, L.w p * (L.lam p * (1 - L.lam p))
            = ∑ p ∈ S i, L.w p * L.lam p - ∑ p ∈ S i, L.w p * L.lam p ^ 2 := by
          rw [← Finset.sum_sub_distrib]
          exact Finset.sum_congr rfl fun p _ => by ring
        rw [this, hL.one i hN, hL.two i hN]
        ring
      rw [e]
      have := L.h_pos i hN
      positivity
  have hCpos : ∀ i, m ≤ i → i < L.N → 0 < C i := by
    intro i hi hN
    refine weighted_pos _ ω _ (hcell i hi) (fun p _ => ?_) ?_
    · exact mul_nonneg (hL.w_nonneg p) (sq_nonneg _)
    · rw [hL.two i hN]
      have := L.h_pos i hN
      positivity
  have hquad : ∀ i, m ≤ i → ∀ x : ℝ, 0 ≤ A i - 2 * x * B i + x ^ 2 * C i := by
    intro i hi x
    have e : A i - 2 * x * B i + x ^ 2 * C i = ∑ p ∈ S i, ω p * (L.w p * ((1 - L.lam p) - x * L.lam p) ^ 2) := by
      simp only [hA, hB, hC]
      rw [Finset.mul_sum, Finset.mul_sum, ← Finset.sum_sub_distrib, ← Finset.sum_add_distrib]
      exact Finset.sum_congr rfl fun p _ => by ring
    rw [e]
    exact Finset.sum_nonneg fun p hp => mul_nonneg (hcell i hi p hp).le (mul_nonneg (hL.w_nonneg p) (sq_nonneg _))
  have row : ∀ j, m ≤ j → j < L.N → B j * δ j + C j * δ (j + 1) + (A (j + 1) * δ (j + 1) + B (j + 1) * δ (j + 2)) = 0 := by
    intro j hj hN
    have e := h (j + 1) (by omega) (by omega)
    have e' : ∑ p, L.w p * (ω p * (L.p1 δ).val p * (L.p1 (hat (j + 1))).val p)
        = ∑ p, (L.w p * (ω p * (L.p1 δ).val p)) * (L.p1 (hat (j + 1))).val p :=
      Finset.sum_congr rfl fun p _ => by ring
    rw [e', hat_row L _ (j + 1) (Nat.succ_pos j), Nat.add_sub_cancel] at e
    rw [← e]
    congr 1
    · simp only [hB, hC]
      rw [Finset.sum_mul, Finset.sum_mul, ← Finset.sum_add_distrib]
      refine Finset.sum_congr rfl fun p hp => ?_
      have hc : L.cell p = j := (Finset.mem_filter.1 hp).2
      simp only [Line.p1, hc]
      ring
    · simp only [hA, hB]
      rw [Finset.sum_mul, Finset.sum_mul, ← Finset.sum_add_distrib]
      refine Finset.sum_congr rfl fun p hp => ?_
      have hc : L.cell p = j + 1 := (Finset.mem_filter.1 hp).2
      simp only [Line.p1, hc]
      ring
  have hlast : A L.N = 0 ∧ B L.N = 0 := by
    have : S L.N = ∅ := by
      rw [Finset.eq_empty_iff_forall_notMem]
      intro p hp
      have := (Finset.mem_filter.1 hp).2
      have := L.cell_lt p
      omega
    simp [hA, hB, this]
  have main : ∀ k j, j + k + 1 = L.N → m ≤ j → ∃ ρ : ℝ, 0 < ρ ∧ ρ * C j ≤ B j ∧ δ (j + 1) = -ρ * δ j := by
    intro k
    induction k with
    | zero =>
      intro j hj hm
      have hb := hBpos j hm (by omega)
      have hc := hCpos j hm (by omega)
      have e := row j hm (by omega)
      rw [show j + 1 = L.N by omega, hlast.1, hlast.2] at e
      refine ⟨B j / C j, div_pos hb hc, by rw [div_mul_cancel₀ _ hc.ne'], ?_⟩
      rw [show j + 1 = L.N by omega]
      field_simp
      linarith
    | succ k ih =>
      intro j hj hm
      obtain ⟨ρ, h0, h1, e1⟩ := ih (j + 1) (by omega) (by omega)
      have hb := hBpos j hm (by omega)
      have hc := hCpos j hm (by omega)
      have e := row j hm (by omega)
      have hs : 0 ≤ A (j + 1) - ρ * B (j + 1) := by
        have q := hquad (j + 1) (by omega) ρ
        have : ρ ^ 2 * C (j + 1) ≤ ρ * B (j + 1) := by
          rw [sq, mul_assoc]
          exact mul_le_mul_of_nonneg_left h1 h0.le
        linarith
      have hd : 0 < C j + (A (j + 1) - ρ * B (j + 1)) := by linarith
      refine ⟨B j / (C j + (A (j + 1) - ρ * B (j + 1))), div_pos hb hd, ?_, ?_⟩
      · rw [div_mul_eq_mul_div, div_le_iff₀ hd]
        exact mul_le_mul_of_nonneg_left (by linarith) hb.le
      · rw [show j + 2 = j + 1 + 1 from rfl, e1] at e
        have : (C j + (A (j + 1) - ρ * B (j + 1))) * δ (j + 1) = -(B j * δ j) := by linarith
        have hne := hd.ne'
        rw [neg_mul, div_mul_eq_mul_div, ← neg_div, eq_div_iff hne]
        linarith
  intro j hj hN
  obtain ⟨ρ, h0, -, e⟩ := main (L.N - 1 - j) j (by omega) hj
  exact ⟨ρ, h0, e⟩

/-- The kinetic terms are the integral of something times the test function. -/
theorem trapLoop_density (m : Mesh Ω Bool 1) (mv : Mobile Ω Bool 1) (T : Temp Ω Bool 1) (t : Trap Ω Bool 1) (ms : List Mat)
    (i : ℕ) : ∃ D : Ω → ℝ, ∀ v F, trapLoop mv T t v i ms = .ok F → m.assemble F = ∑ p, m.w p * D p * v.val p := by
  induction ms generalizing i with
  | nil =>
    refine ⟨fun _ => 0, fun v F h => ?_⟩
    cases h
    simp
  | cons a ms ih =>
    obtain ⟨D, hD⟩ := ih (i + 1)
    cases hp : t.params i with
    | error e =>
      refine ⟨fun _ => 0, fun v F h => ?_⟩
      simp only [trapLoop, bind, Except.bind, hp] at h
      cases h
    | ok K =>
      refine ⟨fun p => (if m.vm p ∈ a.ids then
        -K.k * Real.exp (-K.Ek / kB / T.T.val p) * (mv.conc a T).1.val p * (K.n p - t.sol.val p)
          + K.p * Real.exp (-K.Ep / kB / T.T.val p) * t.sol.val p else 0) + D p, fun v F h => ?_⟩
      simp only [trapLoop, bind, Except.bind, hp] at h
      split_ifs at h
      cases hl : trapLoop mv T t v (i + 1) ms with
      | error e => rw [hl] at h; cases h
      | ok G =>
        rw [hl] at h
        cases h
        rw [assemble_append, hD v G hl]
        simp only [assemble_cons, assemble_nil, integrate_dxOn, volumeIn]
        rw [Finset.sum_filter, Finset.sum_filter, add_zero, ← Finset.sum_add_distrib, ← Finset.sum_add_distrib]
        refine Finset.sum_congr rfl fun p _ => ?_
        split_ifs <;> ring

end

end Festim.Weak
