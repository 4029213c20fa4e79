import Verif.Spec.SteadyAccuracy
import Verif.Proofs.Accuracy

/-!
# Errors of steady solutions, in the maximum norm
-/

open scoped BigOperators

namespace Festim.Weak

section
variable {Ω : Type} [Fintype Ω] {L : Line Ω} {x0 : ℝ} {K r : ℕ → ℝ} {f : ℕ → ℝ → ℝ} {w : ℝ → ℝ} {slope curv : ℕ → ℝ → ℝ}
  {Mr Mx : ℝ}

theorem bil_cells (L : Line Ω) (K r : ℕ → ℝ) (β : Bool → ℝ) (u v : ℕ → ℝ) :
    bil L (fun p => r (L.cell p)) (fun p => K (L.cell p)) β u v
      = ∑ p, L.w p * (r (L.cell p) * ((L.p1 u).val p * (L.p1 v).val p))
        + ∑ i ∈ Finset.range L.N, K i * ((u (i + 1) - u i) * (v (i + 1) - v i) / L.h i)
        + ∑ q, β q * ((L.p1 u).tr q * (L.p1 v).tr q) := by
  have hgrad : ∑ p, L.w p * (K (L.cell p) * ((L.p1 u).grad p 0 * (L.p1 v).grad p 0))
      = ∑ i ∈ Finset.range L.N, K i * ((u (i + 1) - u i) * (v (i + 1) - v i) / L.h i) := by
    rw [cells_sum]
    refine Finset.sum_congr rfl fun i hi => ?_
    have hi := Finset.mem_range.1 hi
    have hh := (L.h_pos i hi).ne'
    have e : ∀ p ∈ Finset.univ.filter (fun p => L.cell p = i),
        L.w p * (K (L.cell p) * ((L.p1 u).grad p 0 * (L.p1 v).grad p 0))
          = L.w p * (K i * ((u (i + 1) - u i) / L.h i * ((v (i + 1) - v i) / L.h i))) := by
      intro p hp
      simp only [Line.p1, (Finset.mem_filter.1 hp).2]
    rw [Finset.sum_congr rfl e, ← Finset.sum_mul, L.exact i hi]
    field_simp
  unfold bil
  rw [← hgrad, ← Finset.sum_add_distrib]
  congr 1
  exact Finset.sum_congr rfl fun p _ => by ring

theorem p1_abs_le (hL : L.Exact2) {v : ℕ → ℝ} {M : ℝ} (hv : ∀ i ≤ L.N, |v i| ≤ M) (p : Ω) : |(L.p1 v).val p| ≤ M := by
  have h1 := abs_le.1 (hv _ (L.cell_lt p).le)
  have h2 := abs_le.1 (hv _ (L.cell_lt p))
  have h3 := hL.lam_nonneg p
  have h4 := sub_nonneg.2 (hL.lam_le p)
  have k1 := mul_le_mul_of_nonneg_left h1.1 h4
  have k2 := mul_le_mul_of_nonneg_left h1.2 h4
  have k3 := mul_le_mul_of_nonneg_left h2.1 h3
  have k4 := mul_le_mul_of_nonneg_left h2.2 h3
  simp only [Line.p1]
  rw [abs_le]
  constructor <;> linarith

theorem total_weight (L : Line Ω) : ∑ p, L.w p = L.extent := by
  have h := cells_sum (L := L) (fun _ => (1 : ℝ))
  simp only [mul_one] at h
  rw [h]
  exact Finset.sum_congr rfl fun i hi => L.exact i (Finset.mem_range.1 hi)

theorem extent_pos (L : Line Ω) : 0 < L.extent :=
  Finset.sum_pos (fun i hi => L.h_pos i (Finset.mem_range.1 hi)) ⟨0, Finset.mem_range.2 L.N_pos⟩

theorem size_energy_le (hL : L.Exact2) {v : ℕ → ℝ} {M : ℝ} (hv : ∀ i ≤ L.N, |v i| ≤ M) :
    (L.size fun _ => 1) * L.energy (fun _ => 1) v ≤ L.extent * M := by
  have hM : 0 ≤ M := (abs_nonneg _).trans (hv 0 (Nat.zero_le _))
  have h1 : (L.size fun _ => 1) = √L.extent := by
    simp [Line.size, Line.extent]
  have h2 : L.energy (fun _ => 1) v ≤ √(L.extent * M ^ 2) := by
    refine Real.sqrt_le_sqrt ?_
    rw [← total_weight L, Finset.sum_mul]
    refine Finset.sum_le_sum fun p _ => mul_le_mul_of_nonneg_left ?_ (hL.w_nonneg p)
    rw [one_mul, ← sq_abs]
    exact pow_le_pow_left₀ (abs_nonneg _) (p1_abs_le hL hv p) 2
  rw [h1]
  refine (mul_le_mul_of_nonneg_left h2 (Real.sqrt_nonneg _)).trans (le_of_eq ?_)
  rw [Real.sqrt_mul (extent_pos L).le, Real.sqrt_sq hM, ← mul_assoc, Real.mul_self_sqrt (extent_pos L).le]

/-- The exact solution satisfies the discrete equation up to a small error. -/
theorem steady_consistency (hL : L.Exact2) (hw : Balances L x0 K r f w slope curv) (hM : BalancesBy L x0 K r w curv Mr Mx)
    {H ε : ℝ} (hH : ∀ i < L.N, L.h i ≤ H) {given : Ω → ℝ} (hf : ∀ p, |given p - f (L.cell p) (L.pos x0 p)| ≤ ε)
    {g β : Bool → ℝ} {dir : Bool → Prop} (hend : ∀ q, ¬ dir q → K (L.endCell q) * slope (L.endCell q) (L.node x0 (L.endNo q))
      * Line.normal q 0 = g q - β q * w (L.node x0 (L.endNo q))) {v : ℕ → ℝ} (hv : ∀ q, dir q → (L.p1 v).tr q = 0) {M : ℝ}
    (hvM : ∀ i ≤ L.N, |v i| ≤ M) :
    |lin L given g v - bil L (fun p => r (L.cell p)) (fun p => K (L.cell p)) β (L.nodal x0 w) v|
      ≤ (H ^ 2 / 8 * (Mr + 3 * Mx) + ε) * (L.extent * M) := by
  have hD : Diffuses L x0 1 (fun _ => 1) (fun _ => K) (fun _ => r) (fun _ => f) (fun _ => w) (fun _ => slope) (fun _ => curv)
      (fun _ _ => 0) :=
    ⟨fun _ _ => hw.hasSlope, fun _ _ => hw.hasCurv, fun _ _ _ _ _ _ => hasDerivWithinAt_const _ _ _,
      fun _ _ i hi x hx => by linarith [hw.equation i hi x hx], fun _ _ => hw.flux⟩
  have hB : ∀ i, Bend (fun _ => (1 : ℝ) * 0) (L.span x0 i) 0 := fun i =>
    ⟨fun _ => 0, fun _ _ => hasDerivWithinAt_const _ _ _, by simp⟩
  have hS : SmoothBy L x0 1 (fun _ => 1) (fun _ => K) (fun _ => r) (fun _ => w) (fun _ => curv) (fun _ _ => 0) 0 0 Mr Mx :=
    ⟨by simp, fun _ _ i _ => hB i, fun _ _ i hi => by simpa using hM.bendDecay i hi, fun _ _ => hM.bendCurv⟩
  have h := consistency hL (fun _ _ => one_pos) hD hS (s := 0) (t := 1) le_rfl one_pos le_rfl hH hf (g := g) (β := β)
    (dir := dir) (fun q hq => hend q hq) v hv
  have e : lin L (fun p => 1 * (L.p1 (L.nodal x0 w)).val p / (1 - 0) + given p) g v
      - bil L (fun p => (1 / (1 - 0) + r (L.cell p)) * 1) (fun p => K (L.cell p)) β (L.nodal x0 w) v
      = lin L given g v - bil L (fun p => r (L.cell p)) (fun p => K (L.cell p)) β (L.nodal x0 w) v := by
    unfold lin bil
    rw [add_sub_add_comm, add_sub_add_comm, ← Finset.sum_sub_distrib, ← Finset.sum_sub_distrib (f := fun p => L.w p * (given p * _))]
    congr 1
    refine Finset.sum_congr rfl fun p _ => ?_
    ring
  rw [e] at h
  refine h.trans ?_
  have h1 := size_energy_le hL hvM
  have h2 : 0 ≤ H ^ 2 / 8 * (Mr + 3 * Mx) + ε := by
    have c : ∀ {φ : ℝ → ℝ} {M : ℝ}, Bend φ (L.span x0 0) M → 0 ≤ M := by
      intro φ M h
      rw [L.span_eq] at h
      exact h.const_nonneg (L.h_pos 0 L.N_pos)
    have m2 := c (hM.bendDecay 0 L.N_pos)
    have m3 := c (hM.bendCurv 0 L.N_pos)
    have m4 : 0 ≤ ε := by
      obtain ⟨p, -⟩ : (Finset.univ.filter fun p => L.cell p = 0).Nonempty := by
        rw [Finset.nonempty_iff_ne_empty]
        intro h0
        have := L.exact 0 L.N_pos
        rw [h0, Finset.sum_empty] at this
        exact (L.h_pos 0 L.N_pos).ne this
      exact (abs_nonneg _).trans (hf p)
    positivity
  have h3 := mul_le_mul_of_nonneg_left h1 h2
  refine le_trans (le_of_eq ?_) h3
  ring

theorem sum_diff_abs (L : Line Ω) (e : ℕ → ℝ) (i j : ℕ) (hi : i ≤ L.N) (hj : j ≤ L.N) :
    |e i - e j| ≤ ∑ k ∈ Finset.range L.N, |e (k + 1) - e k| := by
  have key : ∀ i j, i ≤ j → j ≤ L.N → |e j - e i| ≤ ∑ k ∈ Finset.range L.N, |e (k + 1) - e k| := by
    intro i j hij hj
    have h1 : e j - e i = ∑ k ∈ Finset.Ico i j, (e (k + 1) - e k) := (Finset.sum_Ico_sub e hij).symm
    rw [h1]
    refine (Finset.abs_sum_le_sum_abs _ _).trans (Finset.sum_le_sum_of_subset_of_nonneg ?_ fun _ _ _ => abs_nonneg _)
    intro k hk
    have := Finset.mem_Ico.1 hk
    exact Finset.mem_range.2 (by omega)
  rcases le_total i j with h | h
  · rw [abs_sub_comm]; exact key i j h hj
  · exact key j i h hi

/-- Difference of the values at two nodes, from the energy. -/
theorem resist_le (L : Line Ω) {K : ℕ → ℝ} (hK : ∀ i < L.N, 0 < K i) (e : ℕ → ℝ) :
    (∑ k ∈ Finset.range L.N, |e (k + 1) - e k|) ^ 2
      ≤ L.resist K * ∑ i ∈ Finset.range L.N, K i * ((e (i + 1) - e i) * (e (i + 1) - e i) / L.h i) := by
  refine Finset.sum_sq_le_sum_mul_sum_of_sq_le_mul _ (fun i hi => ?_) (fun i hi => ?_) fun i hi => ?_
  · have hi := Finset.mem_range.1 hi
    exact (div_pos (L.h_pos i hi) (hK i hi)).le
  · have hi := Finset.mem_range.1 hi
    exact mul_nonneg (hK i hi).le (div_nonneg (mul_self_nonneg _) (L.h_pos i hi).le)
  · have hi := Finset.mem_range.1 hi
    have h1 := (L.h_pos i hi).ne'
    have h2 := (hK i hi).ne'
    rw [sq_abs]
    refine le_of_eq ?_
    field_simp

theorem resist_pos (L : Line Ω) {K : ℕ → ℝ} (hK : ∀ i < L.N, 0 < K i) : 0 < L.resist K :=
  Finset.sum_pos (fun i hi => div_pos (L.h_pos i (Finset.mem_range.1 hi)) (hK i (Finset.mem_range.1 hi)))
    ⟨0, Finset.mem_range.2 L.N_pos⟩

/-- If the bilinear form of `e` with the test functions is bounded by `ρ` times their maximum, `e` is bounded.  `s` is the
resistance of the surface where the level is fixed: zero with a Dirichlet condition. -/
theorem max_bound (hL : L.Exact2) (hK : ∀ i < L.N, 0 < K i) (hr : ∀ i < L.N, 0 ≤ r i) {β : Bool → ℝ} (hβ : ∀ q, 0 ≤ β q)
    {dir : Bool → Prop} {q0 : Bool} {s : ℝ} (hs : (dir q0 ∧ s = 0) ∨ (0 < β q0 ∧ s = 1 / β q0)) {e : ℕ → ℝ}
    (he : ∀ q, dir q → (L.p1 e).tr q = 0) {ρ : ℝ}
    (h : ∀ v : ℕ → ℝ, (∀ q, dir q → (L.p1 v).tr q = 0) → ∀ M, (∀ i ≤ L.N, |v i| ≤ M) →
      |bil L (fun p => r (L.cell p)) (fun p => K (L.cell p)) β e v| ≤ ρ * M) :
    ∀ i ≤ L.N, |e i| ≤ (s + L.resist K) * ρ := by
  obtain ⟨m, hm, hmax⟩ := Finset.exists_max_image (Finset.range (L.N + 1)) (fun i => |e i|) ⟨0, by simp⟩
  have hmN : m ≤ L.N := Nat.lt_succ_iff.1 (Finset.mem_range.1 hm)
  have hall : ∀ i ≤ L.N, |e i| ≤ |e m| := fun i hi => hmax i (Finset.mem_range.2 (Nat.lt_succ_of_le hi))
  have h1 := h e he _ hall
  have hR := resist_pos L hK
  have hs0 : 0 ≤ s := by
    rcases hs with ⟨-, rfl⟩ | ⟨h, rfl⟩
    · exact le_rfl
    · exact (one_div_pos.2 h).le
  set S := ∑ i ∈ Finset.range L.N, K i * ((e (i + 1) - e i) * (e (i + 1) - e i) / L.h i) with hS
  set x := e (L.endNo q0) with hx
  have h2 : β q0 * x ^ 2 + S ≤ ρ * |e m| := by
    refine le_trans ?_ ((le_abs_self _).trans h1)
    rw [bil_cells]
    have a1 : 0 ≤ ∑ p, L.w p * (r (L.cell p) * ((L.p1 e).val p * (L.p1 e).val p)) :=
      Finset.sum_nonneg fun p _ => mul_nonneg (hL.w_nonneg p) (mul_nonneg (hr _ (L.cell_lt p)) (mul_self_nonneg _))
    have a2 : β q0 * x ^ 2 ≤ ∑ q, β q * ((L.p1 e).tr q * (L.p1 e).tr q) := by
      have := Finset.single_le_sum (f := fun q => β q * ((L.p1 e).tr q * (L.p1 e).tr q))
        (fun q _ => mul_nonneg (hβ q) (mul_self_nonneg _)) (Finset.mem_univ q0)
      refine le_trans (le_of_eq ?_) this
      rw [p1_node]
      ring
    linarith
  have h3 : |e m| ≤ |x| + ∑ k ∈ Finset.range L.N, |e (k + 1) - e k| := by
    have hq : L.endNo q0 ≤ L.N := by cases q0 <;> simp [Line.endNo]
    have := sum_diff_abs L e m (L.endNo q0) hmN hq
    have e1 : e m = x + (e m - e (L.endNo q0)) := by rw [hx]; ring
    calc |e m| = |x + (e m - e (L.endNo q0))| := by rw [← e1]
      _ ≤ |x| + |e m - e (L.endNo q0)| := abs_add_le _ _
      _ ≤ _ := by linarith
  set y := ∑ k ∈ Finset.range L.N, |e (k + 1) - e k| with hy
  have h4 : y ^ 2 ≤ L.resist K * S := resist_le L hK e
  have hy0 : 0 ≤ y := Finset.sum_nonneg fun _ _ => abs_nonneg _
  have hS0 : 0 ≤ S := Finset.sum_nonneg fun i hi =>
    mul_nonneg (hK i (Finset.mem_range.1 hi)).le (div_nonneg (mul_self_nonneg _) (L.h_pos i (Finset.mem_range.1 hi)).le)
  have h5 : x ^ 2 ≤ s * (β q0 * x ^ 2) := by
    rcases hs with ⟨hd, rfl⟩ | ⟨hb, rfl⟩
    · have := he q0 hd
      rw [p1_node] at this
      rw [hx, this]
      simp
    · refine le_of_eq ?_
      field_simp
  have hX0 : 0 ≤ β q0 * x ^ 2 := mul_nonneg (hβ q0) (sq_nonneg _)
  -- (|x| + y)² ≤ (s + R) (β x² + S)
  have h6 : (|x| + y) ^ 2 ≤ (s + L.resist K) * (β q0 * x ^ 2 + S) := by
    have h7 : (|x| * y) ^ 2 ≤ (s * S) * (L.resist K * (β q0 * x ^ 2)) := by
      rw [mul_pow, sq_abs]
      have := mul_le_mul h5 h4 (sq_nonneg _) (mul_nonneg hs0 hX0)
      linarith
    have h8 : 2 * (|x| * y) ≤ s * S + L.resist K * (β q0 * x ^ 2) := by
      have p1 : 0 ≤ s * S := mul_nonneg hs0 hS0
      have p2 : 0 ≤ L.resist K * (β q0 * x ^ 2) := mul_nonneg hR.le hX0
      refine abs_le_of_sq_le_sq' ?_ (add_nonneg p1 p2) |>.2
      nlinarith [sq_nonneg (s * S - L.resist K * (β q0 * x ^ 2))]
    have h9 : |x| ^ 2 = x ^ 2 := sq_abs x
    nlinarith
  have h10 : |e m| ^ 2 ≤ (s + L.resist K) * (ρ * |e m|) := by
    have h11 := pow_le_pow_left₀ (abs_nonneg _) h3 2
    have h12 := mul_le_mul_of_nonneg_left h2 (add_nonneg hs0 hR.le)
    linarith
  have h13 : |e m| ≤ (s + L.resist K) * ρ := by
    rcases (abs_nonneg (e m)).eq_or_lt with h0 | h0
    · rw [← h0]
      refine mul_nonneg (add_nonneg hs0 hR.le) ?_
      have := (abs_nonneg _).trans (h 0 (fun q _ => by cases q <;> simp [Line.p1]) 1 (fun i _ => by simp))
      linarith
    · refine le_of_mul_le_mul_right ?_ h0
      linarith
  exact fun i hi => (hall i hi).trans h13

/-- The fluxes in the cells, too. -/
theorem flux_bound (hL : L.Exact2) (hK : ∀ i < L.N, 0 < K i) {R : ℝ} (hr : ∀ i < L.N, |r i| ≤ R) {β : Bool → ℝ}
    {dir : Bool → Prop} {e : ℕ → ℝ} {ρ E : ℝ} (hE : ∀ i ≤ L.N, |e i| ≤ E)
    (h : ∀ v : ℕ → ℝ, (∀ q, dir q → (L.p1 v).tr q = 0) → ∀ M, (∀ i ≤ L.N, |v i| ≤ M) →
      |bil L (fun p => r (L.cell p)) (fun p => K (L.cell p)) β e v| ≤ ρ * M) :
    ∀ i < L.N, |K i * ((e (i + 1) - e i) / L.h i)| ≤ ρ + R * L.extent * E + 2 * E / L.resist K := by
  have hE0 : 0 ≤ E := (abs_nonneg _).trans (hE 0 (Nat.zero_le _))
  set J : ℕ → ℝ := fun i => K i * ((e (i + 1) - e i) / L.h i) with hJ
  have hR := resist_pos L hK
  -- two cells
  have h1 : ∀ i j, i < j → j < L.N → |J i - J j| ≤ ρ + R * L.extent * E := by
    intro i j hij hj
    set v : ℕ → ℝ := fun k => if i < k ∧ k ≤ j then 1 else 0 with hv
    have hv1 : ∀ k, |v k| ≤ 1 := by
      intro k
      simp only [hv]
      split_ifs <;> simp
    have hvq : ∀ q, (L.p1 v).tr q = 0 := by
      intro q
      rw [p1_node]
      cases q
      · simp [hv, Line.endNo]
      · have : ¬ L.N ≤ j := by omega
        simp [hv, Line.endNo, this]
    have h2 := h v (fun q _ => hvq q) 1 fun k _ => hv1 k
    rw [bil_cells] at h2
    have e1 : ∑ k ∈ Finset.range L.N, K k * ((e (k + 1) - e k) * (v (k + 1) - v k) / L.h k) = J i - J j := by
      have e2 : ∀ k ∈ Finset.range L.N, K k * ((e (k + 1) - e k) * (v (k + 1) - v k) / L.h k)
          = (if k = i then J i else 0) - if k = j then J j else 0 := by
        intro k _
        have e3 : v (k + 1) - v k = (if k = i then 1 else 0) - if k = j then 1 else 0 := by
          simp only [hv]
          by_cases c1 : k = i
          · subst c1
            have : k ≠ j := hij.ne
            simp [this, hij]
          · by_cases c2 : k = j
            · subst c2
              have : k ≠ i := c1
              simp [this, hij]
            · have c3 : (i < k + 1 ∧ k + 1 ≤ j) = (i < k ∧ k ≤ j) := propext (by omega)
              simp only [c3, c1, c2, if_false, sub_self]
        rw [e3]
        by_cases c1 : k = i
        · subst c1
          have : k ≠ j := hij.ne
          simp only [if_true, this, if_false, hJ]
          ring
        · by_cases c2 : k = j
          · subst c2
            simp only [c1, if_false, if_true, hJ]
            ring
          · simp [c1, c2]
      rw [Finset.sum_congr rfl e2, Finset.sum_sub_distrib, Finset.sum_ite_eq', Finset.sum_ite_eq']
      simp [hj, hij.trans hj]
    have e4 : ∑ q, β q * ((L.p1 e).tr q * (L.p1 v).tr q) = 0 :=
      Finset.sum_eq_zero fun q _ => by rw [hvq q]; ring
    have e5 : |∑ p, L.w p * (r (L.cell p) * ((L.p1 e).val p * (L.p1 v).val p))| ≤ R * L.extent * E := by
      refine (Finset.abs_sum_le_sum_abs _ _).trans ?_
      have : R * L.extent * E = ∑ p, L.w p * (R * (E * 1)) := by
        rw [← Finset.sum_mul, total_weight]
        ring
      rw [this]
      refine Finset.sum_le_sum fun p _ => ?_
      rw [abs_mul, abs_of_nonneg (hL.w_nonneg p), abs_mul, abs_mul]
      refine mul_le_mul_of_nonneg_left ?_ (hL.w_nonneg p)
      have b1 := hr _ (L.cell_lt p)
      exact mul_le_mul b1 (mul_le_mul (p1_abs_le hL hE p) (p1_abs_le hL (fun k _ => hv1 k) p) (abs_nonneg _) hE0)
        (mul_nonneg (abs_nonneg _) (abs_nonneg _)) ((abs_nonneg _).trans b1)
    rw [e1, e4, add_zero] at h2
    rw [abs_le] at h2 e5 ⊢
    constructor <;> linarith [h2.1, h2.2, e5.1, e5.2]
  have hρ0 : 0 ≤ ρ + R * L.extent * E := by
    have := (abs_nonneg _).trans (h 0 (fun q _ => by cases q <;> simp [Line.p1]) 1 (fun i _ => by simp))
    have h2 : 0 ≤ R := (abs_nonneg _).trans (hr 0 L.N_pos)
    have := mul_nonneg (mul_nonneg h2 (extent_pos L).le) hE0
    linarith
  have h2 : ∀ i j, i < L.N → j < L.N → |J i - J j| ≤ ρ + R * L.extent * E := by
    intro i j hi hj
    rcases lt_trichotomy i j with hc | hc | hc
    · exact h1 i j hc hj
    · rw [hc, sub_self, abs_zero]; exact hρ0
    · rw [abs_sub_comm]; exact h1 j i hc hi
  intro i hi
  -- the average of the fluxes
  have h3 : ∑ j ∈ Finset.range L.N, L.h j / K j * J j = e L.N - e 0 := by
    rw [← Finset.sum_range_sub]
    refine Finset.sum_congr rfl fun j hj => ?_
    have a1 := (L.h_pos j (Finset.mem_range.1 hj)).ne'
    have a2 := (hK j (Finset.mem_range.1 hj)).ne'
    simp only [hJ]
    field_simp
  have h4 : L.resist K * J i = ∑ j ∈ Finset.range L.N, L.h j / K j * (J i - J j) + (e L.N - e 0) := by
    rw [← h3, ← Finset.sum_add_distrib]
    unfold Line.resist
    rw [Finset.sum_mul]
    exact Finset.sum_congr rfl fun j _ => by ring
  have h5 : |∑ j ∈ Finset.range L.N, L.h j / K j * (J i - J j)| ≤ L.resist K * (ρ + R * L.extent * E) := by
    refine (Finset.abs_sum_le_sum_abs _ _).trans ?_
    unfold Line.resist
    rw [Finset.sum_mul]
    refine Finset.sum_le_sum fun j hj => ?_
    have a := div_pos (L.h_pos j (Finset.mem_range.1 hj)) (hK j (Finset.mem_range.1 hj))
    rw [abs_mul, abs_of_pos a]
    exact mul_le_mul_of_nonneg_left (h2 i j hi (Finset.mem_range.1 hj)) a.le
  have h6 : |e L.N - e 0| ≤ 2 * E := by
    have := abs_sub (e L.N) (e 0)
    linarith [hE L.N le_rfl, hE 0 (Nat.zero_le _)]
  have h7 : L.resist K * |J i| ≤ L.resist K * (ρ + R * L.extent * E + 2 * E / L.resist K) := by
    have e1 : L.resist K * (ρ + R * L.extent * E + 2 * E / L.resist K) = L.resist K * (ρ + R * L.extent * E) + 2 * E := by
      field_simp
    rw [e1, ← abs_of_pos hR, ← abs_mul, abs_of_pos hR, h4]
    exact (abs_add_le _ _).trans (add_le_add h5 h6)
  exact le_of_mul_le_mul_left h7 hR

end

end Festim.Weak
