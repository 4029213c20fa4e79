import Verif.Props.SurfaceFlux
import Verif.Props.Heat
import Mathlib.Tactic.Linarith
import Mathlib.Tactic.Positivity
import Mathlib.Tactic.FieldSimp

/-!
# C75: bounds of the discrete solution on a one-dimensional mesh
-/

open scoped BigOperators

set_option linter.unusedSectionVars false

namespace Festim.Weak

section
variable {Ω : Type} [Fintype Ω]

/-- Contribution of the cells to the equation of a node. -/
theorem cells_sum (L : Line Ω) (f : Ω → ℝ) :
    (∑ p, L.w p * f p)
      = ∑ i ∈ Finset.range L.N, ∑ p ∈ Finset.univ.filter (fun p => L.cell p = i), L.w p * f p := by
  rw [← Finset.sum_fiberwise_of_maps_to (s := Finset.univ) (t := Finset.range L.N) (g := L.cell)
    (fun p _ => Finset.mem_range.2 (L.cell_lt p))]

/-- `D` integrated over a cell. -/
noncomputable def cellInt (L : Line Ω) (D : Ω → ℝ) (i : ℕ) : ℝ :=
  ∑ p ∈ Finset.univ.filter (fun p => L.cell p = i), L.w p * D p

/-- What the cell `i` contributes to the equation of its left node, `e` being the change over the step,
`u` the new value. -/
theorem cell_left (L : Line Ω) (hL : L.Exact2) (cap : ℕ → ℝ) (D : Ω → ℝ) (u e : ℕ → ℝ) (h : ℝ) (i : ℕ)
    (hi : i < L.N) :
    (∑ p ∈ Finset.univ.filter (fun p => L.cell p = i), L.w p *
        (cap (L.cell p) * (L.p1 e).val p / h * (L.p1 (hat i)).val p
          + D p * (L.p1 u).grad p 0 * (L.p1 (hat i)).grad p 0))
      = cap i * L.h i / (6 * h) * (2 * e i + e (i + 1))
        + cellInt L D i / L.h i ^ 2 * (u i - u (i + 1)) := by
  have h1 : ∀ p ∈ Finset.univ.filter (fun p => L.cell p = i), L.w p *
        (cap (L.cell p) * (L.p1 e).val p / h * (L.p1 (hat i)).val p
          + D p * (L.p1 u).grad p 0 * (L.p1 (hat i)).grad p 0)
      = cap i / h * (e i * L.w p + (e (i + 1) - 2 * e i) * (L.w p * L.lam p)
          + (e i - e (i + 1)) * (L.w p * L.lam p ^ 2))
        + (u i - u (i + 1)) / L.h i ^ 2 * (L.w p * D p) := by
    intro p hp
    have hc : L.cell p = i := by simpa using hp
    simp only [Line.p1, hat, hc, if_true, Nat.succ_ne_self, if_false]
    have := (L.h_pos i hi).ne'
    field_simp
    ring
  rw [Finset.sum_congr rfl h1, Finset.sum_add_distrib, ← Finset.mul_sum, ← Finset.mul_sum,
    Finset.sum_add_distrib, Finset.sum_add_distrib, ← Finset.mul_sum, ← Finset.mul_sum,
    ← Finset.mul_sum, L.exact i hi, hL.one i hi, hL.two i hi]
  unfold cellInt
  ring

/-- What the cell `i` contributes to the equation of its right node. -/
theorem cell_right (L : Line Ω) (hL : L.Exact2) (cap : ℕ → ℝ) (D : Ω → ℝ) (u e : ℕ → ℝ) (h : ℝ) (i : ℕ)
    (hi : i < L.N) :
    (∑ p ∈ Finset.univ.filter (fun p => L.cell p = i), L.w p *
        (cap (L.cell p) * (L.p1 e).val p / h * (L.p1 (hat (i + 1))).val p
          + D p * (L.p1 u).grad p 0 * (L.p1 (hat (i + 1))).grad p 0))
      = cap i * L.h i / (6 * h) * (e i + 2 * e (i + 1))
        + cellInt L D i / L.h i ^ 2 * (u (i + 1) - u i) := by
  have h1 : ∀ p ∈ Finset.univ.filter (fun p => L.cell p = i), L.w p *
        (cap (L.cell p) * (L.p1 e).val p / h * (L.p1 (hat (i + 1))).val p
          + D p * (L.p1 u).grad p 0 * (L.p1 (hat (i + 1))).grad p 0)
      = cap i / h * (e i * (L.w p * L.lam p) + (e (i + 1) - e i) * (L.w p * L.lam p ^ 2))
        + (u (i + 1) - u i) / L.h i ^ 2 * (L.w p * D p) := by
    intro p hp
    have hc : L.cell p = i := by simpa using hp
    have hne : ¬ (i = i + 1) := by omega
    simp only [Line.p1, hat, hc, if_true, hne, if_false]
    have := (L.h_pos i hi).ne'
    field_simp
    ring
  rw [Finset.sum_congr rfl h1, Finset.sum_add_distrib, ← Finset.mul_sum, ← Finset.mul_sum,
    Finset.sum_add_distrib, ← Finset.mul_sum, ← Finset.mul_sum, hL.one i hi, hL.two i hi]
  unfold cellInt
  ring

/-- The equation of a node only sees the two cells around it. -/
theorem cell_far (L : Line Ω) (cap : ℕ → ℝ) (D : Ω → ℝ) (u e : ℕ → ℝ) (h : ℝ) (i j : ℕ)
    (h1 : i ≠ j) (h2 : i + 1 ≠ j) :
    (∑ p ∈ Finset.univ.filter (fun p => L.cell p = i), L.w p *
        (cap (L.cell p) * (L.p1 e).val p / h * (L.p1 (hat j)).val p
          + D p * (L.p1 u).grad p 0 * (L.p1 (hat j)).grad p 0)) = 0 := by
  apply Finset.sum_eq_zero
  intro p hp
  have hc : L.cell p = i := by simpa using hp
  simp [Line.p1, hat, hc, h1, h2]

/-- The equation of node `j`. -/
noncomputable def nodeRow (L : Line Ω) (cap : ℕ → ℝ) (D : Ω → ℝ) (u e : ℕ → ℝ) (h : ℝ) (j : ℕ) : ℝ :=
  (if j < L.N then cap j * L.h j / (6 * h) * (2 * e j + e (j + 1))
      + cellInt L D j / L.h j ^ 2 * (u j - u (j + 1)) else 0)
  + (if 0 < j then cap (j - 1) * L.h (j - 1) / (6 * h) * (e (j - 1) + 2 * e j)
      + cellInt L D (j - 1) / L.h (j - 1) ^ 2 * (u j - u (j - 1)) else 0)

theorem node_row (L : Line Ω) (hL : L.Exact2) (cap : ℕ → ℝ) (D : Ω → ℝ) (u e : ℕ → ℝ) (h : ℝ) (j : ℕ)
    (hj : j ≤ L.N) :
    (∑ p, L.w p *
        (cap (L.cell p) * (L.p1 e).val p / h * (L.p1 (hat j)).val p
          + D p * (L.p1 u).grad p 0 * (L.p1 (hat j)).grad p 0))
      = nodeRow L cap D u e h j := by
  rw [cells_sum]
  have key : ∀ i ∈ Finset.range L.N,
      (∑ p ∈ Finset.univ.filter (fun p => L.cell p = i), L.w p *
        (cap (L.cell p) * (L.p1 e).val p / h * (L.p1 (hat j)).val p
          + D p * (L.p1 u).grad p 0 * (L.p1 (hat j)).grad p 0))
      = (if i = j then cap i * L.h i / (6 * h) * (2 * e i + e (i + 1))
          + cellInt L D i / L.h i ^ 2 * (u i - u (i + 1)) else 0)
        + (if i + 1 = j then cap i * L.h i / (6 * h) * (e i + 2 * e (i + 1))
          + cellInt L D i / L.h i ^ 2 * (u (i + 1) - u i) else 0) := by
    intro i hi
    have hi' := Finset.mem_range.1 hi
    by_cases h1 : i = j
    · subst h1
      rw [cell_left L hL cap D u e h i hi']
      simp
    · by_cases h2 : i + 1 = j
      · subst h2
        rw [cell_right L hL cap D u e h i hi']
        simp
      · rw [cell_far L cap D u e h i j h1 h2]
        simp [h1, h2]
  rw [Finset.sum_congr rfl key, Finset.sum_add_distrib]
  unfold nodeRow
  congr 1
  · rw [Finset.sum_ite_eq']
    simp
  · cases j with
    | zero => simp
    | succ j =>
      simp only [Nat.add_right_cancel_iff, Finset.sum_ite_eq', Finset.mem_range]
      simp only [Nat.succ_pos, if_true, Nat.add_sub_cancel]
      rw [if_pos (by omega)]

/-- At a node where the new value is the smallest one and less than `m`, the equation has a negative
left-hand side: the previous values were at least `m` and the step is long enough. -/
theorem node_neg (L : Line Ω) (cap : ℕ → ℝ) (D : Ω → ℝ) (u un : ℕ → ℝ) (h m : ℝ) (hh : 0 < h)
    (hcap : ∀ i < L.N, 0 < cap i) (hD : ∀ i < L.N, cap i * L.h i ^ 3 ≤ 6 * h * cellInt L D i)
    (hprev : ∀ i ≤ L.N, m ≤ un i) (j : ℕ) (hj : j ≤ L.N) (hmin : ∀ i ≤ L.N, u j ≤ u i)
    (hlt : u j < m) :
    nodeRow L cap D u (fun i => u i - un i) h j < 0 := by
  have one : ∀ i < L.N, ∀ x y : ℝ, x < m → x ≤ y → ∀ a b : ℝ, m ≤ a → m ≤ b →
      cap i * L.h i / (6 * h) * (2 * (x - a) + (y - b)) + cellInt L D i / L.h i ^ 2 * (x - y) < 0 := by
    intro i hi x y hx hxy a b ha hb
    have hp := L.h_pos i hi
    have hc := hcap i hi
    have hk : cap i * L.h i / (6 * h) ≤ cellInt L D i / L.h i ^ 2 := by
      rw [div_le_div_iff₀ (by positivity) (by positivity)]
      have := hD i hi
      nlinarith [this]
    have hA : 0 < cap i * L.h i / (6 * h) := by positivity
    have h1 : cap i * L.h i / (6 * h) * (2 * (x - a) + (y - b))
        ≤ cap i * L.h i / (6 * h) * (2 * (x - m) + (y - m)) := by
      apply mul_le_mul_of_nonneg_left _ hA.le
      linarith
    have h2 : cellInt L D i / L.h i ^ 2 * (x - y) ≤ cap i * L.h i / (6 * h) * (x - y) := by
      have := mul_nonneg (sub_nonneg.2 hk) (sub_nonneg.2 hxy)
      nlinarith
    have h3 : cap i * L.h i / (6 * h) * (2 * (x - m) + (y - m)) + cap i * L.h i / (6 * h) * (x - y)
        = cap i * L.h i / (6 * h) * (3 * (x - m)) := by ring
    have h4 : cap i * L.h i / (6 * h) * (3 * (x - m)) < 0 := by
      apply mul_neg_of_pos_of_neg hA
      linarith
    linarith
  have hN := L.N_pos
  unfold nodeRow
  have hL' : ∀ hlt' : j < L.N, cap j * L.h j / (6 * h) * (2 * (u j - un j) + (u (j + 1) - un (j + 1)))
      + cellInt L D j / L.h j ^ 2 * (u j - u (j + 1)) < 0 := fun h' =>
    one j h' _ _ hlt (hmin _ (by omega)) _ _ (hprev _ (by omega)) (hprev _ (by omega))
  have hR' : ∀ h' : 0 < j, cap (j - 1) * L.h (j - 1) / (6 * h)
        * ((u (j - 1) - un (j - 1)) + 2 * (u j - un j))
      + cellInt L D (j - 1) / L.h (j - 1) ^ 2 * (u j - u (j - 1)) < 0 := fun h' => by
    have := one (j - 1) (by omega) (u j) (u (j - 1)) hlt (hmin _ (by omega)) (un j) (un (j - 1))
      (hprev _ (by omega)) (hprev _ (by omega))
    rw [add_comm (u (j - 1) - un (j - 1))]
    exact this
  by_cases h1 : j < L.N
  · by_cases h2 : 0 < j
    · rw [if_pos h1, if_pos h2]
      have := hL' h1; have := hR' h2
      linarith
    · rw [if_pos h1, if_neg h2]
      have := hL' h1
      linarith
  · have h2 : 0 < j := by omega
    rw [if_neg h1, if_pos h2]
    have := hR' h2
    linarith

/-- The smallest nodal value. -/
theorem exists_min (u : ℕ → ℝ) (N : ℕ) : ∃ j ≤ N, ∀ i ≤ N, u j ≤ u i := by
  obtain ⟨j, hj, hm⟩ := Finset.exists_min_image (Finset.range (N + 1)) u ⟨0, by simp⟩
  exact ⟨j, by simpa [Nat.lt_succ_iff] using hj, fun i hi => hm i (by simpa [Nat.lt_succ_iff] using hi)⟩

/-- Discrete minimum principle: a node is either given a value at least `m`, or its equation has a
right-hand side which is not negative when its value is less than `m`. -/
theorem min_principle (L : Line Ω) (cap : ℕ → ℝ) (D : Ω → ℝ) (u un : ℕ → ℝ) (h m : ℝ) (hh : 0 < h)
    (hcap : ∀ i < L.N, 0 < cap i) (hD : ∀ i < L.N, cap i * L.h i ^ 3 ≤ 6 * h * cellInt L D i)
    (hprev : ∀ i ≤ L.N, m ≤ un i)
    (hrow : ∀ j ≤ L.N, u j < m → 0 ≤ nodeRow L cap D u (fun i => u i - un i) h j) :
    ∀ j ≤ L.N, m ≤ u j := by
  obtain ⟨k, hk, hmin⟩ := exists_min u L.N
  intro j hj
  by_contra hlt
  push Not at hlt
  have hk' : u k < m := lt_of_le_of_lt (hmin j hj) hlt
  have := node_neg L cap D u un h m hh hcap hD hprev k hk hmin hk'
  exact absurd (hrow k hk hk') (not_le.2 this)

theorem nodeRow_neg (L : Line Ω) (cap : ℕ → ℝ) (D : Ω → ℝ) (u e : ℕ → ℝ) (h : ℝ) (j : ℕ) :
    nodeRow L cap D (fun i => -u i) (fun i => -e i) h j = -nodeRow L cap D u e h j := by
  unfold nodeRow
  split_ifs <;> ring

/-- Discrete maximum principle. -/
theorem max_principle (L : Line Ω) (cap : ℕ → ℝ) (D : Ω → ℝ) (u un : ℕ → ℝ) (h M : ℝ) (hh : 0 < h)
    (hcap : ∀ i < L.N, 0 < cap i) (hD : ∀ i < L.N, cap i * L.h i ^ 3 ≤ 6 * h * cellInt L D i)
    (hprev : ∀ i ≤ L.N, un i ≤ M)
    (hrow : ∀ j ≤ L.N, M < u j → nodeRow L cap D u (fun i => u i - un i) h j ≤ 0) :
    ∀ j ≤ L.N, u j ≤ M := by
  intro j hj
  have := min_principle L cap D (fun i => -u i) (fun i => -un i) h (-M) hh hcap hD
    (fun i hi => neg_le_neg (hprev i hi)) (fun i hi hlt => ?_) j hj
  · linarith
  · have e : (fun k => -u k - -un k) = fun k => -(u k - un k) := by funext k; ring
    rw [e, nodeRow_neg]
    have := hrow i hi (by linarith)
    linarith

/-- The smallest value is that of an end with an imposed value: no node between can be smaller than its
neighbours. -/
theorem min_steady (L : Line Ω) (D : Ω → ℝ) (u : ℕ → ℝ) (m : ℝ) (hD : ∀ i < L.N, 0 < cellInt L D i)
    (hrow : ∀ j ≤ L.N, u j < m → 0 ≤ nodeRow L 0 D u 0 1 j) (hend : m ≤ u 0 ∨ m ≤ u L.N) :
    ∀ j ≤ L.N, m ≤ u j := by
  obtain ⟨k, hk, hmin⟩ := exists_min u L.N
  intro j hj
  by_contra hlt
  push Not at hlt
  have hk' : u k < m := lt_of_le_of_lt (hmin j hj) hlt
  have step : ∀ j ≤ L.N, u j = u k → (j < L.N → u (j + 1) = u k) ∧ (0 < j → u (j - 1) = u k) := by
    intro j hj he
    have hr := hrow j hj (he ▸ hk')
    unfold nodeRow at hr
    simp only [Pi.zero_apply, zero_mul, zero_div, zero_add, mul_zero, add_zero] at hr
    have a : ∀ i < L.N, 0 < cellInt L D i / L.h i ^ 2 := fun i hi =>
      div_pos (hD i hi) (pow_pos (L.h_pos i hi) 2)
    have b : ∀ i < L.N, ∀ n ≤ L.N, cellInt L D i / L.h i ^ 2 * (u j - u n) ≤ 0 := fun i hi n hn =>
      mul_nonpos_of_nonneg_of_nonpos (a i hi).le (by linarith [hmin n hn])
    have c : ∀ i < L.N, ∀ n, cellInt L D i / L.h i ^ 2 * (u j - u n) = 0 → u n = u k := by
      intro i hi n h
      rcases mul_eq_zero.1 h with h | h
      · exact absurd h (a i hi).ne'
      · linarith
    constructor
    · intro h1
      rw [if_pos h1] at hr
      refine c j h1 _ (le_antisymm (b j h1 _ h1) ?_)
      split_ifs at hr with h2
      · have := b (j - 1) (by omega) (j - 1) (by omega)
        linarith
      · linarith
    · intro h2
      rw [if_pos h2] at hr
      refine c (j - 1) (by omega) _ (le_antisymm (b (j - 1) (by omega) (j - 1) (by omega)) ?_)
      split_ifs at hr with h1
      · have := b j h1 (j + 1) h1
        linarith
      · linarith
  have up : ∀ n, k + n ≤ L.N → u (k + n) = u k := by
    intro n
    induction n with
    | zero => intro _; rfl
    | succ n ih => intro h; exact (step (k + n) (by omega) (ih (by omega))).1 (by omega)
  have down : ∀ n ≤ k, u (k - n) = u k := by
    intro n
    induction n with
    | zero => intro _; rfl
    | succ n ih =>
      intro h
      have := (step (k - n) (by omega) (ih (by omega))).2 (by omega)
      rwa [Nat.sub_sub] at this
  rcases hend with h0 | h0
  · have := down k le_rfl
    rw [Nat.sub_self] at this
    linarith
  · have := up (L.N - k) (by omega)
    rw [Nat.add_sub_cancel' hk] at this
    linarith

theorem hat_val_nonneg (L : Line Ω) (hL : L.Exact2) (j : ℕ) (p : Ω) : 0 ≤ (L.p1 (hat j)).val p := by
  have h1 := hL.lam_nonneg p
  have h2 := hL.lam_le p
  have h3 : ∀ i, 0 ≤ hat j i := fun i => by unfold hat; split_ifs <;> norm_num
  exact add_nonneg (mul_nonneg (by linarith) (h3 _)) (mul_nonneg h1 (h3 _))

/-- The trace of a basis function is 0, or 1 at the node of the end. -/
theorem hat_tr (L : Line Ω) (j : ℕ) (u : ℕ → ℝ) (q : Bool) :
    (L.p1 (hat j)).tr q = 0 ∨ ((L.p1 (hat j)).tr q = 1 ∧ (L.p1 u).tr q = u j) := by
  cases q
  · by_cases h : 0 = j
    · subst h; right; simp [Line.p1, hat]
    · left; simp [Line.p1, hat, h]
  · by_cases h : L.N = j
    · subst h; right; simp [Line.p1, hat]
    · left; simp [Line.p1, hat, h]

theorem list_sum_sign {α : Type} (σ : ℝ) (l : List α) (f : α → ℝ) (h : ∀ x ∈ l, 0 ≤ σ * f x) :
    0 ≤ σ * (l.map f).sum := by
  induction l with
  | nil => simp
  | cons a l ih =>
    rw [List.map_cons, List.sum_cons, mul_add]
    exact add_nonneg (h a (by simp)) (ih fun x hx => h x (by simp [hx]))

/-- Sign of the supply tested with the basis function of node `j`: `σ = 1` or `-1`. -/
theorem supply_sign (L : Line Ω) (hL : L.Exact2) (r : Fld Ω Bool 1) (P : Problem Ω Bool 1)
    (bcs : List (MobBC Bool)) (mat : Ω → Mat) (matS : Bool → Mat) (u : ℕ → ℝ) (σ : ℝ)
    (hm : P.mesh = L.mesh r) (ht : P.traps = []) (hth : P.mv.theta = false)
    (hu : P.mv.sol = L.p1 u) (hno : ∀ b vs, MobBC.sk b vs ∉ bcs) (j : ℕ)
    (hsrc : ∀ s ∈ P.sources, ∀ p, 0 ≤ σ * srcRate s (P.mv.sol.val p) p)
    (hbc : ∀ f ss, MobBC.flux f ss ∈ bcs → ∀ q, P.mesh.sm q ∈ ss → (L.p1 u).tr q = u j →
      0 ≤ σ * inward f (P.T.T.tr q) (u j) q) :
    0 ≤ σ * supply P bcs mat matS (L.p1 (hat j)) := by
  unfold supply
  rw [ht]
  simp only [List.map_nil, List.sum_nil, add_zero]
  rw [mul_add]
  apply add_nonneg
  · refine list_sum_sign σ _ _ fun s hs => list_sum_sign σ _ _ fun vol _ => ?_
    unfold volumeOf
    rw [Finset.mul_sum]
    refine Finset.sum_nonneg fun p _ => ?_
    beta_reduce
    have h1 := hsrc s hs p
    have h2 := hat_val_nonneg L hL j p
    have h3 : 0 ≤ P.mesh.w p := by rw [hm]; exact hL.w_nonneg p
    have h4 : P.c mat p = P.mv.sol.val p := by simp [Problem.c, physConc, hth]
    rw [h4]
    have := mul_nonneg h3 (mul_nonneg h1 h2)
    nlinarith
  · refine list_sum_sign σ _ _ fun b hb => ?_
    cases b with
    | sk b vs => exact absurd hb (hno b vs)
    | flux f ss =>
      unfold bcInflow
      refine list_sum_sign σ _ _ fun s hs => ?_
      unfold surface
      rw [Finset.mul_sum]
      refine Finset.sum_nonneg fun q hq => ?_
      beta_reduce
      have hq' : P.mesh.sm q = s := by simpa using hq
      have hws : P.mesh.ws q = 1 := by rw [hm]; rfl
      have hc : P.cS matS q = (L.p1 u).tr q := by simp [Problem.cS, physConc, hth, hu]
      rw [hws, hc]
      rcases hat_tr L j u q with h0 | ⟨h0, h1⟩
      · rw [h0]; simp
      · rw [h0, h1]
        have := hbc f ss hb q (hq' ▸ hs) h1
        linarith

theorem heatSupply_sign (L : Line Ω) (hL : L.Exact2) (r : Fld Ω Bool 1)
    (sources : List ((Ω → ℝ) × List ℕ)) (bcs : List (Flux Bool × List ℕ)) (u : ℕ → ℝ) (σ : ℝ) (j : ℕ)
    (hsrc : ∀ s ∈ sources, ∀ p, 0 ≤ σ * s.1 p)
    (hbc : ∀ b ∈ bcs, ∀ q, (L.mesh r).sm q ∈ b.2 → (L.p1 u).tr q = u j → 0 ≤ σ * inward b.1 (u j) 0 q) :
    0 ≤ σ * heatSupply (L.mesh r) sources bcs (L.p1 u).tr (L.p1 (hat j)) := by
  unfold heatSupply
  rw [mul_add]
  apply add_nonneg
  · refine list_sum_sign σ _ _ fun s hs => list_sum_sign σ _ _ fun vol _ => ?_
    unfold volumeOf
    rw [Finset.mul_sum]
    refine Finset.sum_nonneg fun p _ => ?_
    beta_reduce
    have h1 := hsrc s hs p
    have h2 := hat_val_nonneg L hL j p
    have h3 : 0 ≤ (L.mesh r).w p := hL.w_nonneg p
    have := mul_nonneg h3 (mul_nonneg h1 h2)
    nlinarith
  · refine list_sum_sign σ _ _ fun b hb => list_sum_sign σ _ _ fun s hs => ?_
    unfold surface
    rw [Finset.mul_sum]
    refine Finset.sum_nonneg fun q hq => ?_
    beta_reduce
    have hq' : (L.mesh r).sm q = s := by simpa using hq
    have hws : (L.mesh r).ws q = 1 := rfl
    rw [hws]
    rcases hat_tr L j u q with h0 | ⟨h0, h1⟩
    · rw [h0]; simp
    · rw [h0, h1]
      have := hbc b hb q (hq' ▸ hs) h1
      linarith

/-- The cell by cell condition from the pointwise one. -/
theorem cellInt_ge (L : Line Ω) (hL : L.Exact2) (D : Ω → ℝ) (k : ℕ → ℝ)
    (h : ∀ p, k (L.cell p) ≤ D p) (i : ℕ) (hi : i < L.N) : k i * L.h i ≤ cellInt L D i := by
  unfold cellInt
  rw [← L.exact i hi, Finset.mul_sum]
  refine Finset.sum_le_sum fun p hp => ?_
  have hc : L.cell p = i := by simpa using hp
  have := mul_le_mul_of_nonneg_left (hc ▸ h p) (hL.w_nonneg p)
  linarith

theorem cellInt_pos (L : Line Ω) (hL : L.Exact2) (D : Ω → ℝ) (hD : ∀ p, 0 < D p) (i : ℕ) (hi : i < L.N) :
    0 < cellInt L D i := by
  unfold cellInt
  have hw : ∀ p, 0 ≤ L.w p * D p := fun p => mul_nonneg (hL.w_nonneg p) (hD p).le
  refine lt_of_le_of_ne (Finset.sum_nonneg fun p _ => hw p) fun he => ?_
  have hz := (Finset.sum_eq_zero_iff_of_nonneg fun p _ => hw p).1 he.symm
  have := L.exact i hi
  rw [Finset.sum_eq_zero fun p hp => (mul_eq_zero.1 (hz p hp)).resolve_right (hD p).ne'] at this
  exact absurd this.symm (L.h_pos i hi).ne'

theorem p1_between (L : Line Ω) (hL : L.Exact2) (u : ℕ → ℝ) (m M : ℝ)
    (h : ∀ j ≤ L.N, m ≤ u j ∧ u j ≤ M) :
    (∀ p, m ≤ (L.p1 u).val p ∧ (L.p1 u).val p ≤ M) ∧
    ∀ q, m ≤ (L.p1 u).tr q ∧ (L.p1 u).tr q ≤ M := by
  constructor
  · intro p
    have h1 := hL.lam_nonneg p
    have h2 := hL.lam_le p
    obtain ⟨a1, a2⟩ := h (L.cell p) (L.cell_lt p).le
    obtain ⟨b1, b2⟩ := h (L.cell p + 1) (L.cell_lt p)
    simp only [Line.p1]
    constructor <;> nlinarith [mul_nonneg h1 (sub_nonneg.2 b1), mul_nonneg h1 (sub_nonneg.2 b2),
      mul_nonneg (sub_nonneg.2 h2) (sub_nonneg.2 a1), mul_nonneg (sub_nonneg.2 h2) (sub_nonneg.2 a2)]
  · intro q
    cases q
    · simpa [Line.p1] using h 0 (Nat.zero_le _)
    · simpa [Line.p1] using h L.N le_rfl

end

section
variable {Ω : Type} [Fintype Ω]

private def anyM : Mat := { uid := 0, ids := [], D_0 := 0, E_D := 0 }

theorem form_ok_notraps (P : Problem Ω Bool 1) (bcs : List (MobBC Bool)) (v : Fld Ω Bool 1)
    (ht : P.traps = []) : ∃ F, P.form bcs v [] = .ok F := by
  unfold Problem.form mobileForm diffusionForm
  rw [ht]
  exact ⟨_, rfl⟩

/-- The equation of node `j` of a transient simulation on a line. -/
theorem transient_node (L : Line Ω) (hL : L.Exact2) (r : Fld Ω Bool 1) (P : Problem Ω Bool 1)
    (bcs : List (MobBC Bool)) (mat : Ω → Mat) (u un : ℕ → ℝ) (h : ℝ)
    (hm : P.mesh = L.mesh r) (hdt : P.dt = some h) (ht : P.traps = []) (hth : P.mv.theta = false)
    (hsor : P.soret = false) (hu : P.mv.sol = L.p1 u) (hp : P.mv.prev = L.p1 un)
    (hcov : Covers P.mesh P.mats mat) (hno : ∀ b vs, MobBC.sk b vs ∉ bcs) (j : ℕ) (hj : j ≤ L.N)
    (F : Form Ω Bool) (hF : P.form bcs (L.p1 (hat j)) [] = .ok F) :
    P.mesh.assemble F
      = nodeRow L 1 (fun p => arr (mat p).D_0 (mat p).E_D (P.T.T.val p)) u (fun i => u i - un i) h j
        - supply P bcs mat (fun _ => anyM) (L.p1 (hat j)) := by
  have hsol : Solubility P mat fun _ => anyM :=
    ⟨by simp [hth], by simp [hth], by simp [hth], by simp [hth]⟩
  have hF' : P.form bcs (L.p1 (hat j)) (P.traps.map fun _ => L.p1 (hat j)) = .ok F := by
    rw [ht]; exact hF
  rw [Festim.Props.C41_weak_form P bcs mat _ h _ F hdt hcov hsol (by simp [hm, Line.mesh])
    (fun b vs hb => absurd hb (hno b vs)) (Or.inl hth) hF', ← node_row L hL _ _ _ _ _ _ hj]
  congr 1
  unfold stock stockPrev
  rw [bcStock_zero _ _ _ _ _ hno, bcStock_zero _ _ _ _ _ hno, add_zero, add_zero, ht]
  unfold volume
  rw [← Finset.sum_sub_distrib, Finset.sum_div, ← Finset.sum_add_distrib]
  refine Finset.sum_congr rfl fun p _ => ?_
  have hc : (L.p1 fun i => u i - un i).val p = (L.p1 u).val p - (L.p1 un).val p := by
    simp only [Line.p1]; ring
  simp only [Problem.c, Problem.cPrev, physConc, hth, hu, hp, hc, hm, Line.mesh, dot,
    Fin.sum_univ_one, gradFlux, physGrad, hsor, coordGrad, List.map_nil, List.sum_nil, Pi.one_apply]
  simp only [Bool.false_eq_true, if_false]
  ring

/-- The same for a steady simulation. -/
theorem steady_node (L : Line Ω) (hL : L.Exact2) (r : Fld Ω Bool 1) (P : Problem Ω Bool 1)
    (bcs : List (MobBC Bool)) (mat : Ω → Mat) (u : ℕ → ℝ)
    (hm : P.mesh = L.mesh r) (hdt : P.dt = none) (ht : P.traps = []) (hth : P.mv.theta = false)
    (hsor : P.soret = false) (hu : P.mv.sol = L.p1 u)
    (hcov : Covers P.mesh P.mats mat) (hno : ∀ b vs, MobBC.sk b vs ∉ bcs) (j : ℕ) (hj : j ≤ L.N)
    (F : Form Ω Bool) (hF : P.form bcs (L.p1 (hat j)) [] = .ok F) :
    P.mesh.assemble F
      = nodeRow L 0 (fun p => arr (mat p).D_0 (mat p).E_D (P.T.T.val p)) u 0 1 j
        - supply P bcs mat (fun _ => anyM) (L.p1 (hat j)) := by
  have hsol : Solubility P mat fun _ => anyM :=
    ⟨by simp [hth], by simp [hth], by simp [hth], by simp [hth]⟩
  rw [steady_weak_form P bcs mat _ _ F hdt hcov hsol (by simp [hm, Line.mesh]) ht hno hF,
    ← node_row L hL _ _ _ _ _ _ hj]
  congr 1
  unfold volume
  refine Finset.sum_congr rfl fun p _ => ?_
  simp only [hth, hu, hm, Line.mesh, dot, Fin.sum_univ_one, gradFlux, physGrad, hsor, coordGrad,
    Pi.zero_apply]
  simp only [Bool.false_eq_true, if_false]
  ring

end

end Festim.Weak

namespace Festim.Props

open Festim.Weak

section
variable {Ω : Type} [Fintype Ω]

/-- Data of a simulation on a line: piecewise affine unknown with nodal values `u`, no traps, no surface
kinetics, no chemical potential, no Soret effect.  `dir q`: the end `q` has a Dirichlet condition.  The
residual vanishes for the test functions which vanish at such ends. -/
structure OnLine (L : Line Ω) (P : Problem Ω Bool 1) (bcs : List (MobBC Bool)) (mat : Ω → Mat)
    (u : ℕ → ℝ) (dir : Bool → Prop) : Prop where
  quad : L.Exact2
  mesh : ∃ r, P.mesh = L.mesh r
  traps : P.traps = []
  theta : P.mv.theta = false
  soret : P.soret = false
  sol : P.mv.sol = L.p1 u
  cover : Covers P.mesh P.mats mat
  noSK : ∀ b vs, MobBC.sk b vs ∉ bcs
  solves : ∀ v : ℕ → ℝ, (∀ q, dir q → (L.p1 v).tr q = 0) →
    ∀ F, P.form bcs (L.p1 v) [] = .ok F → P.mesh.assemble F = 0

/-- Nothing pushes the concentration below `m` (`σ = 1`), or above (`σ = -1`): the sources have the right
sign, so have the flux conditions where the concentration is beyond `m`, and the Dirichlet values are not
beyond `m`. -/
structure Pushes (L : Line Ω) (P : Problem Ω Bool 1) (bcs : List (MobBC Bool)) (u : ℕ → ℝ)
    (dir : Bool → Prop) (σ m : ℝ) : Prop where
  src : ∀ s ∈ P.sources, ∀ p, 0 ≤ σ * srcRate s (P.mv.sol.val p) p
  bc : ∀ f ss, MobBC.flux f ss ∈ bcs → ∀ q, P.mesh.sm q ∈ ss → σ * (L.p1 u).tr q < σ * m →
    0 ≤ σ * inward f (P.T.T.tr q) ((L.p1 u).tr q) q
  dirichlet : ∀ q, dir q → σ * m ≤ σ * (L.p1 u).tr q

/-- The diffusivity at a point of the mesh. -/
noncomputable def diffAt (P : Problem Ω Bool 1) (mat : Ω → Mat) (p : Ω) : ℝ :=
  arr (mat p).D_0 (mat p).E_D (P.T.T.val p)

theorem node_sign (L : Line Ω) (P : Problem Ω Bool 1) (bcs : List (MobBC Bool)) (mat : Ω → Mat)
    (u : ℕ → ℝ) (dir : Bool → Prop) (hP : OnLine L P bcs mat u dir) (σ m : ℝ)
    (hpush : Pushes L P bcs u dir σ m) (j : ℕ) (hlt : σ * u j < σ * m) (row : ℝ)
    (hrow : ∀ F, P.form bcs (L.p1 (hat j)) [] = .ok F → P.mesh.assemble F
      = row - supply P bcs mat (fun _ => anyM) (L.p1 (hat j))) : 0 ≤ σ * row := by
  obtain ⟨r, hm⟩ := hP.mesh
  obtain ⟨F, hF⟩ := form_ok_notraps P bcs (L.p1 (hat j)) hP.traps
  have h0 := hP.solves (hat j) (fun q hq => by
    rcases hat_tr L j u q with h | ⟨_, h⟩
    · exact h
    · have := hpush.dirichlet q hq
      rw [h] at this
      linarith) F hF
  rw [hrow F hF] at h0
  have hs := supply_sign L hP.quad r P bcs mat (fun _ => anyM) u σ hm hP.traps hP.theta hP.sol hP.noSK j
    hpush.src (fun f ss hb q hq he => by
      have := hpush.bc f ss hb q hq (he ▸ hlt)
      rwa [he] at this)
  rw [sub_eq_zero.1 h0]
  exact hs

theorem cell_condition (L : Line Ω) (hL : L.Exact2) (cap : ℕ → ℝ) (D : Ω → ℝ) (h : ℝ) (hh : 0 < h)
    (hD : ∀ p, cap (L.cell p) * L.h (L.cell p) ^ 2 ≤ 6 * h * D p) (i : ℕ) (hi : i < L.N) :
    cap i * L.h i ^ 3 ≤ 6 * h * cellInt L D i := by
  have := cellInt_ge L hL D (fun i => cap i * L.h i ^ 2 / (6 * h))
    (fun p => by rw [div_le_iff₀ (by positivity)]; linarith [hD p]) i hi
  have h6 : 0 < 6 * h := by positivity
  have h2 := mul_le_mul_of_nonneg_left this h6.le
  have e : 6 * h * (cap i * L.h i ^ 2 / (6 * h) * L.h i) = cap i * L.h i ^ 3 := by
    field_simp
  linarith

/-- **C75.** One step of a transient simulation on a line, with cells short compared with the distance
diffused during the step (`h_i² ≤ 6 D dt`): the concentration does not fall below `m` if it was above at
the previous step and nothing pushes it below. -/
theorem C75_lower_bound (L : Line Ω) (P : Problem Ω Bool 1) (bcs : List (MobBC Bool)) (mat : Ω → Mat)
    (u un : ℕ → ℝ) (dir : Bool → Prop) (h m : ℝ) (hP : OnLine L P bcs mat u dir)
    (hdt : P.dt = some h) (hh : 0 < h) (hprev : P.mv.prev = L.p1 un) (hun : ∀ j ≤ L.N, m ≤ un j)
    (hpush : Pushes L P bcs u dir 1 m)
    (hstep : ∀ p, L.h (L.cell p) ^ 2 ≤ 6 * diffAt P mat p * h) :
    ∀ j ≤ L.N, m ≤ u j := by
  obtain ⟨r, hm⟩ := hP.mesh
  refine min_principle L 1 (diffAt P mat) u un h m hh (fun _ _ => one_pos)
    (cell_condition L hP.quad 1 _ h hh fun p => by
      rw [Pi.one_apply, one_mul]; linarith [hstep p]) hun fun j hj hlt => ?_
  have := node_sign L P bcs mat u dir hP 1 m hpush j (by simpa using hlt) _
    (transient_node L hP.quad r P bcs mat u un h hm hdt hP.traps hP.theta hP.soret hP.sol hprev hP.cover
      hP.noSK j hj)
  rw [one_mul] at this
  exact this

/-- **C75.** The same from above. -/
theorem C75_upper_bound (L : Line Ω) (P : Problem Ω Bool 1) (bcs : List (MobBC Bool)) (mat : Ω → Mat)
    (u un : ℕ → ℝ) (dir : Bool → Prop) (h M : ℝ) (hP : OnLine L P bcs mat u dir)
    (hdt : P.dt = some h) (hh : 0 < h) (hprev : P.mv.prev = L.p1 un) (hun : ∀ j ≤ L.N, un j ≤ M)
    (hpush : Pushes L P bcs u dir (-1) M)
    (hstep : ∀ p, L.h (L.cell p) ^ 2 ≤ 6 * diffAt P mat p * h) :
    ∀ j ≤ L.N, u j ≤ M := by
  obtain ⟨r, hm⟩ := hP.mesh
  refine max_principle L 1 (diffAt P mat) u un h M hh (fun _ _ => one_pos)
    (cell_condition L hP.quad 1 _ h hh fun p => by
      rw [Pi.one_apply, one_mul]; linarith [hstep p]) hun fun j hj hlt => ?_
  have := node_sign L P bcs mat u dir hP (-1) M hpush j (by linarith) _
    (transient_node L hP.quad r P bcs mat u un h hm hdt hP.traps hP.theta hP.soret hP.sol hprev hP.cover
      hP.noSK j hj)
  have h2 : nodeRow L 1 (diffAt P mat) u (fun i => u i - un i) h j ≤ 0 := by
    unfold diffAt
    linarith
  exact h2

/-- **C75.** Over a whole run, whatever the steps as long as they are long enough: the concentration stays
between the bounds of the initial state and of what is imposed. -/
theorem C75_run (L : Line Ω) (P : ℕ → Problem Ω Bool 1) (bcs : ℕ → List (MobBC Bool)) (mat : Ω → Mat)
    (u : ℕ → ℕ → ℝ) (dir : ℕ → Bool → Prop) (h : ℕ → ℝ) (m M : ℝ)
    (hP : ∀ n, OnLine L (P n) (bcs n) mat (u (n + 1)) (dir n)) (hdt : ∀ n, (P n).dt = some (h n))
    (hh : ∀ n, 0 < h n) (hprev : ∀ n, (P n).mv.prev = L.p1 (u n))
    (h0 : ∀ j ≤ L.N, m ≤ u 0 j ∧ u 0 j ≤ M)
    (hlow : ∀ n, Pushes L (P n) (bcs n) (u (n + 1)) (dir n) 1 m)
    (hup : ∀ n, Pushes L (P n) (bcs n) (u (n + 1)) (dir n) (-1) M)
    (hstep : ∀ n p, L.h (L.cell p) ^ 2 ≤ 6 * diffAt (P n) mat p * h n) (n : ℕ) :
    (∀ p, m ≤ (P n).mv.sol.val p ∧ (P n).mv.sol.val p ≤ M) ∧
    ∀ q, m ≤ (P n).mv.sol.tr q ∧ (P n).mv.sol.tr q ≤ M := by
  have key : ∀ n, ∀ j ≤ L.N, m ≤ u n j ∧ u n j ≤ M := by
    intro n
    induction n with
    | zero => exact h0
    | succ n ih =>
      intro j hj
      exact ⟨C75_lower_bound L (P n) (bcs n) mat _ _ (dir n) (h n) m (hP n) (hdt n) (hh n) (hprev n)
          (fun j hj => (ih j hj).1) (hlow n) (hstep n) j hj,
        C75_upper_bound L (P n) (bcs n) mat _ _ (dir n) (h n) M (hP n) (hdt n) (hh n) (hprev n)
          (fun j hj => (ih j hj).2) (hup n) (hstep n) j hj⟩
  rw [(hP n).sol]
  exact p1_between L (hP n).quad _ m M (key (n + 1))

/-- **C75.** In steady state no condition on the mesh is needed: with a Dirichlet condition on one end at
least, the concentration is nowhere below `m` if nothing pushes it below. -/
theorem C75_steady (L : Line Ω) (P : Problem Ω Bool 1) (bcs : List (MobBC Bool)) (mat : Ω → Mat)
    (u : ℕ → ℝ) (dir : Bool → Prop) (m : ℝ) (hP : OnLine L P bcs mat u dir)
    (hdt : P.dt = none) (hpush : Pushes L P bcs u dir 1 m) (hD : ∀ p, 0 < diffAt P mat p)
    (hdir : ∃ q, dir q) : ∀ j ≤ L.N, m ≤ u j := by
  obtain ⟨r, hm⟩ := hP.mesh
  refine min_steady L (diffAt P mat) u m (fun i hi => ?_) (fun j hj hlt => ?_) ?_
  · exact cellInt_pos L hP.quad _ hD i hi
  · have := node_sign L P bcs mat u dir hP 1 m hpush j (by simpa using hlt) _
      (steady_node L hP.quad r P bcs mat u hm hdt hP.traps hP.theta hP.soret hP.sol hP.cover hP.noSK j hj)
    rw [one_mul] at this
    exact this
  · obtain ⟨q, hq⟩ := hdir
    have := hpush.dirichlet q hq
    cases q
    · left; simpa [Line.p1] using this
    · right; simpa [Line.p1] using this

/-- **C75.** The same from above. -/
theorem C75_steady_upper (L : Line Ω) (P : Problem Ω Bool 1) (bcs : List (MobBC Bool)) (mat : Ω → Mat)
    (u : ℕ → ℝ) (dir : Bool → Prop) (M : ℝ) (hP : OnLine L P bcs mat u dir)
    (hdt : P.dt = none) (hpush : Pushes L P bcs u dir (-1) M) (hD : ∀ p, 0 < diffAt P mat p)
    (hdir : ∃ q, dir q) : ∀ j ≤ L.N, u j ≤ M := by
  obtain ⟨r, hm⟩ := hP.mesh
  have key := min_steady L (diffAt P mat) (fun i => -u i) (-M) (fun i hi => cellInt_pos L hP.quad _ hD i hi)
    (fun j hj hlt => ?_) ?_
  · intro j hj
    have := key j hj
    linarith
  · have h1 := node_sign L P bcs mat u dir hP (-1) M hpush j (by linarith) _
      (steady_node L hP.quad r P bcs mat u hm hdt hP.traps hP.theta hP.soret hP.sol hP.cover hP.noSK j hj)
    have h2 := nodeRow_neg L 0 (diffAt P mat) u 0 1 j
    simp only [Pi.zero_apply, neg_zero] at h2
    rw [neg_one_mul] at h1
    refine le_of_le_of_eq h1 ?_
    exact h2.symm
  · obtain ⟨q, hq⟩ := hdir
    have := hpush.dirichlet q hq
    cases q
    · left; simp only [Line.p1, Bool.false_eq_true, if_false] at this; linarith
    · right; simp only [Line.p1, if_true] at this; linarith

/-- Data of one step of the heat equation on a line, `ρ c_p` being `cap i` in the cell `i`; the step is
long enough (`ρ c_p h_i² ≤ 6 λ dt`). -/
structure HeatOnLine (L : Line Ω) (r : Fld Ω Bool 1) (mats : List Mat)
    (sources : List ((Ω → ℝ) × List ℕ)) (bcs : List (Flux Bool × List ℕ)) (mat : Ω → Mat)
    (u un cap : ℕ → ℝ) (dir : Bool → Prop) (h : ℝ) : Prop where
  quad : L.Exact2
  cover : Covers (L.mesh r) mats mat
  pos : 0 < h
  capacity : ∀ p, (mat p).vcap ((L.p1 u).val p) = cap (L.cell p)
  cap_pos : ∀ i < L.N, 0 < cap i
  solves : ∀ v : ℕ → ℝ, (∀ q, dir q → (L.p1 v).tr q = 0) →
      (L.mesh r).assemble (heatForm (L.mesh r) mats ⟨L.p1 u, L.p1 un⟩ (some h) sources bcs (L.p1 v)) = 0
  step : ∀ p, cap (L.cell p) * L.h (L.cell p) ^ 2 ≤ 6 * (mat p).cond ((L.p1 u).val p) * h

theorem heat_node (L : Line Ω) (r : Fld Ω Bool 1) (mats : List Mat)
    (sources : List ((Ω → ℝ) × List ℕ)) (bcs : List (Flux Bool × List ℕ)) (mat : Ω → Mat)
    (u un cap : ℕ → ℝ) (dir : Bool → Prop) (h : ℝ)
    (hH : HeatOnLine L r mats sources bcs mat u un cap dir h) (σ m : ℝ)
    (hsrc : ∀ s ∈ sources, ∀ p, 0 ≤ σ * s.1 p)
    (hbc : ∀ b ∈ bcs, ∀ q, (L.mesh r).sm q ∈ b.2 → σ * (L.p1 u).tr q < σ * m →
      0 ≤ σ * inward b.1 ((L.p1 u).tr q) 0 q)
    (hdir : ∀ q, dir q → σ * m ≤ σ * (L.p1 u).tr q) (j : ℕ) (hj : j ≤ L.N) (hlt : σ * u j < σ * m) :
    0 ≤ σ * nodeRow L cap (fun p => (mat p).cond ((L.p1 u).val p)) u (fun i => u i - un i) h j := by
  have h0 := hH.solves (hat j) (fun q hq => by
    rcases hat_tr L j u q with h' | ⟨_, h'⟩
    · exact h'
    · have := hdir q hq
      rw [h'] at this
      linarith)
  rw [C58_weak_form (L.mesh r) mats _ _ sources bcs mat _ hH.cover (by simp [Line.mesh])] at h0
  have hs := heatSupply_sign L hH.quad r sources bcs u σ j hsrc
    (fun b hb q hq he => by
      have := hbc b hb q hq (he ▸ hlt)
      rwa [he] at this)
  rw [← node_row L hH.quad _ _ _ _ _ _ hj]
  have e : (∑ p, L.w p *
        (cap (L.cell p) * (L.p1 fun i => u i - un i).val p / h * (L.p1 (hat j)).val p
          + (mat p).cond ((L.p1 u).val p) * (L.p1 u).grad p 0 * (L.p1 (hat j)).grad p 0))
      = heatSupply (L.mesh r) sources bcs (L.p1 u).tr (L.p1 (hat j)) := by
    simp only at h0
    rw [← sub_eq_zero, ← h0]
    congr 1
    unfold volume
    rw [← Finset.sum_add_distrib]
    refine Finset.sum_congr rfl fun p _ => ?_
    have hc : (L.p1 fun i => u i - un i).val p = (L.p1 u).val p - (L.p1 un).val p := by
      simp only [Line.p1]; ring
    simp only [hH.capacity, hc, Line.mesh, dot, Fin.sum_univ_one, coordGrad]
    ring
  rw [e]
  exact hs

/-- **C75.** The temperature does not fall below `m` if it was above, the sources are non-negative, the
boundary conditions bring heat where it is below `m` and the imposed temperatures are above. -/
theorem C75_heat_lower_bound (L : Line Ω) (r : Fld Ω Bool 1) (mats : List Mat)
    (sources : List ((Ω → ℝ) × List ℕ)) (bcs : List (Flux Bool × List ℕ)) (mat : Ω → Mat)
    (u un cap : ℕ → ℝ) (dir : Bool → Prop) (h m : ℝ)
    (hH : HeatOnLine L r mats sources bcs mat u un cap dir h)
    (hun : ∀ j ≤ L.N, m ≤ un j) (hsrc : ∀ s ∈ sources, ∀ p, 0 ≤ s.1 p)
    (hbc : ∀ b ∈ bcs, ∀ q, (L.mesh r).sm q ∈ b.2 → (L.p1 u).tr q < m →
      0 ≤ inward b.1 ((L.p1 u).tr q) 0 q)
    (hdir : ∀ q, dir q → m ≤ (L.p1 u).tr q) : ∀ j ≤ L.N, m ≤ u j := by
  refine min_principle L cap (fun p => (mat p).cond ((L.p1 u).val p)) u un h m hH.pos hH.cap_pos
    (cell_condition L hH.quad cap _ h hH.pos fun p => by linarith [hH.step p]) hun fun j hj hlt => ?_
  have := heat_node L r mats sources bcs mat u un cap dir h hH 1 m (by simpa using hsrc)
    (by simpa using hbc) (by simpa using hdir) j hj (by simpa using hlt)
  rwa [one_mul] at this

/-- **C75.** The same from above: without sources, the temperature is not above the initial, imposed and
external ones. -/
theorem C75_heat_upper_bound (L : Line Ω) (r : Fld Ω Bool 1) (mats : List Mat)
    (sources : List ((Ω → ℝ) × List ℕ)) (bcs : List (Flux Bool × List ℕ)) (mat : Ω → Mat)
    (u un cap : ℕ → ℝ) (dir : Bool → Prop) (h M : ℝ)
    (hH : HeatOnLine L r mats sources bcs mat u un cap dir h)
    (hun : ∀ j ≤ L.N, un j ≤ M) (hsrc : ∀ s ∈ sources, ∀ p, s.1 p ≤ 0)
    (hbc : ∀ b ∈ bcs, ∀ q, (L.mesh r).sm q ∈ b.2 → M < (L.p1 u).tr q →
      inward b.1 ((L.p1 u).tr q) 0 q ≤ 0)
    (hdir : ∀ q, dir q → (L.p1 u).tr q ≤ M) : ∀ j ≤ L.N, u j ≤ M := by
  refine max_principle L cap (fun p => (mat p).cond ((L.p1 u).val p)) u un h M hH.pos hH.cap_pos
    (cell_condition L hH.quad cap _ h hH.pos fun p => by linarith [hH.step p]) hun fun j hj hlt => ?_
  have := heat_node L r mats sources bcs mat u un cap dir h hH (-1) M (by simpa using hsrc)
    (by simpa using hbc) (by simpa using hdir) j hj (by simpa using hlt)
  linarith

end

/-! ### The condition on the step cannot be relaxed: two cells and Simpson's rule -/

namespace BoundCase

/-- Two cells of length `h`. -/
noncomputable def simpson (h : ℝ) (hh : 0 < h) : Line (Fin 2 × Fin 3) where
  N := 2
  h _ := h
  cell p := p.1.val
  lam p := p.2.val / 2
  w p := if p.2 = 1 then 2 * h / 3 else h / 6
  vm _ := 1
  left := 1
  right := 2
  vmL := 1
  vmR := 1
  N_pos := by norm_num
  h_pos _ _ := hh
  cell_lt p := p.1.isLt
  exact := by
    intro i hi
    rw [Finset.sum_filter, Fintype.sum_prod_type]
    simp only [Fin.sum_univ_two, Fin.sum_univ_three]
    interval_cases i <;> simp <;> ring
  ends := by norm_num

theorem simpson_exact2 (h : ℝ) (hh : 0 < h) : (simpson h hh).Exact2 where
  w_nonneg p := by
    simp only [simpson]
    split_ifs <;> positivity
  lam_nonneg p := by simp only [simpson]; positivity
  lam_le p := by
    obtain ⟨a, b⟩ := p
    fin_cases b <;> norm_num [simpson]
  one := by
    intro i hi
    rw [Finset.sum_filter, Fintype.sum_prod_type]
    simp only [Fin.sum_univ_two, Fin.sum_univ_three]
    change i < 2 at hi
    interval_cases i <;> simp [simpson] <;> ring
  two := by
    intro i hi
    rw [Finset.sum_filter, Fintype.sum_prod_type]
    simp only [Fin.sum_univ_two, Fin.sum_univ_three]
    change i < 2 at hi
    interval_cases i <;> simp [simpson] <;> ring

noncomputable def M (D : ℝ) : Mat := { uid := 0, ids := [1], D_0 := D, E_D := 0 }

/-- Initially all the hydrogen is at the left. -/
def un : ℕ → ℝ := hat 0

noncomputable def u (D dt h : ℝ) (i : ℕ) : ℝ :=
  let a := h / (6 * dt)
  let k := D / h
  let u1 := k / (2 * (a + 2 * k))
  if i = 0 then (2 * a - (a - k) * u1) / (2 * a + k)
  else if i = 1 then u1
  else -((a - k) * u1) / (2 * a + k)

noncomputable def P (D dt h : ℝ) (hh : 0 < h) : Problem (Fin 2 × Fin 3) Bool 1 where
  mesh := (simpson h hh).mesh (Fld.const 1)
  mats := [M D]
  mv := { theta := false, sol := (simpson h hh).p1 (u D dt h), prev := (simpson h hh).p1 un }
  T := ⟨Fld.const 300, Fld.const 300⟩
  dt := some dt
  soret := false
  sources := []
  traps := []

theorem cover (D dt h : ℝ) (hh : 0 < h) : Covers (P D dt h hh).mesh (P D dt h hh).mats fun _ => M D :=
  ⟨by simp [P], by simp [P, Line.mesh, simpson, M], by simp [P, M]⟩

theorem solves (D dt h : ℝ) (hD : 0 < D) (hdt : 0 < dt) (hh : 0 < h) (v : ℕ → ℝ)
    (F : Form (Fin 2 × Fin 3) Bool) (hF : (P D dt h hh).form [] ((simpson h hh).p1 v) [] = .ok F) :
    (P D dt h hh).mesh.assemble F = 0 := by
  have : (P D dt h hh).form [] ((simpson h hh).p1 v) [] = .ok _ := rfl
  rw [this] at hF
  cases hF
  have h1 : 0 < h / (6 * dt) := by positivity
  have h2 : 0 < D / h := by positivity
  simp [P, simpson, Line.mesh, Mesh.assemble, Mesh.integrate, Form.neg, subdomainForm, Fld.const, dot,
    sourceForm, fluxesForm, M, Line.p1, u, un, hat, Fintype.sum_prod_type, Fin.sum_univ_three,
    Fin.sum_univ_two, Mobile.conc]
  field_simp
  ring

end BoundCase

open BoundCase in
/-- **C75.** The condition `h² ≤ 6 D dt` cannot be relaxed: whenever it fails there is a simulation (two
cells, no source, no flux, a non-negative initial concentration) whose solution is negative
somewhere. -/
theorem C75_sharp (D dt h : ℝ) (hD : 0 < D) (hdt : 0 < dt) (hh : 0 < h) (hbad : 6 * D * dt < h ^ 2) :
    ∃ (L : Line (Fin 2 × Fin 3)) (P : Problem (Fin 2 × Fin 3) Bool 1) (mat : Fin 2 × Fin 3 → Mat)
      (u un : ℕ → ℝ), OnLine L P [] mat u (fun _ => False) ∧ P.dt = some dt ∧ P.mv.prev = L.p1 un ∧
      (∀ j, 0 ≤ un j) ∧ Pushes L P [] u (fun _ => False) 1 0 ∧ (∀ i, L.h i = h) ∧
      (∀ p, diffAt P mat p = D) ∧ ∃ j ≤ L.N, u j < 0 := by
  refine ⟨simpson h hh, P D dt h hh, fun _ => M D, u D dt h, un, ?_, rfl, rfl, ?_, ?_, fun _ => rfl, ?_,
    2, le_rfl, ?_⟩
  · exact ⟨simpson_exact2 h hh, ⟨_, rfl⟩, rfl, rfl, rfl, rfl, cover D dt h hh, by simp,
      fun v _ F hF => solves D dt h hD hdt hh v F hF⟩
  · intro j; unfold un hat; split_ifs <;> norm_num
  · exact ⟨by simp [P], by simp, by simp⟩
  · intro p; simp [diffAt, arr, M]
  · have h1 : 0 < h / (6 * dt) := by positivity
    have h2 : 0 < D / h := by positivity
    have h3 : 0 < h / (6 * dt) - D / h := by
      rw [sub_pos, div_lt_div_iff₀ hh (by positivity)]
      nlinarith
    simp only [u, OfNat.ofNat_ne_zero, OfNat.ofNat_ne_one, if_false]
    rw [div_neg_iff]
    right
    refine ⟨neg_neg_of_pos (mul_pos h3 (div_pos h2 (by positivity))), by positivity⟩

open BoundCase in
/-- The hypotheses of `C75_lower_bound` are met by the same simulation with `D = dt = h = 1`. -/
example : ∀ j ≤ 2, 0 ≤ u 1 1 1 j :=
  C75_lower_bound (simpson 1 one_pos) (P 1 1 1 one_pos) [] (fun _ => M 1) (u 1 1 1) un (fun _ => False) 1 0
    ⟨simpson_exact2 1 one_pos, ⟨_, rfl⟩, rfl, rfl, rfl, rfl, cover 1 1 1 one_pos, by simp,
      fun v _ F hF => solves 1 1 1 one_pos one_pos one_pos v F hF⟩ rfl one_pos rfl
    (by intro j _; unfold un hat; split_ifs <;> norm_num) ⟨by simp [P], by simp, by simp⟩
    (by intro p; simp [diffAt, arr, M, simpson])

namespace BoundCase

/-- Steady: 1 imposed on the left, mass exchange with an exterior at 3 on the right. -/
noncomputable def us (i : ℕ) : ℝ := if i = 0 then 1 else if i = 1 then 5 / 3 else 7 / 3

noncomputable def Ps : Problem (Fin 2 × Fin 3) Bool 1 :=
  { P 1 1 1 one_pos with
    mv := { theta := false, sol := (simpson 1 one_pos).p1 us, prev := Fld.const 0 }
    dt := none }

def bcs : List (MobBC Bool) := [.flux (.mass (fun _ => 1) fun _ => 3) [2]]

theorem steady_solves (v : ℕ → ℝ) (h : ∀ q, q = false → ((simpson 1 one_pos).p1 v).tr q = 0)
    (F : Form (Fin 2 × Fin 3) Bool) (hF : Ps.form bcs ((simpson 1 one_pos).p1 v) [] = .ok F) :
    Ps.mesh.assemble F = 0 := by
  have h0 : v 0 = 0 := by simpa [Line.p1] using h false rfl
  have : Ps.form bcs ((simpson 1 one_pos).p1 v) [] = .ok _ := rfl
  rw [this] at hF
  cases hF
  simp [Ps, P, simpson, Line.mesh, Mesh.assemble, Mesh.integrate, Form.neg, subdomainForm, Fld.const,
    dot, sourceForm, fluxesForm, M, Line.p1, us, bcs, Fintype.sum_prod_type, Fin.sum_univ_three,
    Fin.sum_univ_two, Mobile.conc, MobBC.form, Flux.form, Mobile.mobileConcS, h0]
  ring

theorem steady_onLine : OnLine (simpson 1 one_pos) Ps bcs (fun _ => M 1) us (· = false) :=
  ⟨simpson_exact2 1 one_pos, ⟨_, rfl⟩, rfl, rfl, rfl, rfl, cover 1 1 1 one_pos, by simp [bcs],
    steady_solves⟩

example : (∀ j ≤ 2, 1 ≤ us j) ∧ ∀ j ≤ 2, us j ≤ 3 := by
  have hD : ∀ p, 0 < diffAt Ps (fun _ => M 1) p := by intro p; simp [diffAt, arr, M]
  constructor
  · refine C75_steady _ Ps bcs _ us _ 1 steady_onLine rfl ⟨by simp [Ps, P], ?_, ?_⟩ hD ⟨false, rfl⟩
    · intro f ss hb q _ _
      simp only [bcs, List.mem_singleton, MobBC.flux.injEq] at hb
      obtain ⟨rfl, rfl⟩ := hb
      cases q <;> norm_num [inward, Line.p1, us, simpson]
    · rintro q rfl; norm_num [Line.p1, us]
  · refine C75_steady_upper _ Ps bcs _ us _ 3 steady_onLine rfl ⟨by simp [Ps, P], ?_, ?_⟩ hD
      ⟨false, rfl⟩
    · intro f ss hb q _ h
      exfalso
      cases q <;> norm_num [Line.p1, us, simpson] at h
    · rintro q rfl; norm_num [Line.p1, us]

/-- Heat: the same initial state and solution as the diffusion with `D = dt = h = 1`, a capacity of 1. -/
theorem heat_onLine : HeatOnLine (simpson 1 one_pos) (Fld.const 1) [M 1] [] [] (fun _ => M 1) (u 1 1 1) un
    (fun _ => 1) (fun _ => False) 1 where
  quad := simpson_exact2 1 one_pos
  cover := cover 1 1 1 one_pos
  pos := one_pos
  capacity := by simp [M, Mat.vcap]
  cap_pos := by simp
  solves := by
    intro v _
    simp [simpson, Line.mesh, Mesh.assemble, Mesh.integrate, heatForm, heatSubdomain, Fld.const,
      dot, M, Line.p1, u, un, hat, Fintype.sum_prod_type, Fin.sum_univ_three, Fin.sum_univ_two]
    ring
  step := by intro p; norm_num [simpson, M]

example : (∀ j ≤ 2, 0 ≤ u 1 1 1 j) ∧ ∀ j ≤ 2, u 1 1 1 j ≤ 1 :=
  ⟨C75_heat_lower_bound _ _ _ _ _ _ _ _ _ _ 1 0 heat_onLine
      (by intro j _; unfold un hat; split_ifs <;> norm_num) (by simp) (by simp) (by simp),
    C75_heat_upper_bound _ _ _ _ _ _ _ _ _ _ 1 1 heat_onLine
      (by intro j _; unfold un hat; split_ifs <;> norm_num) (by simp) (by simp) (by simp)⟩

/-- A run without fluxes: the difference between the ends is divided by 4 at each step. -/
noncomputable def ur (n i : ℕ) : ℝ := if i = 0 then 2 + (1 / 4) ^ n else if i = 1 then 2 else 2 - (1 / 4) ^ n

noncomputable def Pr (n : ℕ) : Problem (Fin 2 × Fin 3) Bool 1 :=
  { P 1 1 1 one_pos with
    mv := { theta := false, sol := (simpson 1 one_pos).p1 (ur (n + 1)), prev := (simpson 1 one_pos).p1 (ur n) } }

theorem run_onLine (n : ℕ) :
    OnLine (simpson 1 one_pos) (Pr n) [] (fun _ => M 1) (ur (n + 1)) fun _ => False := by
  refine ⟨simpson_exact2 1 one_pos, ⟨_, rfl⟩, rfl, rfl, rfl, rfl, cover 1 1 1 one_pos, by simp, ?_⟩
  intro v _ F hF
  have : (Pr n).form [] ((simpson 1 one_pos).p1 v) [] = .ok _ := rfl
  rw [this] at hF
  cases hF
  simp [Pr, P, simpson, Line.mesh, Mesh.assemble, Mesh.integrate, Form.neg, subdomainForm, Fld.const, dot,
    sourceForm, fluxesForm, M, Line.p1, Fintype.sum_prod_type, Fin.sum_univ_three, ur,
    Fin.sum_univ_two, Mobile.conc, pow_succ]
  ring

example (n : ℕ) (p : Fin 2 × Fin 3) : 1 ≤ (Pr n).mv.sol.val p ∧ (Pr n).mv.sol.val p ≤ 3 :=
  (C75_run (simpson 1 one_pos) Pr (fun _ => []) (fun _ => M 1) ur
    (fun _ _ => False) (fun _ => 1) 1 3 run_onLine (fun _ => rfl) (fun _ => one_pos) (fun _ => rfl)
    (by intro j _; unfold ur; split_ifs <;> norm_num) (fun _ => ⟨by simp [Pr, P], by simp, by simp⟩)
    (fun _ => ⟨by simp [Pr, P], by simp, by simp⟩)
    (by intro n p; simp [diffAt, arr, M, simpson]) n).1 p

end BoundCase

end Festim.Props
