import Verif.Spec.Accuracy
import Verif.Proofs.Lines
import Verif.Props.Bounds
import Mathlib.Analysis.Convex.Deriv
import Mathlib.Analysis.Calculus.MeanValue

/-!
# Interpolation, quadrature and stability estimates on a line
-/

open scoped BigOperators

set_option linter.unusedSectionVars false

namespace Festim.Weak

/-- A function with Lipschitz derivative is not far below its chord. -/
theorem bend_upper {φ : ℝ → ℝ} {a h M : ℝ} (hh : 0 < h) (hφ : Bend φ (Set.Icc a (a + h)) M) (s : ℝ)
    (h0 : 0 ≤ s) (h1 : s ≤ 1) :
    φ (a + s * h) ≤ (1 - s) * φ a + s * φ (a + h) + M / 2 * (s * (1 - s) * h ^ 2) := by
  obtain ⟨φ', hd, hlip⟩ := hφ
  have hder : ∀ x ∈ Set.Icc a (a + h), HasDerivWithinAt (fun x => φ x + M / 2 * x ^ 2) (φ' x + M * x)
      (Set.Icc a (a + h)) x := by
    intro x hx
    have h2 : HasDerivWithinAt (fun x : ℝ => M / 2 * x ^ 2) (M / 2 * (2 * x)) (Set.Icc a (a + h)) x := by
      have := ((hasDerivAt_pow 2 x).const_mul (M / 2)).hasDerivWithinAt (s := Set.Icc a (a + h))
      simpa using this
    exact ((hd x hx).add h2).congr_deriv (by ring)
  have hconv : ConvexOn ℝ (Set.Icc a (a + h)) fun x => φ x + M / 2 * x ^ 2 := by
    refine MonotoneOn.convexOn_of_deriv (convex_Icc _ _) (fun x hx => (hder x hx).continuousWithinAt) ?_ ?_
    · intro x hx
      exact ((hder x (interior_subset hx)).mono interior_subset).differentiableWithinAt
    · have hdv : ∀ x ∈ interior (Set.Icc a (a + h)), deriv (fun x => φ x + M / 2 * x ^ 2) x = φ' x + M * x :=
        fun x hx => ((hder x (interior_subset hx)).hasDerivAt (mem_interior_iff_mem_nhds.1 hx)).deriv
      intro x hx y hy hxy
      rw [hdv x hx, hdv y hy]
      have := hlip x (interior_subset hx) y (interior_subset hy)
      rw [abs_sub_comm x y, abs_of_nonneg (sub_nonneg.2 hxy)] at this
      linarith [(abs_le.1 this).2]
  have := hconv.2 (x := a) (y := a + h) ⟨le_rfl, by linarith⟩ ⟨by linarith, le_rfl⟩ (sub_nonneg.2 h1) h0 (by ring)
  simp only [smul_eq_mul] at this
  rw [show (1 - s) * a + s * (a + h) = a + s * h by ring] at this
  linarith [this, show M / 2 * (s * (1 - s) * h ^ 2)
    = (1 - s) * (M / 2 * a ^ 2) + s * (M / 2 * (a + h) ^ 2) - M / 2 * (a + s * h) ^ 2 by ring]

theorem Bend.neg {φ : ℝ → ℝ} {s : Set ℝ} {M : ℝ} (h : Bend φ s M) : Bend (fun x => -φ x) s M := by
  obtain ⟨φ', h1, h2⟩ := h
  refine ⟨fun x => -φ' x, fun x hx => (h1 x hx).neg, fun x hx y hy => ?_⟩
  rw [show -φ' x - -φ' y = -(φ' x - φ' y) by ring, abs_neg]
  exact h2 x hx y hy

theorem Bend.const_nonneg {φ : ℝ → ℝ} {a h M : ℝ} (hh : 0 < h) (hφ : Bend φ (Set.Icc a (a + h)) M) : 0 ≤ M := by
  obtain ⟨φ', -, h2⟩ := hφ
  have := h2 a ⟨le_rfl, by linarith⟩ (a + h) ⟨by linarith, le_rfl⟩
  rw [show a - (a + h) = -h by ring, abs_neg, abs_of_pos hh] at this
  nlinarith [abs_nonneg (φ' a - φ' (a + h))]

/-- Interpolation error. -/
theorem bend_interp {φ : ℝ → ℝ} {a h M : ℝ} (hh : 0 < h) (hφ : Bend φ (Set.Icc a (a + h)) M) (s : ℝ)
    (h0 : 0 ≤ s) (h1 : s ≤ 1) :
    |φ (a + s * h) - ((1 - s) * φ a + s * φ (a + h))| ≤ M * h ^ 2 / 8 := by
  have hM := hφ.const_nonneg hh
  have e1 := bend_upper hh hφ s h0 h1
  have e2 := bend_upper hh hφ.neg s h0 h1
  have e3 : M / 2 * (s * (1 - s) * h ^ 2) ≤ M * h ^ 2 / 8 := by
    have : s * (1 - s) ≤ 1 / 4 := by nlinarith [sq_nonneg (s - 1 / 2)]
    have h4 : 0 ≤ M * h ^ 2 := by positivity
    nlinarith
  rw [abs_le]
  constructor <;> linarith

/-- Backward difference. -/
theorem backward {φ φ' : ℝ → ℝ} {T s t M : ℝ} (hs : 0 ≤ s) (hst : s < t) (ht : t ≤ T)
    (hd : ∀ x ∈ Set.Icc 0 T, HasDerivWithinAt φ (φ' x) (Set.Icc 0 T) x)
    (hlip : ∀ x ∈ Set.Icc 0 T, ∀ y ∈ Set.Icc 0 T, |φ' x - φ' y| ≤ M * |x - y|) :
    |(φ t - φ s) / (t - s) - φ' t| ≤ M / 2 * (t - s) := by
  have key : ∀ (φ φ' : ℝ → ℝ), (∀ x ∈ Set.Icc 0 T, HasDerivWithinAt φ (φ' x) (Set.Icc 0 T) x) →
      (∀ x ∈ Set.Icc 0 T, ∀ y ∈ Set.Icc 0 T, |φ' x - φ' y| ≤ M * |x - y|) →
      φ' t * (t - s) - M / 2 * (t - s) ^ 2 ≤ φ t - φ s := by
    intro φ φ' hd hlip
    have hsub : Set.Icc s t ⊆ Set.Icc 0 T := Set.Icc_subset_Icc hs ht
    have hder : ∀ x ∈ Set.Icc s t, HasDerivWithinAt (fun x => φ x - φ' t * x - M / 2 * (t - x) ^ 2)
        (φ' x - φ' t + M * (t - x)) (Set.Icc s t) x := by
      intro x hx
      have e1 := (hd x (hsub hx)).mono hsub
      have e2 : HasDerivWithinAt (fun x => φ' t * x) (φ' t) (Set.Icc s t) x := by
        simpa using (hasDerivWithinAt_id x (Set.Icc s t)).const_mul (φ' t)
      have e3 : HasDerivWithinAt (fun x => M / 2 * (t - x) ^ 2) (-(M * (t - x))) (Set.Icc s t) x := by
        have : HasDerivWithinAt (fun x => t - x) (-1) (Set.Icc s t) x := by
          simpa using (hasDerivWithinAt_id x (Set.Icc s t)).const_sub t
        have := ((this.pow 2).const_mul (M / 2))
        refine this.congr_deriv ?_
        simp
        ring
      exact ((e1.sub e2).sub e3).congr_deriv (by ring)
    have hmono : MonotoneOn (fun x => φ x - φ' t * x - M / 2 * (t - x) ^ 2) (Set.Icc s t) := by
      refine monotoneOn_of_hasDerivWithinAt_nonneg (convex_Icc s t) (fun x hx => (hder x hx).continuousWithinAt)
        (fun x hx => (hder x (interior_subset hx)).mono interior_subset) ?_
      intro x hx
      have hx' := interior_subset hx
      have := hlip x (hsub hx') t (hsub ⟨hst.le, le_rfl⟩)
      rw [abs_sub_comm x t, abs_of_nonneg (sub_nonneg.2 hx'.2)] at this
      linarith [(abs_le.1 this).1]
    have := hmono ⟨le_rfl, hst.le⟩ ⟨hst.le, le_rfl⟩ hst.le
    simp only at this
    nlinarith [this]
  have hk : 0 < t - s := sub_pos.2 hst
  have e1 := key φ φ' hd hlip
  have e2 := key (fun x => -φ x) (fun x => -φ' x) (fun x hx => (hd x hx).neg) (fun x hx y hy => by
    rw [show -φ' x - -φ' y = -(φ' x - φ' y) by ring, abs_neg]; exact hlip x hx y hy)
  have e3 : (φ t - φ s) / (t - s) - φ' t = (φ t - φ s - φ' t * (t - s)) / (t - s) := by
    field_simp
  rw [e3, abs_div, abs_of_pos hk, div_le_iff₀ hk, abs_le]
  constructor <;> nlinarith

/-- Integration by parts and quadrature on one cell. -/
theorem cell_parts {φ φ' φ'' : ℝ → ℝ} {a h K M va vb : ℝ} (hh : 0 < h)
    (h1 : ∀ x ∈ Set.Icc a (a + h), HasDerivWithinAt φ (φ' x) (Set.Icc a (a + h)) x)
    (h2 : ∀ x ∈ Set.Icc a (a + h), HasDerivWithinAt φ' (φ'' x) (Set.Icc a (a + h)) x)
    (hb : Bend (fun x => K * φ'' x) (Set.Icc a (a + h)) M) :
    |K * (φ' (a + h) * vb - φ' a * va - (φ (a + h) - φ a) * (vb - va) / h)
      - h * (2 * (K * φ'' a) * va + K * φ'' a * vb + K * φ'' (a + h) * va + 2 * (K * φ'' (a + h)) * vb) / 6|
      ≤ M * h ^ 2 / 8 * max |va| |vb| * h := by
  set α := K * φ'' a with hα
  set β := K * φ'' (a + h) with hβ
  set δ := vb - va with hδ
  have hmem : ∀ x ∈ Set.Icc a (a + h), 0 ≤ (x - a) / h ∧ (x - a) / h ≤ 1 ∧ a + (x - a) / h * h = x := by
    intro x hx
    refine ⟨div_nonneg (sub_nonneg.2 hx.1) hh.le, (div_le_one hh).2 (by linarith [hx.2]), ?_⟩
    rw [div_mul_cancel₀ _ hh.ne']
    ring
  have hder : ∀ x ∈ Set.Icc a (a + h), HasDerivWithinAt
      (fun x => K * (φ' x * (va + δ * ((x - a) / h)) - φ x * (δ / h))
        - h * (α * va * ((x - a) / h) + (α * δ + (β - α) * va) / 2 * ((x - a) / h) ^ 2
          + (β - α) * δ / 3 * ((x - a) / h) ^ 3))
      ((K * φ'' x - ((1 - (x - a) / h) * α + (x - a) / h * β)) * (va + δ * ((x - a) / h)))
      (Set.Icc a (a + h)) x := by
    intro x hx
    have es : HasDerivWithinAt (fun x => (x - a) / h) (1 / h) (Set.Icc a (a + h)) x := by
      simpa using ((hasDerivWithinAt_id x (Set.Icc a (a + h))).sub_const a).div_const h
    have ev : HasDerivWithinAt (fun x => va + δ * ((x - a) / h)) (δ * (1 / h)) (Set.Icc a (a + h)) x :=
      (es.const_mul δ).const_add va
    have e1 := (((h2 x hx).mul ev).sub ((h1 x hx).mul_const (δ / h))).const_mul K
    have e2 := (((es.const_mul (α * va)).add ((es.pow 2).const_mul ((α * δ + (β - α) * va) / 2))).add
      ((es.pow 3).const_mul ((β - α) * δ / 3))).const_mul h
    refine (e1.sub e2).congr_deriv ?_
    simp only [Nat.cast_ofNat, Nat.add_one_sub_one, pow_one]
    field_simp
    ring
  have hbound : ∀ x ∈ Set.Icc a (a + h),
      ‖(K * φ'' x - ((1 - (x - a) / h) * α + (x - a) / h * β)) * (va + δ * ((x - a) / h))‖
        ≤ M * h ^ 2 / 8 * max |va| |vb| := by
    intro x hx
    obtain ⟨s0, s1, sx⟩ := hmem x hx
    have e1 := bend_interp hh hb _ s0 s1
    rw [sx] at e1
    rw [Real.norm_eq_abs, abs_mul]
    refine mul_le_mul e1 ?_ (abs_nonneg _) (by have := hb.const_nonneg hh; positivity)
    have : va + δ * ((x - a) / h) = (1 - (x - a) / h) * va + (x - a) / h * vb := by rw [hδ]; ring
    rw [this]
    calc |(1 - (x - a) / h) * va + (x - a) / h * vb|
        ≤ |(1 - (x - a) / h) * va| + |(x - a) / h * vb| := abs_add_le _ _
      _ = (1 - (x - a) / h) * |va| + (x - a) / h * |vb| := by
          rw [abs_mul, abs_mul, abs_of_nonneg s0, abs_of_nonneg (sub_nonneg.2 s1)]
      _ ≤ (1 - (x - a) / h) * max |va| |vb| + (x - a) / h * max |va| |vb| :=
          add_le_add (mul_le_mul_of_nonneg_left (le_max_left _ _) (sub_nonneg.2 s1))
            (mul_le_mul_of_nonneg_left (le_max_right _ _) s0)
      _ = max |va| |vb| := by ring
  have := Convex.norm_image_sub_le_of_norm_hasDerivWithin_le hder hbound (convex_Icc a (a + h))
    (x := a) (y := a + h) ⟨le_rfl, by linarith⟩ ⟨by linarith, le_rfl⟩
  rw [Real.norm_eq_abs, Real.norm_eq_abs, add_sub_cancel_left, abs_of_pos hh] at this
  refine le_trans (le_of_eq (congrArg abs ?_)) this
  rw [sub_self, zero_div, div_self hh.ne', hδ]
  field_simp
  ring

section
variable {Ω : Type} [Fintype Ω]

theorem Line.node_succ (L : Line Ω) (x0 : ℝ) (i : ℕ) : L.node x0 (i + 1) = L.node x0 i + L.h i := by
  unfold Line.node
  rw [Finset.sum_range_succ]
  ring

theorem Line.span_eq (L : Line Ω) (x0 : ℝ) (i : ℕ) :
    L.span x0 i = Set.Icc (L.node x0 i) (L.node x0 i + L.h i) := by
  unfold Line.span
  rw [L.node_succ]

theorem Line.node_left_mem (L : Line Ω) (x0 : ℝ) (i : ℕ) (hi : i < L.N) : L.node x0 i ∈ L.span x0 i := by
  rw [L.span_eq]
  exact ⟨le_rfl, by linarith [L.h_pos i hi]⟩

theorem Line.node_right_mem (L : Line Ω) (x0 : ℝ) (i : ℕ) (hi : i < L.N) : L.node x0 (i + 1) ∈ L.span x0 i := by
  rw [L.span_eq, L.node_succ]
  exact ⟨by linarith [L.h_pos i hi], le_rfl⟩

theorem Line.pos_mem (L : Line Ω) (hL : L.Exact2) (x0 : ℝ) (p : Ω) : L.pos x0 p ∈ L.span x0 (L.cell p) := by
  rw [L.span_eq]
  have hh := L.h_pos _ (L.cell_lt p)
  have h0 := hL.lam_nonneg p
  have h1 := hL.lam_le p
  unfold Line.pos
  exact ⟨by nlinarith, by nlinarith⟩

/-- A quadrature of the product of two affine functions on a cell. -/
theorem cell_product (L : Line Ω) (hL : L.Exact2) (i : ℕ) (hi : i < L.N) (a b c d : ℝ) :
    ∑ p ∈ Finset.univ.filter (fun p => L.cell p = i),
      L.w p * (((1 - L.lam p) * a + L.lam p * b) * ((1 - L.lam p) * c + L.lam p * d))
      = L.h i * (2 * a * c + a * d + b * c + 2 * b * d) / 6 := by
  have e : ∀ p, L.w p * (((1 - L.lam p) * a + L.lam p * b) * ((1 - L.lam p) * c + L.lam p * d))
      = a * c * L.w p + (a * (d - c) + (b - a) * c) * (L.w p * L.lam p)
        + (b - a) * (d - c) * (L.w p * L.lam p ^ 2) := fun p => by ring
  simp only [e]
  rw [Finset.sum_add_distrib, Finset.sum_add_distrib, ← Finset.mul_sum, ← Finset.mul_sum, ← Finset.mul_sum,
    L.exact i hi, hL.one i hi, hL.two i hi]
  ring

/-- The energy, cell by cell. -/
theorem energy_cells (L : Line Ω) (hL : L.Exact2) (cap : ℕ → ℝ) (v : ℕ → ℝ) :
    ∑ p, L.w p * (cap (L.cell p) * (L.p1 v).val p ^ 2)
      = ∑ i ∈ Finset.range L.N, cap i * (L.h i * (v i ^ 2 + v i * v (i + 1) + v (i + 1) ^ 2) / 3) := by
  rw [cells_sum]
  refine Finset.sum_congr rfl fun i hi => ?_
  have hi := Finset.mem_range.1 hi
  have := cell_product L hL i hi (v i) (v (i + 1)) (v i) (v (i + 1))
  rw [show cap i * (L.h i * (v i ^ 2 + v i * v (i + 1) + v (i + 1) ^ 2) / 3)
    = cap i * (L.h i * (2 * v i * v i + v i * v (i + 1) + v (i + 1) * v i + 2 * v (i + 1) * v (i + 1)) / 6) by ring,
    ← this, Finset.mul_sum]
  refine Finset.sum_congr rfl fun p hp => ?_
  have hc := (Finset.mem_filter.1 hp).2
  simp only [Line.p1, hc]
  ring

theorem size_cells (L : Line Ω) (cap : ℕ → ℝ) :
    ∑ p, L.w p / cap (L.cell p) = ∑ i ∈ Finset.range L.N, L.h i / cap i := by
  have := cells_sum L fun p => 1 / cap (L.cell p)
  simp only [mul_one_div] at this
  rw [this]
  refine Finset.sum_congr rfl fun i hi => ?_
  rw [← L.exact i (Finset.mem_range.1 hi), Finset.sum_div]
  refine Finset.sum_congr rfl fun p hp => ?_
  rw [(Finset.mem_filter.1 hp).2]

theorem size_sq (L : Line Ω) {cap : ℕ → ℝ} (hcap : ∀ i < L.N, 0 < cap i) :
    L.size cap ^ 2 = ∑ i ∈ Finset.range L.N, L.h i / cap i :=
  Real.sq_sqrt (Finset.sum_nonneg fun i hi =>
    (div_pos (L.h_pos i (Finset.mem_range.1 hi)) (hcap i (Finset.mem_range.1 hi))).le)

theorem energy_sq (L : Line Ω) (hL : L.Exact2) {cap : ℕ → ℝ} (hcap : ∀ i < L.N, 0 < cap i) (v : ℕ → ℝ) :
    L.energy cap v ^ 2 = ∑ p, L.w p * (cap (L.cell p) * (L.p1 v).val p ^ 2) :=
  Real.sq_sqrt (Finset.sum_nonneg fun p _ =>
    mul_nonneg (hL.w_nonneg p) (mul_nonneg (hcap _ (L.cell_lt p)).le (sq_nonneg _)))

/-- `∫ |v| ≤ size energy`. -/
theorem mean_le (L : Line Ω) (hL : L.Exact2) {cap : ℕ → ℝ} (hcap : ∀ i < L.N, 0 < cap i) (v : ℕ → ℝ) :
    ∑ p, L.w p * |(L.p1 v).val p| ≤ L.size cap * L.energy cap v := by
  have h := Finset.sum_sq_le_sum_mul_sum_of_sq_le_mul Finset.univ
    (r := fun p => L.w p * |(L.p1 v).val p|) (f := fun p => L.w p / cap (L.cell p))
    (g := fun p => L.w p * (cap (L.cell p) * (L.p1 v).val p ^ 2))
    (fun p _ => div_nonneg (hL.w_nonneg p) (hcap _ (L.cell_lt p)).le)
    (fun p _ => mul_nonneg (hL.w_nonneg p) (mul_nonneg (hcap _ (L.cell_lt p)).le (sq_nonneg _)))
    (fun p _ => by
      have := (hcap _ (L.cell_lt p)).ne'
      rw [mul_pow, sq_abs]
      refine le_of_eq ?_
      field_simp)
  rw [size_cells, ← size_sq L hcap, ← energy_sq L hL hcap, ← mul_pow] at h
  exact abs_le_of_sq_le_sq' h (mul_nonneg (Real.sqrt_nonneg _) (Real.sqrt_nonneg _)) |>.2

/-- The same for the maximum in each cell. -/
theorem max_le (L : Line Ω) (hL : L.Exact2) {cap : ℕ → ℝ} (hcap : ∀ i < L.N, 0 < cap i) (v : ℕ → ℝ) :
    ∑ i ∈ Finset.range L.N, L.h i * max |v i| |v (i + 1)| ≤ 2 * (L.size cap * L.energy cap v) := by
  have h := Finset.sum_sq_le_sum_mul_sum_of_sq_le_mul (Finset.range L.N)
    (r := fun i => L.h i * max |v i| |v (i + 1)|) (f := fun i => L.h i / cap i)
    (g := fun i => L.h i * cap i * max |v i| |v (i + 1)| ^ 2)
    (fun i hi => (div_pos (L.h_pos i (Finset.mem_range.1 hi)) (hcap i (Finset.mem_range.1 hi))).le)
    (fun i hi => mul_nonneg (mul_pos (L.h_pos i (Finset.mem_range.1 hi)) (hcap i (Finset.mem_range.1 hi))).le
      (sq_nonneg _))
    (fun i hi => by
      have := (hcap i (Finset.mem_range.1 hi)).ne'
      rw [mul_pow]
      refine le_of_eq ?_
      field_simp)
  have h2 : ∑ i ∈ Finset.range L.N, L.h i * cap i * max |v i| |v (i + 1)| ^ 2 ≤ 4 * L.energy cap v ^ 2 := by
    rw [energy_sq L hL hcap, energy_cells L hL, Finset.mul_sum]
    refine Finset.sum_le_sum fun i hi => ?_
    have hi := Finset.mem_range.1 hi
    have hp : 0 ≤ L.h i * cap i := (mul_pos (L.h_pos i hi) (hcap i hi)).le
    have : max |v i| |v (i + 1)| ^ 2 ≤ 4 * ((v i ^ 2 + v i * v (i + 1) + v (i + 1) ^ 2) / 3) := by
      rcases max_cases |v i| |v (i + 1)| with ⟨e, -⟩ | ⟨e, -⟩ <;> rw [e, sq_abs]
      · nlinarith [sq_nonneg (v i + 2 * v (i + 1))]
      · nlinarith [sq_nonneg (2 * v i + v (i + 1))]
    calc L.h i * cap i * max |v i| |v (i + 1)| ^ 2
        ≤ L.h i * cap i * (4 * ((v i ^ 2 + v i * v (i + 1) + v (i + 1) ^ 2) / 3)) :=
          mul_le_mul_of_nonneg_left this hp
      _ = _ := by ring
  rw [← size_sq L hcap] at h
  have h3 : (∑ i ∈ Finset.range L.N, L.h i * max |v i| |v (i + 1)|) ^ 2
      ≤ (2 * (L.size cap * L.energy cap v)) ^ 2 := by
    refine h.trans ((mul_le_mul_of_nonneg_left h2 (sq_nonneg _)).trans (le_of_eq (by ring)))
  exact abs_le_of_sq_le_sq' h3 (mul_nonneg two_pos.le (mul_nonneg (Real.sqrt_nonneg _) (Real.sqrt_nonneg _))) |>.2

/-- Cauchy-Schwarz for the energy. -/
theorem energy_inner (L : Line Ω) (hL : L.Exact2) {cap : ℕ → ℝ} (hcap : ∀ i < L.N, 0 < cap i) (u v : ℕ → ℝ) :
    ∑ p, L.w p * (cap (L.cell p) * ((L.p1 u).val p * (L.p1 v).val p)) ≤ L.energy cap u * L.energy cap v := by
  have hp : ∀ p, 0 ≤ L.w p * cap (L.cell p) := fun p => mul_nonneg (hL.w_nonneg p) (hcap _ (L.cell_lt p)).le
  have h := Finset.sum_sq_le_sum_mul_sum_of_sq_le_mul Finset.univ
    (r := fun p => L.w p * (cap (L.cell p) * ((L.p1 u).val p * (L.p1 v).val p)))
    (f := fun p => L.w p * (cap (L.cell p) * (L.p1 u).val p ^ 2))
    (g := fun p => L.w p * (cap (L.cell p) * (L.p1 v).val p ^ 2))
    (fun p _ => by rw [← mul_assoc]; exact mul_nonneg (hp p) (sq_nonneg _))
    (fun p _ => by rw [← mul_assoc]; exact mul_nonneg (hp p) (sq_nonneg _))
    (fun p _ => le_of_eq (by ring))
  rw [← energy_sq L hL hcap, ← energy_sq L hL hcap, ← mul_pow] at h
  exact abs_le_of_sq_le_sq' h (mul_nonneg (Real.sqrt_nonneg _) (Real.sqrt_nonneg _)) |>.2

variable {L : Line Ω} {x0 final : ℝ} {cap : ℕ → ℝ} {K lam : ℝ → ℕ → ℝ} {f : ℝ → ℕ → ℝ → ℝ} {w : ℝ → ℝ → ℝ}
  {slope curv : ℝ → ℕ → ℝ → ℝ} {rate : ℝ → ℝ → ℝ} {Mt Mtx Ml Mx : ℝ}

/-- Nodal values of a function. -/
noncomputable def Line.nodal (L : Line Ω) (x0 : ℝ) (φ : ℝ → ℝ) (i : ℕ) : ℝ := φ (L.node x0 i)

theorem nodal_interp (L : Line Ω) (hL : L.Exact2) (φ : ℝ → ℝ) (M H : ℝ) (p : Ω)
    (hφ : Bend φ (L.span x0 (L.cell p)) M) (hH : L.h (L.cell p) ≤ H) :
    |φ (L.pos x0 p) - ((1 - L.lam p) * φ (L.node x0 (L.cell p)) + L.lam p * φ (L.node x0 (L.cell p + 1)))|
      ≤ M * H ^ 2 / 8 := by
  have hh := L.h_pos _ (L.cell_lt p)
  rw [L.span_eq] at hφ
  have hM := hφ.const_nonneg hh
  rw [L.node_succ]
  refine (bend_interp hh hφ _ (hL.lam_nonneg p) (hL.lam_le p)).trans ?_
  have : L.h (L.cell p) ^ 2 ≤ H ^ 2 := pow_le_pow_left₀ hh.le hH 2
  nlinarith

/-- The flux through the ends. -/
theorem telescope (L : Line Ω) (k : ℕ → ℝ) (sl sr v : ℕ → ℝ) (hc : ∀ i, i + 1 < L.N → k i * sr i = k (i + 1) * sl (i + 1)) :
    ∀ n, 0 < n → n ≤ L.N → ∑ i ∈ Finset.range n, k i * (sr i * v (i + 1) - sl i * v i)
      = k (n - 1) * sr (n - 1) * v n - k 0 * sl 0 * v 0 := by
  intro n hn
  induction n with
  | zero => omega
  | succ n ih =>
    intro hle
    rw [Finset.sum_range_succ]
    rcases Nat.eq_zero_or_pos n with rfl | hn'
    · simp; ring
    · rw [ih hn' (by omega)]
      have := hc (n - 1) (by omega)
      rw [show n - 1 + 1 = n by omega] at this
      rw [this, Nat.add_sub_cancel]
      ring

/-- `u` and `un` at the times `t` and `s` satisfy the discrete equation of the step; `dir` are the ends with Dirichlet
conditions. -/
def DiscreteStep (L : Line Ω) (cap : ℕ → ℝ) (K lam : ℕ → ℝ) (given : Ω → ℝ) (g β : Bool → ℝ) (dir : Bool → Prop)
    (k : ℝ) (un u : ℕ → ℝ) : Prop :=
  ∀ v : ℕ → ℝ, (∀ q, dir q → (L.p1 v).tr q = 0) →
    bil L (fun p => (1 / k + lam (L.cell p)) * cap (L.cell p)) (fun p => K (L.cell p)) β u v
      = lin L (fun p => cap (L.cell p) * (L.p1 un).val p / k + given p) g v

theorem p1_node (L : Line Ω) (v : ℕ → ℝ) (q : Bool) : (L.p1 v).tr q = v (L.endNo q) := by
  cases q <;> rfl

theorem abs_five {a b c d e A B C D E : ℝ} (h1 : |a| ≤ A) (h2 : |b| ≤ B) (h3 : |c| ≤ C) (h4 : |d| ≤ D)
    (h5 : |e| ≤ E) : |a + b - c + d - e| ≤ A + B + C + D + E := by
  rw [abs_le] at *
  constructor <;> linarith [h1.1, h1.2, h2.1, h2.2, h3.1, h3.2, h4.1, h4.2, h5.1, h5.2]

theorem consistency (hL : L.Exact2) (hcap : ∀ i < L.N, 0 < cap i)
    (hw : Diffuses L x0 final cap K lam f w slope curv rate)
    (hM : SmoothBy L x0 final cap K lam w curv rate Mt Mtx Ml Mx) {s t H ε : ℝ} (hs : 0 ≤ s) (hst : s < t)
    (ht : t ≤ final) (hH : ∀ i < L.N, L.h i ≤ H) {given : Ω → ℝ}
    (hf : ∀ p, |given p - f t (L.cell p) (L.pos x0 p)| ≤ ε) {g β : Bool → ℝ} {dir : Bool → Prop}
    (hend : ∀ q, ¬ dir q → EndFlux L x0 K w slope t q (g q) (β q)) (v : ℕ → ℝ)
    (hv : ∀ q, dir q → (L.p1 v).tr q = 0) :
    |lin L (fun p => cap (L.cell p) * (L.p1 (L.nodal x0 (w s))).val p / (t - s) + given p) g v
      - bil L (fun p => (1 / (t - s) + lam t (L.cell p)) * cap (L.cell p)) (fun p => K t (L.cell p)) β
        (L.nodal x0 (w t)) v|
      ≤ (Mt / 2 * (t - s) + H ^ 2 / 8 * (Mtx + Ml + 3 * Mx) + ε) * (L.size cap * L.energy cap v) := by
  have hk : 0 < t - s := sub_pos.2 hst
  have htm : t ∈ Set.Icc 0 final := ⟨hs.trans hst.le, ht⟩
  set W := L.nodal x0 (w t) with hW
  set V := L.nodal x0 (w s) with hV
  set Ic : Ω → ℝ := fun p => (1 - L.lam p) * (K t (L.cell p) * curv t (L.cell p) (L.node x0 (L.cell p)))
    + L.lam p * (K t (L.cell p) * curv t (L.cell p) (L.node x0 (L.cell p + 1))) with hIc
  set S : Ω → ℝ := fun p => given p - lam t (L.cell p) * cap (L.cell p) * (L.p1 W).val p
    - cap (L.cell p) * ((L.p1 W).val p - (L.p1 V).val p) / (t - s) with hS
  -- the ends
  have hends : ∑ q, (g q - β q * (L.p1 W).tr q) * (L.p1 v).tr q
      = ∑ i ∈ Finset.range L.N, K t i * (slope t i (L.node x0 (i + 1)) * v (i + 1) - slope t i (L.node x0 i) * v i) := by
    rw [telescope L (K t) (fun i => slope t i (L.node x0 i)) (fun i => slope t i (L.node x0 (i + 1))) v
      (fun i hi => hw.flux t htm i hi) L.N L.N_pos le_rfl]
    have hq : ∀ q, (g q - β q * (L.p1 W).tr q) * (L.p1 v).tr q
        = K t (L.endCell q) * slope t (L.endCell q) (L.node x0 (L.endNo q)) * Line.normal q 0 * (L.p1 v).tr q := by
      intro q
      by_cases hd : dir q
      · rw [hv q hd, mul_zero, mul_zero]
      · rw [hend q hd, p1_node L W]
        rfl
    rw [Fintype.sum_bool, hq, hq, p1_node, p1_node]
    simp only [Line.endCell, Line.endNo, Line.normal, if_true, Bool.false_eq_true, if_false]
    rw [show L.N - 1 + 1 = L.N from Nat.sub_add_cancel L.N_pos]
    ring
  -- the gradients
  have hgrad : ∑ p, L.w p * (K t (L.cell p) * ((L.p1 W).grad p 0 * (L.p1 v).grad p 0))
      = ∑ i ∈ Finset.range L.N, K t i * ((W (i + 1) - W i) * (v (i + 1) - v i) / L.h i) := by
    rw [cells_sum]
    refine Finset.sum_congr rfl fun i hi => ?_
    have hi := Finset.mem_range.1 hi
    have hh := (L.h_pos i hi).ne'
    have e : ∀ p ∈ Finset.univ.filter (fun p => L.cell p = i),
        L.w p * (K t (L.cell p) * ((L.p1 W).grad p 0 * (L.p1 v).grad p 0))
          = L.w p * (K t i * ((W (i + 1) - W i) / L.h i * ((v (i + 1) - v i) / L.h i))) := by
      intro p hp
      simp only [Line.p1, (Finset.mem_filter.1 hp).2]
    rw [Finset.sum_congr rfl e, ← Finset.sum_mul, L.exact i hi]
    field_simp
  -- the interpolated divergence
  have hdiv : ∑ p, L.w p * (Ic p * (L.p1 v).val p)
      = ∑ i ∈ Finset.range L.N, L.h i * (2 * (K t i * curv t i (L.node x0 i)) * v i
          + K t i * curv t i (L.node x0 i) * v (i + 1) + K t i * curv t i (L.node x0 (i + 1)) * v i
          + 2 * (K t i * curv t i (L.node x0 (i + 1))) * v (i + 1)) / 6 := by
    rw [cells_sum]
    refine Finset.sum_congr rfl fun i hi => ?_
    rw [← cell_product L hL i (Finset.mem_range.1 hi)]
    refine Finset.sum_congr rfl fun p hp => ?_
    simp only [hIc, Line.p1, (Finset.mem_filter.1 hp).2]
  have hR : lin L (fun p => cap (L.cell p) * (L.p1 V).val p / (t - s) + given p) g v
      - bil L (fun p => (1 / (t - s) + lam t (L.cell p)) * cap (L.cell p)) (fun p => K t (L.cell p)) β W v
      = (∑ p, L.w p * ((S p + Ic p) * (L.p1 v).val p))
        + ∑ i ∈ Finset.range L.N, (K t i * (slope t i (L.node x0 (i + 1)) * v (i + 1)
            - slope t i (L.node x0 i) * v i - (W (i + 1) - W i) * (v (i + 1) - v i) / L.h i)
          - L.h i * (2 * (K t i * curv t i (L.node x0 i)) * v i
          + K t i * curv t i (L.node x0 i) * v (i + 1) + K t i * curv t i (L.node x0 (i + 1)) * v i
          + 2 * (K t i * curv t i (L.node x0 (i + 1))) * v (i + 1)) / 6) := by
    have e1 : ∑ i ∈ Finset.range L.N, (K t i * (slope t i (L.node x0 (i + 1)) * v (i + 1)
            - slope t i (L.node x0 i) * v i - (W (i + 1) - W i) * (v (i + 1) - v i) / L.h i)
          - L.h i * (2 * (K t i * curv t i (L.node x0 i)) * v i
          + K t i * curv t i (L.node x0 i) * v (i + 1) + K t i * curv t i (L.node x0 (i + 1)) * v i
          + 2 * (K t i * curv t i (L.node x0 (i + 1))) * v (i + 1)) / 6)
        = ∑ q, (g q - β q * (L.p1 W).tr q) * (L.p1 v).tr q
          - ∑ p, L.w p * (K t (L.cell p) * ((L.p1 W).grad p 0 * (L.p1 v).grad p 0))
          - ∑ p, L.w p * (Ic p * (L.p1 v).val p) := by
      rw [hends, hgrad, hdiv, ← Finset.sum_sub_distrib, ← Finset.sum_sub_distrib]
      exact Finset.sum_congr rfl fun i _ => by ring
    rw [e1]
    have e2 : ∑ p, L.w p * ((S p + Ic p) * (L.p1 v).val p)
        = ∑ p, L.w p * (S p * (L.p1 v).val p) + ∑ p, L.w p * (Ic p * (L.p1 v).val p) := by
      rw [← Finset.sum_add_distrib]
      exact Finset.sum_congr rfl fun p _ => by ring
    rw [e2]
    unfold lin bil
    have e3 : ∑ p, L.w p * ((cap (L.cell p) * (L.p1 V).val p / (t - s) + given p) * (L.p1 v).val p)
        - ∑ p, L.w p * ((1 / (t - s) + lam t (L.cell p)) * cap (L.cell p) * ((L.p1 W).val p * (L.p1 v).val p)
          + K t (L.cell p) * ((L.p1 W).grad p 0 * (L.p1 v).grad p 0))
        = ∑ p, L.w p * (S p * (L.p1 v).val p)
          - ∑ p, L.w p * (K t (L.cell p) * ((L.p1 W).grad p 0 * (L.p1 v).grad p 0)) := by
      rw [← Finset.sum_sub_distrib, ← Finset.sum_sub_distrib]
      refine Finset.sum_congr rfl fun p _ => ?_
      simp only [hS]
      ring
    have e4 : ∑ q, (g q - β q * (L.p1 W).tr q) * (L.p1 v).tr q
        = ∑ q, g q * (L.p1 v).tr q - ∑ q, β q * ((L.p1 W).tr q * (L.p1 v).tr q) := by
      rw [← Finset.sum_sub_distrib]
      exact Finset.sum_congr rfl fun q _ => by ring
    rw [e4]
    linarith
  -- pointwise bound
  have hpt : ∀ p, |S p + Ic p| ≤ Mt / 2 * (t - s) + H ^ 2 / 8 * (Mtx + Ml + Mx) + ε := by
    intro p
    have hc := L.cell_lt p
    have hx := L.pos_mem hL x0 p
    have l0 := hL.lam_nonneg p
    have l1 := hL.lam_le p
    have hHc := hH _ hc
    have b1 := hf p
    have b2 := nodal_interp L hL _ Mtx H p (hM.bendRate t htm _ hc) hHc
    have b3 := nodal_interp L hL _ Ml H p (hM.bendDecay t htm _ hc) hHc
    have b4 := nodal_interp L hL _ Mx H p (hM.bendCurv t htm _ hc) hHc
    have hback : ∀ x ∈ L.span x0 (L.cell p),
        |(cap (L.cell p) * w t x - cap (L.cell p) * w s x) / (t - s) - cap (L.cell p) * rate t x|
          ≤ Mt / 2 * (t - s) := by
      intro x hx
      exact backward (φ := fun s => cap (L.cell p) * w s x) (φ' := fun s => cap (L.cell p) * rate s x) hs hst ht
        (fun τ hτ => (hw.hasRate τ hτ _ hc x hx).const_mul _) (hM.time _ hc x hx)
    have c1 := hback _ (L.node_left_mem x0 _ hc)
    have c2 := hback _ (L.node_right_mem x0 _ hc)
    have heq := hw.equation t htm _ hc _ hx
    set i := L.cell p with hi
    set a1 := (cap i * w t (L.node x0 i) - cap i * w s (L.node x0 i)) / (t - s) - cap i * rate t (L.node x0 i)
      with ha1
    set a2 := (cap i * w t (L.node x0 (i + 1)) - cap i * w s (L.node x0 (i + 1))) / (t - s)
      - cap i * rate t (L.node x0 (i + 1)) with ha2
    have c3 : |(1 - L.lam p) * a1 + L.lam p * a2| ≤ Mt / 2 * (t - s) := by
      calc |(1 - L.lam p) * a1 + L.lam p * a2| ≤ |(1 - L.lam p) * a1| + |L.lam p * a2| := abs_add_le _ _
        _ = (1 - L.lam p) * |a1| + L.lam p * |a2| := by
            rw [abs_mul, abs_mul, abs_of_nonneg l0, abs_of_nonneg (sub_nonneg.2 l1)]
        _ ≤ (1 - L.lam p) * (Mt / 2 * (t - s)) + L.lam p * (Mt / 2 * (t - s)) :=
            add_le_add (mul_le_mul_of_nonneg_left c1 (sub_nonneg.2 l1)) (mul_le_mul_of_nonneg_left c2 l0)
        _ = _ := by ring
    have hsum : S p + Ic p = (given p - f t i (L.pos x0 p))
        + (cap i * rate t (L.pos x0 p)
          - ((1 - L.lam p) * (cap i * rate t (L.node x0 i)) + L.lam p * (cap i * rate t (L.node x0 (i + 1)))))
        - ((1 - L.lam p) * a1 + L.lam p * a2)
        + (lam t i * (cap i * w t (L.pos x0 p))
          - ((1 - L.lam p) * (lam t i * (cap i * w t (L.node x0 i)))
            + L.lam p * (lam t i * (cap i * w t (L.node x0 (i + 1))))))
        - (K t i * curv t i (L.pos x0 p)
          - ((1 - L.lam p) * (K t i * curv t i (L.node x0 i)) + L.lam p * (K t i * curv t i (L.node x0 (i + 1))))) := by
      rw [heq]
      simp only [hS, hIc, ha1, ha2, hW, hV, Line.nodal, Line.p1, ← hi]
      field_simp
      ring
    rw [hsum]
    exact (abs_five b1 b2 c3 b3 b4).trans (le_of_eq (by ring))
  have hMx : 0 ≤ Mx := by
    have := hM.bendCurv t htm 0 L.N_pos
    rw [L.span_eq] at this
    exact this.const_nonneg (L.h_pos 0 L.N_pos)
  have hcell : ∀ i ∈ Finset.range L.N, |K t i * (slope t i (L.node x0 (i + 1)) * v (i + 1)
            - slope t i (L.node x0 i) * v i - (W (i + 1) - W i) * (v (i + 1) - v i) / L.h i)
          - L.h i * (2 * (K t i * curv t i (L.node x0 i)) * v i
          + K t i * curv t i (L.node x0 i) * v (i + 1) + K t i * curv t i (L.node x0 (i + 1)) * v i
          + 2 * (K t i * curv t i (L.node x0 (i + 1))) * v (i + 1)) / 6|
      ≤ Mx * H ^ 2 / 8 * (L.h i * max |v i| |v (i + 1)|) := by
    intro i hi
    have hi := Finset.mem_range.1 hi
    have hh := L.h_pos i hi
    have h1 := fun x hx => hw.hasSlope t htm i hi x hx
    have h2 := fun x hx => hw.hasCurv t htm i hi x hx
    have h3 := hM.bendCurv t htm i hi
    rw [L.span_eq] at h1 h2 h3
    have := cell_parts (va := v i) (vb := v (i + 1)) hh h1 h2 h3
    simp only [hW, Line.nodal]
    rw [L.node_succ]
    refine this.trans ?_
    have hm : 0 ≤ L.h i * max |v i| |v (i + 1)| := mul_nonneg hh.le (le_max_of_le_left (abs_nonneg _))
    have h5 : Mx * L.h i ^ 2 / 8 ≤ Mx * H ^ 2 / 8 := by
      have : L.h i ^ 2 ≤ H ^ 2 := pow_le_pow_left₀ hh.le (hH i hi) 2
      nlinarith
    calc Mx * L.h i ^ 2 / 8 * max |v i| |v (i + 1)| * L.h i
        = Mx * L.h i ^ 2 / 8 * (L.h i * max |v i| |v (i + 1)|) := by ring
      _ ≤ _ := mul_le_mul_of_nonneg_right h5 hm
  rw [hR]
  refine (abs_add_le _ _).trans ?_
  have t1 : |∑ p, L.w p * ((S p + Ic p) * (L.p1 v).val p)|
      ≤ (Mt / 2 * (t - s) + H ^ 2 / 8 * (Mtx + Ml + Mx) + ε) * (L.size cap * L.energy cap v) := by
    have hη : 0 ≤ Mt / 2 * (t - s) + H ^ 2 / 8 * (Mtx + Ml + Mx) + ε := by
      obtain ⟨p, -⟩ : (Finset.univ.filter fun p => L.cell p = 0).Nonempty := by
        rw [Finset.nonempty_iff_ne_empty]
        intro h0
        have := L.exact 0 L.N_pos
        rw [h0, Finset.sum_empty] at this
        exact (L.h_pos 0 L.N_pos).ne this
      exact (abs_nonneg _).trans (hpt p)
    refine (Finset.abs_sum_le_sum_abs _ _).trans ?_
    refine (Finset.sum_le_sum (g := fun p => (Mt / 2 * (t - s) + H ^ 2 / 8 * (Mtx + Ml + Mx) + ε)
      * (L.w p * |(L.p1 v).val p|)) fun p _ => ?_).trans ?_
    · rw [abs_mul, abs_mul, abs_of_nonneg (hL.w_nonneg p)]
      have := mul_le_mul_of_nonneg_right (hpt p) (mul_nonneg (hL.w_nonneg p) (abs_nonneg ((L.p1 v).val p)))
      linarith
    · rw [← Finset.mul_sum]
      exact mul_le_mul_of_nonneg_left (mean_le L hL hcap v) hη
  have t2 := (Finset.abs_sum_le_sum_abs _ _).trans (Finset.sum_le_sum hcell)
  rw [← Finset.mul_sum] at t2
  have t3 := mul_le_mul_of_nonneg_left (max_le L hL hcap v) (show 0 ≤ Mx * H ^ 2 / 8 by positivity)
  linarith

/-- One step. -/
theorem accuracy_step (hL : L.Exact2) (hcap : ∀ i < L.N, 0 < cap i)
    (hw : Diffuses L x0 final cap K lam f w slope curv rate)
    (hM : SmoothBy L x0 final cap K lam w curv rate Mt Mtx Ml Mx) {s t H ε : ℝ} (hs : 0 ≤ s) (hst : s < t)
    (ht : t ≤ final) (hH : ∀ i < L.N, L.h i ≤ H) {given : Ω → ℝ}
    (hf : ∀ p, |given p - f t (L.cell p) (L.pos x0 p)| ≤ ε) {g β : Bool → ℝ} {dir : Bool → Prop}
    (hend : ∀ q, ¬ dir q → EndFlux L x0 K w slope t q (g q) (β q)) (hK : ∀ i < L.N, 0 ≤ K t i)
    (hlam : ∀ i < L.N, 0 ≤ lam t i) (hβ : ∀ q, 0 ≤ β q) {un u : ℕ → ℝ}
    (hstep : DiscreteStep L cap (K t) (lam t) given g β dir (t - s) un u)
    (hdir : ∀ q, dir q → (L.p1 u).tr q = w t (L.node x0 (L.endNo q))) :
    L.energy cap (u - L.nodal x0 (w t)) ≤ L.energy cap (un - L.nodal x0 (w s))
      + (t - s) * (L.size cap * (Mt / 2 * (t - s) + H ^ 2 / 8 * (Mtx + Ml + 3 * Mx) + ε)) := by
  have hk : 0 < t - s := sub_pos.2 hst
  set e := u - L.nodal x0 (w t) with he
  set d := un - L.nodal x0 (w s) with hd
  have hve : ∀ q, dir q → (L.p1 e).tr q = 0 := by
    intro q hq
    have h1 := hdir q hq
    rw [p1_node] at h1 ⊢
    simp [he, Line.nodal, h1]
  have h1 := hstep e hve
  have h2 := consistency hL hcap hw hM hs hst ht hH hf hend e hve
  set α : Ω → ℝ := fun p => (1 / (t - s) + lam t (L.cell p)) * cap (L.cell p) with hα
  set κ : Ω → ℝ := fun p => K t (L.cell p) with hκ
  have h3 : bil L α κ β e e = bil L α κ β u e - bil L α κ β (L.nodal x0 (w t)) e := bil_sub L α κ β _ _ _
  have h4 : lin L (fun p => cap (L.cell p) * (L.p1 un).val p / (t - s) + given p) g e
      - lin L (fun p => cap (L.cell p) * (L.p1 (L.nodal x0 (w s))).val p / (t - s) + given p) g e
      = (∑ p, L.w p * (cap (L.cell p) * ((L.p1 d).val p * (L.p1 e).val p))) / (t - s) := by
    unfold lin
    rw [add_sub_add_right_eq_sub, ← Finset.sum_sub_distrib, Finset.sum_div]
    refine Finset.sum_congr rfl fun p _ => ?_
    have : (L.p1 d).val p = (L.p1 un).val p - (L.p1 (L.nodal x0 (w s))).val p := by
      simp only [hd, Line.p1, Pi.sub_apply]
      ring
    rw [this]
    ring
  have h5 : L.energy cap e ^ 2 / (t - s) ≤ bil L α κ β e e := by
    rw [energy_sq L hL hcap]
    unfold bil
    have hb : 0 ≤ ∑ q, β q * ((L.p1 e).tr q * (L.p1 e).tr q) :=
      Finset.sum_nonneg fun q _ => mul_nonneg (hβ q) (mul_self_nonneg _)
    refine le_trans ?_ (le_add_of_nonneg_right hb)
    rw [Finset.sum_div]
    refine Finset.sum_le_sum fun p _ => ?_
    have a1 : 0 ≤ K t (L.cell p) * ((L.p1 e).grad p 0 * (L.p1 e).grad p 0) :=
      mul_nonneg (hK _ (L.cell_lt p)) (mul_self_nonneg _)
    have a2 : 0 ≤ lam t (L.cell p) * cap (L.cell p) * ((L.p1 e).val p * (L.p1 e).val p) :=
      mul_nonneg (mul_nonneg (hlam _ (L.cell_lt p)) (hcap _ (L.cell_lt p)).le) (mul_self_nonneg _)
    rw [mul_div_assoc]
    refine mul_le_mul_of_nonneg_left ?_ (hL.w_nonneg p)
    simp only [hα, hκ]
    have : cap (L.cell p) * (L.p1 e).val p ^ 2 / (t - s)
        = 1 / (t - s) * cap (L.cell p) * ((L.p1 e).val p * (L.p1 e).val p) := by ring
    rw [this]
    linarith
  have h6 := energy_inner L hL hcap d e
  set E := L.energy cap e with hE
  set D := L.energy cap d with hD
  set ρ := Mt / 2 * (t - s) + H ^ 2 / 8 * (Mtx + Ml + 3 * Mx) + ε with hρ
  have hE0 : 0 ≤ E := Real.sqrt_nonneg _
  have h7 : E ^ 2 / (t - s) ≤ D * E / (t - s) + ρ * (L.size cap * E) := by
    have := (abs_le.1 h2).2
    have h8 : (∑ p, L.w p * (cap (L.cell p) * ((L.p1 d).val p * (L.p1 e).val p))) / (t - s) ≤ D * E / (t - s) :=
      div_le_div_of_nonneg_right h6 hk.le
    linarith
  have h9 : E ^ 2 ≤ E * (D + (t - s) * (L.size cap * ρ)) := by
    have := mul_le_mul_of_nonneg_right h7 hk.le
    rw [div_mul_cancel₀ _ hk.ne', add_mul, div_mul_cancel₀ _ hk.ne'] at this
    linarith
  rcases hE0.eq_or_lt with h0 | h0
  · rw [← h0]
    have hρ0 : 0 ≤ ρ * (L.size cap * 1) := by
      -- the bound of the consistency error of some test function
      have hne : 0 ≤ ρ := by
        have hMt : 0 ≤ Mt := by
          have := hM.time 0 L.N_pos _ (L.node_left_mem x0 0 L.N_pos) s ⟨hs, hst.le.trans ht⟩ t ⟨hs.trans hst.le, ht⟩
          rw [abs_sub_comm s t, abs_of_pos hk] at this
          exact nonneg_of_mul_nonneg_left ((abs_nonneg _).trans this) hk
        have htm : t ∈ Set.Icc 0 final := ⟨hs.trans hst.le, ht⟩
        have c : ∀ {φ : ℝ → ℝ} {M : ℝ}, Bend φ (L.span x0 0) M → 0 ≤ M := by
          intro φ M h
          rw [L.span_eq] at h
          exact h.const_nonneg (L.h_pos 0 L.N_pos)
        have m1 := c (hM.bendRate t htm 0 L.N_pos)
        have m2 := c (hM.bendDecay t htm 0 L.N_pos)
        have m3 := c (hM.bendCurv t htm 0 L.N_pos)
        have m4 : 0 ≤ ε := by
          obtain ⟨p, -⟩ : (Finset.univ.filter fun p => L.cell p = 0).Nonempty := by
            rw [Finset.nonempty_iff_ne_empty]
            intro h0
            have := L.exact 0 L.N_pos
            rw [h0, Finset.sum_empty] at this
            exact (L.h_pos 0 L.N_pos).ne this
          exact (abs_nonneg _).trans (hf p)
        rw [hρ]
        positivity
      rw [mul_one]
      exact mul_nonneg hne (Real.sqrt_nonneg _)
    have hD0 : 0 ≤ D := Real.sqrt_nonneg _
    rw [mul_one, mul_comm ρ] at hρ0
    exact add_nonneg hD0 (mul_nonneg hk.le hρ0)
  · rw [sq] at h9
    exact le_of_mul_le_mul_left h9 h0

end

end Festim.Weak
