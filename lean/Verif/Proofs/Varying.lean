import Verif.Spec.Varying
import Verif.Proofs.SteadyAccuracy
import Mathlib.MeasureTheory.Integral.IntervalIntegral.FundThmCalculus
import Mathlib.Topology.Order.ProjIcc

/-!
# Errors with conductivities which vary in the cells
-/

open scoped BigOperators

namespace Festim.Weak

/-- A continuous function has an antiderivative. -/
theorem antideriv {F : ℝ → ℝ} {a b : ℝ} (hab : a ≤ b) (hF : ContinuousOn F (Set.Icc a b)) :
    ∃ Φ : ℝ → ℝ, ∀ x ∈ Set.Icc a b, HasDerivWithinAt Φ (F x) (Set.Icc a b) x := by
  set E := Set.IccExtend hab ((Set.Icc a b).domRestrict F) with hE
  have hc : Continuous E := (continuousOn_iff_continuous_domRestrict.1 hF).Icc_extend'
  refine ⟨fun x => ∫ y in a..x, E y, fun x hx => ?_⟩
  have h := (intervalIntegral.integral_hasDerivAt_right (hc.intervalIntegrable a x)
    (hc.stronglyMeasurableAtFilter _ _) hc.continuousAt).hasDerivWithinAt (s := Set.Icc a b)
  have e : E x = F x := by
    rw [hE, Set.IccExtend_of_mem hab _ hx]
    rfl
  rwa [e] at h

/-- The trapezoidal rule. -/
theorem trapezoid {φ Φ : ℝ → ℝ} {a h M : ℝ} (hh : 0 < h) (hφ : Bend φ (Set.Icc a (a + h)) M)
    (hΦ : ∀ x ∈ Set.Icc a (a + h), HasDerivWithinAt Φ (φ x) (Set.Icc a (a + h)) x) :
    |Φ (a + h) - Φ a - h * ((φ a + φ (a + h)) / 2)| ≤ M * h ^ 2 / 8 * h := by
  have hder : ∀ x ∈ Set.Icc a (a + h), HasDerivWithinAt
      (fun x => Φ x - (φ a * (x - a) + (x - a) ^ 2 / 2 * ((φ (a + h) - φ a) / h)))
      (φ x - (φ a + (x - a) * ((φ (a + h) - φ a) / h))) (Set.Icc a (a + h)) x := by
    intro x hx
    have d := (hasDerivAt_id x).sub_const a
    have h1 := d.const_mul (φ a)
    have h2 := ((d.pow 2).div_const 2).mul_const ((φ (a + h) - φ a) / h)
    refine ((hΦ x hx).sub (h1.add h2).hasDerivWithinAt).congr_deriv ?_
    simp
  have hb : ∀ x ∈ Set.Icc a (a + h), ‖φ x - (φ a + (x - a) * ((φ (a + h) - φ a) / h))‖ ≤ M * h ^ 2 / 8 := by
    intro x hx
    have h0 : 0 ≤ (x - a) / h := div_nonneg (by linarith [hx.1]) hh.le
    have h1 : (x - a) / h ≤ 1 := by rw [div_le_one hh]; linarith [hx.2]
    have := bend_interp hh hφ ((x - a) / h) h0 h1
    rw [div_mul_cancel₀ _ hh.ne', add_sub_cancel] at this
    rw [Real.norm_eq_abs]
    refine le_trans (le_of_eq ?_) this
    congr 1
    field_simp
    ring
  have := Convex.norm_image_sub_le_of_norm_hasDerivWithin_le hder hb (convex_Icc a (a + h))
    (x := a) (y := a + h) ⟨le_rfl, by linarith⟩ ⟨by linarith, le_rfl⟩
  rw [Real.norm_eq_abs, Real.norm_eq_abs, add_sub_cancel_left, abs_of_pos hh] at this
  refine le_trans (le_of_eq (congrArg abs ?_)) this
  rw [sub_self]
  field_simp
  ring

section
variable {Ω : Type} [Fintype Ω] {L : Line Ω} {x0 final : ℝ} {cap : ℕ → ℝ} {K : ℝ → ℕ → ℝ → ℝ} {lam : ℝ → ℕ → ℝ}
  {f : ℝ → ℕ → ℝ → ℝ} {w : ℝ → ℝ → ℝ} {slope div : ℝ → ℕ → ℝ → ℝ} {rate : ℝ → ℝ → ℝ} {Mt Mtx Ml Mx S1 S2 K1 K2 : ℝ}

/-- Quadrature of a conductivity over a cell. -/
theorem quad_cell (hL : L.Exact2) (i : ℕ) (hi : i < L.N) {k : ℝ → ℝ} {K2 η : ℝ} (hk : Bend k (L.span x0 i) K2)
    {κ : Ω → ℝ} (hκ : ∀ p, L.cell p = i → |κ p - k (L.pos x0 p)| ≤ η) :
    |∑ p ∈ Finset.univ.filter (fun p => L.cell p = i), L.w p * κ p
      - L.h i * ((k (L.node x0 i) + k (L.node x0 (i + 1))) / 2)| ≤ L.h i * (η + K2 * L.h i ^ 2 / 8) := by
  have e1 : L.h i * ((k (L.node x0 i) + k (L.node x0 (i + 1))) / 2)
      = ∑ p ∈ Finset.univ.filter (fun p => L.cell p = i),
        L.w p * ((1 - L.lam p) * k (L.node x0 i) + L.lam p * k (L.node x0 (i + 1))) := by
    have e : ∀ p, L.w p * ((1 - L.lam p) * k (L.node x0 i) + L.lam p * k (L.node x0 (i + 1)))
        = k (L.node x0 i) * L.w p + (k (L.node x0 (i + 1)) - k (L.node x0 i)) * (L.w p * L.lam p) := fun p => by ring
    simp only [e]
    rw [Finset.sum_add_distrib, ← Finset.mul_sum, ← Finset.mul_sum, L.exact i hi, hL.one i hi]
    ring
  rw [e1, ← Finset.sum_sub_distrib, ← L.exact i hi, Finset.sum_mul]
  refine (Finset.abs_sum_le_sum_abs _ _).trans (Finset.sum_le_sum fun p hp => ?_)
  have hc := (Finset.mem_filter.1 hp).2
  rw [← mul_sub, abs_mul, abs_of_nonneg (hL.w_nonneg p)]
  refine mul_le_mul_of_nonneg_left ?_ (hL.w_nonneg p)
  subst hc
  have b1 := hκ p rfl
  have b2 := nodal_interp L hL k K2 _ p hk le_rfl
  rw [L.exact _ (L.cell_lt p)]
  rw [abs_le] at *
  constructor <;> linarith [b1.1, b1.2, b2.1, b2.2]

/-- Integration by parts on one cell, and the mean flux from the mean conductivity. -/
theorem cell_flux (hL : L.Exact2) (i : ℕ) (hi : i < L.N) {u sl dv k : ℝ → ℝ} {Mx S1 S2 K1 K2 η : ℝ}
    (hs : ∀ x ∈ L.span x0 i, HasDerivWithinAt u (sl x) (L.span x0 i) x)
    (hd : ∀ x ∈ L.span x0 i, HasDerivWithinAt (fun y => k y * sl y) (dv x) (L.span x0 i) x)
    (hb : Bend dv (L.span x0 i) Mx) (h1 : ∀ x ∈ L.span x0 i, |sl x| ≤ S1)
    (h2 : ∀ x ∈ L.span x0 i, ∀ y ∈ L.span x0 i, |sl x - sl y| ≤ S2 * |x - y|)
    (h3 : ∀ x ∈ L.span x0 i, ∀ y ∈ L.span x0 i, |k x - k y| ≤ K1 * |x - y|) (h4 : Bend k (L.span x0 i) K2)
    {κ : Ω → ℝ} (hκ : ∀ p, L.cell p = i → |κ p - k (L.pos x0 p)| ≤ η) :
    ∃ I : ℝ, (∀ va vb : ℝ, |k (L.node x0 (i + 1)) * sl (L.node x0 (i + 1)) * vb - k (L.node x0 i) * sl (L.node x0 i) * va
        - I * (vb - va) / L.h i - L.h i * (2 * dv (L.node x0 i) * va + dv (L.node x0 i) * vb
          + dv (L.node x0 (i + 1)) * va + 2 * dv (L.node x0 (i + 1)) * vb) / 6|
        ≤ Mx * L.h i ^ 2 / 8 * max |va| |vb| * L.h i) ∧
      |I - (∑ p ∈ Finset.univ.filter (fun p => L.cell p = i), L.w p * κ p)
          * ((u (L.node x0 (i + 1)) - u (L.node x0 i)) / L.h i)|
        ≤ L.h i * (S1 * η + L.h i ^ 2 * (S1 * K2 / 4 + K1 * S2)) := by
  have hh := L.h_pos i hi
  have hkq := quad_cell hL i hi h4 hκ
  rw [L.span_eq] at hs hd hb h1 h2 h3 h4
  rw [L.node_succ] at hkq ⊢
  set a := L.node x0 i with ha
  set h := L.h i with hhd
  have hab : a ≤ a + h := by linarith
  have ma : a ∈ Set.Icc a (a + h) := ⟨le_rfl, hab⟩
  have mb : a + h ∈ Set.Icc a (a + h) := ⟨hab, le_rfl⟩
  obtain ⟨Φ, hΦ⟩ := antideriv hab (F := fun y => k y * sl y) fun x hx => (hd x hx).continuousWithinAt
  obtain ⟨Ψ, hΨ⟩ := antideriv hab (F := k) (by
    obtain ⟨k', hk', -⟩ := h4
    exact fun x hx => (hk' x hx).continuousWithinAt)
  refine ⟨Φ (a + h) - Φ a, fun va vb => ?_, ?_⟩
  · have := cell_parts (φ := Φ) (φ' := fun y => k y * sl y) (φ'' := dv) (K := 1) (M := Mx) (va := va) (vb := vb) hh hΦ hd
      (by simpa using hb)
    simpa using this
  · set θ := (u (a + h) - u a) / h with hθ
    -- the slope of the chord is one of the slopes
    obtain ⟨ξ, hξ, hξ'⟩ := exists_hasDerivAt_eq_slope u sl (show a < a + h by linarith)
      (fun y hy => (hs y hy).continuousWithinAt)
      (fun y hy => (hs y (Set.Ioo_subset_Icc_self hy)).hasDerivAt (Icc_mem_nhds hy.1 hy.2))
    rw [add_sub_cancel_left, ← hθ] at hξ'
    have hξm := Set.Ioo_subset_Icc_self hξ
    have hdist : ∀ x ∈ Set.Icc a (a + h), ∀ y ∈ Set.Icc a (a + h), |x - y| ≤ h := by
      intro x hx y hy
      rw [abs_le]
      constructor <;> linarith [hx.1, hx.2, hy.1, hy.2]
    have hS2 : 0 ≤ S2 := by
      have := (abs_nonneg _).trans (h2 _ mb _ ma)
      rw [add_sub_cancel_left, abs_of_pos hh] at this
      exact nonneg_of_mul_nonneg_left this hh
    have hK1 : 0 ≤ K1 := by
      have := (abs_nonneg _).trans (h3 _ mb _ ma)
      rw [add_sub_cancel_left, abs_of_pos hh] at this
      exact nonneg_of_mul_nonneg_left this hh
    have hder : ∀ x ∈ Set.Icc a (a + h), HasDerivWithinAt (fun x => Φ x - k a * u x - θ * Ψ x + θ * k a * x)
        ((k x - k a) * (sl x - θ)) (Set.Icc a (a + h)) x := by
      intro x hx
      have d4 := (hasDerivWithinAt_id x (Set.Icc a (a + h))).const_mul (θ * k a)
      refine ((((hΦ x hx).sub ((hs x hx).const_mul (k a))).sub ((hΨ x hx).const_mul θ)).add d4).congr_deriv ?_
      ring
    have hbd : ∀ x ∈ Set.Icc a (a + h), ‖(k x - k a) * (sl x - θ)‖ ≤ K1 * h * (S2 * h) := by
      intro x hx
      rw [Real.norm_eq_abs, abs_mul, ← hξ']
      refine mul_le_mul ((h3 x hx a ma).trans (mul_le_mul_of_nonneg_left (hdist x hx a ma) hK1))
        ((h2 x hx ξ hξm).trans (mul_le_mul_of_nonneg_left (hdist x hx ξ hξm) hS2)) (abs_nonneg _) (mul_nonneg hK1 hh.le)
    have c1 := Convex.norm_image_sub_le_of_norm_hasDerivWithin_le hder hbd (convex_Icc a (a + h)) ma mb
    rw [Real.norm_eq_abs, Real.norm_eq_abs, add_sub_cancel_left, abs_of_pos hh] at c1
    have e1 : Φ (a + h) - k a * u (a + h) - θ * Ψ (a + h) + θ * k a * (a + h)
        - (Φ a - k a * u a - θ * Ψ a + θ * k a * a) = Φ (a + h) - Φ a - θ * (Ψ (a + h) - Ψ a) := by
      have : θ * h = u (a + h) - u a := by rw [hθ]; field_simp
      linear_combination k a * this
    rw [e1] at c1
    have c2 := trapezoid hh h4 hΨ
    have c3 : |(Ψ (a + h) - Ψ a) - ∑ p ∈ Finset.univ.filter (fun p => L.cell p = i), L.w p * κ p|
        ≤ h * (η + K2 * h ^ 2 / 4) := by
      rw [abs_le] at *
      constructor <;> linarith [c2.1, c2.2, hkq.1, hkq.2]
    have c4 : |θ| ≤ S1 := by rw [← hξ']; exact h1 ξ hξm
    have c5 : |θ * ((Ψ (a + h) - Ψ a) - ∑ p ∈ Finset.univ.filter (fun p => L.cell p = i), L.w p * κ p)|
        ≤ S1 * (h * (η + K2 * h ^ 2 / 4)) := by
      rw [abs_mul]
      exact mul_le_mul c4 c3 (abs_nonneg _) ((abs_nonneg _).trans c4)
    have e2 : Φ (a + h) - Φ a - (∑ p ∈ Finset.univ.filter (fun p => L.cell p = i), L.w p * κ p) * θ
        = (Φ (a + h) - Φ a - θ * (Ψ (a + h) - Ψ a))
          + θ * ((Ψ (a + h) - Ψ a) - ∑ p ∈ Finset.univ.filter (fun p => L.cell p = i), L.w p * κ p) := by ring
    rw [e2]
    refine (abs_add_le _ _).trans ((add_le_add c1 c5).trans (le_of_eq ?_))
    ring

theorem grad_cells (L : Line Ω) (κ : Ω → ℝ) (u v : ℕ → ℝ) :
    ∑ p, L.w p * (κ p * ((L.p1 u).grad p 0 * (L.p1 v).grad p 0))
      = ∑ i ∈ Finset.range L.N, (∑ p ∈ Finset.univ.filter (fun p => L.cell p = i), L.w p * κ p)
        * ((u (i + 1) - u i) / L.h i) * ((v (i + 1) - v i) / L.h i) := by
  rw [cells_sum]
  refine Finset.sum_congr rfl fun i hi => ?_
  rw [mul_assoc, Finset.sum_mul]
  refine Finset.sum_congr rfl fun p hp => ?_
  simp only [Line.p1, (Finset.mem_filter.1 hp).2]
  ring

/-- The exact solution satisfies the discrete equation of one step up to a small error. -/
theorem consistency_var (hL : L.Exact2) (hcap : ∀ i < L.N, 0 < cap i)
    (hw : Conducts L x0 final cap K lam f w slope div rate)
    (hM : ConductsBy L x0 final cap K lam w slope div rate Mt Mtx Ml Mx S1 S2 K1 K2) {s t H ε η : ℝ} (hs : 0 ≤ s) (hst : s < t)
    (ht : t ≤ final) (hH : ∀ i < L.N, L.h i ≤ H) {given κ : Ω → ℝ}
    (hf : ∀ p, |given p - f t (L.cell p) (L.pos x0 p)| ≤ ε) (hκ : ∀ p, |κ p - K t (L.cell p) (L.pos x0 p)| ≤ η)
    {g β : Bool → ℝ} {dir : Bool → Prop}
    (hend : ∀ q, ¬ dir q → K t (L.endCell q) (L.node x0 (L.endNo q)) * slope t (L.endCell q) (L.node x0 (L.endNo q))
      * Line.normal q 0 = g q - β q * w t (L.node x0 (L.endNo q))) (v : ℕ → ℝ)
    (hv : ∀ q, dir q → (L.p1 v).tr q = 0) :
    |lin L (fun p => cap (L.cell p) * (L.p1 (L.nodal x0 (w s))).val p / (t - s) + given p) g v
      - bil L (fun p => (1 / (t - s) + lam t (L.cell p)) * cap (L.cell p)) κ β (L.nodal x0 (w t)) v|
      ≤ (Mt / 2 * (t - s) + H ^ 2 / 8 * (Mtx + Ml + 3 * Mx) + ε) * (L.size cap * L.energy cap v)
        + (S1 * η + H ^ 2 * (S1 * K2 / 4 + K1 * S2)) * ∑ i ∈ Finset.range L.N, |v (i + 1) - v i| := by
  have hk : 0 < t - s := sub_pos.2 hst
  have htm : t ∈ Set.Icc 0 final := ⟨hs.trans hst.le, ht⟩
  set W := L.nodal x0 (w t) with hW
  set V := L.nodal x0 (w s) with hV
  set Ic : Ω → ℝ := fun p => (1 - L.lam p) * div t (L.cell p) (L.node x0 (L.cell p))
    + L.lam p * div t (L.cell p) (L.node x0 (L.cell p + 1)) with hIc
  set S : Ω → ℝ := fun p => given p - lam t (L.cell p) * cap (L.cell p) * (L.p1 W).val p
    - cap (L.cell p) * ((L.p1 W).val p - (L.p1 V).val p) / (t - s) with hS
  set kb : ℕ → ℝ := fun i => ∑ p ∈ Finset.univ.filter (fun p => L.cell p = i), L.w p * κ p with hkb
  have hcf : ∀ i, ∃ I : ℝ, i < L.N → (∀ va vb : ℝ, |K t i (L.node x0 (i + 1)) * slope t i (L.node x0 (i + 1)) * vb
        - K t i (L.node x0 i) * slope t i (L.node x0 i) * va
        - I * (vb - va) / L.h i - L.h i * (2 * div t i (L.node x0 i) * va + div t i (L.node x0 i) * vb
          + div t i (L.node x0 (i + 1)) * va + 2 * div t i (L.node x0 (i + 1)) * vb) / 6|
        ≤ Mx * L.h i ^ 2 / 8 * max |va| |vb| * L.h i) ∧
      |I - kb i * ((W (i + 1) - W i) / L.h i)| ≤ L.h i * (S1 * η + L.h i ^ 2 * (S1 * K2 / 4 + K1 * S2)) := by
    intro i
    by_cases hi : i < L.N
    · obtain ⟨I, hI⟩ := cell_flux hL i hi (fun x hx => hw.hasSlope t htm i hi x hx) (fun x hx => hw.hasDiv t htm i hi x hx)
        (hM.bendDiv t htm i hi) (hM.slope_le t htm i hi) (hM.slope_lip t htm i hi) (hM.cond_lip t htm i hi)
        (hM.bendCond t htm i hi) (κ := κ) (η := η) (fun p hp => by subst hp; exact hκ p)
      exact ⟨I, fun _ => hI⟩
    · exact ⟨0, fun h => absurd h hi⟩
  choose I hI using hcf
  -- the ends
  have hends : ∑ q, (g q - β q * (L.p1 W).tr q) * (L.p1 v).tr q
      = ∑ i ∈ Finset.range L.N, (K t i (L.node x0 (i + 1)) * slope t i (L.node x0 (i + 1)) * v (i + 1)
        - K t i (L.node x0 i) * slope t i (L.node x0 i) * v i) := by
    have h0 := telescope L (fun _ => 1) (fun i => K t i (L.node x0 i) * slope t i (L.node x0 i))
      (fun i => K t i (L.node x0 (i + 1)) * slope t i (L.node x0 (i + 1))) v
      (fun i hi => by rw [one_mul, one_mul]; exact hw.flux t htm i hi) L.N L.N_pos le_rfl
    simp only [one_mul] at h0
    rw [h0]
    have hq : ∀ q, (g q - β q * (L.p1 W).tr q) * (L.p1 v).tr q
        = K t (L.endCell q) (L.node x0 (L.endNo q)) * slope t (L.endCell q) (L.node x0 (L.endNo q)) * Line.normal q 0
          * (L.p1 v).tr q := by
      intro q
      by_cases hd : dir q
      · rw [hv q hd, mul_zero, mul_zero]
      · rw [hend q hd, p1_node L W]
        rfl
    rw [Fintype.sum_bool, hq, hq, p1_node, p1_node]
    simp only [Line.endCell, Line.endNo, Line.normal, if_true, Bool.false_eq_true, if_false]
    rw [show L.N - 1 + 1 = L.N from Nat.sub_add_cancel L.N_pos]
    ring
  have hgrad := grad_cells L κ W v
  -- the interpolated divergence
  have hdiv : ∑ p, L.w p * (Ic p * (L.p1 v).val p)
      = ∑ i ∈ Finset.range L.N, L.h i * (2 * div t i (L.node x0 i) * v i + div t i (L.node x0 i) * v (i + 1)
          + div t i (L.node x0 (i + 1)) * v i + 2 * div t i (L.node x0 (i + 1)) * v (i + 1)) / 6 := by
    rw [cells_sum]
    refine Finset.sum_congr rfl fun i hi => ?_
    rw [← cell_product L hL i (Finset.mem_range.1 hi)]
    refine Finset.sum_congr rfl fun p hp => ?_
    simp only [hIc, Line.p1, (Finset.mem_filter.1 hp).2]
  set A : ℕ → ℝ := fun i => K t i (L.node x0 (i + 1)) * slope t i (L.node x0 (i + 1)) * v (i + 1)
        - K t i (L.node x0 i) * slope t i (L.node x0 i) * v i
        - I i * (v (i + 1) - v i) / L.h i - L.h i * (2 * div t i (L.node x0 i) * v i + div t i (L.node x0 i) * v (i + 1)
          + div t i (L.node x0 (i + 1)) * v i + 2 * div t i (L.node x0 (i + 1)) * v (i + 1)) / 6 with hA
  set B : ℕ → ℝ := fun i => (I i - kb i * ((W (i + 1) - W i) / L.h i)) * ((v (i + 1) - v i) / L.h i) with hB
  have hR : lin L (fun p => cap (L.cell p) * (L.p1 V).val p / (t - s) + given p) g v
      - bil L (fun p => (1 / (t - s) + lam t (L.cell p)) * cap (L.cell p)) κ β W v
      = (∑ p, L.w p * ((S p + Ic p) * (L.p1 v).val p)) + ∑ i ∈ Finset.range L.N, A i + ∑ i ∈ Finset.range L.N, B i := by
    have e1 : ∑ i ∈ Finset.range L.N, A i + ∑ i ∈ Finset.range L.N, B i
        = ∑ q, (g q - β q * (L.p1 W).tr q) * (L.p1 v).tr q
          - ∑ p, L.w p * (κ p * ((L.p1 W).grad p 0 * (L.p1 v).grad p 0))
          - ∑ p, L.w p * (Ic p * (L.p1 v).val p) := by
      rw [hends, hgrad, hdiv, ← Finset.sum_sub_distrib, ← Finset.sum_sub_distrib, ← Finset.sum_add_distrib]
      refine Finset.sum_congr rfl fun i _ => ?_
      simp only [hA, hB, hkb]
      ring
    rw [add_assoc, e1]
    have e2 : ∑ p, L.w p * ((S p + Ic p) * (L.p1 v).val p)
        = ∑ p, L.w p * (S p * (L.p1 v).val p) + ∑ p, L.w p * (Ic p * (L.p1 v).val p) := by
      rw [← Finset.sum_add_distrib]
      exact Finset.sum_congr rfl fun p _ => by ring
    rw [e2]
    unfold lin bil
    have e3 : ∑ p, L.w p * ((cap (L.cell p) * (L.p1 V).val p / (t - s) + given p) * (L.p1 v).val p)
        - ∑ p, L.w p * ((1 / (t - s) + lam t (L.cell p)) * cap (L.cell p) * ((L.p1 W).val p * (L.p1 v).val p)
          + κ p * ((L.p1 W).grad p 0 * (L.p1 v).grad p 0))
        = ∑ p, L.w p * (S p * (L.p1 v).val p)
          - ∑ p, L.w p * (κ p * ((L.p1 W).grad p 0 * (L.p1 v).grad p 0)) := by
      rw [← Finset.sum_sub_distrib, ← Finset.sum_sub_distrib]
      refine Finset.sum_congr rfl fun p _ => ?_
      simp only [hS]
      ring
    have e4 : ∑ q, (g q - β q * (L.p1 W).tr q) * (L.p1 v).tr q
        = ∑ q, g q * (L.p1 v).tr q - ∑ q, β q * ((L.p1 W).tr q * (L.p1 v).tr q) := by
      rw [← Finset.sum_sub_distrib]
      exact Finset.sum_congr rfl fun q _ => by ring
    rw [e4]
    linarith
  -- pointwise bound
  have hpt : ∀ p, |S p + Ic p| ≤ Mt / 2 * (t - s) + H ^ 2 / 8 * (Mtx + Ml + Mx) + ε := by
    intro p
    have hc := L.cell_lt p
    have hx := L.pos_mem hL x0 p
    have l0 := hL.lam_nonneg p
    have l1 := hL.lam_le p
    have hHc := hH _ hc
    have b1 := hf p
    have b2 := nodal_interp L hL _ Mtx H p (hM.bendRate t htm _ hc) hHc
    have b3 := nodal_interp L hL _ Ml H p (hM.bendDecay t htm _ hc) hHc
    have b4 := nodal_interp L hL _ Mx H p (hM.bendDiv t htm _ hc) hHc
    have hback : ∀ x ∈ L.span x0 (L.cell p),
        |(cap (L.cell p) * w t x - cap (L.cell p) * w s x) / (t - s) - cap (L.cell p) * rate t x|
          ≤ Mt / 2 * (t - s) := by
      intro x hx
      exact backward (φ := fun s => cap (L.cell p) * w s x) (φ' := fun s => cap (L.cell p) * rate s x) hs hst ht
        (fun τ hτ => (hw.hasRate τ hτ _ hc x hx).const_mul _) (hM.time _ hc x hx)
    have c1 := hback _ (L.node_left_mem x0 _ hc)
    have c2 := hback _ (L.node_right_mem x0 _ hc)
    have heq := hw.equation t htm _ hc _ hx
    set i := L.cell p with hi
    set a1 := (cap i * w t (L.node x0 i) - cap i * w s (L.node x0 i)) / (t - s) - cap i * rate t (L.node x0 i)
      with ha1
    set a2 := (cap i * w t (L.node x0 (i + 1)) - cap i * w s (L.node x0 (i + 1))) / (t - s)
      - cap i * rate t (L.node x0 (i + 1)) with ha2
    have c3 : |(1 - L.lam p) * a1 + L.lam p * a2| ≤ Mt / 2 * (t - s) := by
      calc |(1 - L.lam p) * a1 + L.lam p * a2| ≤ |(1 - L.lam p) * a1| + |L.lam p * a2| := abs_add_le _ _
        _ = (1 - L.lam p) * |a1| + L.lam p * |a2| := by
            rw [abs_mul, abs_mul, abs_of_nonneg l0, abs_of_nonneg (sub_nonneg.2 l1)]
        _ ≤ (1 - L.lam p) * (Mt / 2 * (t - s)) + L.lam p * (Mt / 2 * (t - s)) :=
            add_le_add (mul_le_mul_of_nonneg_left c1 (sub_nonneg.2 l1)) (mul_le_mul_of_nonneg_left c2 l0)
        _ = _ := by ring
    have hsum : S p + Ic p = (given p - f t i (L.pos x0 p))
        + (cap i * rate t (L.pos x0 p)
          - ((1 - L.lam p) * (cap i * rate t (L.node x0 i)) + L.lam p * (cap i * rate t (L.node x0 (i + 1)))))
        - ((1 - L.lam p) * a1 + L.lam p * a2)
        + (lam t i * (cap i * w t (L.pos x0 p))
          - ((1 - L.lam p) * (lam t i * (cap i * w t (L.node x0 i)))
            + L.lam p * (lam t i * (cap i * w t (L.node x0 (i + 1))))))
        - (div t i (L.pos x0 p)
          - ((1 - L.lam p) * div t i (L.node x0 i) + L.lam p * div t i (L.node x0 (i + 1)))) := by
      rw [heq]
      simp only [hS, hIc, ha1, ha2, hW, hV, Line.nodal, Line.p1, ← hi]
      field_simp
      ring
    rw [hsum]
    exact (abs_five b1 b2 c3 b3 b4).trans (le_of_eq (by ring))
  have hMx : 0 ≤ Mx := by
    have := hM.bendDiv t htm 0 L.N_pos
    rw [L.span_eq] at this
    exact this.const_nonneg (L.h_pos 0 L.N_pos)
  have hcell : ∀ i ∈ Finset.range L.N, |A i| ≤ Mx * H ^ 2 / 8 * (L.h i * max |v i| |v (i + 1)|) := by
    intro i hi
    have hi := Finset.mem_range.1 hi
    have hh := L.h_pos i hi
    refine ((hI i hi).1 (v i) (v (i + 1))).trans ?_
    have hm : 0 ≤ L.h i * max |v i| |v (i + 1)| := mul_nonneg hh.le (le_max_of_le_left (abs_nonneg _))
    have h5 : Mx * L.h i ^ 2 / 8 ≤ Mx * H ^ 2 / 8 := by
      have : L.h i ^ 2 ≤ H ^ 2 := pow_le_pow_left₀ hh.le (hH i hi) 2
      nlinarith
    calc Mx * L.h i ^ 2 / 8 * max |v i| |v (i + 1)| * L.h i
        = Mx * L.h i ^ 2 / 8 * (L.h i * max |v i| |v (i + 1)|) := by ring
      _ ≤ _ := mul_le_mul_of_nonneg_right h5 hm
  have hQ0 : ∀ i < L.N, 0 ≤ S1 * K2 / 4 + K1 * S2 := by
    intro i hi
    have hh := L.h_pos i hi
    have m1 := L.node_left_mem x0 i hi
    have m2 := L.node_right_mem x0 i hi
    have hne : |L.node x0 i - L.node x0 (i + 1)| = L.h i := by
      rw [L.node_succ, sub_add_cancel_left, abs_neg, abs_of_pos hh]
    have q1 := (abs_nonneg _).trans (hM.slope_le t htm i hi _ m1)
    have q2 := (abs_nonneg _).trans (hM.slope_lip t htm i hi _ m1 _ m2)
    have q3 := (abs_nonneg _).trans (hM.cond_lip t htm i hi _ m1 _ m2)
    rw [hne] at q2 q3
    have q4 := hM.bendCond t htm i hi
    rw [L.span_eq] at q4
    have q4 := q4.const_nonneg hh
    have q2 := nonneg_of_mul_nonneg_left q2 hh
    have q3 := nonneg_of_mul_nonneg_left q3 hh
    positivity
  have hcellB : ∀ i ∈ Finset.range L.N,
      |B i| ≤ (S1 * η + H ^ 2 * (S1 * K2 / 4 + K1 * S2)) * |v (i + 1) - v i| := by
    intro i hi
    have hi := Finset.mem_range.1 hi
    have hh := L.h_pos i hi
    have h1 := (hI i hi).2
    have h2 : L.h i * (S1 * η + L.h i ^ 2 * (S1 * K2 / 4 + K1 * S2))
        ≤ L.h i * (S1 * η + H ^ 2 * (S1 * K2 / 4 + K1 * S2)) := by
      refine mul_le_mul_of_nonneg_left ?_ hh.le
      have : L.h i ^ 2 ≤ H ^ 2 := pow_le_pow_left₀ hh.le (hH i hi) 2
      have := mul_le_mul_of_nonneg_right this (hQ0 i hi)
      linarith
    simp only [hB]
    rw [abs_mul, abs_div, abs_of_pos hh]
    calc |I i - kb i * ((W (i + 1) - W i) / L.h i)| * (|v (i + 1) - v i| / L.h i)
        ≤ (L.h i * (S1 * η + H ^ 2 * (S1 * K2 / 4 + K1 * S2))) * (|v (i + 1) - v i| / L.h i) :=
          mul_le_mul_of_nonneg_right (h1.trans h2) (div_nonneg (abs_nonneg _) hh.le)
      _ = _ := by field_simp
  rw [hR]
  refine (abs_add_le _ _).trans (add_le_add ((abs_add_le _ _).trans ?_) ?_)
  · have t1 : |∑ p, L.w p * ((S p + Ic p) * (L.p1 v).val p)|
        ≤ (Mt / 2 * (t - s) + H ^ 2 / 8 * (Mtx + Ml + Mx) + ε) * (L.size cap * L.energy cap v) := by
      have hη : 0 ≤ Mt / 2 * (t - s) + H ^ 2 / 8 * (Mtx + Ml + Mx) + ε := by
        obtain ⟨p, -⟩ : (Finset.univ.filter fun p => L.cell p = 0).Nonempty := by
          rw [Finset.nonempty_iff_ne_empty]
          intro h0
          have := L.exact 0 L.N_pos
          rw [h0, Finset.sum_empty] at this
          exact (L.h_pos 0 L.N_pos).ne this
        exact (abs_nonneg _).trans (hpt p)
      refine (Finset.abs_sum_le_sum_abs _ _).trans ?_
      refine (Finset.sum_le_sum (g := fun p => (Mt / 2 * (t - s) + H ^ 2 / 8 * (Mtx + Ml + Mx) + ε)
        * (L.w p * |(L.p1 v).val p|)) fun p _ => ?_).trans ?_
      · rw [abs_mul, abs_mul, abs_of_nonneg (hL.w_nonneg p)]
        have := mul_le_mul_of_nonneg_right (hpt p) (mul_nonneg (hL.w_nonneg p) (abs_nonneg ((L.p1 v).val p)))
        linarith
      · rw [← Finset.mul_sum]
        exact mul_le_mul_of_nonneg_left (mean_le L hL hcap v) hη
    have t2 := (Finset.abs_sum_le_sum_abs _ _).trans (Finset.sum_le_sum hcell)
    rw [← Finset.mul_sum] at t2
    have t3 := mul_le_mul_of_nonneg_left (max_le L hL hcap v) (show 0 ≤ Mx * H ^ 2 / 8 by positivity)
    linarith
  · rw [Finset.mul_sum]
    exact (Finset.abs_sum_le_sum_abs _ _).trans (Finset.sum_le_sum hcellB)

/-- Mean of a coefficient over a cell. -/
noncomputable def Line.mean (L : Line Ω) (κ : Ω → ℝ) (i : ℕ) : ℝ :=
  (∑ p ∈ Finset.univ.filter (fun p => L.cell p = i), L.w p * κ p) / L.h i

theorem mean_ge (hL : L.Exact2) {κ : Ω → ℝ} {k : ℕ → ℝ} (hk : ∀ p, k (L.cell p) ≤ κ p) (i : ℕ) (hi : i < L.N) :
    k i ≤ L.mean κ i := by
  have hh := L.h_pos i hi
  rw [Line.mean, le_div_iff₀ hh]
  have e : k i * L.h i = ∑ p ∈ Finset.univ.filter (fun p => L.cell p = i), L.w p * k i := by
    rw [← Finset.sum_mul, L.exact i hi, mul_comm]
  rw [e]
  refine Finset.sum_le_sum fun p hp => mul_le_mul_of_nonneg_left ?_ (hL.w_nonneg p)
  have := hk p
  rwa [(Finset.mem_filter.1 hp).2] at this

theorem mean_le_of (hL : L.Exact2) {κ : Ω → ℝ} {k : ℕ → ℝ} (hk : ∀ p, κ p ≤ k (L.cell p)) (i : ℕ) (hi : i < L.N) :
    L.mean κ i ≤ k i := by
  have hh := L.h_pos i hi
  rw [Line.mean, div_le_iff₀ hh]
  have e : k i * L.h i = ∑ p ∈ Finset.univ.filter (fun p => L.cell p = i), L.w p * k i := by
    rw [← Finset.sum_mul, L.exact i hi, mul_comm]
  rw [e]
  refine Finset.sum_le_sum fun p hp => mul_le_mul_of_nonneg_left ?_ (hL.w_nonneg p)
  have := hk p
  rwa [(Finset.mem_filter.1 hp).2] at this

theorem resist_anti (L : Line Ω) {k k' : ℕ → ℝ} (hk : ∀ i < L.N, 0 < k i) (h : ∀ i < L.N, k i ≤ k' i) :
    L.resist k' ≤ L.resist k := by
  refine Finset.sum_le_sum fun i hi => ?_
  have hi := Finset.mem_range.1 hi
  exact div_le_div_of_nonneg_left (L.h_pos i hi).le (hk i hi) (h i hi)

/-- Only the means of the conductivity over the cells matter. -/
theorem bil_mean (L : Line Ω) (α κ : Ω → ℝ) (β : Bool → ℝ) (u v : ℕ → ℝ) :
    bil L α κ β u v = (∑ p, L.w p * (α p * ((L.p1 u).val p * (L.p1 v).val p)))
      + (∑ i ∈ Finset.range L.N, L.mean κ i * ((u (i + 1) - u i) * (v (i + 1) - v i) / L.h i))
      + ∑ q, β q * ((L.p1 u).tr q * (L.p1 v).tr q) := by
  have e : ∑ i ∈ Finset.range L.N, L.mean κ i * ((u (i + 1) - u i) * (v (i + 1) - v i) / L.h i)
      = ∑ p, L.w p * (κ p * ((L.p1 u).grad p 0 * (L.p1 v).grad p 0)) := by
    rw [grad_cells]
    refine Finset.sum_congr rfl fun i _ => ?_
    unfold Line.mean
    ring
  rw [e]
  unfold bil
  congr 1
  rw [← Finset.sum_add_distrib]
  exact Finset.sum_congr rfl fun p _ => by ring

/-- `u` and `un` at the times `t` and `s` satisfy the discrete equation of the step. -/
def DiscreteStepV (L : Line Ω) (cap : ℕ → ℝ) (κ : Ω → ℝ) (lam : ℕ → ℝ) (given : Ω → ℝ) (g β : Bool → ℝ) (dir : Bool → Prop)
    (k : ℝ) (un u : ℕ → ℝ) : Prop :=
  ∀ v : ℕ → ℝ, (∀ q, dir q → (L.p1 v).tr q = 0) →
    bil L (fun p => (1 / k + lam (L.cell p)) * cap (L.cell p)) κ β u v
      = lin L (fun p => cap (L.cell p) * (L.p1 un).val p / k + given p) g v

/-- One step. -/
theorem accuracy_step_var (hL : L.Exact2) (hcap : ∀ i < L.N, 0 < cap i)
    (hw : Conducts L x0 final cap K lam f w slope div rate)
    (hM : ConductsBy L x0 final cap K lam w slope div rate Mt Mtx Ml Mx S1 S2 K1 K2) {s t H ε η : ℝ} (hs : 0 ≤ s) (hst : s < t)
    (ht : t ≤ final) (hH : ∀ i < L.N, L.h i ≤ H) {given κ : Ω → ℝ}
    (hf : ∀ p, |given p - f t (L.cell p) (L.pos x0 p)| ≤ ε) (hκ : ∀ p, |κ p - K t (L.cell p) (L.pos x0 p)| ≤ η)
    {g β : Bool → ℝ} {dir : Bool → Prop}
    (hend : ∀ q, ¬ dir q → K t (L.endCell q) (L.node x0 (L.endNo q)) * slope t (L.endCell q) (L.node x0 (L.endNo q))
      * Line.normal q 0 = g q - β q * w t (L.node x0 (L.endNo q))) {k0 : ℕ → ℝ} (hk0 : ∀ i < L.N, 0 < k0 i)
    (hκ0 : ∀ p, k0 (L.cell p) ≤ κ p) (hlam : ∀ i < L.N, 0 ≤ lam t i) (hβ : ∀ q, 0 ≤ β q) {un u : ℕ → ℝ}
    (hstep : DiscreteStepV L cap κ (lam t) given g β dir (t - s) un u)
    (hdir : ∀ q, dir q → (L.p1 u).tr q = w t (L.node x0 (L.endNo q))) :
    L.energy cap (u - L.nodal x0 (w t)) ^ 2 ≤ L.energy cap (u - L.nodal x0 (w t)) * (L.energy cap (un - L.nodal x0 (w s))
      + (t - s) * (L.size cap * (Mt / 2 * (t - s) + H ^ 2 / 8 * (Mtx + Ml + 3 * Mx) + ε)))
      + (t - s) * ((S1 * η + H ^ 2 * (S1 * K2 / 4 + K1 * S2)) ^ 2 * L.resist k0 / 4) := by
  have hk : 0 < t - s := sub_pos.2 hst
  set e := u - L.nodal x0 (w t) with he
  set d := un - L.nodal x0 (w s) with hd
  have hve : ∀ q, dir q → (L.p1 e).tr q = 0 := by
    intro q hq
    have h1 := hdir q hq
    rw [p1_node] at h1 ⊢
    simp [he, Line.nodal, h1]
  have h1 := hstep e hve
  have h2 := consistency_var hL hcap hw hM hs hst ht hH hf hκ hend e hve
  set α : Ω → ℝ := fun p => (1 / (t - s) + lam t (L.cell p)) * cap (L.cell p) with hα
  have h3 : bil L α κ β e e = bil L α κ β u e - bil L α κ β (L.nodal x0 (w t)) e := bil_sub L α κ β _ _ _
  have h4 : lin L (fun p => cap (L.cell p) * (L.p1 un).val p / (t - s) + given p) g e
      - lin L (fun p => cap (L.cell p) * (L.p1 (L.nodal x0 (w s))).val p / (t - s) + given p) g e
      = (∑ p, L.w p * (cap (L.cell p) * ((L.p1 d).val p * (L.p1 e).val p))) / (t - s) := by
    unfold lin
    rw [add_sub_add_right_eq_sub, ← Finset.sum_sub_distrib, Finset.sum_div]
    refine Finset.sum_congr rfl fun p _ => ?_
    have : (L.p1 d).val p = (L.p1 un).val p - (L.p1 (L.nodal x0 (w s))).val p := by
      simp only [hd, Line.p1, Pi.sub_apply]
      ring
    rw [this]
    ring
  set D2 := ∑ i ∈ Finset.range L.N, k0 i * ((e (i + 1) - e i) * (e (i + 1) - e i) / L.h i) with hD2
  have h5 : L.energy cap e ^ 2 / (t - s) + D2 ≤ bil L α κ β e e := by
    rw [energy_sq L hL hcap, bil_mean]
    have hb : 0 ≤ ∑ q, β q * ((L.p1 e).tr q * (L.p1 e).tr q) :=
      Finset.sum_nonneg fun q _ => mul_nonneg (hβ q) (mul_self_nonneg _)
    refine le_trans (add_le_add ?_ ?_) (le_add_of_nonneg_right hb)
    · rw [Finset.sum_div]
      refine Finset.sum_le_sum fun p _ => ?_
      have a2 : 0 ≤ lam t (L.cell p) * cap (L.cell p) * ((L.p1 e).val p * (L.p1 e).val p) :=
        mul_nonneg (mul_nonneg (hlam _ (L.cell_lt p)) (hcap _ (L.cell_lt p)).le) (mul_self_nonneg _)
      rw [mul_div_assoc]
      refine mul_le_mul_of_nonneg_left ?_ (hL.w_nonneg p)
      simp only [hα]
      have : cap (L.cell p) * (L.p1 e).val p ^ 2 / (t - s)
          = 1 / (t - s) * cap (L.cell p) * ((L.p1 e).val p * (L.p1 e).val p) := by ring
      rw [this]
      linarith
    · refine Finset.sum_le_sum fun i hi => ?_
      have hi := Finset.mem_range.1 hi
      exact mul_le_mul_of_nonneg_right (mean_ge hL hκ0 i hi) (div_nonneg (mul_self_nonneg _) (L.h_pos i hi).le)
  have h6 := energy_inner L hL hcap d e
  set E := L.energy cap e with hE
  set D := L.energy cap d with hD
  set ρ := Mt / 2 * (t - s) + H ^ 2 / 8 * (Mtx + Ml + 3 * Mx) + ε with hρ
  set Z := S1 * η + H ^ 2 * (S1 * K2 / 4 + K1 * S2) with hZ
  set y := ∑ i ∈ Finset.range L.N, |e (i + 1) - e i| with hy
  have hE0 : 0 ≤ E := Real.sqrt_nonneg _
  have hR := resist_pos L hk0
  have h7 : Z * y ≤ D2 + Z ^ 2 * L.resist k0 / 4 := by
    have h8 := resist_le L hk0 e
    rw [← hy, ← hD2] at h8
    have h9 : y ^ 2 / L.resist k0 ≤ D2 := by
      rw [div_le_iff₀ hR]
      linarith
    have h10 : Z * y ≤ y ^ 2 / L.resist k0 + Z ^ 2 * L.resist k0 / 4 := by
      have h11 : 0 ≤ (y - Z * L.resist k0 / 2) ^ 2 / L.resist k0 := div_nonneg (sq_nonneg _) hR.le
      have h12 : (y - Z * L.resist k0 / 2) ^ 2 / L.resist k0
          = y ^ 2 / L.resist k0 - Z * y + Z ^ 2 * L.resist k0 / 4 := by
        field_simp
        ring
      linarith
    linarith
  have h13 : E ^ 2 / (t - s) ≤ D * E / (t - s) + ρ * (L.size cap * E) + Z ^ 2 * L.resist k0 / 4 := by
    have := (abs_le.1 h2).2
    have h8 : (∑ p, L.w p * (cap (L.cell p) * ((L.p1 d).val p * (L.p1 e).val p))) / (t - s) ≤ D * E / (t - s) :=
      div_le_div_of_nonneg_right h6 hk.le
    linarith
  have := mul_le_mul_of_nonneg_right h13 hk.le
  rw [div_mul_cancel₀ _ hk.ne', add_mul, add_mul, div_mul_cancel₀ _ hk.ne'] at this
  linarith

/-- Errors which accumulate as in `accuracy_step_var`. -/
theorem accumulate {E a τ : ℕ → ℝ} {m : ℕ} {α β : ℝ} (hE : ∀ n, 0 ≤ E n) (hβ : 0 ≤ β)
    (hτ : ∀ n < m, τ n < τ (n + 1)) (ha : ∀ n < m, a n ≤ α) (hα : 0 ≤ α)
    (h : ∀ n < m, E (n + 1) ^ 2 ≤ E (n + 1) * (E n + (τ (n + 1) - τ n) * a n) + (τ (n + 1) - τ n) * β) :
    ∀ n ≤ m, E n ≤ E 0 + (τ n - τ 0) * α + √(2 * (τ n - τ 0) * β) := by
  have hmono : ∀ n ≤ m, τ 0 ≤ τ n := by
    intro n
    induction n with
    | zero => intro _; exact le_rfl
    | succ n ih => intro hn; exact (ih (by omega)).trans (hτ n (by omega)).le
  intro n
  induction n with
  | zero => intro _; simp
  | succ n ih =>
    intro hn
    have hlt : n < m := hn
    have h1 := ih hlt.le
    have hk := sub_pos.2 (hτ n hlt)
    set k := τ (n + 1) - τ n with hkd
    have e1 : τ (n + 1) - τ 0 = (τ n - τ 0) + k := by rw [hkd]; ring
    have hT0 : 0 ≤ τ n - τ 0 := sub_nonneg.2 (hmono n hlt.le)
    set T := τ n - τ 0 with hT
    rw [e1]
    set b := √(2 * T * β) with hb
    set b' := √(2 * (T + k) * β) with hb'
    have hbs : b ^ 2 = 2 * T * β := Real.sq_sqrt (by positivity)
    have hbs' : b' ^ 2 = 2 * (T + k) * β := Real.sq_sqrt (by positivity)
    have hb0 : 0 ≤ b := Real.sqrt_nonneg _
    have hb0' : 0 ≤ b' := Real.sqrt_nonneg _
    have hbb : b ≤ b' := Real.sqrt_le_sqrt (by nlinarith)
    by_contra hc
    push Not at hc
    set X := E 0 + (T + k) * α with hX
    have hX0 : 0 ≤ X := add_nonneg (hE 0) (by positivity)
    have h2 := h n hlt
    have h3 : E n + k * a n ≤ X + b := by
      have := mul_le_mul_of_nonneg_left (ha n hlt) hk.le
      rw [hX]
      linarith
    have h4 : E (n + 1) * (E n + k * a n) ≤ E (n + 1) * (X + b) := mul_le_mul_of_nonneg_left h3 (hE _)
    have h5 : E (n + 1) * (E (n + 1) - (X + b)) ≤ k * β := by nlinarith
    have h6 : k * β = (b' ^ 2 - b ^ 2) / 2 := by rw [hbs, hbs']; ring
    -- the left side is larger than `(X + b') (b' - b)`
    have h7 : (X + b') * (b' - b) ≤ E (n + 1) * (E (n + 1) - (X + b)) :=
      mul_le_mul hc.le (by linarith) (by linarith) (hE _)
    rcases hbb.eq_or_lt with h8 | h8
    · -- then `k β = 0`
      rw [h8, sub_self, zero_div] at h6
      have h9 : 0 < E (n + 1) := lt_of_le_of_lt (add_nonneg hX0 hb0') hc
      have h10 : 0 < E (n + 1) - (X + b) := by linarith
      have := mul_pos h9 h10
      linarith
    · have h9 : 0 ≤ X * (b' - b) := mul_nonneg hX0 (by linarith)
      nlinarith [mul_pos (sub_pos.2 h8) (sub_pos.2 h8)]

section
variable {Ks : ℕ → ℝ → ℝ} {r : ℕ → ℝ} {fs : ℕ → ℝ → ℝ} {ws : ℝ → ℝ} {sls dvs : ℕ → ℝ → ℝ} {Mr : ℝ}

/-- The exact steady solution satisfies the discrete equation up to a small error. -/
theorem steady_consistency_var (hL : L.Exact2) (hw : Holds L x0 Ks r fs ws sls dvs)
    (hM : HoldsBy L x0 Ks r ws sls dvs Mr Mx S1 S2 K1 K2) {H ε η : ℝ} (hH : ∀ i < L.N, L.h i ≤ H) {given κ : Ω → ℝ}
    (hf : ∀ p, |given p - fs (L.cell p) (L.pos x0 p)| ≤ ε) (hκ : ∀ p, |κ p - Ks (L.cell p) (L.pos x0 p)| ≤ η)
    {g β : Bool → ℝ} {dir : Bool → Prop}
    (hend : ∀ q, ¬ dir q → Ks (L.endCell q) (L.node x0 (L.endNo q)) * sls (L.endCell q) (L.node x0 (L.endNo q))
      * Line.normal q 0 = g q - β q * ws (L.node x0 (L.endNo q))) {v : ℕ → ℝ} (hv : ∀ q, dir q → (L.p1 v).tr q = 0) {M : ℝ}
    (hvM : ∀ i ≤ L.N, |v i| ≤ M) :
    |lin L given g v - bil L (fun p => r (L.cell p)) κ β (L.nodal x0 ws) v|
      ≤ (H ^ 2 / 8 * (Mr + 3 * Mx) + ε) * (L.extent * M)
        + (S1 * η + H ^ 2 * (S1 * K2 / 4 + K1 * S2)) * ∑ i ∈ Finset.range L.N, |v (i + 1) - v i| := by
  have hD : Conducts L x0 1 (fun _ => 1) (fun _ => Ks) (fun _ => r) (fun _ => fs) (fun _ => ws) (fun _ => sls) (fun _ => dvs)
      (fun _ _ => 0) :=
    ⟨fun _ _ => hw.hasSlope, fun _ _ => hw.hasDiv, fun _ _ _ _ _ _ => hasDerivWithinAt_const _ _ _,
      fun _ _ i hi x hx => by linarith [hw.equation i hi x hx], fun _ _ => hw.flux⟩
  have hB : ∀ i, Bend (fun _ => (1 : ℝ) * 0) (L.span x0 i) 0 := fun i =>
    ⟨fun _ => 0, fun _ _ => hasDerivWithinAt_const _ _ _, by simp⟩
  have hS : ConductsBy L x0 1 (fun _ => 1) (fun _ => Ks) (fun _ => r) (fun _ => ws) (fun _ => sls) (fun _ => dvs)
      (fun _ _ => 0) 0 0 Mr Mx S1 S2 K1 K2 :=
    ⟨by simp, fun _ _ i _ => hB i, fun _ _ i hi => by simpa using hM.bendDecay i hi, fun _ _ => hM.bendDiv,
      fun _ _ => hM.slope_le, fun _ _ => hM.slope_lip, fun _ _ => hM.cond_lip, fun _ _ => hM.bendCond⟩
  have h := consistency_var hL (fun _ _ => one_pos) hD hS (s := 0) (t := 1) le_rfl one_pos le_rfl hH hf hκ (g := g) (β := β)
    (dir := dir) (fun q hq => hend q hq) v hv
  have e : lin L (fun p => 1 * (L.p1 (L.nodal x0 ws)).val p / (1 - 0) + given p) g v
      - bil L (fun p => (1 / (1 - 0) + r (L.cell p)) * 1) κ β (L.nodal x0 ws) v
      = lin L given g v - bil L (fun p => r (L.cell p)) κ β (L.nodal x0 ws) v := by
    unfold lin bil
    rw [add_sub_add_comm, add_sub_add_comm, ← Finset.sum_sub_distrib, ← Finset.sum_sub_distrib (f := fun p => L.w p * (given p * _))]
    congr 1
    refine Finset.sum_congr rfl fun p _ => ?_
    ring
  rw [e] at h
  refine h.trans (add_le_add_left ?_ _)
  have h1 := size_energy_le hL hvM
  have h2 : 0 ≤ H ^ 2 / 8 * (Mr + 3 * Mx) + ε := by
    have c : ∀ {φ : ℝ → ℝ} {M : ℝ}, Bend φ (L.span x0 0) M → 0 ≤ M := by
      intro φ M h
      rw [L.span_eq] at h
      exact h.const_nonneg (L.h_pos 0 L.N_pos)
    have m2 := c (hM.bendDecay 0 L.N_pos)
    have m3 := c (hM.bendDiv 0 L.N_pos)
    have m4 : 0 ≤ ε := by
      obtain ⟨p, -⟩ : (Finset.univ.filter fun p => L.cell p = 0).Nonempty := by
        rw [Finset.nonempty_iff_ne_empty]
        intro h0
        have := L.exact 0 L.N_pos
        rw [h0, Finset.sum_empty] at this
        exact (L.h_pos 0 L.N_pos).ne this
      exact (abs_nonneg _).trans (hf p)
    positivity
  have h3 := mul_le_mul_of_nonneg_left h1 h2
  refine le_trans (le_of_eq ?_) h3
  ring

/-- As `max_bound`, with right-hand sides which may also act on the differences of the test functions. -/
theorem max_bound_var (hL : L.Exact2) {κ : Ω → ℝ} (hr : ∀ i < L.N, 0 ≤ r i) {β : Bool → ℝ}
    (hβ : ∀ q, 0 ≤ β q) {dir : Bool → Prop} {q0 : Bool} {s : ℝ} (hs : (dir q0 ∧ s = 0) ∨ (0 < β q0 ∧ s = 1 / β q0)) {e : ℕ → ℝ}
    (he : ∀ q, dir q → (L.p1 e).tr q = 0) {ρ Z : ℝ} (hρ : 0 ≤ ρ) (hZ : 0 ≤ Z) (hm : ∀ i < L.N, 0 < L.mean κ i)
    (h : ∀ v : ℕ → ℝ, (∀ q, dir q → (L.p1 v).tr q = 0) → ∀ M, (∀ i ≤ L.N, |v i| ≤ M) →
      |bil L (fun p => r (L.cell p)) κ β e v| ≤ ρ * M + Z * ∑ i ∈ Finset.range L.N, |v (i + 1) - v i|) :
    ∀ i ≤ L.N, |e i| ≤ (s + L.resist (L.mean κ)) * (ρ + Z) := by
  obtain ⟨m, hmm, hmax⟩ := Finset.exists_max_image (Finset.range (L.N + 1)) (fun i => |e i|) ⟨0, by simp⟩
  have hmN : m ≤ L.N := Nat.lt_succ_iff.1 (Finset.mem_range.1 hmm)
  have hall : ∀ i ≤ L.N, |e i| ≤ |e m| := fun i hi => hmax i (Finset.mem_range.2 (Nat.lt_succ_of_le hi))
  have h1 := h e he _ hall
  have hR := resist_pos L hm
  have hs0 : 0 ≤ s := by
    rcases hs with ⟨-, rfl⟩ | ⟨h, rfl⟩
    · exact le_rfl
    · exact (one_div_pos.2 h).le
  set S := ∑ i ∈ Finset.range L.N, L.mean κ i * ((e (i + 1) - e i) * (e (i + 1) - e i) / L.h i) with hS
  set x := e (L.endNo q0) with hx
  set y := ∑ k ∈ Finset.range L.N, |e (k + 1) - e k| with hy
  have h2 : β q0 * x ^ 2 + S ≤ ρ * |e m| + Z * y := by
    refine le_trans ?_ ((le_abs_self _).trans h1)
    rw [bil_mean]
    have a1 : 0 ≤ ∑ p, L.w p * (r (L.cell p) * ((L.p1 e).val p * (L.p1 e).val p)) :=
      Finset.sum_nonneg fun p _ => mul_nonneg (hL.w_nonneg p) (mul_nonneg (hr _ (L.cell_lt p)) (mul_self_nonneg _))
    have a2 : β q0 * x ^ 2 ≤ ∑ q, β q * ((L.p1 e).tr q * (L.p1 e).tr q) := by
      have := Finset.single_le_sum (f := fun q => β q * ((L.p1 e).tr q * (L.p1 e).tr q))
        (fun q _ => mul_nonneg (hβ q) (mul_self_nonneg _)) (Finset.mem_univ q0)
      refine le_trans (le_of_eq ?_) this
      rw [p1_node]
      ring
    linarith
  have h3 : |e m| ≤ |x| + y := by
    have hq : L.endNo q0 ≤ L.N := by cases q0 <;> simp [Line.endNo]
    have := sum_diff_abs L e m (L.endNo q0) hmN hq
    have e1 : e m = x + (e m - e (L.endNo q0)) := by rw [hx]; ring
    calc |e m| = |x + (e m - e (L.endNo q0))| := by rw [← e1]
      _ ≤ |x| + |e m - e (L.endNo q0)| := abs_add_le _ _
      _ ≤ _ := by linarith
  have h4 : y ^ 2 ≤ L.resist (L.mean κ) * S := resist_le L hm e
  have hy0 : 0 ≤ y := Finset.sum_nonneg fun _ _ => abs_nonneg _
  have hS0 : 0 ≤ S := Finset.sum_nonneg fun i hi =>
    mul_nonneg (hm i (Finset.mem_range.1 hi)).le (div_nonneg (mul_self_nonneg _) (L.h_pos i (Finset.mem_range.1 hi)).le)
  have h5 : x ^ 2 ≤ s * (β q0 * x ^ 2) := by
    rcases hs with ⟨hd, rfl⟩ | ⟨hb, rfl⟩
    · have := he q0 hd
      rw [p1_node] at this
      rw [hx, this]
      simp
    · refine le_of_eq ?_
      field_simp
  have hX0 : 0 ≤ β q0 * x ^ 2 := mul_nonneg (hβ q0) (sq_nonneg _)
  have h6 : (|x| + y) ^ 2 ≤ (s + L.resist (L.mean κ)) * (β q0 * x ^ 2 + S) := by
    have h7 : (|x| * y) ^ 2 ≤ (s * S) * (L.resist (L.mean κ) * (β q0 * x ^ 2)) := by
      rw [mul_pow, sq_abs]
      have := mul_le_mul h5 h4 (sq_nonneg _) (mul_nonneg hs0 hX0)
      linarith
    have h8 : 2 * (|x| * y) ≤ s * S + L.resist (L.mean κ) * (β q0 * x ^ 2) := by
      have p1 : 0 ≤ s * S := mul_nonneg hs0 hS0
      have p2 : 0 ≤ L.resist (L.mean κ) * (β q0 * x ^ 2) := mul_nonneg hR.le hX0
      refine abs_le_of_sq_le_sq' ?_ (add_nonneg p1 p2) |>.2
      nlinarith [sq_nonneg (s * S - L.resist (L.mean κ) * (β q0 * x ^ 2))]
    have h9 : |x| ^ 2 = x ^ 2 := sq_abs x
    nlinarith
  set Y := |x| + y with hY
  have hY0 : 0 ≤ Y := add_nonneg (abs_nonneg _) hy0
  have h10 : Y ^ 2 ≤ (s + L.resist (L.mean κ)) * ((ρ + Z) * Y) := by
    have hyY : y ≤ Y := by rw [hY]; linarith [abs_nonneg x]
    have h11 : ρ * |e m| + Z * y ≤ (ρ + Z) * Y := by
      have := mul_le_mul_of_nonneg_left h3 hρ
      have := mul_le_mul_of_nonneg_left hyY hZ
      linarith
    exact h6.trans (mul_le_mul_of_nonneg_left (h2.trans h11) (add_nonneg hs0 hR.le))
  have h13 : Y ≤ (s + L.resist (L.mean κ)) * (ρ + Z) := by
    rcases hY0.eq_or_lt with h0 | h0
    · rw [← h0]
      exact mul_nonneg (add_nonneg hs0 hR.le) (add_nonneg hρ hZ)
    · refine le_of_mul_le_mul_right ?_ h0
      linarith
  exact fun i hi => (hall i hi).trans (h3.trans h13)

/-- The fluxes in the cells, too. -/
theorem flux_bound_var (hL : L.Exact2) {κ : Ω → ℝ} (hm : ∀ i < L.N, 0 < L.mean κ i) {R : ℝ} (hr : ∀ i < L.N, |r i| ≤ R)
    {β : Bool → ℝ} {dir : Bool → Prop} {e : ℕ → ℝ} {ρ Z E : ℝ} (hρ : 0 ≤ ρ) (hZ : 0 ≤ Z) (hE : ∀ i ≤ L.N, |e i| ≤ E)
    (h : ∀ v : ℕ → ℝ, (∀ q, dir q → (L.p1 v).tr q = 0) → ∀ M, (∀ i ≤ L.N, |v i| ≤ M) →
      |bil L (fun p => r (L.cell p)) κ β e v| ≤ ρ * M + Z * ∑ i ∈ Finset.range L.N, |v (i + 1) - v i|) :
    ∀ i < L.N, |L.mean κ i * ((e (i + 1) - e i) / L.h i)|
      ≤ ρ + 2 * Z + R * L.extent * E + 2 * E / L.resist (L.mean κ) := by
  have hE0 : 0 ≤ E := (abs_nonneg _).trans (hE 0 (Nat.zero_le _))
  set K := L.mean κ with hK'
  set J : ℕ → ℝ := fun i => K i * ((e (i + 1) - e i) / L.h i) with hJ
  have hR := resist_pos L hm
  have h1 : ∀ i j, i < j → j < L.N → |J i - J j| ≤ ρ + 2 * Z + R * L.extent * E := by
    intro i j hij hj
    set v : ℕ → ℝ := fun k => if i < k ∧ k ≤ j then 1 else 0 with hv
    have hv1 : ∀ k, |v k| ≤ 1 := by
      intro k
      simp only [hv]
      split_ifs <;> simp
    have hvq : ∀ q, (L.p1 v).tr q = 0 := by
      intro q
      rw [p1_node]
      cases q
      · simp [hv, Line.endNo]
      · have : ¬ L.N ≤ j := by omega
        simp [hv, Line.endNo, this]
    have e3 : ∀ k, v (k + 1) - v k = (if k = i then 1 else 0) - if k = j then 1 else 0 := by
      intro k
      simp only [hv]
      by_cases c1 : k = i
      · subst c1
        have : k ≠ j := hij.ne
        simp [this, hij]
      · by_cases c2 : k = j
        · subst c2
          have : k ≠ i := c1
          simp [this, hij]
        · have c3 : (i < k + 1 ∧ k + 1 ≤ j) = (i < k ∧ k ≤ j) := propext (by omega)
          simp only [c3, c1, c2, if_false, sub_self]
    have h2 := h v (fun q _ => hvq q) 1 fun k _ => hv1 k
    rw [bil_mean] at h2
    have e0 : ∑ k ∈ Finset.range L.N, |v (k + 1) - v k| ≤ 2 := by
      have : ∀ k ∈ Finset.range L.N, |v (k + 1) - v k| ≤ (if k = i then 1 else 0) + if k = j then 1 else 0 := by
        intro k _
        rw [e3]
        split_ifs <;> norm_num
      refine (Finset.sum_le_sum this).trans ?_
      rw [Finset.sum_add_distrib, Finset.sum_ite_eq', Finset.sum_ite_eq']
      simp [hj, hij.trans hj]
      norm_num
    have e1 : ∑ k ∈ Finset.range L.N, K k * ((e (k + 1) - e k) * (v (k + 1) - v k) / L.h k) = J i - J j := by
      have e2 : ∀ k ∈ Finset.range L.N, K k * ((e (k + 1) - e k) * (v (k + 1) - v k) / L.h k)
          = (if k = i then J i else 0) - if k = j then J j else 0 := by
        intro k _
        rw [e3]
        by_cases c1 : k = i
        · subst c1
          have : k ≠ j := hij.ne
          simp only [if_true, this, if_false, hJ]
          ring
        · by_cases c2 : k = j
          · subst c2
            simp only [c1, if_false, if_true, hJ]
            ring
          · simp [c1, c2]
      rw [Finset.sum_congr rfl e2, Finset.sum_sub_distrib, Finset.sum_ite_eq', Finset.sum_ite_eq']
      simp [hj, hij.trans hj]
    have e4 : ∑ q, β q * ((L.p1 e).tr q * (L.p1 v).tr q) = 0 :=
      Finset.sum_eq_zero fun q _ => by rw [hvq q]; ring
    have e5 : |∑ p, L.w p * (r (L.cell p) * ((L.p1 e).val p * (L.p1 v).val p))| ≤ R * L.extent * E := by
      refine (Finset.abs_sum_le_sum_abs _ _).trans ?_
      have : R * L.extent * E = ∑ p, L.w p * (R * (E * 1)) := by
        rw [← Finset.sum_mul, total_weight]
        ring
      rw [this]
      refine Finset.sum_le_sum fun p _ => ?_
      rw [abs_mul, abs_of_nonneg (hL.w_nonneg p), abs_mul, abs_mul]
      refine mul_le_mul_of_nonneg_left ?_ (hL.w_nonneg p)
      have b1 := hr _ (L.cell_lt p)
      exact mul_le_mul b1 (mul_le_mul (p1_abs_le hL hE p) (p1_abs_le hL (fun k _ => hv1 k) p) (abs_nonneg _) hE0)
        (mul_nonneg (abs_nonneg _) (abs_nonneg _)) ((abs_nonneg _).trans b1)
    rw [e1, e4, add_zero] at h2
    have e6 := mul_le_mul_of_nonneg_left e0 hZ
    rw [abs_le] at h2 e5 ⊢
    constructor <;> linarith [h2.1, h2.2, e5.1, e5.2]
  have hρ0 : 0 ≤ ρ + 2 * Z + R * L.extent * E := by
    have h2 : 0 ≤ R := (abs_nonneg _).trans (hr 0 L.N_pos)
    have := mul_nonneg (mul_nonneg h2 (extent_pos L).le) hE0
    linarith
  have h2 : ∀ i j, i < L.N → j < L.N → |J i - J j| ≤ ρ + 2 * Z + R * L.extent * E := by
    intro i j hi hj
    rcases lt_trichotomy i j with hc | hc | hc
    · exact h1 i j hc hj
    · rw [hc, sub_self, abs_zero]; exact hρ0
    · rw [abs_sub_comm]; exact h1 j i hc hi
  intro i hi
  have h3 : ∑ j ∈ Finset.range L.N, L.h j / K j * J j = e L.N - e 0 := by
    rw [← Finset.sum_range_sub]
    refine Finset.sum_congr rfl fun j hj => ?_
    have a1 := (L.h_pos j (Finset.mem_range.1 hj)).ne'
    have a2 := (hm j (Finset.mem_range.1 hj)).ne'
    simp only [hJ]
    field_simp
  have h4 : L.resist K * J i = ∑ j ∈ Finset.range L.N, L.h j / K j * (J i - J j) + (e L.N - e 0) := by
    rw [← h3, ← Finset.sum_add_distrib]
    unfold Line.resist
    rw [Finset.sum_mul]
    exact Finset.sum_congr rfl fun j _ => by ring
  have h5 : |∑ j ∈ Finset.range L.N, L.h j / K j * (J i - J j)| ≤ L.resist K * (ρ + 2 * Z + R * L.extent * E) := by
    refine (Finset.abs_sum_le_sum_abs _ _).trans ?_
    unfold Line.resist
    rw [Finset.sum_mul]
    refine Finset.sum_le_sum fun j hj => ?_
    have a := div_pos (L.h_pos j (Finset.mem_range.1 hj)) (hm j (Finset.mem_range.1 hj))
    rw [abs_mul, abs_of_pos a]
    exact mul_le_mul_of_nonneg_left (h2 i j hi (Finset.mem_range.1 hj)) a.le
  have h6 : |e L.N - e 0| ≤ 2 * E := by
    have := abs_sub (e L.N) (e 0)
    linarith [hE L.N le_rfl, hE 0 (Nat.zero_le _)]
  have h7 : L.resist K * |J i| ≤ L.resist K * (ρ + 2 * Z + R * L.extent * E + 2 * E / L.resist K) := by
    have e1 : L.resist K * (ρ + 2 * Z + R * L.extent * E + 2 * E / L.resist K)
        = L.resist K * (ρ + 2 * Z + R * L.extent * E) + 2 * E := by
      field_simp
    rw [e1, ← abs_of_pos hR, ← abs_mul, abs_of_pos hR, h4]
    exact (abs_add_le _ _).trans (add_le_add h5 h6)
  exact le_of_mul_le_mul_left h7 hR

end

end

end Festim.Weak
