import Verif.Spec.Trapping
import Verif.Proofs.Accepted

/-! # Error estimate of one step of diffusion and trapping -/

open scoped BigOperators

namespace Festim.Weak

section
variable {Ω : Type} [Fintype Ω] {L : Line Ω}

theorem norm2_sq (hL : L.Exact2) (η : Ω → ℝ) : L.norm2 η ^ 2 = ∑ p, L.w p * η p ^ 2 :=
  Real.sq_sqrt (Finset.sum_nonneg fun p _ => mul_nonneg (hL.w_nonneg p) (sq_nonneg _))

theorem norm2_inner (hL : L.Exact2) (θ η : Ω → ℝ) : ∑ p, L.w p * (θ p * η p) ≤ L.norm2 θ * L.norm2 η := by
  have h := Finset.sum_sq_le_sum_mul_sum_of_sq_le_mul Finset.univ (r := fun p => L.w p * (θ p * η p))
    (f := fun p => L.w p * θ p ^ 2) (g := fun p => L.w p * η p ^ 2)
    (fun p _ => mul_nonneg (hL.w_nonneg p) (sq_nonneg _)) (fun p _ => mul_nonneg (hL.w_nonneg p) (sq_nonneg _))
    (fun p _ => le_of_eq (by ring))
  rw [← norm2_sq hL, ← norm2_sq hL, ← mul_pow] at h
  exact abs_le_of_sq_le_sq' h (mul_nonneg (Real.sqrt_nonneg _) (Real.sqrt_nonneg _)) |>.2

theorem weights_sum (L : Line Ω) : ∑ p, L.w p = ∑ i ∈ Finset.range L.N, L.h i := by
  have := size_cells L fun _ => 1
  simpa using this

theorem norm2_mean (hL : L.Exact2) (η : Ω → ℝ) : ∑ p, L.w p * |η p| ≤ L.size (fun _ => 1) * L.norm2 η := by
  have h := norm2_inner hL (fun _ => 1) fun p => |η p|
  have e1 : L.norm2 (fun _ => 1) = L.size fun _ => 1 := by
    unfold Line.norm2 Line.size
    simp [weights_sum]
  have e2 : L.norm2 (fun p => |η p|) = L.norm2 η := by
    unfold Line.norm2
    simp
  rw [e1, e2] at h
  simpa using h

variable {cap : ℕ → ℝ} {m : ℕ}

theorem total_sq (e : ℕ → ℝ) (η : Fin m → Ω → ℝ) :
    L.total cap e η ^ 2 = L.energy cap e ^ 2 + ∑ j, L.norm2 (η j) ^ 2 :=
  Real.sq_sqrt (add_nonneg (sq_nonneg _) (Finset.sum_nonneg fun _ _ => sq_nonneg _))

theorem total_energy (e : ℕ → ℝ) (η : Fin m → Ω → ℝ) : L.energy cap e ≤ L.total cap e η := by
  refine Real.le_sqrt_of_sq_le ?_
  exact le_add_of_nonneg_right (Finset.sum_nonneg fun _ _ => sq_nonneg _)

theorem total_norm2 (e : ℕ → ℝ) (η : Fin m → Ω → ℝ) (j : Fin m) : L.norm2 (η j) ≤ L.total cap e η := by
  refine Real.le_sqrt_of_sq_le ?_
  have := Finset.single_le_sum (f := fun j => L.norm2 (η j) ^ 2) (fun _ _ => sq_nonneg _) (Finset.mem_univ j)
  exact this.trans (le_add_of_nonneg_left (sq_nonneg _))

theorem total_inner (d e : ℕ → ℝ) (θ η : Fin m → Ω → ℝ) :
    L.energy cap d * L.energy cap e + ∑ j, L.norm2 (θ j) * L.norm2 (η j) ≤ L.total cap d θ * L.total cap e η := by
  have h := Finset.sum_sq_le_sum_mul_sum_of_sq_le_mul Finset.univ
    (r := fun o : Option (Fin m) => o.elim (L.energy cap d * L.energy cap e) fun j => L.norm2 (θ j) * L.norm2 (η j))
    (f := fun o => o.elim (L.energy cap d ^ 2) fun j => L.norm2 (θ j) ^ 2)
    (g := fun o => o.elim (L.energy cap e ^ 2) fun j => L.norm2 (η j) ^ 2)
    (fun o _ => by cases o <;> exact sq_nonneg _) (fun o _ => by cases o <;> exact sq_nonneg _)
    (fun o _ => by cases o <;> simp [mul_pow])
  simp only [Fintype.sum_option, Option.elim_none, Option.elim_some] at h
  rw [← total_sq, ← total_sq, ← mul_pow] at h
  exact abs_le_of_sq_le_sq' h (mul_nonneg (Real.sqrt_nonneg _) (Real.sqrt_nonneg _)) |>.2

/-- The difference of the rates of trapping. -/
theorem trapping_sub (k ν n c ct c' ct' : ℝ) :
    trapping k ν n c ct - trapping k ν n c' ct' = k * (n - ct) * (c - c') - (k * c' + ν) * (ct - ct') := by
  unfold trapping
  ring

theorem cross_le {a b x y : ℝ} (ha : 0 ≤ a) (hb : 0 ≤ b) (hx : 0 ≤ x) (hy : 0 ≤ y) :
    (a * x + b * y) * (x + y) ≤ 2 * (a + b) * (x ^ 2 + y ^ 2) := by
  have h1 : a * x + b * y ≤ (a + b) * (x + y) := by nlinarith [mul_nonneg ha hy, mul_nonneg hb hx]
  have h2 := mul_le_mul_of_nonneg_right h1 (add_nonneg hx hy)
  have h3 : (x + y) * (x + y) ≤ 2 * (x ^ 2 + y ^ 2) := by nlinarith [sq_nonneg (x - y)]
  have h4 := mul_le_mul_of_nonneg_left h3 (add_nonneg ha hb)
  linarith

variable {x0 final : ℝ} {K lam : ℝ → ℕ → ℝ} {f : ℝ → ℕ → ℝ → ℝ} {w : ℝ → ℝ → ℝ}
  {slope curv : ℝ → ℕ → ℝ → ℝ} {rate : ℝ → ℝ → ℝ} {Mt Mtx Ml Mx : ℝ}

theorem smooth_nonneg (hM : SmoothBy L x0 final cap K lam w curv rate Mt Mtx Ml Mx) {s t : ℝ} (hs : 0 ≤ s) (hst : s < t)
    (ht : t ≤ final) : 0 ≤ Mt ∧ 0 ≤ Mtx ∧ 0 ≤ Ml ∧ 0 ≤ Mx := by
  have hk : 0 < t - s := sub_pos.2 hst
  have hMt : 0 ≤ Mt := by
    have := hM.time 0 L.N_pos _ (L.node_left_mem x0 0 L.N_pos) s ⟨hs, hst.le.trans ht⟩ t ⟨hs.trans hst.le, ht⟩
    rw [abs_sub_comm s t, abs_of_pos hk] at this
    exact nonneg_of_mul_nonneg_left ((abs_nonneg _).trans this) hk
  have htm : t ∈ Set.Icc 0 final := ⟨hs.trans hst.le, ht⟩
  have c : ∀ {φ : ℝ → ℝ} {M : ℝ}, Bend φ (L.span x0 0) M → 0 ≤ M := by
    intro φ M h
    rw [L.span_eq] at h
    exact h.const_nonneg (L.h_pos 0 L.N_pos)
  exact ⟨hMt, c (hM.bendRate t htm 0 L.N_pos), c (hM.bendDecay t htm 0 L.N_pos), c (hM.bendCurv t htm 0 L.N_pos)⟩

theorem line_point (L : Line Ω) : ∃ p : Ω, L.cell p = 0 := by
  by_contra hn
  push Not at hn
  have := L.exact 0 L.N_pos
  rw [Finset.filter_false_of_mem fun p _ => hn p, Finset.sum_empty] at this
  exact (L.h_pos 0 L.N_pos).ne this

/-- One step of the mobile equation with a source which is not exact: what the deviation `r` contributes. -/
theorem mobile_step (hL : L.Exact2) (hcap : ∀ i < L.N, 0 < cap i)
    (hw : Diffuses L x0 final cap K lam f w slope curv rate)
    (hM : SmoothBy L x0 final cap K lam w curv rate Mt Mtx Ml Mx) {s t H ε : ℝ} (hs : 0 ≤ s) (hst : s < t)
    (ht : t ≤ final) (hH : ∀ i < L.N, L.h i ≤ H) {given r : Ω → ℝ}
    (hf : ∀ p, |given p + r p - f t (L.cell p) (L.pos x0 p)| ≤ ε) {g β : Bool → ℝ} {dir : Bool → Prop}
    (hend : ∀ q, ¬ dir q → EndFlux L x0 K w slope t q (g q) (β q)) (hK : ∀ i < L.N, 0 ≤ K t i)
    (hlam : ∀ i < L.N, 0 ≤ lam t i) (hβ : ∀ q, 0 ≤ β q) {un u : ℕ → ℝ}
    (hstep : DiscreteStep L cap (K t) (lam t) given g β dir (t - s) un u)
    (hdir : ∀ q, dir q → (L.p1 u).tr q = w t (L.node x0 (L.endNo q))) :
    L.energy cap (u - L.nodal x0 (w t)) ^ 2
      ≤ L.energy cap (un - L.nodal x0 (w s)) * L.energy cap (u - L.nodal x0 (w t))
        + (t - s) * ((Mt / 2 * (t - s) + H ^ 2 / 8 * (Mtx + Ml + 3 * Mx) + ε)
            * (L.size cap * L.energy cap (u - L.nodal x0 (w t)))
          + ∑ p, L.w p * (|r p| * |(L.p1 (u - L.nodal x0 (w t))).val p|)) := by
  have hk : 0 < t - s := sub_pos.2 hst
  set e := u - L.nodal x0 (w t) with he
  set d := un - L.nodal x0 (w s) with hd
  have hve : ∀ q, dir q → (L.p1 e).tr q = 0 := by
    intro q hq
    have h1 := hdir q hq
    rw [p1_node] at h1 ⊢
    simp [he, Line.nodal, h1]
  have h1 := hstep e hve
  have h2 := consistency hL hcap hw hM hs hst ht hH hf hend e hve
  set α : Ω → ℝ := fun p => (1 / (t - s) + lam t (L.cell p)) * cap (L.cell p) with hα
  set κ : Ω → ℝ := fun p => K t (L.cell p) with hκ
  have h3 : bil L α κ β e e = bil L α κ β u e - bil L α κ β (L.nodal x0 (w t)) e := bil_sub L α κ β _ _ _
  have h4 : lin L (fun p => cap (L.cell p) * (L.p1 un).val p / (t - s) + given p) g e
      - lin L (fun p => cap (L.cell p) * (L.p1 (L.nodal x0 (w s))).val p / (t - s) + (given p + r p)) g e
      = (∑ p, L.w p * (cap (L.cell p) * ((L.p1 d).val p * (L.p1 e).val p))) / (t - s)
        - ∑ p, L.w p * (r p * (L.p1 e).val p) := by
    unfold lin
    rw [add_sub_add_right_eq_sub, ← Finset.sum_sub_distrib, Finset.sum_div, ← Finset.sum_sub_distrib]
    refine Finset.sum_congr rfl fun p _ => ?_
    have e1 : (L.p1 d).val p = (L.p1 un).val p - (L.p1 (L.nodal x0 (w s))).val p := p1_sub_val L _ _ p
    rw [e1]
    ring
  have h5 : L.energy cap e ^ 2 / (t - s) ≤ bil L α κ β e e := by
    rw [energy_sq L hL hcap]
    unfold bil
    have hb : 0 ≤ ∑ q, β q * ((L.p1 e).tr q * (L.p1 e).tr q) :=
      Finset.sum_nonneg fun q _ => mul_nonneg (hβ q) (mul_self_nonneg _)
    refine le_trans ?_ (le_add_of_nonneg_right hb)
    rw [Finset.sum_div]
    refine Finset.sum_le_sum fun p _ => ?_
    have a1 : 0 ≤ K t (L.cell p) * ((L.p1 e).grad p 0 * (L.p1 e).grad p 0) :=
      mul_nonneg (hK _ (L.cell_lt p)) (mul_self_nonneg _)
    have a2 : 0 ≤ lam t (L.cell p) * cap (L.cell p) * ((L.p1 e).val p * (L.p1 e).val p) :=
      mul_nonneg (mul_nonneg (hlam _ (L.cell_lt p)) (hcap _ (L.cell_lt p)).le) (mul_self_nonneg _)
    rw [mul_div_assoc]
    refine mul_le_mul_of_nonneg_left ?_ (hL.w_nonneg p)
    simp only [hα, hκ]
    have : cap (L.cell p) * (L.p1 e).val p ^ 2 / (t - s)
        = 1 / (t - s) * cap (L.cell p) * ((L.p1 e).val p * (L.p1 e).val p) := by ring
    rw [this]
    linarith
  have h6 := energy_inner L hL hcap d e
  set E := L.energy cap e with hE
  set D := L.energy cap d with hD
  set ρ := Mt / 2 * (t - s) + H ^ 2 / 8 * (Mtx + Ml + 3 * Mx) + ε with hρ
  have h7 : -∑ p, L.w p * (r p * (L.p1 e).val p) ≤ ∑ p, L.w p * (|r p| * |(L.p1 e).val p|) := by
    rw [← Finset.sum_neg_distrib]
    refine Finset.sum_le_sum fun p _ => ?_
    rw [← mul_neg, ← abs_mul]
    exact mul_le_mul_of_nonneg_left (neg_le_abs _) (hL.w_nonneg p)
  have h8 : E ^ 2 / (t - s) ≤ D * E / (t - s) + (ρ * (L.size cap * E)
      + ∑ p, L.w p * (|r p| * |(L.p1 e).val p|)) := by
    have := (abs_le.1 h2).2
    have h9 : (∑ p, L.w p * (cap (L.cell p) * ((L.p1 d).val p * (L.p1 e).val p))) / (t - s) ≤ D * E / (t - s) :=
      div_le_div_of_nonneg_right h6 hk.le
    linarith
  have := mul_le_mul_of_nonneg_right h8 hk.le
  rw [div_mul_cancel₀ _ hk.ne', add_mul, div_mul_cancel₀ _ hk.ne'] at this
  linarith

/-- One step of a trap. -/
theorem trap_step (hL : L.Exact2) {k ζ : ℝ} (hk : 0 < k) {ctn ct Zn Z rh r : Ω → ℝ}
    (heq : ∑ p, L.w p * (((ct p - ctn p) / k - rh p) * (ct p - Z p)) = 0)
    (hZ : ∀ p, |(Z p - Zn p) / k - r p| ≤ ζ) :
    L.norm2 (ct - Z) ^ 2 ≤ L.norm2 (ctn - Zn) * L.norm2 (ct - Z)
      + k * (∑ p, L.w p * (|rh p - r p| * |ct p - Z p|) + ζ * (L.size (fun _ => 1) * L.norm2 (ct - Z))) := by
  have h1 := norm2_inner hL (ctn - Zn) (ct - Z)
  have h2 := norm2_mean hL (ct - Z)
  obtain ⟨p0, -⟩ := line_point L
  have hζ : 0 ≤ ζ := (abs_nonneg _).trans (hZ p0)
  have h3 : ∀ p, L.w p * (ct - Z) p ^ 2 ≤ L.w p * ((ctn - Zn) p * (ct - Z) p)
      + k * (L.w p * (|rh p - r p| * |ct p - Z p|) + ζ * (L.w p * |(ct - Z) p|))
      + k * (L.w p * (((ct p - ctn p) / k - rh p) * (ct p - Z p))) := by
    intro p
    have hw := hL.w_nonneg p
    have e1 : k * (((ct p - ctn p) / k - rh p) * (ct p - Z p))
        = (ct p - ctn p - k * rh p) * (ct p - Z p) := by field_simp
    have e2 : Z p - Zn p - k * r p = k * ((Z p - Zn p) / k - r p) := by field_simp
    have h4 : (ct p - Z p) ^ 2 = (ctn p - Zn p) * (ct p - Z p) + k * (rh p - r p) * (ct p - Z p)
        - (Z p - Zn p - k * r p) * (ct p - Z p) + (ct p - ctn p - k * rh p) * (ct p - Z p) := by ring
    have h5 : (rh p - r p) * (ct p - Z p) ≤ |rh p - r p| * |ct p - Z p| := by
      rw [← abs_mul]; exact le_abs_self _
    have h6 : -(((Z p - Zn p) / k - r p) * (ct p - Z p)) ≤ ζ * |ct p - Z p| := by
      refine (neg_le_abs _).trans ?_
      rw [abs_mul]
      exact mul_le_mul_of_nonneg_right (hZ p) (abs_nonneg _)
    have h7 : (ct p - Z p) ^ 2 ≤ (ctn p - Zn p) * (ct p - Z p) + k * (|rh p - r p| * |ct p - Z p| + ζ * |ct p - Z p|)
        + k * (((ct p - ctn p) / k - rh p) * (ct p - Z p)) := by
      rw [h4, e1, e2]
      have := mul_le_mul_of_nonneg_left h5 hk.le
      have := mul_le_mul_of_nonneg_left h6 hk.le
      linarith
    have := mul_le_mul_of_nonneg_left h7 hw
    simp only [Pi.sub_apply]
    linarith
  have h4 := Finset.sum_le_sum fun p (_ : p ∈ Finset.univ) => h3 p
  simp only [Finset.sum_add_distrib, ← Finset.mul_sum] at h4
  rw [heq, mul_zero, add_zero, ← norm2_sq hL] at h4
  have h5 := mul_le_mul_of_nonneg_left (mul_le_mul_of_nonneg_left h2 hζ) hk.le
  linarith

/-- Diffusion and trapping together.  `A j`, `B j` and `n j` are the rates and the density of the trap `j` at the points at the
time `t`, `Z j` an approximation of the exact trapped concentration. -/
theorem coupled_step (hL : L.Exact2) {c0 : ℝ} (hc0 : 0 < c0) (hcap : ∀ i < L.N, c0 ≤ cap i)
    {A B n : Fin m → ℝ → ℕ → ℝ → ℝ} {z : Fin m → ℝ → ℕ → ℝ → ℝ}
    (hw : Diffuses L x0 final cap K lam (fun t i x => f t i x
      - ∑ j, trapping (A j t i x) (B j t i x) (n j t i x) (cap i * w t x) (z j t i x)) w slope curv rate)
    (hM : SmoothBy L x0 final cap K lam w curv rate Mt Mtx Ml Mx) {s t H ε : ℝ} (hs : 0 ≤ s) (hst : s < t)
    (ht : t ≤ final) (hH : ∀ i < L.N, L.h i ≤ H) {given : Ω → ℝ}
    (hf : ∀ p, |given p - f t (L.cell p) (L.pos x0 p)| ≤ ε) {g β : Bool → ℝ} {dir : Bool → Prop}
    (hend : ∀ q, ¬ dir q → EndFlux L x0 K w slope t q (g q) (β q)) (hK : ∀ i < L.N, 0 ≤ K t i)
    (hlam : ∀ i < L.N, 0 ≤ lam t i) (hβ : ∀ q, 0 ≤ β q) {un u : ℕ → ℝ} {ctn ct Zn Z rh : Fin m → Ω → ℝ}
    (hrh : ∀ j p, rh j p = trapping (A j t (L.cell p) (L.pos x0 p)) (B j t (L.cell p) (L.pos x0 p))
      (n j t (L.cell p) (L.pos x0 p)) (cap (L.cell p) * (L.p1 u).val p) (ct j p))
    (hstep : DiscreteStep L cap (K t) (lam t) (fun p => given p - ∑ j, rh j p) g β dir (t - s) un u)
    (hdir : ∀ q, dir q → (L.p1 u).tr q = w t (L.node x0 (L.endNo q)))
    (htrap : ∀ j, ∑ p, L.w p * (((ct j p - ctn j p) / (t - s) - rh j p) * (ct j p - Z j p)) = 0)
    {a b δw δz ζ : ℝ} (ha0 : 0 ≤ a) (hb0 : 0 ≤ b) (hδw0 : 0 ≤ δw) (hδz0 : 0 ≤ δz) (hζ0 : 0 ≤ ζ)
    (hδw : ∀ p, |(L.p1 (L.nodal x0 (w t))).val p - w t (L.pos x0 p)| ≤ δw)
    (hδz : ∀ j p, |Z j p - z j t (L.cell p) (L.pos x0 p)| ≤ δz)
    (hZ : ∀ j p, |(Z j p - Zn j p) / (t - s) - trapping (A j t (L.cell p) (L.pos x0 p)) (B j t (L.cell p) (L.pos x0 p))
      (n j t (L.cell p) (L.pos x0 p)) (cap (L.cell p) * w t (L.pos x0 p)) (z j t (L.cell p) (L.pos x0 p))| ≤ ζ)
    (ha : ∀ j p, |A j t (L.cell p) (L.pos x0 p) * cap (L.cell p) * (n j t (L.cell p) (L.pos x0 p) - ct j p)| ≤ a)
    (hb : ∀ j p, |A j t (L.cell p) (L.pos x0 p) * (cap (L.cell p) * w t (L.pos x0 p)) + B j t (L.cell p) (L.pos x0 p)| ≤ b) :
    L.total cap (u - L.nodal x0 (w t)) (ct - Z) * (1 - (t - s) * (2 * (a + b) * (m / c0 + 1)))
      ≤ L.total cap (un - L.nodal x0 (w s)) (ctn - Zn)
        + (t - s) * (L.size cap * (Mt / 2 * (t - s) + H ^ 2 / 8 * (Mtx + Ml + 3 * Mx) + ε)
          + m * ((a * δw + b * δz) * (L.size cap + L.size fun _ => 1) + ζ * L.size fun _ => 1)) := by
  have hk : 0 < t - s := sub_pos.2 hst
  have hcap0 : ∀ i < L.N, 0 < cap i := fun i hi => hc0.trans_le (hcap i hi)
  set e := u - L.nodal x0 (w t) with he
  set d := un - L.nodal x0 (w s) with hd
  set rx : Fin m → Ω → ℝ := fun j p => trapping (A j t (L.cell p) (L.pos x0 p)) (B j t (L.cell p) (L.pos x0 p))
      (n j t (L.cell p) (L.pos x0 p)) (cap (L.cell p) * w t (L.pos x0 p)) (z j t (L.cell p) (L.pos x0 p)) with hrx
  have h1 := mobile_step (r := fun p => ∑ j, (rh j p - rx j p)) hL hcap0 hw hM hs hst ht hH
    (given := fun p => given p - ∑ j, rh j p) (ε := ε) (fun p => by
      have e1 : given p - ∑ j, rh j p + ∑ j, (rh j p - rx j p) - (f t (L.cell p) (L.pos x0 p) - ∑ j, rx j p)
          = given p - f t (L.cell p) (L.pos x0 p) := by
        rw [Finset.sum_sub_distrib]
        ring
      rw [e1]
      exact hf p) hend hK hlam hβ hstep hdir
  have h2 := fun j => trap_step hL hk (ζ := ζ) (r := rx j) (Zn := Zn j) (htrap j) (hZ j)
  rw [← he, ← hd] at h1
  -- the difference of the rates
  have h3 : ∀ j p, |rh j p - rx j p| ≤ a * |(L.p1 e).val p| + b * |ct j p - Z j p| + (a * δw + b * δz) := by
    intro j p
    have e1 : rh j p - rx j p = A j t (L.cell p) (L.pos x0 p) * cap (L.cell p) * (n j t (L.cell p) (L.pos x0 p) - ct j p)
          * ((L.p1 u).val p - w t (L.pos x0 p))
        - (A j t (L.cell p) (L.pos x0 p) * (cap (L.cell p) * w t (L.pos x0 p)) + B j t (L.cell p) (L.pos x0 p))
          * (ct j p - z j t (L.cell p) (L.pos x0 p)) := by
      rw [hrh, hrx]
      dsimp only
      rw [trapping_sub]
      ring
    have e2 : |(L.p1 u).val p - w t (L.pos x0 p)| ≤ |(L.p1 e).val p| + δw := by
      have e3 : (L.p1 e).val p = (L.p1 u).val p - (L.p1 (L.nodal x0 (w t))).val p := p1_sub_val L _ _ p
      have e4 : (L.p1 u).val p - w t (L.pos x0 p)
          = (L.p1 e).val p + ((L.p1 (L.nodal x0 (w t))).val p - w t (L.pos x0 p)) := by rw [e3]; ring
      rw [e4]
      exact (abs_add_le _ _).trans (by linarith [hδw p])
    have e3 : |ct j p - z j t (L.cell p) (L.pos x0 p)| ≤ |ct j p - Z j p| + δz := by
      have e4 : ct j p - z j t (L.cell p) (L.pos x0 p) = (ct j p - Z j p) + (Z j p - z j t (L.cell p) (L.pos x0 p)) := by
        ring
      rw [e4]
      exact (abs_add_le _ _).trans (by linarith [hδz j p])
    rw [e1]
    refine (abs_sub _ _).trans ?_
    rw [abs_mul _ ((L.p1 u).val p - _), abs_mul _ (ct j p - _)]
    have e5 := mul_le_mul (ha j p) e2 (abs_nonneg _) ha0
    have e6 := mul_le_mul (hb j p) e3 (abs_nonneg _) hb0
    linarith
  set G := L.total cap e (ct - Z) with hG
  set Gn := L.total cap d (ctn - Zn) with hGn
  set E := L.energy cap e with hE
  have hG0 : 0 ≤ G := Real.sqrt_nonneg _
  have hEG : E ≤ G := total_energy e _
  have hNG : ∀ j, L.norm2 (ct j - Z j) ≤ G := fun j => total_norm2 e (ct - Z) j
  set sz := L.size cap with hsz
  set ℓ := L.size (fun _ => 1) with hℓ
  have hsz0 : 0 ≤ sz := Real.sqrt_nonneg _
  have hℓ0 : 0 ≤ ℓ := Real.sqrt_nonneg _
  set σ := a * δw + b * δz with hσ
  have hσ0 : 0 ≤ σ := add_nonneg (mul_nonneg ha0 hδw0) (mul_nonneg hb0 hδz0)
  -- both together
  have h4 : ∀ j, ∑ p, L.w p * (|rh j p - rx j p| * |(L.p1 e).val p|) + ∑ p, L.w p * (|rh j p - rx j p| * |ct j p - Z j p|)
      ≤ 2 * (a + b) * (E ^ 2 / c0 + L.norm2 (ct j - Z j) ^ 2) + σ * ((sz + ℓ) * G) := by
    intro j
    have e1 : ∀ p, L.w p * (|rh j p - rx j p| * |(L.p1 e).val p|) + L.w p * (|rh j p - rx j p| * |ct j p - Z j p|)
        ≤ 2 * (a + b) * (L.w p * (cap (L.cell p) * (L.p1 e).val p ^ 2) / c0 + L.w p * (ct j - Z j) p ^ 2)
          + σ * (L.w p * |(L.p1 e).val p| + L.w p * |(ct j - Z j) p|) := by
      intro p
      have hwp := hL.w_nonneg p
      have q1 := mul_le_mul_of_nonneg_right (h3 j p) (add_nonneg (abs_nonneg ((L.p1 e).val p)) (abs_nonneg (ct j p - Z j p)))
      have q2 := cross_le ha0 hb0 (abs_nonneg ((L.p1 e).val p)) (abs_nonneg (ct j p - Z j p))
      rw [sq_abs, sq_abs] at q2
      have q3 : (L.p1 e).val p ^ 2 ≤ cap (L.cell p) * (L.p1 e).val p ^ 2 / c0 := by
        rw [le_div_iff₀ hc0, mul_comm]
        exact mul_le_mul_of_nonneg_right (hcap _ (L.cell_lt p)) (sq_nonneg _)
      have q4 := mul_le_mul_of_nonneg_left q3 (show 0 ≤ 2 * (a + b) by positivity)
      have q5 : |rh j p - rx j p| * (|(L.p1 e).val p| + |ct j p - Z j p|)
          ≤ 2 * (a + b) * (cap (L.cell p) * (L.p1 e).val p ^ 2 / c0 + (ct j p - Z j p) ^ 2)
            + σ * (|(L.p1 e).val p| + |ct j p - Z j p|) := by
        linarith
      have q6 := mul_le_mul_of_nonneg_left q5 hwp
      simp only [Pi.sub_apply]
      refine le_trans (le_of_eq (by ring)) (q6.trans (le_of_eq (by ring)))
    rw [← Finset.sum_add_distrib]
    refine (Finset.sum_le_sum fun p _ => e1 p).trans ?_
    simp only [Finset.sum_add_distrib, ← Finset.mul_sum, ← Finset.sum_div]
    rw [← energy_sq L hL hcap0, ← norm2_sq hL]
    have e2 := mean_le L hL hcap0 e
    have e3 := norm2_mean hL (ct j - Z j)
    have e4 := mul_le_mul_of_nonneg_left hEG hsz0
    have e5 := mul_le_mul_of_nonneg_left (hNG j) hℓ0
    have e6 := mul_le_mul_of_nonneg_left (show ∑ p, L.w p * |(L.p1 e).val p| + ∑ p, L.w p * |(ct j - Z j) p|
      ≤ (sz + ℓ) * G by linarith) hσ0
    linarith
  have h5 : ∑ p, L.w p * (|∑ j, (rh j p - rx j p)| * |(L.p1 e).val p|)
      ≤ ∑ j, ∑ p, L.w p * (|rh j p - rx j p| * |(L.p1 e).val p|) := by
    rw [Finset.sum_comm]
    refine Finset.sum_le_sum fun p _ => ?_
    rw [← Finset.mul_sum, ← Finset.sum_mul]
    exact mul_le_mul_of_nonneg_left (mul_le_mul_of_nonneg_right (Finset.abs_sum_le_sum_abs _ _) (abs_nonneg _))
      (hL.w_nonneg p)
  have h6 := Finset.sum_le_sum fun j (_ : j ∈ Finset.univ) => h4 j
  have h7 := Finset.sum_le_sum fun j (_ : j ∈ Finset.univ) => h2 j
  simp only [Finset.sum_add_distrib, ← Finset.mul_sum, Finset.sum_const, Finset.card_univ, Fintype.card_fin,
    nsmul_eq_mul] at h6 h7
  have h8 : G ^ 2 = E ^ 2 + ∑ j, L.norm2 (ct j - Z j) ^ 2 := total_sq e (ct - Z)
  have h9 : L.energy cap d * E + ∑ j, L.norm2 (ctn j - Zn j) * L.norm2 (ct j - Z j) ≤ Gn * G :=
    total_inner d e (ctn - Zn) (ct - Z)
  have h10 : ∑ j, L.norm2 (ct j - Z j) ≤ m * G := by
    refine (Finset.sum_le_sum fun j _ => hNG j).trans ?_
    simp
  set ρ := Mt / 2 * (t - s) + H ^ 2 / 8 * (Mtx + Ml + 3 * Mx) + ε with hρ
  have hρ0 : 0 ≤ ρ := by
    obtain ⟨m1, m2, m3, m4⟩ := smooth_nonneg hM hs hst ht
    obtain ⟨p0, -⟩ := line_point L
    have m5 : 0 ≤ ε := (abs_nonneg _).trans (hf p0)
    rw [hρ]
    positivity
  have h11 : 2 * (a + b) * (m * (E ^ 2 / c0) + ∑ j, L.norm2 (ct j - Z j) ^ 2) ≤ 2 * (a + b) * (m / c0 + 1) * G ^ 2 := by
    have e1 : (m : ℝ) * (E ^ 2 / c0) ≤ m / c0 * G ^ 2 := by
      rw [div_mul_eq_mul_div, ← mul_div_assoc]
      refine div_le_div_of_nonneg_right (mul_le_mul_of_nonneg_left ?_ (Nat.cast_nonneg m)) hc0.le
      rw [h8]
      exact le_add_of_nonneg_right (Finset.sum_nonneg fun _ _ => sq_nonneg _)
    have e2 : ∑ j, L.norm2 (ct j - Z j) ^ 2 ≤ G ^ 2 := by
      rw [h8]
      exact le_add_of_nonneg_left (sq_nonneg _)
    have := mul_le_mul_of_nonneg_left (add_le_add e1 e2) (show 0 ≤ 2 * (a + b) by positivity)
    linarith
  have h12 : ρ * (sz * E) ≤ ρ * (sz * G) := mul_le_mul_of_nonneg_left (mul_le_mul_of_nonneg_left hEG hsz0) hρ0
  have h13 : ζ * (ℓ * ∑ j, L.norm2 (ct j - Z j)) ≤ ζ * (ℓ * (m * G)) :=
    mul_le_mul_of_nonneg_left (mul_le_mul_of_nonneg_left h10 hℓ0) hζ0
  set τ := sz * ρ + m * (σ * (sz + ℓ) + ζ * ℓ) with hτ
  have hm0 : (0 : ℝ) ≤ m := Nat.cast_nonneg m
  have hτ0 : 0 ≤ τ := by positivity
  set Λ := 2 * (a + b) * (m / c0 + 1) with hΛ
  have h14 : G ^ 2 ≤ Gn * G + (t - s) * (Λ * G ^ 2 + τ * G) := by
    have q : ρ * (sz * E) + ∑ p, L.w p * (|∑ j, (rh j p - rx j p)| * |(L.p1 e).val p|)
        + (∑ j, ∑ p, L.w p * (|rh j p - rx j p| * |ct j p - Z j p|) + ζ * (ℓ * ∑ j, L.norm2 (ct j - Z j)))
        ≤ Λ * G ^ 2 + τ * G := by
      rw [hτ]
      linarith
    have := mul_le_mul_of_nonneg_left q hk.le
    linarith
  have hGn0 : 0 ≤ Gn := Real.sqrt_nonneg _
  rcases hG0.eq_or_lt with h0 | h0
  · rw [← h0, zero_mul]
    exact add_nonneg hGn0 (mul_nonneg hk.le hτ0)
  · refine le_of_mul_le_mul_right ?_ h0
    linarith

/-- Growth of the error over many steps. -/
theorem gronwall {N : ℕ} {τ G : ℕ → ℝ} {Λ σ : ℝ} (hΛ : 0 ≤ Λ) (hσ : 0 ≤ σ) (hG : ∀ n ≤ N, 0 ≤ G n)
    (hτ : ∀ n < N, τ n ≤ τ (n + 1)) (hk : ∀ n < N, (τ (n + 1) - τ n) * Λ ≤ 1 / 2)
    (h : ∀ n < N, G (n + 1) * (1 - (τ (n + 1) - τ n) * Λ) ≤ G n + (τ (n + 1) - τ n) * σ) :
    ∀ n ≤ N, G n ≤ Real.exp (2 * Λ * (τ n - τ 0)) * (G 0 + (τ n - τ 0) * σ) := by
  intro n
  induction n with
  | zero => intro _; simp
  | succ n ih =>
    intro hn
    have hlt : n < N := hn
    have h1 := ih hlt.le
    have hk0 := sub_nonneg.2 (hτ n hlt)
    set k := τ (n + 1) - τ n with hkd
    have h2 : 0 < 1 - k * Λ := by linarith [hk n hlt]
    have h0 : 0 ≤ τ n - τ 0 := by
      have mono : ∀ j, j ≤ n → τ 0 ≤ τ j := by
        intro j
        induction j with
        | zero => intro _; exact le_rfl
        | succ j ihj => intro hj; exact (ihj (by omega)).trans (hτ j (by omega))
      linarith [mono n le_rfl]
    -- 1 / (1 - x) ≤ exp (2 x) for x ≤ 1 / 2
    have h3 : 1 ≤ Real.exp (2 * Λ * k) * (1 - k * Λ) := by
      have e1 := Real.add_one_le_exp (2 * Λ * k)
      have e2 := mul_le_mul_of_nonneg_right e1 h2.le
      have e3 : 0 ≤ k * Λ := mul_nonneg hk0 hΛ
      nlinarith [hk n hlt]
    have h4 : G (n + 1) ≤ Real.exp (2 * Λ * k) * (G n + k * σ) := by
      have e1 := mul_le_mul_of_nonneg_left (h n hlt) (Real.exp_pos (2 * Λ * k)).le
      have e2 := mul_le_mul_of_nonneg_left h3 (hG (n + 1) hn)
      linarith
    have h5 : Real.exp (2 * Λ * (τ (n + 1) - τ 0)) = Real.exp (2 * Λ * k) * Real.exp (2 * Λ * (τ n - τ 0)) := by
      rw [← Real.exp_add]
      congr 1
      rw [hkd]
      ring
    have h6 : 1 ≤ Real.exp (2 * Λ * (τ n - τ 0)) := Real.one_le_exp (by positivity)
    have h7 : k * σ ≤ Real.exp (2 * Λ * (τ n - τ 0)) * (k * σ) := le_mul_of_one_le_left (mul_nonneg hk0 hσ) h6
    calc G (n + 1) ≤ Real.exp (2 * Λ * k) * (G n + k * σ) := h4
      _ ≤ Real.exp (2 * Λ * k) * (Real.exp (2 * Λ * (τ n - τ 0)) * (G 0 + (τ n - τ 0) * σ)
            + Real.exp (2 * Λ * (τ n - τ 0)) * (k * σ)) :=
          mul_le_mul_of_nonneg_left (add_le_add h1 h7) (Real.exp_pos _).le
      _ = _ := by
        rw [h5, hkd]
        ring

end

end Festim.Weak
