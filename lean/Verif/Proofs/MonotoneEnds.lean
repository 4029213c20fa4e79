import Verif.Props.Relaxation
import Mathlib.Topology.MetricSpace.Contracting
import Mathlib.Analysis.InnerProductSpace.PiL2

/-!
# Linear problems with monotone conditions at the ends
-/

open scoped BigOperators NNReal

set_option linter.unusedSectionVars false

namespace Festim.Weak

section
variable {Ω : Type} [Fintype Ω] {L : Line Ω} {α K : Ω → ℝ} {β : Bool → ℝ} {dir : Bool → Prop}

/-- Rates which do not decrease, nor increase faster than `k`. -/
def Gentle (k : ℝ) (R : ℝ → ℝ) : Prop := ∀ x y, x ≤ y → R x ≤ R y ∧ R y ≤ R x + k * (y - x)

theorem Gentle.abs_le {k : ℝ} {R : ℝ → ℝ} (h : Gentle k R) (x y : ℝ) :
    |(k * x - R x) - (k * y - R y)| ≤ k * |x - y| := by
  rcases le_total x y with hxy | hxy
  · obtain ⟨h1, h2⟩ := h x y hxy
    rw [_root_.abs_le, abs_of_nonpos (sub_nonpos.2 hxy)]
    constructor <;> linarith
  · obtain ⟨h1, h2⟩ := h y x hxy
    rw [_root_.abs_le, abs_of_nonneg (sub_nonneg.2 hxy)]
    constructor <;> linarith

theorem bil_exchange (L : Line Ω) (α K : Ω → ℝ) (β : Bool → ℝ) (k : ℝ) (u v : ℕ → ℝ) :
    bil L α K (fun q => β q + k) u v = bil L α K β u v + ∑ q, k * ((L.p1 u).tr q * (L.p1 v).tr q) := by
  unfold bil
  rw [add_assoc, ← Finset.sum_add_distrib]
  congr 1
  exact Finset.sum_congr rfl fun q _ => by ring

theorem Coercive.ends (hq : ∀ p, 0 ≤ L.lam p ∧ L.lam p ≤ 1) (hc : Coercive L α K β dir) :
    ∃ g, 0 < g ∧ ∀ v : ℕ → ℝ, (∀ q, dir q → (L.p1 v).tr q = 0) → g * ∑ q, (L.p1 v).tr q ^ 2 ≤ bil L α K β v v := by
  obtain ⟨C, hC, h⟩ := hc.nodes hq
  refine ⟨1 / (2 * C), by positivity, fun v hv => ?_⟩
  have h1 := h v hv L.N le_rfl
  have h2 := h v hv 0 (Nat.zero_le _)
  rw [Fintype.sum_bool, one_div, ← div_eq_inv_mul, div_le_iff₀ (by positivity)]
  simp only [Line.p1, if_true, Bool.false_eq_true, if_false]
  linarith

/-- A well-posed linear problem with rates `R` of loss at the ends, which are monotone functions of the value there, has a
solution. -/
theorem bil_solve_monotone (hq : ∀ p, 0 ≤ L.lam p ∧ L.lam p ≤ 1) (hc : Coercive L α K β dir) (f : Ω → ℝ) (g val : Bool → ℝ)
    (R : Bool → ℝ → ℝ) (k : ℝ) (hk : 0 < k) (hR : ∀ q, Gentle k (R q)) :
    ∃ u : ℕ → ℝ, (∀ q, dir q → (L.p1 u).tr q = val q) ∧
      ∀ v : ℕ → ℝ, (∀ q, dir q → (L.p1 v).tr q = 0) →
        bil L α K β u v + ∑ q, R q ((L.p1 u).tr q) * (L.p1 v).tr q = lin L f g v := by
  have hc' : Coercive L α K (fun q => β q + k) dir :=
    ⟨hc.weights, hc.reaction, hc.diffusion, fun q => add_nonneg (hc.exchange q) hk.le,
      Or.inr ⟨true, Or.inr (add_pos_of_nonneg_of_pos (hc.exchange true) hk)⟩⟩
  obtain ⟨γ, hγ, hE⟩ := hc.ends hq
  choose sol hval hsol using fun d : EuclideanSpace ℝ Bool =>
    bil_solve L hc' f (fun q => g q + (k * d q - R q (d q))) val
  let G : EuclideanSpace ℝ Bool → EuclideanSpace ℝ Bool := fun d => WithLp.toLp 2 (L.p1 (sol d)).tr
  have hG : ∀ d q, G d q = (L.p1 (sol d)).tr q := fun _ _ => rfl
  set ρ : ℝ := k / (γ + k) with hρ
  have hρ0 : 0 ≤ ρ := by positivity
  have hρ1 : ρ < 1 := by rw [hρ, div_lt_one (by positivity)]; linarith
  have key : ∀ d d', ‖G d - G d'‖ ≤ ρ * ‖d - d'‖ := by
    intro d d'
    set e : ℕ → ℝ := sol d - sol d' with he
    have hetr : ∀ q, (L.p1 e).tr q = (G d - G d') q := by
      intro q
      rw [PiLp.sub_apply, hG, hG]
      cases q <;> simp [Line.p1, he]
    have hv : ∀ q, dir q → (L.p1 e).tr q = 0 := by
      intro q hd
      rw [hetr, PiLp.sub_apply, hG, hG, hval d q hd, hval d' q hd, sub_self]
    have h1 := hsol d e hv
    have h2 := hsol d' e hv
    have h3 : bil L α K (fun q => β q + k) e e
        = ∑ q, ((k * d q - R q (d q)) - (k * d' q - R q (d' q))) * (L.p1 e).tr q := by
      have : bil L α K (fun q => β q + k) e e = bil L α K (fun q => β q + k) (sol d) e
          - bil L α K (fun q => β q + k) (sol d') e := by rw [he, bil_sub]
      rw [this, h1, h2]
      unfold lin
      rw [add_sub_add_left_eq_sub, ← Finset.sum_sub_distrib]
      exact Finset.sum_congr rfl fun q _ => by ring
    rw [bil_exchange] at h3
    have h4 := hE e hv
    have n1 : ‖G d - G d'‖ ^ 2 = ∑ q, (L.p1 e).tr q ^ 2 := by
      rw [EuclideanSpace.norm_sq_eq]
      exact Finset.sum_congr rfl fun q _ => by rw [hetr, Real.norm_eq_abs, sq_abs]
    have h5 : ∑ q, ((k * d q - R q (d q)) - (k * d' q - R q (d' q))) * (L.p1 e).tr q
        ≤ k * (‖d - d'‖ * ‖G d - G d'‖) := by
      have a1 : ∀ q, ((k * d q - R q (d q)) - (k * d' q - R q (d' q))) * (L.p1 e).tr q
          ≤ k * (|(d - d') q| * |(G d - G d') q|) := by
        intro q
        rw [← hetr, ← mul_assoc]
        refine (le_abs_self _).trans ?_
        rw [abs_mul]
        exact mul_le_mul_of_nonneg_right ((hR q).abs_le _ _) (abs_nonneg _)
      refine (Finset.sum_le_sum fun q _ => a1 q).trans ?_
      rw [← Finset.mul_sum]
      refine mul_le_mul_of_nonneg_left ?_ hk.le
      refine (Real.sum_mul_le_sqrt_mul_sqrt _ _ _).trans (le_of_eq ?_)
      rw [EuclideanSpace.norm_eq, EuclideanSpace.norm_eq]
      rfl
    have h6 : ∑ q, k * ((L.p1 e).tr q * (L.p1 e).tr q) = k * ‖G d - G d'‖ ^ 2 := by
      rw [n1, Finset.mul_sum]
      exact Finset.sum_congr rfl fun q _ => by ring
    rw [h6] at h3
    rw [← n1] at h4
    have h7 : (γ + k) * ‖G d - G d'‖ ^ 2 ≤ k * (‖d - d'‖ * ‖G d - G d'‖) := by linarith
    rcases (norm_nonneg (G d - G d')).eq_or_lt with h0 | h0
    · rw [← h0]
      exact mul_nonneg hρ0 (norm_nonneg _)
    · rw [hρ, div_mul_eq_mul_div, le_div_iff₀ (by positivity)]
      by_contra hlt
      push Not at hlt
      nlinarith [mul_lt_mul_of_pos_right hlt h0]
  have hcon : ContractingWith ⟨ρ, hρ0⟩ G := by
    refine ⟨by exact_mod_cast hρ1, LipschitzWith.of_dist_le_mul fun d d' => ?_⟩
    rw [dist_eq_norm, dist_eq_norm]
    exact key d d'
  have hfix : G (hcon.fixedPoint G) = hcon.fixedPoint G := hcon.fixedPoint_isFixedPt
  set d := hcon.fixedPoint G
  refine ⟨sol d, hval d, fun v hv => ?_⟩
  have h1 := hsol d v hv
  have h2 : ∀ q, d q = (L.p1 (sol d)).tr q := fun q => by rw [← hG, hfix]
  rw [bil_exchange] at h1
  have h3 : lin L f (fun q => g q + (k * d q - R q (d q))) v
      = lin L f g v + ∑ q, (k * ((L.p1 (sol d)).tr q * (L.p1 v).tr q) - R q ((L.p1 (sol d)).tr q) * (L.p1 v).tr q) := by
    unfold lin
    rw [add_assoc, ← Finset.sum_add_distrib]
    congr 1
    exact Finset.sum_congr rfl fun q _ => by dsimp only; rw [h2 q]; ring
  rw [h3, Finset.sum_sub_distrib] at h1
  linarith

end

end Festim.Weak
