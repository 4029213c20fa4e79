import Verif.Model.Implantation
import Mathlib.Analysis.SpecialFunctions.Gaussian.GaussianIntegral
import Mathlib.Analysis.SpecialFunctions.Sqrt
import Mathlib.Data.Real.Sign

/-!
# C82: the implantation source
-/

open MeasureTheory Set

namespace Festim.Implantation

/-- The gaussian profile of total `flux` around `depth` with standard deviation `width`. -/
noncomputable def gaussian (flux depth width x : ℝ) : ℝ :=
  flux / (width * √(2 * Real.pi)) * Real.exp (-(1 / (2 * width ^ 2)) * (x - depth) ^ 2)

theorem den_ne {width : ℝ} (h : width ≠ 0) : width * (2 * Real.pi) ^ (0.5 : ℝ) ≠ 0 :=
  mul_ne_zero h (Real.rpow_pos_of_pos (by positivity) _).ne'

theorem value_eq (flux depth width : ℝ) (h : width ≠ 0) :
    value flux depth width = .ok (gaussian flux depth width) := by
  unfold value distribution
  simp only [if_neg (den_ne h), bind, Except.bind]
  congr 1
  funext x
  unfold gaussian
  rw [Real.sqrt_eq_rpow, show (1 / 2 : ℝ) = 0.5 by norm_num]
  have h1 : (-0.5 : ℝ) * ((x - depth) / width) ^ 2 = -(1 / (2 * width ^ 2)) * (x - depth) ^ 2 := by
    field_simp
    ring
  rw [h1]
  ring

theorem sqrt_pi_div (width : ℝ) : √(Real.pi / (1 / (2 * width ^ 2))) = |width| * √(2 * Real.pi) := by
  rw [show Real.pi / (1 / (2 * width ^ 2)) = width ^ 2 * (2 * Real.pi) by
    rw [div_div_eq_mul_div]; ring,
    Real.sqrt_mul (sq_nonneg _), Real.sqrt_sq_eq_abs]

theorem shape_integrable (depth : ℝ) {width : ℝ} (h : width ≠ 0) :
    Integrable fun x => Real.exp (-(1 / (2 * width ^ 2)) * (x - depth) ^ 2) := by
  have hb : (0 : ℝ) < 1 / (2 * width ^ 2) := by positivity
  exact (integrable_exp_neg_mul_sq hb).comp_sub_right depth

theorem integrable (flux depth : ℝ) {width : ℝ} (h : width ≠ 0) : Integrable (gaussian flux depth width) :=
  (shape_integrable depth h).const_mul _

theorem shift_Ioi (f : ℝ → ℝ) (a d : ℝ) : ∫ x in Ioi a, f (x + d) = ∫ x in Ioi (a + d), f x := by
  have h := (measurePreserving_add_right volume d).setIntegral_preimage_emb
    (measurableEmbedding_addRight d) f (Ioi (a + d))
  rw [← h]
  congr 2
  ext x
  simp

/-- Tail of the gaussian. -/
theorem tail_le (b d : ℝ) (hb : 0 < b) (hd : 0 ≤ d) :
    ∫ x in Ioi d, Real.exp (-b * x ^ 2) ≤ Real.exp (-b * d ^ 2) * (√(Real.pi / b) / 2) := by
  rw [← integral_gaussian_Ioi b, ← integral_const_mul]
  have h1 : ∫ x in Ioi (0 : ℝ), Real.exp (-b * d ^ 2) * Real.exp (-b * x ^ 2)
      = ∫ x in Ioi d, Real.exp (-b * d ^ 2) * Real.exp (-b * (x - d) ^ 2) := by
    have := shift_Ioi
      (fun x => Real.exp (-b * d ^ 2) * Real.exp (-b * (x - d) ^ 2)) 0 d
    simpa using this
  rw [h1]
  refine setIntegral_mono_on (integrable_exp_neg_mul_sq hb).integrableOn
    (((integrable_exp_neg_mul_sq hb).comp_sub_right d).const_mul _).integrableOn measurableSet_Ioi
    fun x hx => ?_
  rw [← Real.exp_add]
  apply Real.exp_le_exp.2
  have hx' : d < x := hx
  nlinarith [mul_nonneg hd (sub_nonneg.2 hx'.le), mul_nonneg hb.le (mul_nonneg hd (sub_nonneg.2 hx'.le))]

end Festim.Implantation

namespace Festim.Props

open Festim.Implantation

/-- **C82.** The total of the source over the whole line is the flux (its opposite for a negative
width). -/
theorem C82_total (flux depth width : ℝ) (h : width ≠ 0) :
    ∃ S, value flux depth width = .ok S ∧ ∫ x, S x = flux * Real.sign width := by
  refine ⟨_, value_eq flux depth width h, ?_⟩
  unfold gaussian
  rw [integral_const_mul, integral_sub_right_eq_self (fun x => Real.exp (-(1 / (2 * width ^ 2)) * x ^ 2)),
    integral_gaussian, sqrt_pi_div]
  have h2 : √(2 * Real.pi) ≠ 0 := (Real.sqrt_pos.2 (by positivity)).ne'
  rcases lt_or_gt_of_ne h with hw | hw
  · rw [abs_of_neg hw, Real.sign_of_neg hw]
    field_simp
  · rw [abs_of_pos hw, Real.sign_of_pos hw]
    field_simp

/-- **C82.** A zero width is an error at construction. -/
theorem C82_zero_width (flux depth : ℝ) : value flux depth 0 = .error .zeroDivisionError := by
  simp [value, distribution, bind, Except.bind]

/-- **C82.** The profile is symmetric about the implantation depth, where it is largest, and decreases away
from it. -/
theorem C82_shape (flux depth width : ℝ) (hf : 0 < flux) (hw : 0 < width) (S : ℝ → ℝ)
    (hS : value flux depth width = .ok S) :
    (∀ x, 0 < S x) ∧ (∀ y, S (depth + y) = S (depth - y)) ∧
    ∀ x y, |x - depth| < |y - depth| → S y < S x := by
  rw [value_eq flux depth width hw.ne'] at hS
  cases hS
  have hc : 0 < flux / (width * √(2 * Real.pi)) := by
    have := Real.sqrt_pos.2 (show (0 : ℝ) < 2 * Real.pi by positivity)
    positivity
  refine ⟨fun x => mul_pos hc (Real.exp_pos _), fun y => ?_, fun x y hxy => ?_⟩
  · unfold gaussian
    congr 3
    ring
  · unfold gaussian
    refine mul_lt_mul_of_pos_left (Real.exp_lt_exp.2 ?_) hc
    have hb : (0 : ℝ) < 1 / (2 * width ^ 2) := by positivity
    have := sq_lt_sq.2 hxy
    nlinarith

/-- **C82.** A domain which starts at the implantation depth receives half of the flux only: half of the
gaussian is outside. -/
theorem C82_half (flux depth width : ℝ) (hw : 0 < width) (S : ℝ → ℝ)
    (hS : value flux depth width = .ok S) :
    ∫ x in Ioi depth, S x = flux / 2 ∧ ∫ x in Iic depth, S x = flux / 2 := by
  obtain ⟨S', hS', htot⟩ := C82_total flux depth width hw.ne'
  rw [hS] at hS'
  cases hS'
  rw [Real.sign_of_pos hw, mul_one] at htot
  rw [value_eq flux depth width hw.ne'] at hS
  cases hS
  have h1 : ∫ x in Ioi depth, gaussian flux depth width x = flux / 2 := by
    have h2 := shift_Ioi (gaussian flux depth width) 0 depth
    rw [zero_add] at h2
    rw [← h2]
    unfold gaussian
    simp only [add_sub_cancel_right]
    rw [integral_const_mul, integral_gaussian_Ioi, sqrt_pi_div, abs_of_pos hw]
    have : √(2 * Real.pi) ≠ 0 := (Real.sqrt_pos.2 (by positivity)).ne'
    field_simp
  refine ⟨h1, ?_⟩
  have h3 := integral_add_compl (measurableSet_Ioi (a := depth)) (integrable flux depth hw.ne')
  rw [compl_Ioi, h1, htot] at h3
  linarith

/-- **C82.** A bounded domain never receives the whole flux: what the source supplies in `[a, b]` is
positive, less than `flux`, and the missing part is at most `flux exp(-δ²/(2 width²))` where `δ` is the
distance of the implantation depth to the boundary. -/
theorem C82_domain (flux depth width a b δ : ℝ) (hf : 0 < flux) (hw : 0 < width) (hab : a < b)
    (S : ℝ → ℝ) (hS : value flux depth width = .ok S) :
    0 < ∫ x in a..b, S x ∧ ∫ x in a..b, S x < flux ∧
    (0 ≤ δ → a ≤ depth - δ → depth + δ ≤ b →
      flux * (1 - Real.exp (-δ ^ 2 / (2 * width ^ 2))) ≤ ∫ x in a..b, S x) := by
  obtain ⟨S', hS', htot⟩ := C82_total flux depth width hw.ne'
  rw [hS] at hS'
  cases hS'
  rw [Real.sign_of_pos hw, mul_one] at htot
  have hpos := (C82_shape flux depth width hf hw S hS).1
  have hint : Integrable S := by
    have h := hS
    rw [value_eq flux depth width hw.ne'] at h
    cases h
    exact integrable flux depth hw.ne'
  have hsplit : ∫ x, S x = (∫ x in Iic a, S x) + (∫ x in a..b, S x) + ∫ x in Ioi b, S x := by
    have h1 := integral_add_compl (measurableSet_Iic (a := b)) hint
    rw [compl_Iic] at h1
    have h2 := intervalIntegral.integral_Iic_sub_Iic (a := a) (b := b) hint.integrableOn hint.integrableOn
    linarith
  have hposIoi : ∀ c, 0 < ∫ x in Ioi c, S x := fun c => by
    rw [setIntegral_pos_iff_support_of_nonneg_ae (Filter.Eventually.of_forall fun x => (hpos x).le)
      hint.integrableOn]
    have : Function.support S = univ := by
      ext x
      simp [(hpos x).ne']
    rw [this, univ_inter]
    simp
  have hnnIic : 0 ≤ ∫ x in Iic a, S x := integral_nonneg fun x => (hpos x).le
  refine ⟨?_, ?_, fun hδ ha hb => ?_⟩
  · exact intervalIntegral.intervalIntegral_pos_of_pos hint.intervalIntegrable hpos hab
  · have := hposIoi b
    linarith
  · have htail : ∫ x in Ioi (depth + δ), S x ≤ flux / 2 * Real.exp (-δ ^ 2 / (2 * width ^ 2)) := by
      have h := hS
      rw [value_eq flux depth width hw.ne'] at h
      cases h
      have h2 := shift_Ioi (gaussian flux depth width) δ depth
      rw [add_comm δ depth] at h2
      rw [← h2]
      unfold gaussian
      simp only [add_sub_cancel_right]
      rw [integral_const_mul]
      have h3 := tail_le (1 / (2 * width ^ 2)) δ (by positivity) hδ
      rw [sqrt_pi_div, abs_of_pos hw] at h3
      have hs := Real.sqrt_pos.2 (show (0 : ℝ) < 2 * Real.pi by positivity)
      have h4 := mul_le_mul_of_nonneg_left h3 (show 0 ≤ flux / (width * √(2 * Real.pi)) by positivity)
      refine h4.trans (le_of_eq ?_)
      rw [show -(1 / (2 * width ^ 2)) * δ ^ 2 = -δ ^ 2 / (2 * width ^ 2) by ring]
      field_simp
    have hsym : ∫ x in Iic (depth - δ), S x = ∫ x in Ioi (depth + δ), S x := by
      have h := hS
      rw [value_eq flux depth width hw.ne'] at h
      cases h
      have h1 := integral_comp_neg_Iic (depth - δ) (fun x => gaussian flux depth width (-x))
      simp only [neg_neg] at h1
      rw [h1]
      have h2 := shift_Ioi (fun x => gaussian flux depth width (-x)) (depth + δ) (-(2 * depth))
      rw [show depth + δ + -(2 * depth) = -(depth - δ) by ring] at h2
      rw [← h2]
      refine integral_congr_ae (Filter.Eventually.of_forall fun x => ?_)
      simp only [gaussian]
      congr 3
      ring
    have m1 : ∫ x in Iic a, S x ≤ ∫ x in Iic (depth - δ), S x :=
      setIntegral_mono_set hint.integrableOn (Filter.Eventually.of_forall fun x => (hpos x).le)
        (Filter.Eventually.of_forall (Iic_subset_Iic.2 ha))
    have m2 : ∫ x in Ioi b, S x ≤ ∫ x in Ioi (depth + δ), S x :=
      setIntegral_mono_set hint.integrableOn (Filter.Eventually.of_forall fun x => (hpos x).le)
        (Filter.Eventually.of_forall (Ioi_subset_Ioi hb))
    linarith

/-- Implantation of `flux = 1` at depth `3` with width `1` in `[0, 10]`. -/
example : ∃ S, value 1 3 1 = .ok S ∧ 1 * (1 - Real.exp (-3 ^ 2 / (2 * 1 ^ 2))) ≤ ∫ x in (0 : ℝ)..10, S x :=
  ⟨_, value_eq 1 3 1 one_ne_zero, (C82_domain 1 3 1 0 10 3 one_pos one_pos (by norm_num) _
    (value_eq 1 3 1 one_ne_zero)).2.2 (by norm_num) (by norm_num) (by norm_num)⟩

end Festim.Props
