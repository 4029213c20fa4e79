import Verif.Model.Helpers
import Verif.Spec.Forms
import Mathlib.Tactic.NormNum
import Mathlib.Tactic.FieldSimp
import Mathlib.Tactic.Ring
import Mathlib.Tactic.Positivity
import Mathlib.Tactic.Linarith

/-! # Conversion of energies (C88) -/

namespace Festim.Props

open Festim.Weak

/-- **C88 (a).** A rate given by an energy in kJ/mol and the gas constant is, exactly, the rate computed by the equations with
the converted energy. -/
theorem C88_rate (k E T : ℝ) :
    arr k (kJmolToEV E) T = k * Real.exp (-(1000 * E) / (gasR * T)) := by
  unfold arr kJmolToEV
  congr 2
  have h1 : kB ≠ 0 := by unfold kB; norm_num
  have h2 : gasR ≠ 0 := by unfold gasR; norm_num
  by_cases hT : T = 0
  · subst hT; simp
  · field_simp
    norm_num

/-- **C88 (b).** The conversion is proportional and keeps the order of energies. -/
theorem C88_linear (E F a : ℝ) : kJmolToEV (E + F) = kJmolToEV E + kJmolToEV F ∧
    kJmolToEV (a * E) = a * kJmolToEV E ∧ (E < F → kJmolToEV E < kJmolToEV F) := by
  have h2 : 0 < gasR := by unfold gasR; norm_num
  refine ⟨by unfold kJmolToEV; ring, by unfold kJmolToEV; ring, ?_⟩
  intro h
  unfold kJmolToEV
  rw [div_lt_div_iff_of_pos_right h2]
  have h1 : 0 < kB := by unfold kB; norm_num
  nlinarith

/-- **C88 (c).** 96.485 kJ/mol is 1 eV, to a relative error below 1e-5. -/
theorem C88_one : |kJmolToEV 96.485 - 1| < 1e-5 := by
  unfold kJmolToEV kB gasR
  rw [abs_lt]
  constructor <;> norm_num

end Festim.Props
