import Verif.Spec.Forms

/-!
# Vocabulary of the statements about the heat equation

The flux conditions of the temperature are given by `inward` with the concentration `0`
(`solute=None` in temperature_solver.py:217); the conditions which use the concentration are always
on the solute (recombination_flux.py:24, dissociation_flux.py:24, mass_flux.py:21).
-/

open scoped BigOperators

namespace Festim.Weak

section
variable {Ω Γ : Type} [Fintype Ω] [Fintype Γ] {d : ℕ}

/-- Weighted heat supplied per unit time: volume sources (once per volume listed) and flux
conditions. -/
noncomputable def heatSupply (m : Mesh Ω Γ d) (sources : List ((Ω → ℝ) × List ℕ))
    (bcs : List (Flux Γ × List ℕ)) (T : Γ → ℝ) (v : Fld Ω Γ d) : ℝ :=
  (sources.map fun s => (s.2.map fun vol => volumeOf m vol fun p => s.1 p * v.val p).sum).sum
  + (bcs.map fun b => (b.2.map fun s =>
      surface m s fun q => inward b.1 (T q) 0 q * v.tr q).sum).sum

/-- Volumetric heat capacity of a material. -/
def Mat.vcap (mat : Mat) (T : ℝ) : ℝ := mat.rho T * mat.cp T

/-- Heat content relative to zero temperature with a constant capacity. -/
def heatContent (m : Mesh Ω Γ d) (cap : Ω → ℝ) (T v : Ω → ℝ) : ℝ :=
  volume m fun p => cap p * T p * v p

end

end Festim.Weak
