import Verif.Model.Space
import Verif.Spec.Forms
import Verif.Props.Solve
import Mathlib.Analysis.Calculus.ContDiff.Defs

/-!
# Vocabulary of C100
-/

open scoped BigOperators

namespace Festim.Weak

section
variable {Ω Γ : Type} {d : ℕ}

/-- Flux conditions with a continuous derivative in the concentration. -/
def SmoothFlux : Flux Γ → Prop
  | .recomb _ _ order => 1 ≤ order
  | .custom f => ∀ q T, ContDiff ℝ 1 (f q T)
  | _ => True

/-- The same for surface kinetics. -/
def SmoothSK (b : SK Γ) : Prop :=
  ∀ q T, ContDiff ℝ 1 (fun z : ℝ × ℝ => b.k_sb q T z.1 z.2) ∧ ContDiff ℝ 1 (fun z : ℝ × ℝ => b.k_bs q T z.1 z.2) ∧
    ContDiff ℝ 1 (fun z : ℝ × ℝ => b.J_vs q T z.1 z.2)

/-- The same for both. -/
def SmoothBC : MobBC Γ → Prop
  | .flux f _ => SmoothFlux f
  | .sk b _ => SmoothSK b

/-- `lambda_IS` is not negative and the surfaces exist. -/
def GoodSK (m : Mesh Ω Γ d) : MobBC Γ → Prop
  | .flux _ _ => True
  | .sk b _ => 0 ≤ b.lambda_IS ∧ ∀ s ∈ b.surfaces, ∃ q, m.sm q = s.id ∧ 0 < m.ws q

/-- Number of adsorbed concentrations. -/
def adsCount : List (MobBC Γ) → ℕ
  | [] => 0
  | .flux _ _ :: l => adsCount l
  | .sk b _ :: l => b.surfaces.length + adsCount l

/-- The setting of C100: each cell has one material; the quadrature weights are positive; with conservation of the
chemical potential all the materials obey Sievert's law with a positive solubility; the conditions are smooth; a
function of the space which vanishes at all the quadrature points, for each species, is zero. -/
structure Regular {ι : Type} [Fintype ι] (P : Problem Ω Γ d) (bcs : List (MobBC Γ)) (mat : Ω → Mat)
    (e : ι → MixedFun Ω Γ d) : Prop where
  covers : Covers P.mesh P.mats mat
  weights : ∀ p, 0 < P.mesh.w p
  facets : ∀ q, 0 ≤ P.mesh.ws q
  sievert : P.mv.theta = true → (∀ mt ∈ P.mats, mt.law = .sievert ∧ 0 < mt.S_0) ∧ ∀ q, 0 ≤ P.mv.S.tr q
  smooth : ∀ bc ∈ bcs, SmoothBC bc
  kinetics : ∀ bc ∈ bcs, GoodSK P.mesh bc
  basis : ∀ x : ι → ℝ, (∀ p, ∑ i, x i * (e i).mob.val p = 0) →
    (∀ k < P.traps.length, ∀ p, ∑ i, x i * ((e i).trap k).val p = 0) →
    (∀ k < adsCount bcs, ∑ i, x i * (e i).ads k = 0) → x = 0

/-- The equations of an attempt with the stepsize `h`: the forms of FESTIM assembled with the basis `e`, their
Jacobian, and the imposed values. -/
structure StepOf [Fintype Ω] [Fintype Γ] {ι : Type} [Fintype ι] [DecidableEq ι] (P : Problem Ω Γ d)
    (bcs : List (MobBC Γ)) (e : ι → MixedFun Ω Γ d) (imposed : List (List (ι × ℝ))) (h : ℝ) (S : Solve.System ι) :
    Prop where
  imposed_eq : S.bcs = imposed
  cells : ∀ i, 0 < S.cells i
  jacobian : Spec.IsJacobian S
  residual : ∀ x i, ∃ F, ({ P with dt := some h } : Problem Ω Γ d).mixedForm bcs (MixedFun.comb x e) (e i) = .ok F ∧
    S.F x i = P.mesh.assemble F

end

end Festim.Weak
