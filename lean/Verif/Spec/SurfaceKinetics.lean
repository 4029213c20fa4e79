import Verif.Spec.Line

/-!
# Surfaces with kinetics in one dimension

Vocabulary of C118.
-/

namespace Festim.Weak

section
variable {Ω : Type} [Fintype Ω]

/-- Hydrogen which goes from the solid to the surface per unit time and area, less what comes back: `s` is adsorbed
and `c` is the concentration of mobile hydrogen below the surface. -/
noncomputable def release (b : SK Bool) (q : Bool) (T s c : ℝ) : ℝ :=
  b.k_bs q T s c * c * (1 - s / b.n_surf) - b.k_sb q T s c * s * (1 - c / b.n_IS)

/-- The adsorbed concentration `s` of the condition `b` is that of the end `q`. -/
def Attached (L : Line Ω) (ks : List (SK Bool)) (b : SK Bool) (s : SKSurf) (q : Bool) : Prop :=
  b ∈ ks ∧ s ∈ b.surfaces ∧ s.id = if q then L.right else L.left

/-- Positive densities of sites (`M` of them per unit volume), and rates which are not negative. -/
structure Rates (ks : List (SK Bool)) (M : ℝ) : Prop where
  surf : ∀ b ∈ ks, 0 < b.n_surf
  inside : ∀ b ∈ ks, b.n_IS = M
  positive : 0 < M
  layer : ∀ b ∈ ks, 0 ≤ b.lambda_IS
  sb : ∀ b ∈ ks, ∀ q T s c, 0 ≤ b.k_sb q T s c
  bs : ∀ b ∈ ks, ∀ q T s c, 0 ≤ b.k_bs q T s c

/-- The adsorption flux does not take hydrogen from a surface which has none, nor bring some to a full one. -/
def Adsorbs (ks : List (SK Bool)) : Prop :=
  ∀ b ∈ ks, ∀ q T s c, (s < 0 → 0 ≤ b.J_vs q T s c) ∧ (b.n_surf < s → b.J_vs q T s c ≤ 0)

/-- Rate constants which depend on the position and the temperature only; the adsorption flux does not depend on the mobile
concentration nor increase with the adsorbed one. -/
structure PlainRates (b : SK Bool) : Prop where
  sb : ∀ q T s c s' c', b.k_sb q T s c = b.k_sb q T s' c'
  bs : ∀ q T s c s' c', b.k_bs q T s c = b.k_bs q T s' c'
  vs : ∀ q T s s' c c', 0 ≤ s → s ≤ s' → s' ≤ b.n_surf → b.J_vs q T s' c' ≤ b.J_vs q T s c

/-- The condition `b'` is `b` with other adsorbed concentrations, nowhere less hydrogen at the previous step and no smaller
adsorption flux. -/
structure Feeds (b b' : SK Bool) : Prop where
  sb : b'.k_sb = b.k_sb
  bs : b'.k_bs = b.k_bs
  vs : ∀ q T s c, b.J_vs q T s c ≤ b'.J_vs q T s c
  layer : b'.lambda_IS = b.lambda_IS
  surf : b'.n_surf = b.n_surf
  inside : b'.n_IS = b.n_IS
  surfaces : List.Forall₂ (fun s s' : SKSurf => s'.id = s.id ∧ s.prev ≤ s'.prev) b.surfaces b'.surfaces

/-- The condition `b'` is `b` with other values of the unknowns. -/
def Restated (b b' : SK Bool) : Prop :=
  b' = { b with surfaces := b'.surfaces } ∧
    List.Forall₂ (fun s s' : SKSurf => s' = { s with sol := s'.sol }) b.surfaces b'.surfaces

/-- The adsorbed concentrations are not negative and not above the density of sites. -/
def Physical (L : Line Ω) (ks : List (SK Bool)) : Prop :=
  ∀ b s q, Attached L ks b s q → 0 ≤ s.sol ∧ s.sol ≤ b.n_surf

/-- Surface by surface, the adsorbed concentrations are related by `r`. -/
def Adsorbed (L : Line Ω) (r : ℝ → ℝ → Prop) (ks ks' : List (SK Bool)) : Prop :=
  List.Forall₂ (fun b b' : SK Bool => List.Forall₂ (fun s s' : SKSurf => s.id = L.left ∨ s.id = L.right → r s.sol s'.sol)
    b.surfaces b'.surfaces) ks ks'

end

end Festim.Weak
