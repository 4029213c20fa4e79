import Verif.Spec.Invariance

/-!
# Combinations of problems

Vocabulary of C108: two problems which differ by their data only (source values, fluxes, previous concentrations), and their linear
combinations.
-/

namespace Festim.Weak

variable {Ω Γ : Type} {d : ℕ}

/-- `a u + b w`. -/
def Fld.mix (a : ℝ) (u : Fld Ω Γ d) (b : ℝ) (w : Fld Ω Γ d) : Fld Ω Γ d :=
  ⟨fun p => a * u.val p + b * w.val p, fun p i => a * u.grad p i + b * w.grad p i, fun q => a * u.tr q + b * w.tr q⟩

/-- The same problem, without traps, with other concentrations and sources. -/
def Problem.withData (P : Problem Ω Γ d) (u un : Fld Ω Γ d) (sources : List (Src Ω)) : Problem Ω Γ d :=
  { P with mv := { P.mv with sol := u, prev := un }, sources := sources, traps := [] }

/-- Sources which differ by their given values at most: same volumes, or same decay constant. -/
def Src.Like (s t : Src Ω) : Prop :=
  s.volumes = t.volumes ∧
  match s.value, t.value with
  | .given _, .given _ => True
  | .decay l, .decay m => l = m
  | _, _ => False

/-- The source with value `a s + b t`. -/
def Src.comb (s : Src Ω) (a b : ℝ) (t : Src Ω) : Src Ω :=
  { value := match s.value, t.value with
      | .given f, .given g => .given fun p => a * f p + b * g p
      | x, _ => x
    volumes := s.volumes }

/-- Flux conditions proportional to their data and to the concentration, with the same coefficients: given fluxes, dissociation,
mass transfer, recombination of order one. -/
def Flux.Like : Flux Γ → Flux Γ → Prop
  | .value _, .value _ => True
  | .recomb k e o, .recomb k' e' o' => k = k' ∧ e = e' ∧ o = 1 ∧ o' = 1
  | .dissoc k e _, .dissoc k' e' _ => k = k' ∧ e = e'
  | .mass h _, .mass h' _ => h = h'
  | _, _ => False

/-- The flux condition with data `a f + b g`. -/
def Flux.comb (f : Flux Γ) (a b : ℝ) (g : Flux Γ) : Flux Γ :=
  match f, g with
  | .value x, .value y => .value fun q => a * x q + b * y q
  | .dissoc k e x, .dissoc _ _ y => .dissoc k e fun q => a * x q + b * y q
  | .mass h x, .mass _ y => .mass h fun q => a * x q + b * y q
  | .convective h x, .convective _ y => .convective h fun q => a * x q + b * y q
  | f, _ => f

/-- Conditions of the heat equation proportional to their data and to the temperature: given and convective fluxes. -/
def Flux.HeatLike : Flux Γ → Flux Γ → Prop
  | .value _, .value _ => True
  | .convective h _, .convective h' _ => h = h'
  | _, _ => False

end Festim.Weak
