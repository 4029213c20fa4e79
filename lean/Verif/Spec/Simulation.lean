import Verif.Model.Simulation
import Verif.Spec.Fields
import Verif.Spec.Materials
import Verif.Spec.Exports

/-! # Vocabulary for statements about whole simulations -/

namespace Festim.Spec

/-- 1D materials fit a mesh: a single material without borders, or borders given for all materials
whose intervals tile the segment from 0 to the last vertex. -/
def FitsLine (ms : List Material) (vs : List ℚ) : Prop :=
  vs ≠ [] ∧ ((∃ m, ms = [m] ∧ m.borders = none) ∨
    ((∀ m ∈ ms, m.borders ≠ none) ∧
      ∃ size ∈ vs, (∀ v ∈ vs, v ≤ size) ∧ Tiles (ms.flatMap intervals) 0 size))

/-- Materials written the way the documentation shows: at least one id, either without borders and one
id, or with increasing borders and one id per interval. -/
def Documented (m : Material) : Prop :=
  m.id.toList ≠ [] ∧
  ((m.borders = none ∧ ∃ n, m.id = .one n) ∨ (WellFormed m ∧ ∀ p ∈ intervals m, p.1 < p.2))

/-- What a user has to provide for a simulation to start, with the temperature `T`, the materials `ms`
and `n` traps. -/
structure Ready {σ F : Type} (zero : F) (x : SimInput σ F) (T : TempModel F) (ms : List Material)
    (n : ℕ) : Prop where
  steady : x.settings.transient = false → x.dt = none
  final : x.settings.transient = true → x.settings.finalTime ≠ none
  step : x.settings.transient = true → x.dt ≠ none
  sources : ∀ s ∈ x.sources, Acceptable T.heat.isSome n s
  fields : ∀ bc ∈ x.bcs, KnownField n bc.field
  heat : ∀ bc ∈ x.bcs, bc.field = .name "T" → T.heat.isSome
  kinetics : ∀ bc ∈ x.bcs, bc.kind = .surfaceKinetics → x.dim = 1
  clash : ∀ bc ∈ x.bcs, ∀ d ∈ x.bcs, bc.uid ≠ d.uid → bc.field = d.field →
    d.kind = .dirichlet ∨ d.kind = .surfaceKinetics → ∀ s ∈ bc.surfaces, s ∉ d.surfaces
  spherical : x.meshType = "spherical" → x.dim = 1
  cylindrical : x.meshType = "cylindrical" → x.dim ≤ 2
  line : ∀ vs, x.mesh = .line vs → FitsLine ms vs
  ids : (ms.flatMap fun m => m.id.toList).Nodup
  solubility : ((∀ m ∈ ms, m.S0 = true) ∨ ∀ m ∈ ms, m.S0 = false) ∧
    ((∀ m ∈ ms, m.ES = true) ∨ ∀ m ∈ ms, m.ES = false)
  potential : x.settings.chemicalPot = true → T.isSteadyState = true → ∀ m ∈ ms, m.S0 = true ∧ m.ES = true
  thermal : ((∀ m ∈ ms, m.thermalCond = true) ∨ ∀ m ∈ ms, m.thermalCond = false) ∧
    ((∀ m ∈ ms, m.heatCapacity = true) ∨ ∀ m ∈ ms, m.heatCapacity = false) ∧
    ((∀ m ∈ ms, m.rho = true) ∨ ∀ m ∈ ms, m.rho = false)
  borders : (∀ m ∈ ms, m.borders.isSome = true) ∨ ∀ m ∈ ms, m.borders.isSome = false
  soret : (∀ m ∈ ms, m.Q = true) ∨ ∀ m ∈ ms, m.Q = false
  heatSteady : ∀ solve, T = .heatSteady solve →
    (∀ m ∈ ms, m.thermalCond = true) ∧ ∃ s, solve (fun _ => 0) zero = .ok s
  heatTransient : ∀ ic subs solve, T = .heatTransient ic subs solve → ic ≠ .missing ∧ x.dt ≠ none ∧
    ∀ m ∈ ms, m.thermalCond = true ∧ m.heatCapacity = true ∧ m.rho = true
  initial : ∀ ic ∈ x.ics, ∃ k, k ≤ n ∧ FieldOfComponent ic.field k
  forms : x.forms = .ok ()
  dirichlet : (n ≠ 0 ∨ ∃ b ∈ x.bcs, b.kind = .surfaceKinetics ∧ b.field ≠ .name "T" ∧ b.surfaces ≠ []) →
    ∀ bc ∈ x.bcs, bc.kind = .dirichlet → ∀ k, bc.field ≠ .strInt k
  adsorbed : ∀ ads d, (ads, Export.dq d) ∈ x.exports → ∀ s ∈ ads,
    ∃ b ∈ x.bcs, b.kind = .surfaceKinetics ∧ s ∈ b.surfaces
  txt : ∀ ads e l, (ads, Export.txt e) ∈ x.exports → e.times = some l → l ≠ [] → x.dt ≠ none

end Festim.Spec
