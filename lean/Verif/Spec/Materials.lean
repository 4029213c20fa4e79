import Verif.Model.Materials

/-! # Vocabulary for statements about materials and 1D meshes -/

namespace Festim.Spec

/-- The intervals occupied by a material. -/
def intervals (m : Material) : List (ℚ × ℚ) :=
  match m.borders with
  | none => []
  | some (.flat a b) => [(a, b)]
  | some (.nested l) => l

/-- The id of each interval of a material. -/
def intervalIds (m : Material) : List ℕ :=
  match m.id with
  | .one n => (intervals m).map fun _ => n
  | .many l => l

/-- Intervals of a list of materials, each with its id. -/
def regions (ms : List Material) : List ((ℚ × ℚ) × ℕ) :=
  ms.flatMap fun m => (intervals m).zip (intervalIds m)

/-- Borders are given, either as `[a, b]` or as at least two intervals, and a list of ids has one id
per interval. -/
def WellFormed (m : Material) : Prop :=
  (∃ b, m.borders = some b) ∧ (∀ l, m.borders = some (.nested l) → 2 ≤ l.length) ∧
  (∀ l, m.id = .many l → l.length = (intervals m).length)

/-- `x` belongs to the closed interval `p`. -/
def Within (x : ℚ) (p : ℚ × ℚ) : Prop := p.1 ≤ x ∧ x ≤ p.2

instance (x : ℚ) (p : ℚ × ℚ) : Decidable (Within x p) := by unfold Within; infer_instance

/-- The intervals tile `[a, b]`: they cover exactly this interval and do not overlap. -/
structure Tiles (l : List (ℚ × ℚ)) (a b : ℚ) : Prop where
  cover : ∀ x, (∃ p ∈ l, Within x p) ↔ a ≤ x ∧ x ≤ b
  disjoint : l.Pairwise fun p q => p.2 ≤ q.1 ∨ q.2 ≤ p.1

end Festim.Spec
