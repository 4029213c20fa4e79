import Verif.Model.Fields

/-! # Vocabulary for statements about fields -/

namespace Festim.Spec

/-- What the documentation says a field of a source denotes, with `n` traps. -/
def fieldObj (n : ℕ) : Field → Option Obj
  | .int 0 => some .mobile
  | .strInt 0 => some .mobile
  | .name "solute" => some .mobile
  | .name "mobile" => some .mobile
  | .name "T" => some .temp
  | .int k => if k ≤ n then some (.trap k) else none
  | .strInt k => if k ≤ n then some (.trap k) else none
  | .name _ => none

/-- `s` is a source of the equation of `o`. -/
def Targets (n : ℕ) (s : Source) (o : Obj) : Prop :=
  if s.decay = true ∧ s.field = .name "all" then o = .mobile ∨ ∃ k, 1 ≤ k ∧ k ≤ n ∧ o = .trap k
  else fieldObj n s.field = some o

/-- The equations of the problem. -/
def Equation (n : ℕ) : Obj → Prop
  | .mobile => True
  | .temp => True
  | .trap k => 1 ≤ k ∧ k ≤ n

/-- An acceptable source. -/
def Acceptable (heat : Bool) (n : ℕ) (s : Source) : Prop :=
  (∃ o, Targets n s o) ∧ (s.field = .name "T" → heat = true)

/-- A field of a boundary condition is known. -/
def KnownField (n : ℕ) (f : Field) : Prop :=
  f = .name "T" ∨ (∃ k, k ≤ n ∧ (f = .int k ∨ f = .strInt k))

/-- The last element of a list satisfying a condition. -/
def lastWith {α : Type} (p : α → Bool) (l : List α) : Option α := l.reverse.find? p

/-- `f` designates component `k` of the solution, for traps numbered by position. -/
def FieldOfComponent (f : Field) (k : ℕ) : Prop :=
  f = .int k ∨ f = .strInt k ∨ (k = 0 ∧ f = .name "solute")

instance (f : Field) (k : ℕ) : Decidable (FieldOfComponent f k) := by
  unfold FieldOfComponent; infer_instance

end Festim.Spec
