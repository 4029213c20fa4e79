import Verif.Model.Sources
import Verif.Spec.Fields

/-! # Vocabulary for statements about the values of sources -/

namespace Festim.Spec

/-- The documented types of `value`. -/
def DocumentedValue : Given → Prop
  | .other => False
  | _ => True

instance (g : Given) : Decidable (DocumentedValue g) := by
  cases g <;> unfold DocumentedValue <;> infer_instance

/-- A source which can be used: a decay of hydrogen, or a source whose value has a documented type. -/
def Usable (given : ℕ → Given) (s : Source) : Prop :=
  if s.decay then s.field ≠ .name "T" else DocumentedValue (given s.uid)

instance (given : ℕ → Given) (s : Source) : Decidable (Usable given s) := by
  unfold Usable; infer_instance

/-- The value which belongs in the equation of `o`. -/
def due (given : ℕ → Given) (o : Obj) (s : Source) : Held :=
  if s.decay then .decayOf o
  else match given s.uid with
    | .number => .constant
    | .sympy => .expression
    | .expression => .expression
    | .userExpression => .userExpression
    | .function => .function
    | .other => .constant

/-- The equations, in the order in which they are written. -/
def equations (n : ℕ) : List Obj := .temp :: .mobile :: (List.range' 1 n).map .trap

end Festim.Spec
