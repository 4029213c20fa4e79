import Verif.Model.Temperature

/-!
# What the equations of each time step should be solved with

Independent of the driver: only a list of accepted times is needed.
-/

namespace Festim.Spec

/-- For accepted times `ts` after the time `p`: each time with the temperature at this time and at
the previous one. -/
def pairedTemperatures {F : Type} (T : ℚ → F) : ℚ → List ℚ → List (ℚ × F × F)
  | _, [] => []
  | p, t :: ts => (t, T t, T p) :: pairedTemperatures T t ts

/-- Implicit Euler with an external solver: starting from `Tn` and the guess `g`, the temperatures of
the successive steps.  A step is its time, the increment of the clock, the parameters, and the
resulting temperature. -/
inductive EulerChain {F E : Type} (solve : E → ℚ → F → F → Except PyErr F) :
    F → F → List (ℚ × E × F) → Prop
  | nil (Tn g : F) : EulerChain solve Tn g []
  | cons {Tn g T : F} {dt : ℚ} {e : E} {l : List (ℚ × E × F)}
      (h : solve e dt Tn g = .ok T) (rest : EulerChain solve T T l) :
      EulerChain solve Tn g ((dt, e, T) :: l)

/-- Does not depend on the symbol `t`. -/
def TimeIndependent (I : Interp) (e : SExpr) : Prop :=
  ∀ σ σ' : String → ℚ, (∀ n, n ≠ "t" → σ n = σ' n) → e.eval I σ = e.eval I σ'

/-- The symbols written in an expression. -/
def symbols : SExpr → List String
  | .num _ _ => []
  | .sym n => [n]
  | .add a b => symbols a ++ symbols b
  | .mul a b => symbols a ++ symbols b
  | .pow a b => symbols a ++ symbols b
  | .fn _ a => symbols a
  | .fn2 _ a b => symbols a ++ symbols b
  | .ite _ a b x y => symbols a ++ symbols b ++ symbols x ++ symbols y

end Festim.Spec
