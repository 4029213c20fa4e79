import Verif.Model.Floats
import Verif.Spec.Run

/-! # Vocabulary for runs in floating-point arithmetic -/

namespace Festim.Spec

/-- What is used of a floating-point arithmetic: its rounding is monotone, leaves the
floating-point numbers (its values) as they are, and has a relative error of at most `u`, at most
`1e-14` (for Python floats `u = 2^-53`, see `Festim.Props.C80_python_floats`). -/
structure Rounding where
  rnd : ℚ → ℚ
  u : ℚ
  u_nonneg : 0 ≤ u
  u_small : u ≤ 1 / 10 ^ 14
  mono : ∀ x y, x ≤ y → rnd x ≤ rnd y
  idem : ∀ x, rnd (rnd x) = rnd x
  err : ∀ x, |rnd x - x| ≤ u * |x|

/-- `x` is a floating-point number. -/
def Rounding.IsFloat (R : Rounding) (x : ℚ) : Prop := R.rnd x = x

/-- The data of a stepsize are floating-point numbers. -/
structure FloatData (R : Rounding) (cfg : Stepsize) : Prop where
  initial : R.IsFloat cfg.initialValue
  cap : ∀ a, cfg.adaptive = some a → ∀ t m, a.maxStep.eval t = .ok (some m) → R.IsFloat m
  milestones : ∀ ms, cfg.milestones = some ms → ∀ m ∈ ms, R.IsFloat m

end Festim.Spec
