import Verif.Model.Run

/-! # Vocabulary for statements about transient runs -/

namespace Festim.Spec

/-- All user-supplied step data are positive: initial value, change ratio, caps. -/
def PositiveSteps (cfg : Stepsize) : Prop :=
  0 < cfg.initialValue ∧
  ∀ a, cfg.adaptive = some a →
    0 < a.ratio ∧ ∀ t m, a.maxStep.eval t = .ok (some m) → 0 < m

/-- `a` is within relative `1e-5` of `b`. -/
def Near (a b : ℚ) : Prop := |a - b| ≤ 1 / 100000 * |b|

/-- `run()` has returned normally. -/
def Returned (s : RunState) : Prop := s.phase = .finished

/-- `run()` has raised. -/
def Raised (s : RunState) : Prop := ∃ e, s.phase = .raised e

/-- The driver is still working: the solver is about to be called at time `s.t`. -/
def Solving (s : RunState) : Prop := ∃ nom k, s.phase = .solving nom k

/-- Every step length that `adapt` may choose is at most `H`: a constant stepsize `≤ H`, or an
adaptive one capped by a `max_stepsize` that is always set and `≤ H`. -/
def StepsAtMost (cfg : Stepsize) (H : ℚ) : Prop :=
  match cfg.adaptive with
  | none => cfg.initialValue ≤ H
  | some a => ∀ t, ∃ m, a.maxStep.eval t = .ok (some m) ∧ m ≤ H

end Festim.Spec
