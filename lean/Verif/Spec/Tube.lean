import Verif.Spec.ReportedBalance

/-!
# Lines in cylindrical coordinates

Vocabulary of C113.
-/

open scoped BigOperators

namespace Festim.Weak

section
variable {Ω : Type} [Fintype Ω]

/-- The integral of `φ / r` where `φ` is 1 at the end `q` and 0 from the next node on; about half of the size of the cell
at the end, over its radius. -/
noncomputable def Line.curvature (L : Line Ω) (x : ℕ → ℝ) (q : Bool) : ℝ :=
  ∑ p, L.w p * (L.atEnd q p / (L.p1 x).val p)

/-- What the value reported at the end `q` is multiplied by to get the flux of the discrete problem: `1 + ε` at the inner
end, `1 - ε` at the outer end. -/
noncomputable def Line.correction (L : Line Ω) (x : ℕ → ℝ) (q : Bool) : ℝ :=
  if q then 1 - L.curvature x true else 1 + L.curvature x false

end

end Festim.Weak
