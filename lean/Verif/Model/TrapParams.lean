import Verif.Model.Forms

/-!
# Parameters of a trap given as lists

festim/concentration/traps/trap.py `make_density`, called by the constructor.

A density is given by its values at the quadrature points: the conversion of a sympy expression to a fenics
`Expression` (trap.py:98-107) is the identity here.
-/

namespace Festim.Weak

variable {Ω Γ : Type} {d : ℕ}

/-- The argument `density` of `Trap`: something which is not a list, or a list; `none` is `None`
(trap.py:87-92). -/
inductive DensityArg (Ω : Type) where
  | one (n : Option (Ω → ℝ))
  | list (l : List (Option (Ω → ℝ)))

/-- The loop of `make_density` (trap.py:91-107). -/
def densityLoop : List (Option (Ω → ℝ)) → List (Ω → ℝ) → List (Ω → ℝ)
  | [], acc => acc
  | none :: l, acc => densityLoop l acc
  | some n :: l, acc => densityLoop l (acc ++ [n])

/-- `self.density = []; self.make_density(density)` (trap.py:49-50, 87-107). -/
def makeDensity : DensityArg Ω → List (Ω → ℝ)
  | .one n => densityLoop [n] []
  | .list l => densityLoop l []

/-- The parameters used in each material, in the order of `trap.materials` (the loops of trap.py:157-169 and
mobile.py:142-157); stops at the first failure. -/
def trapKinetics (params : ℕ → Except PyErr (Kinetics Ω)) : ℕ → Except PyErr (List (Kinetics Ω))
  | 0 => .ok []
  | n + 1 =>
    match trapKinetics params n with
    | .error e => .error e
    | .ok l =>
      match params n with
      | .error e => .error e
      | .ok k => .ok (l ++ [k])

end Festim.Weak
