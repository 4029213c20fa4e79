import Verif.Model.Fields

/-!
# Values of sources

festim/sources/source.py, festim/sources/radioactive_decay.py and the places where `source.value` is read:
festim/concentration/mobile.py:179-203, festim/concentration/traps/trap.py:199-211,
festim/temperature/temperature_solver.py:204-213.

A value is described by the class which the code distinguishes; `ccode` is taken to succeed on a sympy expression.  The attributes
`value` of all `Source` objects are a store indexed by the identity of the object (`none`: the object has no such attribute).
-/

namespace Festim

/-- What is given as `value`: a `float` or `int` (`bool` included), a sympy expression, an object of fenics, anything else
(`fenics.Constant`, `str`, `None`, ...) (source.py:24-33). -/
inductive Given where
  | number
  | sympy
  | expression
  | userExpression
  | function
  | other
  deriving DecidableEq, Repr

/-- What the attribute `value` is: a `fenics.Constant`, an `Expression`, a `UserExpression`, a `Function`, or the product of a decay
constant with the concentration of `o` (source.py:28-33, mobile.py:194-195, trap.py:206-207). -/
inductive Held where
  | constant
  | expression
  | userExpression
  | function
  | decayOf (o : Obj)
  deriving DecidableEq, Repr

/-- `Source.__init__` (source.py:24-33). -/
def sourceInit : Given → Option Held
  | .number => some .constant
  | .sympy => some .expression
  | .expression => some .expression
  | .userExpression => some .userExpression
  | .function => some .function
  | .other => none

/-- A number given as decay constant (radioactive_decay.py:27-32). -/
inductive DecayArg where
  | float (q : ℚ)
  | int (n : ℤ)
  | bool (b : Bool)
  | other
  deriving DecidableEq, Repr

/-- `RadioactiveDecay.decay_constant` (radioactive_decay.py:26-32); the number it stands for. -/
def setDecay : DecayArg → Except PyErr ℚ
  | .float q => if q ≤ 0 then .error (.valueError "decay_constant must be positive") else .ok q
  | .int n => if n ≤ 0 then .error (.valueError "decay_constant must be positive") else .ok n
  | .bool b => if b = false then .error (.valueError "decay_constant must be positive") else .ok 1
  | .other => .error (.typeError "decay_constant must be a float or an int")

/-- The attributes `value` of the sources (source.py:28-33). -/
abbrev Store := ℕ → Option Held

/-- `source.value = ...` (source.py:29-33, mobile.py:195, trap.py:207) -/
def Store.set (σ : Store) (u : ℕ) (h : Held) : Store := fun i => if i = u then some h else σ i

/-- After the constructors; `RadioactiveDecay.__init__` passes `value=None` (radioactive_decay.py:20). -/
def Store.fresh (given : ℕ → Given) (ss : List Source) : Store := fun u =>
  match ss.find? fun s => s.uid = u with
  | none => none
  | some s => if s.decay then sourceInit .other else sourceInit (given u)

/-- The loop of `Mobile.create_source_form` and `Trap.create_source_form` on their sources (mobile.py:189-203, trap.py:205-211):
the values which enter the form. -/
def readSources (o : Obj) : Store → List Source → Except PyErr (List (Obj × ℕ × Held) × Store)
  | σ, [] => .ok ([], σ)
  | σ, s :: ss =>
    let σ' := if s.decay then σ.set s.uid (.decayOf o) else σ
    match σ' s.uid with
    | none => .error (.attributeError "value")
    | some h =>
      match readSources o σ' ss with
      | .error e => .error e
      | .ok (l, σ'') => .ok ((o, s.uid, h) :: l, σ'')

/-- The loop of the heat equation (temperature_solver.py:205-213), which has no case for `RadioactiveDecay`. -/
def readHeat : Store → List Source → Except PyErr (List (Obj × ℕ × Held))
  | _, [] => .ok []
  | σ, s :: ss =>
    match σ s.uid with
    | none => .error (.attributeError "value")
    | some h =>
      match readHeat σ ss with
      | .error e => .error e
      | .ok l => .ok ((.temp, s.uid, h) :: l)

/-- `Traps.create_forms` (traps.py:52-57), from trap number `k`. -/
def readTraps : ℕ → Store → List (List Source) → Except PyErr (List (Obj × ℕ × Held))
  | _, _, [] => .ok []
  | k, σ, l :: ls =>
    match readSources (.trap k) σ l with
    | .error e => .error e
    | .ok (a, σ') =>
      match readTraps (k + 1) σ' ls with
      | .error e => .error e
      | .ok b => .ok (a ++ b)

/-- The source terms of all equations, in the order in which `initialise` writes them: temperature
(generic_simulation.py, `T.create_functions`), mobile, traps (h_transport_problem.py:262-278). -/
def writeSources (σ : Store) (S : SrcState) : Except PyErr (List (Obj × ℕ × Held)) :=
  match readHeat σ S.temp with
  | .error e => .error e
  | .ok a =>
    match readSources .mobile σ S.mobile with
    | .error e => .error e
    | .ok (b, σ') =>
      match readTraps 1 σ' S.traps with
      | .error e => .error e
      | .ok c => .ok (a ++ b ++ c)

/-- The sources whose value is appended to `sub_expressions`: all those of the temperature (temperature_solver.py:206), for the
others the instances of `Expression` and `UserExpression` (mobile.py:198-199, trap.py:210-211). -/
def registered (terms : List (Obj × ℕ × Held)) : List ℕ :=
  (terms.filter fun t => t.1 == .temp || t.2.2 == .expression || t.2.2 == .userExpression).map fun t => t.2.1

end Festim
