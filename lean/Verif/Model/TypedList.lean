import Verif.Model.Py

/-!
# Typed lists

`Materials`, `Traps`, `Exports` and `DerivedQuantities` are subclasses of `list` written in the same way
(festim/materials/materials.py:10-49, festim/concentration/traps/traps.py:5-41,
festim/exports/exports.py:5-44, festim/exports/derived_quantities/derived_quantities.py:41-85).
The model is parametrised by the `isinstance` test `valid`.

Not modelled: slices as indices, subclasses of the container.
-/

namespace Festim

/-- Argument of `extend` and `+=`: another typed container of the same class, or any iterable
(traps.py:32-36). -/
inductive Other (α : Type) where
  | same (l : List α)
  | iterable (l : List α)
  | notIterable

/-- Elements of an argument (traps.py:32-36). -/
def Other.toList {α : Type} : Other α → List α
  | .same l => l
  | .iterable l => l
  | .notIterable => []

/-- Mutating methods of the containers. `iadd`, `del`, `pop`, `reverse`, `clear` are inherited from
`list` (traps.py:23-36, materials.py:31-44, exports.py:24-37, derived_quantities.py:65-78). -/
inductive ListOp (α : Type) where
  | setitem (i : ℤ) (x : α)
  | insert (i : ℤ) (x : α)
  | append (x : α)
  | extend (o : Other α)
  | iadd (o : Other α)
  | del (i : ℤ)
  | reverse
  | clear

/-- `_validate_...` (materials.py:46-49, traps.py:38-41, exports.py:39-44,
derived_quantities.py:80-85). -/
def validate {α : Type} (valid : α → Bool) (x : α) : Except PyErr α :=
  if valid x then .ok x else .error (.typeError "must be a list of")

/-- `list.extend` fed by the generator `(self._validate(item) for item in other)`: elements are
appended one by one, so a failure keeps those that precede the offending one.
Returns the new list and the exception, if any
(traps.py:36, materials.py:44, exports.py:37, derived_quantities.py:78). -/
def extendLoop {α : Type} (valid : α → Bool) : List α → List α → List α × Option PyErr
  | self, [] => (self, none)
  | self, x :: xs =>
    match validate valid x with
    | .error e => (self, some e)
    | .ok y => extendLoop valid (self ++ [y]) xs

/-- Index of an element of a list of length `n` (negative indices count from the end) (traps.py:24). -/
def pyIndex (n : ℕ) (i : ℤ) : Option ℕ :=
  let j := if i < 0 then i + n else i
  if 0 ≤ j ∧ j < n then some j.toNat else none

/-- Position used by `list.insert`, clipped to the list (traps.py:27). -/
def pyInsertPos (n : ℕ) (i : ℤ) : ℕ :=
  let j := if i < 0 then i + n else i
  if j < 0 then 0 else min j.toNat n

/-- One operation: the list afterwards, and the exception raised, if any
(traps.py:23-36, materials.py:31-44, exports.py:24-37, derived_quantities.py:65-78). -/
def ListOp.apply {α : Type} (valid : α → Bool) (self : List α) : ListOp α → List α × Option PyErr
  | .setitem i x =>
    -- the argument is validated before `list.__setitem__` looks at the index
    match validate valid x with
    | .error e => (self, some e)
    | .ok y =>
      match pyIndex self.length i with
      | none => (self, some (.indexError "list assignment index out of range"))
      | some k => (self.set k y, none)
  | .insert i x =>
    match validate valid x with
    | .error e => (self, some e)
    | .ok y => (self.insertIdx (pyInsertPos self.length i) y, none)
  | .append x =>
    match validate valid x with
    | .error e => (self, some e)
    | .ok y => (self ++ [y], none)
  | .extend (.same l) => (self ++ l, none)
  | .extend (.iterable l) => extendLoop valid self l
  | .extend .notIterable => (self, some (.typeError "object is not iterable"))
  -- `list.__iadd__` does not call the overridden `extend`
  | .iadd (.same l) => (self ++ l, none)
  | .iadd (.iterable l) => (self ++ l, none)
  | .iadd .notIterable => (self, some (.typeError "object is not iterable"))
  | .del i =>
    match pyIndex self.length i with
    | none => (self, some (.indexError "list assignment index out of range"))
    | some k => (self.eraseIdx k, none)
  | .reverse => (self.reverse, none)
  | .clear => ([], none)

/-- The constructor (materials.py:15-22): no argument, or a list. -/
def mkTyped {α : Type} (valid : α → Bool) : Option (List α) → Except PyErr (List α)
  | none => .ok []
  | some l =>
    match extendLoop valid [] l with
    | (l', none) => .ok l'
    | (_, some e) => .error e

/-- A history: exceptions are caught by the caller and the container is used further (traps.py:23-36). -/
def runOps {α : Type} (valid : α → Bool) (self : List α) : List (ListOp α) → List α
  | [] => self
  | op :: ops => runOps valid (op.apply valid self).1 ops

end Festim
