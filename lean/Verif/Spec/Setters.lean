import Verif.Model.Setters

/-! # Vocabulary for statements about attributes of simulations (C64, C73) -/

namespace Festim.Spec

open Festim.Attr

/-- The three attributes that hold typed lists. -/
inductive Kind where
  | traps | materials | exports
  deriving DecidableEq

/-- The class of list each of them holds. -/
def Kind.cls : Kind → ListCls
  | .traps => .traps
  | .materials => .materials
  | .exports => .exports

/-- The attribute. -/
def Kind.name : Kind → Name
  | .traps => .traps
  | .materials => .materials
  | .exports => .exports

/-- An element documented for the attribute: a trap; a material; an export, a derived quantity or a
`DerivedQuantities`. -/
def Element (k : Kind) (h : Heap) (v : Val) : Prop :=
  match k with
  | .traps => ∃ n, v = .leaf .trap n
  | .materials => ∃ n, v = .leaf .material n
  | .exports => (∃ n, v = .leaf .export n ∨ v = .leaf .derivedQuantity n) ∨
      ∃ a items, v = .ref a ∧ h[a]? = some ⟨.derivedQuantities, items⟩

/-- Which object the attribute refers to afterwards. -/
inductive Sharing where
  /-- a list created by the assignment, that nothing else refers to -/
  | fresh
  /-- the very object that was given -/
  | same (a : ℕ)
  /-- `None` -/
  | nothing

/-- What an assigned value stands for: the items the simulation is to see, and whether the list is
shared with the caller. -/
inductive Means (k : Kind) (h : Heap) : Val → List Val → Sharing → Prop
  | none : k ≠ .materials → Means k h .none [] .fresh
  | noMaterials : k = .materials → Means k h .none [] .nothing
  | single (v : Val) : Element k h v → Means k h v [v] .fresh
  | typed (a : ℕ) (items : List Val) : h[a]? = some ⟨k.cls, items⟩ →
      Means k h (.ref a) items (.same a)
  | list (a : ℕ) (c : ListCls) (items : List Val) : h[a]? = some ⟨c, items⟩ → c ≠ k.cls →
      ¬ Element k h (.ref a) → (∀ x ∈ items, Element k h x) → Means k h (.ref a) items .fresh

/-- The state after an assignment that worked. -/
def Stored (k : Kind) (h : Heap) (items : List Val) : Sharing → Heap × Val
  | .fresh => (h ++ [⟨k.cls, items⟩], .ref h.length)
  | .same a => (h, .ref a)
  | .nothing => (h, .none)

/-- Documented values for `T`. -/
def TArg : Val → Prop
  | .none | .num _ | .bool _ | .sympy _ => True
  | .leaf c _ => c = .temperature
  | _ => False

/-- Documented values for `dt`. -/
def DtArg : Val → Prop
  | .none | .num _ | .bool _ => True
  | .leaf c _ => c = .stepsize
  | _ => False

/-- The value refers to an existing object, if it refers to any. -/
def Bound (h : Heap) (v : Val) : Prop := ∀ a, v = .ref a → a < h.length

/-- The lists hold existing objects. -/
def ClosedHeap (h : Heap) : Prop := ∀ o ∈ h, ∀ v ∈ o.items, Bound h v

/-- The statement neither passes the list `a` to a simulation, nor modifies it under its own name, nor
uses the simulation number `i`. -/
def Leaves (a i : ℕ) : Stmt → Prop
  | .newList _ _ => True
  | .newSim x => (∀ v, x.sources = some v → v ≠ .ref a) ∧
      (∀ v, x.boundaryConditions = some v → v ≠ .ref a) ∧
      (∀ v, x.initialConditions = some v → v ≠ .ref a) ∧
      x.traps ≠ .ref a ∧ x.materials ≠ .ref a ∧ x.exports ≠ .ref a
  | .set j _ v => j ≠ i ∧ v ≠ .ref a
  | .mutate (.var b) _ => b ≠ a
  | .mutate (.attr j _) _ => j ≠ i

/-- No simulation but number `i` refers to the list `a`. -/
def OnlyHolder (w : World) (a i : ℕ) : Prop :=
  ∀ j s, w.sims[j]? = some s → j ≠ i → ∀ n, getAttr s n ≠ .ref a

end Festim.Spec
