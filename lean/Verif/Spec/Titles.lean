import Verif.Model.Titles

/-!
# What a reader finds in a csv file
-/

namespace Festim.Weak

/-- A csv reader without quotes: lines ended by a newline, cells separated by commas. -/
def readCsv (text : List Char) : List (List (List Char)) :=
  (text.splitOn '\n').dropLast.map (·.splitOn ',')

/-- The column under a title: the entries of the other lines at the first position of the title in the
first line. -/
def columnOf (title : List Char) : List (List (List Char)) → List (Option (List Char))
  | [] => []
  | header :: rows => rows.map fun r => r[header.idxOf title]?

/-- What is computed, geometry aside. -/
inductive Family where
  | flux
  | totalVolume
  | totalSurface
  | averageVolume
  | averageSurface
  | maximumVolume
  | minimumVolume
  | maximumSurface
  | minimumSurface
  | point
  | adsorbed
  deriving DecidableEq, Repr

/-- Family, field, id of the subdomain, coordinates of the point. -/
def Quantity.parts : Quantity → Family × Option Field × Option ℕ × Option (List ℝ)
  | .surfaceFlux _ f s => (.flux, some f, some s, none)
  | .totalVolume _ f v => (.totalVolume, some f, some v, none)
  | .totalSurface _ f s => (.totalSurface, some f, some s, none)
  | .averageVolume _ f v => (.averageVolume, some f, some v, none)
  | .averageSurface _ f s => (.averageSurface, some f, some s, none)
  | .maximumVolume f v => (.maximumVolume, some f, some v, none)
  | .minimumVolume f v => (.minimumVolume, some f, some v, none)
  | .maximumSurface f s => (.maximumSurface, some f, some s, none)
  | .minimumSurface f s => (.minimumSurface, some f, some s, none)
  | .pointValue f x => (.point, some f, none, some x)
  | .adsorbed s => (.adsorbed, none, some s, none)

/-- The same field up to the way of giving a number. -/
def fieldNumber : Field → ℕ ⊕ String
  | .int n => .inl n
  | .strInt n => .inl n
  | .name s => .inr s

/-- Fields that exist in a simulation. -/
def KnownField (f : Field) : Prop :=
  match f with
  | .name s => s = "solute" ∨ s = "T" ∨ s = "retention"
  | _ => True

/-- The field of a quantity, if it has one, exists. -/
def KnownQuantity (q : Quantity) : Prop := ∀ f ∈ q.parts.2.1, KnownField f

/-- The same family, field, subdomain and written coordinates: geometry and angles are ignored. -/
def SameLabel (repr : ℝ → List Char) (a b : Quantity × Seq) : Prop :=
  a.1.parts.1 = b.1.parts.1 ∧ a.1.parts.2.1.map fieldNumber = b.1.parts.2.1.map fieldNumber ∧
    a.1.parts.2.2.1 = b.1.parts.2.2.1 ∧
    a.1.parts.2.2.2.map (fun x => (a.2, x.map repr)) = b.1.parts.2.2.2.map fun x => (b.2, x.map repr)

/-- Number of commas in the title of a quantity: those between the coordinates of a point, and the one
that ends a tuple of one element. -/
def extraCells (q : Quantity × Seq) : ℕ :=
  match q.1.parts.2.2.2, q.2 with
  | none, _ => 0
  | some x, .list => x.length - 1
  | some x, .tuple => if x.length = 1 then 1 else x.length - 1

end Festim.Weak
