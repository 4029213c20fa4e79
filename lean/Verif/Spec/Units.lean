import Verif.Model.Units

/-!
# Change of units

The same physical situation described in other units of length, time, amount of hydrogen and power.  A
unit written beside a number is right when the number follows the change of units.
-/

namespace Festim.Weak

/-- The symbol a unit starts with. -/
inductive Base where
  | H
  | K
  | W
  deriving DecidableEq

/-- `H`, `K` or `W` times `m ^ metre` times `s ^ second`. -/
structure PhysUnit where
  base : Base
  metre : ℤ
  second : ℤ
  deriving DecidableEq

/-- A symbol with its exponent: nothing for the exponent 0, the symbol alone for the exponent 1. -/
def power (symbol : String) (n : ℤ) : List Char :=
  if n = 0 then [] else if n = 1 then ' ' :: symbol.toList
  else ' ' :: symbol.toList ++ (toString n).toList

/-- A unit in the usual notation: `H m-2 s-1`. -/
def PhysUnit.write (u : PhysUnit) : List Char :=
  (match u.base with
    | .H => ['H']
    | .K => ['K']
    | .W => ['W']) ++ power "m" u.metre ++ power "s" u.second

/-- One old unit is `len` new units of length, and so on. -/
structure Change where
  len : ℝ
  time : ℝ
  amount : ℝ
  power : ℝ
  len_pos : 0 < len
  time_pos : 0 < time
  amount_pos : 0 < amount
  power_pos : 0 < power

/-- How a number whose unit is `u` changes. -/
noncomputable def Change.factor (c : Change) (u : PhysUnit) : ℝ :=
  (match u.base with
    | .H => c.amount
    | .K => 1
    | .W => c.power) * c.len ^ u.metre * c.time ^ u.second

section
variable {Ω Γ : Type} {d : ℕ}

/-- A function whose values are multiplied by `a`, the lengths being multiplied by `l`. -/
noncomputable def PostFun.rescale (a l : ℝ) (f : PostFun Ω Γ d) : PostFun Ω Γ d where
  val p := a * f.val p
  tr q := a * f.tr q
  gradS q i := a / l * f.gradS q i
  cells := f.cells.map fun c => (c.1, c.2.map (a * ·))
  pt x := a * f.pt (x.map (· / l))
  isFun := f.isFun

/-- The mesh with lengths multiplied by `l`: volumes by `l ^ d`, surfaces by `l ^ (d - 1)`. -/
noncomputable def Mesh.rescale (l : ℝ) (m : Mesh Ω Γ d) : Mesh Ω Γ d where
  w p := l ^ d * m.w p
  vm := m.vm
  ws q := l ^ ((d : ℤ) - 1) * m.ws q
  sm := m.sm
  vmS := m.vmS
  r := ⟨fun p => l * m.r.val p, m.r.grad, fun q => l * m.r.tr q⟩
  type := m.type

/-- The same situation in the new units: concentrations are in `H m-3`, adsorbed concentrations in
`H m-2`, diffusivities in `m2 s-1`, conductivities in `W m-1 K-1`; temperatures and heats of transport
do not change. -/
noncomputable def PostEnv.rescale (c : Change) (e : PostEnv Ω Γ d) : PostEnv Ω Γ d where
  mesh := e.mesh.rescale c.len
  n := e.n
  D q := c.len ^ 2 / c.time * e.D q
  cond := e.cond.map fun k q => c.power / c.len * k q
  Q := e.Q
  T := e.T.rescale 1 c.len
  soret := e.soret
  solute := e.solute.rescale (c.amount / c.len ^ 3) c.len
  traps := e.traps.map fun f => f.rescale (c.amount / c.len ^ 3) c.len
  ids := e.ids
  adsorbed := e.adsorbed.map fun a => (a.1, a.2.map (c.amount / c.len ^ 2 * ·))

/-- The same quantity: only a point has coordinates. -/
noncomputable def Quantity.rescale (c : Change) : Quantity → Quantity
  | .pointValue f x => .pointValue f (x.map (c.len * ·))
  | q => q

end

/-- Power of the radius in the measure of a class. -/
def Suffix.radius : Suffix → ℤ
  | .cartesian => 0
  | .cylindrical => 1
  | .spherical => 2

/-- Power of the radius in the measure of a class. -/
def Geom.radius : Geom → ℤ
  | .cartesian => 0
  | .cylindrical _ => 1
  | .spherical _ _ => 2

/-- Unit of a field: `K`, or `H m-3`. -/
def fieldUnit (f : Field) : PhysUnit := if f = .name "T" then ⟨.K, 0, 0⟩ else ⟨.H, -3, 0⟩

/-- The unit a quantity has on a mesh of dimension `d`. -/
def Quantity.trueUnit (q : Quantity) (d : ℤ) : PhysUnit :=
  match q with
  | .surfaceFlux g f _ =>
    if f = .name "T" then ⟨.W, d - 1 + g.radius - 2, 0⟩ else ⟨.H, d - 1 + g.radius - 2, -1⟩
  | .totalVolume g f _ =>
    ⟨(fieldUnit f).base, (fieldUnit f).metre + d + g.radius, 0⟩
  | .totalSurface g f _ =>
    ⟨(fieldUnit f).base, (fieldUnit f).metre + (d - 1) + g.radius, 0⟩
  | .averageVolume _ f _ => fieldUnit f
  | .averageSurface _ f _ => fieldUnit f
  | .maximumVolume f _ => fieldUnit f
  | .minimumVolume f _ => fieldUnit f
  | .maximumSurface f _ => fieldUnit f
  | .minimumSurface f _ => fieldUnit f
  | .pointValue f _ => fieldUnit f
  | .adsorbed _ => ⟨.H, -2 + (d - 1), 0⟩

/-- Dimensions for which the coordinates of the class exist (generic_simulation.py:296-306). -/
def Geom.Fits (g : Geom) (d : ℕ) : Prop :=
  match g with
  | .cartesian => d = 1 ∨ d = 2 ∨ d = 3
  | .cylindrical _ => d = 1 ∨ d = 2
  | .spherical _ _ => d = 1

/-- Dimensions for which a quantity makes sense. -/
def Quantity.Fits (q : Quantity) (d : ℕ) : Prop :=
  match q with
  | .surfaceFlux g _ _ => g.Fits d
  | .totalVolume g _ _ => g.Fits d
  | .totalSurface g _ _ => g.Fits d
  | .adsorbed _ => d = 1
  | _ => True

end Festim.Weak
