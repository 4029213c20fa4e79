import Verif.Spec.Forms

/-!
# Piecewise affine functions on a one-dimensional mesh

The meshes of `festim.MeshFromVertices` with the `CG1` functions of FESTIM (h_transport_problem.py:
function space of degree 1), in cartesian coordinates.
-/

open scoped BigOperators

namespace Festim.Weak

/-- `N` cells of lengths `h 0, ..., h (N - 1)`, a quadrature rule exact for constants on each cell; `lam`
is the relative position of a quadrature point in its cell. -/
structure Line (Ω : Type) [Fintype Ω] where
  N : ℕ
  h : ℕ → ℝ
  cell : Ω → ℕ
  lam : Ω → ℝ
  w : Ω → ℝ
  vm : Ω → ℕ
  left : ℕ
  right : ℕ
  vmL : ℕ
  vmR : ℕ
  N_pos : 0 < N
  h_pos : ∀ i < N, 0 < h i
  cell_lt : ∀ p, cell p < N
  exact : ∀ i < N, ∑ p ∈ Finset.univ.filter (fun p => cell p = i), w p = h i
  ends : left ≠ right

variable {Ω : Type} [Fintype Ω]

/-- The function with given nodal values; the boundary points are the left end (`false`) and the right
end (`true`). -/
noncomputable def Line.p1 (L : Line Ω) (u : ℕ → ℝ) : Fld Ω Bool 1 where
  val p := (1 - L.lam p) * u (L.cell p) + L.lam p * u (L.cell p + 1)
  grad p _ := (u (L.cell p + 1) - u (L.cell p)) / L.h (L.cell p)
  tr q := if q then u L.N else u 0

/-- Its derivative in the cells at the ends. -/
noncomputable def Line.endSlope (L : Line Ω) (u : ℕ → ℝ) (q : Bool) : ℝ :=
  if q then (u L.N - u (L.N - 1)) / L.h (L.N - 1) else (u 1 - u 0) / L.h 0

/-- The mesh. -/
noncomputable def Line.mesh (L : Line Ω) (r : Fld Ω Bool 1) : Mesh Ω Bool 1 where
  w := L.w
  vm := L.vm
  ws _ := 1
  sm q := if q then L.right else L.left
  vmS q := if q then L.vmR else L.vmL
  r := r
  type := .cartesian

/-- The quadrature rule has non-negative weights, points in the cells, and is exact for polynomials of
degree 2 (what FEniCS uses for products of two piecewise affine functions). -/
structure Line.Exact2 (L : Line Ω) : Prop where
  w_nonneg : ∀ p, 0 ≤ L.w p
  lam_nonneg : ∀ p, 0 ≤ L.lam p
  lam_le : ∀ p, L.lam p ≤ 1
  one : ∀ i < L.N, ∑ p ∈ Finset.univ.filter (fun p => L.cell p = i), L.w p * L.lam p = L.h i / 2
  two : ∀ i < L.N, ∑ p ∈ Finset.univ.filter (fun p => L.cell p = i), L.w p * L.lam p ^ 2 = L.h i / 3

/-- The nodal values of the basis function of node `j`. -/
def hat (j : ℕ) (i : ℕ) : ℝ := if i = j then 1 else 0

/-- The cell at an end. -/
def Line.endCell (L : Line Ω) (q : Bool) : ℕ := if q then L.N - 1 else 0

/-- The outward normal. -/
def Line.normal (q : Bool) (_ : Fin 1) : ℝ := if q then 1 else -1

end Festim.Weak
