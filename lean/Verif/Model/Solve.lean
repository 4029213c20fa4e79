import Verif.Model.Newton
import Mathlib.Data.Real.Sqrt
import Mathlib.LinearAlgebra.Matrix.NonsingularInverse

/-!
# One nonlinear solve

festim/nonlinear_problem.py `Problem`, festim/h_transport_problem.py `solve_once`.  The unknown is its vector of
degrees of freedom `ι → ℝ`.  `SystemAssembler` and `NewtonSolver` belong to DOLFIN, not to FESTIM: they are modelled
after the documentation of DOLFIN 2019.1 (elimination of the Dirichlet rows and columns cell by cell; residual
criterion, relaxation 1, arithmetic taken to be exact).
-/

namespace Festim.Solve

open Newton

variable {ι : Type} [Fintype ι] [DecidableEq ι]

/-- The arguments of `festim.Problem` (nonlinear_problem.py:16-23) as vectors: residual form and Jacobian form
assembled at `x`, and for each `fenics.DirichletBC` of the list its degrees of freedom and values.  `cells`: number of
cells around a degree of freedom. -/
structure System (ι : Type) where
  F : (ι → ℝ) → ι → ℝ
  J : (ι → ℝ) → Matrix ι ι ℝ
  bcs : List (List (ι × ℝ))
  cells : ι → ℕ

/-- Boundary value of a degree of freedom: the conditions are put into one map, in the order of the list
(`self.bcs` of nonlinear_problem.py:19-22). -/
def System.value (S : System ι) (i : ι) : Option ℝ := S.bcs.flatten.reverse.lookup i

/-- Entry of the assembled matrix: `d` is that of the identity (times the number of cells), `k` that of the Jacobian
(nonlinear_problem.py:29-31). -/
def entry (row column : Option ℝ) (d k : ℝ) : ℝ :=
  match row with
  | some _ => d
  | none =>
    match column with
    | some _ => 0
    | none => k

/-- `Problem.J` (nonlinear_problem.py:29-31): rows and columns with a boundary value are those of the identity, once
for each cell. -/
def System.matrix (S : System ι) (x : ι → ℝ) : Matrix ι ι ℝ :=
  Matrix.of fun i j => entry (S.value i) (S.value j) (if i = j then (S.cells i : ℝ) else 0) (S.J x i j)

/-- What an eliminated column puts on the other side (nonlinear_problem.py:25-27). -/
def moved (column : Option ℝ) (k x : ℝ) : ℝ :=
  match column with
  | some g => k * (x - g)
  | none => 0

/-- `Problem.F` (nonlinear_problem.py:25-27): the right-hand side for the increment; the eliminated columns are moved
to it. -/
def System.rhs (S : System ι) (x : ι → ℝ) : ι → ℝ := fun i =>
  match S.value i with
  | some g => S.cells i * (x i - g)
  | none => S.F x i - ∑ j, moved (S.value j) (S.J x i j) (x j)

/-- `l2` norm (the solver called at h_transport_problem.py:366). -/
noncomputable def norm2 (b : ι → ℝ) : ℝ := Real.sqrt (∑ i, b i ^ 2)

/-- `NewtonSolver::converged`
(the solver called at h_transport_problem.py:366 with the tolerances of 284-289). -/
def Small (o : Opts) (r0 r : ℝ) : Prop := r < o.atol ∨ (r0 ≠ 0 ∧ r / r0 < o.rtol)

open Classical in
/-- The iterations: number, convergence, and the vector which is left in `u`.  `lin` is the linear solver
(the solver called at h_transport_problem.py:366). -/
noncomputable def iterate (S : System ι) (lin : Matrix ι ι ℝ → (ι → ℝ) → ι → ℝ) (o : Opts) (r0 : ℝ) :
    ℕ → ℕ → (ι → ℝ) → ℕ × Bool × (ι → ℝ)
  | fuel, it, x =>
    if Small o r0 (norm2 (S.rhs x)) then (it, true, x)
    else
      match fuel with
      | 0 => (it, false, x)
      | fuel + 1 => iterate S lin o r0 fuel (it + 1) (x - lin (S.matrix x) (S.rhs x))

/-- `solve_once` (h_transport_problem.py:351-369): `nb_it`, `converged`, and the new `u`. -/
noncomputable def solveOnce (S : System ι) (lin : Matrix ι ι ℝ → (ι → ℝ) → ι → ℝ) (o : Opts) (x : ι → ℝ) :
    ℕ × Bool × (ι → ℝ) :=
  iterate S lin o (norm2 (S.rhs x)) o.maxIt 0 x

end Festim.Solve
