import Verif.Model.Exports
import Verif.Spec.Run

/-! # Vocabulary for statements about exports -/

namespace Festim.Spec

variable {σ : Type}

/-- The members of `l` whose position, counted from `k₀`, is a multiple of `n`. -/
def atMultiples {α : Type} (n k₀ : ℕ) (l : List α) : List α :=
  ((l.zipIdx k₀).filter fun p => decide (p.2 % n = 0)).map (·.1)

/-- The csv row of a step. -/
def csvRow (evals : List (σ → ℚ)) (p : σ × ℚ) : List Cell :=
  .num p.2 :: evals.map fun e => .num (e p.1)

/-- The csv table of a list of computed steps: nothing before the first computation, then a title
row and one row per step. -/
def csvTable (titles : List String) (evals : List (σ → ℚ)) (steps : List (σ × ℚ)) :
    List (List Cell) :=
  if steps = [] then [] else (.text "t(s)" :: titles.map .text) :: steps.map (csvRow evals)

/-- A `DerivedQuantities` object holding no results, as after `initialise`. -/
def Fresh (d : DQ σ) : Prop :=
  d.data = [] ∧ d.t = [] ∧ ∀ q ∈ d.quantities, q.data = [] ∧ q.t = []

/-- When the csv file is due, at time `t` and iteration `k`. -/
def CsvDue (d : DQ σ) (final : Option ℚ) (t : ℚ) (k : ℕ) : Prop :=
  match final, d.betweenExports with
  | none, _ => True
  | some f, none => Near t f
  | some _, some n => k % n = 0

/-- A txt column is due at time `t`. -/
def TxtDue (times : Option (List ℚ)) (t : ℚ) : Prop :=
  match times with
  | none => True
  | some l => ∃ τ ∈ l, |τ - t| ≤ 1 / 100000 * |t|

instance (times : Option (List ℚ)) (t : ℚ) : Decidable (TxtDue times t) := by
  unfold TxtDue; split <;> infer_instance

/-- The time at which a `write_at_last` export saves its file: the simulation end, or the largest
requested time. -/
def TxtLastDue (times : Option (List ℚ)) (final : Option ℚ) (t : ℚ) : Prop :=
  match final, times with
  | none, _ => True
  | some f, none => Near t f
  | some _, some l => ∃ m ∈ l.getLast?, Near t m

/-- The content of a txt file: coordinates of the selected degrees of freedom in the first column,
then one column per exported step. -/
def txtRows (sol : σ → List ℚ) (xs : List ℚ) (idx : List ℕ) (steps : List (σ × ℚ)) :
    List (List ℚ) :=
  idx.map fun i => xs.getD i 0 :: steps.map fun p => (sol p.1).getD i 0

/-- The column labels. -/
def txtHeader (final : Option ℚ) (steps : List (σ × ℚ)) : List TLabel :=
  steps.map fun p => if final.isNone then .steady else .time p.2

/-- `p` is what `np.argsort` may return for `xs`. -/
def IsArgsort (xs : List ℚ) (p : List ℕ) : Prop :=
  p.Perm (List.range xs.length) ∧ (p.map fun i => xs.getD i 0).Pairwise (· ≤ ·)

end Festim.Spec
