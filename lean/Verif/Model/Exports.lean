import Verif.Model.Stepsize

/-!
# Exports

festim/exports/exports.py, xdmf_export.py, txt_export.py,
derived_quantities/derived_quantities.py and the part of `Simulation.initialise` that touches the
exports (festim/generic_simulation.py:417-445).

`σ` is the type of solution snapshots: what `Exports.write` receives as `label_to_function` once per
accepted time step.  What a derived quantity or a projection computes from it is a parameter of the
model.  Files are values: the last content saved, or the list of records written.

Not modelled: the numerical formatting of files, `fenics` projections, unknown field labels
(`KeyError`), and the state left behind by an exception (it propagates out of `run`).
-/

namespace Festim

/-- `os.path.dirname` followed by `os.path.exists` / `os.makedirs`
(festim/exports/txt_export.py:203-205, derived_quantities.py:149-151).
A name without any `/` has an empty dirname: `os.path.exists("")` is false and `os.makedirs("")`
raises.  Simplified: creating a non-empty directory always succeeds. -/
def ensureDir (filename : String) : Except PyErr Unit :=
  if '/' ∈ filename.toList then .ok () else .error (.fileNotFoundError filename)

/-- `nb_iterations % n == 0` with Python's `ZeroDivisionError`
(derived_quantities.py:177, 192, xdmf_export.py:158). -/
def everyN (nb n : ℕ) : Except PyErr Bool :=
  if n = 0 then .error .zeroDivisionError else .ok (decide (nb % n = 0))

/-! ## XDMF -/

/-- `XDMFExport.mode` after its setter (xdmf_export.py:64-78). -/
inductive XMode where
  | every (n : ℕ)
  | last
  deriving DecidableEq, Repr

/-- The values Python code may assign to `mode` (xdmf_export.py:69-78). -/
inductive PyModeArg where
  | int (n : ℤ)
  | str (s : String)
  | other
  deriving DecidableEq, Repr

/-- Setter of `XDMFExport.mode` (festim/exports/xdmf_export.py:68-78). -/
def XMode.set : PyModeArg → Except PyErr XMode
  | .other => .error (.valueError "accepted values for mode are int and 'last'")
  | .int n => if n ≤ 0 then .error (.valueError "mode must be positive") else .ok (.every n.toNat)
  | .str s =>
    if s ≠ "last" then .error (.valueError "accepted values for mode are int and 'last'")
    else .ok .last

/-- One record of the XDMF file: the time and the `append` flag it was written with
(festim/exports/xdmf_export.py:117-142). -/
structure XRecord (σ : Type) where
  t : ℚ
  append : Bool
  field : σ

/-- Dynamic state of an `XDMFExport` (festim/exports/xdmf_export.py:33-48). -/
structure XDMF (σ : Type) where
  mode : XMode
  append : Bool := false
  records : List (XRecord σ) := []

/-- `XDMFExport.is_export` (festim/exports/xdmf_export.py:144-161).
`np.isclose(t, None)` raises a `TypeError`. -/
def XDMF.isExport {σ : Type} (x : XDMF σ) (t : ℚ) (final : Option ℚ) (nb : ℕ) :
    Except PyErr Bool :=
  match x.mode with
  | .last =>
    match final with
    | none => .error (.typeError "isclose with None")
    | some f => .ok (isclose t f)
  | .every n => everyN nb n

/-- The `XDMFExport` branch of `Exports.write` (festim/exports/exports.py:82-95). -/
def XDMF.write {σ : Type} (x : XDMF σ) (s : σ) (t : ℚ) (final : Option ℚ) (nb : ℕ) :
    Except PyErr (XDMF σ) :=
  match x.isExport t final nb with
  | .error e => .error e
  | .ok false => .ok x
  | .ok true => .ok { x with records := x.records ++ [⟨t, x.append, s⟩], append := true }

/-! ## Derived quantities -/

/-- How `DerivedQuantities.compute` calls `quantity.compute`
(festim/exports/derived_quantities/derived_quantities.py:130-133). -/
inductive QKind where
  /-- `MaximumVolume`, `MinimumVolume`: called with the volume markers -/
  | volumeExtremum
  /-- `MaximumSurface`, `MinimumSurface`: their `compute` has a required parameter
  (maximum_surface.py:46, minimum_surface.py) but is called without argument -/
  | surfaceExtremum
  | plain
  deriving DecidableEq, Repr

/-- A `DerivedQuantity` object (festim/exports/derived_quantities/derived_quantity.py:30-45). -/
structure Quantity (σ : Type) where
  title : String
  kind : QKind
  /-- the number computed from the fields when the call has the right arguments -/
  eval : σ → ℚ
  data : List ℚ := []
  t : List ℚ := []

/-- The call `quantity.compute(...)` (derived_quantities.py:130-133). -/
def Quantity.compute {σ : Type} (q : Quantity σ) (s : σ) : Except PyErr ℚ :=
  match q.kind with
  | .surfaceExtremum => .error (.typeError "compute() missing 1 required positional argument")
  | _ => .ok (q.eval s)

/-- A cell of the csv table (derived_quantities.py:128-142). -/
inductive Cell where
  | text (s : String)
  | num (q : ℚ)
  deriving DecidableEq, Repr

/-- `DerivedQuantities` (festim/exports/derived_quantities/derived_quantities.py:41-63). -/
structure DQ (σ : Type) where
  quantities : List (Quantity σ)
  filename : Option String := none
  betweenCompute : ℕ := 1
  betweenExports : Option ℕ := none
  data : List (List Cell) := []
  t : List ℚ := []
  /-- last content saved to `filename` -/
  file : Option (List (List Cell)) := none

/-- `make_header` (derived_quantities.py:100-105). -/
def DQ.makeHeader {σ : Type} (qs : List (Quantity σ)) : List Cell :=
  .text "t(s)" :: qs.map fun q => .text q.title

/-- The loop of `DerivedQuantities.compute` (derived_quantities.py:129-141): new quantities, new
table, values of the row.  `hdr` is `self.make_header()`. -/
def DQ.computeLoop {σ : Type} (hdr : List Cell) (s : σ) (t : ℚ) :
    List (Quantity σ) → List (List Cell) → Except PyErr (List (Quantity σ) × List (List Cell) × List Cell)
  | [], data => .ok ([], data, [])
  | q :: qs, data =>
    match q.compute s with
    | .error e => .error e
    | .ok v =>
      match DQ.computeLoop hdr s t qs (if data.length = 0 then [hdr] else data) with
      | .error e => .error e
      | .ok (qs', data', row) =>
        .ok ({ q with data := q.data ++ [v], t := q.t ++ [t] } :: qs', data', .num v :: row)

/-- `DerivedQuantities.compute` (derived_quantities.py:127-143). -/
def DQ.compute {σ : Type} (d : DQ σ) (s : σ) (t : ℚ) : Except PyErr (DQ σ) :=
  match DQ.computeLoop (DQ.makeHeader d.quantities) s t d.quantities d.data with
  | .error e => .error e
  | .ok (qs, data, row) =>
    .ok { d with quantities := qs, data := data ++ [.num t :: row], t := d.t ++ [t] }

/-- `DerivedQuantities.write` (derived_quantities.py:145-155). -/
def DQ.save {σ : Type} (d : DQ σ) : Except PyErr (DQ σ) :=
  match d.filename with
  | none => .ok d
  | some f =>
    match ensureDir f with
    | .error e => .error e
    | .ok () => .ok { d with file := some d.data }

/-- `is_export` (derived_quantities.py:157-180). -/
def DQ.isExport {σ : Type} (d : DQ σ) (t : ℚ) (final : Option ℚ) (nb : ℕ) : Except PyErr Bool :=
  match final with
  | none => .ok true
  | some f =>
    match d.betweenExports with
    | none => .ok (isclose t f)
    | some n => everyN nb n

/-- `is_compute` (derived_quantities.py:182-192). -/
def DQ.isCompute {σ : Type} (d : DQ σ) (nb : ℕ) : Except PyErr Bool := everyN nb d.betweenCompute

/-- The compute half of the `DerivedQuantities` branch of `Exports.write`
(festim/exports/exports.py:56-77). -/
def DQ.maybeCompute {σ : Type} (d : DQ σ) (s : σ) (t : ℚ) (nb : ℕ) : Except PyErr (DQ σ) :=
  match d.isCompute nb with
  | .error e => .error e
  | .ok false => .ok d
  | .ok true => d.compute s t

/-- The export half of the `DerivedQuantities` branch (festim/exports/exports.py:79-80). -/
def DQ.maybeSave {σ : Type} (d : DQ σ) (t : ℚ) (final : Option ℚ) (nb : ℕ) :
    Except PyErr (DQ σ) :=
  match d.isExport t final nb with
  | .error e => .error e
  | .ok false => .ok d
  | .ok true => d.save

/-- The `DerivedQuantities` branch of `Exports.write` (festim/exports/exports.py:54-80). -/
def DQ.write {σ : Type} (d : DQ σ) (s : σ) (t : ℚ) (final : Option ℚ) (nb : ℕ) :
    Except PyErr (DQ σ) :=
  match d.maybeCompute s t nb with
  | .error e => .error e
  | .ok d => d.maybeSave t final nb

/-- Reset at `Simulation.initialise` (festim/exports/exports.py:117-123). -/
def DQ.reset {σ : Type} (d : DQ σ) : DQ σ :=
  { d with data := [], t := [], quantities := d.quantities.map fun q => { q with t := [], data := [] } }

/-! ## TXT -/

/-- Label of a column (txt_export.py:209-213). -/
inductive TLabel where
  | steady
  | time (t : ℚ)
  deriving DecidableEq, Repr

/-- Content of a txt file: the labels after `x`, and the rows (txt_export.py:225-231). -/
structure TFile where
  header : List TLabel
  rows : List (List ℚ)
  deriving DecidableEq, Repr

/-- `TXTExport` (festim/exports/txt_export.py:41-63).  `sol` is
`f.project(self.function, self.V).vector()[:]`. -/
structure TXT (σ : Type) where
  times : Option (List ℚ)
  filename : Option String
  filter : Bool := true
  writeAtLast : Bool := false
  /-- projection of the exported field to the degrees of freedom of `self.V` -/
  sol : σ → List ℚ
  indices : List ℕ := []
  header : List TLabel := []
  rows : List (List ℚ) := []
  file : Option TFile := none

/-- `times` as stored by `__init__` (txt_export.py:51-54). -/
def TXT.setTimes : Option (List ℚ) → Option (List ℚ)
  | none => none
  | some [] => some []
  | some l => some (pySorted l)

/-- `is_it_time_to_export` (txt_export.py:78-95). -/
def TXT.isTime {σ : Type} (x : TXT σ) (t : ℚ) : Bool :=
  match x.times with
  | none => true
  | some l => l.any fun time => isclose time t

/-- `is_last` (txt_export.py:97-123).  `[][-1]` raises an `IndexError`. -/
def TXT.isLast {σ : Type} (x : TXT σ) (t : ℚ) (final : Option ℚ) : Except PyErr Bool :=
  match final with
  | none => .ok true
  | some f =>
    match x.times with
    | none => .ok (isclose t f)
    | some l =>
      match l.getLast? with
      | none => .error (.indexError "list index out of range")
      | some m => .ok (isclose t m)

/-- `solution_column[self._unique_indices]` (txt_export.py:217). -/
def gather (col : List ℚ) : List ℕ → Except PyErr (List ℚ)
  | [] => .ok []
  | i :: is =>
    match col[i]?, gather col is with
    | none, _ => .error (.indexError "index out of bounds")
    | some _, .error e => .error e
    | some v, .ok vs => .ok (v :: vs)

/-- `np.column_stack([data, column])` (txt_export.py:216-218). -/
def columnStack (rows : List (List ℚ)) (col : List ℚ) : Except PyErr (List (List ℚ)) :=
  if rows.length = col.length then .ok (List.zipWith (fun r v => r ++ [v]) rows col)
  else .error (.valueError "all the input array dimensions except for the concatenation axis must match exactly")

/-- Appending a column to the header and the data (txt_export.py:198-218). -/
def TXT.addColumn {σ : Type} (x : TXT σ) (s : σ) (t : ℚ) (final : Option ℚ) :
    Except PyErr (TXT σ) :=
  match x.filename with
  | none => .error (.typeError "expected str, bytes or os.PathLike object, not NoneType")
  | some f =>
    match ensureDir f with
    | .error e => .error e
    | .ok () =>
      match gather (x.sol s) x.indices with
      | .error e => .error e
      | .ok col =>
        match columnStack x.rows col with
        | .error e => .error e
        | .ok rows =>
          .ok { x with rows := rows,
                       header := x.header ++ [if final.isNone then .steady else .time t] }

/-- `np.savetxt` under its condition (txt_export.py:220-231). -/
def TXT.maybeSave {σ : Type} (x : TXT σ) (t : ℚ) (final : Option ℚ) : Except PyErr (TXT σ) :=
  if x.writeAtLast then
    match x.isLast t final with
    | .error e => .error e
    | .ok b => .ok (if b then { x with file := some ⟨x.header, x.rows⟩ } else x)
  else .ok { x with file := some ⟨x.header, x.rows⟩ }

/-- `TXTExport.write` (txt_export.py:187-231). -/
def TXT.write {σ : Type} (x : TXT σ) (s : σ) (t : ℚ) (final : Option ℚ) : Except PyErr (TXT σ) :=
  if x.isTime t then
    match x.addColumn s t final with
    | .error e => .error e
    | .ok x => x.maybeSave t final
  else .ok x

/-- First index of the minimum of a list (`argmin`) (txt_export.py:164). -/
def argmin : List ℚ → ℕ
  | [] => 0
  | [_] => 0
  | a :: b :: l =>
    let k := argmin (b :: l)
    if a ≤ (b :: l).getD k 0 then 0 else k + 1

/-- Indices of all degrees of freedom at the coordinate closest to each border
(txt_export.py:161-167). -/
def borderIndices (xs borders : List ℚ) : List ℕ :=
  borders.flatMap fun b =>
    let cx := xs.getD (argmin (xs.map fun x => |x - b|)) 0
    (List.range xs.length).filter fun i => decide (xs.getD i 0 = cx)

/-- `np.unique(x_column, return_index=True)[1]`: first occurrences (txt_export.py:170), as a set. -/
def isFirstOccurrence (xs : List ℚ) (i : ℕ) : Bool :=
  (List.range i).all fun j => decide (xs.getD j 0 ≠ xs.getD i 0)

/-- `_unique_indices` (txt_export.py:150-182).  `order` is the result of `np.argsort`, whose order
among equal coordinates is unspecified. -/
def uniqueIndices (projectToDG filter : Bool) (xs borders : List ℚ) (order : List ℕ) : List ℕ :=
  if projectToDG && filter then
    order.filter fun i => isFirstOccurrence xs i || decide (i ∈ borderIndices xs borders)
  else order

/-- `TXTExport.initialise` (txt_export.py:125-185). -/
def TXT.initialise {σ : Type} (x : TXT σ) (projectToDG : Bool) (xs borders : List ℚ)
    (order : List ℕ) : TXT σ :=
  let idx := uniqueIndices projectToDG x.filter xs borders order
  { x with indices := idx, rows := idx.map fun i => [xs.getD i 0], header := [] }

/-- TXT times become milestones (festim/generic_simulation.py:430-441). -/
def addMilestones (ms : Option (List ℚ)) (times : Option (List ℚ)) : Option (List ℚ) :=
  match times with
  | none => ms
  | some [] => ms
  | some ts =>
    some (pySorted (ts.foldl (fun acc t => if t ∈ acc then acc else acc ++ [t]) (ms.getD [])))

/-! ## The list of exports -/

/-- An element of `festim.Exports` (exports.py:39-44). -/
inductive Export (σ : Type) where
  | dq (d : DQ σ)
  | xdmf (x : XDMF σ)
  | txt (x : TXT σ)
  /-- a derived quantity that is not in a `DerivedQuantities`: it is a `festim.Export`, so
  `Exports._validate_export` (exports.py:39-44) accepts it -/
  | bare (q : Quantity σ)

/-- `festim.Exports` (festim/exports/exports.py:10-22). -/
structure Exports (σ : Type) where
  items : List (Export σ)
  finalTime : Option ℚ := none
  nb : ℕ := 0

/-- One iteration of the loop of `Exports.write` (exports.py:53-104). -/
def Export.write {σ : Type} (e : Export σ) (s : σ) (t : ℚ) (final : Option ℚ) (nb : ℕ) :
    Except PyErr (Export σ) :=
  match e with
  | .dq d => (d.write s t final nb).map .dq
  | .xdmf x => (x.write s t final nb).map .xdmf
  | .txt x => (x.write s t final).map .txt
  -- none of the three branches applies
  | .bare q => .ok (.bare q)

/-- The loop of `Exports.write` (exports.py:53-104). -/
def Exports.writeItems {σ : Type} (s : σ) (t : ℚ) (final : Option ℚ) (nb : ℕ) :
    List (Export σ) → Except PyErr (List (Export σ))
  | [] => .ok []
  | e :: es =>
    match e.write s t final nb with
    | .error err => .error err
    | .ok e' =>
      match Exports.writeItems s t final nb es with
      | .error err => .error err
      | .ok es' => .ok (e' :: es')

/-- `Exports.write` (festim/exports/exports.py:46-105). -/
def Exports.write {σ : Type} (x : Exports σ) (s : σ) (t : ℚ) : Except PyErr (Exports σ) :=
  match Exports.writeItems s t x.finalTime x.nb x.items with
  | .error e => .error e
  | .ok items => .ok { x with items := items, nb := x.nb + 1 }

/-- The calls of `run_post_processing` for a list of accepted steps
(festim/generic_simulation.py:480-483, 539-547). -/
def Exports.writeAll {σ : Type} (x : Exports σ) : List (σ × ℚ) → Except PyErr (Exports σ)
  | [] => .ok x
  | p :: ps =>
    match x.write p.1 p.2 with
    | .error e => .error e
    | .ok x' => x'.writeAll ps

/-- What `Simulation.initialise` does to one export (festim/generic_simulation.py:417-428,
festim/exports/exports.py:116-125). `xs`, `borders`, `order`: see `TXT.initialise`. -/
def Export.initialise {σ : Type} (projectToDG : Bool) (xs borders : List ℚ) (order : List ℕ) :
    Export σ → Export σ
  | .dq d => .dq d.reset
  | .xdmf x => .xdmf x
  | .txt x => .txt (x.initialise projectToDG xs borders order)
  | .bare q => .bare q

/-- What `Simulation.initialise` and the beginning of `run_transient`
(generic_simulation.py:471-472) do to the exports. -/
def Exports.initialise {σ : Type} (x : Exports σ) (final : Option ℚ) (projectToDG : Bool)
    (xs borders : List ℚ) (order : List ℕ) : Exports σ :=
  { x with items := x.items.map (Export.initialise projectToDG xs borders order),
           finalTime := if final.isSome then final else x.finalTime }

/-- Milestones of the simulation after all `TXTExport`s were initialised
(festim/generic_simulation.py:388, 417, 430-441). -/
def Exports.milestones {σ : Type} (x : Exports σ) (ms : Option (List ℚ)) : Option (List ℚ) :=
  x.items.foldl (fun acc e => match e with
    | .txt t => addMilestones acc t.times
    | _ => acc) ms

end Festim
