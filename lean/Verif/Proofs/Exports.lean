import Verif.Spec.Exports
import Verif.Proofs.Run

/-! # Lemmas about exports -/

namespace Festim

open Spec

variable {σ : Type}

/-- Fold of a write function over accepted steps. -/
def runOn {α : Type} (f : α → σ → ℚ → ℕ → Except PyErr α) : ℕ → α → List (σ × ℚ) → Except PyErr α
  | _, a, [] => .ok a
  | nb, a, p :: ps =>
    match f a p.1 p.2 nb with
    | .error e => .error e
    | .ok a' => runOn f (nb + 1) a' ps

theorem runOn_cons_ok {α : Type} {f : α → σ → ℚ → ℕ → Except PyErr α} {nb : ℕ} {a b : α}
    {p : σ × ℚ} {ps : List (σ × ℚ)} :
    runOn f nb a (p :: ps) = .ok b ↔ ∃ c, f a p.1 p.2 nb = .ok c ∧ runOn f (nb + 1) c ps = .ok b := by
  simp only [runOn]
  cases f a p.1 p.2 nb <;> simp

theorem runOn_append_ok {α : Type} {f : α → σ → ℚ → ℕ → Except PyErr α} {nb : ℕ} {a b : α}
    {l l' : List (σ × ℚ)} :
    runOn f nb a (l ++ l') = .ok b ↔
      ∃ c, runOn f nb a l = .ok c ∧ runOn f (nb + l.length) c l' = .ok b := by
  induction l generalizing nb a with
  | nil => simp [runOn]
  | cons p l ih =>
    simp only [List.cons_append, runOn_cons_ok, ih, List.length_cons]
    constructor
    · rintro ⟨c, h1, d, h2, h3⟩
      exact ⟨d, ⟨c, h1, h2⟩, by rwa [show nb + (l.length + 1) = nb + 1 + l.length by omega]⟩
    · rintro ⟨d, ⟨c, h1, h2⟩, h3⟩
      exact ⟨c, h1, d, h2, by rwa [show nb + 1 + l.length = nb + (l.length + 1) by omega]⟩

theorem writeItems_get {s : σ} {t : ℚ} {final : Option ℚ} {nb : ℕ} {es es' : List (Export σ)}
    (h : Exports.writeItems s t final nb es = .ok es') (i : ℕ) (e : Export σ) (he : es[i]? = some e) :
    ∃ e', es'[i]? = some e' ∧ e.write s t final nb = .ok e' := by
  induction es generalizing es' i with
  | nil => simp at he
  | cons a es ih =>
    simp only [Exports.writeItems] at h
    split at h
    · cases h
    · rename_i e' he'
      split at h
      · cases h
      · rename_i es2 hes2
        cases h
        cases i with
        | zero => simp at he; subst he; exact ⟨e', by simp, he'⟩
        | succ i => simpa using ih hes2 i (by simpa using he)

theorem writeAll_get {ex ex' : Exports σ} {steps : List (σ × ℚ)}
    (h : ex.writeAll steps = .ok ex') (i : ℕ) (e : Export σ) (he : ex.items[i]? = some e) :
    ∃ e', ex'.items[i]? = some e' ∧
      runOn (fun e s t nb => Export.write e s t ex.finalTime nb) ex.nb e steps = .ok e' := by
  induction steps generalizing ex e with
  | nil => cases h; exact ⟨e, he, rfl⟩
  | cons p ps ih =>
    simp only [Exports.writeAll] at h
    split at h
    · cases h
    · rename_i x' hx'
      simp only [Exports.write] at hx'
      split at hx'
      · cases hx'
      · rename_i items hitems
        cases hx'
        obtain ⟨e1, h1, h2⟩ := writeItems_get hitems i e he
        obtain ⟨e2, h3, h4⟩ := ih h e1 h1
        exact ⟨e2, h3, runOn_cons_ok.2 ⟨e1, h2, h4⟩⟩

theorem writeAll_nb {ex ex' : Exports σ} {steps : List (σ × ℚ)}
    (h : ex.writeAll steps = .ok ex') : ex'.nb = ex.nb + steps.length ∧ ex'.finalTime = ex.finalTime := by
  induction steps generalizing ex with
  | nil => cases h; simp
  | cons p ps ih =>
    simp only [Exports.writeAll] at h
    split at h
    · cases h
    · rename_i x' hx'
      simp only [Exports.write] at hx'
      split at hx'
      · cases hx'
      · cases hx'
        obtain ⟨h1, h2⟩ := ih h
        refine ⟨?_, h2⟩
        rw [h1]; simp only [List.length_cons]; omega

/-- Transfer of a fold through a constructor. -/
theorem runOn_map {α β : Type} {f : α → σ → ℚ → ℕ → Except PyErr α}
    {g : β → σ → ℚ → ℕ → Except PyErr β} (c : α → β)
    (hg : ∀ a s t nb, g (c a) s t nb = (f a s t nb).map c) {nb : ℕ} {a : α} {b : β}
    {steps : List (σ × ℚ)} (h : runOn g nb (c a) steps = .ok b) :
    ∃ a', b = c a' ∧ runOn f nb a steps = .ok a' := by
  induction steps generalizing nb a with
  | nil => cases h; exact ⟨a, rfl, rfl⟩
  | cons p ps ih =>
    obtain ⟨d, h1, h2⟩ := runOn_cons_ok.1 h
    rw [hg] at h1
    cases hf : f a p.1 p.2 nb with
    | error e => rw [hf] at h1; cases h1
    | ok a1 =>
      rw [hf] at h1; cases h1
      obtain ⟨a2, h3, h4⟩ := ih h2
      exact ⟨a2, h3, runOn_cons_ok.2 ⟨a1, hf, h4⟩⟩

theorem writeAll_xdmf {ex ex' : Exports σ} {steps : List (σ × ℚ)}
    (h : ex.writeAll steps = .ok ex') {i : ℕ} {x : XDMF σ} (he : ex.items[i]? = some (.xdmf x)) :
    ∃ x', ex'.items[i]? = some (.xdmf x') ∧
      runOn (fun x s t nb => XDMF.write x s t ex.finalTime nb) ex.nb x steps = .ok x' := by
  obtain ⟨e', h1, h2⟩ := writeAll_get h i _ he
  obtain ⟨a, rfl, h3⟩ := runOn_map (f := fun x s t nb => XDMF.write x s t ex.finalTime nb)
    Export.xdmf (by intros; rfl) h2
  exact ⟨a, h1, h3⟩

theorem writeAll_dq {ex ex' : Exports σ} {steps : List (σ × ℚ)}
    (h : ex.writeAll steps = .ok ex') {i : ℕ} {x : DQ σ} (he : ex.items[i]? = some (.dq x)) :
    ∃ x', ex'.items[i]? = some (.dq x') ∧
      runOn (fun x s t nb => DQ.write x s t ex.finalTime nb) ex.nb x steps = .ok x' := by
  obtain ⟨e', h1, h2⟩ := writeAll_get h i _ he
  obtain ⟨a, rfl, h3⟩ := runOn_map (f := fun x s t nb => DQ.write x s t ex.finalTime nb)
    Export.dq (by intros; rfl) h2
  exact ⟨a, h1, h3⟩

theorem writeAll_txt {ex ex' : Exports σ} {steps : List (σ × ℚ)}
    (h : ex.writeAll steps = .ok ex') {i : ℕ} {x : TXT σ} (he : ex.items[i]? = some (.txt x)) :
    ∃ x', ex'.items[i]? = some (.txt x') ∧
      runOn (fun x s t _ => TXT.write x s t ex.finalTime) ex.nb x steps = .ok x' := by
  obtain ⟨e', h1, h2⟩ := writeAll_get h i _ he
  obtain ⟨a, rfl, h3⟩ := runOn_map (f := fun x s t _ => TXT.write x s t ex.finalTime)
    Export.txt (by intros; rfl) h2
  exact ⟨a, h1, h3⟩

theorem atMultiples_cons {α : Type} (n k : ℕ) (a : α) (l : List α) :
    atMultiples n k (a :: l) = (if k % n = 0 then [a] else []) ++ atMultiples n (k + 1) l := by
  unfold atMultiples
  simp only [List.zipIdx_cons, List.filter_cons]
  split <;> rename_i h <;> simp at h <;> simp [h]

theorem atMultiples_append {α : Type} (n k : ℕ) (l l' : List α) :
    atMultiples n k (l ++ l') = atMultiples n k l ++ atMultiples n (k + l.length) l' := by
  unfold atMultiples
  simp [List.zipIdx_append]

theorem atMultiples_nil {α : Type} (n k : ℕ) : atMultiples n k ([] : List α) = [] := rfl

theorem everyN_ok {nb n : ℕ} {b : Bool} (h : everyN nb n = .ok b) : b = decide (nb % n = 0) := by
  unfold everyN at h; split at h <;> cases h; rfl

theorem isclose_true {a b : ℚ} : isclose a b = true ↔ Near a b := by simp [isclose, Near]

/-! ## XDMF -/

/-- Flags of `k` records written from state `a`. -/
def appendFlags (a : Bool) : ℕ → List Bool
  | 0 => []
  | k + 1 => a :: List.replicate k true

theorem appendFlags_true (k : ℕ) : appendFlags true k = List.replicate k true := by
  cases k <;> simp [appendFlags, List.replicate_succ]

theorem xdmf_fold {final : Option ℚ} {nb : ℕ} {x x' : XDMF σ} {steps : List (σ × ℚ)}
    (sel : List (σ × ℚ) → ℕ → List (σ × ℚ)) (hnil : ∀ k, sel [] k = [])
    (hsel : ∀ p l k, ∀ b, XDMF.isExport x p.2 final k = .ok b →
      sel (p :: l) k = (if b then [p] else []) ++ sel l (k + 1))
    (h : runOn (fun x s t nb => XDMF.write x s t final nb) nb x steps = .ok x') :
    x'.mode = x.mode ∧
    x'.records.map (fun r => (r.field, r.t)) =
      x.records.map (fun r => (r.field, r.t)) ++ sel steps nb ∧
    x'.records.map (·.append) =
      x.records.map (·.append) ++ appendFlags x.append (sel steps nb).length := by
  induction steps generalizing nb x with
  | nil => cases h; simp [hnil, appendFlags]
  | cons p l ih =>
    obtain ⟨x1, h1, h2⟩ := runOn_cons_ok.1 h
    simp only [XDMF.write] at h1
    cases hx : x.isExport p.2 final nb with
    | error e => rw [hx] at h1; cases h1
    | ok b =>
      rw [hx] at h1
      have hs := hsel p l nb b hx
      cases b with
      | false =>
        cases h1
        have := ih hsel h2
        simpa [hs] using this
      | true =>
        cases h1
        obtain ⟨i1, i2, i3⟩ := (fun a b => ih b a) h2 (fun p l k b hb => hsel p l k b hb)
        refine ⟨i1, ?_, ?_⟩
        · rw [i2, hs]; simp
        · rw [i3, hs]; simp only [appendFlags_true]; simp [appendFlags]

/-! ## Derived quantities -/

theorem computeLoop_ok {hdr : List Cell} {s : σ} {t : ℚ} {qs qs' : List (Quantity σ)}
    {data data' : List (List Cell)} {row : List Cell}
    (h : DQ.computeLoop hdr s t qs data = .ok (qs', data', row)) :
    qs' = qs.map (fun q => { q with data := q.data ++ [q.eval s], t := q.t ++ [t] }) ∧
    data' = (if qs = [] then data else if data = [] then [hdr] else data) ∧
    row = qs.map (fun q => .num (q.eval s)) ∧ ∀ q ∈ qs, q.kind ≠ .surfaceExtremum := by
  induction qs generalizing data qs' data' row with
  | nil => simp only [DQ.computeLoop] at h; cases h; simp
  | cons q qs ih =>
    simp only [DQ.computeLoop] at h
    cases hq : q.compute s with
    | error e => rw [hq] at h; cases h
    | ok v =>
      rw [hq] at h
      simp only at h
      have hk : q.kind ≠ .surfaceExtremum ∧ v = q.eval s := by
        unfold Quantity.compute at hq
        split at hq
        · cases hq
        · cases hq; rename_i hk; exact ⟨hk, rfl⟩
      cases hl : DQ.computeLoop hdr s t qs (if data.length = 0 then [hdr] else data) with
      | error e => rw [hl] at h; cases h
      | ok r =>
        obtain ⟨a, b, c⟩ := r
        rw [hl] at h
        cases h
        obtain ⟨h1, h2, h3, h4⟩ := ih hl
        obtain ⟨hk, rfl⟩ := hk
        refine ⟨by simp [h1], ?_, by simp [h3], by simpa [hk] using h4⟩
        rw [h2]
        by_cases hd : data = []
        · subst hd; simp
        · simp [hd]

/-- State of a `DerivedQuantities` object `d` that started as `d₀` (fresh) and computed `cs`. -/
structure DQInv (d₀ : DQ σ) (cs : List (σ × ℚ)) (d : DQ σ) : Prop where
  filename : d.filename = d₀.filename
  bc : d.betweenCompute = d₀.betweenCompute
  be : d.betweenExports = d₀.betweenExports
  t : d.t = cs.map (·.2)
  quantities : d.quantities = d₀.quantities.map fun q =>
    { q with data := cs.map (fun p => q.eval p.1), t := cs.map (·.2) }
  data : d.data = csvTable (d₀.quantities.map (·.title)) (d₀.quantities.map (·.eval)) cs
  kinds : cs ≠ [] → ∀ q ∈ d₀.quantities, q.kind ≠ .surfaceExtremum

theorem DQInv.fresh {d : DQ σ} (h : Fresh d) : DQInv d [] d := by
  obtain ⟨h1, h2, h3⟩ := h
  refine ⟨rfl, rfl, rfl, by simpa using h2, ?_, by simp [csvTable, h1], by simp⟩
  conv_lhs => rw [← List.map_id d.quantities]
  apply List.map_congr_left
  intro q hq
  obtain ⟨a, b⟩ := h3 q hq
  cases q; simp at a b ⊢; exact ⟨a, b⟩

theorem DQInv.compute {d₀ d d' : DQ σ} {cs : List (σ × ℚ)} {p : σ × ℚ} (hne : d₀.quantities ≠ [])
    (h : DQInv d₀ cs d) (hc : d.compute p.1 p.2 = .ok d') :
    DQInv d₀ (cs ++ [p]) d' ∧ d'.file = d.file := by
  unfold DQ.compute at hc
  cases hl : DQ.computeLoop (DQ.makeHeader d.quantities) p.1 p.2 d.quantities d.data with
  | error e => rw [hl] at hc; cases hc
  | ok r =>
    obtain ⟨qs, data, row⟩ := r
    rw [hl] at hc
    cases hc
    obtain ⟨h1, h2, h3, h4⟩ := computeLoop_ok hl
    have hq := h.quantities
    refine ⟨⟨h.filename, h.bc, h.be, by simp [h.t], ?_, ?_, ?_⟩, rfl⟩
    · simp [h1, hq, Function.comp_def]
    · have hne' : d.quantities ≠ [] := by simpa [hq] using hne
      simp only [hne', if_false] at h2
      simp only [h2, h3, csvTable]
      by_cases hcs : cs = []
      · subst hcs
        have : d.data = [] := by simp [h.data, csvTable]
        simp [this, DQ.makeHeader, hq, csvRow, Function.comp_def]
      · have hd : d.data ≠ [] := by simp [h.data, csvTable, hcs]
        simp [h.data, csvTable, hcs, csvRow, hq, Function.comp_def]
    · intro _ q hq'
      have : ({ q with data := cs.map (fun p => q.eval p.1), t := cs.map (·.2) } : Quantity σ)
          ∈ d.quantities := by rw [hq]; exact List.mem_map_of_mem hq'
      have h5 := h4 _ this
      exact h5

theorem DQInv.write {d₀ d d' : DQ σ} {cs : List (σ × ℚ)} {p : σ × ℚ} {final : Option ℚ} {nb : ℕ}
    (hne : d₀.quantities ≠ []) (h : DQInv d₀ cs d) (hw : d.write p.1 p.2 final nb = .ok d') :
    DQInv d₀ (cs ++ if nb % d₀.betweenCompute = 0 then [p] else []) d' ∧
    (d₀.filename = none → d'.file = d.file) ∧
    (¬ CsvDue d₀ final p.2 nb → d'.file = d.file) ∧
    (∀ f, d₀.filename = some f → CsvDue d₀ final p.2 nb →
      d'.file = some d'.data ∧ '/' ∈ f.toList) := by
  unfold DQ.write at hw
  cases hm : d.maybeCompute p.1 p.2 nb with
  | error e => rw [hm] at hw; cases hw
  | ok d1 =>
    rw [hm] at hw
    simp only at hw
    have h1 : DQInv d₀ (cs ++ if nb % d₀.betweenCompute = 0 then [p] else []) d1 ∧ d1.file = d.file := by
      unfold DQ.maybeCompute at hm
      cases hc : d.isCompute nb with
      | error e => rw [hc] at hm; cases hm
      | ok b =>
        rw [hc] at hm
        have hb := everyN_ok (by simpa [DQ.isCompute] using hc)
        rw [h.bc] at hb
        cases b with
        | false =>
          cases hm
          have : ¬ nb % d₀.betweenCompute = 0 := by simpa using hb.symm
          simp [this, h]
        | true =>
          have : nb % d₀.betweenCompute = 0 := by simpa using hb.symm
          simpa [this] using h.compute hne hm
    obtain ⟨i1, i2⟩ := h1
    unfold DQ.maybeSave at hw
    cases he : d1.isExport p.2 final nb with
    | error e => rw [he] at hw; cases hw
    | ok b =>
      rw [he] at hw
      have hdue : CsvDue d₀ final p.2 nb ↔ b = true := by
        unfold DQ.isExport at he
        unfold CsvDue
        rw [i1.be] at he
        cases final with
        | none => simp at he; simp [he]
        | some f =>
          cases hbe : d₀.betweenExports with
          | none => rw [hbe] at he; simp at he; simp [← he, isclose_true]
          | some n => rw [hbe] at he; simp only at he; simp [everyN_ok he]
      cases b with
      | false =>
        cases hw
        refine ⟨i1, fun _ => i2, fun _ => i2, fun f _ hd => ?_⟩
        simp [hdue] at hd
      | true =>
        simp only at hw
        unfold DQ.save at hw
        rw [i1.filename] at hw
        cases hf : d₀.filename with
        | none =>
          rw [hf] at hw; cases hw
          refine ⟨i1, fun _ => i2, fun _ => i2, by simp⟩
        | some f =>
          rw [hf] at hw
          simp only [ensureDir] at hw
          split at hw
          · cases hw
          · rename_i hen
            split at hen
            · rename_i hsl
              cases hw
              refine ⟨⟨?_, i1.bc, i1.be, i1.t, i1.quantities, i1.data, i1.kinds⟩, by simp, ?_, ?_⟩
              · exact hf.symm
              · intro hd; exact absurd (hdue.2 rfl) hd
              · rintro g hg -
                refine ⟨rfl, ?_⟩
                cases hg; exact hsl
            · cases hen

theorem dq_fold {d₀ d d' : DQ σ} {cs steps : List (σ × ℚ)} {final : Option ℚ} {nb : ℕ}
    (hne : d₀.quantities ≠ []) (h : DQInv d₀ cs d)
    (hw : runOn (fun x s t nb => DQ.write x s t final nb) nb d steps = .ok d') :
    DQInv d₀ (cs ++ atMultiples d₀.betweenCompute nb steps) d' := by
  induction steps generalizing nb d cs with
  | nil => cases hw; simpa [atMultiples_nil] using h
  | cons p ps ih =>
    obtain ⟨d1, h1, h2⟩ := runOn_cons_ok.1 hw
    have := ih (h.write hne h1).1 h2
    rw [List.append_assoc] at this
    rwa [atMultiples_cons]

theorem dq_fold_file_eq {d₀ d d' : DQ σ} {cs steps : List (σ × ℚ)} {final : Option ℚ} {nb : ℕ}
    (hne : d₀.quantities ≠ []) (h : DQInv d₀ cs d)
    (hw : runOn (fun x s t nb => DQ.write x s t final nb) nb d steps = .ok d')
    (hno : d₀.filename = none ∨
      ∀ k, ∀ hk : k < steps.length, ¬ CsvDue d₀ final steps[k].2 (nb + k)) :
    d'.file = d.file := by
  induction steps generalizing nb d cs with
  | nil => cases hw; rfl
  | cons p ps ih =>
    obtain ⟨d1, h1, h2⟩ := runOn_cons_ok.1 hw
    obtain ⟨i1, i2, i3, i4⟩ := h.write hne h1
    have e1 : d1.file = d.file := by
      rcases hno with hf | hno
      · exact i2 hf
      · exact i3 (by have := hno 0 (by simp); simpa only [List.getElem_cons_zero, Nat.add_zero] using this)
    rw [← e1]
    refine ih i1 h2 ?_
    rcases hno with hf | hno
    · exact .inl hf
    · right
      intro k hk
      have := hno (k + 1) (by simpa using hk)
      rw [show nb + 1 + k = nb + (k + 1) by omega]
      simpa using this

/-! ## TXT -/

theorem gather_ok {col : List ℚ} {idx : List ℕ} {v : List ℚ} (h : gather col idx = .ok v) :
    v = idx.map (fun i => col.getD i 0) ∧ ∀ i ∈ idx, i < col.length := by
  induction idx generalizing v with
  | nil => cases h; simp
  | cons i is ih =>
    simp only [gather] at h
    split at h
    · cases h
    · cases h
    · rename_i a b h1 h2
      cases h
      obtain ⟨i1, i2⟩ := ih h2
      have hlt : i < col.length := by
        by_contra hc; rw [List.getElem?_eq_none (by omega)] at h1; cases h1
      refine ⟨?_, by simpa [hlt] using i2⟩
      simp [i1, List.getD_eq_getElem?_getD, h1]

theorem zipWith_map_snoc {α : Type} (f : α → List ℚ) (g : α → ℚ) (l : List α) :
    List.zipWith (fun r v => r ++ [v]) (l.map f) (l.map g) = l.map fun a => f a ++ [g a] := by
  induction l with
  | nil => rfl
  | cons a l ih => simp [ih]

/-- State of a `TXTExport` after the columns `es` were added. -/
structure TXTInv (x₀ : TXT σ) (final : Option ℚ) (xs : List ℚ) (es : List (σ × ℚ)) (x : TXT σ) :
    Prop where
  filename : x.filename = x₀.filename
  times : x.times = x₀.times
  wal : x.writeAtLast = x₀.writeAtLast
  sol : x.sol = x₀.sol
  indices : x.indices = x₀.indices
  header : x.header = txtHeader final es
  rows : x.rows = txtRows x₀.sol xs x₀.indices es

theorem isTime_iff {x : TXT σ} {t : ℚ} : x.isTime t = true ↔ TxtDue x.times t := by
  unfold TXT.isTime TxtDue
  cases x.times with
  | none => simp
  | some l => simp [isclose]

theorem isLast_iff {x : TXT σ} {t : ℚ} {final : Option ℚ} {b : Bool}
    (h : x.isLast t final = .ok b) : b = true ↔ TxtLastDue x.times final t := by
  unfold TXT.isLast at h
  unfold TxtLastDue
  cases final with
  | none => simp at h; simp [h]
  | some f =>
    simp only at h ⊢
    cases ht : x.times with
    | none => rw [ht] at h; cases h; simp [isclose_true]
    | some l =>
      rw [ht] at h
      simp only at h ⊢
      cases hl : l.getLast? with
      | none => rw [hl] at h; cases h
      | some m => rw [hl] at h; cases h; simp [isclose_true]

theorem TXTInv.addColumn {x₀ x x' : TXT σ} {final : Option ℚ} {xs : List ℚ} {es : List (σ × ℚ)}
    {p : σ × ℚ} (h : TXTInv x₀ final xs es x) (hw : x.addColumn p.1 p.2 final = .ok x') :
    TXTInv x₀ final xs (es ++ [p]) x' ∧ x'.file = x.file ∧
      ∃ f, x₀.filename = some f ∧ '/' ∈ f.toList := by
  unfold TXT.addColumn at hw
  rw [h.filename] at hw
  cases hf : x₀.filename with
  | none => rw [hf] at hw; cases hw
  | some f =>
    rw [hf] at hw
    simp only [ensureDir] at hw
    split at hw
    · cases hw
    · rename_i hen
      split at hen
      · rename_i hsl
        cases hg : gather (x.sol p.1) x.indices with
        | error e => rw [hg] at hw; cases hw
        | ok col =>
          rw [hg] at hw
          simp only [columnStack] at hw
          obtain ⟨hcol, -⟩ := gather_ok hg
          split at hw
          · cases hw
          · rename_i hcs
            split at hcs
            · cases hcs
              cases hw
              refine ⟨⟨hf.symm, h.times, h.wal, h.sol, h.indices, ?_, ?_⟩, rfl, f, rfl, hsl⟩
              · simp [h.header, txtHeader]
              · simp only [h.rows, hcol, h.indices, txtRows, zipWith_map_snoc, h.sol]
                simp
            · cases hcs
      · cases hen

theorem TXTInv.write {x₀ x x' : TXT σ} {final : Option ℚ} {xs : List ℚ} {es : List (σ × ℚ)}
    {p : σ × ℚ} (h : TXTInv x₀ final xs es x) (hw : x.write p.1 p.2 final = .ok x') :
    TXTInv x₀ final xs (es ++ if TxtDue x₀.times p.2 then [p] else []) x' ∧
    (¬ (TxtDue x₀.times p.2 ∧ (x₀.writeAtLast = true → TxtLastDue x₀.times final p.2)) →
      x'.file = x.file) ∧
    (TxtDue x₀.times p.2 → (x₀.writeAtLast = true → TxtLastDue x₀.times final p.2) →
      x'.file = some ⟨x'.header, x'.rows⟩) := by
  unfold TXT.write at hw
  by_cases hd : TxtDue x₀.times p.2
  · have ht : x.isTime p.2 = true := isTime_iff.2 (h.times ▸ hd)
    simp only [ht, if_true] at hw
    cases ha : x.addColumn p.1 p.2 final with
    | error e => rw [ha] at hw; cases hw
    | ok x1 =>
      rw [ha] at hw
      obtain ⟨i1, i2, -⟩ := h.addColumn ha
      simp only [hd, if_true, true_and]
      simp only [TXT.maybeSave, i1.wal] at hw
      cases hwal : x₀.writeAtLast with
      | false =>
        simp only [hwal] at hw
        cases hw
        exact ⟨⟨i1.filename, i1.times, by first | exact i1.wal | exact hwal.symm , i1.sol, i1.indices, i1.header, i1.rows⟩,
          by simp, by simp⟩
      | true =>
        simp only [hwal, if_true] at hw
        cases hl : x1.isLast p.2 final with
        | error e => rw [hl] at hw; cases hw
        | ok b =>
          rw [hl] at hw
          have hb := isLast_iff hl
          rw [i1.times] at hb
          cases hw
          cases b with
          | false =>
            have hb' : ¬ TxtLastDue x₀.times final p.2 := by simpa using hb
            exact ⟨by simpa using i1, fun _ => by simpa using i2, fun _ hc => absurd (hc rfl) hb'⟩
          | true =>
            have hb' : TxtLastDue x₀.times final p.2 := by simpa using hb
            refine ⟨⟨i1.filename, i1.times, by simp [hwal], i1.sol, i1.indices, i1.header, i1.rows⟩,
              fun hc => ?_, fun _ _ => by simp⟩
            simp [hb'] at hc
  · have ht : x.isTime p.2 = false := by
      rw [← Bool.not_eq_true, isTime_iff, h.times]; exact hd
    simp only [ht] at hw
    cases hw
    refine ⟨by simpa [hd] using h, fun _ => rfl, fun h => absurd h hd⟩

/-- The steps exported by a `TXTExport`. -/
def txtSteps (times : Option (List ℚ)) (steps : List (σ × ℚ)) : List (σ × ℚ) :=
  steps.filter fun p => decide (TxtDue times p.2)

theorem txt_fold {x₀ x x' : TXT σ} {final : Option ℚ} {xs : List ℚ} {es steps : List (σ × ℚ)} {nb : ℕ}
    (h : TXTInv x₀ final xs es x)
    (hw : runOn (fun x s t _ => TXT.write x s t final) nb x steps = .ok x') :
    TXTInv x₀ final xs (es ++ steps.filter fun p => decide (TxtDue x₀.times p.2)) x' := by
  induction steps generalizing nb x es with
  | nil => cases hw; simpa using h
  | cons p ps ih =>
    obtain ⟨d1, h1, h2⟩ := runOn_cons_ok.1 hw
    have := ih (h.write h1).1 h2
    rw [List.append_assoc] at this
    convert this using 2
    by_cases hd : TxtDue x₀.times p.2 <;> simp [hd]

theorem txt_fold_file_eq {x₀ x x' : TXT σ} {final : Option ℚ} {xs : List ℚ}
    {es steps : List (σ × ℚ)} {nb : ℕ} (h : TXTInv x₀ final xs es x)
    (hw : runOn (fun x s t _ => TXT.write x s t final) nb x steps = .ok x')
    (hno : ∀ p ∈ steps,
      ¬ (TxtDue x₀.times p.2 ∧ (x₀.writeAtLast = true → TxtLastDue x₀.times final p.2))) :
    x'.file = x.file := by
  induction steps generalizing nb x es with
  | nil => cases hw; rfl
  | cons p ps ih =>
    obtain ⟨d1, h1, h2⟩ := runOn_cons_ok.1 hw
    obtain ⟨i1, i2, i3⟩ := h.write h1
    rw [← i2 (hno p (by simp))]
    exact ih i1 h2 fun p hp => hno p (by simp [hp])

end Festim
