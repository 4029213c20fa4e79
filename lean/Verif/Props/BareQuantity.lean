import Verif.Props.Simulation
import Verif.Props.Setters

/-! # Derived quantities placed directly in `exports` (C74) -/

namespace Festim.Props

open Festim.Spec

variable {σ F : Type}

/-- The export is a derived quantity that is not in a `DerivedQuantities`. -/
def IsBare : Export σ → Bool
  | .bare _ => true
  | _ => false

/-- The same exports without the bare quantities. -/
def withoutBare (x : Exports σ) : Exports σ := { x with items := x.items.filter fun e => !IsBare e }

theorem write_isBare {e e' : Export σ} {s : σ} {t : ℚ} {final : Option ℚ} {nb : ℕ}
    (h : e.write s t final nb = .ok e') : IsBare e' = IsBare e ∧ (IsBare e = true → e' = e) := by
  cases e with
  | bare q => cases h; exact ⟨rfl, fun _ => rfl⟩
  | dq d => obtain ⟨p, -, rfl⟩ := map_ok h; exact ⟨rfl, fun h => by cases h⟩
  | xdmf d => obtain ⟨p, -, rfl⟩ := map_ok h; exact ⟨rfl, fun h => by cases h⟩
  | txt d => obtain ⟨p, -, rfl⟩ := map_ok h; exact ⟨rfl, fun h => by cases h⟩

theorem writeItems_withoutBare (s : σ) (t : ℚ) (final : Option ℚ) (nb : ℕ) : ∀ l : List (Export σ),
    Exports.writeItems s t final nb (l.filter fun e => !IsBare e) =
      (Exports.writeItems s t final nb l).map fun l' => l'.filter fun e => !IsBare e
  | [] => rfl
  | e :: es => by
    have ih := writeItems_withoutBare s t final nb es
    by_cases hb : IsBare e = true
    · cases e with
      | bare q =>
        rw [List.filter_cons, if_neg (by simp [IsBare]), ih]
        simp only [Exports.writeItems, Export.write]
        cases Exports.writeItems s t final nb es with
        | error e => rfl
        | ok l => simp [Except.map, IsBare]
      | _ => cases hb
    · have hb' : IsBare e = false := by simpa using hb
      rw [List.filter_cons, if_pos (by simp [hb'])]
      simp only [Exports.writeItems]
      cases he : e.write s t final nb with
      | error err => rfl
      | ok e' =>
        have he' : IsBare e' = false := (write_isBare he).1.trans hb'
        simp only
        rw [ih]
        cases Exports.writeItems s t final nb es with
        | error e => rfl
        | ok l => simp [Except.map, he']

theorem writeAll_withoutBare (x : Exports σ) (steps : List (σ × ℚ)) :
    (withoutBare x).writeAll steps = (x.writeAll steps).map withoutBare := by
  induction steps generalizing x with
  | nil => rfl
  | cons p ps ih =>
    simp only [Exports.writeAll, Exports.write]
    have h := writeItems_withoutBare p.1 p.2 x.finalTime x.nb x.items
    simp only [withoutBare] at h ⊢
    rw [h]
    cases Exports.writeItems p.1 p.2 x.finalTime x.nb x.items with
    | error e => rfl
    | ok l => exact ih { x with items := l, nb := x.nb + 1 }

/-- **C74 (a).** A derived quantity placed directly in `exports` is never computed: after any number of
post-processing calls its data and times are what they were before. -/
theorem C74_never_computed (x x' : Exports σ) (steps : List (σ × ℚ))
    (h : x.writeAll steps = .ok x') (i : ℕ) (q : Quantity σ) (hi : x.items[i]? = some (.bare q)) :
    x'.items[i]? = some (.bare q) := by
  obtain ⟨e', h1, h2⟩ := writeAll_get h i _ hi
  have : e' = .bare q := by
    clear h1 hi h
    generalize x.nb = nb at h2
    induction steps generalizing nb with
    | nil => cases h2; rfl
    | cons p ps ih =>
      obtain ⟨d, g1, g2⟩ := runOn_cons_ok.1 h2
      cases g1
      exact ih _ g2
  rw [h1, this]

/-- **C74 (b).** It has no other effect either: the other exports are written, or fail, exactly as if it
were not there. -/
theorem C74_no_effect (x : Exports σ) (steps : List (σ × ℚ)) :
    (∀ x', x.writeAll steps = .ok x' → (withoutBare x).writeAll steps = .ok (withoutBare x')) ∧
    (∀ e, x.writeAll steps = .error e → (withoutBare x).writeAll steps = .error e) := by
  have := writeAll_withoutBare x steps
  constructor
  · intro x' h; rw [this, h]; rfl
  · intro e h; rw [this, h]; rfl

/-- **C74 (c).** For a whole transient run: the simulation returns, without a warning or an exception
due to it, and the quantity holds no data. -/
theorem C74_run (zero : F) (x : SimInput σ F) (registry : List ℕ) (I : Initialised σ F)
    (h : x.initialise zero = .ok I) (htr : x.settings.transient = true) (outs : List (Outcome × σ))
    (st : FullState σ F) (hrun : x.run zero registry I outs = .transient st)
    (hr : Returned st.sim.run) (i : ℕ) (ads : List ℕ) (q : Quantity σ)
    (hi : x.exports[i]? = some (ads, .bare q)) (hq : q.data = [] ∧ q.t = []) :
    ∃ q', st.exports.items[i]? = some (.bare q') ∧ q'.data = [] ∧ q'.t = [] := by
  obtain ⟨d', final', -, -, -, used, steps, -, -, -, hw⟩ :=
    C72_exports_see_accepted_steps zero x registry I h htr outs st hrun hr
  obtain ⟨e1, -, -⟩ := initialise_exports zero x I h
  have hget : I.exports.items[i]? = some (.bare q) := by
    rw [e1]; simp [Exports.initialise, hi, Export.initialise]
  exact ⟨q, C74_never_computed _ _ _ hw i q hget, hq⟩

/-- The example of C72 with a quantity placed directly in the exports. -/
def simBare : SimInput (List ℚ) ℚ := { simEx with exports := ([], .bare exQ) :: simEx.exports }

/-- The same quantity in a `DerivedQuantities` is computed at each accepted step. -/
example : (match simBare.initialise 0 with
    | .error _ => none
    | .ok I => match simBare.run 0 [] I simOuts with
      | .transient st => some (st.exports.items.map fun e => match e with
          | .bare q => [q.data]
          | .dq d => d.quantities.map (·.data)
          | _ => [])
      | _ => none) = some [[[]], [[3, 5, 7, 9, 11, 13]], [], []] := by decide +kernel

end Festim.Props
