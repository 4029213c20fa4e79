import Verif.Spec.Filter

/-!
# C79: finding derived quantities with `filter`
-/

namespace Festim.Props
open Festim

theorem derives_mem {a b : Cls} (h : Derives a b) : b ∈ a.bases := by
  cases h <;> decide

theorem bases_trans : ∀ a b : Cls, b ∈ a.bases → ∀ c ∈ b.bases, c ∈ a.bases := by
  intro a b
  cases a <;> cases b <;> decide

theorem self_bases (a : Cls) : a ∈ a.bases := by cases a <;> decide

/-- Each class appears once as the start of a chain of declarations. -/
theorem bases_chain (a : Cls) : ∀ b ∈ a.bases, Subclass a b := by
  have e : Subclass .export .export := .refl
  have d : ∀ {a b c}, Derives a b → Subclass b c → Subclass a c := fun h h' =>
    Relation.ReflTransGen.head h h'
  have hq : ∀ b ∈ Cls.derivedQuantity.bases, Subclass .derivedQuantity b := by
    intro b hb
    simp only [Cls.bases, List.mem_cons, List.not_mem_nil, or_false] at hb
    rcases hb with rfl | rfl
    · exact .refl
    · exact d .dq .refl
  have up : ∀ {a b : Cls} (_ : Derives a b) (_ : a.bases = a :: b.bases)
      (_ : ∀ c ∈ b.bases, Subclass b c), ∀ c ∈ a.bases, Subclass a c := by
    intro a b h1 h2 h3 c hc
    rw [h2] at hc
    rcases List.mem_cons.1 hc with rfl | hc
    · exact .refl
    · exact d h1 (h3 c hc)
  have hv := up .vol rfl hq
  have hs := up .surf rfl hq
  have hf := up .flux rfl hs
  have htv := up .tv rfl hv
  have hts := up .ts rfl hs
  have hav := up .av rfl hv
  have has := up .as rfl hs
  cases a
  case «export» => intro b hb; simp only [Cls.bases, List.mem_singleton] at hb; subst hb; exact .refl
  case derivedQuantity => exact hq
  case volumeQuantity => exact hv
  case surfaceQuantity => exact hs
  case surfaceFlux => exact hf
  case hydrogenFlux => exact up .hflux rfl hf
  case thermalFlux => exact up .tflux rfl hf
  case surfaceFluxCylindrical => exact up .cflux rfl hf
  case surfaceFluxSpherical => exact up .sflux rfl hf
  case totalVolume => exact htv
  case totalVolumeCylindrical => exact up .tvc rfl htv
  case totalVolumeSpherical => exact up .tvs rfl htv
  case totalSurface => exact hts
  case totalSurfaceCylindrical => exact up .tsc rfl hts
  case totalSurfaceSpherical => exact up .tss rfl hts
  case averageVolume => exact hav
  case averageVolumeCylindrical => exact up .avc rfl hav
  case averageVolumeSpherical => exact up .avs rfl hav
  case averageSurface => exact has
  case averageSurfaceCylindrical => exact up .asc rfl has
  case maximumVolume => exact up .maxv rfl hv
  case minimumVolume => exact up .minv rfl hv
  case maximumSurface => exact up .maxs rfl hs
  case minimumSurface => exact up .mins rfl hs
  case pointValue => exact up .point rfl hq
  case adsorbedHydrogen => exact up .ads rfl hs

theorem bases_iff (a b : Cls) : b ∈ a.bases ↔ Subclass a b := by
  refine ⟨bases_chain a b, fun h => ?_⟩
  induction h with
  | refl => exact self_bases a
  | tail _ h ih => exact bases_trans a _ ih _ (derives_mem h)

theorem surface_some (q : DQObj) (s : ℕ) :
    q.surface = some s ↔ Subclass q.cls .surfaceQuantity ∧ q.id = s := by
  unfold DQObj.surface
  have h : q.isinstance .surfaceQuantity = true ↔ Subclass q.cls .surfaceQuantity := by
    rw [← bases_iff, DQObj.isinstance, decide_eq_true_eq]
  split
  · rename_i hi; simp [h.1 hi]
  · rename_i hi; simp [mt h.2 hi]

theorem volume_some (q : DQObj) (s : ℕ) :
    q.volume = some s ↔ Subclass q.cls .volumeQuantity ∧ q.id = s := by
  unfold DQObj.volume
  have h : q.isinstance .volumeQuantity = true ↔ Subclass q.cls .volumeQuantity := by
    rw [← bases_iff, DQObj.isinstance, decide_eq_true_eq]
  split
  · rename_i hi; simp [h.1 hi]
  · rename_i hi; simp [mt h.2 hi]

theorem option_asked (arg : FilterArg ℕ) (o : Option ℕ) :
    (match arg.toList with
      | some l => match o with
        | some s => decide (s ∈ l)
        | none => false
      | none => true) = true ↔ Asked arg (fun s => o = some s) := by
  cases arg <;> cases o <;> simp [FilterArg.toList, Asked]

theorem flags_iff (s v : FilterArg ℕ) (f : FilterArg Field) (i : FilterArg Cls) (q : DQObj) :
    filterFlags s.toList v.toList f.toList i.toList q = true ↔ Meets q s v f i := by
  have hf : (match f.toList with
      | some l => decide (q.field ∈ l)
      | none => true) = true ↔ Asked f (fun f => q.field = f) := by
    cases f <;> simp [FilterArg.toList, Asked]
  have hi : (match i.toList with
      | some l => l.any q.isinstance
      | none => true) = true ↔ Asked i (fun k => Subclass q.cls k) := by
    simp only [← bases_iff]
    cases i <;> simp [FilterArg.toList, Asked, DQObj.isinstance]
  have hs := option_asked s q.surface
  have hv := option_asked v q.volume
  simp only [surface_some, volume_some] at hs hv
  unfold filterFlags Meets
  rw [← hs, ← hv, ← hf, ← hi, Bool.and_eq_true, Bool.and_eq_true, Bool.and_eq_true, and_assoc,
    and_assoc]
  exact Iff.rfl

theorem filterLoop_eq (s v : Option (List ℕ)) (f : Option (List Field)) (i : Option (List Cls))
    (l acc : List DQObj) : filterLoop s v f i acc l = acc ++ l.filter (filterFlags s v f i) := by
  induction l generalizing acc with
  | nil => simp [filterLoop]
  | cons q l ih =>
    rw [filterLoop, ih, List.filter_cons]
    split <;> simp

theorem objects_eq (self : List DQObj) (s v : FilterArg ℕ) (f : FilterArg Field) (i : FilterArg Cls) :
    (dqFilter self s v f i).objects
      = self.filter (filterFlags s.toList v.toList f.toList i.toList) := by
  unfold dqFilter
  rw [filterLoop_eq, List.nil_append]
  split
  · rename_i h; rw [h]; rfl
  · rfl

open Classical in
/-- **C79.** The objects found are the elements of the list which meet the request, each as many times as
it is listed, in the same order. -/
theorem C79_finds (self : List DQObj) (s v : FilterArg ℕ) (f : FilterArg Field) (i : FilterArg Cls) :
    (dqFilter self s v f i).objects = self.filter fun q => decide (Meets q s v f i) := by
  rw [objects_eq]
  refine List.filter_congr fun q _ => ?_
  rw [Bool.eq_iff_iff, flags_iff, decide_eq_true_eq]

/-- **C79.** The result is an object, not a list, exactly when one element is found. -/
theorem C79_shape (self : List DQObj) (s v : FilterArg ℕ) (f : FilterArg Field) (i : FilterArg Cls) :
    (∃ q, dqFilter self s v f i = .object q) ↔ (dqFilter self s v f i).objects.length = 1 := by
  unfold dqFilter
  generalize filterLoop s.toList v.toList f.toList i.toList [] self = l
  rcases l with _ | ⟨a, _ | ⟨b, l⟩⟩ <;> simp [FilterResult.objects]

/-- **C79.** Asking for surfaces and volumes together finds nothing. -/
theorem C79_surfaces_and_volumes (self : List DQObj) (s v : FilterArg ℕ) (f : FilterArg Field)
    (i : FilterArg Cls) (hs : s ≠ .none) (hv : v ≠ .none) : dqFilter self s v f i = .list [] := by
  have h : (dqFilter self s v f i).objects = [] := by
    rw [objects_eq, List.filter_eq_nil_iff]
    rintro q - hq
    rw [flags_iff] at hq
    obtain ⟨h1, h2, -, -⟩ := hq
    have a1 : Subclass q.cls .surfaceQuantity := by
      cases s with
      | none => exact absurd rfl hs
      | one a => exact h1.1
      | list l => obtain ⟨_, _, h, _⟩ := h1; exact h
      | other => exact h1.elim
    have a2 : Subclass q.cls .volumeQuantity := by
      cases v with
      | none => exact absurd rfl hv
      | one a => exact h2.1
      | list l => obtain ⟨_, _, h, _⟩ := h2; exact h
      | other => exact h2.elim
    rw [← bases_iff] at a1 a2
    revert a1 a2
    cases q.cls <;> decide
  cases hr : dqFilter self s v f i with
  | object q => rw [hr] at h; simp [FilterResult.objects] at h
  | list l => rw [hr] at h; exact congrArg _ h

/-- **C79.** Some request returns the element at position `k` alone exactly when no other element has
literally the same field, is relative to the same surface or volume, and is an instance of its class. -/
theorem C79_alone (self : List DQObj) (k : ℕ) (q : DQObj) (hk : self[k]? = some q) :
    (∃ s v f i, dqFilter self s v f i = .object q) ↔
      ∀ j q', self[j]? = some q' → j ≠ k → q'.field = q.field →
        (∀ s, q.surface = some s → q'.surface = some s) →
        (∀ v, q.volume = some v → q'.volume = some v) → ¬ Subclass q'.cls q.cls := by
  have hstart : ∀ (self : List DQObj) (k : ℕ) (q : DQObj), self[k]? = some q →
      ∀ p : DQObj → Bool, p q = true → (self.filter p = [q] ↔
        ∀ j q', self[j]? = some q' → j ≠ k → p q' = false) := by
    intro self
    induction self with
    | nil => intro k q h; simp at h
    | cons a l ih =>
      intro k q hk p hp
      rw [List.filter_cons]
      cases k with
      | zero =>
        simp only [List.getElem?_cons_zero, Option.some.injEq] at hk
        subst hk
        rw [if_pos hp]
        constructor
        · intro h j q' hj hne
          cases j with
          | zero => exact absurd rfl hne
          | succ j =>
            rw [List.getElem?_cons_succ] at hj
            have := (List.filter_eq_nil_iff.1 (List.cons.inj h).2) q' (List.mem_of_getElem? hj)
            simpa using this
        · intro h
          congr 1
          rw [List.filter_eq_nil_iff]
          intro x hx
          obtain ⟨j, hj⟩ := List.getElem?_of_mem hx
          simp [h (j + 1) x (by simpa using hj) (by simp)]
      | succ k =>
        rw [List.getElem?_cons_succ] at hk
        by_cases ha : p a = true
        · rw [if_pos ha]
          constructor
          · intro h
            exfalso
            have : q ∈ l.filter p := List.mem_filter.2 ⟨List.mem_of_getElem? hk, hp⟩
            rw [(List.cons.inj h).2] at this
            simp at this
          · intro h
            have := h 0 a (by simp) (by simp)
            rw [ha] at this
            exact absurd this (by decide)
        · rw [if_neg ha, ih k q hk p hp]
          constructor
          · intro h j q' hj hne
            cases j with
            | zero =>
              simp only [List.getElem?_cons_zero, Option.some.injEq] at hj
              subst hj
              simpa using ha
            | succ j => exact h j q' (by simpa using hj) (by omega)
          · intro h j q' hj hne
            exact h (j + 1) q' (by simpa using hj) (by omega)
  have hobj : ∀ s v f i, dqFilter self s v f i = .object q ↔
      self.filter (filterFlags s.toList v.toList f.toList i.toList) = [q] := by
    intro s v f i
    rw [← objects_eq]
    constructor
    · intro h; rw [h]; rfl
    · intro h
      obtain ⟨q', hq'⟩ := (C79_shape self s v f i).2 (by rw [h]; rfl)
      rw [hq'] at h ⊢
      simpa [FilterResult.objects] using h
  have amono : ∀ {α : Type} (a : FilterArg α) (p r : α → Prop), (∀ x, p x → r x) → Asked a p → Asked a r := by
    intro α a p r h ha
    cases a with
    | none => trivial
    | one x => exact h x ha
    | list l => obtain ⟨x, hx, hp⟩ := ha; exact ⟨x, hx, h x hp⟩
    | other => exact ha
  constructor
  · rintro ⟨s, v, f, i, h⟩ j q' hj hne hf hsf hvl hc
    rw [hobj] at h
    have hq : filterFlags s.toList v.toList f.toList i.toList q = true := by
      have : q ∈ self.filter (filterFlags s.toList v.toList f.toList i.toList) := by rw [h]; simp
      exact (List.mem_filter.1 this).2
    have h' := (hstart self k q hk _ hq).1 h j q' hj hne
    rw [flags_iff] at hq
    have : Meets q' s v f i :=
      ⟨amono _ _ _ (fun x hx => (surface_some q' x).1 (hsf x ((surface_some q x).2 hx))) hq.1,
        amono _ _ _ (fun x hx => (volume_some q' x).1 (hvl x ((volume_some q x).2 hx))) hq.2.1,
        amono _ _ _ (fun x hx => hf.trans hx) hq.2.2.1,
        amono _ _ _ (fun x hx => Relation.ReflTransGen.trans hc hx) hq.2.2.2⟩
    rw [← flags_iff, h'] at this
    exact absurd this (by decide)
  · intro h
    -- ask for everything that is known of the element
    have arg : ∀ o : Option ℕ, ∃ a : FilterArg ℕ, ∀ p : ℕ → Prop, Asked a p ↔ ∀ x, o = some x → p x := by
      intro o
      cases o with
      | none => exact ⟨.none, fun p => by simp [Asked]⟩
      | some x => exact ⟨.one x, fun p => by simp [Asked]⟩
    obtain ⟨s, hs⟩ := arg q.surface
    obtain ⟨v, hv⟩ := arg q.volume
    refine ⟨s, v, .one q.field, .one q.cls, ?_⟩
    rw [hobj]
    refine (hstart self k q hk _ ?_).2 ?_
    · rw [flags_iff]
      exact ⟨(hs _).2 fun x hx => (surface_some q x).1 hx, (hv _).2 fun x hx => (volume_some q x).1 hx,
        rfl, .refl⟩
    · intro j q' hj hne
      by_contra hcon
      rw [Bool.not_eq_false, flags_iff] at hcon
      obtain ⟨h1, h2, h3, h4⟩ := hcon
      exact h j q' hj hne h3 (fun x hx => (surface_some q' x).2 ((hs _).1 h1 x hx))
        (fun x hx => (volume_some q' x).2 ((hv _).1 h2 x hx)) h4

/-- **C79.** Only the literal field counts: what is found for one way of writing a field is not found for
another. -/
theorem C79_fields_literal (self : List DQObj) (s v : FilterArg ℕ) (f g : Field) (i : FilterArg Cls)
    (h : f ≠ g) : ∀ q ∈ (dqFilter self s v (.one f) i).objects,
      q ∉ (dqFilter self s v (.one g) i).objects := by
  intro q hq hq'
  rw [objects_eq, List.mem_filter, flags_iff] at hq hq'
  exact h (hq.2.2.2.1.symm.trans hq'.2.2.2.1)

/-! ## Cases -/

namespace Filtering

/-- A list a user might write. -/
def quantities : List DQObj :=
  [⟨0, .surfaceFlux, .name "solute", 1⟩, ⟨1, .hydrogenFlux, .name "solute", 1⟩,
   ⟨2, .totalVolume, .int 0, 1⟩, ⟨3, .totalVolume, .name "solute", 2⟩,
   ⟨4, .pointValue, .name "solute", 0⟩, ⟨5, .totalVolume, .name "solute", 3⟩]

/-- One match: the object; two: a list; a field given in another way: nothing. -/
example : dqFilter quantities .none (.one 2) .none .none = .object ⟨3, .totalVolume, .name "solute", 2⟩ := by
  decide
example : dqFilter quantities .none (.list [2, 3]) .none .none
    = .list [⟨3, .totalVolume, .name "solute", 2⟩, ⟨5, .totalVolume, .name "solute", 3⟩] := by
  decide
example : dqFilter quantities .none .none (.one (.strInt 0)) .none = .list [] := by decide
example : dqFilter quantities .none .other .none .none = .list [] := by decide

/-- `SurfaceFlux("solute", 1)` cannot be obtained alone beside `HydrogenFlux(1)`. -/
example : ¬ ∃ s v f i, dqFilter quantities s v f i = .object ⟨0, .surfaceFlux, .name "solute", 1⟩ := by
  rw [C79_alone quantities 0 _ rfl]
  intro h
  exact h 1 ⟨1, .hydrogenFlux, .name "solute", 1⟩ rfl (by decide) rfl (by decide) (by decide)
    (Relation.ReflTransGen.single .hflux)

/-- `HydrogenFlux(1)` can. -/
example : ∃ s v f i, dqFilter quantities s v f i = .object ⟨1, .hydrogenFlux, .name "solute", 1⟩ :=
  ⟨.none, .none, .none, .one .hydrogenFlux, by decide⟩

end Filtering

end Festim.Props
