import Verif.Proofs.Fields

/-! # Sources, boundary conditions, traps, components and initial conditions (C34-C39) -/

namespace Festim.Props

open Spec

/-! ## C34 -/

/-- C34 (a): `attribute_source_terms` succeeds exactly when each source is acceptable: its field
denotes an equation of the problem (or it is a decay of all species), and heat sources are used with a
heat transfer problem. -/
theorem C34_accepts_iff (heat : Bool) (old : SrcState) (ss : List Source) :
    (attributeSources heat old ss).2 = none ↔ ∀ s ∈ ss, Acceptable heat old.traps.length s :=
  (attributeLoop_spec heat _ ss old.reset (by simp [SrcState.reset])).1

open Classical in
/-- C34 (b): after success the sources of each equation are exactly those targeting it, in the order
of the list, each once per occurrence, whatever the objects held before. -/
theorem C34_routing (heat : Bool) (old : SrcState) (ss : List Source)
    (h : (attributeSources heat old ss).2 = none) (o : Obj) (ho : Equation old.traps.length o) :
    (attributeSources heat old ss).1.get o = ss.filter fun s => decide (Targets old.traps.length s o) := by
  obtain ⟨h1, h2⟩ := attributeLoop_spec heat old.traps.length ss old.reset (by simp [SrcState.reset])
  have := (h2 (h1.1 h)).2 o ho
  unfold attributeSources
  rw [this]
  have h0 : old.reset.get o = [] := by
    cases o with
    | mobile => rfl
    | temp => rfl
    | trap k =>
      simp only [SrcState.get, SrcState.reset, List.getD_eq_getElem?_getD, List.getElem?_map]
      cases old.traps[k - 1]? <;> rfl
  rw [h0, List.nil_append]

/-- C34 (c): an acceptable source belongs to exactly one equation, except a decay of all species, which
belongs to the mobile equation and to that of each trap, but not to the heat equation. -/
theorem C34_exactly_one (heat : Bool) (n : ℕ) (s : Source) (h : Acceptable heat n s) :
    (¬ (s.decay = true ∧ s.field = .name "all") → ∃! o, Targets n s o) ∧
    (s.decay = true ∧ s.field = .name "all" → ∀ o, Targets n s o ↔ Equation n o ∧ o ≠ .temp) := by
  constructor
  · intro hn
    obtain ⟨⟨o, ho⟩, -⟩ := h
    refine ⟨o, ho, ?_⟩
    intro o' ho'
    unfold Targets at ho ho'
    rw [if_neg hn] at ho ho'
    rw [ho] at ho'
    exact (Option.some.inj ho').symm
  · intro hn o
    unfold Targets
    rw [if_pos hn]
    constructor
    · rintro (rfl | ⟨k, h1, h2, rfl⟩)
      · exact ⟨trivial, by simp⟩
      · exact ⟨⟨h1, h2⟩, by simp⟩
    · rintro ⟨h1, h2⟩
      cases o with
      | mobile => exact .inl rfl
      | temp => exact absurd rfl h2
      | trap k => exact .inr ⟨k, h1.1, h1.2, rfl⟩

/-- C34 (d): which exception a single unacceptable source causes. -/
theorem C34_errors (heat : Bool) (old : SrcState) (s : Source) (h : ¬ Acceptable heat old.traps.length s) :
    (s.field = .name "T" → ∃ m, (attributeSources heat old [s]).2 = some (.typeError m)) ∧
    (s.field ≠ .name "T" → ∃ m, (attributeSources heat old [s]).2 = some (.keyError m)) := by
  have hT : fieldObj old.traps.length (.name "T") = some .temp := rfl
  constructor
  · intro hf
    have hh : heat = false := by
      by_contra hh
      apply h
      refine ⟨⟨.temp, ?_⟩, fun _ => by simpa using hh⟩
      unfold Targets
      rw [if_neg (by rw [hf]; simp), hf]
      exact hT
    exact ⟨_, by simp [attributeSources, attributeLoop, attributeSource, hf, hh]; rfl⟩
  · intro hf
    have h2 : ¬ (s.decay = true ∧ s.field = .name "all") := by
      intro h2
      apply h
      refine ⟨⟨.mobile, ?_⟩, fun h => absurd h hf⟩
      unfold Targets; rw [if_pos h2]; exact .inl rfl
    have h3 : fieldObj old.traps.length s.field = none := by
      cases hx : fieldObj old.traps.length s.field with
      | none => rfl
      | some o =>
        exact absurd ⟨⟨o, by unfold Targets; rw [if_neg h2]; exact hx⟩, fun h => absurd h hf⟩ h
    refine ⟨"field", ?_⟩
    simp only [attributeSources, attributeLoop, attributeSource]
    rw [if_neg (by simp [hf]), if_neg h2, fieldToObject_eq, h3]

/-- Non-vacuity: two traps, an earlier state full of old sources. -/
example :
    let old : SrcState := ⟨[⟨9, .int 0, false⟩], [], [[⟨8, .int 0, false⟩], []]⟩
    attributeSources true old
      [⟨1, .strInt 2, false⟩, ⟨2, .name "solute", false⟩, ⟨3, .name "all", true⟩, ⟨4, .name "T", false⟩,
        ⟨5, .int 2, false⟩] =
      (⟨[⟨2, .name "solute", false⟩, ⟨3, .name "all", true⟩], [⟨4, .name "T", false⟩],
        [[⟨3, .name "all", true⟩], [⟨1, .strInt 2, false⟩, ⟨3, .name "all", true⟩, ⟨5, .int 2, false⟩]]⟩, none) ∧
    (attributeSources true old [⟨1, .int 3, false⟩]).2 = some (.keyError "field") := by
  decide

/-! ## C35 -/

/-- C35 (a): exactly when the check accepts. -/
theorem C35_accepts_iff (dim : ℕ) (heat : Bool) (n : ℕ) (bcs : List BC) :
    checkBCs dim heat n bcs = .ok () ↔
      (∀ bc ∈ bcs, KnownField n bc.field) ∧
      (∀ bc ∈ bcs, bc.kind = .surfaceKinetics → dim = 1) ∧
      (∀ bc ∈ bcs, bc.field = .name "T" → heat = true) ∧
      (∀ bc ∈ bcs, ∀ d ∈ bcs, bc.uid ≠ d.uid → bc.field = d.field →
        d.kind = .dirichlet ∨ d.kind = .surfaceKinetics → ∀ s ∈ bc.surfaces, s ∉ d.surfaces) := by
  unfold checkBCs
  rw [checkBCLoop_ok]
  simp only [checkBC_ok, List.mem_filter]
  have hk : ∀ d : BC, d.isDcSk = true ↔ d.kind = .dirichlet ∨ d.kind = .surfaceKinetics := by
    intro d; unfold BC.isDcSk; cases d.kind <;> simp
  constructor
  · intro h
    refine ⟨fun b hb => (h b hb).1, fun b hb => (h b hb).2.1, fun b hb => (h b hb).2.2.1, ?_⟩
    intro b hb d hd h1 h2 h3
    exact (h b hb).2.2.2 d ⟨hd, (hk d).2 h3⟩ h1 h2
  · rintro ⟨h1, h2, h3, h4⟩ b hb
    refine ⟨h1 b hb, h2 b hb, h3 b hb, ?_⟩
    rintro d ⟨hd, hd'⟩ h5 h6
    exact h4 b hb d hd h5 h6 ((hk d).1 hd')

/-- What is wrong with the condition `bc` among the conditions `bcs`, in the order in which it is looked
for, and the class of the exception. -/
inductive Fault (dim : ℕ) (heat : Bool) (n : ℕ) (bcs : List BC) (bc : BC) : PyErr → Prop
  | field (m : String) (h : ¬ KnownField n bc.field) : Fault dim heat n bcs bc (.valueError m)
  | kinetics (m : String) (h1 : KnownField n bc.field) (h2 : bc.kind = .surfaceKinetics) (h3 : dim ≠ 1) :
      Fault dim heat n bcs bc (.valueError m)
  | temperature (m : String) (h1 : bc.field = .name "T") (h2 : bc.kind = .surfaceKinetics → dim = 1)
      (h3 : heat = false) : Fault dim heat n bcs bc (.typeError m)
  | clash (m : String) (h1 : KnownField n bc.field) (h2 : bc.kind = .surfaceKinetics → dim = 1)
      (h3 : bc.field = .name "T" → heat = true) (d : BC) (h4 : d ∈ bcs)
      (h5 : d.kind = .dirichlet ∨ d.kind = .surfaceKinetics) (h6 : bc.uid ≠ d.uid)
      (h7 : bc.field = d.field) (s : ℕ) (h8 : s ∈ bc.surfaces) (h9 : s ∈ d.surfaces) :
      Fault dim heat n bcs bc (.valueError m)

/-- C35 (a'): a refusal is about the first condition with a fault; it is a `TypeError` exactly for a
condition on the temperature without a heat transfer problem, a `ValueError` for every other fault. -/
theorem C35_reported (dim : ℕ) (heat : Bool) (n : ℕ) (bcs : List BC) (e : PyErr)
    (h : checkBCs dim heat n bcs = .error e) :
    ∃ pre bc post, bcs = pre ++ bc :: post ∧ (∀ b ∈ pre, ∀ e', ¬ Fault dim heat n bcs b e') ∧
      Fault dim heat n bcs bc e := by
  have hk : ∀ d : BC, d.isDcSk = true ↔ d.kind = .dirichlet ∨ d.kind = .surfaceKinetics := by
    intro d; unfold BC.isDcSk; cases d.kind <;> simp
  have clash : ∀ (bc : BC) (ds : List BC) (e : PyErr), checkClash bc ds = .error e →
      (∃ m, e = .valueError m) ∧ ∃ d ∈ ds, bc.uid ≠ d.uid ∧ bc.field = d.field ∧
        ∃ s ∈ bc.surfaces, s ∈ d.surfaces := by
    intro bc ds e
    induction ds with
    | nil => intro h; simp [checkClash] at h
    | cons d ds ih =>
      intro h
      unfold checkClash at h
      split at h
      · obtain ⟨h1, d', h2, h3⟩ := ih h
        exact ⟨h1, d', by simp [h2], h3⟩
      · rename_i h1
        push Not at h1
        split at h
        · rename_i h2
          cases h
          simp only [List.any_eq_true, decide_eq_true_eq] at h2
          exact ⟨⟨_, rfl⟩, d, by simp, h1.1, h1.2, h2⟩
        · obtain ⟨h1, d', h2, h3⟩ := ih h
          exact ⟨h1, d', by simp [h2], h3⟩
  have good : ∀ b, checkBC dim heat n (bcs.filter BC.isDcSk) b = .ok () →
      ∀ e', ¬ Fault dim heat n bcs b e' := by
    intro b hb e' hf
    obtain ⟨g1, g2, g3, g4⟩ := (checkBC_ok dim heat n _ b).1 hb
    cases hf with
    | field m h => exact h g1
    | kinetics m h1 h2 h3 => exact h3 (g2 h2)
    | temperature m h1 h2 h3 => rw [g3 h1] at h3; cases h3
    | clash m h1 h2 h3 d h4 h5 h6 h7 s h8 h9 =>
      exact g4 d (List.mem_filter.2 ⟨h4, (hk d).2 h5⟩) h6 h7 s h8 h9
  have bad : ∀ b e, checkBC dim heat n (bcs.filter BC.isDcSk) b = .error e →
      Fault dim heat n bcs b e := by
    intro b e hb
    unfold checkBC at hb
    split at hb
    · rename_i h1
      cases hb
      exact .field _ (fun h => h1 ((mem_validFields _ _).2 h))
    · rename_i h1
      rw [not_not] at h1
      split at hb
      · rename_i h2
        cases hb
        exact .kinetics _ ((mem_validFields _ _).1 h1) h2.1 h2.2
      · rename_i h2
        have h2 : b.kind = .surfaceKinetics → dim = 1 := fun h => by
          by_contra hh; exact h2 ⟨h, hh⟩
        split at hb
        · rename_i h3
          cases hb
          exact .temperature _ h3.1 h2 h3.2
        · rename_i h3
          have h3 : b.field = .name "T" → heat = true := fun h => by
            by_contra hh; exact h3 ⟨h, by simpa using hh⟩
          obtain ⟨⟨m, rfl⟩, d, hd, h6, h7, s, h8, h9⟩ := clash _ _ _ hb
          obtain ⟨h4, h5⟩ := List.mem_filter.1 hd
          exact .clash m ((mem_validFields _ _).1 h1) h2 h3 d h4 ((hk d).1 h5) h6 h7 s h8 h9
  have loop : ∀ l : List BC, checkBCLoop dim heat n (bcs.filter BC.isDcSk) l = .error e →
      ∃ pre bc post, l = pre ++ bc :: post ∧
        (∀ b ∈ pre, checkBC dim heat n (bcs.filter BC.isDcSk) b = .ok ()) ∧
        checkBC dim heat n (bcs.filter BC.isDcSk) bc = .error e := by
    intro l
    induction l with
    | nil => intro h; simp [checkBCLoop] at h
    | cons b l ih =>
      intro h
      simp only [checkBCLoop] at h
      cases hb : checkBC dim heat n (bcs.filter BC.isDcSk) b with
      | error e' =>
        rw [hb] at h
        cases h
        exact ⟨[], b, l, rfl, by simp, hb⟩
      | ok u =>
        rw [hb] at h
        obtain ⟨pre, bc, post, h1, h2, h3⟩ := ih h
        exact ⟨b :: pre, bc, post, by rw [h1]; rfl, by
          intro x hx
          rcases List.mem_cons.1 hx with rfl | hx
          · exact hb
          · exact h2 x hx, h3⟩
  obtain ⟨pre, bc, post, h1, h2, h3⟩ := loop bcs h
  exact ⟨pre, bc, post, h1, fun b hb => good b (h2 b hb), bad bc e h3⟩

/-- Non-vacuity: the three classes of faults after a good condition. -/
example :
    checkBCs 2 false 1 [⟨1, .dirichlet, .int 0, [1]⟩, ⟨2, .flux, .int 2, [2]⟩]
      = .error (.valueError "is not a valid field for BC") ∧
    checkBCs 2 false 1 [⟨1, .dirichlet, .int 0, [1]⟩, ⟨2, .flux, .name "T", [2]⟩]
      = .error (.typeError
        "Heat transfer boundary conditions can only be used with HeatTransferProblem") ∧
    checkBCs 2 false 1 [⟨1, .dirichlet, .int 0, [1]⟩, ⟨2, .flux, .int 0, [2, 1]⟩]
      = .error (.valueError "is simultaneously set with another boundary condition") := by
  decide

/-- C35 (b): when the fields of the Dirichlet conditions are given as ints, an accepted set never leads
to two different Dirichlet conditions on the same component and surface of the hydrogen problem. -/
theorem C35_no_double_dirichlet (dim : ℕ) (heat : Bool) (n : ℕ) (bcs tbcs hbcs : List BC)
    (h : attributeBCs dim heat n bcs = .ok (tbcs, hbcs)) (nsub : ℕ) (r : List Imposed)
    (hr : createDirichlets nsub hbcs = .ok r) (hsub : nsub = 0 → n = 0)
    (hint : ∀ bc ∈ bcs, bc.kind = .dirichlet → ∀ k, bc.field ≠ .strInt k)
    (i i' : Imposed) (hi : i ∈ r) (hi' : i' ∈ r) (hc : i.component = i'.component)
    (hs : i.surface = i'.surface) : i.uid = i'.uid := by
  unfold attributeBCs at h
  cases hck : checkBCs dim heat n bcs with
  | error e => rw [hck] at h; cases h
  | ok u =>
    rw [hck] at h
    cases h
    obtain ⟨k1, -, -, k4⟩ := (C35_accepts_iff dim heat n bcs).1 hck
    rw [createDirichlets_ok nsub _ r hr] at hi hi'
    obtain ⟨b, hb, b1, b2, b3, b4, b5⟩ := hi
    obtain ⟨b', hb', b1', b2', b3', b4', b5'⟩ := hi'
    have hb := (List.mem_filter.1 hb).1
    have hb' := (List.mem_filter.1 hb').1
    have hf : b.field = b'.field := by
      rcases b5 with ⟨c1, c2⟩ | ⟨c1, c2, -⟩
      · rcases b5' with ⟨d1, d2⟩ | ⟨d1, d2, -⟩
        · have hn := hsub c1
          have key : ∀ x ∈ bcs, x.field ≠ .name "T" → x.kind = .dirichlet → x.field = .int 0 := by
            intro x hx hxT hxk
            rcases k1 x hx with h | ⟨k, hk, h | h⟩
            · exact absurd h hxT
            · rw [h]; congr; omega
            · exact absurd h (hint x hx hxk k)
          rw [key b hb b1 b2, key b' hb' b1' b2']
        · exact absurd c1 d1
      · rcases b5' with ⟨d1, d2⟩ | ⟨d1, d2, -⟩
        · exact absurd d1 c1
        · rw [c2, d2, hc]
    by_contra hne
    refine k4 b hb b' hb' (by rw [b3, b3']; exact hne) hf (.inl b2') i.surface b4 ?_
    rw [hs]; exact b4'

/-- C35 (c): with a mixed space a Dirichlet condition whose field is a string raises `TypeError`, even
though the check accepts it. -/
theorem C35_string_field_mixed (nsub : ℕ) (hn : nsub ≠ 0) (bc : BC) (k : ℕ) (hf : bc.field = .strInt k)
    (hk : bc.kind = .dirichlet) (l : List BC) : ∃ m, createDirichlets nsub (bc :: l) = .error (.typeError m) :=
  ⟨"incompatible function arguments", by simp [createDirichlets, createDirichlet, hf, hk, hn]⟩

/-- C35 (d): aliases of a field are not recognised: `0` and `"0"` on the same surface are accepted and,
without traps, both conditions are imposed on the same component. -/
theorem C35_aliases_accepted (u u' s : ℕ) (hu : u ≠ u') (dim : ℕ) (heat : Bool) :
    let bcs := [BC.make u .dirichlet (.name "solute") [s], BC.make u' .dirichlet (.strInt 0) [s]]
    ∃ hbcs, attributeBCs dim heat 0 bcs = .ok ([], hbcs) ∧
      createDirichlets (numSubSpaces 0 []) hbcs = .ok [⟨u, 0, s⟩, ⟨u', 0, s⟩] := by
  refine ⟨[BC.make u .dirichlet (.name "solute") [s], BC.make u' .dirichlet (.strInt 0) [s]], ?_, ?_⟩
  · have : checkBCs dim heat 0
        [BC.make u .dirichlet (.name "solute") [s], BC.make u' .dirichlet (.strInt 0) [s]] = .ok () := by
      rw [C35_accepts_iff]
      simp [BC.make, KnownField]
    simp only [attributeBCs, this]
    simp [BC.make]
  · simp [createDirichlets, createDirichlet, BC.make, numSubSpaces, mixedElements, Except.map]

/-- C35 (e): one object listed twice is not a clash. -/
theorem C35_same_object_twice (dim : ℕ) (heat : Bool) (n u : ℕ) (ss : List ℕ) :
    checkBCs dim heat n [BC.make u .dirichlet (.int 0) ss, BC.make u .dirichlet (.int 0) ss] = .ok () := by
  rw [C35_accepts_iff]
  simp [BC.make, KnownField]

/-- Non-vacuity: an accepted set with fluxes, heat conditions and two Dirichlet conditions. -/
def exBCs : List BC :=
  [BC.make 1 .dirichlet (.name "solute") [1, 2], BC.make 2 .dirichlet (.int 1) [1],
   BC.make 3 .flux (.int 0) [3, 4], BC.make 4 .dirichlet (.name "T") [1], BC.make 5 .flux (.name "T") [2],
   BC.make 6 .flux (.strInt 0) [3], BC.make 7 .flux (.int 1) [4]]

example : (attributeBCs 2 true 1 exBCs).map (fun p => (p.1.map (·.uid), p.2.map (·.uid))) =
      .ok ([4, 5], [1, 2, 3, 6, 7]) ∧
    createDirichlets 2 (exBCs.filter fun b => b.field ≠ .name "T") = .ok [⟨1, 0, 1⟩, ⟨1, 0, 2⟩, ⟨2, 1, 1⟩] ∧
    checkBCs 2 true 1 (BC.make 8 .flux (.int 0) [2] :: exBCs) ≠ .ok () ∧
    checkBCs 2 false 1 exBCs ≠ .ok () ∧ checkBCs 2 true 0 exBCs ≠ .ok () ∧
    checkBCs 2 true 0 [BC.make 1 .surfaceKinetics (.int 0) [1]] ≠ .ok () := by
  decide

/-! ## C36 -/

/-- C36 (a): in an accepted set, every flux condition of the mobile concentration reaches the mobile
equation and every one of the temperature reaches the heat equation, in order and once per
occurrence. -/
theorem C36_flux_routing (dim : ℕ) (heat : Bool) (n : ℕ) (bcs tbcs hbcs : List BC)
    (h : attributeBCs dim heat n bcs = .ok (tbcs, hbcs)) :
    mobileFluxes hbcs = bcs.filter (fun b => b.kind ≠ .dirichlet ∧ b.field = .int 0) ∧
    heatFluxes tbcs = bcs.filter fun b => b.kind ≠ .dirichlet ∧ b.field = .name "T" := by
  unfold attributeBCs at h
  cases hck : checkBCs dim heat n bcs with
  | error e => rw [hck] at h; cases h
  | ok u =>
    rw [hck] at h
    cases h
    have hk : ∀ b : BC, b.isFlux = true ↔ b.kind ≠ .dirichlet := by
      intro d; unfold BC.isFlux; cases d.kind <;> simp
    constructor
    · unfold mobileFluxes
      rw [List.filter_filter]
      apply List.filter_congr
      intro b _
      rw [Bool.eq_iff_iff]
      simp only [Bool.and_eq_true, decide_eq_true_eq, hk]
      constructor
      · exact fun h => h.1
      · intro h; exact ⟨h, by rw [h.2]; simp⟩
    · unfold heatFluxes
      rw [List.filter_filter]
      apply List.filter_congr
      intro b _
      rw [Bool.eq_iff_iff]
      simp only [Bool.and_eq_true, decide_eq_true_eq, hk]

/-- C36 (b): each flux condition contributes exactly one term per surface it lists. -/
theorem C36_one_term_per_surface (bcs : List BC) (hu : (bcs.map (·.uid)).Nodup) (b : BC) (hb : b ∈ bcs)
    (s : ℕ) : (fluxTerms bcs).count (b.uid, s) = b.surfaces.count s := by
  induction bcs with
  | nil => simp at hb
  | cons a l ih =>
    rw [List.map_cons, List.nodup_cons] at hu
    have hcount : ∀ (x : BC) (u : ℕ), (x.surfaces.map fun s => (x.uid, s)).count (u, s) =
        if x.uid = u then x.surfaces.count s else 0 := by
      intro x u
      by_cases hx : x.uid = u
      · subst hx
        rw [if_pos rfl]
        exact List.count_map_of_injective _ (fun s => (x.uid, s)) (fun a b h => by simpa using h) s
      · rw [if_neg hx, List.count_eq_zero]
        simp [hx]
    unfold fluxTerms
    rw [List.flatMap_cons, List.count_append, hcount]
    rcases List.mem_cons.1 hb with rfl | hb
    · rw [if_pos rfl]
      have : (l.flatMap fun b => b.surfaces.map fun s => (b.uid, s)).count (b.uid, s) = 0 := by
        rw [List.count_eq_zero]
        intro hm
        simp only [List.mem_flatMap, List.mem_map, Prod.mk.injEq] at hm
        obtain ⟨c, hc, t, -, h1, -⟩ := hm
        exact hu.1 (by rw [← h1]; exact List.mem_map_of_mem hc)
      omega
    · rw [if_neg, Nat.zero_add]
      · exact ih hu.2 hb
      · intro h
        exact hu.1 (by rw [h]; exact List.mem_map_of_mem hb)

/-- C36 (c): exactly the accepted flux conditions on `"0"` or on a trap are dropped: they appear in no
equation and nothing is raised. -/
theorem C36_dropped_iff (dim : ℕ) (heat : Bool) (n : ℕ) (bcs tbcs hbcs : List BC)
    (h : attributeBCs dim heat n bcs = .ok (tbcs, hbcs)) (b : BC) (hb : b ∈ bcs)
    (hk : b.kind ≠ .dirichlet) :
    (b ∉ mobileFluxes hbcs ∧ b ∉ heatFluxes tbcs) ↔
      ∃ k, k ≤ n ∧ (b.field = .strInt k ∨ (k ≠ 0 ∧ b.field = .int k)) := by
  obtain ⟨h1, h2⟩ := C36_flux_routing dim heat n bcs tbcs hbcs h
  rw [h1, h2]
  have hck : checkBCs dim heat n bcs = .ok () := by
    unfold attributeBCs at h
    cases hck : checkBCs dim heat n bcs with
    | error e => rw [hck] at h; cases h
    | ok u => rfl
  have hkn := ((C35_accepts_iff dim heat n bcs).1 hck).1 b hb
  simp only [List.mem_filter, hb, hk, true_and, ne_eq, not_false_eq_true, decide_eq_true_eq]
  constructor
  · rintro ⟨h3, h4⟩
    rcases hkn with hh | ⟨k, hk', hh | hh⟩
    · exact absurd hh h4
    · refine ⟨k, hk', .inr ⟨?_, hh⟩⟩
      rintro rfl; exact h3 hh
    · exact ⟨k, hk', .inl hh⟩
  · rintro ⟨k, -, hh | ⟨h0, hh⟩⟩
    · rw [hh]; simp
    · rw [hh]; simp [h0]

example : (mobileFluxes (exBCs.filter fun b => b.field ≠ .name "T")).map (·.uid) = [3] ∧
    fluxTerms (mobileFluxes exBCs) = [(3, 3), (3, 4)] := by decide

/-! ## C37 -/

/-- C37 (a): with default ids, field `k` (as int or string) denotes trap `k` for sources, boundary
conditions (component), initial conditions and exports alike. -/
theorem C37_default_ids_agree (n k : ℕ) (h1 : 1 ≤ k) (h2 : k ≤ n) (f : Field)
    (hf : f = .int k ∨ f = .strInt k) :
    Dict.get? (fieldToObject n) f = some (.trap k) ∧
    icTarget (assignIds (List.replicate n none)) f = .ok k ∧
    getTrap (assignIds (List.replicate n none)) k = .ok k ∧
    Dict.get? (labelToFunction (assignIds (List.replicate n none))) f = some (.comp k) := by
  have hfind := find_range' n k
  rw [if_pos ⟨h1, h2⟩] at hfind
  obtain ⟨p, hp, hp2⟩ := Option.map_eq_some_iff.1 hfind
  rw [assignIds_default]
  refine ⟨?_, ?_, getTrap_default n k h1 h2, ?_⟩
  · rw [fieldToObject_eq]
    obtain ⟨j, rfl⟩ : ∃ j, k = j + 1 := ⟨k - 1, by omega⟩
    rcases hf with rfl | rfl <;> simp [fieldObj, h2]
  · unfold icTarget
    have : Dict.get? (fieldToComponent (List.range' 1 n)) f = some k := by
      rw [fieldToComponent_get]
      rcases hf with rfl | rfl <;> simp only [zipIdx_range', hp, Option.map_some, hp2, Option.some_or]
    rw [this]
    obtain ⟨j, rfl⟩ : ∃ j, k = j + 1 := ⟨k - 1, by omega⟩
    exact getTrap_default n (j + 1) h1 h2
  · rw [labelToFunction_get]
    rcases hf with rfl | rfl <;> simp only [zipIdx_range', hp, Option.map_some, hp2, Option.some_or]

/-- C37 (b): with arbitrary ids, an export of field `j` reads the component of the last trap whose id
is `j`; sources and boundary conditions still go by position. -/
theorem C37_export_by_id (ids : List ℕ) (j k : ℕ) (hk : 1 ≤ k) (f : Field)
    (hf : f = .int j ∨ f = .strInt j) :
    Dict.get? (labelToFunction ids) f = some (.comp k) ↔
      ids[k - 1]? = some j ∧ ∀ i, k ≤ i → ids[i]? ≠ some j := by
  have e : Dict.get? (labelToFunction ids) f =
      (((ids.zipIdx 1).reverse.find? fun p => decide (p.1 = j)).map fun p => ExpFun.comp p.2).or
          (if j = 0 then some (.comp 0) else none) := by
    rw [labelToFunction_get]
    rcases hf with rfl | rfl <;> rfl
  rw [e]
  cases hfd : (ids.zipIdx 1).reverse.find? fun p => decide (p.1 = j) with
  | none =>
    simp only [Option.map_none, Option.none_or]
    constructor
    · intro h
      split at h
      · simp at h; omega
      · cases h
    · rintro ⟨h1, h2⟩
      have := (find_last ids j (j, k)).2 ⟨rfl, hk, h1, h2⟩
      rw [hfd] at this; cases this
  | some p =>
    have hp := (find_last ids j p).1 hfd
    simp only [Option.map_some, Option.some_or, Option.some.injEq, ExpFun.comp.injEq]
    constructor
    · rintro rfl; exact hp.2.2
    · intro h
      have := (find_last ids j (j, k)).2 ⟨rfl, hk, h⟩
      rw [hfd] at this
      cases this
      rfl

/-- C37 (c): exports (by id) agree with sources and boundary conditions (by position) for every trap
exactly when each id is the position. -/
theorem C37_agree_iff (ids : List ℕ) :
    (∀ k, 1 ≤ k → k ≤ ids.length → Dict.get? (labelToFunction ids) (.int k) = some (.comp k)) ↔
      ids = List.range' 1 ids.length := by
  constructor
  · intro h
    apply List.ext_getElem (by simp)
    intro k h1 h2
    have := ((C37_export_by_id ids (k + 1) (k + 1) (by omega) _ (.inl rfl)).1 (h (k + 1) (by omega) (by omega))).1
    simp only [Nat.add_sub_cancel] at this
    rw [List.getElem?_eq_getElem h1] at this
    simp at this ⊢
    omega
  · intro h k h1 h2
    rw [C37_export_by_id _ _ _ h1 _ (.inl rfl)]
    rw [h]
    refine ⟨?_, ?_⟩
    · rw [List.getElem?_range' (by omega)]
      congr 1; omega
    · intro i hi
      by_cases hl : i < ids.length
      · rw [List.getElem?_range' hl]; simp; omega
      · rw [List.getElem?_eq_none (by simpa using hl)]; simp

/-- C37 (d): ids given by an earlier `initialise` are kept: after exchanging two traps each export field
denotes the other trap. -/
theorem C37_stale_ids :
    assignIds ((assignIds [none, none]).reverse.map some) = [2, 1] ∧
    Dict.get? (labelToFunction [2, 1]) (.int 1) = some (.comp 2) ∧
    Dict.get? (fieldToObject 2) (.int 1) = some (.trap 1) := by
  decide

/-- C37 (e): default ids may collide with a custom one: then the earlier trap cannot be exported. -/
theorem C37_colliding_ids : assignIds [some 2, none] = [2, 2] ∧
    Dict.get? (labelToFunction [2, 2]) (.int 2) = some (.comp 2) ∧
    ∀ f, Dict.get? (labelToFunction [2, 2]) f ≠ some (.comp 1) := by
  refine ⟨by decide, by decide, ?_⟩
  intro f hf
  cases f with
  | int j =>
    have := ((C37_export_by_id [2, 2] j 1 (by omega) _ (.inl rfl)).1 hf)
    have h1 := this.1
    have h2 := this.2 1 (by omega)
    simp at h1 h2
    exact h2 h1
  | strInt j =>
    have := ((C37_export_by_id [2, 2] j 1 (by omega) _ (.inr rfl)).1 hf)
    have h1 := this.1
    have h2 := this.2 1 (by omega)
    simp at h1 h2
    exact h2 h1
  | name s =>
    rw [labelToFunction_get] at hf
    simp only at hf
    split at hf
    · simp at hf
    · split at hf
      · simp at hf
      · split at hf
        · simp at hf
        · split at hf <;> simp at hf

example : Dict.get? (labelToFunction [7, 1, 7]) (.strInt 7) = some (.comp 3) := by decide

/-! ## C38 -/

/-- The unknowns of a problem. -/
def unknowns (n : ℕ) (sks : List ℕ) (u : Unknown) : Prop :=
  match u with
  | .mobile => True
  | .trap k => 1 ≤ k ∧ k ≤ n
  | .adsorbed j i => ∃ h : j < sks.length, i < sks[j]

/-- The position documented for an unknown. -/
def position (n : ℕ) (sks : List ℕ) : Unknown → ℕ
  | .mobile => 0
  | .trap k => k
  | .adsorbed j i => n + 1 + (sks.take j).sum + i

theorem mem_assignComponents (n : ℕ) (sks : List ℕ) (p : Unknown × ℕ) :
    p ∈ assignComponents n sks ↔ unknowns n sks p.1 ∧ p.2 = position n sks p.1 := by
  have hs0 : numSubSpaces n sks = 0 ↔ n = 0 ∧ sks.sum = 0 := by
    unfold numSubSpaces mixedElements
    simp only
    split <;> rename_i h
    · simp [h]
    · simp; exact fun a b => h ⟨a, b⟩
  obtain ⟨u, c⟩ := p
  unfold assignComponents
  split <;> rename_i h
  · rw [hs0] at h
    obtain ⟨rfl, hs⟩ := h
    simp only [List.mem_singleton, Prod.mk.injEq]
    cases u with
    | mobile => simp [unknowns, position]
    | trap k => simp [unknowns]; omega
    | adsorbed j i =>
      simp only [reduceCtorEq, false_and, unknowns, false_iff, not_and]
      rintro ⟨hj, hi⟩
      have := List.single_le_sum (l := sks) (by simp) sks[j] (List.getElem_mem hj)
      omega
  · simp only [assignTraps_spec, List.mem_cons, List.mem_append, mem_assignSKs, List.mem_map,
      List.mem_range, Prod.mk.injEq]
    cases u with
    | mobile => simp [unknowns, position]
    | trap k =>
      simp only [reduceCtorEq, false_and, false_or, Unknown.trap.injEq, and_false, exists_false,
        exists_const, or_false, unknowns, position]
      constructor
      · rintro ⟨d, hd, h1, h2⟩; omega
      · rintro ⟨h1, rfl⟩; exact ⟨c - 1, by omega, by omega, by omega⟩
    | adsorbed j i =>
      simp only [reduceCtorEq, false_and, and_false, exists_false, false_or, Unknown.adsorbed.injEq,
        unknowns, position]
      constructor
      · rintro ⟨j', i', hj, hi, ⟨h1, h2⟩, h3⟩
        have : j = j' := by omega
        subst this; subst h2
        exact ⟨⟨hj, hi⟩, by omega⟩
      · rintro ⟨⟨hj, hi⟩, rfl⟩
        exact ⟨j, i, hj, hi, ⟨by omega, rfl⟩, by omega⟩

/-- C38 (a): the components `0, …, n + #surfaces` are assigned in order, each exactly once, and their
number is the number of elements of the mixed space (one, if it is not mixed). -/
theorem C38_components (n : ℕ) (sks : List ℕ) :
    (assignComponents n sks).map Prod.snd = List.range (1 + n + sks.sum) ∧
    max 1 (numSubSpaces n sks) = 1 + n + sks.sum := by
  unfold assignComponents
  have hs : numSubSpaces n sks = if n = 0 ∧ sks.sum = 0 then 0 else 1 + n + sks.sum := by
    unfold numSubSpaces mixedElements
    simp only
    split
    · rfl
    · simp; omega
  constructor
  · split <;> rename_i h
    · rw [hs] at h
      split at h
      · rename_i h'; simp [h'.1, h'.2]
      · omega
    · simp only [assignTraps_spec, List.map_cons, List.map_append, (assignSKs_indices sks 0 (1 + n)).1,
        List.map_map]
      have e1 : List.range (1 + n + sks.sum) = 0 :: (List.range' 1 n ++ List.range' (1 + n) sks.sum) := by
        rw [List.range'_append_1, List.range_eq_range', show 1 + n + sks.sum = (n + sks.sum) + 1 by omega,
          List.range'_succ]
      rw [e1]
      congr 2
      rw [List.range'_eq_map_range]
      rfl
  · rw [hs]
    split <;> rename_i h
    · simp [h.1, h.2]
    · omega

/-- C38 (b): every unknown gets exactly one component, distinct unknowns get distinct ones, and each
reads back the component it was assigned. -/
theorem C38_read_back (n : ℕ) (sks : List ℕ) :
    (∀ u, unknowns n sks u → ∃! c, (u, c) ∈ assignComponents n sks) ∧
    (∀ u u' c, (u, c) ∈ assignComponents n sks → (u', c) ∈ assignComponents n sks → u = u') ∧
    (∀ p, p ∈ postComponents n sks ↔ p ∈ assignComponents n sks) := by
  refine ⟨?_, ?_, ?_⟩
  · intro u hu
    refine ⟨position n sks u, (mem_assignComponents n sks _).2 ⟨hu, rfl⟩, ?_⟩
    intro c hc
    exact ((mem_assignComponents n sks _).1 hc).2
  · intro u u' c h h'
    have hnd : ((assignComponents n sks).map Prod.snd).Nodup := by
      rw [(C38_components n sks).1]; exact List.nodup_range
    have := List.inj_on_of_nodup_map hnd h h' rfl
    exact congrArg Prod.fst this
  · rintro ⟨u, c⟩
    rw [mem_assignComponents]
    unfold postComponents
    simp only [List.mem_append, mem_assignSKs, List.mem_map, List.mem_range', List.mem_singleton,
      Prod.mk.injEq]
    cases u with
    | mobile => simp [unknowns, position]
    | trap k =>
      simp only [Unknown.trap.injEq, reduceCtorEq, false_and, and_false, exists_false, exists_const,
        or_false, unknowns, position]
      constructor
      · rintro ⟨d, ⟨i, hi, rfl⟩, h1, h2⟩; omega
      · rintro ⟨h1, rfl⟩; exact ⟨c, ⟨c - 1, by omega, by omega⟩, rfl, rfl⟩
    | adsorbed j i =>
      simp only [reduceCtorEq, false_and, and_false, exists_false, false_or, or_false,
        Unknown.adsorbed.injEq, unknowns, position]
      constructor
      · rintro ⟨j', i', hj, hi, ⟨h1, h2⟩, h3⟩
        have : j = j' := by omega
        subst this; subst h2
        exact ⟨⟨hj, hi⟩, by omega⟩
      · rintro ⟨⟨hj, hi⟩, rfl⟩
        exact ⟨j, i, hj, hi, ⟨by omega, rfl⟩, by omega⟩

/-- C38 (c): in a mixed space the component of an unknown carries the element of its kind. -/
theorem C38_element_kind (n : ℕ) (sks : List ℕ) (hm : numSubSpaces n sks ≠ 0) (u : Unknown) (c : ℕ)
    (h : (u, c) ∈ assignComponents n sks) :
    (mixedElements n sks)[c]? = some (match u with
      | .mobile => .solute
      | .trap _ => .trap
      | .adsorbed _ _ => .adsorbed) := by
  have hc : c < 1 + n + sks.sum := by
    have : c ∈ (assignComponents n sks).map Prod.snd := List.mem_map.2 ⟨_, h, rfl⟩
    rw [(C38_components n sks).1] at this
    simpa using this
  obtain ⟨hu, hp⟩ := (mem_assignComponents n sks _).1 h
  have he : mixedElements n sks =
      [.solute] ++ List.replicate n .trap ++ List.replicate sks.sum .adsorbed := by
    unfold numSubSpaces at hm
    unfold mixedElements at hm ⊢
    simp only at hm ⊢
    split
    · rename_i h; rw [if_pos h] at hm; exact absurd rfl hm
    · rfl
  rw [he]
  simp only at hp
  cases u with
  | mobile => simp only [position] at hp; subst hp; rfl
  | trap k =>
    simp only [position, unknowns] at hp hu
    subst hp
    rw [List.getElem?_append_left (by simp; omega), List.getElem?_append_right (by simp; omega),
      List.getElem?_replicate, if_pos (by simp; omega)]
  | adsorbed j i =>
    simp only [position, unknowns] at hp hu
    rw [List.getElem?_append_right (by simp; omega), List.getElem?_replicate, if_pos (by simp; omega)]

example : assignComponents 2 [2, 1] =
    [(.mobile, 0), (.trap 1, 1), (.trap 2, 2), (.adsorbed 0 0, 3), (.adsorbed 0 1, 4), (.adsorbed 1 0, 5)] ∧
    mixedElements 2 [2, 1] = [.solute, .trap, .trap, .adsorbed, .adsorbed, .adsorbed] := by decide

/-! ## C39 -/

theorem applyICs_spec {V : Type} (ids : List ℕ) : ∀ (ics : List (IC V)) (u : List V),
    ((∃ r, applyICs ids u ics = .ok r) ↔ ∀ ic ∈ ics, ∃ k, icTarget ids ic.field = .ok k) ∧
    ∀ r, applyICs ids u ics = .ok r → r.length = u.length ∧ ∀ k, k < u.length →
      r[k]? = ((lastWith (fun ic : IC V => decide (icTarget ids ic.field = .ok k)) ics).map (·.value)).or u[k]?
  | [], u => by
    refine ⟨by simp [applyICs], ?_⟩
    intro r hr
    cases hr
    simp [lastWith]
  | ic :: ics, u => by
    cases ht : icTarget ids ic.field with
    | error e => simp [applyICs, ht]
    | ok c =>
      obtain ⟨h1, h2⟩ := applyICs_spec ids ics (u.set c ic.value)
      simp only [applyICs, ht, List.forall_mem_cons]
      refine ⟨by rw [h1]; simp, ?_⟩
      intro r hr
      obtain ⟨h3, h4⟩ := h2 r hr
      rw [List.length_set] at h3 h4
      refine ⟨h3, fun k hk => ?_⟩
      rw [h4 k hk]
      simp only [lastWith, List.reverse_cons, List.find?_append]
      cases hl : ics.reverse.find? fun ic => decide (icTarget ids ic.field = .ok k) with
      | some x => simp
      | none =>
        simp only [Option.map_none, Option.none_or, List.find?_cons, ht, List.find?_nil]
        by_cases hck : c = k
        · subst hck
          simp [hk]
        · have : ¬ (Except.ok c : Except PyErr ℕ) = .ok k := by
            intro h; cases h; exact hck rfl
          simp [this, hck]

theorem foldl_set {V : Type} (v : V) : ∀ (c index : ℕ) (u : List V),
    ((List.range c).foldl (fun u i => u.set (index + i) v) u).length = u.length ∧ ∀ k, k < u.length →
      ((List.range c).foldl (fun u i => u.set (index + i) v) u)[k]? =
        if index ≤ k ∧ k < index + c then some v else u[k]?
  | 0, index, u => by
    refine ⟨by simp, fun k _ => ?_⟩
    rw [if_neg (by omega)]
    simp
  | c + 1, index, u => by
    obtain ⟨h1, h2⟩ := foldl_set v c index u
    rw [List.range_succ, List.foldl_append]
    simp only [List.foldl_cons, List.foldl_nil, List.length_set]
    refine ⟨h1, fun k hk => ?_⟩
    rw [List.getElem?_set, h2 k hk, h1]
    by_cases hk' : index + c = k
    · rw [if_pos hk', if_pos (by omega), if_pos (by omega)]
    · rw [if_neg hk']
      by_cases h : index ≤ k ∧ k < index + c
      · rw [if_pos h, if_pos (by omega)]
      · rw [if_neg h, if_neg (by omega)]

theorem applySKs_spec {V : Type} : ∀ (sks : List (ℕ × V)) (index : ℕ) (u : List V),
    (applySKs index u sks).length = u.length ∧
    (∀ k, k < index → k < u.length → (applySKs index u sks)[k]? = u[k]?) ∧
    (index + (sks.map Prod.fst).sum ≤ u.length → ∀ j, ∀ h : j < sks.length, ∀ i, i < sks[j].1 →
      (applySKs index u sks)[index + ((sks.take j).map Prod.fst).sum + i]? = some sks[j].2)
  | [], index, u => by simp [applySKs]
  | (c, v) :: sks, index, u => by
    obtain ⟨f1, f2⟩ := foldl_set v c index u
    obtain ⟨h1, h2, h3⟩ := applySKs_spec sks (index + c)
      ((List.range c).foldl (fun u i => u.set (index + i) v) u)
    simp only [applySKs]
    refine ⟨by rw [h1, f1], ?_, ?_⟩
    · intro k hk hku
      rw [h2 k (by omega) (by rw [f1]; exact hku), f2 k hku, if_neg (by omega)]
    · intro hlen j hj i hi
      simp only [List.map_cons, List.sum_cons] at hlen
      cases j with
      | zero =>
        simp only [List.take_zero, List.map_nil, List.sum_nil, Nat.add_zero, List.getElem_cons_zero] at hi ⊢
        rw [h2 _ (by omega) (by rw [f1]; omega), f2 _ (by omega), if_pos (by omega)]
      | succ j =>
        simp only [List.take_succ_cons, List.map_cons, List.sum_cons, List.getElem_cons_succ] at hi ⊢
        have := h3 (by rw [f1]; omega) j (by simpa using hj) i hi
        rw [← Nat.add_assoc]
        exact this

/-- C39 (a): for arbitrary ids, what the initial state is in terms of the component each initial
condition is routed to. -/
theorem C39_initial_state {V : Type} (zero : V) (ids : List ℕ) (ics : List (IC V)) (sks : List (ℕ × V)) :
    ((∃ u, initialState zero ids ics sks = .ok u) ↔ ∀ ic ∈ ics, ∃ k, icTarget ids ic.field = .ok k) ∧
    ∀ u, initialState zero ids ics sks = .ok u →
      u.length = 1 + ids.length + (sks.map Prod.fst).sum ∧
      (∀ k, k ≤ ids.length → u[k]? = some
        (((lastWith (fun ic : IC V => decide (icTarget ids ic.field = .ok k)) ics).map (·.value)).getD zero)) ∧
      (∀ j, ∀ h : j < sks.length, ∀ i, i < sks[j].1 →
        u[ids.length + 1 + ((sks.take j).map Prod.fst).sum + i]? = some sks[j].2) := by
  obtain ⟨h1, h2⟩ := applyICs_spec ids ics
    (List.replicate (1 + ids.length + (sks.map Prod.fst).sum) zero)
  unfold initialState
  simp only
  constructor
  · rw [← h1]
    cases applyICs ids _ ics <;> simp
  · intro u hu
    cases hr : applyICs ids (List.replicate (1 + ids.length + (sks.map Prod.fst).sum) zero) ics with
    | error e => rw [hr] at hu; cases hu
    | ok r =>
      rw [hr] at hu
      cases hu
      obtain ⟨h3, h4⟩ := h2 r hr
      rw [List.length_replicate] at h3 h4
      obtain ⟨s1, s2, s3⟩ := applySKs_spec sks (ids.length + 1) r
      refine ⟨by rw [s1, h3], ?_, ?_⟩
      · intro k hk
        rw [s2 k (by omega) (by omega), h4 k (by omega), List.getElem?_replicate, if_pos (by omega)]
        cases lastWith (fun ic : IC V => decide (icTarget ids ic.field = .ok k)) ics <;> simp
      · exact s3 (by omega)

theorem icTarget_default (n : ℕ) (f : Field) (k : ℕ) :
    icTarget (assignIds (List.replicate n none)) f = .ok k ↔ k ≤ n ∧ FieldOfComponent f k := by
  have key : ∀ j, ((((List.range' 1 n).map fun i => (i, i)).reverse.find? fun p => decide (p.1 = j)).map
      fun p => p.2) = if 1 ≤ j ∧ j ≤ n then some j else none := find_range' n
  rw [assignIds_default]
  have hnum : ∀ j, (((((List.range' 1 n).zipIdx 1).reverse.find? fun p => decide (p.1 = j)).map
      fun p => p.2).or (if j = 0 then some 0 else none)) = if j ≤ n then some j else none := by
    intro j
    rw [zipIdx_range', key]
    cases j with
    | zero => simp
    | succ j => by_cases h : j + 1 ≤ n <;> simp [h]
  have hres : ∀ j, Dict.get? (fieldToComponent (List.range' 1 n)) f = (if j ≤ n then some j else none) →
      (icTarget (List.range' 1 n) f = .ok k ↔ k ≤ n ∧ j = k) := by
    intro j hj
    unfold icTarget
    rw [hj]
    by_cases h : j ≤ n
    · rw [if_pos h]
      cases j with
      | zero =>
        simp only [Except.ok.injEq]
        constructor
        · rintro rfl; exact ⟨h, rfl⟩
        · exact fun h => h.2
      | succ j =>
        simp only
        rw [getTrap_default n (j + 1) (by omega) h]
        simp only [Except.ok.injEq]
        constructor
        · rintro rfl; exact ⟨h, rfl⟩
        · exact fun h => h.2
    · rw [if_neg h]
      simp only [reduceCtorEq, false_iff, not_and]
      intro h1 h2; omega
  cases f with
  | int j =>
    rw [hres j (by rw [fieldToComponent_get]; exact hnum j)]
    simp [FieldOfComponent]
  | strInt j =>
    rw [hres j (by rw [fieldToComponent_get]; exact hnum j)]
    simp [FieldOfComponent]
  | name s =>
    by_cases hs : s = "solute"
    · subst hs
      unfold icTarget
      rw [fieldToComponent_get]
      simp [FieldOfComponent]
      constructor
      · rintro rfl; simp
      · rintro ⟨-, h⟩; exact h.symm
    · unfold icTarget
      rw [fieldToComponent_get]
      simp [hs, FieldOfComponent]

/-- C39 (b): with default ids every component starts from the last initial condition given for its
field, or from zero; the adsorbed concentrations start from the values of their conditions. A field
that denotes no component raises. -/
theorem C39_default_ids {V : Type} (zero : V) (n : ℕ) (ics : List (IC V)) (sks : List (ℕ × V)) :
    let ids := assignIds (List.replicate n none)
    ((∃ u, initialState zero ids ics sks = .ok u) ↔
      ∀ ic ∈ ics, ∃ k, k ≤ n ∧ FieldOfComponent ic.field k) ∧
    ∀ u, initialState zero ids ics sks = .ok u →
      (∀ k, k ≤ n → u[k]? = some
        (((lastWith (fun ic : IC V => decide (FieldOfComponent ic.field k)) ics).map (·.value)).getD zero)) ∧
      (∀ j, ∀ h : j < sks.length, ∀ i, i < sks[j].1 →
        u[n + 1 + ((sks.take j).map Prod.fst).sum + i]? = some sks[j].2) := by
  intro ids
  have hlen : ids.length = n := by simp [ids, assignIds]
  obtain ⟨h1, h2⟩ := C39_initial_state zero ids ics sks
  refine ⟨?_, ?_⟩
  · rw [h1]
    simp only [ids, icTarget_default]
  · intro u hu
    obtain ⟨-, h3, h4⟩ := h2 u hu
    rw [hlen] at h3 h4
    refine ⟨fun k hk => ?_, h4⟩
    rw [h3 k hk]
    congr 4
    funext ic
    rw [decide_eq_decide, icTarget_default]
    exact ⟨fun h => h.2, fun h => ⟨hk, h⟩⟩

/-- C39 (c): with custom ids an initial condition on field `j` goes to the trap whose *id* is the
*position* of the (last) trap with id `j`. -/
theorem C39_custom_ids (ids : List ℕ) (j p : ℕ) (hp : 1 ≤ p) (h1 : ids[p - 1]? = some j)
    (h2 : ∀ i, p ≤ i → ids[i]? ≠ some j) : icTarget ids (.int j) = getTrap ids p := by
  unfold icTarget
  have := (find_last ids j (j, p)).2 ⟨rfl, hp, h1, h2⟩
  rw [fieldToComponent_get]
  simp only [this, Option.map_some, Option.some_or]
  obtain ⟨q, rfl⟩ : ∃ q, p = q + 1 := ⟨p - 1, by omega⟩
  rfl

/-- C39 (d): hence with ids 2 and 1 the condition meant for one trap initialises the other, and with a
single trap of id 5 the condition raises `ValueError`. -/
theorem C39_custom_ids_wrong :
    initialState 0 [2, 1] [⟨.int 2, 7⟩] [] = .ok [0, 0, 7] ∧
    Dict.get? (labelToFunction [2, 1]) (.int 2) = some (.comp 1) ∧
    (∃ m, initialState 0 [5] [⟨.int 5, 7⟩] [] = .error (.valueError m)) := by
  exact ⟨by decide, by decide, "Couldn't find trap", by decide⟩

example : initialState 0 (assignIds [none, none]) [⟨.int 2, 7⟩, ⟨.name "solute", 5⟩, ⟨.strInt 2, 8⟩]
    [(2, 3), (1, 4)] = .ok [5, 0, 8, 3, 3, 4] := by decide

end Festim.Props
