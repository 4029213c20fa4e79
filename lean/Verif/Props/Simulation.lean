import Verif.Proofs.Simulation
import Verif.Props.Exports
import Verif.Props.Temperature

/-! # Whole simulations: `initialise` and `run` (C65, C66, C71, C72) -/

set_option linter.unusedSectionVars false

namespace Festim.Props

open Festim.Spec

section
variable {σ F : Type}

/-! ## C65 -/

/-- **C65 (a).** The settings are checked first and in this order, whatever the rest of the model. -/
theorem C65_guards (zero : F) (x : SimInput σ F) :
    (x.settings.transient = false → x.dt ≠ none →
      x.initialise zero = .error (.attributeError "dt must be None in steady state simulations")) ∧
    (x.settings.transient = true → x.settings.finalTime = none →
      x.initialise zero = .error (.attributeError
        "final_time argument must be provided to settings in transient simulations")) ∧
    (x.settings.transient = true → x.settings.finalTime ≠ none → x.dt = none →
      x.initialise zero = .error (.attributeError "dt must be provided in transient simulations")) ∧
    ((x.settings.transient = true → x.settings.finalTime ≠ none ∧ x.dt ≠ none) →
      (x.settings.transient = false → x.dt = none) → x.temp = none →
      x.initialise zero = .error (.attributeError "Temperature is not defined")) := by
  unfold SimInput.initialise initGuards
  cases h1 : x.settings.transient <;> cases h2 : x.settings.finalTime <;> cases h3 : x.dt <;>
    cases h4 : x.temp <;> simp

/-- **C65 (b).** A simulation that could be initialised has consistent settings: a stepsize if and only
if it is transient, a final time if it is transient, a temperature. -/
theorem C65_consistent (zero : F) (x : SimInput σ F) (I : Initialised σ F)
    (h : x.initialise zero = .ok I) :
    (x.dt ≠ none ↔ x.settings.transient = true) ∧
    (x.settings.transient = true → x.settings.finalTime ≠ none) ∧ x.temp ≠ none := by
  obtain ⟨hg, -⟩ := (initialise_stages zero x).1 ⟨I, h⟩
  obtain ⟨h1, h2, h3, h4⟩ := (initGuards_ok _ _ _).1 hg
  refine ⟨⟨?_, ?_⟩, h2, ?_⟩
  · intro hd
    by_contra ht
    have := h1 (by simpa using ht)
    cases hx : x.dt with
    | none => exact hd hx
    | some d => rw [hx] at this; cases this
  · intro ht hd
    have := h3 ht
    rw [hd] at this; cases this
  · intro hT
    rw [hT] at h4; cases h4

/-- **C65 (c).** Exactly which simulations can be initialised, for traps with default ids and materials
written as documented. -/
theorem C65_initialise_iff (zero : F) (x : SimInput σ F) (n : ℕ) (T : TempModel F)
    (ms : List Material) (hids : x.trapIds = List.replicate n none) (hT : x.temp = some T)
    (hms : x.materials = some ms) (hne : ms ≠ []) (hdoc : ∀ m ∈ ms, Documented m)
    (htype : x.meshType = "cartesian" ∨ x.meshType = "cylindrical" ∨ x.meshType = "spherical") :
    (∃ I, x.initialise zero = .ok I) ↔ Ready zero x T ms n := by
  have hidl : ∀ m ∈ ms, m.id.toList ≠ [] := fun m hm => (hdoc m hm).1
  have hlen : x.trapIds.length = n := by rw [hids]; simp
  have hmeas : (∃ r, simMeasures x.mesh (some ms) = .ok r) ↔
      ∀ vs, x.mesh = .line vs → FitsLine ms vs := by
    unfold simMeasures
    cases hm : x.mesh with
    | other => simp
    | line vs =>
      simp only [Geometry.line.injEq, forall_eq']
      rw [← defineMeasures_fits (3 / 10000000000000000) ms vs hne hdoc]
      cases defineMeasures (3 / 10000000000000000) ms vs <;> simp [Except.map]
  have hsome : ∀ {α : Type} (o : Option α), o.isSome = true ↔ o ≠ none := by
    intro α o; cases o <;> simp
  have hfalse : ∀ {α : Type} (o : Option α), o.isSome = false ↔ o = none := by
    intro α o; cases o <;> simp
  have hkind : ∀ heatok : Prop,
      ((∃ s, createTemp zero T x.dt.isSome x.meshType (some ms) = .ok s) ∧
        checkMaterials ms T.kind = .ok () ∧ heatok) ↔
      ((∃ s, createTemp zero T x.dt.isSome x.meshType (some ms) = .ok s) ∧
        (checkConsistency ms = .ok () ∧ (ms.flatMap fun m => m.id.toList).Nodup) ∧ heatok) := by
    intro heatok
    rw [checkMaterials_ok ms hne, createTemp_ok zero T _ _ htype ms hne hidl]
    constructor
    · rintro ⟨a, ⟨b, c, -⟩, d⟩; exact ⟨a, ⟨b, c⟩, d⟩
    · rintro ⟨a, ⟨b, c⟩, d⟩
      refine ⟨a, ⟨b, c, ?_⟩, d⟩
      cases hTT : T with
      | analytical v f => simp [TempModel.kind, TempModel.heat]
      | fromXDMF f => simp [TempModel.kind, TempModel.heat]
      | heatSteady solve =>
        simp only [TempModel.kind, TempModel.heat]
        exact ⟨(a.1 solve hTT).1, by simp⟩
      | heatTransient ic subs solve =>
        simp only [TempModel.kind, TempModel.heat]
        have := (a.2 ic subs solve hTT).2.2
        exact ⟨fun m hm => (this m hm).1, fun _ m hm => (this m hm).2⟩
  rw [initialise_stages]
  simp only [hT, Option.some.injEq, exists_eq_left', hms, simCheckMaterials]
  rw [hkind, C34_accepts_iff, C35_accepts_iff, initGuards_ok, checkMeshDim_ok, hmeas,
    createTemp_ok zero T _ _ htype ms hne hidl, C30_all_or_none, simProperties_ok _ _ ms hne, hInit_ok zero x _ n hids,
    exportsLoop_ok, createDirichlets_iff]
  simp only [List.length_map, hlen, Option.isSome_some, and_true, hsome, hfalse]
  have hsub : numSubSpaces n ((skOf x (x.bcs.filter fun b => b.field ≠ .name "T")).map Prod.fst) ≠ 0 ↔
      (n ≠ 0 ∨ ∃ b ∈ x.bcs, b.kind = .surfaceKinetics ∧ b.field ≠ .name "T" ∧ b.surfaces ≠ []) := by
    rw [ne_eq, numSubSpaces_zero, not_and_or]
    apply or_congr Iff.rfl
    rw [← ne_eq, ← Nat.pos_iff_ne_zero, List.sum_pos_iff_exists_pos_nat]
    constructor
    · rintro ⟨c, hc, hpos⟩
      simp only [skOf, List.map_map, List.mem_map, List.mem_filter, Function.comp] at hc
      obtain ⟨b, ⟨⟨hb, hb1⟩, hb2⟩, rfl⟩ := hc
      exact ⟨b, hb, by simpa using hb2, by simpa using hb1, List.length_pos_iff.1 hpos⟩
    · rintro ⟨b, hb, h1, h2, h3⟩
      refine ⟨b.surfaces.length, ?_, List.length_pos_iff.2 h3⟩
      simp only [skOf, List.map_map, List.mem_map, List.mem_filter, Function.comp]
      exact ⟨b, ⟨⟨hb, by simpa using h2⟩, by simpa using h1⟩, rfl⟩
  generalize hN : numSubSpaces n ((skOf x (x.bcs.filter fun b => b.field ≠ .name "T")).map Prod.fst) = N
    at hsub
  have hbig : N ≠ 0 → n < N := by
    intro h
    subst hN
    rw [numSubSpaces_pos _ _ h]
    omega
  constructor
  · rintro ⟨⟨g1, g2, g3⟩, hs, ⟨b1, b2, b3, b4⟩, ⟨m1, m2⟩, hl, ⟨t1, t2⟩, ⟨hc, hu⟩, hpot,
      ⟨hi, hf, hd⟩, ⟨e1, e2⟩⟩
    refine ⟨g1, g2, g3, hs, b1, fun b hb h => (hsome _).2 (b3 b hb h), b2, b4, m1, m2, hl, hu, ⟨?_, ?_⟩, hpot, ⟨?_, ?_, ?_⟩, ?_, ?_, t1, t2,
      hi, hf, ?_, e1, e2⟩
    · exact hc (·.S0) (by simp)
    · exact hc (·.ES) (by simp)
    · exact hc (·.thermalCond) (by simp)
    · exact hc (·.heatCapacity) (by simp)
    · exact hc (·.rho) (by simp)
    · exact hc (fun m : Material => m.borders.isSome) (by simp)
    · exact hc (·.Q) (by simp)
    · intro hex bc hbc hk k hf
      have hT' : bc.field ≠ .name "T" := by rw [hf]; simp
      rcases hd bc (List.mem_filter.2 ⟨hbc, by simpa using hT'⟩) hT' hk with h0 | ⟨j, hj, -⟩
      · exact (hsub.2 hex) h0
      · rw [hf] at hj; cases hj
  · intro r
    refine ⟨⟨r.steady, r.final, r.step⟩, r.sources, ⟨r.fields, r.kinetics, fun b hb h => (hsome _).1 (r.heat b hb h), r.clash⟩,
      ⟨r.spherical, r.cylindrical⟩, r.line, ⟨r.heatSteady, r.heatTransient⟩, ⟨?_, r.ids⟩, r.potential,
      ⟨r.initial, r.forms, ?_⟩, ⟨r.adsorbed, r.txt⟩⟩
    · intro f hf
      simp only [List.mem_cons, List.not_mem_nil, or_false] at hf
      rcases hf with rfl | rfl | rfl | rfl | rfl | rfl | rfl
      · exact r.solubility.1
      · exact r.solubility.2
      · exact r.thermal.1
      · exact r.thermal.2.1
      · exact r.thermal.2.2
      · exact r.borders
      · exact r.soret
    · intro bc hbc hT' hk
      have hbc' := (List.mem_filter.1 hbc).1
      by_cases h0 : N = 0
      · exact .inl h0
      · right
        rcases r.fields bc hbc' with h | ⟨k, hk', h | h⟩
        · exact absurd h hT'
        · exact ⟨k, h, by have := hbig h0; omega⟩
        · exact absurd h (r.dirichlet (hsub.1 h0) bc hbc' hk k)

/-- **C65 (d).** A simulation without materials cannot be initialised, whether `materials` was not given or is
an empty list.  The rest being in order and the mesh not a `Mesh1D`, the first one raises AttributeError and the
second one IndexError. -/
theorem C65_no_materials (zero : F) (x : SimInput σ F) (h : x.materials = none ∨ x.materials = some []) :
    (∀ I, x.initialise zero ≠ .ok I) ∧
    ∀ T, x.temp = some T → T.heat = none → x.mesh = .other →
      initGuards x.settings x.dt.isSome true = .ok () →
      (∀ s ∈ x.sources, Acceptable false x.trapIds.length s) →
      checkBCs x.dim false x.trapIds.length x.bcs = .ok () →
      checkMeshDim x.meshType x.dim = .ok () → (∃ s, T.create zero (fun _ => 0) = .ok s) →
      (x.materials = none → ∃ msg, x.initialise zero = .error (.attributeError msg)) ∧
      (x.materials = some [] → ∃ msg, x.initialise zero = .error (.indexError msg)) := by
  constructor
  · intro I hI
    obtain ⟨-, T, -, -, -, -, -, -, h1, h2, -⟩ := (initialise_stages zero x).1 ⟨I, hI⟩
    rcases h with h | h <;> rw [h] at h1 h2
    · cases h1
    · cases h2
  · intro T hT hheat hmesh hg hsrc hbc hdim ⟨s, hs⟩
    have hsrc' : (attributeSources false
        { mobile := [], temp := [], traps := x.trapIds.map fun _ => [] } x.sources).2 = none := by
      rw [C34_accepts_iff]; simpa using hsrc
    have hct : ∀ ms, createTemp zero T x.dt.isSome x.meshType ms = .ok s := by
      intro ms; simp only [createTemp, hheat, hs]
    generalize has : attributeSources false
        { mobile := [], temp := [], traps := x.trapIds.map fun _ => [] } x.sources = as at hsrc'
    obtain ⟨src, oe⟩ := as
    simp only at hsrc'
    subst hsrc'
    rw [List.map_const'] at has
    constructor
    · intro hm
      unfold SimInput.initialise
      simp [hT, hg, hheat, has, attributeBCs, hbc, hdim, hmesh, simMeasures, hct, hm, simCheckMaterials]
    · intro hm
      unfold SimInput.initialise
      simp [hT, hg, hheat, has, attributeBCs, hbc, hdim, hmesh, simMeasures, hct, hm, simCheckMaterials,
        checkMaterials, simProperties]

/-- **C65 (d').** On a `Mesh1D` with at least one vertex it is the definition of the measures which fails, before
the temperature is created: TypeError when `materials` was not given, IndexError for an empty list. -/
theorem C65_no_materials_1d (zero : F) (x : SimInput σ F) (T : TempModel F) (hT : x.temp = some T)
    (vs : List ℚ) (hvs : vs ≠ []) (hmesh : x.mesh = .line vs)
    (hg : initGuards x.settings x.dt.isSome true = .ok ())
    (hsrc : ∀ s ∈ x.sources, Acceptable T.heat.isSome x.trapIds.length s)
    (hbc : checkBCs x.dim T.heat.isSome x.trapIds.length x.bcs = .ok ())
    (hdim : checkMeshDim x.meshType x.dim = .ok ()) :
    (x.materials = none → ∃ msg, x.initialise zero = .error (.typeError msg)) ∧
    (x.materials = some [] → ∃ msg, x.initialise zero = .error (.indexError msg)) := by
  have hsrc' : (attributeSources T.heat.isSome
      { mobile := [], temp := [], traps := x.trapIds.map fun _ => [] } x.sources).2 = none := by
    rw [C34_accepts_iff]; simpa using hsrc
  generalize has : attributeSources T.heat.isSome
      { mobile := [], temp := [], traps := x.trapIds.map fun _ => [] } x.sources = as at hsrc'
  obtain ⟨src, oe⟩ := as
  simp only at hsrc'
  subst hsrc'
  rw [List.map_const'] at has
  constructor
  · intro hm
    unfold SimInput.initialise
    simp [hT, hg, has, attributeBCs, hbc, hdim, hmesh, simMeasures, hm]
  · intro hm
    obtain ⟨v, vs, rfl⟩ := List.exists_cons_of_ne_nil hvs
    unfold SimInput.initialise
    simp [hT, hg, has, attributeBCs, hbc, hdim, hmesh, simMeasures, hm, defineMeasures, meshSize, meshStart]
    exact ⟨_, rfl⟩

/-! ## C71 -/

/-- **C71 (a).** Once the temperature of a heat transfer problem has been created, the check of
materials cannot find a missing thermal property: the messages "Missing thermal_cond in materials",
"Missing heat_capacity in materials" and "Missing rho in materials" are never seen. -/
theorem C71_missing_unreachable (zero : F) (T : TempModel F) (dt : Bool) (type : String)
    (htype : type = "cartesian" ∨ type = "cylindrical" ∨ type = "spherical") (ms : List Material)
    (hids : ∀ m ∈ ms, m.id.toList ≠ []) (s : TempState F)
    (h : createTemp zero T dt type (some ms) = .ok s) (e : PyErr)
    (he : simCheckMaterials (some ms) T.kind = .error e) :
    checkConsistency ms = .error e ∨ checkUniqueIds ms = .error e := by
  simp only [simCheckMaterials, checkMaterials] at he
  by_cases hne : ms = []
  · subst hne; simp at he
  rw [if_pos (List.length_pos_iff.2 hne)] at he
  cases hc : checkConsistency ms with
  | error e' => rw [hc] at he; cases he; exact .inl rfl
  | ok u =>
    rw [hc] at he
    cases hu : checkUniqueIds ms with
    | error e' => rw [hu] at he; cases he; exact .inr rfl
    | ok v =>
      rw [hu] at he
      exfalso
      have h2 := (createTemp_ok zero T dt type htype ms hne hids).1 ⟨s, h⟩
      have h3 := C30_missing ms hne T.kind hc
      have h4 : checkMissing ms T.kind = .ok () := by
        rw [h3]
        cases hTT : T with
        | analytical v f => simp [TempModel.kind, TempModel.heat]
        | fromXDMF f => simp [TempModel.kind, TempModel.heat]
        | heatSteady solve =>
          simp only [TempModel.kind, TempModel.heat]
          exact ⟨(h2.1 solve hTT).1, by simp⟩
        | heatTransient ic subs solve =>
          simp only [TempModel.kind, TempModel.heat]
          have := (h2.2 ic subs solve hTT).2.2
          exact ⟨fun m hm => (this m hm).1, fun _ m hm => (this m hm).2⟩
      simp only at he
      rw [h4] at he
      cases he

theorem heatForms_error (tr : Bool) (type : String)
    (htype : type = "cartesian" ∨ type = "cylindrical" ∨ type = "spherical") :
    ∀ ms : List Material, (∀ m ∈ ms, m.id.toList ≠ []) →
    (∃ m ∈ ms, m.thermalCond = false ∨ tr = true ∧ (m.heatCapacity = false ∨ m.rho = false)) →
    ∃ msg, heatForms tr true type ms = .error (.typeError msg)
  | [], _, h => by simp at h
  | m :: ms, hid, h => by
    simp only [heatForms]
    by_cases hm : m.thermalCond = false ∨ tr = true ∧ (m.heatCapacity = false ∨ m.rho = false)
    · have : ∃ msg, heatTerms tr true type m = .error (.typeError msg) := by
        unfold heatTerms
        rw [if_neg (hid m (by simp))]
        cases htr : tr <;> cases h1 : m.thermalCond <;> cases h2 : m.heatCapacity <;>
          cases h3 : m.rho <;> simp [htr, h1, h2, h3, htype] at hm ⊢
      obtain ⟨msg, hmsg⟩ := this
      exact ⟨msg, by rw [hmsg]⟩
    · have : heatTerms tr true type m = .ok () := by
        unfold heatTerms
        rw [if_neg (hid m (by simp))]
        cases htr : tr <;> cases h1 : m.thermalCond <;> cases h2 : m.heatCapacity <;>
          cases h3 : m.rho <;> simp [htr, h1, h2, h3] at hm ⊢
      rw [this]
      refine heatForms_error tr type htype ms (fun m hm => hid m (by simp [hm])) ?_
      obtain ⟨m', hm', h'⟩ := h
      rcases List.mem_cons.1 hm' with rfl | hm'
      · exact absurd h' hm
      · exact ⟨m', hm', h'⟩

/-- **C71 (b).** In a simulation that is otherwise ready, a heat transfer problem whose materials lack a
thermal property raises `TypeError`: `thermal_cond` always, `heat_capacity` and `rho` when it is
transient. -/
theorem C71_type_error (zero : F) (x : SimInput σ F) (n : ℕ) (T : TempModel F) (tr : Bool)
    (ms : List Material) (hids : x.trapIds = List.replicate n none) (hT : x.temp = some T)
    (hheat : T.heat = some tr) (hms : x.materials = some ms) (hne : ms ≠ [])
    (hdoc : ∀ m ∈ ms, Documented m)
    (htype : x.meshType = "cartesian" ∨ x.meshType = "cylindrical" ∨ x.meshType = "spherical")
    (hset : (x.settings.transient = false → x.dt = none) ∧
      (x.settings.transient = true → x.settings.finalTime ≠ none ∧ x.dt ≠ none))
    (htr : tr = true → x.settings.transient = true)
    (hic : ∀ ic subs solve, T = .heatTransient ic subs solve → ic ≠ .missing)
    (hsrc : ∀ s ∈ x.sources, Acceptable true n s)
    (hbc : checkBCs x.dim true n x.bcs = .ok ())
    (hdim : (x.meshType = "spherical" → x.dim = 1) ∧ (x.meshType = "cylindrical" → x.dim ≤ 2))
    (hline : ∀ vs, x.mesh = .line vs → FitsLine ms vs)
    (hmiss : ∃ m ∈ ms, m.thermalCond = false ∨ tr = true ∧ (m.heatCapacity = false ∨ m.rho = false)) :
    ∃ msg, x.initialise zero = .error (.typeError msg) := by
  have hidl : ∀ m ∈ ms, m.id.toList ≠ [] := fun m hm => (hdoc m hm).1
  have hlen : x.trapIds.length = n := by rw [hids]; simp
  have hg : initGuards x.settings x.dt.isSome (some T).isSome = .ok () := by
    rw [initGuards_ok]
    refine ⟨fun h => by rw [hset.1 h]; rfl, fun h => (hset.2 h).1, fun h => ?_, rfl⟩
    have := (hset.2 h).2
    cases hx : x.dt with
    | none => exact absurd hx this
    | some d => rfl
  have hs : (attributeSources true
      { mobile := [], temp := [], traps := x.trapIds.map fun _ => [] } x.sources).2 = none := by
    rw [C34_accepts_iff]; simpa [hlen] using hsrc
  have hm : ∃ r, simMeasures x.mesh (some ms) = .ok r := by
    unfold simMeasures
    cases hmm : x.mesh with
    | other => simp
    | line vs =>
      obtain ⟨r, hr⟩ := (defineMeasures_fits (3 / 10000000000000000) ms vs hne hdoc).2 (hline vs hmm)
      simp [hr, Except.map]
  obtain ⟨r, hr⟩ := hm
  have hc : ∃ msg, createTemp zero T x.dt.isSome x.meshType (some ms) = .error (.typeError msg) := by
    cases hTT : T with
    | analytical v f => rw [hTT] at hheat; cases hheat
    | fromXDMF f => rw [hTT] at hheat; cases hheat
    | heatSteady solve =>
      rw [hTT] at hheat; cases hheat
      have key : ∀ dt, heatForms false dt x.meshType ms = heatForms false true x.meshType ms := by
        intro dt
        clear hmiss hline hne hdoc hms hidl hr
        induction ms with
        | nil => rfl
        | cons m ms ih => simp only [heatForms, ih]; simp [heatTerms]
      obtain ⟨msg, hmsg⟩ := heatForms_error false x.meshType htype ms hidl hmiss
      refine ⟨msg, ?_⟩
      simp only [createTemp, TempModel.heat, key, hmsg, Bool.false_eq_true, if_false]
    | heatTransient ic subs solve =>
      rw [hTT] at hheat; cases hheat
      obtain ⟨msg, hmsg⟩ := heatForms_error true x.meshType htype ms hidl hmiss
      have hdt : x.dt.isSome = true := by
        have := (hset.2 (htr rfl)).2
        cases hx : x.dt with
        | none => exact absurd hx this
        | some d => rfl
      refine ⟨msg, ?_⟩
      have hic' := hic ic subs solve hTT
      simp only [createTemp, TempModel.heat, hdt, hmsg, if_true]
      cases ic <;> simp [TempModel.create] at hic' ⊢
  obtain ⟨msg, hmsg⟩ := hc
  refine ⟨msg, ?_⟩
  unfold SimInput.initialise
  rw [hT, hg]
  simp only [hheat, Option.isSome_some]
  generalize attributeSources true _ x.sources = as at hs
  obtain ⟨src, oe⟩ := as
  simp only at hs
  subst hs
  simp only [attributeBCs, hlen, hbc, (checkMeshDim_ok _ _).2 hdim, hms, hr, hmsg]

/-! ## C66 -/

/-- **C66 (a).** A steady `run` returns normally exactly when the solver converged and no export
raised; the exports were then written exactly once, at time 0. -/
theorem C66_returns_iff (zero : F) (x : SimInput σ F) (registry : List ℕ) (I : Initialised σ F)
    (hst : x.settings.transient = false) (o : Outcome) (s : σ) (l : List (Outcome × σ))
    (ex : Exports σ) :
    x.run zero registry I ((o, s) :: l) = .steady ex ↔
      o.converged = true ∧ I.exports.writeAll [(s, 0)] = .ok ex := by
  simp only [SimInput.run, hst, Bool.false_eq_true, if_false, runSteady, Exports.writeAll]
  cases I.exports.write s 0 with
  | error e => simp
  | ok ex' => cases o.converged <;> simp

/-- **C66 (b).** If the solver diverged and no export raised, `ValueError` is raised after the exports
have been written, once and at time 0, with the values of the diverged solve. -/
theorem C66_diverged (zero : F) (x : SimInput σ F) (registry : List ℕ) (I : Initialised σ F)
    (hst : x.settings.transient = false) (o : Outcome) (s : σ) (l : List (Outcome × σ))
    (hd : o.converged = false) (ex : Exports σ) (hex : I.exports.writeAll [(s, 0)] = .ok ex) :
    ∃ msg, x.run zero registry I ((o, s) :: l) = .steadyRaised (.valueError msg) (some ex) := by
  refine ⟨"The solver diverged in", ?_⟩
  simp only [SimInput.run, hst, Bool.false_eq_true, if_false, runSteady]
  simp only [Exports.writeAll] at hex
  cases hw : I.exports.write s 0 with
  | error e => rw [hw] at hex; cases hex
  | ok ex' => rw [hw] at hex; cases hex; simp [hd]

/-- **C66 (c).** An export that raises hides the outcome of the solver. -/
theorem C66_export_raises (zero : F) (x : SimInput σ F) (registry : List ℕ) (I : Initialised σ F)
    (hst : x.settings.transient = false) (o : Outcome) (s : σ) (l : List (Outcome × σ))
    (e : PyErr) (hex : I.exports.writeAll [(s, 0)] = .error e) :
    x.run zero registry I ((o, s) :: l) = .steadyRaised e none := by
  simp only [SimInput.run, hst, Bool.false_eq_true, if_false, runSteady]
  simp only [Exports.writeAll] at hex
  cases hw : I.exports.write s 0 with
  | error e => rw [hw] at hex; cases hex; rfl
  | ok ex' => rw [hw] at hex; cases hex

/-- Exports of a new simulation: never used before. -/
def NewExports (x : SimInput σ F) : Prop := x.exportsFinal = none ∧ x.exportsNb = 0

/-- The exports after `initialise`. -/
theorem initialise_exports (zero : F) (x : SimInput σ F) (I : Initialised σ F)
    (h : x.initialise zero = .ok I) :
    I.exports = Exports.initialise
        { items := x.exports.map Prod.snd, finalTime := x.exportsFinal, nb := x.exportsNb }
        (if x.settings.transient then x.settings.finalTime else none)
        (x.settings.chemicalPot || x.settings.dgTraps) x.dofs x.borders x.order ∧
    exportsLoop x.bcs x.dt x.exports = .ok I.dt ∧
    ∃ T, x.temp = some T ∧ createTemp zero T x.dt.isSome x.meshType x.materials = .ok I.temp := by
  unfold SimInput.initialise at h
  split at h
  · cases h
  split at h
  · cases h
  rename_i T hT
  split at h
  · cases h
  split at h
  · cases h
  split at h
  · cases h
  split at h
  · cases h
  split at h
  · cases h
  rename_i temp htemp
  split at h
  · cases h
  split at h
  · cases h
  split at h
  · cases h
  split at h
  · cases h
  rename_i dt hdt
  cases h
  exact ⟨rfl, hdt, T, hT, htemp⟩

/-- **C66 (d).** In a new steady simulation the csv file of derived quantities holds the titles and one
row for `t = 0`, whether the solver converged or not. -/
theorem C66_csv (zero : F) (x : SimInput σ F) (registry : List ℕ) (I : Initialised σ F)
    (h : x.initialise zero = .ok I) (hst : x.settings.transient = false) (hnew : NewExports x)
    (o : Outcome) (s : σ) (l : List (Outcome × σ)) (ex : Exports σ)
    (hex : I.exports.writeAll [(s, 0)] = .ok ex) (i : ℕ) (ads : List ℕ) (d : DQ σ)
    (hi : x.exports[i]? = some (ads, .dq d)) (hne : d.quantities ≠ []) (f : String)
    (hf : d.filename = some f) :
    (x.run zero registry I ((o, s) :: l) = .steady ex ∨
      ∃ e, x.run zero registry I ((o, s) :: l) = .steadyRaised e (some ex)) ∧
    ∃ d', ex.items[i]? = some (.dq d') ∧
      d'.file = some [.text "t(s)" :: d.quantities.map (fun q => .text q.title),
        .num 0 :: d.quantities.map fun q => .num (q.eval s)] := by
  obtain ⟨h1, -, -⟩ := initialise_exports zero x I h
  constructor
  · cases hc : o.converged with
    | true => exact .inl ((C66_returns_iff zero x registry I hst o s l ex).2 ⟨hc, hex⟩)
    | false =>
      obtain ⟨msg, hm⟩ := C66_diverged zero x registry I hst o s l hc ex hex
      exact .inr ⟨_, hm⟩
  · have hd : I.exports.items[i]? = some (.dq d.reset) := by
      rw [h1]; simp [Exports.initialise, hi, Export.initialise]
    have hfin : I.exports.finalTime = none := by
      rw [h1]; simp [Exports.initialise, hst, hnew.1]
    have hnb : I.exports.nb = 0 := by rw [h1]; exact hnew.2
    have hfresh : Fresh d.reset := by
      refine ⟨rfl, rfl, ?_⟩
      intro q hq
      simp only [DQ.reset, List.mem_map] at hq
      obtain ⟨q', -, rfl⟩ := hq
      exact ⟨rfl, rfl⟩
    obtain ⟨d', h2, h3⟩ := C19_csv_content I.exports ex [] [] (s, 0) hex i d.reset hd hfresh
      (by simpa [DQ.reset] using hne) f hf (by simp [CsvDue, hfin]) (by simp)
    refine ⟨d', h2, ?_⟩
    rw [h3, hnb]
    simp [atMultiples, csvTable, csvRow, DQ.reset, Function.comp_def]

/-- **C66 (e).** A new steady simulation with an XDMF export in mode "last" always raises. -/
theorem C66_last_mode (zero : F) (x : SimInput σ F) (registry : List ℕ) (I : Initialised σ F)
    (h : x.initialise zero = .ok I) (hst : x.settings.transient = false) (hnew : NewExports x)
    (i : ℕ) (ads : List ℕ) (y : XDMF σ) (hi : x.exports[i]? = some (ads, .xdmf y))
    (hm : y.mode = .last) (o : Outcome) (s : σ) (l : List (Outcome × σ)) :
    ∃ e, x.run zero registry I ((o, s) :: l) = .steadyRaised e none := by
  obtain ⟨h1, -, -⟩ := initialise_exports zero x I h
  obtain ⟨e, he⟩ := C17_steady_raises I.exports (by rw [h1]; simp [Exports.initialise, hst, hnew.1]) s 0 i y
    (by rw [h1]; simp [Exports.initialise, hi, Export.initialise]) hm
  exact ⟨e, C66_export_raises zero x registry I hst o s l e he⟩

/-- **C66 (f).** A steady simulation with a `TXTExport` with times cannot be initialised. -/
theorem C66_txt_times (zero : F) (x : SimInput σ F) (hst : x.settings.transient = false)
    (ads : List ℕ) (y : TXT σ) (hy : (ads, Export.txt y) ∈ x.exports) (ts : List ℚ)
    (hts : y.times = some ts) (hne : ts ≠ []) : ∃ e, x.initialise zero = .error e := by
  cases h : x.initialise zero with
  | error e => exact ⟨e, rfl⟩
  | ok I =>
    exfalso
    obtain ⟨-, h2, -⟩ := initialise_exports zero x I h
    have hdt := ((exportsLoop_ok x.bcs x.exports x.dt).1 ⟨_, h2⟩).2 ads y ts hy hts hne
    have := (C65_consistent zero x I h).1.1 hdt
    rw [hst] at this; cases this

/-! ## C72 -/

theorem createTemp_create (zero : F) (T : TempModel F) (dt : Bool) (type : String)
    (ms : Option (List Material)) (s : TempState F) (h : createTemp zero T dt type ms = .ok s) :
    T.create zero (fun _ => 0) = .ok s := by
  cases T with
  | analytical v f => exact h
  | fromXDMF f => exact h
  | heatSteady solve =>
    simp only [createTemp, TempModel.heat, Bool.false_eq_true, if_false] at h
    split at h
    · cases h
    · exact h
  | heatTransient ic subs solve =>
    simp only [createTemp, TempModel.heat, if_true] at h
    split at h
    · cases h
    · rename_i s' hs'
      split at h
      · cases h
      · cases h; exact hs'

theorem exportsLoop_dt (bcs : List BC) : ∀ (l : List (List ℕ × Export σ)) (dt r : Option Stepsize),
    exportsLoop bcs dt l = .ok r →
    (dt = none → r = none) ∧ ∀ d, dt = some d → r = some
      { d with milestones := (Exports.mk (l.map Prod.snd) none 0).milestones d.milestones }
  | [], dt, r, h => by
    cases h
    exact ⟨id, fun d hd => by rw [hd]; rfl⟩
  | (ads, .dq d) :: l, dt, r, h => by
    simp only [exportsLoop] at h
    split at h
    · exact exportsLoop_dt bcs l dt r h
    · cases h
  | (ads, .xdmf y) :: l, dt, r, h => exportsLoop_dt bcs l dt r h
  | (ads, .bare y) :: l, dt, r, h => exportsLoop_dt bcs l dt r h
  | (ads, .txt y) :: l, dt, r, h => by
    simp only [exportsLoop] at h
    split at h
    · rename_i hy
      obtain ⟨h1, h2⟩ := exportsLoop_dt bcs l dt r h
      refine ⟨h1, fun d hd => ?_⟩
      rw [h2 d hd]
      simp [Exports.milestones, hy, addMilestones]
    · rename_i hy
      obtain ⟨h1, h2⟩ := exportsLoop_dt bcs l dt r h
      refine ⟨h1, fun d hd => ?_⟩
      rw [h2 d hd]
      simp [Exports.milestones, hy, addMilestones]
    · rename_i t ts hy
      split at h
      · cases h
      · rename_i d0
        obtain ⟨h1, h2⟩ := exportsLoop_dt bcs l _ r h
        refine ⟨by simp, fun d hd => ?_⟩
        cases hd
        rw [h2 _ rfl]
        simp [Exports.milestones, hy]

/-- **C72 (a).** Once initialised, `run` has what it needs: a transient simulation goes to the time
loop, with the milestones of the stepsize and all the requested times of the `TXTExport`s. -/
theorem C72_starts (zero : F) (x : SimInput σ F) (registry : List ℕ) (I : Initialised σ F)
    (h : x.initialise zero = .ok I) (htr : x.settings.transient = true)
    (outs : List (Outcome × σ)) :
    ∃ d final T st, x.dt = some d ∧ x.settings.finalTime = some final ∧ x.temp = some T ∧
      I.dt = some
        { d with milestones := (Exports.mk (x.exports.map Prod.snd) none 0).milestones d.milestones } ∧
      x.run zero registry I outs = .transient st := by
  obtain ⟨h1, h2, h3⟩ := C65_consistent zero x I h
  obtain ⟨-, hl, T, hT, htemp⟩ := initialise_exports zero x I h
  obtain ⟨d, hd⟩ := Option.ne_none_iff_exists'.1 (h1.2 htr)
  obtain ⟨final, hf⟩ := Option.ne_none_iff_exists'.1 (h2 htr)
  have hdt := (exportsLoop_dt x.bcs x.exports x.dt I.dt hl).2 d hd
  have hc := createTemp_create zero T _ _ _ _ htemp
  refine ⟨d, final, T, ?_⟩
  simp only [SimInput.run, htr, if_true, hdt, hf, hT, SimCfg.fullExec, SimCfg.start, hc]
  exact ⟨_, hd, trivial, trivial, trivial, rfl⟩

theorem writeAll_concat (ex ex' ex'' : Exports σ) (steps : List (σ × ℚ)) (s : σ) (t : ℚ)
    (h : ex.writeAll steps = .ok ex') (h' : ex'.write s t = .ok ex'') :
    ex.writeAll (steps ++ [(s, t)]) = .ok ex'' := by
  induction steps generalizing ex with
  | nil => cases h; simp [Exports.writeAll, h']
  | cons p ps ih =>
    simp only [Exports.writeAll, List.cons_append] at h ⊢
    cases hw : ex.write p.1 p.2 with
    | error e => rw [hw] at h; cases h
    | ok e1 => rw [hw] at h; exact ih e1 h

/-- What holds at any moment of a transient run that has not raised. -/
theorem fullExec_inv (cfg : SimCfg F) (zero : F) (ex : Exports σ) (outs : List (Outcome × σ))
    (st : FullState σ F) (h : cfg.fullExec zero ex outs = .ok st) :
    (∃ e, st.sim.run.phase = .raised e) ∨
    (cfg.exec zero (outs.map Prod.fst) = .ok st.sim ∧
      ∃ used steps, used <+: outs ∧ (∀ nom k, st.sim.run.phase = .solving nom k → used = outs) ∧
        steps.map Prod.snd = st.sim.run.times ∧
        steps.map Prod.fst = (used.filter fun os => os.1.converged).map Prod.snd ∧
        ex.writeAll steps = .ok st.exports) := by
  unfold SimCfg.fullExec at h
  cases hs : cfg.start zero with
  | error e => rw [hs] at h; cases h
  | ok s =>
    rw [hs] at h
    cases h
    have hlog0 : s.run.times = [] := by
      unfold SimCfg.start at hs
      cases hc : cfg.temp.create zero (fun _ => 0) with
      | error e => rw [hc] at hs; cases hs
      | ok temp =>
        rw [hc] at hs
        cases hs
        rw [RunState.times, SimCfg.enter_log]
        simp [Run.start, loopHead_log]
    have hexec : ∀ l, cfg.exec zero l = .ok (l.foldl cfg.step s) := by
      intro l; simp [SimCfg.exec, hs]
    simp only [hexec, Except.ok.injEq]
    induction outs using List.reverseRecOn with
    | nil => exact .inr ⟨rfl, [], [], by simp, fun _ _ _ => rfl, by simpa using hlog0.symm, rfl, rfl⟩
    | append_singleton l os ih =>
      rw [List.foldl_append, List.foldl_cons, List.foldl_nil, List.map_append, List.foldl_append]
      simp only [List.map_cons, List.map_nil, List.foldl_cons, List.foldl_nil]
      generalize hcur : l.foldl cfg.fullStep ⟨s, ex⟩ = cur at ih
      rcases ih with ⟨e, he⟩ | ⟨hsim, used, steps, hu, hu', ht, hfst, hw⟩
      · left
        refine ⟨e, ?_⟩
        simp only [SimCfg.fullStep, he]
      · rw [hsim]
        cases hp : cur.sim.run.phase with
        | raised e => exact .inl ⟨e, by simp only [SimCfg.fullStep, hp]⟩
        | finished =>
          have h1 : cfg.fullStep cur os = cur := by simp only [SimCfg.fullStep, hp]
          have h2 : cfg.step cur.sim os.1 = cur.sim := by simp only [SimCfg.step, hp]
          rw [h1, h2]
          refine .inr ⟨rfl, used, steps, hu.trans (List.prefix_append _ _), ?_, ht, hfst, hw⟩
          intro nom k hk
          rw [hp] at hk; cases hk
        | solving nom failed =>
          have hul := hu' nom failed hp
          subst hul
          cases ha : afterSolve cfg.dt cur.sim.run.value cur.sim.run.t os.1 with
          | error e =>
            left
            refine ⟨e, ?_⟩
            simp only [SimCfg.fullStep, hp, ha, SimCfg.step]
          | ok v =>
            cases hcv : os.1.converged with
            | false =>
              right
              have h1 : (cfg.fullStep cur os) = ⟨cfg.step cur.sim os.1, cur.exports⟩ := by
                simp only [SimCfg.fullStep, hp, ha, hcv]
                rfl
              rw [h1]
              refine ⟨rfl, used ++ [os], steps, List.prefix_rfl, fun _ _ _ => rfl, ?_, ?_, hw⟩
              · rw [ht]; simp only [SimCfg.step, hp, ha, hcv, RunState.times]; rfl
              · rw [hfst]; simp [hcv]
            | true =>
              cases hwr : cur.exports.write os.2 cur.sim.run.t with
              | error e =>
                left
                exact ⟨e, by simp only [SimCfg.fullStep, hp, ha, hcv, hwr, if_true]⟩
              | ok ex1 =>
                right
                have h1 : (cfg.fullStep cur os) = ⟨cfg.step cur.sim os.1, ex1⟩ := by
                  simp only [SimCfg.fullStep, hp, ha, hcv, hwr, if_true]
                rw [h1]
                refine ⟨rfl, used ++ [os], steps ++ [(os.2, cur.sim.run.t)], List.prefix_rfl,
                  fun _ _ _ => rfl, ?_, ?_, writeAll_concat ex _ _ steps _ _ hw hwr⟩
                · rw [List.map_append, ht]
                  simp only [SimCfg.step, hp, ha, hcv, if_true, RunState.times, SimCfg.enter_log,
                    loopHead_log, List.map_append, List.map_cons, List.map_nil]
                · rw [List.map_append, hfst]; simp [hcv]

/-- **C72 (b).** When a transient `run` returns, it has gone through the times of the time loop alone
(C01-C15), and the exports have received exactly the accepted steps, in order, each with the solution of
its converged solve (so C16-C25 apply). -/
theorem C72_exports_see_accepted_steps (zero : F) (x : SimInput σ F) (registry : List ℕ)
    (I : Initialised σ F) (h : x.initialise zero = .ok I) (htr : x.settings.transient = true)
    (outs : List (Outcome × σ)) (st : FullState σ F)
    (hrun : x.run zero registry I outs = .transient st) (hr : Returned st.sim.run) :
    ∃ d final, I.dt = some d ∧ x.settings.finalTime = some final ∧
      st.sim.run = Run.run d final (outs.map Prod.fst) ∧
      ∃ used steps, used <+: outs ∧
        steps.map Prod.snd = (Run.run d final (outs.map Prod.fst)).times ∧
        steps.map Prod.fst = (used.filter fun os => os.1.converged).map Prod.snd ∧
        I.exports.writeAll steps = .ok st.exports := by
  obtain ⟨d0, final, T, st', h1, h2, h3, h4, h5⟩ := C72_starts zero x registry I h htr outs
  rw [hrun] at h5
  cases h5
  refine ⟨_, final, h4, h2, ?_⟩
  simp only [SimInput.run, htr, if_true, h4, h2, h3] at hrun
  split at hrun
  · cases hrun
  rename_i s hs
  cases hrun
  rcases fullExec_inv _ zero I.exports outs st hs with ⟨e, he⟩ | ⟨hx, used, steps, hu, -, ht, hf, hw⟩
  · rw [Returned, he] at hr; cases hr
  · rcases C55_driver _ zero _ _ hx with hd | ⟨e, he⟩
    · simp only at hd
      exact ⟨hd, used, steps, hu, by rw [ht, hd], hf, hw⟩
    · rw [Returned, he] at hr; cases hr

/-- **C72 (c).** From the model to the files, derived quantities: when a new transient simulation with
`initial_value ≤ final_time` returns, the csv file of a `DerivedQuantities` without
`nb_iterations_between_exports` holds one row for each computed step. -/
theorem C72_csv (zero : F) (x : SimInput σ F) (registry : List ℕ)
    (I : Initialised σ F) (h : x.initialise zero = .ok I) (htr : x.settings.transient = true)
    (hnew : NewExports x) (outs : List (Outcome × σ)) (st : FullState σ F)
    (hrun : x.run zero registry I outs = .transient st) (hr : Returned st.sim.run)
    (d : Stepsize) (final : ℚ) (hd : x.dt = some d) (hfinal : x.settings.finalTime = some final)
    (h0 : 0 < d.initialValue) (hle : d.initialValue ≤ final)
    (i : ℕ) (ads : List ℕ) (q : DQ σ) (hi : x.exports[i]? = some (ads, .dq q))
    (hne : q.quantities ≠ []) (f : String) (hf : q.filename = some f) (hbe : q.betweenExports = none) :
    ∃ q' steps, st.exports.items[i]? = some (.dq q') ∧ steps.map Prod.snd = st.sim.run.times ∧
      (∃ used, used <+: outs ∧
        steps.map Prod.fst = (used.filter fun os => os.1.converged).map Prod.snd) ∧
      q'.file = some (csvTable (q.quantities.map (·.title)) (q.quantities.map (·.eval))
        (atMultiples q.betweenCompute 0 steps)) := by
  obtain ⟨d', final', h1, h2, h3, used, steps, hu, ht, hfst, hw⟩ :=
    C72_exports_see_accepted_steps zero x registry I h htr outs st hrun hr
  rw [hfinal] at h2
  cases h2
  obtain ⟨e1, e2, -⟩ := initialise_exports zero x I h
  have hd' := (exportsLoop_dt x.bcs x.exports x.dt I.dt e2).2 d hd
  rw [h1] at hd'
  have hiv : d'.initialValue = d.initialValue := by cases hd'; rfl
  have hget : I.exports.items[i]? = some (.dq q.reset) := by
    rw [e1]; simp [Exports.initialise, hi, Export.initialise]
  have hfresh : Fresh q.reset := by
    refine ⟨rfl, rfl, ?_⟩
    intro z hz
    simp only [DQ.reset, List.mem_map] at hz
    obtain ⟨z', -, rfl⟩ := hz
    exact ⟨rfl, rfl⟩
  have hnb : I.exports.nb = 0 := by rw [e1]; exact hnew.2
  obtain ⟨q', g1, g2, g3⟩ := C20_final_csv_complete d' final (outs.map Prod.fst) (by rw [hiv]; exact h0)
    (by rw [hiv]; exact hle) (by rw [← h3]; exact hr) I.exports st.exports
    (by rw [e1]; simp [Exports.initialise, htr, hfinal]) steps ht hw i q.reset hget hfresh
    (by simpa [DQ.reset] using hne) f hf hbe
  refine ⟨q', steps, g1, by rw [h3]; exact ht, ⟨used, hu, hfst⟩, ?_⟩
  rw [g2, g3, hnb]
  simp [DQ.reset, Function.comp_def]

/-- **C72 (d).** From the model to the files, profiles: when a new transient simulation with
`initial_value ≤ final_time` returns, the file of a `TXTExport` without times holds one column for each
accepted step. -/
theorem C72_txt (zero : F) (x : SimInput σ F) (registry : List ℕ)
    (I : Initialised σ F) (h : x.initialise zero = .ok I) (htr : x.settings.transient = true)
    (outs : List (Outcome × σ)) (st : FullState σ F)
    (hrun : x.run zero registry I outs = .transient st) (hr : Returned st.sim.run)
    (d : Stepsize) (final : ℚ) (hd : x.dt = some d) (hfinal : x.settings.finalTime = some final)
    (h0 : 0 < d.initialValue) (hle : d.initialValue ≤ final)
    (i : ℕ) (ads : List ℕ) (y : TXT σ) (hi : x.exports[i]? = some (ads, .txt y))
    (hy : y.times = none) :
    ∃ y' steps, st.exports.items[i]? = some (.txt y') ∧ steps.map Prod.snd = st.sim.run.times ∧
      (∃ used, used <+: outs ∧
        steps.map Prod.fst = (used.filter fun os => os.1.converged).map Prod.snd) ∧
      y'.file = some ⟨st.sim.run.times.map .time, txtRows y.sol x.dofs
        (uniqueIndices (x.settings.chemicalPot || x.settings.dgTraps) y.filter x.dofs x.borders x.order)
        steps⟩ := by
  obtain ⟨d', final', h1, h2, h3, used, steps, hu, ht, hfst, hw⟩ :=
    C72_exports_see_accepted_steps zero x registry I h htr outs st hrun hr
  rw [hfinal] at h2
  cases h2
  obtain ⟨e1, e2, -⟩ := initialise_exports zero x I h
  have hd' := (exportsLoop_dt x.bcs x.exports x.dt I.dt e2).2 d hd
  rw [h1] at hd'
  have hiv : d'.initialValue = d.initialValue := by cases hd'; rfl
  obtain ⟨y', g1, g2⟩ := C23_complete_without_times d' final (outs.map Prod.fst)
    (by rw [hiv]; exact h0) (by rw [hiv]; exact hle) (by rw [← h3]; exact hr) I.exports st.exports
    (by rw [e1]; simp [Exports.initialise, htr, hfinal]) steps ht hw i y _ x.dofs x.borders x.order
    (by rw [e1]; simp [Exports.initialise, hi, Export.initialise]; rfl) hy
  exact ⟨y', steps, g1, by rw [h3]; exact ht, ⟨used, hu, hfst⟩, by rw [g2, h3]⟩

end

/-! ## A concrete simulation

Two materials on a bar, one trap, a source, a Dirichlet condition on each side, an initial condition, a
table of derived quantities, profiles at two times.  Fields are numbers, solutions lists of numbers. -/

/-- The materials of the example. -/
def simMats : List Material :=
  [{ id := .one 1, borders := some (.flat 0 1) }, { id := .one 2, borders := some (.flat 1 4) }]

/-- The example, transient. -/
def simEx : SimInput (List ℚ) ℚ where
  settings := { finalTime := some 4 }
  dt := some (Stepsize.new { initialValue := 1 })
  temp := some (.analytical (.sym "t") fun t => 300 + t)
  trapIds := [none]
  sources := [⟨0, .strInt 1, false⟩]
  bcs := [BC.make 0 .dirichlet (.name "solute") [1], BC.make 1 .dirichlet (.int 0) [2]]
  ics := [⟨.name "solute", 7⟩]
  skInitial := fun _ => 0
  mesh := .line [0, 1, 2, 3, 4]
  materials := some simMats
  exports :=
    [([], .dq { quantities := [exQ], filename := some "out/dq.csv" }),
     ([], .txt { times := some [7 / 2, 5 / 2], filename := some "./c.txt", sol := id }),
     ([], .txt { times := none, filename := some "./d.txt", sol := id })]
  dofs := [0, 1]
  order := [0, 1]

/-- Outcomes: each solve converges. -/
def simOuts : List (Outcome × List ℚ) :=
  [(⟨3, true⟩, [1, 2]), (⟨3, true⟩, [2, 3]), (⟨3, true⟩, [3, 4]), (⟨3, true⟩, [4, 5]),
   (⟨3, true⟩, [5, 6]), (⟨3, true⟩, [6, 7])]

/-- The file of an export. -/
inductive SimFile where
  | csv (rows : Option (List (List Cell)))
  | txt (f : Option TFile)
  | xdmf
  deriving DecidableEq

/-- The file of an export. -/
def simFile : Export (List ℚ) → SimFile
  | .dq d => .csv d.file
  | .txt y => .txt y.file
  | .xdmf _ => .xdmf
  | .bare _ => .csv none

/-- The times of the run and the content of its files, `none` if something failed. -/
def simFiles (x : SimInput (List ℚ) ℚ) (outs : List (Outcome × List ℚ)) :
    Option (List ℚ × List SimFile) :=
  match x.initialise 0 with
  | .error _ => none
  | .ok I =>
    match x.run 0 [] I outs with
    | .transient st =>
      if st.sim.run.phase = .finished then
        some (st.sim.run.times, st.exports.items.map simFile)
      else none
    | .steady ex => some ([], ex.items.map simFile)
    | _ => none

example : simFiles simEx simOuts = some ([1, 2, 5 / 2, 3, 7 / 2, 4],
    [.csv (some [[.text "t(s)", .text "a"], [.num 1, .num 3], [.num 2, .num 5], [.num (5 / 2), .num 7],
        [.num 3, .num 9], [.num (7 / 2), .num 11], [.num 4, .num 13]]),
     SimFile.txt (some ⟨[.time (5 / 2), .time (7 / 2)], [[0, 3, 5], [1, 4, 6]]⟩),
     SimFile.txt (some ⟨[.time 1, .time 2, .time (5 / 2), .time 3, .time (7 / 2), .time 4],
        [[0, 1, 2, 3, 4, 5, 6], [1, 2, 3, 4, 5, 6, 7]]⟩)]) := by
  decide +kernel

/-- The same model, steady. -/
def simSteady : SimInput (List ℚ) ℚ :=
  { simEx with
    settings := { transient := false }
    dt := none
    exports := [([], .dq { quantities := [exQ], filename := some "out/dq.csv" })] }

example : simFiles simSteady [(⟨3, true⟩, [1, 2])] =
    some ([], [.csv (some [[.text "t(s)", .text "a"], [.num 0, .num 3]])]) := by decide +kernel

/-- A diverged steady solve: `ValueError`, with the files written. -/
example : (match simSteady.initialise 0 with
    | .error _ => none
    | .ok I => match simSteady.run 0 [] I [(⟨30, false⟩, [1, 2])] with
      | .steadyRaised (.valueError _) (some ex) => some (ex.items.map fun e => match e with
          | .dq d => d.file
          | _ => none)
      | _ => none) = some [some [[.text "t(s)", .text "a"], [.num 0, .num 3]]] := by decide +kernel

/-- A heat transfer problem without thermal conductivity: `TypeError`, not the documented
`ValueError`. -/
example : (match { simEx with temp := some (.heatTransient (.expr 1) [] fun _ _ T _ => .ok T) }.initialise 0
    with
    | .error (.typeError _) => true
    | _ => false) = true := by decide +kernel

/-- The hypotheses of `C65_initialise_iff` hold for the example. -/
example : simEx.trapIds = List.replicate 1 none ∧ simEx.materials = some simMats ∧ simMats ≠ [] ∧
    (∀ m ∈ simMats, Documented m) ∧ simEx.meshType = "cartesian" := by
  refine ⟨rfl, rfl, by simp [simMats], ?_, rfl⟩
  intro m hm
  simp only [simMats, List.mem_cons, List.not_mem_nil, or_false] at hm
  rcases hm with rfl | rfl
  · exact ⟨by simp [MatId.toList], .inr ⟨⟨⟨_, rfl⟩, by simp, by simp⟩, by decide +kernel⟩⟩
  · exact ⟨by simp [MatId.toList], .inr ⟨⟨⟨_, rfl⟩, by simp, by simp⟩, by decide +kernel⟩⟩

/-- Without materials, on a mesh which is not a `Mesh1D`; and with `chemical_pot` without solubility. -/
example : (match { simEx with mesh := .other, materials := none }.initialise 0 with
    | .error (.attributeError _) => true
    | _ => false) = true := by decide +kernel

example : (match { simEx with mesh := .other, materials := some [] }.initialise 0 with
    | .error (.indexError _) => true
    | _ => false) = true := by decide +kernel

example : (match { simEx with settings := { simEx.settings with chemicalPot := true }, temp := some (.fromXDMF 5) }.initialise 0 with
    | .error (.typeError _) => true
    | _ => false) = true := by decide +kernel

end Festim.Props
