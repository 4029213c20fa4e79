import Verif.Spec.Simulation
import Verif.Props.Fields
import Verif.Props.Materials
import Verif.Proofs.Temperature

/-! # Stage by stage: when `initialise` goes on -/

set_option linter.unusedSectionVars false

namespace Festim

open Festim.Spec Festim.Props

theorem initGuards_ok (st : Settings) (dt temp : Bool) : initGuards st dt temp = .ok () ↔
    (st.transient = false → dt = false) ∧ (st.transient = true → st.finalTime ≠ none) ∧
    (st.transient = true → dt = true) ∧ temp = true := by
  unfold initGuards
  cases h : st.finalTime <;> cases ht : st.transient <;> cases dt <;> cases temp <;> simp

theorem checkMeshDim_ok (type : String) (dim : ℕ) : checkMeshDim type dim = .ok () ↔
    (type = "spherical" → dim = 1) ∧ (type = "cylindrical" → dim ≤ 2) := by
  unfold checkMeshDim
  by_cases h1 : type = "spherical" ∧ dim ≠ 1
  · rw [if_pos h1]
    simp only [reduceCtorEq, false_iff, not_and]
    exact fun h => absurd (h h1.1) h1.2
  · rw [if_neg h1]
    by_cases h2 : type = "cylindrical" ∧ dim > 2
    · rw [if_pos h2]
      simp only [reduceCtorEq, false_iff, not_and]
      exact fun _ h => absurd (h h2.1) (by omega)
    · rw [if_neg h2]
      simp only [true_iff]
      exact ⟨fun h => by by_contra hd; exact h1 ⟨h, hd⟩,
        fun h => by by_contra hd; exact h2 ⟨h, by omega⟩⟩

theorem attributeBCs_ok (dim : ℕ) (heat : Bool) (n : ℕ) (bcs : List BC) (r : List BC × List BC) :
    attributeBCs dim heat n bcs = .ok r ↔ checkBCs dim heat n bcs = .ok () ∧
      r = (bcs.filter (fun b => b.field = .name "T"), bcs.filter fun b => b.field ≠ .name "T") := by
  unfold attributeBCs
  cases checkBCs dim heat n bcs with
  | error e => simp
  | ok u => simp [eq_comm]

theorem markCells_ok (ms : List Material) (h : ∀ c, ∃ k, volumeMarker ms c = .ok k) :
    ∀ cs, ∃ l, markCells ms cs = .ok l
  | [] => ⟨[], rfl⟩
  | c :: cs => by
    obtain ⟨k, hk⟩ := h c
    obtain ⟨l, hl⟩ := markCells_ok ms h cs
    exact ⟨k :: l, by simp [markCells, hk, hl]⟩

theorem volumeMarker_wf (ms : List Material) (h : ∀ m ∈ ms, WellFormed m) (c : ℚ × ℚ) :
    ∃ k, volumeMarker ms c = .ok k := by
  unfold volumeMarker
  rw [findSubdomain_wf h]
  exact ⟨_, rfl⟩

theorem meshSize_ok {vs : List ℚ} (h : vs ≠ []) : ∃ s, meshSize vs = .ok s := by
  unfold meshSize
  cases hm : vs.max? with
  | none => exact absurd (List.max?_eq_none_iff.1 hm) h
  | some m => exact ⟨m, rfl⟩

theorem meshStart_ok {vs : List ℚ} (h : vs ≠ []) : ∃ s, meshStart vs = .ok s := by
  unfold meshStart
  cases hm : vs.min? with
  | none => exact absurd (List.min?_eq_none_iff.1 hm) h
  | some m => exact ⟨m, rfl⟩

theorem defineMeasures_fits (eps : ℚ) (ms : List Material) (vs : List ℚ) (hne : ms ≠ [])
    (hdoc : ∀ m ∈ ms, Documented m) : (∃ r, defineMeasures eps ms vs = .ok r) ↔ FitsLine ms vs := by
  by_cases hvs : vs = []
  · subst hvs
    have : meshSize [] = .error (.valueError "max() arg is an empty sequence") := rfl
    simp [defineMeasures, this, FitsLine]
  obtain ⟨size, hsize⟩ := meshSize_ok hvs
  obtain ⟨start, hstart⟩ := meshStart_ok hvs
  have hmax : ∀ s ∈ vs, (∀ v ∈ vs, v ≤ s) → s = size := by
    intro s hs hv
    obtain ⟨h1, h2⟩ := max_spec hsize
    exact le_antisymm (h2 s hs) (hv size h1)
  unfold defineMeasures
  rw [hsize, hstart]
  simp only
  by_cases hany : ms.length > 1 ∧ (ms.any fun m => m.borders.isNone) = true
  · rw [if_pos hany]
    simp only [reduceCtorEq, exists_false, false_iff]
    rintro ⟨-, ⟨m, rfl, -⟩ | ⟨h, -⟩⟩
    · simp at hany
    · obtain ⟨m, hm, hb⟩ := List.any_eq_true.1 hany.2
      exact h m hm (by simpa using hb)
  rw [if_neg hany]
  cases ms with
  | nil => exact absurd rfl hne
  | cons m l =>
    simp only
    by_cases hb : m.borders = none
    · have hl : l = [] := by
        by_contra hl
        apply hany
        refine ⟨?_, ?_⟩
        · have := List.length_pos_iff.2 hl
          simp only [List.length_cons]; omega
        · simp [hb]
      subst hl
      obtain ⟨n, hn⟩ : ∃ n, m.id = .one n := by
        obtain ⟨-, ⟨-, h⟩ | ⟨⟨⟨b, h⟩, -⟩, -⟩⟩ := hdoc m (by simp)
        · exact h
        · rw [hb] at h; cases h
      have hv : ∀ c, ∃ k, volumeMarker [m] c = .ok k := by
        intro c
        exact ⟨n, by simp [volumeMarker, findSubdomain, Material.findAt, hb, hn]⟩
      obtain ⟨r, hr⟩ := markCells_ok [m] hv (meshCells vs)
      simp only [hb, Option.isSome_none, Bool.false_eq_true, if_false, hr]
      simp only [Except.ok.injEq, exists_eq', true_iff]
      exact ⟨hvs, .inl ⟨m, rfl, hb⟩⟩
    · have hall : ∀ m' ∈ m :: l, m'.borders ≠ none := by
        intro m' hm' hb'
        rcases List.mem_cons.1 hm' with rfl | hm''
        · exact hb hb'
        · apply hany
          refine ⟨?_, ?_⟩
          · have := List.length_pos_of_mem hm''
            simp only [List.length_cons]; omega
          · rw [List.any_eq_true]; exact ⟨m', hm', by simp [hb']⟩
      have hwf : ∀ m' ∈ m :: l, WellFormed m' ∧ ∀ p ∈ intervals m', p.1 < p.2 := by
        intro m' hm'
        obtain ⟨-, ⟨h, -⟩ | h⟩ := hdoc m' hm'
        · exact absurd h (hall m' hm')
        · exact h
      have hlt : ∀ p ∈ (m :: l).flatMap intervals, p.1 < p.2 := by
        intro p hp
        obtain ⟨m', hm', hp'⟩ := List.mem_flatMap.1 hp
        exact (hwf m' hm').2 p hp'
      have hsome : m.borders.isSome = true := by
        cases h : m.borders with
        | none => exact absurd h hb
        | some _ => rfl
      obtain ⟨r, hr⟩ := markCells_ok (m :: l) (volumeMarker_wf _ fun m' hm' => (hwf m' hm').1)
        (meshCells vs)
      simp only [hsome, if_true, hr]
      cases hcb : checkBorders (m :: l) size with
      | error e =>
        simp only [reduceCtorEq, exists_false, false_iff]
        rintro ⟨-, ⟨m', h, hm'⟩ | ⟨-, s, hs, hv, ht⟩⟩
        · cases h; exact hb hm'
        · have := hmax s hs hv
          subst this
          have h0 : 0 ≤ s := by
            obtain ⟨p, hp⟩ := List.exists_mem_of_ne_nil _ (intervals_ne (hwf m (by simp)).1)
            have := (ht.cover p.1).1 ⟨p, List.mem_flatMap.2 ⟨m, by simp, hp⟩, le_rfl,
              ((hwf m (by simp)).2 p hp).le⟩
            linarith [this.1, this.2]
          rw [(C26_accepts_iff_tiles (m :: l) s (by simp) h0 hlt).2
            ⟨fun m' hm' => intervals_ne (hwf m' hm').1, ht⟩] at hcb
          cases hcb
      | ok u =>
        simp only [Except.ok.injEq, exists_eq', true_iff]
        refine ⟨hvs, .inr ⟨hall, size, (max_spec hsize).1, (max_spec hsize).2, ?_⟩⟩
        exact ((C26_accepts_iff_tiles (m :: l) size (by simp) (checkBorders_nonneg hcb hlt) hlt).1 hcb).2

theorem heatForms_ok (tr dt : Bool) (type : String)
    (htype : type = "cartesian" ∨ type = "cylindrical" ∨ type = "spherical") :
    ∀ ms : List Material, (∀ m ∈ ms, m.id.toList ≠ []) →
    (heatForms tr dt type ms = .ok () ↔ ∀ m ∈ ms, m.thermalCond = true ∧
      (tr = true → m.heatCapacity = true ∧ m.rho = true ∧ dt = true))
  | [], _ => by simp [heatForms]
  | m :: ms, h => by
    have ih := heatForms_ok tr dt type htype ms fun m hm => h m (by simp [hm])
    have hid := h m (by simp)
    have h1 : heatTerms tr dt type m = .ok () ↔ m.thermalCond = true ∧
        (tr = true → m.heatCapacity = true ∧ m.rho = true ∧ dt = true) := by
      unfold heatTerms
      rw [if_neg hid]
      cases tr <;> cases dt <;> cases m.rho <;> cases m.heatCapacity <;> cases m.thermalCond <;>
        simp [htype]
    rw [List.forall_mem_cons, ← ih, ← h1]
    simp only [heatForms]
    cases heatTerms tr dt type m with
    | error e => simp
    | ok u => simp

theorem exportsLoop_ok {σ : Type} (bcs : List BC) : ∀ (l : List (List ℕ × Export σ)) (dt : Option Stepsize),
    (∃ r, exportsLoop bcs dt l = .ok r) ↔
      (∀ ads d, (ads, Export.dq d) ∈ l → ∀ s ∈ ads,
        ∃ b ∈ bcs, b.kind = .surfaceKinetics ∧ s ∈ b.surfaces) ∧
      ∀ ads e ts, (ads, Export.txt e) ∈ l → e.times = some ts → ts ≠ [] → dt ≠ none
  | [], dt => by simp [exportsLoop]
  | (ads, .dq d) :: l, dt => by
    have ih := exportsLoop_ok bcs l dt
    unfold exportsLoop
    have hall : (ads.all fun s => bcs.any fun b => b.kind = .surfaceKinetics ∧ s ∈ b.surfaces) = true ↔
        ∀ s ∈ ads, ∃ b ∈ bcs, b.kind = .surfaceKinetics ∧ s ∈ b.surfaces := by
      simp [List.all_eq_true, List.any_eq_true]
    split <;> rename_i h
    · rw [ih]
      rw [hall] at h
      constructor
      · rintro ⟨h1, h2⟩
        refine ⟨?_, ?_⟩
        · intro ads' d' hm s hs
          rcases List.mem_cons.1 hm with he | hm
          · cases he; exact h s hs
          · exact h1 ads' d' hm s hs
        · intro ads' e ts hm
          rcases List.mem_cons.1 hm with he | hm
          · cases he
          · exact h2 ads' e ts hm
      · rintro ⟨h1, h2⟩
        exact ⟨fun a d hm => h1 a d (by simp [hm]), fun a e ts hm => h2 a e ts (by simp [hm])⟩
    · simp only [reduceCtorEq, exists_false, false_iff]
      rintro ⟨h1, -⟩
      exact h (hall.2 fun s hs => h1 ads d (by simp) s hs)
  | (ads, .xdmf y) :: l, dt => by
    have ih := exportsLoop_ok bcs l dt
    unfold exportsLoop
    rw [ih]
    simp
  | (ads, .bare y) :: l, dt => by
    have ih := exportsLoop_ok bcs l dt
    unfold exportsLoop
    rw [ih]
    simp
  | (ads, .txt y) :: l, dt => by
    unfold exportsLoop
    split
    · rename_i h
      rw [exportsLoop_ok bcs l dt]
      constructor
      · rintro ⟨h1, h2⟩
        refine ⟨fun a d hm => h1 a d (by simpa using hm), ?_⟩
        intro a e ts hm he hts
        rcases List.mem_cons.1 hm with hq | hm
        · cases hq; rw [h] at he; cases he
        · exact h2 a e ts hm he hts
      · rintro ⟨h1, h2⟩
        exact ⟨fun a d hm => h1 a d (by simp [hm]), fun a e ts hm => h2 a e ts (by simp [hm])⟩
    · rename_i h
      rw [exportsLoop_ok bcs l dt]
      constructor
      · rintro ⟨h1, h2⟩
        refine ⟨fun a d hm => h1 a d (by simpa using hm), ?_⟩
        intro a e ts hm he hts
        rcases List.mem_cons.1 hm with hq | hm
        · cases hq; rw [h] at he; cases he; exact absurd rfl hts
        · exact h2 a e ts hm he hts
      · rintro ⟨h1, h2⟩
        exact ⟨fun a d hm => h1 a d (by simp [hm]), fun a e ts hm => h2 a e ts (by simp [hm])⟩
    · rename_i t ts h
      cases dt with
      | none =>
        simp only [reduceCtorEq, exists_false, false_iff]
        rintro ⟨-, h2⟩
        exact h2 ads y _ (by simp) h (by simp) rfl
      | some d =>
        simp only
        rw [exportsLoop_ok bcs l _]
        constructor
        · rintro ⟨h1, -⟩
          exact ⟨fun a d hm => h1 a d (by simpa using hm), fun _ _ _ _ _ _ => by simp⟩
        · rintro ⟨h1, -⟩
          exact ⟨fun a d hm => h1 a d (by simp [hm]), fun _ _ _ _ _ _ => by simp⟩

theorem createDirichlets_iff (nsub : ℕ) : ∀ l : List BC, (∃ r, createDirichlets nsub l = .ok r) ↔
    ∀ bc ∈ l, bc.field ≠ .name "T" → bc.kind = .dirichlet → nsub = 0 ∨ ∃ k, bc.field = .int k ∧ k < nsub
  | [] => by simp [createDirichlets]
  | bc :: l => by
    have ih := createDirichlets_iff nsub l
    rw [List.forall_mem_cons, ← ih]
    simp only [createDirichlets]
    split <;> rename_i h
    · have h1 : (∃ r, createDirichlet nsub bc = .ok r) ↔
          nsub = 0 ∨ ∃ k, bc.field = .int k ∧ k < nsub := by
        unfold createDirichlet
        by_cases h0 : nsub = 0
        · simp [h0]
        · rw [if_neg h0]
          cases bc.field with
          | int k =>
            by_cases hk : k < nsub
            · simp [hk, h0]
            · simp [hk, h0]
          | strInt k => simp [h0]
          | name s => simp [h0]
      have h2 : (bc.field ≠ .name "T" → bc.kind = .dirichlet →
          nsub = 0 ∨ ∃ k, bc.field = .int k ∧ k < nsub) ↔ ∃ r, createDirichlet nsub bc = .ok r := by
        rw [h1]
        exact ⟨fun f => f h.1 h.2, fun f _ _ => f⟩
      rw [h2]
      cases hc : createDirichlet nsub bc with
      | error e => simp
      | ok i =>
        simp only [Except.ok.injEq, exists_eq', true_and]
        cases createDirichlets nsub l <;> simp [Except.map]
    · constructor
      · exact fun hr => ⟨fun h1 h2 => absurd ⟨h1, h2⟩ h, hr⟩
      · exact fun hr => hr.2

theorem numSubSpaces_zero (n : ℕ) (sks : List ℕ) : numSubSpaces n sks = 0 ↔ n = 0 ∧ sks.sum = 0 := by
  unfold numSubSpaces mixedElements
  simp only
  split <;> rename_i h
  · simp [h]
  · simp; exact fun a b => h ⟨a, b⟩

theorem numSubSpaces_pos (n : ℕ) (sks : List ℕ) (h : numSubSpaces n sks ≠ 0) :
    numSubSpaces n sks = 1 + n + sks.sum := by
  unfold numSubSpaces mixedElements at h ⊢
  simp only at h ⊢
  split at h <;> rename_i h'
  · simp at h
  · rw [if_neg h']; simp; omega

theorem icTarget_default (n : ℕ) (f : Field) :
    (∃ k, icTarget (List.range' 1 n) f = .ok k) ↔ ∃ k, k ≤ n ∧ FieldOfComponent f k := by
  have key : ∀ j, Dict.get? (fieldToComponent (List.range' 1 n)) (.int j) =
        (if j ≤ n then some j else none) ∧
      Dict.get? (fieldToComponent (List.range' 1 n)) (.strInt j) = if j ≤ n then some j else none := by
    intro j
    have := find_range' n j
    rw [fieldToComponent_get, fieldToComponent_get, zipIdx_range']
    simp only [this]
    by_cases h0 : j = 0
    · subst h0; simp
    · by_cases h1 : j ≤ n
      · have : 1 ≤ j := by omega
        simp [h1, this]
      · simp [h1, h0]
  have hnum : ∀ j, j ≤ n → ∀ f, Dict.get? (fieldToComponent (List.range' 1 n)) f = some j →
      ∃ k, icTarget (List.range' 1 n) f = .ok k := by
    intro j hj f hf
    unfold icTarget
    rw [hf]
    cases j with
    | zero => exact ⟨0, rfl⟩
    | succ j => exact ⟨j + 1, getTrap_default n (j + 1) (by omega) hj⟩
  have hnone : ∀ f, Dict.get? (fieldToComponent (List.range' 1 n)) f = none →
      ¬ ∃ k, icTarget (List.range' 1 n) f = .ok k := by
    intro f hf
    unfold icTarget
    rw [hf]
    simp
  cases f with
  | int j =>
    by_cases hj : j ≤ n
    · refine iff_of_true (hnum j hj _ ?_) ⟨j, hj, .inl rfl⟩
      rw [(key j).1, if_pos hj]
    · refine iff_of_false (hnone _ ?_) ?_
      · rw [(key j).1, if_neg hj]
      · rintro ⟨k, hk, h | h | h⟩
        · cases h; exact hj hk
        · cases h
        · cases h.2
  | strInt j =>
    by_cases hj : j ≤ n
    · refine iff_of_true (hnum j hj _ ?_) ⟨j, hj, .inr (.inl rfl)⟩
      rw [(key j).2, if_pos hj]
    · refine iff_of_false (hnone _ ?_) ?_
      · rw [(key j).2, if_neg hj]
      · rintro ⟨k, hk, h | h | h⟩
        · cases h
        · cases h; exact hj hk
        · cases h.2
  | name s =>
    have hg := fieldToComponent_get (List.range' 1 n) (.name s)
    by_cases hs : s = "solute"
    · subst hs
      refine iff_of_true (hnum 0 (by omega) _ ?_) ⟨0, by omega, .inr (.inr ⟨rfl, rfl⟩)⟩
      rw [hg]; simp
    · refine iff_of_false (hnone _ ?_) ?_
      · rw [hg]; simp [hs]
      · rintro ⟨k, hk, h | h | h⟩
        · cases h
        · cases h
        · exact hs (by simpa using h.2)

theorem applyICs_ok {V : Type} (ids : List ℕ) : ∀ (l : List (IC V)) (u : List V),
    (∃ r, applyICs ids u l = .ok r) ↔ ∀ ic ∈ l, ∃ k, icTarget ids ic.field = .ok k
  | [], u => by simp [applyICs]
  | ic :: l, u => by
    simp only [applyICs, List.forall_mem_cons]
    cases icTarget ids ic.field with
    | error e => simp
    | ok k => simp [applyICs_ok ids l]

theorem hInit_ok {σ F : Type} (zero : F) (x : SimInput σ F) (bcs : List BC) (n : ℕ)
    (hids : x.trapIds = List.replicate n none) :
    (∃ r, hInit zero x bcs = .ok r) ↔
      (∀ ic ∈ x.ics, ∃ k, k ≤ n ∧ FieldOfComponent ic.field k) ∧ x.forms = .ok () ∧
      ∃ imp, createDirichlets (numSubSpaces n ((skOf x bcs).map Prod.fst)) bcs = .ok imp := by
  have h1 : (∃ r, initialState zero (List.range' 1 n) x.ics (skOf x bcs) = .ok r) ↔
      ∀ ic ∈ x.ics, ∃ k, k ≤ n ∧ FieldOfComponent ic.field k := by
    simp only [← icTarget_default]
    rw [← applyICs_ok (List.range' 1 n) x.ics]
    swap
    · exact List.replicate (1 + (List.range' 1 n).length + ((skOf x bcs).map Prod.fst).sum) zero
    unfold initialState
    simp only
    cases applyICs (List.range' 1 n) (List.replicate
      (1 + (List.range' 1 n).length + ((skOf x bcs).map Prod.fst).sum) zero) x.ics <;> simp
  rw [← h1]
  unfold hInit
  rw [hids, assignIds_default]
  simp only [List.length_range']
  cases initialState zero (List.range' 1 n) x.ics (skOf x bcs) with
  | error e => simp
  | ok u =>
    cases x.forms with
    | error e => simp
    | ok v =>
      cases createDirichlets (numSubSpaces n ((skOf x bcs).map Prod.fst)) bcs <;> simp

theorem checkMaterials_ok (ms : List Material) (hne : ms ≠ []) (T : TempKind) :
    checkMaterials ms T = .ok () ↔
      checkConsistency ms = .ok () ∧ (ms.flatMap fun m => m.id.toList).Nodup ∧
      match T with
      | .plain => True
      | .heatTransfer tr => (∀ m ∈ ms, m.thermalCond = true) ∧
          (tr = true → ∀ m ∈ ms, m.heatCapacity = true ∧ m.rho = true) := by
  have hu : checkUniqueIds ms = .ok () ↔ (ms.flatMap fun m => m.id.toList).Nodup := by
    rw [C29_unique_ids, List.nodup_flatMap]
    rfl
  unfold checkMaterials
  rw [if_pos (List.length_pos_iff.2 hne)]
  cases hc : checkConsistency ms with
  | error e => simp
  | ok u =>
    have hm := C30_missing ms hne T hc
    rw [← hu]
    cases T <;> simp only at hm ⊢ <;> rw [← hm] <;> cases checkUniqueIds ms <;> simp

theorem createTemp_ok {F : Type} (zero : F) (T : TempModel F) (dt : Bool) (type : String)
    (htype : type = "cartesian" ∨ type = "cylindrical" ∨ type = "spherical") (ms : List Material)
    (hne : ms ≠ []) (hids : ∀ m ∈ ms, m.id.toList ≠ []) :
    (∃ s, createTemp zero T dt type (some ms) = .ok s) ↔
      (∀ solve, T = .heatSteady solve →
        (∀ m ∈ ms, m.thermalCond = true) ∧ ∃ s, solve (fun _ => 0) zero = .ok s) ∧
      ∀ ic subs solve, T = .heatTransient ic subs solve → ic ≠ .missing ∧ dt = true ∧
        ∀ m ∈ ms, m.thermalCond = true ∧ m.heatCapacity = true ∧ m.rho = true := by
  cases T with
  | analytical v f => simp [createTemp, TempModel.heat, TempModel.create]
  | fromXDMF f => simp [createTemp, TempModel.heat, TempModel.create]
  | heatSteady solve =>
    have hf := heatForms_ok false dt type htype ms hids
    simp only [Bool.false_eq_true, false_implies, and_true] at hf
    simp only [createTemp, TempModel.heat, TempModel.create, TempModel.heatSteady.injEq,
      reduceCtorEq, false_implies, implies_true, and_true, forall_eq', Bool.false_eq_true, if_false]
    rw [← hf]
    cases heatForms false dt type ms with
    | error e => simp
    | ok u =>
      cases solve (fun _ => 0) zero <;> simp
  | heatTransient ic subs solve =>
    have hf := heatForms_ok true dt type htype ms hids
    obtain ⟨m0, hm0⟩ := List.exists_mem_of_ne_nil _ hne
    have hf' : heatForms true dt type ms = .ok () ↔ dt = true ∧
        ∀ m ∈ ms, m.thermalCond = true ∧ m.heatCapacity = true ∧ m.rho = true := by
      rw [hf]
      constructor
      · intro h
        refine ⟨((h m0 hm0).2 rfl).2.2, fun m hm => ?_⟩
        obtain ⟨a, b⟩ := h m hm
        exact ⟨a, (b rfl).1, (b rfl).2.1⟩
      · rintro ⟨h1, h2⟩ m hm
        obtain ⟨a, b, c⟩ := h2 m hm
        exact ⟨a, fun _ => ⟨b, c, h1⟩⟩
    simp only [createTemp, TempModel.heat, reduceCtorEq, false_implies, implies_true, true_and,
      TempModel.heatTransient.injEq, if_true]
    have hr : (∀ ic' subs' solve', (ic = ic' ∧ subs = subs' ∧ solve = solve') →
        ic' ≠ .missing ∧ dt = true ∧
        ∀ m ∈ ms, m.thermalCond = true ∧ m.heatCapacity = true ∧ m.rho = true) ↔
        ic ≠ .missing ∧ heatForms true dt type ms = .ok () := by
      rw [hf']
      constructor
      · intro h; exact h _ _ _ ⟨rfl, rfl, rfl⟩
      · rintro h _ _ _ ⟨rfl, rfl, rfl⟩; exact h
    rw [hr]
    cases ic <;> cases heatForms true dt type ms <;> simp [TempModel.create]

theorem simProperties_ok (c t : Bool) (ms : List Material) (hne : ms ≠ []) :
    simProperties c t (some ms) = .ok () ↔
      (c = true → t = true → ∀ m ∈ ms, m.S0 = true ∧ m.ES = true) := by
  cases ms with
  | nil => exact absurd rfl hne
  | cons a ms =>
    unfold simProperties
    simp only
    split
    · rename_i h
      simp only [reduceCtorEq, false_iff]
      intro hh
      obtain ⟨b, hb, hb'⟩ := List.any_eq_true.1 h.2.2
      have := hh h.1 h.2.1 b hb
      simp [this] at hb'
    · rename_i h
      simp only [true_iff]
      intro hc ht m hm
      by_contra hn
      refine h ⟨hc, ht, List.any_eq_true.2 ⟨m, hm, ?_⟩⟩
      cases h1 : m.S0 <;> cases h2 : m.ES <;> simp [h1, h2] at hn ⊢

theorem initialise_stages {σ F : Type} (zero : F) (x : SimInput σ F) :
    (∃ I, x.initialise zero = .ok I) ↔
      initGuards x.settings x.dt.isSome x.temp.isSome = .ok () ∧
      ∃ T, x.temp = some T ∧
        (attributeSources T.heat.isSome
          { mobile := [], temp := [], traps := x.trapIds.map fun _ => [] } x.sources).2 = none ∧
        checkBCs x.dim T.heat.isSome x.trapIds.length x.bcs = .ok () ∧
        checkMeshDim x.meshType x.dim = .ok () ∧
        (∃ r, simMeasures x.mesh x.materials = .ok r) ∧
        (∃ s, createTemp zero T x.dt.isSome x.meshType x.materials = .ok s) ∧
        simCheckMaterials x.materials T.kind = .ok () ∧
        simProperties x.settings.chemicalPot T.isSteadyState x.materials = .ok () ∧
        (∃ r, hInit zero x (x.bcs.filter fun b => b.field ≠ .name "T") = .ok r) ∧
        ∃ r, exportsLoop x.bcs x.dt x.exports = .ok r := by
  unfold SimInput.initialise
  cases hg : initGuards x.settings x.dt.isSome x.temp.isSome with
  | error e => simp
  | ok u =>
    cases hT : x.temp with
    | none => simp
    | some T =>
      simp only [Option.some.injEq, exists_eq_left', true_and]
      generalize attributeSources T.heat.isSome _ x.sources = as
      obtain ⟨src, oe⟩ := as
      cases oe with
      | some e => simp
      | none =>
        simp only [true_and]
        unfold attributeBCs
        cases checkBCs x.dim T.heat.isSome x.trapIds.length x.bcs with
        | error e => simp
        | ok u =>
          simp only [true_and]
          cases checkMeshDim x.meshType x.dim with
          | error e => simp
          | ok u =>
            cases simMeasures x.mesh x.materials with
            | error e => simp
            | ok u =>
              cases createTemp zero T x.dt.isSome x.meshType x.materials with
              | error e => simp
              | ok u =>
                cases simCheckMaterials x.materials T.kind with
                | error e => simp
                | ok u =>
                  cases simProperties x.settings.chemicalPot T.isSteadyState x.materials with
                  | error e => simp
                  | ok u =>
                    cases hInit zero x (x.bcs.filter fun b => b.field ≠ .name "T") with
                    | error e => simp
                    | ok u =>
                      cases exportsLoop x.bcs x.dt x.exports with
                      | error e => simp
                      | ok u => simp

end Festim
