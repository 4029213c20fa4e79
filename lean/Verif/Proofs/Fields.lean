import Verif.Spec.Fields
import Mathlib.Data.List.Range
import Mathlib.Tactic

/-! # Lemmas about fields -/

namespace Festim

open Spec

/-! ## Dictionaries -/

theorem get?_set {κ υ : Type} [DecidableEq κ] (d : Dict κ υ) (k k' : κ) (v : υ) :
    Dict.get? (Dict.set d k v) k' = if k = k' then some v else Dict.get? d k' := by
  unfold Dict.get? Dict.set
  rw [List.find?_cons]
  by_cases h : k = k' <;> simp [h]

/-- The dict built by the loops over traps. -/
def numbered {υ : Type} (g : ℕ → υ) (base : Dict Field υ) (l : List (ℕ × ℕ)) : Dict Field υ :=
  l.foldl (fun d p => Dict.set (Dict.set d (.int p.1) (g p.2)) (.strInt p.1) (g p.2)) base

theorem numbered_concat {υ : Type} (g : ℕ → υ) (base : Dict Field υ) (l : List (ℕ × ℕ)) (p : ℕ × ℕ) :
    numbered g base (l ++ [p]) =
      Dict.set (Dict.set (numbered g base l) (.int p.1) (g p.2)) (.strInt p.1) (g p.2) := by
  simp [numbered, List.foldl_append]

theorem numbered_get {υ : Type} (g : ℕ → υ) (base : Dict Field υ) (l : List (ℕ × ℕ)) (f : Field) :
    Dict.get? (numbered g base l) f =
      match f with
      | .int j => ((l.reverse.find? fun p => p.1 = j).map fun p => g p.2).or (Dict.get? base f)
      | .strInt j => ((l.reverse.find? fun p => p.1 = j).map fun p => g p.2).or (Dict.get? base f)
      | .name _ => Dict.get? base f := by
  induction l using List.reverseRecOn with
  | nil => cases f <;> simp [numbered]
  | append_singleton l p ih =>
    rw [numbered_concat, get?_set, get?_set, ih]
    cases f with
    | int j => by_cases h : p.1 = j <;> simp [h]
    | strInt j => by_cases h : p.1 = j <;> simp [h]
    | name s => simp

theorem find_range' (n j : ℕ) :
    ((((List.range' 1 n).map fun i => (i, i)).reverse.find? fun p => decide (p.1 = j)).map Prod.snd) =
      if 1 ≤ j ∧ j ≤ n then some j else none := by
  split <;> rename_i h
  · cases hf : (((List.range' 1 n).map fun i => (i, i)).reverse.find? fun p => decide (p.1 = j)) with
    | none =>
      rw [List.find?_eq_none] at hf
      have := hf (j, j) (by simp; omega)
      simp at this
    | some p =>
      have h1 := List.find?_some hf
      have h2 := List.mem_of_find?_eq_some hf
      simp at h1 h2
      obtain ⟨a, -, rfl⟩ := h2
      simpa using h1
  · rw [Option.map_eq_none_iff, List.find?_eq_none]
    intro p hp
    simp at hp ⊢
    obtain ⟨a, ha, rfl⟩ := hp
    simp only
    omega

theorem fieldToObject_eq (n : ℕ) (f : Field) :
    Dict.get? (fieldToObject n) f = fieldObj n f := by
  have h0 : fieldToObject n = numbered Obj.trap
      [(.name "solute", .mobile), (.strInt 0, .mobile), (.int 0, .mobile), (.name "mobile", .mobile),
        (.name "T", .temp)] ((List.range' 1 n).map fun i => (i, i)) := by
    unfold fieldToObject numbered
    rw [List.foldl_map]
  rw [h0, numbered_get]
  have hm : ∀ j, ((((List.range' 1 n).map fun i => (i, i)).reverse.find? fun p => decide (p.1 = j)).map
      fun p => Obj.trap p.2) = if 1 ≤ j ∧ j ≤ n then some (Obj.trap j) else none := by
    intro j
    have := congrArg (Option.map Obj.trap) (find_range' n j)
    rw [Option.map_map] at this
    rw [show (fun p : ℕ × ℕ => Obj.trap p.2) = Obj.trap ∘ Prod.snd from rfl, this]
    split <;> rfl
  cases f with
  | int j =>
    simp only [hm]
    cases j with
    | zero => rfl
    | succ j => by_cases h : j + 1 ≤ n <;> simp [fieldObj, h, Dict.get?]
  | strInt j =>
    simp only [hm]
    cases j with
    | zero => rfl
    | succ j => by_cases h : j + 1 ≤ n <;> simp [fieldObj, h, Dict.get?]
  | name s =>
    by_cases h1 : s = "solute"
    · subst h1; rfl
    by_cases h2 : s = "mobile"
    · subst h2; rfl
    by_cases h3 : s = "T"
    · subst h3; rfl
    have : fieldObj n (.name s) = none := by
      unfold fieldObj
      split <;> simp_all
    rw [this]
    simp [Dict.get?, Ne.symm h1, Ne.symm h2, Ne.symm h3]

/-! ## Sources -/

theorem get_push (st : SrcState) (x : Source) (o o' : Obj) (n : ℕ) (hn : st.traps.length = n)
    (ho : Equation n o) (ho' : Equation n o') :
    (st.push x o).get o' = st.get o' ++ (if o = o' then [x] else []) := by
  cases o <;> cases o' <;> simp [SrcState.push, SrcState.get]
  rename_i k k'
  simp only [Equation] at ho ho'
  rw [List.getElem?_modify]
  have h1 : k' - 1 < st.traps.length := by omega
  rw [List.getElem?_eq_getElem h1]
  by_cases h : k = k'
  · simp [h]
  · have : k - 1 ≠ k' - 1 := by omega
    simp [h, this]

theorem length_push (st : SrcState) (x : Source) (o : Obj) :
    (st.push x o).traps.length = st.traps.length := by
  cases o <;> simp [SrcState.push]

theorem get_pushAll (n : ℕ) (x : Source) : ∀ (l : List Obj) (st : SrcState), st.traps.length = n →
    l.Nodup → (∀ o ∈ l, Equation n o) → ∀ o', Equation n o' →
    (l.foldl (fun st o => st.push x o) st).get o' = st.get o' ++ (if o' ∈ l then [x] else []) ∧
    (l.foldl (fun st o => st.push x o) st).traps.length = n
  | [], st, hn, _, _, o', _ => by simp [hn]
  | o :: l, st, hn, hnd, hl, o', ho' => by
    rw [List.foldl_cons]
    obtain ⟨h1, h2⟩ := get_pushAll n x l (st.push x o) (by rw [length_push, hn]) (List.nodup_cons.1 hnd).2
      (fun o ho => hl o (by simp [ho])) o' ho'
    refine ⟨?_, h2⟩
    rw [h1, get_push st x o o' n hn (hl o (by simp)) ho']
    by_cases h : o = o'
    · subst h
      simp [(List.nodup_cons.1 hnd).1]
    · simp [h, Ne.symm h]

theorem fieldObj_equation {n : ℕ} {f : Field} {o : Obj} (h : fieldObj n f = some o) :
    Equation n o := by
  unfold fieldObj at h
  split at h <;> try (cases h; trivial)
  · rename_i k hk
    split at h
    · cases h
      refine ⟨?_, by assumption⟩
      rcases Nat.eq_zero_or_pos k with rfl | h
      · exact absurd rfl hk
      · exact h
    · cases h
  · rename_i k hk
    split at h
    · cases h
      refine ⟨?_, by assumption⟩
      rcases Nat.eq_zero_or_pos k with rfl | h
      · exact absurd rfl hk
      · exact h
    · cases h
  · cases h

theorem Targets.equation {n : ℕ} {s : Source} {o : Obj} (h : Targets n s o) : Equation n o := by
  unfold Targets at h
  split at h
  · rcases h with rfl | ⟨k, h1, h2, rfl⟩
    · trivial
    · exact ⟨h1, h2⟩
  · exact fieldObj_equation h

open Classical in
theorem attributeSource_spec (heat : Bool) (n : ℕ) (st : SrcState) (s : Source)
    (hn : st.traps.length = n) :
    ((attributeSource heat n st s).2 = none ↔ Acceptable heat n s) ∧
    (Acceptable heat n s → (attributeSource heat n st s).1.traps.length = n ∧
      ∀ o, Equation n o → (attributeSource heat n st s).1.get o =
        st.get o ++ if Targets n s o then [s] else []) := by
  by_cases h1 : s.field = .name "T" ∧ heat = false
  · have hA : ¬ Acceptable heat n s := by
      rintro ⟨-, h⟩
      have := h h1.1
      rw [h1.2] at this
      cases this
    simp [attributeSource, h1.1, h1.2, hA]
    rw [h1.2] at hA
    exact ⟨hA, fun h => absurd h hA⟩
  · by_cases h2 : s.decay = true ∧ s.field = .name "all"
    · have hA : Acceptable heat n s := by
        refine ⟨⟨.mobile, ?_⟩, ?_⟩
        · unfold Targets; rw [if_pos h2]; exact .inl rfl
        · rw [h2.2]; intro h; simp at h
      have hr : attributeSource heat n st s =
          (((.mobile :: (List.range' 1 n).map .trap) : List Obj).foldl (fun st o => st.push s o) st, none) := by
        unfold attributeSource
        rw [if_neg h1, if_pos h2]
      rw [hr]
      refine ⟨by simpa using hA, fun _ => ?_⟩
      have hnd : ((.mobile :: (List.range' 1 n).map .trap) : List Obj).Nodup := by
        rw [List.nodup_cons]
        refine ⟨by simp, ?_⟩
        apply List.Nodup.map
        · intro a b h; cases h; rfl
        · exact List.nodup_range'
      have hl : ∀ o ∈ ((.mobile :: (List.range' 1 n).map .trap) : List Obj), Equation n o := by
        intro o ho
        simp at ho
        rcases ho with rfl | ⟨k, hk, rfl⟩
        · trivial
        · simp only [Equation]; omega
      refine ⟨(get_pushAll n s _ st hn hnd hl .mobile trivial).2, ?_⟩
      intro o ho
      rw [(get_pushAll n s _ st hn hnd hl o ho).1]
      congr 1
      have : (o ∈ ((.mobile :: (List.range' 1 n).map .trap) : List Obj)) ↔ Targets n s o := by
        unfold Targets
        rw [if_pos h2]
        constructor
        · intro h
          simp at h
          rcases h with rfl | ⟨k, hk, rfl⟩
          · exact .inl rfl
          · exact .inr ⟨k, by omega, by omega, rfl⟩
        · rintro (rfl | ⟨k, hk1, hk2, rfl⟩)
          · simp
          · simp; omega
      simp only [this]
    · have hT : ∀ o, Targets n s o ↔ fieldObj n s.field = some o := by
        intro o; unfold Targets; rw [if_neg h2]
      have hr : attributeSource heat n st s = match fieldObj n s.field with
          | none => (st, some (.keyError "field"))
          | some o => (st.push s o, none) := by
        unfold attributeSource
        rw [if_neg h1, if_neg h2, fieldToObject_eq]
        cases fieldObj n s.field <;> rfl
      rw [hr]
      cases hf : fieldObj n s.field with
      | none =>
        have hA : ¬ Acceptable heat n s := by
          rintro ⟨⟨o, h⟩, -⟩
          rw [hT, hf] at h
          cases h
        simp [hA]
      | some o =>
        have hA : Acceptable heat n s := by
          refine ⟨⟨o, (hT o).2 hf⟩, ?_⟩
          intro h
          by_contra hh
          exact h1 ⟨h, by simpa using hh⟩
        refine ⟨by simpa using hA, fun _ => ⟨by rw [length_push, hn], ?_⟩⟩
        intro o' ho'
        simp only
        rw [get_push st s o o' n hn (fieldObj_equation hf) ho']
        congr 1
        by_cases h : o = o'
        · simp [h, hT, hf]
        · simp [h, hT, hf]

open Classical in
theorem attributeLoop_spec (heat : Bool) (n : ℕ) : ∀ (ss : List Source) (st : SrcState),
    st.traps.length = n →
    ((attributeLoop heat n st ss).2 = none ↔ ∀ s ∈ ss, Acceptable heat n s) ∧
    ((∀ s ∈ ss, Acceptable heat n s) → (attributeLoop heat n st ss).1.traps.length = n ∧ ∀ o, Equation n o →
      (attributeLoop heat n st ss).1.get o = st.get o ++ ss.filter fun s => decide (Targets n s o))
  | [], st, hn => by simp [attributeLoop, hn]
  | s :: ss, st, hn => by
    obtain ⟨a1, a2⟩ := attributeSource_spec heat n st s hn
    rcases hr : attributeSource heat n st s with ⟨st', e⟩
    rw [hr] at a1 a2
    cases e with
    | some e =>
      have hA : ¬ Acceptable heat n s := by rw [← a1]; simp
      simp only [attributeLoop, hr, List.forall_mem_cons]
      exact ⟨by simp [hA], fun h => absurd h.1 hA⟩
    | none =>
      have hA : Acceptable heat n s := a1.1 rfl
      obtain ⟨b1, b2⟩ := a2 hA
      obtain ⟨c1, c2⟩ := attributeLoop_spec heat n ss st' b1
      simp only [attributeLoop, hr, List.forall_mem_cons]
      refine ⟨by simp [c1, hA], ?_⟩
      rintro ⟨-, h⟩
      obtain ⟨d1, d2⟩ := c2 h
      refine ⟨d1, fun o ho => ?_⟩
      rw [d2 o ho, b2 o ho, List.filter_cons]
      by_cases ht : Targets n s o <;> simp [ht]

/-! ## Boundary conditions -/

theorem mem_validFields (n : ℕ) (f : Field) : f ∈ validFields n ↔ KnownField n f := by
  simp only [validFields, KnownField, List.mem_append, List.mem_cons, List.not_mem_nil, or_false,
    List.mem_map, List.mem_range]
  constructor
  · rintro (((rfl | rfl | rfl) | ⟨k, hk, rfl⟩) | ⟨k, hk, rfl⟩)
    · exact .inl rfl
    · exact .inr ⟨0, by omega, .inl rfl⟩
    · exact .inr ⟨0, by omega, .inr rfl⟩
    · exact .inr ⟨k + 1, by omega, .inr rfl⟩
    · exact .inr ⟨k + 1, by omega, .inl rfl⟩
  · rintro (rfl | ⟨k, hk, rfl | rfl⟩)
    · simp
    · cases k with
      | zero => simp
      | succ k => exact .inr ⟨k, by omega, rfl⟩
    · cases k with
      | zero => simp
      | succ k => exact .inl (.inr ⟨k, by omega, rfl⟩)

theorem checkClash_ok (bc : BC) : ∀ l : List BC, checkClash bc l = .ok () ↔
    ∀ d ∈ l, bc.uid ≠ d.uid → bc.field = d.field → ∀ s ∈ bc.surfaces, s ∉ d.surfaces
  | [] => by simp [checkClash]
  | d :: l => by
    have ih := checkClash_ok bc l
    rw [List.forall_mem_cons, ← ih]
    simp only [checkClash]
    split <;> rename_i h
    · constructor
      · intro hh
        refine ⟨?_, hh⟩
        intro h1 h2
        rcases h with h | h
        · exact absurd h h1
        · exact absurd h2 h
      · exact fun hh => hh.2
    · rw [not_or, not_not] at h
      split <;> rename_i h2
      · simp only [List.any_eq_true, decide_eq_true_eq] at h2
        obtain ⟨s, h3, h4⟩ := h2
        constructor
        · intro hh; cases hh
        · intro hh; exact absurd h4 (hh.1 h.1 h.2 s h3)
      · simp only [List.any_eq_true, decide_eq_true_eq, not_exists, not_and] at h2
        exact ⟨fun hh => ⟨fun _ _ => h2, hh⟩, fun hh => hh.2⟩

theorem checkBC_ok (dim : ℕ) (heat : Bool) (n : ℕ) (ds : List BC) (bc : BC) :
    checkBC dim heat n ds bc = .ok () ↔
      KnownField n bc.field ∧ (bc.kind = .surfaceKinetics → dim = 1) ∧
      (bc.field = .name "T" → heat = true) ∧
      ∀ d ∈ ds, bc.uid ≠ d.uid → bc.field = d.field → ∀ s ∈ bc.surfaces, s ∉ d.surfaces := by
  rw [← checkClash_ok, ← mem_validFields]
  unfold checkBC
  split <;> rename_i h1
  · simp [h1]
  · rw [not_not] at h1
    split <;> rename_i h2
    · simp [h2]
    · split <;> rename_i h3
      · simp [h3]
      · have : bc.kind = .surfaceKinetics → dim = 1 := fun h => by
          by_contra hh; exact h2 ⟨h, hh⟩
        have h4 : bc.field = .name "T" → heat = true := fun h => by
          by_contra hh; exact h3 ⟨h, by simpa using hh⟩
        tauto

theorem checkBCLoop_ok (dim : ℕ) (heat : Bool) (n : ℕ) (ds : List BC) : ∀ l : List BC,
    checkBCLoop dim heat n ds l = .ok () ↔ ∀ bc ∈ l, checkBC dim heat n ds bc = .ok ()
  | [] => by simp [checkBCLoop]
  | bc :: l => by
    have ih := checkBCLoop_ok dim heat n ds l
    simp only [checkBCLoop, List.forall_mem_cons]
    cases h : checkBC dim heat n ds bc with
    | error e => simp
    | ok u => simp [ih]

theorem createDirichlets_ok (nsub : ℕ) : ∀ (l : List BC) (r : List Imposed),
    createDirichlets nsub l = .ok r → ∀ i, i ∈ r ↔
      ∃ bc ∈ l, bc.field ≠ .name "T" ∧ bc.kind = .dirichlet ∧ bc.uid = i.uid ∧ i.surface ∈ bc.surfaces ∧
        ((nsub = 0 ∧ i.component = 0) ∨ (nsub ≠ 0 ∧ bc.field = .int i.component ∧ i.component < nsub))
  | [], r, h, i => by cases h; simp
  | bc :: l, r, h, i => by
    simp only [createDirichlets] at h
    split at h <;> rename_i hc
    · cases hd : createDirichlet nsub bc with
      | error e => rw [hd] at h; cases h
      | ok a =>
        rw [hd] at h
        cases hl : createDirichlets nsub l with
        | error e => simp only [hl, Except.map] at h; cases h
        | ok b =>
          simp only [hl, Except.map] at h
          cases h
          have ih := createDirichlets_ok nsub l b hl i
          rw [List.mem_append, ih]
          have ha : i ∈ a ↔ bc.uid = i.uid ∧ i.surface ∈ bc.surfaces ∧
              ((nsub = 0 ∧ i.component = 0) ∨
                (nsub ≠ 0 ∧ bc.field = .int i.component ∧ i.component < nsub)) := by
            unfold createDirichlet at hd
            split at hd <;> rename_i hn
            · cases hd
              rcases i with ⟨iu, ic, is⟩
              simp only [List.mem_map, Imposed.mk.injEq, hn, not_true_eq_false, ne_eq, false_and,
                or_false, true_and]
              constructor
              · rintro ⟨s, hs, rfl, rfl, rfl⟩; exact ⟨rfl, hs, rfl⟩
              · rintro ⟨h1, h2, h3⟩; exact ⟨is, h2, h1, h3.symm, rfl⟩
            · split at hd
              · rename_i k hk
                split at hd <;> rename_i hkn
                · cases hd
                  rcases i with ⟨iu, ic, is⟩
                  simp only [List.mem_map, Imposed.mk.injEq, hn, not_false_eq_true, ne_eq, false_and,
                    false_or, true_and, hk, Field.int.injEq]
                  constructor
                  · rintro ⟨s, hs, rfl, rfl, rfl⟩; exact ⟨rfl, hs, rfl, hkn⟩
                  · rintro ⟨h1, h2, h3, -⟩; exact ⟨is, h2, h1, h3, rfl⟩
                · cases hd
              · cases hd
          rw [ha]
          constructor
          · rintro (h | ⟨b', h1, h2⟩)
            · exact ⟨bc, by simp, hc.1, hc.2, h⟩
            · exact ⟨b', by simp [h1], h2⟩
          · rintro ⟨b', h1, h2, h3, h4⟩
            rcases List.mem_cons.1 h1 with rfl | h1
            · exact .inl h4
            · exact .inr ⟨b', h1, h2, h3, h4⟩
    · rw [createDirichlets_ok nsub l r h i]
      constructor
      · rintro ⟨b', h1, h2⟩; exact ⟨b', by simp [h1], h2⟩
      · rintro ⟨b', h1, h2, h3, h4⟩
        rcases List.mem_cons.1 h1 with rfl | h1
        · exact absurd ⟨h2, h3⟩ hc
        · exact ⟨b', h1, h2, h3, h4⟩

/-! ## Components -/

theorem assignSurfaces_spec (j : ℕ) : ∀ c i index, assignSurfaces j i c index =
    ((List.range c).map (fun d => (Unknown.adsorbed j (i + d), index + d)), index + c)
  | 0, i, index => by simp [assignSurfaces]
  | c + 1, i, index => by
    simp only [assignSurfaces, assignSurfaces_spec j c]
    rw [List.range_succ_eq_map, List.map_cons, List.map_map]
    refine Prod.ext ?_ (by simp; omega)
    simp only [Nat.add_zero, List.cons.injEq, true_and]
    apply List.map_congr_left
    intro d _
    simp only [Function.comp, Nat.succ_eq_add_one]
    rw [show i + 1 + d = i + (d + 1) by omega, show index + 1 + d = index + (d + 1) by omega]

theorem assignTraps_spec : ∀ c k index, assignTraps k c index =
    ((List.range c).map (fun d => (Unknown.trap (k + d), index + d)), index + c)
  | 0, k, index => by simp [assignTraps]
  | c + 1, k, index => by
    simp only [assignTraps, assignTraps_spec c]
    rw [List.range_succ_eq_map, List.map_cons, List.map_map]
    refine Prod.ext ?_ (by simp; omega)
    simp only [Nat.add_zero, List.cons.injEq, true_and]
    apply List.map_congr_left
    intro d _
    simp only [Function.comp, Nat.succ_eq_add_one]
    rw [show k + 1 + d = k + (d + 1) by omega, show index + 1 + d = index + (d + 1) by omega]

theorem assignSKs_indices : ∀ (sks : List ℕ) (j index : ℕ),
    ((assignSKs j sks index).1.map Prod.snd = List.range' index sks.sum) ∧
    (assignSKs j sks index).2 = index + sks.sum
  | [], j, index => by simp [assignSKs]
  | c :: cs, j, index => by
    obtain ⟨h1, h2⟩ := assignSKs_indices cs (j + 1) (index + c)
    simp only [assignSKs, assignSurfaces_spec, List.map_append, h1, h2, List.sum_cons]
    refine ⟨?_, by omega⟩
    rw [List.map_map, ← List.range'_append_1]
    congr 1
    rw [List.range'_eq_map_range]
    rfl

theorem mem_assignSKs : ∀ (sks : List ℕ) (j₀ index : ℕ) (p : Unknown × ℕ),
    p ∈ (assignSKs j₀ sks index).1 ↔
      ∃ j i, ∃ h : j < sks.length, i < sks[j] ∧ p = (.adsorbed (j₀ + j) i, index + (sks.take j).sum + i)
  | [], j₀, index, p => by simp [assignSKs]
  | c :: cs, j₀, index, p => by
    have ih := mem_assignSKs cs (j₀ + 1) (index + c) p
    simp only [assignSKs, assignSurfaces_spec, List.mem_append, ih, List.mem_map, List.mem_range]
    constructor
    · rintro (⟨d, hd, rfl⟩ | ⟨j, i, h, hi, rfl⟩)
      · exact ⟨0, d, by simp, by simpa using hd, by simp⟩
      · refine ⟨j + 1, i, by simpa using h, by simpa using hi, ?_⟩
        simp only [List.take_succ_cons, List.sum_cons]
        rw [show j₀ + 1 + j = j₀ + (j + 1) by omega,
          show index + c + (cs.take j).sum + i = index + (c + (cs.take j).sum) + i by omega]
    · rintro ⟨j, i, h, hi, rfl⟩
      cases j with
      | zero => exact .inl ⟨i, by simpa using hi, by simp⟩
      | succ j =>
        refine .inr ⟨j, i, by simpa using h, by simpa using hi, ?_⟩
        simp only [List.take_succ_cons, List.sum_cons]
        rw [show j₀ + 1 + j = j₀ + (j + 1) by omega,
          show index + c + (cs.take j).sum + i = index + (c + (cs.take j).sum) + i by omega]

/-! ## Trap ids -/

theorem assignIds_getElem (ids : List (Option ℕ)) (k : ℕ) (h : k < (assignIds ids).length) :
    (assignIds ids)[k] = (ids[k]'(by simpa [assignIds] using h)).getD (k + 1) := by
  simp [assignIds, Nat.add_comm]

theorem assignIds_default (n : ℕ) : assignIds (List.replicate n none) = List.range' 1 n := by
  apply List.ext_getElem
  · simp [assignIds]
  · intro k h1 h2
    rw [assignIds_getElem]
    simp [Nat.add_comm]

theorem zipIdx_range' (n s : ℕ) : ((List.range' s n).zipIdx s) = (List.range' s n).map fun i => (i, i) := by
  apply List.ext_getElem
  · simp
  · intro k h1 h2
    simp

theorem getTrap_default (n k : ℕ) (h1 : 1 ≤ k) (h2 : k ≤ n) : getTrap (List.range' 1 n) k = .ok k := by
  unfold getTrap
  rw [zipIdx_range']
  cases hf : ((List.range' 1 n).map fun i => (i, i)).find? fun p => decide (p.1 = k) with
  | none =>
    rw [List.find?_eq_none] at hf
    have := hf (k, k) (by simp; omega)
    simp at this
  | some p =>
    have h3 := List.find?_some hf
    have h4 := List.mem_of_find?_eq_some hf
    simp at h3 h4
    obtain ⟨a, -, rfl⟩ := h4
    simp only at h3 ⊢
    rw [h3]

theorem labelToFunction_get (ids : List ℕ) (f : Field) :
    Dict.get? (labelToFunction ids) f =
      match f with
      | .int j => (((ids.zipIdx 1).reverse.find? fun p => decide (p.1 = j)).map fun p => ExpFun.comp p.2).or
          (if j = 0 then some (.comp 0) else none)
      | .strInt j => (((ids.zipIdx 1).reverse.find? fun p => decide (p.1 = j)).map fun p => ExpFun.comp p.2).or
          (if j = 0 then some (.comp 0) else none)
      | .name s => if s = "solute" then some (.comp 0) else if s = "T" then some .temp
          else if s = "retention" then some .retention else if s = "adsorbed" then some .adsorbed else none := by
  have h0 : labelToFunction ids = numbered ExpFun.comp
    [(.name "solute", .comp 0), (.strInt 0, .comp 0), (.int 0, .comp 0), (.name "T", .temp),
     (.name "retention", .retention), (.name "adsorbed", .adsorbed)] (ids.zipIdx 1) := rfl
  rw [h0, numbered_get]
  cases f with
  | int j =>
    simp only
    congr 1
    cases j <;> simp [Dict.get?]
  | strInt j =>
    simp only
    congr 1
    cases j <;> simp [Dict.get?]
  | name s =>
    simp only
    by_cases h1 : s = "solute"
    · subst h1; rfl
    by_cases h2 : s = "T"
    · subst h2; rfl
    by_cases h3 : s = "retention"
    · subst h3; rfl
    by_cases h4 : s = "adsorbed"
    · subst h4; rfl
    simp [Dict.get?, h1, h2, h3, h4, Ne.symm h1, Ne.symm h2, Ne.symm h3, Ne.symm h4]

theorem fieldToComponent_get (ids : List ℕ) (f : Field) :
    Dict.get? (fieldToComponent ids) f =
      match f with
      | .int j => (((ids.zipIdx 1).reverse.find? fun p => decide (p.1 = j)).map fun p => p.2).or
          (if j = 0 then some 0 else none)
      | .strInt j => (((ids.zipIdx 1).reverse.find? fun p => decide (p.1 = j)).map fun p => p.2).or
          (if j = 0 then some 0 else none)
      | .name s => if s = "solute" then some 0 else none := by
  have h0 : fieldToComponent ids = numbered id
    [(.name "solute", 0), (.strInt 0, 0), (.int 0, 0)] (ids.zipIdx 1) := rfl
  rw [h0, numbered_get]
  cases f with
  | int j =>
    simp only [id]
    congr 1
    cases j <;> simp [Dict.get?]
  | strInt j =>
    simp only [id]
    congr 1
    cases j <;> simp [Dict.get?]
  | name s =>
    simp only
    by_cases h1 : s = "solute"
    · subst h1; rfl
    simp [Dict.get?, h1, Ne.symm h1]

theorem find_last (ids : List ℕ) (j : ℕ) (p : ℕ × ℕ) :
    ((ids.zipIdx 1).reverse.find? fun p => decide (p.1 = j)) = some p ↔
      p.1 = j ∧ 1 ≤ p.2 ∧ ids[p.2 - 1]? = some j ∧ ∀ k, p.2 ≤ k → ids[k]? ≠ some j := by
  induction ids using List.reverseRecOn generalizing p with
  | nil => simp
  | append_singleton l x ih =>
    rw [List.zipIdx_append]
    simp only [List.zipIdx_cons, List.zipIdx_nil, List.reverse_append, List.reverse_cons,
      List.reverse_nil, List.nil_append, List.singleton_append, List.find?_cons]
    by_cases hx : x = j
    · simp only [hx, decide_true, Option.some.injEq]
      constructor
      · rintro rfl
        refine ⟨rfl, by simp, by simp, ?_⟩
        intro k hk
        rw [List.getElem?_eq_none]
        · simp
        · simp; simp at hk; omega
      · rintro ⟨h1, h2, h3, h4⟩
        have h5 : p.2 - 1 < (l ++ [j]).length :=
          (List.getElem?_eq_some_iff.1 h3).1
        have h6 := h4 l.length
        simp at h5 h6
        ext
        · exact h1.symm
        · simp; omega
    · simp only [hx, decide_false]
      rw [ih]
      constructor
      · rintro ⟨h1, h2, h3, h4⟩
        have h5 : p.2 - 1 < l.length :=
          (List.getElem?_eq_some_iff.1 h3).1
        refine ⟨h1, h2, by rw [List.getElem?_append_left h5]; exact h3, ?_⟩
        intro k hk
        by_cases hkl : k < l.length
        · rw [List.getElem?_append_left hkl]; exact h4 k hk
        · rw [List.getElem?_append_right (by omega)]
          cases hd : k - l.length with
          | zero => simp [hx]
          | succ d => simp
      · rintro ⟨h1, h2, h3, h4⟩
        have h5 : p.2 - 1 < (l ++ [x]).length :=
          (List.getElem?_eq_some_iff.1 h3).1
        have h5' : p.2 - 1 < l.length := by
          by_contra hc
          have : p.2 - 1 = l.length := by simp at h5; omega
          rw [this] at h3
          simp at h3
          exact hx h3
        rw [List.getElem?_append_left h5'] at h3
        refine ⟨h1, h2, h3, ?_⟩
        intro k hk hh
        have hkl : k < l.length :=
          (List.getElem?_eq_some_iff.1 hh).1
        apply h4 k hk
        rw [List.getElem?_append_left hkl]; exact hh

end Festim
