import Verif.Spec.Setters
import Verif.Props.TypedList

/-! # Attributes of simulations (C64) and sharing of their lists (C73) -/

namespace Festim.Props

open Festim.Attr Festim.Spec

/-- The setter of each attribute. -/
def setter : Kind → Heap → Val → Except PyErr (Heap × Val)
  | .traps => setTraps
  | .materials => setMaterials
  | .exports => setExports

theorem listCls_ref {h : Heap} {a : ℕ} {o : Obj} (ho : h[a]? = some o) :
    listCls h (.ref a) = some o.cls := by simp [listCls, ho]

theorem itemsAt_ref {h : Heap} {a : ℕ} {o : Obj} (ho : h[a]? = some o) :
    itemsAt h a = o.items := by simp [itemsAt, ho]

theorem element_iff (k : Kind) (h : Heap) (v : Val) :
    validFor h k.cls v = true ↔ Element k h v := by
  cases k
  · cases v with
    | leaf c n => cases c <;> simp [validFor, Kind.cls, isTrap, Element]
    | _ => simp [validFor, Kind.cls, isTrap, Element]
  · cases v with
    | leaf c n => cases c <;> simp [validFor, Kind.cls, isMaterial, Element]
    | _ => simp [validFor, Kind.cls, isMaterial, Element]
  · cases v with
    | leaf c n => cases c <;> simp [validFor, Kind.cls, isExport, Element, listCls]
    | ref a =>
      simp only [validFor, Kind.cls, isExport, Element, listCls, beq_iff_eq, Val.ref.injEq,
        reduceCtorEq, or_self, exists_false, false_or]
      rw [Option.map_eq_some_iff]
      constructor
      · rintro ⟨⟨c, items⟩, ho, hc⟩
        refine ⟨a, items, rfl, ?_⟩
        simp only at hc
        rw [ho, hc]
      · rintro ⟨b, items, rfl, ho⟩
        exact ⟨_, ho, rfl⟩
    | _ => simp [validFor, Kind.cls, isExport, Element, listCls]

theorem mkList_ok {k : Kind} {h : Heap} {items : List Val} (hv : ∀ x ∈ items, Element k h x) :
    mkList h k.cls items = .ok (h ++ [⟨k.cls, items⟩], h.length) := by
  unfold mkList
  rw [(C40_constructor (validFor h k.cls) items).1 fun x hx => (element_iff k h x).2 (hv x hx)]

theorem mkList_error {k : Kind} {h : Heap} {items : List Val} (hv : ¬ ∀ x ∈ items, Element k h x) :
    ∃ msg, mkList h k.cls items = .error (.typeError msg) := by
  push Not at hv
  obtain ⟨x, hx, hn⟩ := hv
  obtain ⟨msg, hm⟩ := (C40_constructor (validFor h k.cls) items).2 ⟨x, hx, by
    rw [← Bool.not_eq_true, element_iff]; exact hn⟩
  exact ⟨msg, by unfold mkList; rw [hm]⟩

theorem no_element_none (k : Kind) (h : Heap) : ¬ Element k h .none := by
  cases k <;> simp [Element]

theorem element_ref_cls {k : Kind} {h : Heap} {a : ℕ} (he : Element k h (.ref a)) :
    k = .exports ∧ ∃ items, h[a]? = some ⟨.derivedQuantities, items⟩ := by
  cases k
  · simp [Element] at he
  · simp [Element] at he
  · refine ⟨rfl, ?_⟩
    rcases he with ⟨n, h1 | h1⟩ | ⟨b, items, h1, h2⟩
    · cases h1
    · cases h1
    · cases h1; exact ⟨items, h2⟩

theorem setter_single {k : Kind} {h : Heap} {v : Val} (he : Element k h v) :
    setter k h v = (mkList h k.cls [v]).map fun p => (p.1, .ref p.2) := by
  cases k
  · obtain ⟨n, rfl⟩ := he; rfl
  · obtain ⟨n, rfl⟩ := he; rfl
  · have hne : v ≠ .none := fun hn => no_element_none .exports h (hn ▸ he)
    have hv : isExport h v = true := (element_iff .exports h v).2 he
    simp only [setter, setExports, hne, if_false, hv, if_true]; rfl

theorem setter_typed {k : Kind} {h : Heap} {a : ℕ} {items : List Val}
    (ho : h[a]? = some ⟨k.cls, items⟩) : setter k h (.ref a) = .ok (h, .ref a) := by
  have hc := listCls_ref ho
  cases k
  · simp [setter, setTraps, hc, Kind.cls]
  · simp [setter, setMaterials, hc, Kind.cls]
  · have : isExport h (.ref a) = false := by simp [isExport, hc, Kind.cls]
    simp [setter, setExports, hc, this, Kind.cls]

theorem setter_list {k : Kind} {h : Heap} {a : ℕ} {c : ListCls} {items : List Val}
    (ho : h[a]? = some ⟨c, items⟩) (hc : c ≠ k.cls) (he : ¬ Element k h (.ref a)) :
    setter k h (.ref a) = (mkList h k.cls items).map fun p => (p.1, .ref p.2) := by
  have hl := listCls_ref ho
  have hi := itemsAt_ref ho
  cases k
  · simp only [setter, setTraps, hl, hi, Kind.cls] at hc ⊢; simp [hc]
  · simp only [setter, setMaterials, hl, hi, Kind.cls] at hc ⊢; simp [hc]
  · have : isExport h (.ref a) = false := by
      rw [← Bool.not_eq_true]; exact fun hx => he ((element_iff .exports h _).1 hx)
    simp only [setter, setExports, hl, hi, this, Kind.cls] at hc ⊢; simp [hc]

/-- **C64 (a).** Assigning `traps`, `materials` or `exports`: every value that stands for a list of the
documented elements is accepted, and the attribute then refers to exactly that list. -/
theorem C64_accepts (k : Kind) (h : Heap) (v : Val) (items : List Val) (sh : Sharing)
    (hm : Means k h v items sh) : setter k h v = .ok (Stored k h items sh) := by
  cases hm with
  | none hk =>
    cases k
    · rfl
    · exact absurd rfl hk
    · rfl
  | noMaterials hk => subst hk; rfl
  | single v he =>
    rw [setter_single he, mkList_ok (by simpa using he)]; rfl
  | typed a items ho => rw [setter_typed ho]; rfl
  | list a c items ho hc he hall => rw [setter_list ho hc he, mkList_ok hall]; rfl

/-- **C64 (b).** Any other value raises `TypeError`. -/
theorem C64_rejects (k : Kind) (h : Heap) (v : Val) (hm : ∀ items sh, ¬ Means k h v items sh) :
    ∃ msg, setter k h v = .error (.typeError msg) := by
  have hsingle : ¬ Element k h v := fun he => hm _ _ (.single v he)
  cases v with
  | none =>
    by_cases hk : k = .materials
    · exact absurd (Means.noMaterials hk) (hm _ _)
    · exact absurd (Means.none hk) (hm _ _)
  | ref a =>
    cases ho : h[a]? with
    | none =>
      have hc : listCls h (.ref a) = none := by simp [listCls, ho]
      cases k
      · exact ⟨_, by simp [setter, setTraps, hc]; rfl⟩
      · exact ⟨_, by simp [setter, setMaterials, hc]; rfl⟩
      · have : isExport h (.ref a) = false := by simp [isExport, hc]
        exact ⟨_, by simp [setter, setExports, hc, this]; rfl⟩
    | some o =>
      obtain ⟨c, items⟩ := o
      by_cases hc : c = k.cls
      · subst hc; exact absurd (Means.typed a items ho) (hm _ _)
      · rw [setter_list ho hc hsingle]
        obtain ⟨msg, he⟩ := mkList_error (k := k) (h := h) (items := items)
          fun hall => hm _ _ (.list a c items ho hc hsingle hall)
        exact ⟨msg, by rw [he]; rfl⟩
  | leaf c n =>
    cases k <;> cases c <;> first
      | exact ⟨_, rfl⟩
      | (exfalso; simp [Element] at hsingle)
  | _ => cases k <;> exact ⟨_, rfl⟩

/-- **C64 (c).** A single object is treated as the list that holds it: same items, and a list nothing
else refers to. -/
theorem C64_singleton (k : Kind) (h : Heap) (v : Val) (he : Element k h v) (a : ℕ)
    (ha : h[a]? = some ⟨.plain, [v]⟩) : setter k h v = setter k h (.ref a) := by
  rw [C64_accepts k h v _ _ (.single v he), C64_accepts k h (.ref a) _ _ (.list a .plain [v] ha
    (by cases k <;> simp [Kind.cls]) ?_ (by simpa using he))]
  intro hx
  obtain ⟨-, items, hi⟩ := element_ref_cls hx
  rw [ha] at hi; cases hi

/-- **C64 (d).** `T` and `dt` accept exactly the documented types; a number (or, for `T`, an
expression) stands for the object built from it; anything else raises `TypeError`. -/
theorem C64_T_dt (v : Val) :
    ((∃ s, setT v = .ok s) ↔ TArg v) ∧ (¬ TArg v → ∃ msg, setT v = .error (.typeError msg)) ∧
    ((∃ s, setDt v = .ok s) ↔ DtArg v) ∧ (¬ DtArg v → ∃ msg, setDt v = .error (.typeError msg)) ∧
    (∀ q, v = .num q → setT v = .ok (.built v) ∧ setDt v = .ok (.built v)) ∧
    (∀ e, v = .sympy e → setT v = .ok (.built v) ∧ ∃ msg, setDt v = .error (.typeError msg)) ∧
    (∀ n, v = .leaf .temperature n → setT v = .ok (.given n)) ∧
    (∀ n, v = .leaf .stepsize n → setDt v = .ok (.given n)) := by
  cases v with
  | leaf c n => cases c <;> simp [setT, setDt, TArg, DtArg]
  | _ => simp [setT, setDt, TArg, DtArg]

/-- **C64 (e).** A failing assignment leaves the program as it was: the simulation keeps its previous
value. -/
theorem C64_failed_assignment (w : World) (i : ℕ) (s : Sim) (hs : w.sims[i]? = some s) (k : Kind)
    (v : Val) (hm : ∀ items sh, ¬ Means k w.heap v items sh) : step w (.set i k.name v) = w := by
  obtain ⟨msg, he⟩ := C64_rejects k w.heap v hm
  have : setAttr w.heap s k.name v = .error (.typeError msg) := by
    cases k
    · simp only [setter] at he; simp only [setAttr, Kind.name, he]; rfl
    · simp only [setter] at he; simp only [setAttr, Kind.name, he]; rfl
    · simp only [setter] at he; simp only [setAttr, Kind.name, he]; rfl
  simp only [step, hs, this]

/-! ## Constructor -/

theorem element_append {k : Kind} {h : Heap} {v : Val} (l : Heap) (hb : Bound h v) :
    Element k (h ++ l) v ↔ Element k h v := by
  cases k
  · rfl
  · rfl
  · simp only [Element]
    refine or_congr Iff.rfl ?_
    constructor
    · rintro ⟨a, items, rfl, ho⟩
      exact ⟨a, items, rfl, by rwa [List.getElem?_append_left (hb a rfl)] at ho⟩
    · rintro ⟨a, items, rfl, ho⟩
      exact ⟨a, items, rfl, by rwa [List.getElem?_append_left (hb a rfl)]⟩

theorem means_append {k : Kind} {h : Heap} {v : Val} {items : List Val} {sh : Sharing} (l : Heap)
    (hb : Bound h v) (hcl : ClosedHeap h) :
    Means k (h ++ l) v items sh ↔ Means k h v items sh := by
  have helem : ∀ {a : ℕ} {o : Obj}, h[a]? = some o → ∀ x ∈ o.items, Bound h x :=
    fun ho x hx => hcl _ (List.mem_of_getElem? ho) x hx
  constructor
  · intro hm
    cases hm with
    | none hk => exact .none hk
    | noMaterials hk => exact .noMaterials hk
    | single v he => exact .single v ((element_append l hb).1 he)
    | typed a items ho =>
      exact .typed a items (by rwa [List.getElem?_append_left (hb a rfl)] at ho)
    | list a c items ho hc he hall =>
      rw [List.getElem?_append_left (hb a rfl)] at ho
      exact .list a c items ho hc (fun hx => he ((element_append l hb).2 hx))
        fun x hx => (element_append l (helem ho x hx)).1 (hall x hx)
  · intro hm
    cases hm with
    | none hk => exact .none hk
    | noMaterials hk => exact .noMaterials hk
    | single v he => exact .single v ((element_append l hb).2 he)
    | typed a items ho =>
      exact .typed a items (by rwa [List.getElem?_append_left (hb a rfl)])
    | list a c items ho hc he hall =>
      exact .list a c items (by rwa [List.getElem?_append_left (hb a rfl)]) hc
        (fun hx => he ((element_append l hb).1 hx))
        fun x hx => (element_append l (helem ho x hx)).2 (hall x hx)

/-- An assignment only adds objects to the heap. -/
theorem stored_extends (k : Kind) (h : Heap) (items : List Val) (sh : Sharing) :
    ∃ l, (Stored k h items sh).1 = h ++ l := by
  cases sh with
  | fresh => exact ⟨_, rfl⟩
  | same a => exact ⟨[], by simp [Stored]⟩
  | nothing => exact ⟨[], by simp [Stored]⟩

theorem setter_cases (k : Kind) (h : Heap) (v : Val) :
    (∃ items sh, Means k h v items sh ∧ setter k h v = .ok (Stored k h items sh)) ∨
    ((∀ items sh, ¬ Means k h v items sh) ∧ ∃ msg, setter k h v = .error (.typeError msg)) := by
  by_cases hm : ∃ items sh, Means k h v items sh
  · obtain ⟨items, sh, hm⟩ := hm
    exact .inl ⟨items, sh, hm, C64_accepts k h v items sh hm⟩
  · push Not at hm
    exact .inr ⟨hm, C64_rejects k h v hm⟩

theorem setter_extends {k : Kind} {h : Heap} {v : Val} {p : Heap × Val}
    (hp : setter k h v = .ok p) : ∃ l, p.1 = h ++ l := by
  rcases setter_cases k h v with ⟨items, sh, -, he⟩ | ⟨-, msg, he⟩
  · rw [he] at hp; cases hp; exact stored_extends k h items sh
  · rw [he] at hp; cases hp

theorem setter_ok_iff (k : Kind) (h : Heap) (v : Val) :
    (∃ p, setter k h v = .ok p) ↔ ∃ items sh, Means k h v items sh := by
  rcases setter_cases k h v with ⟨items, sh, hm, he⟩ | ⟨hm, msg, he⟩
  · exact ⟨fun _ => ⟨items, sh, hm⟩, fun _ => ⟨_, he⟩⟩
  · constructor
    · rintro ⟨p, hp⟩; rw [he] at hp; cases hp
    · rintro ⟨items, sh, h'⟩; exact absurd h' (hm items sh)

/-- The successful constructor, decomposed. -/
theorem construct_ok_iff (h : Heap) (a : Args) (h' : Heap) (s : Sim) :
    construct h a = .ok (h', s) ↔ ∃ dt p₁ p₂ T p₃,
      setDt a.dt = .ok dt ∧ setTraps h a.traps = .ok p₁ ∧ setMaterials p₁.1 a.materials = .ok p₂ ∧
      setT a.T = .ok T ∧ setExports p₂.1 a.exports = .ok p₃ ∧ h' = p₃.1 ∧
      s = ⟨a.sources.getD (.ref defaultSources), a.boundaryConditions.getD (.ref defaultBCs),
        a.initialConditions.getD (.ref defaultICs), p₁.2, p₂.2, p₃.2, T, dt⟩ := by
  unfold construct
  cases h1 : setDt a.dt with
  | error e => simp [bind, Except.bind]
  | ok dt =>
    cases h2 : setTraps h a.traps with
    | error e => simp [bind, Except.bind]
    | ok p₁ =>
      cases h3 : setMaterials p₁.1 a.materials with
      | error e => simp [bind, Except.bind, h3]
      | ok p₂ =>
        cases h4 : setT a.T with
        | error e => simp [bind, Except.bind, h3]
        | ok T =>
          cases h5 : setExports p₂.1 a.exports with
          | error e =>
            simp only [bind, Except.bind, h3, h5, reduceCtorEq, false_iff]
            rintro ⟨dt', q₁, q₂, T', q₃, -, e2, e3, -, e5, -⟩
            cases e2
            rw [h3] at e3; cases e3
            rw [h5] at e5; cases e5
          | ok p₃ =>
            simp only [bind, Except.bind, h3, h5, pure, Except.pure, Except.ok.injEq,
              Prod.mk.injEq]
            constructor
            · rintro ⟨rfl, rfl⟩
              exact ⟨dt, p₁, p₂, T, p₃, rfl, rfl, h3, rfl, h5, rfl, rfl⟩
            · rintro ⟨dt', q₁, q₂, T', q₃, rfl, rfl, e3, rfl, e5, rfl, rfl⟩
              rw [h3] at e3; cases e3
              rw [h5] at e5; cases e5
              exact ⟨rfl, rfl⟩

/-- **C64 (f).** `Simulation(...)` accepts its arguments exactly when each of them would be accepted by
its setter, independently of the others. -/
theorem C64_constructor (h : Heap) (a : Args) (hcl : ClosedHeap h) (hm : Bound h a.materials)
    (he : Bound h a.exports) :
    (∃ r, construct h a = .ok r) ↔
      DtArg a.dt ∧ TArg a.T ∧ (∃ items sh, Means .traps h a.traps items sh) ∧
      (∃ items sh, Means .materials h a.materials items sh) ∧
      (∃ items sh, Means .exports h a.exports items sh) := by
  constructor
  · rintro ⟨⟨h', s⟩, hr⟩
    obtain ⟨dt, p₁, p₂, T, p₃, e1, e2, e3, e4, e5, -, -⟩ := (construct_ok_iff h a h' s).1 hr
    obtain ⟨l₁, hl₁⟩ := setter_extends (k := .traps) e2
    obtain ⟨l₂, hl₂⟩ := setter_extends (k := .materials) e3
    refine ⟨((C64_T_dt a.dt).2.2.1).1 ⟨_, e1⟩, ((C64_T_dt a.T).1).1 ⟨_, e4⟩,
      (setter_ok_iff .traps h _).1 ⟨_, e2⟩, ?_, ?_⟩
    · obtain ⟨items, sh, hmm⟩ := (setter_ok_iff .materials _ _).1 ⟨_, e3⟩
      rw [hl₁, means_append l₁ hm hcl] at hmm
      exact ⟨items, sh, hmm⟩
    · obtain ⟨items, sh, hmm⟩ := (setter_ok_iff .exports _ _).1 ⟨_, e5⟩
      rw [hl₂, hl₁, List.append_assoc, means_append _ he hcl] at hmm
      exact ⟨items, sh, hmm⟩
  · rintro ⟨hd, ht, htr, ⟨i2, s2, hma⟩, ⟨i3, s3, hex⟩⟩
    obtain ⟨dt, e1⟩ := ((C64_T_dt a.dt).2.2.1).2 hd
    obtain ⟨T, e4⟩ := ((C64_T_dt a.T).1).2 ht
    obtain ⟨p₁, e2⟩ := (setter_ok_iff .traps h _).2 htr
    obtain ⟨l₁, hl₁⟩ := setter_extends e2
    obtain ⟨p₂, e3⟩ := (setter_ok_iff .materials p₁.1 a.materials).2
      ⟨i2, s2, by rw [hl₁]; exact (means_append l₁ hm hcl).2 hma⟩
    obtain ⟨l₂, hl₂⟩ := setter_extends e3
    obtain ⟨p₃, e5⟩ := (setter_ok_iff .exports p₂.1 a.exports).2
      ⟨i3, s3, by rw [hl₂, hl₁, List.append_assoc]; exact (means_append _ he hcl).2 hex⟩
    exact ⟨_, (construct_ok_iff h a _ _).2 ⟨dt, p₁, p₂, T, p₃, e1, e2, e3, e4, e5, rfl, rfl⟩⟩

/-! ## What is seen through an attribute -/

theorem itemsAt_mutateAt (h : Heap) (a b : ℕ) (op : ListOp Val) (o : Obj) (ha : h[a]? = some o) :
    itemsAt (mutateAt h a op) b =
      if b = a then (op.apply (validFor h o.cls) o.items).1 else itemsAt h b := by
  unfold mutateAt
  rw [ha]
  have hlt : a < h.length := (List.getElem?_eq_some_iff.1 ha).1
  by_cases hb : b = a
  · subst hb
    rw [if_pos rfl]
    exact itemsAt_ref (by rw [List.getElem?_set_self hlt])
  · rw [if_neg hb]
    unfold itemsAt
    rw [List.getElem?_set_ne (fun h => hb h.symm)]

theorem mutateAt_length (h : Heap) (a : ℕ) (op : ListOp Val) :
    (mutateAt h a op).length = h.length := by
  unfold mutateAt; split <;> simp

theorem addr_lt {w : World} {t : Target} {a : ℕ} (h : t.addr w = some a) : a < w.heap.length := by
  unfold Target.addr at h
  split at h
  · split at h
    · cases h; assumption
    · cases h
  · split at h
    · cases h
    · split at h
      · split at h
        · cases h; assumption
        · cases h
      · cases h

theorem addr_mutate (w : World) (a : ℕ) (op : ListOp Val) (t : Target) :
    t.addr ⟨mutateAt w.heap a op, w.sims⟩ = t.addr w := by
  unfold Target.addr; simp only [mutateAt_length]

/-- **C73 (a).** A change made to a list, through whatever name, is seen through an attribute of a
simulation exactly when that attribute refers to this very list; every other attribute of every
simulation shows what it showed before. -/
theorem C73_change_seen (w : World) (t : Target) (op : ListOp Val) (a : ℕ) (o : Obj)
    (ht : t.addr w = some a) (ho : w.heap[a]? = some o) (j : ℕ) (n : Name) :
    seen (step w (.mutate t op)) j n =
      if Target.addr w (.attr j n) = some a then
        some (op.apply (validFor w.heap o.cls) o.items).1
      else seen w j n := by
  have hs : step w (.mutate t op) = ⟨mutateAt w.heap a op, w.sims⟩ := by simp only [step, ht]
  rw [hs]
  unfold seen
  rw [addr_mutate]
  cases hb : Target.addr w (.attr j n) with
  | none => simp
  | some b =>
    simp only [Option.some.injEq]
    rw [itemsAt_mutateAt _ _ _ _ o ho]
    split <;> rfl

/-- The attribute `n` of simulation `i` holds `v`. -/
def Holds (w : World) (i : ℕ) (n : Name) (v : Val) : Prop :=
  ∃ s, w.sims[i]? = some s ∧ getAttr s n = v

theorem map_ok {α β : Type} {f : α → β} {e : Except PyErr α} {b : β} (h : e.map f = .ok b) :
    ∃ p, e = .ok p ∧ f p = b := by
  cases e with
  | error e => cases h
  | ok p => exact ⟨p, rfl, Except.ok.inj h⟩

theorem getAttr_setAttr {h h' : Heap} {s s' : Sim} {n m : Name} {v : Val}
    (he : setAttr h s n v = .ok (h', s')) (hm : m ≠ n) : getAttr s' m = getAttr s m := by
  cases n
  case sources => cases he; cases m <;> first | exact absurd rfl hm | rfl
  case boundaryConditions => cases he; cases m <;> first | exact absurd rfl hm | rfl
  case initialConditions => cases he; cases m <;> first | exact absurd rfl hm | rfl
  all_goals
    obtain ⟨p, -, hp⟩ := map_ok he
    cases hp
    cases m <;> first | exact absurd rfl hm | rfl

theorem holds_step {w : World} {i : ℕ} {n : Name} {v : Val} (hh : Holds w i n v) (st : Stmt)
    (hst : ∀ u, st ≠ .set i n u) : Holds (step w st) i n v := by
  obtain ⟨s, hs, hv⟩ := hh
  cases st with
  | newList c items =>
    simp only [step]; split <;> exact ⟨s, hs, hv⟩
  | newSim a =>
    simp only [step]
    split
    · exact ⟨s, hs, hv⟩
    · refine ⟨s, ?_, hv⟩
      simp only
      rw [List.getElem?_append_left (List.getElem?_eq_some_iff.1 hs).1]; exact hs
  | mutate t op =>
    simp only [step]; split <;> exact ⟨s, hs, hv⟩
  | set j m u =>
    simp only [step]
    split
    · exact ⟨s, hs, hv⟩
    · rename_i s₀ hs₀
      split
      · exact ⟨s, hs, hv⟩
      · rename_i h' s' he
        by_cases hj : j = i
        · subst hj
          have : m ≠ n := fun hmn => hst u (by rw [hmn])
          rw [hs] at hs₀; cases hs₀
          refine ⟨s', ?_, ?_⟩
          · simp only
            rw [List.getElem?_set_self (List.getElem?_eq_some_iff.1 hs).1]
          · rw [getAttr_setAttr he (fun h => this h.symm)]; exact hv
        · exact ⟨s, by simp only; rw [List.getElem?_set_ne hj]; exact hs, hv⟩

theorem holds_run {w : World} {i : ℕ} {n : Name} {v : Val} (hh : Holds w i n v) (ss : List Stmt)
    (hst : ∀ u, Stmt.set i n u ∉ ss) : Holds (run w ss) i n v := by
  induction ss generalizing w with
  | nil => exact hh
  | cons st ss ih =>
    refine ih (holds_step hh st fun u hu => hst u (by simp [hu])) fun u hu => hst u (by simp [hu])

theorem heap_length_setAttr {h h' : Heap} {s s' : Sim} {n : Name} {v : Val}
    (he : setAttr h s n v = .ok (h', s')) : ∃ l, h' = h ++ l := by
  have key : ∀ k : Kind, ∀ p, setter k h v = .ok p → ∃ l, p.1 = h ++ l := fun k p hp =>
    setter_extends hp
  cases n
  case sources => cases he; exact ⟨[], by simp⟩
  case boundaryConditions => cases he; exact ⟨[], by simp⟩
  case initialConditions => cases he; exact ⟨[], by simp⟩
  case traps =>
    simp only [setAttr] at he
    cases hx : setTraps h v with
    | error e => rw [hx] at he; cases he
    | ok p => rw [hx] at he; cases he; exact key .traps p hx
  case materials =>
    simp only [setAttr] at he
    cases hx : setMaterials h v with
    | error e => rw [hx] at he; cases he
    | ok p => rw [hx] at he; cases he; exact key .materials p hx
  case exports =>
    simp only [setAttr] at he
    cases hx : setExports h v with
    | error e => rw [hx] at he; cases he
    | ok p => rw [hx] at he; cases he; exact key .exports p hx
  case T =>
    simp only [setAttr] at he
    cases hx : setT v with
    | error e => rw [hx] at he; cases he
    | ok p => rw [hx] at he; cases he; exact ⟨[], by simp⟩
  case dt =>
    simp only [setAttr] at he
    cases hx : setDt v with
    | error e => rw [hx] at he; cases he
    | ok p => rw [hx] at he; cases he; exact ⟨[], by simp⟩

theorem mkList_extends {h : Heap} {c : ListCls} {items : List Val} {p : Heap × ℕ}
    (hp : mkList h c items = .ok p) : ∃ l, p.1 = h ++ l := by
  unfold mkList at hp
  split at hp
  · cases hp
  · cases hp; exact ⟨_, rfl⟩

theorem construct_extends {h h' : Heap} {a : Args} {s : Sim} (he : construct h a = .ok (h', s)) :
    ∃ l, h' = h ++ l := by
  obtain ⟨dt, p₁, p₂, T, p₃, -, e2, e3, -, e5, rfl, -⟩ := (construct_ok_iff h a h' s).1 he
  obtain ⟨l₁, h₁⟩ := setter_extends (k := .traps) e2
  obtain ⟨l₂, h₂⟩ := setter_extends (k := .materials) e3
  obtain ⟨l₃, h₃⟩ := setter_extends (k := .exports) e5
  exact ⟨l₁ ++ (l₂ ++ l₃), by rw [h₃, h₂, h₁]; simp⟩

/-- No statement removes an object. -/
theorem step_length (w : World) (st : Stmt) : w.heap.length ≤ (step w st).heap.length := by
  cases st with
  | newList c items =>
    simp only [step]
    split
    · rfl
    · rename_i he; obtain ⟨l, hl⟩ := mkList_extends he; simp only at hl; simp [hl]
  | newSim a =>
    simp only [step]
    split
    · rfl
    · rename_i he; obtain ⟨l, hl⟩ := construct_extends he; simp [hl]
  | set i n v =>
    simp only [step]
    split
    · rfl
    · split
      · rfl
      · rename_i he; obtain ⟨l, hl⟩ := heap_length_setAttr he; simp [hl]
  | mutate t op =>
    simp only [step]
    split
    · rfl
    · simp [mutateAt_length]

theorem run_length (ss : List Stmt) (w : World) : w.heap.length ≤ (run w ss).heap.length := by
  induction ss generalizing w with
  | nil => rfl
  | cons st ss ih => exact (step_length w st).trans (ih _)

theorem seen_of_holds {w : World} {i a : ℕ} {n : Name} (hh : Holds w i n (.ref a))
    (ha : a < w.heap.length) : seen w i n = some (itemsAt w.heap a) := by
  obtain ⟨s, hs, hv⟩ := hh
  simp [seen, Target.addr, hs, hv, ha]

/-- The attributes with a list as default argument, and that list. -/
def defaultOf : Name → Option ℕ
  | .sources => some defaultSources
  | .boundaryConditions => some defaultBCs
  | .initialConditions => some defaultICs
  | _ => none

/-- Argument passed for such an attribute. -/
def Args.given (a : Args) : Name → Option Val
  | .sources => a.sources
  | .boundaryConditions => a.boundaryConditions
  | .initialConditions => a.initialConditions
  | _ => none

theorem newSim_holds (w : World) (a : Args) (r : Heap × Sim) (hr : construct w.heap a = .ok r)
    (n : Name) (d : ℕ) (hd : defaultOf n = some d) :
    Holds (step w (.newSim a)) w.sims.length n ((Args.given a n).getD (.ref d)) := by
  obtain ⟨h', s⟩ := r
  refine ⟨s, by simp [step, hr], ?_⟩
  obtain ⟨dt, p₁, p₂, T, p₃, -, -, -, -, -, -, rfl⟩ := (construct_ok_iff w.heap a h' s).1 hr
  cases n <;> first | (cases hd; rfl) | cases hd

/-- **C73 (b).** A simulation created without `sources` (or `boundary_conditions`, or
`initial_conditions`) shows through this attribute, at any later moment of any program that does not
assign the attribute, the content of one list that is common to all simulations. -/
theorem C73_default_is_common (w : World) (hw : 3 ≤ w.heap.length) (a : Args) (r : Heap × Sim)
    (hr : construct w.heap a = .ok r) (n : Name) (d : ℕ) (hd : defaultOf n = some d)
    (ha : Args.given a n = none) (ss : List Stmt) (hss : ∀ v, Stmt.set w.sims.length n v ∉ ss) :
    seen (run (step w (.newSim a)) ss) w.sims.length n =
      some (itemsAt (run (step w (.newSim a)) ss).heap d) := by
  have h1 := newSim_holds w a r hr n d hd
  rw [ha] at h1
  refine seen_of_holds (holds_run h1 ss hss) ?_
  have hdlt : d < 3 := by cases n <;> first | (cases hd; decide) | cases hd
  exact lt_of_lt_of_le hdlt (hw.trans ((step_length w _).trans (run_length ss _)))

theorem run_append (w : World) (s t : List Stmt) : run w (s ++ t) = run (run w s) t := by
  induction s generalizing w with
  | nil => rfl
  | cons a s ih => exact ih _

/-- The class of an object never changes. -/
theorem cls_step (w : World) (st : Stmt) (a : ℕ) (c : ListCls)
    (hc : (w.heap[a]?).map Obj.cls = some c) : ((step w st).heap[a]?).map Obj.cls = some c := by
  have hlt : a < w.heap.length := by
    by_contra hn
    rw [List.getElem?_eq_none (not_lt.1 hn)] at hc; cases hc
  have hext : ∀ h' l, h' = w.heap ++ l → (h'[a]?).map Obj.cls = some c := by
    intro h' l hh
    rw [hh, List.getElem?_append_left hlt]; exact hc
  cases st with
  | newList c items =>
    simp only [step]
    split
    · exact hc
    · rename_i he; obtain ⟨l, hl⟩ := mkList_extends he; exact hext _ l hl
  | newSim a =>
    simp only [step]
    split
    · exact hc
    · rename_i he; obtain ⟨l, hl⟩ := construct_extends he; exact hext _ l hl
  | set i n v =>
    simp only [step]
    split
    · exact hc
    · split
      · exact hc
      · rename_i he; obtain ⟨l, hl⟩ := heap_length_setAttr he; exact hext _ l hl
  | mutate t op =>
    simp only [step]
    split
    · exact hc
    · rename_i b hb
      simp only [mutateAt, List.getElem?_eq_getElem (addr_lt hb)]
      by_cases hab : b = a
      · subst hab
        rw [List.getElem?_set_self hlt]
        rw [List.getElem?_eq_getElem hlt] at hc
        exact hc
      · rw [List.getElem?_set_ne hab]; exact hc

theorem cls_run (ss : List Stmt) (w : World) (a : ℕ) (c : ListCls)
    (hc : (w.heap[a]?).map Obj.cls = some c) : ((run w ss).heap[a]?).map Obj.cls = some c := by
  induction ss generalizing w with
  | nil => exact hc
  | cons st ss ih => exact ih _ (cls_step w st a c hc)

/-- **C73 (c).** In every program, two simulations created at any moments without the argument always
show the same list, and what is appended to the list of one of them appears in the other. -/
theorem C73_default_shared (pre mid post : List Stmt) (a b : Args) (ra rb : Heap × Sim) (n : Name)
    (d : ℕ) (hd : defaultOf n = some d) (ha : Args.given a n = none) (hb : Args.given b n = none)
    (hra : construct (run World.start pre).heap a = .ok ra)
    (hrb : construct (run World.start (pre ++ .newSim a :: mid)).heap b = .ok rb) (i j : ℕ)
    (hi : i = (run World.start pre).sims.length)
    (hj : j = (run World.start (pre ++ .newSim a :: mid)).sims.length)
    (hmid : ∀ v, Stmt.set i n v ∉ mid)
    (hpost : ∀ v, Stmt.set i n v ∉ post ∧ Stmt.set j n v ∉ post) (x : Val) :
    let w := run World.start (pre ++ .newSim a :: (mid ++ .newSim b :: post))
    seen w i n = seen w j n ∧
    seen (step w (.mutate (.attr i n) (.append x))) j n = (seen w i n).map (· ++ [x]) := by
  have hdlt : d < 3 := by cases n <;> first | (cases hd; decide) | cases hd
  have hplain : (World.start.heap[d]?).map Obj.cls = some .plain := by
    cases n <;> first | (cases hd; decide) | cases hd
  intro w
  have hw : w = run (step (run World.start (pre ++ .newSim a :: mid)) (.newSim b)) post := by
    simp only [w, run_append, run]
  have hlen : d < w.heap.length := lt_of_lt_of_le hdlt (run_length _ World.start)
  have h1 : Holds w i n (.ref d) := by
    have h0 := newSim_holds (run World.start pre) a ra hra n d hd
    rw [ha, ← hi] at h0
    have h1 := holds_run h0 mid hmid
    have h2 := holds_step h1 (.newSim b) (by intro u hu; cases hu)
    have h3 := holds_run h2 post fun v => (hpost v).1
    simpa only [w, run_append, run, Option.getD_none] using h3
  have h2 : Holds w j n (.ref d) := by
    have h0 := newSim_holds (run World.start (pre ++ .newSim a :: mid)) b rb hrb n d hd
    rw [hb, ← hj] at h0
    rw [hw]
    exact holds_run h0 post fun v => (hpost v).2
  have hsi := seen_of_holds h1 hlen
  have hsj := seen_of_holds h2 hlen
  refine ⟨hsi.trans hsj.symm, ?_⟩
  have ho : w.heap[d]? = some w.heap[d] := List.getElem?_eq_getElem hlen
  have hcls : w.heap[d].cls = .plain := by
    have := cls_run (pre ++ .newSim a :: (mid ++ .newSim b :: post)) World.start d _ hplain
    rw [show run World.start _ = w from rfl, ho] at this
    exact Option.some.inj this
  have haddr : ∀ k, Holds w k n (.ref d) → Target.addr w (.attr k n) = some d := by
    rintro k ⟨s, hs, hv⟩
    simp [Target.addr, hs, hv, hlen]
  rw [C73_change_seen _ _ _ d _ (haddr i h1) ho, if_pos (haddr j h2), hsi, itemsAt_ref ho, hcls]
  simp [ListOp.apply, validate, validFor]

/-- **C73 (c').** The three default lists are different ones: what is done to the `sources` of a
simulation is not seen in the `boundary_conditions` or the `initial_conditions` of any simulation, and so
on. -/
theorem C73_defaults_apart (pre mid post : List Stmt) (a b : Args) (ra rb : Heap × Sim) (n m : Name)
    (hnm : n ≠ m) (d d' : ℕ) (hd : defaultOf n = some d) (hd' : defaultOf m = some d')
    (ha : Args.given a n = none) (ha' : Args.given a m = none) (hb : Args.given b m = none)
    (hra : construct (run World.start pre).heap a = .ok ra)
    (hrb : construct (run World.start (pre ++ .newSim a :: mid)).heap b = .ok rb) (i j : ℕ)
    (hi : i = (run World.start pre).sims.length)
    (hj : j = (run World.start (pre ++ .newSim a :: mid)).sims.length)
    (hmid : ∀ v, Stmt.set i n v ∉ mid ∧ Stmt.set i m v ∉ mid)
    (hpost : ∀ v, Stmt.set i n v ∉ post ∧ Stmt.set i m v ∉ post ∧ Stmt.set j m v ∉ post)
    (op : ListOp Val) :
    let w := run World.start (pre ++ .newSim a :: (mid ++ .newSim b :: post))
    seen (step w (.mutate (.attr i n) op)) j m = seen w j m ∧
    seen (step w (.mutate (.attr i n) op)) i m = seen w i m := by
  have hdlt : d < 3 := by cases n <;> first | (cases hd; decide) | cases hd
  have hdlt' : d' < 3 := by cases m <;> first | (cases hd'; decide) | cases hd'
  have hne : d ≠ d' := by
    cases n <;> (try cases hd) <;> cases m <;> (try cases hd') <;>
      first | exact absurd rfl hnm | decide
  intro w
  have hw : w = run (step (run World.start (pre ++ .newSim a :: mid)) (.newSim b)) post := by
    simp only [w, run_append, run]
  have hlen : d < w.heap.length := lt_of_lt_of_le hdlt (run_length _ World.start)
  have hlen' : d' < w.heap.length := lt_of_lt_of_le hdlt' (run_length _ World.start)
  have hkeep : ∀ (k : Name) (c : ℕ), defaultOf k = some c → Args.given a k = none →
      (∀ v, Stmt.set i k v ∉ mid) → (∀ v, Stmt.set i k v ∉ post) → Holds w i k (.ref c) := by
    intro k c hc hg hm hp
    have h0 := newSim_holds (run World.start pre) a ra hra k c hc
    rw [hg, ← hi] at h0
    have h1 := holds_run h0 mid hm
    have h2 := holds_step h1 (.newSim b) (by intro u hu; cases hu)
    have h3 := holds_run h2 post hp
    simpa only [w, run_append, run, Option.getD_none] using h3
  have h1 := hkeep n d hd ha (fun v => (hmid v).1) fun v => (hpost v).1
  have h1' := hkeep m d' hd' ha' (fun v => (hmid v).2) fun v => (hpost v).2.1
  have h2 : Holds w j m (.ref d') := by
    have h0 := newSim_holds (run World.start (pre ++ .newSim a :: mid)) b rb hrb m d' hd'
    rw [hb, ← hj] at h0
    rw [hw]
    exact holds_run h0 post fun v => (hpost v).2.2
  have ho : w.heap[d]? = some w.heap[d] := List.getElem?_eq_getElem hlen
  have haddr : ∀ k x c, c < w.heap.length → Holds w k x (.ref c) → Target.addr w (.attr k x) = some c := by
    rintro k x c hc ⟨s, hs, hv⟩
    simp [Target.addr, hs, hv, hc]
  constructor
  · rw [C73_change_seen _ _ _ d _ (haddr i n d hlen h1) ho,
      if_neg (by rw [haddr j m d' hlen' h2]; simpa using hne.symm)]
  · rw [C73_change_seen _ _ _ d _ (haddr i n d hlen h1) ho,
      if_neg (by rw [haddr i m d' hlen' h1']; simpa using hne.symm)]

/-! ## Isolation -/

theorem setter_value {k : Kind} {h : Heap} {v : Val} {p : Heap × Val} (hp : setter k h v = .ok p)
    {a : ℕ} (ha : a < h.length) (hv : v ≠ .ref a) : p.2 ≠ .ref a := by
  rcases setter_cases k h v with ⟨items, sh, hm, he⟩ | ⟨-, msg, he⟩
  · rw [he] at hp
    cases hp
    cases sh with
    | fresh =>
      intro hx
      simp only [Stored, Val.ref.injEq] at hx
      omega
    | same b =>
      cases hm with
      | typed _ _ _ => exact hv
    | nothing => intro hx; cases hx
  · rw [he] at hp; cases hp

theorem setAttr_value {h h' : Heap} {s s' : Sim} {n : Name} {v : Val}
    (he : setAttr h s n v = .ok (h', s')) {a : ℕ} (ha : a < h.length) (hv : v ≠ .ref a) :
    getAttr s' n ≠ .ref a := by
  cases n
  case sources => cases he; exact hv
  case boundaryConditions => cases he; exact hv
  case initialConditions => cases he; exact hv
  case traps =>
    simp only [setAttr] at he
    cases hx : setTraps h v with
    | error e => rw [hx] at he; cases he
    | ok p => rw [hx] at he; cases he; exact setter_value (k := .traps) hx ha hv
  case materials =>
    simp only [setAttr] at he
    cases hx : setMaterials h v with
    | error e => rw [hx] at he; cases he
    | ok p => rw [hx] at he; cases he; exact setter_value (k := .materials) hx ha hv
  case exports =>
    simp only [setAttr] at he
    cases hx : setExports h v with
    | error e => rw [hx] at he; cases he
    | ok p => rw [hx] at he; cases he; exact setter_value (k := .exports) hx ha hv
  case T => intro hx; cases hx
  case dt => intro hx; cases hx

theorem construct_value {h h' : Heap} {x : Args} {s : Sim} (he : construct h x = .ok (h', s)) {a i : ℕ}
    (ha : a < h.length) (h3 : 3 ≤ a) (hl : Leaves a i (.newSim x)) (n : Name) :
    getAttr s n ≠ .ref a := by
  obtain ⟨dt, p₁, p₂, T, p₃, -, e2, e3, -, e5, -, rfl⟩ := (construct_ok_iff h x h' s).1 he
  obtain ⟨g1, g2, g3, g4, g5, g6⟩ := hl
  have hdef : ∀ (o : Option Val) (d : ℕ), d < 3 → (∀ v, o = some v → v ≠ .ref a) →
      o.getD (.ref d) ≠ .ref a := by
    intro o d hd ho
    cases o with
    | none =>
      simp only [Option.getD_none, ne_eq, Val.ref.injEq]; omega
    | some v => exact ho v rfl
  obtain ⟨l₁, h₁⟩ := setter_extends (k := .traps) e2
  obtain ⟨l₂, h₂⟩ := setter_extends (k := .materials) e3
  cases n with
  | sources => exact hdef _ _ (by decide) g1
  | boundaryConditions => exact hdef _ _ (by decide) g2
  | initialConditions => exact hdef _ _ (by decide) g3
  | traps => exact setter_value (k := .traps) e2 ha g4
  | materials =>
    exact setter_value (k := .materials) e3 (by rw [h₁]; simp; omega) g5
  | exports =>
    exact setter_value (k := .exports) e5 (by rw [h₂, h₁]; simp; omega) g6
  | T => intro hx; cases hx
  | dt => intro hx; cases hx

/-- One statement that leaves list `a` and simulation `i` alone. -/
theorem isolated_step (w : World) (a i : ℕ) (ha : a < w.heap.length) (h3 : 3 ≤ a)
    (hi : i < w.sims.length) (ho : OnlyHolder w a i) (st : Stmt) (hl : Leaves a i st) :
    itemsAt (step w st).heap a = itemsAt w.heap a ∧ (step w st).sims[i]? = w.sims[i]? ∧
    OnlyHolder (step w st) a i ∧ i < (step w st).sims.length := by
  have hext : ∀ h' l, h' = w.heap ++ l → itemsAt h' a = itemsAt w.heap a := by
    intro h' l hh
    simp [itemsAt, hh, List.getElem?_append_left ha]
  cases st with
  | newList c items =>
    simp only [step]
    split
    · exact ⟨rfl, rfl, ho, hi⟩
    · rename_i he
      obtain ⟨l, hll⟩ := mkList_extends he
      exact ⟨hext _ l hll, rfl, ho, hi⟩
  | newSim x =>
    simp only [step]
    split
    · exact ⟨rfl, rfl, ho, hi⟩
    · rename_i h' s he
      obtain ⟨l, hll⟩ := construct_extends he
      refine ⟨hext _ l hll, List.getElem?_append_left hi, ?_, by simp; omega⟩
      intro j s' hs' hji n
      simp only at hs'
      rw [List.getElem?_append] at hs'
      split at hs'
      · exact ho j s' hs' hji n
      · rename_i hjl
        rw [List.getElem?_singleton] at hs'
        split at hs'
        · cases hs'
          exact construct_value he ha h3 hl n
        · cases hs'
  | set j n v =>
    obtain ⟨hj, hv⟩ := hl
    simp only [step]
    split
    · exact ⟨rfl, rfl, ho, hi⟩
    · rename_i s hs
      split
      · exact ⟨rfl, rfl, ho, hi⟩
      · rename_i h' s' he
        obtain ⟨l, hll⟩ := heap_length_setAttr he
        refine ⟨hext _ l hll, List.getElem?_set_ne hj, ?_, by simpa using hi⟩
        intro j' s'' hs'' hji m
        simp only at hs''
        by_cases hjj : j = j'
        · subst hjj
          rw [List.getElem?_set_self (List.getElem?_eq_some_iff.1 hs).1] at hs''
          cases hs''
          by_cases hmn : m = n
          · subst hmn; exact setAttr_value he ha hv
          · rw [getAttr_setAttr he hmn]; exact ho j s hs hji m
        · rw [List.getElem?_set_ne hjj] at hs''
          exact ho j' s'' hs'' hji m
  | mutate t op =>
    simp only [step]
    split
    · exact ⟨rfl, rfl, ho, hi⟩
    · rename_i b hb
      have hba : b ≠ a := by
        cases t with
        | var c =>
          simp only [Target.addr] at hb
          split at hb
          · cases hb; exact hl
          · cases hb
        | attr j n =>
          simp only [Target.addr] at hb
          split at hb
          · cases hb
          · rename_i s hs
            split at hb
            · rename_i c hc
              split at hb
              · cases hb
                intro hba
                exact ho j s hs hl n (by rw [hc, hba])
              · cases hb
            · cases hb
      refine ⟨?_, rfl, ho, hi⟩
      have hbl := addr_lt hb
      simp only
      rw [itemsAt_mutateAt _ _ _ _ _ (List.getElem?_eq_getElem hbl), if_neg (fun h => hba h.symm)]

/-- **C73 (d).** Isolation: if a simulation is the only one to refer to a list, and this list is not one
of the three default ones, then no program that uses neither the simulation nor the list under its own
name can change what the simulation shows, whatever it does with other simulations and lists. -/
theorem C73_isolated (w : World) (a i : ℕ) (n : Name) (ha : a < w.heap.length) (h3 : 3 ≤ a)
    (hi : Holds w i n (.ref a)) (ho : OnlyHolder w a i) (ss : List Stmt)
    (hl : ∀ st ∈ ss, Leaves a i st) : seen (run w ss) i n = seen w i n := by
  have hil : i < w.sims.length := by
    obtain ⟨s, hs, -⟩ := hi; exact (List.getElem?_eq_some_iff.1 hs).1
  have key : ∀ (ss : List Stmt) (w : World), a < w.heap.length → i < w.sims.length →
      OnlyHolder w a i → (∀ st ∈ ss, Leaves a i st) →
      itemsAt (run w ss).heap a = itemsAt w.heap a ∧ (run w ss).sims[i]? = w.sims[i]? := by
    intro ss
    induction ss with
    | nil => intro w _ _ _ _; exact ⟨rfl, rfl⟩
    | cons st ss ih =>
      intro w ha hil ho hl
      obtain ⟨e1, e2, e3, e4⟩ := isolated_step w a i ha h3 hil ho st (hl st (by simp))
      obtain ⟨f1, f2⟩ := ih (step w st) (lt_of_lt_of_le ha (step_length w st)) e4 e3
        fun s hs => hl s (by simp [hs])
      exact ⟨f1.trans e1, f2.trans e2⟩
  obtain ⟨k1, k2⟩ := key ss w ha hil ho hl
  have h1 : Holds (run w ss) i n (.ref a) := by
    obtain ⟨s, hs, hv⟩ := hi; exact ⟨s, k2.trans hs, hv⟩
  rw [seen_of_holds h1 (lt_of_lt_of_le ha (run_length ss w)), seen_of_holds hi ha, k1]

/-- **C73 (e).** `sources`, `boundary_conditions` and `initial_conditions` keep the very list they are
given; `traps`, `materials` and `exports` keep it only when it is already of the class of the
attribute, otherwise they take a copy: later changes to the list given are seen in the first case
and not in the second. -/
theorem C73_given_list (w : World) (i : ℕ) (s : Sim) (hs : w.sims[i]? = some s) (a : ℕ) (o : Obj)
    (ho : w.heap[a]? = some o) (op : ListOp Val) :
    (∀ n, defaultOf n ≠ none →
      seen (run w [.set i n (.ref a), .mutate (.var a) op]) i n =
        some (op.apply (validFor w.heap o.cls) o.items).1) ∧
    (∀ k : Kind, o.cls = k.cls →
      seen (run w [.set i k.name (.ref a), .mutate (.var a) op]) i k.name =
        some (op.apply (validFor w.heap o.cls) o.items).1) ∧
    (∀ k : Kind, o.cls ≠ k.cls → ¬ Element k w.heap (.ref a) → (∀ x ∈ o.items, Element k w.heap x) →
      seen (run w [.set i k.name (.ref a), .mutate (.var a) op]) i k.name = some o.items) := by
  have hil : i < w.sims.length := (List.getElem?_eq_some_iff.1 hs).1
  have hal : a < w.heap.length := (List.getElem?_eq_some_iff.1 ho).1
  have key : ∀ (n : Name) (s' : Sim), setAttr w.heap s n (.ref a) = .ok (w.heap, s') →
      getAttr s' n = .ref a →
      seen (run w [.set i n (.ref a), .mutate (.var a) op]) i n =
        some (op.apply (validFor w.heap o.cls) o.items).1 := by
    intro n s' he hg
    have hst : step w (.set i n (.ref a)) = ⟨w.heap, w.sims.set i s'⟩ := by
      simp only [step, hs, he]
    simp only [run, hst]
    rw [C73_change_seen ⟨w.heap, w.sims.set i s'⟩ (.var a) op a o (by simp [Target.addr, hal]) ho,
      if_pos]
    simp [Target.addr, hil, hg, hal]
  refine ⟨?_, ?_, ?_⟩
  · intro n hn
    cases n <;> first
      | exact key _ _ rfl rfl
      | exact absurd rfl hn
  · intro k hk
    have hst := setter_typed (k := k) (h := w.heap) (a := a) (items := o.items) (by rw [ho, ← hk])
    cases k
    · simp only [setter] at hst
      exact key .traps { s with traps := .ref a } (by simp [setAttr, hst]; rfl) rfl
    · simp only [setter] at hst
      exact key .materials { s with materials := .ref a } (by simp [setAttr, hst]; rfl) rfl
    · simp only [setter] at hst
      exact key .exports { s with exports := .ref a } (by simp [setAttr, hst]; rfl) rfl
  · intro k hk hne hall
    have hst := C64_accepts k w.heap (.ref a) o.items .fresh (.list a o.cls o.items ho hk hne hall)
    have fin : ∀ (n : Name) (s' : Sim),
        setAttr w.heap s n (.ref a) = .ok (w.heap ++ [⟨k.cls, o.items⟩], s') →
        getAttr s' n = .ref w.heap.length →
        seen (run w [.set i n (.ref a), .mutate (.var a) op]) i n = some o.items := by
      intro n s' he hg
      have hst : step w (.set i n (.ref a)) =
          ⟨w.heap ++ [⟨k.cls, o.items⟩], w.sims.set i s'⟩ := by
        simp only [step, hs, he]
      simp only [run, hst]
      rw [C73_change_seen ⟨w.heap ++ [(⟨k.cls, o.items⟩ : Obj)], w.sims.set i s'⟩ (.var a) op a o
        (by simp [Target.addr]; omega)
        (by simp only; rw [List.getElem?_append_left hal]; exact ho), if_neg]
      · simp [seen, Target.addr, hil, hg, itemsAt]
      · simp only [Target.addr, hil, List.getElem?_set_self, hg]
        simp
        omega
    cases k
    · simp only [setter] at hst
      exact fin .traps { s with traps := .ref w.heap.length } (by simp [setAttr, hst]; rfl) rfl
    · simp only [setter] at hst
      exact fin .materials { s with materials := .ref w.heap.length } (by simp [setAttr, hst]; rfl) rfl
    · simp only [setter] at hst
      exact fin .exports { s with exports := .ref w.heap.length } (by simp [setAttr, hst]; rfl) rfl

/-! ## Concrete programs -/

/-- Two simulations without boundary conditions; one is appended to the first. -/
def twoSims : World :=
  run World.start [.newSim {}, .newSim {}, .mutate (.attr 0 .boundaryConditions)
    (.append (.leaf .boundaryCondition 7))]

/-- The second simulation has the boundary condition, and so has a third one created afterwards. -/
example : seen twoSims 1 .boundaryConditions = some [.leaf .boundaryCondition 7] ∧
    seen (step twoSims (.newSim {})) 2 .boundaryConditions = some [.leaf .boundaryCondition 7] := by
  decide +kernel

/-- C73 (c') applies: sources and boundary conditions. -/
example :
    let w := run World.start ([] ++ .newSim {} :: ([] ++ .newSim {} :: []))
    seen (step w (.mutate (.attr 0 .sources) (.append (.leaf .source 1)))) 1 .boundaryConditions =
      seen w 1 .boundaryConditions :=
  (C73_defaults_apart [] [] [] {} {} _ _ .sources .boundaryConditions (by decide) _ _ rfl rfl rfl rfl rfl
    rfl rfl 0 1 rfl rfl (by simp) (by simp) (.append (.leaf .source 1))).1

/-- With the argument given, each simulation has its own list. -/
example :
    let w := run World.start [.newList .plain [], .newList .plain [],
      .newSim { sources := some (.ref 3) }, .newSim { sources := some (.ref 4) },
      .mutate (.attr 0 .sources) (.append (.leaf .source 1))]
    seen w 0 .sources = some [.leaf .source 1] ∧ seen w 1 .sources = some [] := by
  decide +kernel

/-- Traps, materials and exports are never shared by default. -/
example :
    let w := run World.start [.newSim {}, .newSim {},
      .mutate (.attr 0 .traps) (.append (.leaf .trap 1)),
      .mutate (.attr 0 .exports) (.append (.leaf .trap 1))]
    seen w 0 .traps = some [.leaf .trap 1] ∧ seen w 1 .traps = some [] ∧
      seen w 0 .exports = some [] := by
  decide +kernel

/-- A list of a trap and a material is refused for both attributes; a single trap is accepted; a
`DerivedQuantities` becomes the only export. -/
example :
    let w := run World.start [.newList .plain [.leaf .trap 1, .leaf .material 1],
      .newSim {}, .set 0 .traps (.ref 3), .set 0 .traps (.leaf .trap 5),
      .newList .derivedQuantities [.leaf .derivedQuantity 2]]
    seen w 0 .traps = some [.leaf .trap 5] ∧
      seen (step w (.set 0 .exports (.ref 7))) 0 .exports = some [.ref 7] := by
  decide +kernel

end Festim.Props
