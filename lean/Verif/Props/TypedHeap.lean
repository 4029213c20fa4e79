import Verif.Props.Setters

/-!
# Which objects the containers of a program hold (C40)

`Props/TypedList.lean` states C40 for any `isinstance` test.  Here the four classes of containers are
taken with their own tests, in programs that create, assign and modify lists.
-/

namespace Festim.Props

open Festim.Attr Festim.Spec

/-- The objects documented for each class of list: traps; materials; derived quantities; exports,
derived quantities and `DerivedQuantities`.  A plain list holds anything. -/
def Documented (h : Heap) : ListCls → Val → Prop
  | .plain, _ => True
  | .traps, v => ∃ n, v = .leaf .trap n
  | .materials, v => ∃ n, v = .leaf .material n
  | .derivedQuantities, v => ∃ n, v = .leaf .derivedQuantity n
  | .exports, v => (∃ n, v = .leaf .export n ∨ v = .leaf .derivedQuantity n) ∨
      ∃ a items, v = .ref a ∧ h[a]? = some ⟨.derivedQuantities, items⟩

/-- Every list of the program holds objects documented for its class. -/
def WellTyped (h : Heap) : Prop := ∀ o ∈ h, ∀ x ∈ o.items, Documented h o.cls x

/-- The statement does not use `+=`, and what it passes to `extend` as a container of the class of the
receiver is such a container. -/
def NoPlusEq (w : World) : Stmt → Prop
  | .mutate t op => (∀ o, op ≠ .iadd o) ∧ ∀ (a : ℕ) (o : Obj) (l : List Val), t.addr w = some a → w.heap[a]? = some o →
      op = .extend (.same l) → ∃ b : ℕ, w.heap[b]? = some ⟨o.cls, l⟩
  | _ => True

theorem documented_iff (h : Heap) (c : ListCls) (v : Val) : validFor h c v = true ↔ Documented h c v := by
  cases c with
  | plain => simp [validFor, Documented]
  | traps => exact element_iff .traps h v
  | materials => exact element_iff .materials h v
  | exports => exact element_iff .exports h v
  | derivedQuantities =>
    cases v with
    | leaf c n => cases c <;> simp [validFor, isDerivedQuantity, Documented]
    | _ => simp [validFor, isDerivedQuantity, Documented]

/-- What fits keeps fitting as long as objects keep their class. -/
theorem documented_mono {h h' : Heap} (hcls : ∀ (a : ℕ) c, (h[a]?).map Obj.cls = some c → (h'[a]?).map Obj.cls = some c)
    {c : ListCls} {v : Val} (hv : Documented h c v) : Documented h' c v := by
  cases c with
  | exports =>
    rcases hv with hv | ⟨a, items, rfl, ha⟩
    · exact .inl hv
    · have := hcls a .derivedQuantities (by rw [ha]; rfl)
      rw [Option.map_eq_some_iff] at this
      obtain ⟨⟨c, items'⟩, ho, hc⟩ := this
      simp only at hc
      exact .inr ⟨a, items', rfl, by rw [ho, hc]⟩
  | _ => exact hv

theorem cls_append (h l : Heap) (a : ℕ) (c : ListCls) (hc : (h[a]?).map Obj.cls = some c) :
    ((h ++ l)[a]?).map Obj.cls = some c := by
  have hlt : a < h.length := by
    by_contra hn
    rw [List.getElem?_eq_none (not_lt.1 hn)] at hc; cases hc
  rw [List.getElem?_append_left hlt]; exact hc

theorem wellTyped_push {h : Heap} (hw : WellTyped h) {c : ListCls} {items : List Val}
    (hi : ∀ x ∈ items, Documented h c x) : WellTyped (h ++ [⟨c, items⟩]) := by
  intro o ho x hx
  apply documented_mono (cls_append h _)
  rcases List.mem_append.1 ho with ho | ho
  · exact hw o ho x hx
  · rw [List.mem_singleton] at ho; subst ho; exact hi x hx

theorem wellTyped_mkList {h : Heap} (hw : WellTyped h) {c : ListCls} {items : List Val} {p : Heap × ℕ}
    (hp : mkList h c items = .ok p) : WellTyped p.1 := by
  unfold mkList at hp
  by_cases hv : ∀ x ∈ items, validFor h c x = true
  · rw [(C40_constructor (validFor h c) items).1 hv] at hp
    cases hp
    exact wellTyped_push hw fun x hx => (documented_iff h c x).1 (hv x hx)
  · push Not at hv
    obtain ⟨x, hx, hn⟩ := hv
    obtain ⟨msg, hm⟩ := (C40_constructor (validFor h c) items).2 ⟨x, hx, by simpa using hn⟩
    rw [hm] at hp; cases hp

theorem wellTyped_setter {k : Kind} {h : Heap} (hw : WellTyped h) {v : Val} {p : Heap × Val}
    (hp : setter k h v = .ok p) : WellTyped p.1 := by
  rcases setter_cases k h v with ⟨items, sh, hm, he⟩ | ⟨-, msg, he⟩
  · rw [he] at hp
    cases hp
    have hel : ∀ x, Element k h x → Documented h k.cls x := fun x hx =>
      (documented_iff h k.cls x).1 ((element_iff k h x).2 hx)
    cases hm with
    | none hk => exact wellTyped_push hw (by simp)
    | noMaterials hk => exact hw
    | single v hv => exact wellTyped_push hw (by simpa using hel _ hv)
    | typed a items ho => exact hw
    | list a c items ho hc hne hall => exact wellTyped_push hw fun x hx => hel x (hall x hx)
  · rw [he] at hp; cases hp

theorem wellTyped_setAttr {h h' : Heap} (hw : WellTyped h) {s s' : Sim} {n : Name} {v : Val}
    (he : setAttr h s n v = .ok (h', s')) : WellTyped h' := by
  cases n with
  | sources | boundaryConditions | initialConditions => cases he; exact hw
  | traps =>
    obtain ⟨p, hp, hq⟩ := map_ok he; cases hq; exact wellTyped_setter (k := .traps) hw hp
  | materials =>
    obtain ⟨p, hp, hq⟩ := map_ok he; cases hq; exact wellTyped_setter (k := .materials) hw hp
  | exports =>
    obtain ⟨p, hp, hq⟩ := map_ok he; cases hq; exact wellTyped_setter (k := .exports) hw hp
  | T => obtain ⟨p, hp, hq⟩ := map_ok he; cases hq; exact hw
  | dt => obtain ⟨p, hp, hq⟩ := map_ok he; cases hq; exact hw

theorem wellTyped_step (w : World) (st : Stmt) (hw : WellTyped w.heap) (hn : NoPlusEq w st) :
    WellTyped (step w st).heap := by
  cases st with
  | newList c items =>
    simp only [step]
    split
    · exact hw
    · rename_i he; exact wellTyped_mkList hw he
  | newSim a =>
    simp only [step]
    split
    · exact hw
    · rename_i h' s he
      obtain ⟨dt, p₁, p₂, T, p₃, -, e2, e3, -, e5, rfl, -⟩ := (construct_ok_iff _ a h' s).1 he
      exact wellTyped_setter (k := .exports)
        (wellTyped_setter (k := .materials) (wellTyped_setter (k := .traps) hw e2) e3) e5
  | set i n v =>
    simp only [step]
    split
    · exact hw
    · split
      · exact hw
      · rename_i he; exact wellTyped_setAttr hw he
  | mutate t op =>
    have hcls := cls_step w (.mutate t op)
    simp only [step] at hcls ⊢
    cases ha : t.addr w with
    | none => exact hw
    | some a =>
      rw [ha] at hcls
      simp only at hcls ⊢
      intro o ho x hx
      apply documented_mono hcls
      have hlt := addr_lt ha
      simp only [mutateAt, List.getElem?_eq_getElem hlt] at ho
      rcases List.mem_or_eq_of_mem_set ho with ho | rfl
      · exact hw o ho x hx
      · have hself : ∀ y ∈ (w.heap[a]).items, validFor w.heap (w.heap[a]).cls y = true := fun y hy =>
          (documented_iff _ _ _).2 (hw _ (List.getElem_mem hlt) y hy)
        refine (documented_iff _ _ _).1 (apply_inv _ _ op hself ?_ x hx)
        cases op with
        | iadd o => exact absurd rfl (hn.1 o)
        | extend o =>
          cases o with
          | same l =>
            obtain ⟨b, hb⟩ := hn.2 a _ l ha (List.getElem?_eq_getElem hlt) rfl
            exact fun y hy => (documented_iff _ _ _).2 (hw _ (List.mem_of_getElem? hb) y hy)
          | iterable l => trivial
          | notIterable => trivial
        | _ => trivial

/-- C40 (f): in every program, whatever lists it creates, gives to simulations and modifies, failing
statements included, a `Traps` holds only traps, a `Materials` only materials, a `DerivedQuantities` only
derived quantities, an `Exports` only exports and `DerivedQuantities`, as long as `+=` is not used. -/
theorem C40_program (ss : List Stmt)
    (hn : ∀ pre st post, ss = pre ++ st :: post → NoPlusEq (run World.start pre) st) (o : Obj)
    (ho : o ∈ (run World.start ss).heap) (x : Val) (hx : x ∈ o.items) :
    Documented (run World.start ss).heap o.cls x := by
  have key : ∀ (ss : List Stmt) (w : World), WellTyped w.heap →
      (∀ pre st post, ss = pre ++ st :: post → NoPlusEq (run w pre) st) →
      WellTyped (run w ss).heap := by
    intro ss
    induction ss with
    | nil => intro w hw _; exact hw
    | cons st ss ih =>
      intro w hw hn
      exact ih _ (wellTyped_step w st hw (hn [] st ss rfl))
        fun pre st' post he => hn (st :: pre) st' post (by rw [he]; rfl)
  exact key ss World.start (by intro o ho; simp [World.start] at ho; subst ho; simp) hn o ho x hx

/-- C40 (g): a container takes exactly the objects documented for its class: appending one of them
works, appending anything else raises `TypeError` and leaves the container as it was. -/
theorem C40_classes (h : Heap) (c : ListCls) (self : List Val) (x : Val) :
    (Documented h c x → (ListOp.append x).apply (validFor h c) self = (self ++ [x], none)) ∧
    (¬ Documented h c x → ∃ msg, (ListOp.append x).apply (validFor h c) self = (self, some (.typeError msg))) := by
  constructor
  · intro hf
    simp [ListOp.apply, validate, (documented_iff h c x).2 hf]
  · intro hf
    rw [← documented_iff] at hf
    simp [ListOp.apply, validate, hf]

/-- A program that makes a `DerivedQuantities`, tries to append an export to it, gives it to a simulation
and appends a derived quantity. -/
def quantitiesProgram : List Stmt :=
  [.newList .derivedQuantities [.leaf .derivedQuantity 1],
    .mutate (.var 3) (.append (.leaf .export 2)),
    .newSim { exports := .ref 3 },
    .mutate (.var 3) (.append (.leaf .derivedQuantity 4))]

-- the export is refused, the derived quantity is taken, and the simulation exports the container
example : (run World.start quantitiesProgram).heap[3]? =
      some ⟨.derivedQuantities, [.leaf .derivedQuantity 1, .leaf .derivedQuantity 4]⟩ ∧
    seen (run World.start quantitiesProgram) 0 .exports = some [.ref 3] := by decide +kernel

-- and the hypothesis of `C40_program` holds: nothing is added by `+=`
example : ∀ pre st post, quantitiesProgram = pre ++ st :: post → NoPlusEq (run World.start pre) st := by
  intro pre st post he
  have hm : st ∈ quantitiesProgram := by rw [he]; simp
  simp only [quantitiesProgram, List.mem_cons, List.not_mem_nil, or_false] at hm
  rcases hm with rfl | rfl | rfl | rfl <;> simp [NoPlusEq]

-- `+=` is what the hypothesis excludes: it puts a trap among the derived quantities
example : ∃ o ∈ (run World.start [.newList .derivedQuantities [],
      .mutate (.var 3) (.iadd (.iterable [.leaf .trap 1]))]).heap,
    o.cls = .derivedQuantities ∧ ∃ x ∈ o.items, x = .leaf .trap 1 :=
  ⟨⟨.derivedQuantities, [.leaf .trap 1]⟩, by decide +kernel, rfl, _, by simp, rfl⟩

-- both cases of `C40_classes`
example : Documented [] .derivedQuantities (.leaf .derivedQuantity 0) ∧
    ¬ Documented [] .derivedQuantities (.leaf .export 0) := by simp [Documented]

end Festim.Props
