import Verif.Model.TrapMaterials
import Verif.Props.Traps

/-! # Materials of the traps (C85) -/

namespace Festim.Spec

open TrapMat

/-- `m` is what the entry `e` designates among `ms`: itself, or the first material with this name. -/
inductive Designates (ms : List Obj) : Entry → Obj → Prop where
  | self (m : Obj) : Designates ms (.mat m) m
  | name (s : String) (before after : List Obj) (m : Obj) (h : ms = before ++ m :: after)
      (hm : m.name = some s) (hb : ∀ b ∈ before, b.name ≠ some s) : Designates ms (.name s) m

end Festim.Spec

namespace Festim.TrapMat

open Spec

theorem findName_ok (ms : List Obj) (s : String) (m : Obj) :
    findName ms s = .ok m ↔ Designates ms (.name s) m := by
  induction ms with
  | nil =>
    simp only [findName, reduceCtorEq, false_iff]
    rintro ⟨⟩
    simp_all
  | cons a ms ih =>
    unfold findName
    by_cases h : a.name = some s
    · rw [if_pos h]
      constructor
      · intro e
        simp only [Except.ok.injEq] at e
        subst e
        exact .name s [] ms a rfl h (by simp)
      · intro hd
        cases hd with
        | name _ before after _ e hm hb =>
          cases before with
          | nil => simp only [List.nil_append, List.cons.injEq] at e; rw [e.1]
          | cons b bs =>
            simp only [List.cons_append, List.cons.injEq] at e
            exact absurd (e.1 ▸ h) (hb b (by simp))
    · rw [if_neg h, ih]
      constructor
      · intro hd
        obtain ⟨before, after, e, hm, hb⟩ : ∃ before after, ms = before ++ m :: after ∧
            m.name = some s ∧ ∀ b ∈ before, b.name ≠ some s := by
          cases hd with
          | name _ before after _ e hm hb => exact ⟨before, after, e, hm, hb⟩
        refine .name s (a :: before) after m (by rw [e]; rfl) hm ?_
        intro b hb'
        rcases List.mem_cons.1 hb' with rfl | hb'
        · exact h
        · exact hb b hb'
      · intro hd
        cases hd with
        | name _ before after _ e hm hb =>
          cases before with
          | nil =>
            simp only [List.nil_append, List.cons.injEq] at e
            exact absurd (e.1 ▸ hm) h
          | cons b bs =>
            simp only [List.cons_append, List.cons.injEq] at e
            exact .name s bs after m e.2 hm (fun c hc => hb c (by simp [hc]))

theorem find_ok (ms : List Obj) (e : Entry) (he : e ≠ .other) (r : Entry) :
    find ms e = .ok r ↔ ∃ m, r = .mat m ∧ Designates ms e m := by
  cases e with
  | other => exact absurd rfl he
  | mat m =>
    simp only [find, Except.ok.injEq]
    constructor
    · rintro rfl; exact ⟨m, rfl, .self m⟩
    · rintro ⟨m', rfl, h⟩; cases h; rfl
  | name s =>
    simp only [find]
    constructor
    · intro h
      cases hf : findName ms s with
      | error x => rw [hf] at h; cases h
      | ok m =>
        rw [hf] at h
        simp only [Except.map, Except.ok.injEq] at h
        exact ⟨m, h.symm, (findName_ok ms s m).1 hf⟩
    · rintro ⟨m, rfl, h⟩
      rw [(findName_ok ms s m).2 h]
      rfl

theorem findAll_ok (ms : List Obj) (es : List Entry) (he : ∀ e ∈ es, e ≠ .other) (rs : List Entry) :
    findAll ms es = .ok rs ↔ ∃ l : List Obj, rs = l.map .mat ∧ List.Forall₂ (Designates ms) es l := by
  induction es generalizing rs with
  | nil =>
    simp only [findAll, Except.ok.injEq, List.forall₂_nil_left_iff, exists_eq_right, List.map_nil]
    exact eq_comm
  | cons e es ih =>
    have he' : ∀ e ∈ es, e ≠ .other := fun x hx => he x (by simp [hx])
    unfold findAll
    constructor
    · intro h
      cases hf : find ms e with
      | error x => rw [hf] at h; cases h
      | ok r =>
        rw [hf] at h
        cases hg : findAll ms es with
        | error x => rw [hg] at h; cases h
        | ok rs' =>
          rw [hg] at h
          simp only [Except.ok.injEq] at h
          subst h
          obtain ⟨m, rfl, hd⟩ := (find_ok ms e (he e (by simp)) r).1 hf
          obtain ⟨l, rfl, hl⟩ := (ih he' rs').1 hg
          exact ⟨m :: l, rfl, .cons hd hl⟩
    · rintro ⟨l, rfl, hl⟩
      cases hl with
      | cons hd hl =>
        rename_i m l
        rw [(find_ok ms e (he e (by simp)) _).2 ⟨m, rfl, hd⟩, (ih he' _).2 ⟨l, rfl, hl⟩]
        rfl

theorem uids_map (l : List Obj) : uids (l.map .mat) = l.map (·.uid) := by
  unfold uids
  induction l with
  | nil => rfl
  | cons a l ih => simp [ih]

theorem set_map (l : List Obj) : setMaterials (.list (l.map .mat)) = .ok (l.map .mat) := by
  unfold setMaterials
  rw [if_neg]
  simp

theorem dedup_length_iff {α : Type} [DecidableEq α] (l : List α) :
    l.dedup.length = l.length ↔ l.Nodup := by
  constructor
  · intro h
    rw [← List.dedup_eq_self]
    exact (List.dedup_sublist l).eq_of_length h
  · intro h
    rw [h.dedup]

end Festim.TrapMat

namespace Festim.Props

open TrapMat Spec

/-- **C85 (a).** What a trap accepts as materials: names and `Material` objects, alone or in a list (and not ids, although
the documentation of `Trap` uses them). -/
theorem C85_accepted (a : Arg) (l : List Entry) :
    setMaterials a = .ok l ↔
      (a = .list l ∨ ∃ e, a = .one e ∧ l = [e]) ∧ Entry.other ∉ l := by
  unfold setMaterials
  cases a with
  | one e =>
    simp only [reduceCtorEq, Arg.one.injEq, exists_eq_left', false_or]
    by_cases h : e = .other
    · subst h
      simp
      rintro rfl
      simp
    · rw [if_neg (by simpa using h)]
      simp only [Except.ok.injEq]
      constructor
      · rintro rfl; exact ⟨rfl, by simpa using Ne.symm h⟩
      · rintro ⟨rfl, _⟩; rfl
  | list l' =>
    simp only [Arg.list.injEq, reduceCtorEq, false_and, exists_false, or_false]
    by_cases h : Entry.other ∈ l'
    · rw [if_pos (by simpa using h)]
      simp only [reduceCtorEq, false_iff]
      rintro ⟨rfl, h'⟩
      exact h' h
    · rw [if_neg (by simpa using h)]
      simp only [Except.ok.injEq]
      constructor
      · rintro rfl; exact ⟨rfl, h⟩
      · rintro ⟨rfl, _⟩; rfl

/-- Anything else raises TypeError. -/
theorem C85_rejected (a : Arg) (e : PyErr) :
    setMaterials a = .error e ↔ (a = .one .other ∨ ∃ l, a = .list l ∧ Entry.other ∈ l) ∧
      e = .typeError "Accepted types for materials are str or festim.Material" := by
  unfold setMaterials
  cases a with
  | one x =>
    by_cases h : x = .other
    · subst h; simp [eq_comm]
    · rw [if_neg (by simpa using h)]; simp [h]
  | list l =>
    by_cases h : Entry.other ∈ l
    · rw [if_pos (by simpa using h)]; simp [h, eq_comm]
    · rw [if_neg (by simpa using h)]; simp [h]

/-- **C85 (b).** `initialise` succeeds for a trap exactly when each entry designates a material and no material is designated
twice, be it by its name and by itself; the trap then lives in these materials, in the order given. -/
theorem C85_resolved (ms : List Obj) (es : List Entry) (he : ∀ e ∈ es, e ≠ .other) (rs : List Entry) :
    make ms es = .ok rs ↔ ∃ l : List Obj, rs = l.map .mat ∧ List.Forall₂ (Designates ms) es l ∧
      (l.map (·.uid)).Nodup := by
  unfold make
  constructor
  · intro h
    cases hf : findAll ms es with
    | error x => rw [hf] at h; cases h
    | ok r =>
      rw [hf] at h
      obtain ⟨l, rfl, hl⟩ := (findAll_ok ms es he r).1 hf
      simp only [set_map, uids_map, List.length_map] at h
      split at h
      · cases h
      · rename_i hn
        simp only [Except.ok.injEq] at h
        subst h
        refine ⟨l, rfl, hl, ?_⟩
        rw [← dedup_length_iff, List.length_map]
        push Not at hn
        exact hn.symm
  · rintro ⟨l, rfl, hl, hn⟩
    rw [(findAll_ok ms es he _).2 ⟨l, rfl, hl⟩]
    simp only [set_map, uids_map, List.length_map]
    rw [if_neg]
    push Not
    rw [hn.dedup, List.length_map]

/-- **C85 (c).** Once initialised, a trap keeps its material objects: initialising again with other materials, even with the
same names, changes nothing. -/
theorem C85_kept (ms ms' : List Obj) (es rs : List Entry) (he : ∀ e ∈ es, e ≠ .other)
    (h : make ms es = .ok rs) : make ms' rs = .ok rs := by
  obtain ⟨l, rfl, _, hn⟩ := (C85_resolved ms es he rs).1 h
  refine (C85_resolved ms' _ (by simp) _).2 ⟨l, rfl, ?_, hn⟩
  rw [List.forall₂_map_left_iff]
  exact List.forall₂_same.2 fun m _ => .self m

section
open Festim.Weak
variable {Ω Γ : Type} [Fintype Ω] [Fintype Γ] {d : ℕ}

/-- **C85 (d).** The effect in a steady simulation whose materials were replaced by new objects with the same ids: the
equation which sets the trapped concentration to zero outside the materials of the trap is then applied everywhere, and the
occupancy is not the equilibrium one: 1 is added to the rates. -/
theorem C85_stale_steady (m : Mesh Ω Γ d) (mats : List Mat) (mv : Mobile Ω Γ d) (T : Temp Ω Γ d)
    (trap : Trap Ω Γ d) (hsolved : TrapSolved m mats mv T none trap)
    (mat : Ω → Mat) (hcov : Covers m mats mat)
    (hstale : ∀ a ∈ mats, ∀ b ∈ trap.materials, a.uid ≠ b.uid)
    (hnd : (trap.materials.flatMap (·.ids)).Nodup) (hsrc : trap.sources = [])
    (p : Ω) (hw : m.w p ≠ 0) (j : ℕ) (a : Mat) (hj : trap.materials[j]? = some a)
    (ha : m.vm p ∈ a.ids) (k Ek ν Ep : ℝ) (n : Ω → ℝ) (hrates : RatesAt trap j k Ek ν Ep n)
    (hk : 0 ≤ k) (hν : 0 ≤ ν)
    (hc : 0 ≤ physConc mv.theta a (T.T.val p) (mv.sol.val p)) :
    trap.sol.val p
      = arr k Ek (T.T.val p) * physConc mv.theta a (T.T.val p) (mv.sol.val p) * n p
        / (arr k Ek (T.T.val p) * physConc mv.theta a (T.T.val p) (mv.sol.val p)
            + arr ν Ep (T.T.val p) + 1) := by
  obtain ⟨F, hF, hz⟩ := hsolved (ind p)
  obtain ⟨K, hK, e⟩ := trapForm_ok m mats mv T none trap (ind p) F hF
  obtain ⟨K', hK', _, e'⟩ := trapLoop_at m mv T trap p trap.materials 0 K hK hnd j a hj ha
  rw [zero_add] at hK'
  obtain ⟨h1, h2, h3, h4, h5⟩ := rates_unique (params_rates trap j K' hK') hrates
  rw [hz, e'] at e
  simp only [trapRest, trapSupply_eq] at e
  simp only [volumeIn_ind] at e
  have hall : (mats.filter fun mat => mat.uid ∉ trap.materials.map (·.uid)) = mats := by
    rw [List.filter_eq_self]
    intro x hx
    simp only [decide_eq_true_eq, List.mem_map, not_exists, not_and]
    intro b hb hu
    exact hstale x hx b hb hu.symm
  rw [hall] at e
  have hsum : ∀ ms : List Mat, (ms.flatMap (·.ids)).Nodup → mat p ∈ ms → m.vm p ∈ (mat p).ids →
      (ms.map fun b => if m.vm p ∈ b.ids then m.w p * trap.sol.val p else 0).sum
        = m.w p * trap.sol.val p := by
    intro ms
    induction ms with
    | nil => intro _ h; simp at h
    | cons b ms ih =>
      intro hnd hm hv
      rw [List.flatMap_cons, List.nodup_append] at hnd
      obtain ⟨_, hnd2, hdis⟩ := hnd
      rw [List.map_cons, List.sum_cons]
      by_cases hb : m.vm p ∈ b.ids
      · rw [if_pos hb]
        have : (ms.map fun b => if m.vm p ∈ b.ids then m.w p * trap.sol.val p else 0).sum = 0 := by
          apply List.sum_eq_zero
          intro x hx
          obtain ⟨c, hc, rfl⟩ := List.mem_map.1 hx
          rw [if_neg]
          intro hcin
          exact hdis _ hb _ (List.mem_flatMap.2 ⟨c, hc, hcin⟩) rfl
        rw [this, add_zero]
      · rw [if_neg hb, zero_add]
        refine ih hnd2 ?_ hv
        rcases List.mem_cons.1 hm with h | h
        · exact absurd (h ▸ hv) hb
        · exact h
  rw [hsum mats hcov.nodup (hcov.mem p) (hcov.has p)] at e
  rw [h1, h2, h3, h4, h5, show trapSupply m trap p = 0 by simp [trapSupply, hsrc]] at e
  set A := arr k Ek (T.T.val p) * physConc mv.theta a (T.T.val p) (mv.sol.val p) with hA
  set B := arr ν Ep (T.T.val p) with hB
  have hA0 : 0 ≤ A := mul_nonneg (by unfold arr; positivity) hc
  have hB0 : 0 ≤ B := by rw [hB]; unfold arr; positivity
  have e0 : m.w p * (-(A * (n p - trap.sol.val p)) + B * trap.sol.val p + trap.sol.val p) = 0 := by
    linear_combination -e
  have e1 := (mul_eq_zero.1 e0).resolve_left hw
  rw [eq_div_iff (by positivity)]
  linarith

end

/-! ## Examples -/

namespace TrapMatCase

def w : Obj := { uid := 1, name := some "tungsten", ids := [1] }
def cu : Obj := { uid := 2, name := some "copper", ids := [2] }
/-- The same materials, created again. -/
def w' : Obj := { uid := 3, name := some "tungsten", ids := [2] }
def cu' : Obj := { uid := 4, name := some "copper", ids := [1] }

/-- C85 (b): a name and an object. -/
example : make [w, cu] [.name "copper", .mat w] = .ok [.mat cu, .mat w] := by decide +kernel
/-- C85 (b): the same material twice. -/
example : make [w, cu] [.name "tungsten", .mat w]
    = .error (.valueError "Duplicate materials in trap") := by decide +kernel
/-- C85 (c): after the materials were replaced the trap is still in the old copper, of id 2, now that of tungsten. -/
example : (make [w, cu] [.name "copper"]).bind (make [w', cu']) = .ok [.mat cu] ∧
    make [w', cu'] [.name "copper"] = .ok [.mat cu'] := by decide +kernel
/-- C85 (a): the example in the documentation. -/
example : setMaterials (.list [.other, .other])
    = .error (.typeError "Accepted types for materials are str or festim.Material") := by
  decide +kernel

end TrapMatCase

namespace Case

open Festim.Weak

/-- C85 (d): with rates 5 and 4 and density 2 the trapped concentration is 1 instead of 10/9. -/
example : TrapSolved (meshOf .cartesian)
    [{ uid := 7, ids := [1], D_0 := 1, E_D := 0 }, { uid := 8, ids := [2], D_0 := 1, E_D := 0 }]
    mobile5 temp300 none (trapIn1 ![1, 0] ![0, 3]) := by
  intro v
  refine ⟨_, rfl, ?_⟩
  simp [trapIn1, meshOf, mat1, Mesh.assemble, Mesh.integrate, Mobile.conc, mobile5, temp300,
    trapSourceForm, Fld.const]
  ring

end Case

end Festim.Props
