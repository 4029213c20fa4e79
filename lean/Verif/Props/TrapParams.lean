import Verif.Model.TrapParams
import Verif.Proofs.Traps

/-!
# C98: parameters of a trap given as lists
-/

namespace Festim.Weak

variable {Ω Γ : Type} {d : ℕ}

theorem densityLoop_eq (l : List (Option (Ω → ℝ))) (acc : List (Ω → ℝ)) :
    densityLoop l acc = acc ++ l.filterMap id := by
  induction l generalizing acc with
  | nil => simp [densityLoop]
  | cons a l ih => cases a <;> simp [densityLoop, ih]

theorem kinetics_ok (p : ℕ → Except PyErr (Kinetics Ω)) (n : ℕ) :
    (∃ l, trapKinetics p n = .ok l) ↔ ∀ i < n, ∃ k, p i = .ok k := by
  induction n with
  | zero => simp [trapKinetics]
  | succ n ih =>
    constructor
    · rintro ⟨l, hl⟩ i hi
      unfold trapKinetics at hl
      cases h1 : trapKinetics p n with
      | error e => rw [h1] at hl; cases hl
      | ok l1 =>
        rw [h1] at hl
        cases h2 : p n with
        | error e => rw [h2] at hl; cases hl
        | ok k =>
          rcases Nat.lt_succ_iff_lt_or_eq.1 hi with h | rfl
          · exact (ih.1 ⟨l1, h1⟩) i h
          · exact ⟨k, h2⟩
    · intro h
      obtain ⟨l, hl⟩ := ih.2 fun i hi => h i (Nat.lt_succ_of_lt hi)
      obtain ⟨k, hk⟩ := h n (Nat.lt_succ_self n)
      exact ⟨l ++ [k], by simp [trapKinetics, hl, hk]⟩

theorem kinetics_get (p : ℕ → Except PyErr (Kinetics Ω)) (n : ℕ) (l : List (Kinetics Ω))
    (h : trapKinetics p n = .ok l) : l.length = n ∧ ∀ i k, l[i]? = some k → p i = .ok k := by
  induction n generalizing l with
  | zero => simp [trapKinetics] at h; subst h; simp
  | succ n ih =>
    unfold trapKinetics at h
    cases h1 : trapKinetics p n with
    | error e => rw [h1] at h; cases h
    | ok l1 =>
      rw [h1] at h
      cases h2 : p n with
      | error e => rw [h2] at h; cases h
      | ok k0 =>
        rw [h2] at h
        simp only [Except.ok.injEq] at h
        obtain ⟨hlen, hget⟩ := ih l1 h1
        subst h
        refine ⟨by simp [hlen], fun i k hk => ?_⟩
        rw [List.getElem?_append] at hk
        split at hk
        · exact hget i k hk
        · rename_i hge
          rw [List.getElem?_singleton] at hk
          split at hk
          · rename_i h0
            have : i = n := by omega
            subst this
            simp only [Option.some.injEq] at hk
            rw [h2, hk]
          · cases hk

end Festim.Weak

namespace Festim.Props

open Festim.Weak

variable {Ω Γ : Type} {d : ℕ}

/-- The densities which are not `None`. -/
def given : DensityArg Ω → List (Ω → ℝ)
  | .one n => n.toList
  | .list l => l.filterMap id

theorem makeDensity_given (a : DensityArg Ω) : makeDensity a = given a := by
  cases a with
  | one n => cases n <;> simp [makeDensity, densityLoop, given]
  | list l => simp [makeDensity, densityLoop_eq, given]

/-- The entry `i` of a parameter which is a list. -/
def Entry (p : Param) (i : ℕ) (x : ℝ) : Prop := ∃ l, p = .list l ∧ l[i]? = some x

theorem index_ok (p : Param) (i : ℕ) (x : ℝ) : p.index i = .ok x ↔ Entry p i x := by
  cases p with
  | num y => simp [Param.index, Entry]
  | list l =>
    simp only [Param.index, Entry, Param.list.injEq, exists_eq_left']
    cases l[i]? <;> simp

theorem asNum_ok (p : Param) (x : ℝ) : p.asNum = .ok x ↔ p = .num x := by
  cases p <;> simp [Param.asNum]

theorem densityAt_ok (l : List (Ω → ℝ)) (i : ℕ) (n : Ω → ℝ) : densityAt l i = .ok n ↔ l[i]? = some n := by
  unfold densityAt
  cases l[i]? <;> simp

theorem bind_ok {α β : Type} (x : Except PyErr α) (f : α → Except PyErr β) (y : β) :
    (x >>= f) = .ok y ↔ ∃ a, x = .ok a ∧ f a = .ok y := by
  cases x with
  | error e => simp [bind, Except.bind]
  | ok a => simp [bind, Except.bind]

theorem params_ok (t : Trap Ω Γ d) (i : ℕ) (k : Kinetics Ω) :
    t.params i = .ok k ↔
      (Entry t.k_0 i k.k ∧ Entry t.E_k i k.Ek ∧ Entry t.p_0 i k.p ∧ Entry t.E_p i k.Ep ∧
        t.density[i]? = some k.n) ∨
      (t.k_0 = .num k.k ∧ t.E_k = .num k.Ek ∧ t.p_0 = .num k.p ∧ t.E_p = .num k.Ep ∧
        t.density[0]? = some k.n) := by
  obtain ⟨k1, k2, k3, k4, k5⟩ := k
  unfold Trap.params
  cases h : t.k_0 with
  | num y =>
    simp only [bind_ok, asNum_ok, densityAt_ok, Except.ok.injEq, Kinetics.mk.injEq]
    constructor
    · rintro ⟨n, hn, a, ha, b, hb, c, hc, e, he, rfl, rfl, rfl, rfl, rfl⟩
      exact Or.inr ⟨ha, hb, hc, he, hn⟩
    · rintro (⟨⟨l, hl, -⟩, -⟩ | ⟨ha, hb, hc, he, hn⟩)
      · cases hl
      · exact ⟨_, hn, _, ha, _, hb, _, hc, _, he, rfl, rfl, rfl, rfl, rfl⟩
  | list l =>
    simp only [bind_ok, index_ok, densityAt_ok, Except.ok.injEq, Kinetics.mk.injEq]
    constructor
    · rintro ⟨a, ha, b, hb, c, hc, e, he, n, hn, rfl, rfl, rfl, rfl, rfl⟩
      exact Or.inl ⟨ha, hb, hc, he, hn⟩
    · rintro (⟨ha, hb, hc, he, hn⟩ | ⟨hl, -⟩)
      · exact ⟨_, ha, _, hb, _, hc, _, he, _, hn, rfl, rfl, rfl, rfl, rfl⟩
      · cases hl

theorem trapLoop_ok (mv : Mobile Ω Γ d) (T : Temp Ω Γ d) (t : Trap Ω Γ d) (v : Fld Ω Γ d) (ms : List Mat)
    (i : ℕ) (hth : mv.theta = false) :
    (∃ F, trapLoop mv T t v i ms = .ok F) ↔ ∀ j < ms.length, ∃ k, t.params (i + j) = .ok k := by
  induction ms generalizing i with
  | nil => simp [trapLoop]
  | cons a ms ih =>
    have hs : (∃ F, trapLoop mv T t v i (a :: ms) = .ok F) ↔
        (∃ k, t.params i = .ok k) ∧ ∃ F, trapLoop mv T t v (i + 1) ms = .ok F := by
      simp only [trapLoop, bind, Except.bind, hth, Bool.false_eq_true, false_and, if_false]
      cases t.params i with
      | error e => simp
      | ok k =>
        cases trapLoop mv T t v (i + 1) ms with
        | error e => simp
        | ok F => simp
    rw [hs, ih]
    constructor
    · rintro ⟨h0, h⟩ j hj
      cases j with
      | zero => exact h0
      | succ j =>
        have := h j (by simpa using hj)
        rwa [show i + (j + 1) = i + 1 + j by omega]
    · intro h
      refine ⟨h 0 (by simp), fun j hj => ?_⟩
      have := h (j + 1) (by simpa using hj)
      rwa [show i + (j + 1) = i + 1 + j by omega] at this

/-- **C98.** What the list of parameters is for: the equation of the trap can be written exactly when each
material has parameters, and at every point of the material at position `j` it is the trapping equation with
the `j`-th parameters. -/
theorem C98_equation {Ω Γ : Type} [Fintype Ω] [Fintype Γ] {d : ℕ} (m : Mesh Ω Γ d) (mats : List Mat)
    (mv : Mobile Ω Γ d) (T : Temp Ω Γ d) (h : ℝ) (t : Trap Ω Γ d) (hth : mv.theta = false) :
    (∀ v, (∃ F, trappingForm mats mv T (some h) t v = .ok F) ↔
      ∃ l, trapKinetics t.params t.materials.length = .ok l) ∧
    ∀ (p : Ω) F l, trappingForm mats mv T (some h) t (ind p) = .ok F →
      trapKinetics t.params t.materials.length = .ok l → (t.materials.flatMap (·.ids)).Nodup →
      ∀ (j : ℕ) a, t.materials[j]? = some a → m.vm p ∈ a.ids →
      ∃ K, l[j]? = some K ∧ m.assemble F = m.w p * ((t.sol.val p - t.prev.val p) / h
        - K.k * Real.exp (-K.Ek / kB / T.T.val p) * mv.sol.val p * (K.n p - t.sol.val p)
        + K.p * Real.exp (-K.Ep / kB / T.T.val p) * t.sol.val p) := by
  constructor
  · intro v
    rw [kinetics_ok]
    have := trapLoop_ok mv T t v t.materials 0 hth
    simp only [Nat.zero_add] at this
    rw [← this]
    unfold trappingForm
    simp only [bind, Except.bind]
    cases trapLoop mv T t v 0 t.materials <;> simp
  · intro p F l hF hl hnd j a hj ha
    unfold trappingForm at hF
    simp only [bind, Except.bind] at hF
    cases hG : trapLoop mv T t (ind p) 0 t.materials with
    | error e => rw [hG] at hF; cases hF
    | ok G =>
      rw [hG] at hF
      simp only [Except.ok.injEq] at hF
      obtain ⟨K, hK, -, hA⟩ := trapLoop_at (m := m) mv T t p t.materials 0 G hG hnd j a hj ha
      rw [Nat.zero_add] at hK
      obtain ⟨hlen, hget⟩ := kinetics_get _ _ l hl
      have hjl : j < l.length := by
        rw [hlen]; exact (List.getElem?_eq_some_iff.1 hj).1
      have hKl : l[j]? = some K := by
        have h1 := hget j _ (List.getElem?_eq_getElem hjl)
        rw [hK] at h1
        rw [List.getElem?_eq_getElem hjl]
        cases h1; rfl
      refine ⟨K, hKl, ?_⟩
      rw [← hF]
      simp only [List.cons_append, List.nil_append]
      rw [assemble_cons, hA]
      have hv : m.integrate (.dx fun x => (t.sol.val x - t.prev.val x) / h * (ind p : Fld Ω Γ d).val x) =
          m.w p * ((t.sol.val p - t.prev.val p) / h) := by
        have := volume_ind (m := m) (d := d) (Γ := Γ) p fun x => (t.sol.val x - t.prev.val x) / h
        simpa [Mesh.integrate, volume] using this
      rw [hv]
      simp only [physConc, hth, arr]
      ring

/-- **C98.** The equation of the mobile hydrogen and the one of the trap use the same parameters. -/
theorem C98_same (t : Trap Ω Γ d) (n : ℕ) :
    trapKinetics t.params n = trapKinetics t.paramsMobile n := by
  have : t.params = t.paramsMobile := by
    funext i
    unfold Trap.params Trap.paramsMobile
    cases t.k_0 <;> rfl
  rw [this]

/-- **C98.** Lists of the same length as the materials, without `None`: each material gets the entries at its
own position. -/
theorem C98_lists (t : Trap Ω Γ d) (k Ek p Ep : List ℝ) (n : List (Ω → ℝ)) (hk : t.k_0 = .list k)
    (hEk : t.E_k = .list Ek) (hp : t.p_0 = .list p) (hEp : t.E_p = .list Ep)
    (hn : t.density = makeDensity (.list (n.map some)))
    (h1 : k.length = t.materials.length) (h2 : Ek.length = t.materials.length)
    (h3 : p.length = t.materials.length) (h4 : Ep.length = t.materials.length)
    (h5 : n.length = t.materials.length) :
    ∃ l, trapKinetics t.params t.materials.length = .ok l ∧ l.map Kinetics.k = k ∧ l.map Kinetics.Ek = Ek ∧
      l.map Kinetics.p = p ∧ l.map Kinetics.Ep = Ep ∧ l.map Kinetics.n = n := by
  have hn' : t.density = n := by
    rw [hn, makeDensity_given]
    simp [given, List.filterMap_map]
  have hsome : ∀ {α : Type} (l : List α) (i : ℕ), l.length = t.materials.length → i < t.materials.length →
      ∃ x, l[i]? = some x := by
    intro α l i hl hi
    exact ⟨l[i]'(by omega), List.getElem?_eq_getElem (by omega)⟩
  obtain ⟨l, hl⟩ := (kinetics_ok t.params t.materials.length).2 (by
    intro i hi
    obtain ⟨a, ha⟩ := hsome k i h1 hi
    obtain ⟨b, hb⟩ := hsome Ek i h2 hi
    obtain ⟨c, hc⟩ := hsome p i h3 hi
    obtain ⟨e, he⟩ := hsome Ep i h4 hi
    obtain ⟨m, hm⟩ := hsome n i h5 hi
    exact ⟨⟨a, b, c, e, m⟩, (params_ok t i _).2 (Or.inl ⟨⟨k, hk, ha⟩, ⟨Ek, hEk, hb⟩, ⟨p, hp, hc⟩, ⟨Ep, hEp, he⟩,
      by rw [hn']; exact hm⟩)⟩)
  obtain ⟨hlen, hget⟩ := kinetics_get _ _ l hl
  have key : ∀ (i : ℕ) (x : Kinetics Ω), l[i]? = some x → k[i]? = some x.k ∧ Ek[i]? = some x.Ek ∧ p[i]? = some x.p ∧
      Ep[i]? = some x.Ep ∧ n[i]? = some x.n := by
    intro i x hx
    rcases (params_ok t i x).1 (hget i x hx) with ⟨⟨l1, e1, g1⟩, ⟨l2, e2, g2⟩, ⟨l3, e3, g3⟩, ⟨l4, e4, g4⟩, g5⟩ | ⟨e1, -⟩
    · rw [hk] at e1; rw [hEk] at e2; rw [hp] at e3; rw [hEp] at e4; rw [hn'] at g5
      cases e1; cases e2; cases e3; cases e4
      exact ⟨g1, g2, g3, g4, g5⟩
    · rw [hk] at e1; cases e1
  have ext : ∀ {α : Type} (f : Kinetics Ω → α) (m : List α), m.length = t.materials.length →
      (∀ (i : ℕ) (x : Kinetics Ω), l[i]? = some x → m[i]? = some (f x)) → l.map f = m := by
    intro α f m hm hf
    apply List.ext_getElem?
    intro i
    rw [List.getElem?_map]
    cases hi : l[i]? with
    | none =>
      have := List.getElem?_eq_none_iff.1 hi
      rw [Option.map_none, eq_comm, List.getElem?_eq_none_iff]
      omega
    | some x => rw [hf i x hi]; rfl
  exact ⟨l, hl, ext _ k h1 fun i x hx => (key i x hx).1, ext _ Ek h2 fun i x hx => (key i x hx).2.1,
    ext _ p h3 fun i x hx => (key i x hx).2.2.1, ext _ Ep h4 fun i x hx => (key i x hx).2.2.2.1,
    ext _ n h5 fun i x hx => (key i x hx).2.2.2.2⟩

/-- **C98.** Which parameters are accepted by the equations of a trap with at least one material: four
numbers and at least one density, or four lists at least as long as the list of materials and at least as many
densities (`None` not counted).  The lengths need not be equal. -/
theorem C98_accepted (t : Trap Ω Γ d) (a : DensityArg Ω) (hn : t.density = makeDensity a)
    (hm : t.materials ≠ []) :
    (∃ l, trapKinetics t.params t.materials.length = .ok l) ↔
      ((∃ k Ek p Ep, t.k_0 = .num k ∧ t.E_k = .num Ek ∧ t.p_0 = .num p ∧ t.E_p = .num Ep) ∧ given a ≠ []) ∨
      ((∃ k Ek p Ep, t.k_0 = .list k ∧ t.E_k = .list Ek ∧ t.p_0 = .list p ∧ t.E_p = .list Ep ∧
        ∀ l ∈ [k, Ek, p, Ep], t.materials.length ≤ l.length) ∧ t.materials.length ≤ (given a).length) := by
  have hpos : 0 < t.materials.length := List.length_pos_iff.2 hm
  rw [kinetics_ok]
  rw [makeDensity_given] at hn
  constructor
  · intro h
    obtain ⟨x, hx⟩ := h (t.materials.length - 1) (by omega)
    rcases (params_ok t _ x).1 hx with ⟨⟨l1, e1, g1⟩, ⟨l2, e2, g2⟩, ⟨l3, e3, g3⟩, ⟨l4, e4, g4⟩, g5⟩ |
      ⟨e1, e2, e3, e4, g5⟩
    · right
      refine ⟨⟨l1, l2, l3, l4, e1, e2, e3, e4, ?_⟩, ?_⟩
      · have f : ∀ l : List ℝ, ∀ y, l[t.materials.length - 1]? = some y → t.materials.length ≤ l.length := by
          intro l y hy
          have := (List.getElem?_eq_some_iff.1 hy).1
          omega
        simp only [List.mem_cons, List.not_mem_nil, or_false, forall_eq_or_imp, forall_eq]
        exact ⟨f l1 _ g1, f l2 _ g2, f l3 _ g3, f l4 _ g4⟩
      · rw [hn] at g5
        have := (List.getElem?_eq_some_iff.1 g5).1
        omega
    · left
      refine ⟨⟨_, _, _, _, e1, e2, e3, e4⟩, ?_⟩
      intro h0
      rw [hn, h0] at g5
      cases g5
  · rintro (⟨⟨k, Ek, p, Ep, e1, e2, e3, e4⟩, h0⟩ | ⟨⟨k, Ek, p, Ep, e1, e2, e3, e4, hl⟩, hd⟩) i hi
    · obtain ⟨m, r, hr⟩ := List.exists_cons_of_ne_nil h0
      exact ⟨⟨k, Ek, p, Ep, m⟩, (params_ok t i _).2 (Or.inr ⟨e1, e2, e3, e4, by rw [hn, hr]; rfl⟩)⟩
    · simp only [List.mem_cons, List.not_mem_nil, or_false, forall_eq_or_imp, forall_eq] at hl
      obtain ⟨l1, l2, l3, l4⟩ := hl
      exact ⟨⟨k[i]'(by omega), Ek[i]'(by omega), p[i]'(by omega), Ep[i]'(by omega),
          (given a)[i]'(by omega)⟩, (params_ok t i _).2 (Or.inl ⟨⟨k, e1, List.getElem?_eq_getElem _⟩,
          ⟨Ek, e2, List.getElem?_eq_getElem _⟩, ⟨p, e3, List.getElem?_eq_getElem _⟩,
          ⟨Ep, e4, List.getElem?_eq_getElem _⟩, by rw [hn]; exact List.getElem?_eq_getElem _⟩)⟩

theorem bind_error {α β : Type} (x : Except PyErr α) (f : α → Except PyErr β) (e : PyErr) :
    (x >>= f) = .error e ↔ x = .error e ∨ ∃ a, x = .ok a ∧ f a = .error e := by
  cases x with
  | error e => simp [bind, Except.bind]
  | ok a => simp [bind, Except.bind]

theorem kinetics_error (p : ℕ → Except PyErr (Kinetics Ω)) (n : ℕ) (e : PyErr)
    (h : trapKinetics p n = .error e) : ∃ i < n, p i = .error e := by
  induction n with
  | zero => cases h
  | succ n ih =>
    unfold trapKinetics at h
    cases h1 : trapKinetics p n with
    | error e' =>
      rw [h1] at h
      cases h
      obtain ⟨i, hi, he⟩ := ih h1
      exact ⟨i, by omega, he⟩
    | ok l =>
      rw [h1] at h
      cases h2 : p n with
      | error e' => rw [h2] at h; cases h; exact ⟨n, by omega, h2⟩
      | ok k => rw [h2] at h; cases h

/-- **C98.** When the equations cannot be written: TypeError, and then numbers and lists are mixed, or
IndexError, and then a list is shorter than the list of materials or there are not enough densities. -/
theorem C98_refused (t : Trap Ω Γ d) (n : ℕ) (e : PyErr) (h : trapKinetics t.params n = .error e) :
    ((∃ msg, e = .typeError msg) ∧ ∃ a ∈ [t.k_0, t.E_k, t.p_0, t.E_p], ∃ b ∈ [t.k_0, t.E_k, t.p_0, t.E_p],
      (∃ x, a = .num x) ∧ ∃ l, b = .list l) ∨
    ((∃ msg, e = .indexError msg) ∧ (t.density.length < n ∨
      ∃ a ∈ [t.k_0, t.E_k, t.p_0, t.E_p], ∃ l, a = .list l ∧ l.length < n)) := by
  obtain ⟨i, hi, h⟩ := kinetics_error _ _ _ h
  have hidx : ∀ p : Param, p.index i = .error e →
      ((∃ msg, e = .typeError msg) ∧ ∃ x, p = .num x) ∨
      ((∃ msg, e = .indexError msg) ∧ ∃ l, p = .list l ∧ l.length < n) := by
    intro p he
    cases p with
    | num x => simp only [Param.index, Except.error.injEq] at he; exact Or.inl ⟨⟨_, he.symm⟩, x, rfl⟩
    | list l =>
      simp only [Param.index] at he
      cases hl : l[i]? with
      | some y => rw [hl] at he; cases he
      | none =>
        rw [hl] at he
        simp only [Except.error.injEq] at he
        have := List.getElem?_eq_none_iff.1 hl
        exact Or.inr ⟨⟨_, he.symm⟩, l, rfl, by omega⟩
  have hnum : ∀ p : Param, p.asNum = .error e → (∃ msg, e = .typeError msg) ∧ ∃ l, p = .list l := by
    intro p he
    cases p with
    | num x => cases he
    | list l => simp only [Param.asNum, Except.error.injEq] at he; exact ⟨⟨_, he.symm⟩, l, rfl⟩
  have hden : ∀ j ≤ i, densityAt t.density j = .error e →
      (∃ msg, e = .indexError msg) ∧ t.density.length < n := by
    intro j hj he
    unfold densityAt at he
    cases hl : t.density[j]? with
    | some y => rw [hl] at he; cases he
    | none =>
      rw [hl] at he
      simp only [Except.error.injEq] at he
      have := List.getElem?_eq_none_iff.1 hl
      exact ⟨⟨_, he.symm⟩, by omega⟩
  unfold Trap.params at h
  cases hk : t.k_0 with
  | num x =>
    have mix : ∀ p ∈ [t.E_k, t.p_0, t.E_p], p.asNum = .error e →
        (∃ msg, e = .typeError msg) ∧ ∃ a ∈ [Param.num x, t.E_k, t.p_0, t.E_p],
          ∃ b ∈ [Param.num x, t.E_k, t.p_0, t.E_p], (∃ x, a = .num x) ∧ ∃ l, b = .list l := by
      intro p hp h1
      obtain ⟨g1, g2⟩ := hnum p h1
      exact ⟨g1, .num x, by simp, p, List.mem_cons_of_mem _ hp, ⟨x, rfl⟩, g2⟩
    simp only [hk, bind_error, Param.asNum, reduceCtorEq, false_or, Except.ok.injEq, exists_eq_left'] at h
    rcases h with h | ⟨_, -, h | ⟨_, -, h | ⟨_, -, h | ⟨_, -, h⟩⟩⟩⟩
    · obtain ⟨g1, g2⟩ := hden 0 (by omega) h
      exact Or.inr ⟨g1, Or.inl g2⟩
    · exact Or.inl (mix t.E_k (by simp) h)
    · exact Or.inl (mix t.p_0 (by simp) h)
    · exact Or.inl (mix t.E_p (by simp) h)
    · exact h.elim
  | list l =>
    have mix : ∀ p ∈ [Param.list l, t.E_k, t.p_0, t.E_p], p.index i = .error e →
        ((∃ msg, e = .typeError msg) ∧ ∃ a ∈ [Param.list l, t.E_k, t.p_0, t.E_p],
          ∃ b ∈ [Param.list l, t.E_k, t.p_0, t.E_p], (∃ x, a = .num x) ∧ ∃ l, b = .list l) ∨
        ((∃ msg, e = .indexError msg) ∧ (t.density.length < n ∨
          ∃ a ∈ [Param.list l, t.E_k, t.p_0, t.E_p], ∃ l, a = .list l ∧ l.length < n)) := by
      intro p hp h1
      rcases hidx p h1 with ⟨g1, g2⟩ | ⟨g1, g2⟩
      · exact Or.inl ⟨g1, p, hp, .list l, by simp, g2, l, rfl⟩
      · exact Or.inr ⟨g1, Or.inr ⟨p, hp, g2⟩⟩
    simp only [hk, bind_error] at h
    rcases h with h | ⟨_, -, h | ⟨_, -, h | ⟨_, -, h | ⟨_, -, h | ⟨_, -, h⟩⟩⟩⟩⟩
    · exact mix _ (by simp) h
    · exact mix t.E_k (by simp) h
    · exact mix t.p_0 (by simp) h
    · exact mix t.E_p (by simp) h
    · obtain ⟨g1, g2⟩ := hden i (by omega) h
      exact Or.inr ⟨g1, Or.inl g2⟩
    · cases h

/-- Non-vacuity: `k_0` a list, `E_k` a number: TypeError; a list which is too short: IndexError. -/
example : ∃ t : Trap (Fin 1) (Fin 1) 1, (∃ m, trapKinetics t.params 1 = .error (.typeError m)) :=
  ⟨⟨.list [1], .num 0, .list [1], .list [0], makeDensity (.one (some fun _ => 1)), [], ⟨0, 0, 0⟩, ⟨0, 0, 0⟩, []⟩,
    _, rfl⟩

example : ∃ t : Trap (Fin 1) (Fin 1) 1, (∃ m, trapKinetics t.params 2 = .error (.indexError m)) :=
  ⟨⟨.list [1], .list [0], .list [1], .list [0], makeDensity (.one (some fun _ => 1)), [], ⟨0, 0, 0⟩, ⟨0, 0, 0⟩, []⟩,
    _, rfl⟩

/-- **C98.** Numbers with a list of densities: the first density is used in every material and the others
have no effect. -/
theorem C98_first (t : Trap Ω Γ d) (l : List (Kinetics Ω)) (k : ℝ) (hk : t.k_0 = .num k)
    (hl : trapKinetics t.params t.materials.length = .ok l) :
    ∀ x ∈ l, t.density[0]? = some x.n := by
  intro x hx
  obtain ⟨i, hi⟩ := List.mem_iff_getElem?.1 hx
  rcases (params_ok t i x).1 ((kinetics_get _ _ l hl).2 i x hi) with ⟨⟨l1, e1, -⟩, -⟩ | ⟨-, -, -, -, h⟩
  · rw [hk] at e1; cases e1
  · exact h

/-- **C98.** A `None` in the list of densities moves all later densities to the material before: the material
at the position of the `None` gets the next density, and so on; with one density for each of the other
materials the equations cannot be written. -/
theorem C98_none (t : Trap Ω Γ d) (before after : List (Ω → ℝ)) (ks : List ℝ) (hk : t.k_0 = .list ks)
    (hn : t.density = makeDensity (.list (before.map some ++ none :: after.map some))) :
    (∀ l, trapKinetics t.params t.materials.length = .ok l →
      (∀ i x, l[i]? = some x → i < before.length → before[i]? = some x.n) ∧
      ∀ i x, l[before.length + i]? = some x → after[i]? = some x.n) ∧
    (t.materials.length = before.length + 1 + after.length →
      ∃ e, trapKinetics t.params t.materials.length = .error e) := by
  have hd : t.density = before ++ after := by
    rw [hn, makeDensity_given]
    simp [given, List.filterMap_map]
  have hden : ∀ i x, t.params i = .ok x → t.density[i]? = some x.n := by
    intro i x hx
    rcases (params_ok t i x).1 hx with ⟨-, -, -, -, h⟩ | ⟨e1, -⟩
    · exact h
    · rw [hk] at e1; cases e1
  constructor
  · intro l hl
    obtain ⟨-, hget⟩ := kinetics_get _ _ l hl
    constructor
    · intro i x hx hi
      have := hden i x (hget i x hx)
      rwa [hd, List.getElem?_append_left hi] at this
    · intro i x hx
      have := hden _ x (hget _ x hx)
      rwa [hd, List.getElem?_append_right (by omega), Nat.add_sub_cancel_left] at this
  · intro hlen
    cases h : trapKinetics t.params t.materials.length with
    | error e => exact ⟨e, rfl⟩
    | ok l =>
      obtain ⟨x, hx⟩ := (kinetics_ok _ _).1 ⟨l, h⟩ (t.materials.length - 1) (by omega)
      have := hden _ x hx
      rw [hd] at this
      have := (List.getElem?_eq_some_iff.1 this).1
      rw [List.length_append] at this
      omega

/-- Non-vacuity: a trap in three materials whose second density is `None`; the first material keeps its
density, the second one gets the density meant for the third, which gets none. -/
example : ∃ (t : Trap (Fin 1) (Fin 1) 1) (n₀ n₂ : Fin 1 → ℝ), n₀ ≠ n₂ ∧
    t.density = makeDensity (.list [some n₀, none, some n₂]) ∧
    (t.params 0).map Kinetics.n = .ok n₀ ∧ (t.params 1).map Kinetics.n = .ok n₂ ∧
    (t.params 2).map Kinetics.n = .error (.indexError "list index out of range") := by
  refine ⟨⟨.list [1, 1, 1], .list [0, 0, 0], .list [1, 1, 1], .list [0, 0, 0],
    makeDensity (.list [some fun _ => 1, none, some fun _ => 2]), [], ⟨0, 0, 0⟩, ⟨0, 0, 0⟩, []⟩,
    fun _ => 1, fun _ => 2, ?_, rfl, rfl, rfl, rfl⟩
  intro h
  have := congrFun h 0
  norm_num at this

end Festim.Props
