import Verif.Model.TrapKeywords
import Mathlib.Data.List.Basic
import Mathlib.Tactic.Basic

/-!
# C116: arguments of the constructors of traps

The claims are about `newTrap` (`festim.Trap`), `newSub physExtrinsic` (`festim.ExtrinsicTrap`) and
`newSub physNeutron` (`festim.NeutronInducedTrap`).
-/

set_option linter.unusedSimpArgs false

namespace Festim.Keywords

variable {V : Type}

/-- The value given for a parameter: by position, otherwise by keyword. -/
def supplied (names : List String) (args : List V) (kws : List (String × V)) (x : String) : Option V :=
  (names.zip args ++ kws).lookup x

/-- Parameter names of `ExtrinsicTrap` and `NeutronInducedTrap`, in order. -/
def paramNames (phys : List String) : List String :=
  ["k_0", "E_k", "p_0", "E_p", "materials"] ++ phys ++ ["id"]

theorem zip_take (names : List String) (args : List V) :
    (names.take args.length).zip args = names.zip args := by
  induction names generalizing args with
  | nil => simp
  | cons a l ih => cases args with
    | nil => simp
    | cons b m => simp [ih]

theorem bind_ok {s : Sig} {args : List V} {kws : List (String × V)} {b : String → Option V}
    {extra : List (String × V)} (h : bindCall s args kws = .ok (b, extra)) :
    args.length ≤ s.params.length ∧
    (∀ kv ∈ kws, kv.1 ∉ (s.params.map (·.1)).take args.length) ∧
    (∀ q ∈ s.params, q.2 = false →
      ∃ kv ∈ (s.params.map (·.1)).zip args ++ kws, kv.1 = q.1) ∧
    (∀ x, b x = if x ∈ s.params.map (·.1) then supplied (s.params.map (·.1)) args kws x else none) ∧
    extra = kws.filter (fun kv => !(s.params.map (·.1)).contains kv.1) := by
  unfold bindCall at h
  split at h
  · cases h
  · rename_i h1
    dsimp only at h
    split at h
    · cases h
    · rename_i h2
      split at h
      · cases h
      · split at h
        · cases h
        · rename_i h3 h4
          cases h
          refine ⟨by omega, ?_, ?_, ?_, rfl⟩
          · intro kv hkv hm
            exact h2 (List.any_eq_true.2 ⟨kv, hkv, by simpa using hm⟩)
          · intro q hq hf
            by_contra hn
            apply h4
            refine List.any_eq_true.2 ⟨q, hq, ?_⟩
            rw [zip_take, hf]
            simp only [Bool.not_false, Bool.true_and, Bool.not_eq_true', List.any_eq_false]
            intro kv hkv he
            exact hn ⟨kv, hkv, by simpa using he⟩
          · intro x
            rw [zip_take]
            simp [supplied]

theorem lookup_insert (l1 l2 : List (String × V)) (x y : String) (v : V) (h : y ≠ x) :
    (l1 ++ (x, v) :: l2).lookup y = (l1 ++ l2).lookup y := by
  induction l1 with
  | nil =>
    have : (y == x) = false := by simpa using h
    simp [List.lookup, this]
  | cons a l ih =>
    obtain ⟨k, w⟩ := a
    simp only [List.cons_append, List.lookup]
    rw [ih]

/-- An additional keyword which is no parameter is passed on by a signature with `**kwargs`. -/
theorem bind_insert (s : Sig) (hs : s.kwargs = true) (args : List V) (l1 l2 : List (String × V))
    (x : String) (v : V) (hx : x ∉ s.params.map (·.1)) (b : String → Option V)
    (extra : List (String × V)) (h : bindCall s args (l1 ++ l2) = .ok (b, extra)) :
    bindCall s args (l1 ++ (x, v) :: l2) = .ok (b,
      (l1.filter fun kv => !(s.params.map (·.1)).contains kv.1) ++ (x, v) ::
        (l2.filter fun kv => !(s.params.map (·.1)).contains kv.1)) ∧
    extra = (l1.filter fun kv => !(s.params.map (·.1)).contains kv.1) ++
        (l2.filter fun kv => !(s.params.map (·.1)).contains kv.1) := by
  obtain ⟨h1, h2, h3, h4, h5⟩ := bind_ok h
  refine ⟨?_, by rw [h5, List.filter_append]⟩
  unfold bindCall
  rw [if_neg (by omega)]
  dsimp only
  rw [if_neg, if_neg, if_neg]
  · rw [zip_take]
    have e1 : (fun y => if (s.params.map (·.1)).contains y = true then
        ((s.params.map (·.1)).zip args ++ (l1 ++ (x, v) :: l2)).lookup y else none) = b := by
      funext y
      rw [h4 y]
      by_cases hy : y ∈ s.params.map (·.1)
      · have hne : y ≠ x := fun e => hx (e ▸ hy)
        rw [if_pos hy, if_pos (by simpa using hy), ← List.append_assoc, lookup_insert _ _ _ _ _ hne,
          List.append_assoc]
        rfl
      · rw [if_neg hy, if_neg (by simpa using hy)]
    have e2 : (!(s.params.map (·.1)).contains x) = true := by simpa using hx
    rw [e1, List.filter_append, List.filter_cons]
    simp only [e2, if_true]
  · intro ha
    obtain ⟨q, hq, hb⟩ := List.any_eq_true.1 ha
    rw [zip_take] at hb
    cases hf : q.2 with
    | true => simp [hf] at hb
    | false =>
      obtain ⟨kv, hkv, e⟩ := h3 q hq hf
      rw [hf] at hb
      simp only [Bool.not_false, Bool.true_and, Bool.not_eq_true', List.any_eq_false] at hb
      refine hb kv ?_ (by simpa using e)
      simp only [List.mem_append, List.mem_cons] at hkv ⊢
      tauto
  · rw [hs]; simp
  · intro ha
    obtain ⟨kv, hkv, hb⟩ := List.any_eq_true.1 ha
    have hb' : kv.1 ∈ (s.params.map (·.1)).take args.length := by simpa using hb
    simp only [List.mem_append, List.mem_cons] at hkv
    rcases hkv with hk | hk | hk
    · exact h2 kv (List.mem_append_left _ hk) hb'
    · rw [hk] at hb'
      exact hx (List.mem_of_mem_take hb')
    · exact h2 kv (List.mem_append_right _ hk) hb'

theorem set_other (A : Attrs V) (x y : String) (s : Slot V) (h : y ≠ x) : A.set x s y = A y :=
  if_neg h

theorem set_same (A : Attrs V) (x : String) (s : Slot V) : A.set x s x = some s := if_pos rfl

theorem set_comm (A : Attrs V) (x y : String) (s t : Slot V) (h : x ≠ y) :
    (A.set x s).set y t = (A.set y t).set x s := by
  funext z
  unfold Attrs.set
  by_cases h1 : z = x
  · subst h1
    simp [h]
  · simp [h1]

theorem setKeywords_cons (conv : V → Except PyErr Unit) (A : Attrs V) (kv : String × V)
    (rest : List (String × V)) (B : Attrs V) (h : setKeywords conv A (kv :: rest) = .ok B) :
    conv kv.2 = .ok () ∧ kv.1 ≠ "newton_solver" ∧
      setKeywords conv (A.set kv.1 (.converted kv.2)) rest = .ok B := by
  rw [setKeywords, setKeyword] at h
  cases hc : conv kv.2 with
  | error e => rw [hc] at h; cases h
  | ok u =>
    rw [hc] at h
    by_cases hn : kv.1 = "newton_solver"
    · simp [hn] at h
    · simp only [hn, if_false] at h
      exact ⟨rfl, hn, h⟩

theorem setKeywords_other (conv : V → Except PyErr Unit) (l : List (String × V)) (A B : Attrs V)
    (h : setKeywords conv A l = .ok B) (x : String) (hx : ∀ kv ∈ l, kv.1 ≠ x) : B x = A x := by
  induction l generalizing A with
  | nil => cases h; rfl
  | cons kv l ih =>
    obtain ⟨_, _, h3⟩ := setKeywords_cons conv A kv l B h
    rw [ih _ h3 fun q hq => hx q (List.mem_cons_of_mem _ hq)]
    exact set_other _ _ _ _ (hx kv List.mem_cons_self).symm

/-- After the loop an attribute which was among the keywords, once, holds the converted value. -/
theorem setKeywords_found (conv : V → Except PyErr Unit) (l : List (String × V)) (A B : Attrs V)
    (hl : (l.map (·.1)).Nodup) (h : setKeywords conv A l = .ok B) (x : String) (v : V)
    (hx : (x, v) ∈ l) : B x = some (.converted v) := by
  induction l generalizing A with
  | nil => cases hx
  | cons kv l ih =>
    obtain ⟨_, _, h3⟩ := setKeywords_cons conv A kv l B h
    rw [List.map_cons, List.nodup_cons] at hl
    rcases List.mem_cons.1 hx with e | hm
    · rw [setKeywords_other conv l _ B h3 x, ← e]
      · exact set_same _ _ _
      · intro q hq he
        apply hl.1
        rw [← e]
        exact List.mem_map.2 ⟨q, hq, he⟩
    · exact ih _ hl.2 h3 hm

theorem setKeywords_set (conv : V → Except PyErr Unit) (l : List (String × V)) (A B : Attrs V)
    (h : setKeywords conv A l = .ok B) (x : String) (s : Slot V) (hx : ∀ kv ∈ l, kv.1 ≠ x) :
    setKeywords conv (A.set x s) l = .ok (B.set x s) := by
  induction l generalizing A with
  | nil => cases h; rfl
  | cons kv l ih =>
    obtain ⟨h1, h2, h3⟩ := setKeywords_cons conv A kv l B h
    rw [setKeywords, setKeyword, h1]
    simp only [h2, if_false]
    rw [set_comm _ _ _ _ _ (hx kv List.mem_cons_self).symm]
    exact ih _ h3 fun q hq => hx q (List.mem_cons_of_mem _ hq)

theorem setKeywords_insert (conv : V → Except PyErr Unit) (l1 l2 : List (String × V)) (A B : Attrs V)
    (h : setKeywords conv A (l1 ++ l2) = .ok B) (x : String) (v : V) (hn : x ≠ "newton_solver")
    (hc : conv v = .ok ()) (hx : ∀ kv ∈ l1 ++ l2, kv.1 ≠ x) :
    setKeywords conv A (l1 ++ (x, v) :: l2) = .ok (B.set x (.converted v)) := by
  induction l1 generalizing A with
  | nil =>
    rw [List.nil_append, setKeywords, setKeyword, hc]
    simp only [hn, if_false]
    exact setKeywords_set conv l2 A B h x _ hx
  | cons kv l ih =>
    obtain ⟨h1, h2, h3⟩ := setKeywords_cons conv A kv (l ++ l2) B h
    rw [List.cons_append, setKeywords, setKeyword, h1]
    simp only [h2, if_false]
    exact ih _ h3 fun q hq => hx q (List.mem_cons_of_mem _ hq)

theorem names_sub (phys : List String) :
    (sigSub phys).params.map (·.1) = paramNames phys := by
  simp [sigSub, common, paramNames, Function.comp_def]

theorem names_base :
    sigBase.params.map (·.1) = ["k_0", "E_k", "p_0", "E_p", "materials", "id"] ++ options := by
  simp [sigBase, common, options]

theorem newBase_insert (conv : V → Except PyErr Unit) (args : List V) (l1 l2 : List (String × V))
    (A : Attrs V) (h : newBase conv args (l1 ++ l2) = .ok A) (x : String) (v : V)
    (hx : x ∉ sigBase.params.map (·.1)) (hn : x ≠ "newton_solver") (hc : conv v = .ok ())
    (hk : ∀ kv ∈ l1 ++ l2, kv.1 ≠ x) :
    ∃ A', newBase conv args (l1 ++ (x, v) :: l2) = .ok A' ∧ (∀ y, y ≠ x → A' y = A y) ∧
      (x ≠ "density_previous_solution" → x ≠ "density_test_function" →
        A' x = some (.converted v)) ∧
      (x = "density_previous_solution" ∨ x = "density_test_function" → A' = A) := by
  unfold newBase at h
  cases hb : bindCall sigBase args (l1 ++ l2) with
  | error e => rw [hb] at h; cases h
  | ok r =>
    obtain ⟨b, extra⟩ := r
    rw [hb] at h
    dsimp only at h
    obtain ⟨e1, e2⟩ := bind_insert sigBase rfl args l1 l2 x v hx b extra hb
    cases hs : setKeywords conv
        ((setOptions b (trapInit b .emptyList)).set "newton_solver" .pyNone) extra with
    | error e => rw [hs] at h; cases h
    | ok B =>
      rw [hs] at h
      cases h
      rw [e2] at hs
      have hi := setKeywords_insert conv _ _ _ B hs x v hn hc (by
        intro kv hkv
        refine hk kv ?_
        simp only [List.mem_append, List.mem_filter] at hkv ⊢
        tauto)
      refine ⟨((B.set x (.converted v)).set "density_previous_solution" .pyNone).set
        "density_test_function" .pyNone, ?_, ?_, ?_, ?_⟩
      · unfold newBase
        rw [e1]
        dsimp only
        rw [hi]
      · intro y hy
        simp only [Attrs.set, hy, if_false]
      · intro h1 h2
        simp [Attrs.set, h1, h2]
      · intro h1
        funext y
        simp only [Attrs.set]
        rcases h1 with h1 | h1
        · subst h1
          by_cases hy : y = "density_previous_solution" <;> simp [hy]
        · subst h1
          by_cases hy : y = "density_test_function" <;> simp [hy]

/-- **C116.** `ExtrinsicTrap` and `NeutronInducedTrap` accept a keyword which is no parameter of
theirs, wherever it stands: the trap is built, and differs at most in the attribute of that name.  In
particular its solver gets the same parameters. -/
theorem C116_unknown_accepted (phys : List String) (conv : V → Except PyErr Unit)
    (args : List V) (l1 l2 : List (String × V)) (A : Attrs V)
    (h : newSub phys conv args (l1 ++ l2) = .ok A) (x : String) (v : V)
    (hx : x ∉ paramNames phys) (hopt : x ∉ options) (hn : x ≠ "newton_solver")
    (hc : conv v = .ok ()) (hk : ∀ kv ∈ l1 ++ l2, kv.1 ≠ x) :
    ∃ A', newSub phys conv args (l1 ++ (x, v) :: l2) = .ok A' ∧ (∀ y, y ≠ x → A' y = A y) ∧
      solverParameters A' = solverParameters A ∧
      (x ≠ "density_previous_solution" → x ≠ "density_test_function" →
        A' x = some (.converted v)) ∧
      (x = "density" ∨ x = "density_previous_solution" ∨ x = "density_test_function" →
        allocate A' = allocate A) := by
  unfold newSub at h
  cases hb : bindCall (sigSub phys) args (l1 ++ l2) with
  | error e => rw [hb] at h; cases h
  | ok r =>
    obtain ⟨b, extra⟩ := r
    rw [hb] at h
    dsimp only at h
    obtain ⟨e1, e2⟩ := bind_insert (sigSub phys) rfl args l1 l2 x v
      (by rw [names_sub]; exact hx) b extra hb
    rw [e2, ← List.append_assoc] at h
    have hbase : x ∉ sigBase.params.map (·.1) := by
      rw [names_base]
      simp only [paramNames, List.mem_append, List.mem_cons, List.not_mem_nil, not_or] at hx ⊢
      tauto
    obtain ⟨A', h1, h2, h3, h4⟩ := newBase_insert conv _ _ _ A h x v hbase hn hc (by
      intro kv hkv
      simp only [List.mem_append, List.mem_filter, List.mem_filterMap, Option.map_eq_some_iff,
        Option.mem_toList] at hkv
      rcases hkv with ((⟨q, hq, w, _, rfl⟩ | ⟨w, _, rfl⟩) | hkv) | hkv
      · rintro rfl
        exact hx (by simp [paramNames, hq])
      · rintro rfl
        exact hx (by simp [paramNames])
      · exact hk kv (List.mem_append_left _ hkv.1)
      · exact hk kv (List.mem_append_right _ hkv.1))
    refine ⟨A', ?_, h2, ?_, h3, ?_⟩
    · unfold newSub
      rw [e1]
      dsimp only
      rw [← List.append_assoc]
      exact h1
    · unfold solverParameters
      refine List.map_congr_left fun o ho => ?_
      rw [h2 o fun e => hopt (e ▸ ho)]
    · intro hd
      funext y
      by_cases hy : y = x
      · subst hy
        rcases hd with rfl | rfl | rfl <;> simp [allocate, Attrs.set]
      · simp only [allocate, Attrs.set, h2 y hy]

/-- **C116.** `Trap` refuses every keyword which is no parameter of its. -/
theorem C116_trap_rejects (args : List V) (kws : List (String × V)) (kv : String × V)
    (hkv : kv ∈ kws)
    (hx : kv.1 ∉ ["k_0", "E_k", "p_0", "E_p", "materials", "density", "id"]) :
    ∃ msg, newTrap args kws = .error (.typeError msg) := by
  unfold newTrap bindCall
  split
  · rename_i e heq
    split at heq
    · cases heq; exact ⟨_, rfl⟩
    · dsimp only at heq
      split at heq
      · cases heq; exact ⟨_, rfl⟩
      · split at heq
        · cases heq; exact ⟨_, rfl⟩
        · split at heq
          · cases heq; exact ⟨_, rfl⟩
          · cases heq
  · rename_i b ex heq
    exfalso
    split at heq
    · cases heq
    · dsimp only at heq
      split at heq
      · cases heq
      · split at heq
        · cases heq
        · rename_i hno
          apply hno
          refine ⟨rfl, List.any_eq_true.2 ⟨kv, hkv, ?_⟩⟩
          simpa [sigTrap, common] using hx

/-- **C116.** A required argument of `ExtrinsicTrap` or `NeutronInducedTrap` given neither by position
nor by keyword is reported. -/
theorem C116_required (phys : List String) (conv : V → Except PyErr Unit) (args : List V)
    (kws : List (String × V)) (x : String)
    (hx : x ∈ ["k_0", "E_k", "p_0", "E_p", "materials"] ++ phys)
    (hno : supplied (paramNames phys) args kws x = none) :
    ∃ msg, newSub phys conv args kws = .error (.typeError msg) := by
  cases hb : bindCall (sigSub phys) args kws with
  | ok r =>
    obtain ⟨b, extra⟩ := r
    exfalso
    obtain ⟨_, _, h3, _, _⟩ := bind_ok hb
    have hq : (x, false) ∈ (sigSub phys).params := by
      simp only [sigSub, common, List.mem_append, List.mem_cons, List.mem_map, List.not_mem_nil,
        or_false, Prod.mk.injEq, and_true] at hx ⊢
      rcases hx with hx | hx
      · exact Or.inl (Or.inl hx)
      · exact Or.inl (Or.inr ⟨x, hx, rfl⟩)
    obtain ⟨kv, hkv, e⟩ := h3 (x, false) hq rfl
    rw [names_sub] at hkv
    rw [supplied, List.lookup_eq_none_iff] at hno
    have := hno kv hkv
    simp [e] at this
  | error e =>
    unfold newSub
    rw [hb]
    dsimp only
    unfold bindCall at hb
    split at hb
    · cases hb; exact ⟨_, rfl⟩
    · dsimp only at hb
      split at hb
      · cases hb; exact ⟨_, rfl⟩
      · split at hb
        · cases hb; exact ⟨_, rfl⟩
        · split at hb
          · cases hb; exact ⟨_, rfl⟩
          · cases hb

theorem lookup_some_of (l : List (String × V)) (x : String) (h : ∃ kv ∈ l, kv.1 = x) :
    ∃ v, l.lookup x = some v := by
  cases hl : l.lookup x with
  | some v => exact ⟨v, rfl⟩
  | none =>
    obtain ⟨kv, hkv, e⟩ := h
    have := List.lookup_eq_none_iff.1 hl kv hkv
    simp [e] at this

theorem lookup_append_none (l1 l2 : List (String × V)) (x : String) (h : ∀ kv ∈ l1, kv.1 ≠ x) :
    (l1 ++ l2).lookup x = l2.lookup x := by
  induction l1 with
  | nil => rfl
  | cons a l ih =>
    obtain ⟨k, w⟩ := a
    have hk : (x == k) = false := by
      have := h (k, w) List.mem_cons_self
      simpa using fun e => this e.symm
    rw [List.cons_append, List.lookup, hk]
    exact ih fun q hq => h q (List.mem_cons_of_mem _ hq)

theorem lookup_filter (l : List (String × V)) (f : String → Bool) (x : String) (h : f x = true) :
    (l.filter fun kv => f kv.1).lookup x = l.lookup x := by
  induction l with
  | nil => rfl
  | cons a l ih =>
    obtain ⟨k, w⟩ := a
    rw [List.filter_cons]
    by_cases hk : x = k
    · subst hk
      simp [h]
    · have hk' : (x == k) = false := by simpa using hk
      split
      · simp only [List.lookup, hk', ih]
      · simp only [List.lookup, hk', ih]

theorem keys_sublist (l : List String) (b : String → Option V) :
    ((l.filterMap fun x => (b x).map fun v => (x, v)).map (·.1)).Sublist l := by
  induction l with
  | nil => simp
  | cons a l ih =>
    rw [List.filterMap_cons]
    cases b a with
    | none => exact ih.cons a
    | some v => exact ih.cons_cons a

/-- What has been given for the required parameters. -/
theorem required_some {phys : List String} {args : List V} {kws : List (String × V)}
    {b : String → Option V} {extra : List (String × V)}
    (hb : bindCall (sigSub phys) args kws = .ok (b, extra)) (x : String)
    (hx : x ∈ ["k_0", "E_k", "p_0", "E_p", "materials"] ++ phys) :
    ∃ v, supplied (paramNames phys) args kws x = some v ∧ b x = some v := by
  obtain ⟨_, _, h3, h4, _⟩ := bind_ok hb
  have hq : (x, false) ∈ (sigSub phys).params := by
    simp only [sigSub, common, List.mem_append, List.mem_cons, List.mem_map, List.not_mem_nil,
      or_false, Prod.mk.injEq, and_true] at hx ⊢
    rcases hx with hx | hx
    · exact Or.inl (Or.inl hx)
    · exact Or.inl (Or.inr ⟨x, hx, rfl⟩)
  have := lookup_some_of _ _ (h3 (x, false) hq rfl)
  rw [names_sub] at this
  obtain ⟨v, hv⟩ := this
  refine ⟨v, hv, ?_⟩
  rw [h4 x, names_sub, if_pos]
  · exact hv
  · simp only [paramNames, List.mem_append] at hx ⊢
    exact Or.inl hx

/-- **C116.** The arguments reach the trap: rates and materials as given, the physical parameters of the
density converted, and the options of the solver, which can only be given by keyword, as given or
else their defaults. -/
theorem C116_values (phys : List String) (hphys : phys = physExtrinsic ∨ phys = physNeutron)
    (conv : V → Except PyErr Unit) (args : List V) (kws : List (String × V))
    (hkws : (kws.map (·.1)).Nodup) (A : Attrs V) (h : newSub phys conv args kws = .ok A) :
    (∀ x ∈ ["k_0", "E_k", "p_0", "E_p", "materials"], ∃ v,
      supplied (paramNames phys) args kws x = some v ∧ A x = some (.raw v)) ∧
    (∀ x ∈ phys, ∃ v, supplied (paramNames phys) args kws x = some v ∧
      A x = some (.converted v)) ∧
    ∀ o ∈ options, A o = some (match kws.lookup o with | some v => .raw v | none => .default o) := by
  unfold newSub at h
  cases hb : bindCall (sigSub phys) args kws with
  | error e => rw [hb] at h; cases h
  | ok r =>
    obtain ⟨b, extra⟩ := r
    rw [hb] at h
    dsimp only at h
    obtain ⟨_, _, _, _, hex⟩ := bind_ok hb
    rw [names_sub] at hex
    have hreq := fun x hx => required_some hb x hx
    obtain ⟨v1, s1, w1⟩ := hreq "k_0" (by simp)
    obtain ⟨v2, s2, w2⟩ := hreq "E_k" (by simp)
    obtain ⟨v3, s3, w3⟩ := hreq "p_0" (by simp)
    obtain ⟨v4, s4, w4⟩ := hreq "E_p" (by simp)
    obtain ⟨v5, s5, w5⟩ := hreq "materials" (by simp)
    have hargs : (common.filterMap fun q => b q.1) = [v1, v2, v3, v4, v5] := by
      simp [common, w1, w2, w3, w4, w5]
    rw [hargs] at h
    have hP : ∀ kv ∈ (phys.filterMap fun x => (b x).map fun v => (x, v)), kv.1 ∈ phys := by
      intro kv hkv
      obtain ⟨q, hq, e⟩ := List.mem_filterMap.1 hkv
      obtain ⟨w, _, rfl⟩ := Option.map_eq_some_iff.1 e
      exact hq
    have hI : ∀ kv ∈ ((b "id").map fun v => ("id", v)).toList, kv.1 = "id" := by
      intro kv hkv
      obtain ⟨w, _, rfl⟩ := Option.map_eq_some_iff.1 (Option.mem_toList.1 hkv)
      rfl
    have hE : ∀ kv ∈ extra, kv.1 ∉ paramNames phys := by
      intro kv hkv
      rw [hex, List.mem_filter] at hkv
      simpa using hkv.2
    have hfresh : ∀ x ∈ phys, x ∉ ["k_0", "E_k", "p_0", "E_p", "materials", "id"] ++ options ∧
        x ≠ "newton_solver" ∧ x ≠ "density_previous_solution" ∧ x ≠ "density_test_function" := by
      rcases hphys with rfl | rfl <;> simp [physExtrinsic, physNeutron, options]
    have hnod : phys.Nodup := by
      rcases hphys with rfl | rfl <;> simp [physExtrinsic, physNeutron]
    set kws' := (phys.filterMap fun x => (b x).map fun v => (x, v))
        ++ ((b "id").map fun v => ("id", v)).toList ++ extra with hkws'
    have hidp : "id" ∉ phys := fun hi => (hfresh _ hi).1 (by simp)
    have hkeys : (kws'.map (·.1)).Nodup := by
      rw [hkws', List.map_append, List.map_append]
      rw [List.nodup_append, List.nodup_append]
      refine ⟨⟨hnod.sublist (keys_sublist phys b), by cases b "id" <;> simp, ?_⟩, ?_, ?_⟩
      · intro y hy z hz hyz
        obtain ⟨q, hq, rfl⟩ := List.mem_map.1 hy
        obtain ⟨r, hr, e⟩ := List.mem_map.1 hz
        rw [hI r hr, ← hyz] at e
        exact hidp (e ▸ hP q hq)
      · rw [hex]
        exact hkws.sublist (List.filter_sublist.map _)
      · intro y hy z hz hyz
        subst hyz
        obtain ⟨r, hr, rfl⟩ := List.mem_map.1 hz
        refine hE r hr ?_
        rw [List.mem_append] at hy
        rcases hy with hy | hy
        · obtain ⟨q, hq, e⟩ := List.mem_map.1 hy
          rw [← e]
          simp [paramNames, hP q hq]
        · obtain ⟨q, hq, e⟩ := List.mem_map.1 hy
          rw [← e, hI q hq]
          simp [paramNames]
    unfold newBase at h
    cases hb' : bindCall sigBase [v1, v2, v3, v4, v5] kws' with
    | error e => rw [hb'] at h; cases h
    | ok r =>
      obtain ⟨b', extra'⟩ := r
      rw [hb'] at h
      dsimp only at h
      obtain ⟨_, _, _, hv', hex'⟩ := bind_ok hb'
      rw [names_base] at hex'
      simp only [names_base] at hv'
      cases hs : setKeywords conv
          ((setOptions b' (trapInit b' .emptyList)).set "newton_solver" .pyNone) extra' with
      | error e => rw [hs] at h; cases h
      | ok B =>
        rw [hs] at h
        cases h
        have hE' : ∀ kv ∈ extra',
            kv.1 ∉ ["k_0", "E_k", "p_0", "E_p", "materials", "id"] ++ options := by
          intro kv hkv
          rw [hex', List.mem_filter] at hkv
          simpa using hkv.2
        have hzip : (["k_0", "E_k", "p_0", "E_p", "materials", "id"] ++ options).zip
            [v1, v2, v3, v4, v5]
            = [("k_0", v1), ("E_k", v2), ("p_0", v3), ("E_p", v4), ("materials", v5)] := by
          simp [options]
        have hB : ∀ x ∈ ["k_0", "E_k", "p_0", "E_p", "materials", "id"] ++ options,
            B x = ((setOptions b' (trapInit b' .emptyList)).set "newton_solver" .pyNone) x :=
          fun x hx => setKeywords_other conv extra' _ B hs x fun kv hkv e => hE' kv hkv (e ▸ hx)
        refine ⟨?_, ?_, ?_⟩
        · have hraw : ∀ x v, x ∈ ["k_0", "E_k", "p_0", "E_p", "materials"] → b' x = some v →
              ((B.set "density_previous_solution" .pyNone).set "density_test_function" .pyNone) x
                = some (.raw v) := by
            intro x v hx hv
            have hx2 : x ∈ ["k_0", "E_k", "p_0", "E_p", "materials", "id"] ++ options := by
              simp only [List.mem_append, List.mem_cons, List.not_mem_nil, or_false] at hx ⊢
              tauto
            simp only [List.mem_cons, List.not_mem_nil, or_false] at hx
            rcases hx with rfl | rfl | rfl | rfl | rfl <;>
              simp [Attrs.set, hB _ hx2, setOptions, options, trapInit, hv, bound]
          intro x hx
          simp only [List.mem_cons, List.not_mem_nil, or_false] at hx
          rcases hx with rfl | rfl | rfl | rfl | rfl
          · exact ⟨v1, s1, hraw _ _ (by simp) (by rw [hv', supplied, hzip]; simp [List.lookup_cons])⟩
          · exact ⟨v2, s2, hraw _ _ (by simp) (by rw [hv', supplied, hzip]; simp [List.lookup_cons])⟩
          · exact ⟨v3, s3, hraw _ _ (by simp) (by rw [hv', supplied, hzip]; simp [List.lookup_cons])⟩
          · exact ⟨v4, s4, hraw _ _ (by simp) (by rw [hv', supplied, hzip]; simp [List.lookup_cons])⟩
          · exact ⟨v5, s5, hraw _ _ (by simp) (by rw [hv', supplied, hzip]; simp [List.lookup_cons])⟩
        · intro x hx
          obtain ⟨v, hv, hbx⟩ := hreq x (List.mem_append_right _ hx)
          obtain ⟨f1, f2, f3, f4⟩ := hfresh x hx
          refine ⟨v, hv, ?_⟩
          rw [set_other _ _ _ _ f4, set_other _ _ _ _ f3]
          refine setKeywords_found conv extra' _ B ?_ hs x v ?_
          · rw [hex']
            exact hkeys.sublist (List.filter_sublist.map _)
          · rw [hex', List.mem_filter]
            refine ⟨?_, by simpa using f1⟩
            rw [hkws', List.mem_append, List.mem_append]
            exact Or.inl (Or.inl (List.mem_filterMap.2 ⟨x, hx, by rw [hbx]; rfl⟩))
        · intro o ho
          have hop : o ∉ paramNames phys := by
            rcases hphys with rfl | rfl <;>
            · simp only [options, List.mem_cons, List.not_mem_nil, or_false] at ho
              rcases ho with rfl | rfl | rfl | rfl | rfl <;>
                simp [paramNames, physExtrinsic, physNeutron]
          have hb'o : b' o = kws.lookup o := by
            rw [hv', if_pos (List.mem_append_right _ ho), supplied, hzip, lookup_append_none,
              hkws', lookup_append_none, hex]
            · exact lookup_filter kws (fun y => !(paramNames phys).contains y) o (by simpa using hop)
            · intro kv hkv e
              apply hop
              rw [← e]
              rcases List.mem_append.1 hkv with hk | hk
              · simp [paramNames, hP kv hk]
              · simp [paramNames, hI kv hk]
            · intro kv hkv e
              apply hop
              rw [← e]
              simp only [List.mem_cons, List.not_mem_nil, or_false] at hkv
              rcases hkv with rfl | rfl | rfl | rfl | rfl <;> simp [paramNames]
          have hbound : bound o (b' o)
              = match kws.lookup o with | some v => .raw v | none => .default o := by
            rw [hb'o]
            cases kws.lookup o <;> rfl
          rw [← hbound]
          have ho2 := hB o (List.mem_append_right _ ho)
          simp only [options, List.mem_cons, List.not_mem_nil, or_false] at ho
          rcases ho with rfl | rfl | rfl | rfl | rfl <;>
            simp [Attrs.set, ho2, setOptions, options]

/-- **C116.** The keyword `newton_solver` is never accepted by the constructor. -/
theorem C116_newton_solver (phys : List String) (hphys : phys = physExtrinsic ∨ phys = physNeutron)
    (conv : V → Except PyErr Unit) (args : List V) (kws : List (String × V)) (v : V)
    (hk : ("newton_solver", v) ∈ kws) : ∃ e, newSub phys conv args kws = .error e := by
  cases hr : newSub phys conv args kws with
  | error e => exact ⟨e, rfl⟩
  | ok A =>
    exfalso
    unfold newSub at hr
    cases hb : bindCall (sigSub phys) args kws with
    | error e => rw [hb] at hr; cases hr
    | ok r =>
      obtain ⟨b, extra⟩ := r
      rw [hb] at hr
      dsimp only at hr
      obtain ⟨_, _, _, _, hex⟩ := bind_ok hb
      rw [names_sub] at hex
      unfold newBase at hr
      split at hr
      · cases hr
      · rename_i b' extra' hb'
        obtain ⟨_, _, _, _, hex'⟩ := bind_ok hb'
        rw [names_base] at hex'
        split at hr
        · cases hr
        · rename_i B hs
          have hmem : ("newton_solver", v) ∈ extra' := by
            rw [hex', List.mem_filter]
            refine ⟨List.mem_append_right _ ?_, by simp [options]⟩
            rw [hex, List.mem_filter]
            refine ⟨hk, ?_⟩
            rcases hphys with rfl | rfl <;> simp [paramNames, physExtrinsic, physNeutron]
          clear hex' hb' hr
          generalize ((setOptions b' (trapInit b' .emptyList)).set "newton_solver" .pyNone) = A0 at hs
          induction extra' generalizing A0 with
          | nil => cases hmem
          | cons kv l ih =>
            obtain ⟨_, h2, h3⟩ := setKeywords_cons conv A0 kv l B hs
            rcases List.mem_cons.1 hmem with e | hm
            · exact h2 (by rw [← e])
            · exact ih hm _ h3

/-! Concrete cases: a neutron-induced trap with an option and a misspelt option. -/

example : ∃ A : Attrs ℕ, newSub physNeutron (fun _ => .ok ()) [1, 2, 3, 4, 5]
    [("phi", 6), ("K", 7), ("n_max", 8), ("A_0", 9), ("E_A", 10), ("relative_tolerance", 11)] = .ok A ∧
    A "k_0" = some (.raw 1) ∧ A "phi" = some (.converted 6) ∧
    A "relative_tolerance" = some (.raw 11) ∧
    A "absolute_tolerance" = some (.default "absolute_tolerance") := by
  refine ⟨_, rfl, ?_⟩
  refine ⟨rfl, rfl, rfl, rfl⟩

/-- The misspelt option leaves the tolerance at its default. -/
example : ∃ A : Attrs ℕ, newSub physNeutron (fun _ => .ok ()) [1, 2, 3, 4, 5]
    [("phi", 6), ("K", 7), ("n_max", 8), ("A_0", 9), ("E_A", 10), ("relative_tol", 11)] = .ok A ∧
    A "relative_tolerance" = some (.default "relative_tolerance") := by
  refine ⟨_, rfl, rfl⟩

example : newTrap [1, 2, 3, 4, 5] [("density", 6), ("relative_tolerance", 11)]
    = .error (.typeError "unexpected keyword argument") := rfl

example : newSub physExtrinsic (fun _ : ℕ => .ok ()) [1, 2, 3, 4, 5]
    [("phi_0", 6), ("n_amax", 7), ("n_bmax", 8), ("eta_a", 9), ("eta_b", 10), ("f_a", 11)]
    = .error (.typeError "missing required argument") := rfl

end Festim.Keywords
