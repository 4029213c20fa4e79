import Verif.Spec.Traps
import Verif.Proofs.Forms

/-! # Lemmas about the trap equations -/

open scoped BigOperators

set_option linter.unusedSectionVars false

namespace Festim.Weak

section
variable {Ω Γ : Type} {d : ℕ}

theorem params_rates (trap : Trap Ω Γ d) (i : ℕ) (K : Kinetics Ω) (h : trap.params i = .ok K) :
    RatesAt trap i K.k K.Ek K.p K.Ep K.n := by
  unfold Trap.params at h
  cases hk : trap.k_0 with
  | num k =>
    right
    rw [hk] at h
    cases hd : trap.density with
    | nil => simp [hd, densityAt, bind, Except.bind] at h
    | cons n l =>
      cases hE : trap.E_k with
      | list l => simp [hd, hE, Param.asNum, densityAt, bind, Except.bind] at h
      | num Ek =>
        cases hp : trap.p_0 with
        | list l => simp [hd, hE, hp, Param.asNum, densityAt, bind, Except.bind] at h
        | num p =>
          cases hEp : trap.E_p with
          | list l => simp [hd, hE, hp, hEp, Param.asNum, densityAt, bind, Except.bind] at h
          | num Ep =>
            simp [hE, hp, hEp, hd, Param.asNum, densityAt, bind, Except.bind] at h
            subst h
            simp [hk]
  | list lk =>
    left
    rw [hk] at h
    cases hE : trap.E_k with
    | num Ek =>
      cases h1 : lk[i]? <;> simp [hE, h1, Param.index, bind, Except.bind] at h
    | list lE =>
      cases hp : trap.p_0 with
      | num p =>
        cases h1 : lk[i]? <;> cases h2 : lE[i]? <;>
          simp [hE, hp, h1, h2, Param.index, bind, Except.bind] at h
      | list lp =>
        cases hEp : trap.E_p with
        | num Ep =>
          cases h1 : lk[i]? <;> cases h2 : lE[i]? <;> cases h3 : lp[i]? <;>
            simp [hE, hp, hEp, h1, h2, h3, Param.index, bind, Except.bind] at h
        | list lEp =>
          cases h1 : lk[i]? <;> cases h2 : lE[i]? <;> cases h3 : lp[i]? <;>
            cases h4 : lEp[i]? <;> cases h5 : trap.density[i]? <;>
            simp [hE, hp, hEp, h1, h2, h3, h4, h5, Param.index, densityAt, bind, Except.bind] at h
          subst h
          exact ⟨lk, lE, lp, lEp, hk, rfl, rfl, rfl, h1, h2, h3, h4, rfl⟩

theorem rates_unique {trap : Trap Ω Γ d} {i : ℕ} {k Ek p Ep k' Ek' p' Ep' : ℝ} {n n' : Ω → ℝ}
    (h : RatesAt trap i k Ek p Ep n) (h' : RatesAt trap i k' Ek' p' Ep' n') :
    k = k' ∧ Ek = Ek' ∧ p = p' ∧ Ep = Ep' ∧ n = n' := by
  rcases h with ⟨l1, l2, l3, l4, a1, a2, a3, a4, b1, b2, b3, b4, b5⟩ | ⟨a1, a2, a3, a4, a5⟩ <;>
    rcases h' with ⟨m1, m2, m3, m4, c1, c2, c3, c4, d1, d2, d3, d4, d5⟩ | ⟨c1, c2, c3, c4, c5⟩
  · rw [a1] at c1; rw [a2] at c2; rw [a3] at c3; rw [a4] at c4
    cases c1; cases c2; cases c3; cases c4
    simp_all
  · rw [a1] at c1; cases c1
  · rw [a1] at c1; cases c1
  · rw [a1] at c1; rw [a2] at c2; rw [a3] at c3; rw [a4] at c4; rw [a5] at c5
    cases c1; cases c2; cases c3; cases c4
    simp_all

theorem same_mat {mats : List Mat} {a b : Mat} {i : ℕ} (hnd : (mats.flatMap (·.ids)).Nodup)
    (ha : a ∈ mats) (hb : b ∈ mats) (hia : i ∈ a.ids) (hib : i ∈ b.ids) : a = b := by
  induction mats with
  | nil => simp at ha
  | cons x l ih =>
    rw [List.flatMap_cons, List.nodup_append] at hnd
    rcases List.mem_cons.1 ha with h1 | h1 <;> rcases List.mem_cons.1 hb with h2 | h2
    · rw [h1, h2]
    · exact absurd rfl (hnd.2.2 _ (h1 ▸ hia) _ (List.mem_flatMap.2 ⟨b, h2, hib⟩))
    · exact absurd rfl (hnd.2.2 _ (h2 ▸ hib) _ (List.mem_flatMap.2 ⟨a, h1, hia⟩))
    · exact ih hnd.2.1 h1 h2

end

section
variable {Ω Γ : Type} [Fintype Ω] [Fintype Γ] {d : ℕ} (m : Mesh Ω Γ d)

theorem volumeIn_zero (ids : List ℕ) (f : Ω → ℝ) (h : ∀ p, m.vm p ∈ ids → f p = 0) :
    volumeIn m ids f = 0 := by
  unfold volumeIn
  apply Finset.sum_eq_zero
  intro p hp
  rw [h p (Finset.mem_filter.1 hp).2, mul_zero]

/-- A test function which vanishes on the materials of the trap sees no kinetics. -/
theorem trapLoop_outside (mv : Mobile Ω Γ d) (T : Temp Ω Γ d) (trap : Trap Ω Γ d) (v : Fld Ω Γ d)
    (ms : List Mat) (i : ℕ) (F : Form Ω Γ) (h : trapLoop mv T trap v i ms = .ok F)
    (hv : ∀ a ∈ ms, ∀ p, m.vm p ∈ a.ids → v.val p = 0) : m.assemble F = 0 := by
  induction ms generalizing i F with
  | nil => cases h; rfl
  | cons a ms ih =>
    simp only [trapLoop, bind, Except.bind] at h
    cases hp : trap.params i with
    | error e => rw [hp] at h; cases h
    | ok P =>
      rw [hp] at h
      simp only at h
      split_ifs at h
      cases hl : trapLoop mv T trap v (i + 1) ms with
      | error e => rw [hl] at h; cases h
      | ok G =>
        rw [hl] at h
        simp only [Except.ok.injEq] at h
        subst h
        rw [assemble_append, assemble_cons, assemble_cons, assemble_nil,
          ih _ _ hl fun b hb => hv b (List.mem_cons_of_mem _ hb), integrate_dxOn, integrate_dxOn,
          volumeIn_zero, volumeIn_zero]
        · ring
        · intro p hp; rw [hv a (List.mem_cons_self ..) p hp, mul_zero]
        · intro p hp; rw [hv a (List.mem_cons_self ..) p hp, mul_zero]

/-- Test function `1` at `p`, `0` elsewhere. -/
noncomputable def ind (p : Ω) : Fld Ω Γ d :=
  ⟨fun x => by classical exact if x = p then 1 else 0, fun _ _ => 0, fun _ => 0⟩

theorem ind_self (p : Ω) : (ind p : Fld Ω Γ d).val p = 1 := by simp [ind]

theorem ind_ne {p x : Ω} (h : x ≠ p) : (ind p : Fld Ω Γ d).val x = 0 := by simp [ind, h]

theorem volume_ind (p : Ω) (f : Ω → ℝ) :
    volume m (fun x => f x * (ind p : Fld Ω Γ d).val x) = m.w p * f p := by
  unfold volume
  rw [Finset.sum_eq_single p]
  · simp [ind_self]
  · intro x _ hx; simp [ind_ne hx]
  · intro h; exact absurd (Finset.mem_univ p) h

theorem volumeIn_ind (ids : List ℕ) (p : Ω) (f : Ω → ℝ) :
    volumeIn m ids (fun x => f x * (ind p : Fld Ω Γ d).val x)
      = if m.vm p ∈ ids then m.w p * f p else 0 := by
  unfold volumeIn
  rw [Finset.sum_filter, Finset.sum_eq_single p]
  · simp [ind_self]
  · intro x _ hx; simp [ind_ne hx]
  · intro h; exact absurd (Finset.mem_univ p) h

/-- The kinetics seen at one point, in the `j`-th material. -/
theorem trapLoop_at (mv : Mobile Ω Γ d) (T : Temp Ω Γ d) (trap : Trap Ω Γ d) (p : Ω)
    (ms : List Mat) (i : ℕ) (F : Form Ω Γ) (h : trapLoop mv T trap (ind p) i ms = .ok F)
    (hnd : (ms.flatMap (·.ids)).Nodup) (j : ℕ) (a : Mat) (hj : ms[j]? = some a)
    (ha : m.vm p ∈ a.ids) :
    ∃ K, trap.params (i + j) = .ok K ∧ ¬(mv.theta = true ∧ a.law = .henry) ∧
      m.assemble F = m.w p *
        (-(arr K.k K.Ek (T.T.val p) * physConc mv.theta a (T.T.val p) (mv.sol.val p)
            * (K.n p - trap.sol.val p)) + arr K.p K.Ep (T.T.val p) * trap.sol.val p) := by
  induction ms generalizing i F j with
  | nil => simp at hj
  | cons b ms ih =>
    simp only [trapLoop, bind, Except.bind] at h
    cases hp : trap.params i with
    | error e => rw [hp] at h; cases h
    | ok P =>
      rw [hp] at h
      simp only at h
      split_ifs at h with hth
      cases hl : trapLoop mv T trap (ind p) (i + 1) ms with
      | error e => rw [hl] at h; cases h
      | ok G =>
        rw [hl] at h
        simp only [Except.ok.injEq] at h
        subst h
        rw [List.flatMap_cons, List.nodup_append] at hnd
        rw [assemble_append, assemble_cons, assemble_cons, assemble_nil, integrate_dxOn,
          integrate_dxOn, volumeIn_ind, volumeIn_ind]
        cases j with
        | zero =>
          simp only [List.getElem?_cons_zero, Option.some.injEq] at hj
          subst hj
          refine ⟨P, hp, hth, ?_⟩
          rw [trapLoop_outside m mv T trap (ind p) ms (i + 1) G hl, conc_val]
          · simp only [ha, if_true, arr]; ring
          · intro c hc x hx
            apply ind_ne
            rintro rfl
            exact hnd.2.2 _ ha _ (List.mem_flatMap.2 ⟨c, hc, hx⟩) rfl
        | succ j =>
          rw [List.getElem?_cons_succ] at hj
          obtain ⟨K, hK, hth', e⟩ := ih (i + 1) G hl hnd.2.1 j hj
          refine ⟨K, by rw [← hK]; congr 1; omega, hth', ?_⟩
          have : m.vm p ∉ b.ids := fun hb =>
            hnd.2.2 _ hb _ (List.mem_flatMap.2 ⟨a, List.mem_of_getElem? hj, ha⟩) rfl
          rw [e]
          simp [this]

theorem trapSupply_eq (trap : Trap Ω Γ d) (p : Ω) :
    (trap.sources.map fun s => volumeIn m s.volumes fun x =>
        s.at trap.sol.val x * (ind p : Fld Ω Γ d).val x).sum = m.w p * trapSupply m trap p := by
  unfold trapSupply
  simp only [volumeIn_ind, srcAt_eq]
  induction trap.sources with
  | nil => simp
  | cons s l ih =>
    rw [List.map_cons, List.sum_cons, ih, List.map_cons, List.sum_cons, mul_add]
    congr 1
    split_ifs <;> ring

end

end Festim.Weak
