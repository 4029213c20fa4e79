import Verif.Spec.Over
import Verif.Proofs.Forms

/-! # Lemmas for C107 -/

open scoped BigOperators

set_option linter.unusedSectionVars false

namespace Festim.Weak

section
variable {Ω Γ Ω' Γ' : Type} [Fintype Ω] [Fintype Γ] [Fintype Ω'] [Fintype Γ'] [DecidableEq Ω] [DecidableEq Γ] {d d' : ℕ}
  {m : Mesh Ω Γ d} {m' : Mesh Ω' Γ' d'} {O : Over m m'}

/-! ### Fields -/

theorem dot_quot {n : ℕ} (a g h : Fin n → ℝ) (x y z : ℝ) :
    dot a (fun i => (g i * x - y * h i) / z) = (x * dot a g - y * dot a h) / z := by
  simp only [dot, Finset.mul_sum, ← Finset.sum_sub_distrib, div_eq_mul_inv, Finset.sum_mul]
  exact Finset.sum_congr rfl fun i _ => by ring

theorem Over.dir_smul (p : Ω') (k : ℝ) (a : Fin d → ℝ) : O.dir p (fun i => k * a i) = fun i => k * O.dir p a i := by
  have := (O.dir p).map_smul k a
  exact this

theorem Over.fld_const (a : ℝ) : O.fld (Fld.const a) = Fld.const a := by
  simp only [Over.fld, Fld.const]
  congr 1
  funext p
  exact (O.dir p).map_zero

theorem Over.fld_mul (u v : Fld Ω Γ d) : O.fld (u * v) = O.fld u * O.fld v := by
  show Over.fld O ⟨_, _, _⟩ = (⟨_, _, _⟩ : Fld Ω' Γ' d')
  simp only [Over.fld]
  congr 1
  funext p i
  have : (fun i => u.grad (O.pt p) i * v.val (O.pt p) + u.val (O.pt p) * v.grad (O.pt p) i) =
      v.val (O.pt p) • u.grad (O.pt p) + u.val (O.pt p) • v.grad (O.pt p) := by
    funext i; simp [mul_comm]
  rw [this, map_add, map_smul, map_smul]
  simp [mul_comm]

theorem Over.fld_div (u v : Fld Ω Γ d) : O.fld (u / v) = O.fld u / O.fld v := by
  show Over.fld O ⟨_, _, _⟩ = (⟨_, _, _⟩ : Fld Ω' Γ' d')
  simp only [Over.fld]
  congr 1
  funext p i
  have : (fun i => (u.grad (O.pt p) i * v.val (O.pt p) - u.val (O.pt p) * v.grad (O.pt p) i) / v.val (O.pt p) ^ 2) =
      (v.val (O.pt p) / v.val (O.pt p) ^ 2) • u.grad (O.pt p) - (u.val (O.pt p) / v.val (O.pt p) ^ 2) • v.grad (O.pt p) := by
    funext i; simp; ring
  rw [this, map_sub, map_smul, map_smul]
  simp; ring

theorem Over.fld_exp (u : Fld Ω Γ d) : O.fld u.exp = (O.fld u).exp := by
  simp only [Over.fld, Fld.exp]
  congr 1
  funext p
  exact Over.dir_smul p _ _

theorem Over.fld_sq (u : Fld Ω Γ d) : O.fld u.sq = (O.fld u).sq := by
  simp only [Over.fld, Fld.sq]
  congr 1
  funext p
  exact Over.dir_smul p _ _

theorem Over.fld_arrhenius (A E : ℝ) (T : Fld Ω Γ d) : O.fld (arrhenius A E T) = arrhenius A E (O.fld T) := by
  unfold arrhenius
  rw [Over.fld_mul, Over.fld_exp, Over.fld_div, Over.fld_const, Over.fld_const]

theorem Over.conc (mv : Mobile Ω Γ d) (a : Mat) (T : Temp Ω Γ d) :
    (O.mobile mv).conc a (O.temp T) = (O.fld (mv.conc a T).1, O.fld (mv.conc a T).2) := by
  unfold Mobile.conc
  show (if mv.theta then _ else _) = _
  cases mv.theta with
  | false => rfl
  | true =>
    simp only [if_true]
    cases a.law with
    | sievert =>
      dsimp only [Over.mobile, Over.temp]
      rw [Over.fld_mul, Over.fld_mul, Over.fld_arrhenius, Over.fld_arrhenius]
    | henry =>
      dsimp only [Over.mobile, Over.temp]
      rw [Over.fld_mul, Over.fld_mul, Over.fld_arrhenius, Over.fld_arrhenius, Over.fld_sq, Over.fld_sq]

theorem Over.mobileConc (mats : List Mat) (mv : Mobile Ω Γ d) (p : Ω') :
    (O.mobile mv).mobileConc m' mats p = mv.mobileConc m mats (O.pt p) := by
  unfold Mobile.mobileConc
  rw [O.vm]
  rfl

theorem Over.mobileConcS (mats : List Mat) (mv : Mobile Ω Γ d) (q : Γ') :
    (O.mobile mv).mobileConcS m' mats q = mv.mobileConcS m mats (O.ptS q) := by
  unfold Mobile.mobileConcS
  rw [O.vmS]
  rfl

/-! ### Integrals -/

/-- A function of the points above gathered below. -/
def Over.GV (O : Over m m') (g' : Ω' → ℝ) (g : Ω → ℝ) : Prop :=
  ∀ p, m.w p * g p = ∑ p', if O.pt p' = p then m'.w p' * g' p' else 0

def Over.GS (O : Over m m') (s : ℕ) (g' : Γ' → ℝ) (g : Γ → ℝ) : Prop :=
  ∀ q, m.sm q = s → m.ws q * g q = ∑ q', if O.ptS q' = q then m'.ws q' * g' q' else 0

theorem Over.GV.mul {g' : Ω' → ℝ} {g : Ω → ℝ} (h : O.GV g' g) (a : Ω → ℝ) {f' : Ω' → ℝ} {f : Ω → ℝ}
    (hf' : ∀ p, f' p = a (O.pt p) * g' p) (hf : ∀ p, f p = a p * g p) : O.GV f' f := by
  intro p
  rw [hf, show m.w p * (a p * g p) = a p * (m.w p * g p) by ring, h p, Finset.mul_sum]
  refine Finset.sum_congr rfl fun p' _ => ?_
  by_cases hp : O.pt p' = p
  · rw [if_pos hp, if_pos hp, hf', hp]; ring
  · rw [if_neg hp, if_neg hp, mul_zero]

theorem Over.GS.mul {s : ℕ} {g' : Γ' → ℝ} {g : Γ → ℝ} (h : O.GS s g' g) (a : Γ → ℝ) {f' : Γ' → ℝ} {f : Γ → ℝ}
    (hf' : ∀ q, f' q = a (O.ptS q) * g' q) (hf : ∀ q, f q = a q * g q) : O.GS s f' f := by
  intro p hs
  rw [hf, show m.ws p * (a p * g p) = a p * (m.ws p * g p) by ring, h p hs, Finset.mul_sum]
  refine Finset.sum_congr rfl fun p' _ => ?_
  by_cases hp : O.ptS p' = p
  · rw [if_pos hp, if_pos hp, hf', hp]; ring
  · rw [if_neg hp, if_neg hp, mul_zero]

theorem Over.GV.dxOn {g' : Ω' → ℝ} {g : Ω → ℝ} (h : O.GV g' g) (ids : List ℕ) :
    m'.integrate (.dxOn ids g') = m.integrate (.dxOn ids g) := by
  simp only [Mesh.integrate]
  have : ∀ p, (if m.vm p ∈ ids then m.w p * g p else 0) =
      ∑ p', if p = O.pt p' then (if m'.vm p' ∈ ids then m'.w p' * g' p' else 0) else 0 := by
    intro p
    rw [h p]
    by_cases hp : m.vm p ∈ ids
    · rw [if_pos hp]
      refine Finset.sum_congr rfl fun p' _ => ?_
      by_cases hq : p = O.pt p'
      · subst hq; rw [if_pos rfl, if_pos rfl, O.vm, if_pos hp]
      · rw [if_neg hq, if_neg fun e => hq e.symm]
    · rw [if_neg hp]
      refine (Finset.sum_eq_zero fun p' _ => ?_).symm
      by_cases hq : p = O.pt p'
      · subst hq; rw [if_pos rfl, O.vm, if_neg hp]
      · rw [if_neg hq]
  simp only [this]
  rw [Finset.sum_comm]
  simp

theorem Over.GV.dx {g' : Ω' → ℝ} {g : Ω → ℝ} (h : O.GV g' g) : m'.integrate (.dx g') = m.integrate (.dx g) := by
  simp only [Mesh.integrate]
  rw [Finset.sum_congr rfl fun p _ => h p, Finset.sum_comm]
  simp

theorem Over.GS.ds {s : ℕ} {g' : Γ' → ℝ} {g : Γ → ℝ} (h : O.GS s g' g) : m'.integrate (.ds s g') = m.integrate (.ds s g) := by
  simp only [Mesh.integrate]
  have : ∀ p, (if m.sm p = s then m.ws p * g p else 0) =
      ∑ p', if p = O.ptS p' then (if m'.sm p' = s then m'.ws p' * g' p' else 0) else 0 := by
    intro p
    by_cases hp : m.sm p = s
    · rw [if_pos hp, h p hp]
      refine Finset.sum_congr rfl fun p' _ => ?_
      by_cases hq : p = O.ptS p'
      · subst hq; rw [if_pos rfl, if_pos rfl, O.sm, if_pos hp]
      · rw [if_neg hq, if_neg fun e => hq e.symm]
    · rw [if_neg hp]
      refine (Finset.sum_eq_zero fun p' _ => ?_).symm
      by_cases hq : p = O.ptS p'
      · subst hq; rw [if_pos rfl, O.sm, if_neg hp]
      · rw [if_neg hq]
  simp only [this]
  rw [Finset.sum_comm]
  simp

section
variable {ss : List ℕ} {v' : Fld Ω' Γ' d'} {v : Fld Ω Γ d}

theorem Over.Gathers.vals (h : O.Gathers ss v' v) : O.GV v'.val v.val := h.val

theorem Over.Gathers.s (h : O.Gathers ss v' v) {s : ℕ} (hs : s ∈ ss) : O.GS s v'.tr v.tr := fun q hq => h.tr q (hq ▸ hs)

/-- Products with gradients. -/
theorem Over.Gathers.g (h : O.Gathers ss v' v) (a : Ω → Fin d → ℝ) :
    O.GV (fun p => dot (O.dir p (a (O.pt p))) (v'.grad p)) (fun p => dot (a p) (v.grad p)) := by
  intro p
  rw [h.grad p (a p)]
  refine Finset.sum_congr rfl fun p' _ => ?_
  by_cases hp : O.pt p' = p
  · rw [if_pos hp, if_pos hp]; dsimp only; rw [hp]
  · rw [if_neg hp, if_neg hp]

theorem Over.Gathers.div (h : O.Gathers [] v' v) (hc : m.type ≠ .cartesian) : O.Gathers [] (v' / m'.r) (v / m.r) := by
  refine ⟨?_, ?_, fun q hq => by cases hq⟩
  · exact h.vals.mul (fun p => (m.r.val p)⁻¹) (fun p => by show v'.val p / m'.r.val p = _; rw [O.r_val hc]; ring)
      (fun p => by show v.val p / m.r.val p = _; ring)
  · intro p a
    have e : dot a ((v / m.r).grad p) =
        (m.r.val p * dot a (v.grad p) - v.val p * dot a (m.r.grad p)) / m.r.val p ^ 2 := dot_quot _ _ _ _ _ _
    have e' : ∀ p', dot (O.dir p' a) ((v' / m'.r).grad p') =
        (m'.r.val p' * dot (O.dir p' a) (v'.grad p') - v'.val p' * dot (O.dir p' a) (m'.r.grad p')) / m'.r.val p' ^ 2 :=
      fun p' => dot_quot _ _ _ _ _ _
    rw [e, show m.w p * ((m.r.val p * dot a (v.grad p) - v.val p * dot a (m.r.grad p)) / m.r.val p ^ 2) =
      m.r.val p / m.r.val p ^ 2 * (m.w p * dot a (v.grad p)) - dot a (m.r.grad p) / m.r.val p ^ 2 * (m.w p * v.val p) by ring,
      h.grad p a, h.val p, Finset.mul_sum, Finset.mul_sum, ← Finset.sum_sub_distrib]
    refine Finset.sum_congr rfl fun p' _ => ?_
    by_cases hp : O.pt p' = p
    · rw [if_pos hp, if_pos hp, if_pos hp, e', O.r_val hc, O.r_grad hc, O.dir_dot, hp]
      ring
    · rw [if_neg hp, if_neg hp, if_neg hp]; ring

theorem Over.Gathers.mono {ss' : List ℕ} (h : O.Gathers ss v' v) (hs : ∀ s ∈ ss', s ∈ ss) : O.Gathers ss' v' v :=
  ⟨h.val, h.grad, fun q hq => h.tr q (hs _ hq)⟩

end

/-- The same failure, or forms with the same value. -/
def Same (m : Mesh Ω Γ d) (m' : Mesh Ω' Γ' d') (x : Except PyErr (Form Ω Γ)) (x' : Except PyErr (Form Ω' Γ')) : Prop :=
  (∃ e, x = .error e ∧ x' = .error e) ∨ ∃ F F', x = .ok F ∧ x' = .ok F' ∧ m'.assemble F' = m.assemble F

theorem same_bind {x : Except PyErr (Form Ω Γ)} {x' : Except PyErr (Form Ω' Γ')} {f : Form Ω Γ → Except PyErr (Form Ω Γ)}
    {f' : Form Ω' Γ' → Except PyErr (Form Ω' Γ')} (h : Same m m' x x')
    (hf : ∀ F F', m'.assemble F' = m.assemble F → Same m m' (f F) (f' F')) : Same m m' (x >>= f) (x' >>= f') := by
  rcases h with ⟨e, rfl, rfl⟩ | ⟨F, F', rfl, rfl, h⟩
  · exact .inl ⟨e, rfl, rfl⟩
  · exact hf F F' h

theorem same_ok {F : Form Ω Γ} {F' : Form Ω' Γ'} (h : m'.assemble F' = m.assemble F) : Same m m' (.ok F) (.ok F') :=
  .inr ⟨F, F', rfl, rfl, h⟩

/-! ### The equations -/

variable {ss : List ℕ} {v' : Fld Ω' Γ' d'} {v : Fld Ω Γ d}

theorem over_subdomain (h : O.Gathers [] v' v) (a : Mat) (c cn : Fld Ω Γ d) (T : Temp Ω Γ d) (dt : Option ℝ) (soret : Bool)
    (i : ℕ) :
    m'.assemble (subdomainForm m' a (O.fld c) (O.fld cn) (O.temp T) dt soret v' i) =
      m.assemble (subdomainForm m a c cn T dt soret v i) := by
  unfold subdomainForm
  rw [assemble_append, assemble_append, O.type]
  congr 1
  · cases dt with
    | none => rfl
    | some h0 =>
      simp only [assemble_cons, assemble_nil]
      congr 1
      exact Over.GV.dxOn (h.vals.mul (fun p => (c.val p - cn.val p) / h0) (fun p => rfl) fun p => rfl) _
  · cases hty : m.type with
    | other => rfl
    | cartesian =>
      dsimp only
      rw [assemble_append, assemble_append]
      congr 1
      · simp only [assemble_cons, assemble_nil]
        congr 1
        refine Over.GV.dxOn (O := O) ?_ _
        have := h.g fun p i => a.D_0 * Real.exp (-a.E_D / kB / T.T.val p) * c.grad p i
        simp only [Over.dir_smul] at this
        exact this
      · cases soret with
        | false => rfl
        | true =>
          simp only [assemble_cons, assemble_nil, if_true]
          congr 1
          refine Over.GV.dxOn (O := O) ?_ _
          have := h.g fun p i => a.D_0 * Real.exp (-a.E_D / kB / T.T.val p) * a.Q (T.T.val p) * c.val p /
            (kB * T.T.val p ^ 2) * T.T.grad p i
          simp only [Over.dir_smul] at this
          exact this
    | cylindrical =>
      have hc : m.type ≠ .cartesian := by rw [hty]; simp
      dsimp only
      rw [assemble_append, assemble_append]
      congr 1
      · simp only [assemble_cons, assemble_nil]
        congr 1
        refine Over.GV.dxOn (O := O) ?_ _
        have := (h.div hc).g fun p i => a.D_0 * Real.exp (-a.E_D / kB / T.T.val p) * c.grad p i
        simp only [Over.dir_smul] at this
        exact this.mul (fun p => m.r.val p) (fun p => by rw [O.r_val hc]; rfl) fun p => rfl
      · cases soret with
        | false => rfl
        | true =>
          simp only [assemble_cons, assemble_nil, if_true]
          congr 1
          refine Over.GV.dxOn (O := O) ?_ _
          have := (h.div hc).g fun p i => a.D_0 * Real.exp (-a.E_D / kB / T.T.val p) * a.Q (T.T.val p) * c.val p /
            (kB * T.T.val p ^ 2) * T.T.grad p i
          simp only [Over.dir_smul] at this
          exact this.mul (fun p => m.r.val p) (fun p => by rw [O.r_val hc]; rfl) fun p => rfl
    | spherical =>
      have hc : m.type ≠ .cartesian := by rw [hty]; simp
      dsimp only
      rw [assemble_append, assemble_append]
      congr 1
      · simp only [assemble_cons, assemble_nil]
        congr 1
        refine Over.GV.dxOn (O := O) ?_ _
        have := ((h.div hc).div hc).g fun p i => c.grad p i
        exact this.mul (fun p => a.D_0 * Real.exp (-a.E_D / kB / T.T.val p) * m.r.val p * m.r.val p)
          (fun p => by rw [O.r_val hc]; rfl) fun p => rfl
      · cases soret with
        | false => rfl
        | true =>
          simp only [assemble_cons, assemble_nil, if_true]
          congr 1
          refine Over.GV.dxOn (O := O) ?_ _
          have := ((h.div hc).div hc).g fun p i => a.Q (T.T.val p) * c.val p / (kB * T.T.val p ^ 2) * T.T.grad p i
          simp only [Over.dir_smul] at this
          exact this.mul (fun p => a.D_0 * Real.exp (-a.E_D / kB / T.T.val p) * m.r.val p * m.r.val p)
            (fun p => by rw [O.r_val hc]; rfl) fun p => rfl

/-- Parameters of a trap above. -/
def Over.kin (O : Over m m') (K : Kinetics Ω) : Kinetics Ω' := ⟨K.k, K.Ek, K.p, K.Ep, fun p => K.n (O.pt p)⟩

theorem over_density (l : List (Ω → ℝ)) (i : ℕ) :
    densityAt (l.map fun n p => n (O.pt p)) i = (densityAt l i).map fun n p => n (O.pt p) := by
  unfold densityAt
  rw [List.getElem?_map]
  cases l[i]? <;> rfl

theorem over_paramsMobile (t : Trap Ω Γ d) (i : ℕ) : (O.trap t).paramsMobile i = (t.paramsMobile i).map O.kin := by
  obtain ⟨k, ek, p, ep, n, ms, so, pr, sr⟩ := t
  cases k with
  | num x =>
    simp only [Trap.paramsMobile, Over.trap, over_density]
    cases densityAt n 0 with
    | error e => rfl
    | ok g => cases ek <;> cases p <;> cases ep <;> rfl
  | list l =>
    simp only [Trap.paramsMobile, Over.trap, over_density]
    cases (Param.list l).index i with
    | error e => rfl
    | ok a1 => cases ek.index i with
      | error e => rfl
      | ok a2 => cases p.index i with
        | error e => rfl
        | ok a3 => cases ep.index i with
          | error e => rfl
          | ok a4 => cases densityAt n i <;> rfl

theorem over_params (t : Trap Ω Γ d) (i : ℕ) : (O.trap t).params i = (t.params i).map O.kin := by
  obtain ⟨k, ek, p, ep, n, ms, so, pr, sr⟩ := t
  cases k with
  | num x =>
    simp only [Trap.params, Over.trap, over_density]
    cases densityAt n 0 with
    | error e => rfl
    | ok g => cases ek <;> cases p <;> cases ep <;> rfl
  | list l =>
    simp only [Trap.params, Over.trap, over_density]
    cases (Param.list l).index i with
    | error e => rfl
    | ok a1 => cases ek.index i with
      | error e => rfl
      | ok a2 => cases p.index i with
        | error e => rfl
        | ok a3 => cases ep.index i with
          | error e => rfl
          | ok a4 => cases densityAt n i <;> rfl

theorem over_mobileTrapLoop (h : O.Gathers [] v' v) (mv : Mobile Ω Γ d) (T : Temp Ω Γ d) (t : Trap Ω Γ d) (mats : List Mat) :
    ∀ i, Same m m' (mobileTrapLoop mv T t v i mats) (mobileTrapLoop (O.mobile mv) (O.temp T) (O.trap t) v' i mats) := by
  induction mats with
  | nil => intro i; exact same_ok rfl
  | cons a mats ih =>
    intro i
    unfold mobileTrapLoop
    rw [over_paramsMobile, Over.conc]
    cases t.paramsMobile i with
    | error e => exact .inl ⟨e, rfl, rfl⟩
    | ok P =>
      refine same_bind (ih (i + 1)) fun F F' hF => same_ok ?_
      simp only [assemble_append, assemble_cons, assemble_nil, hF]
      congr 1
      congr 1
      · exact Over.GV.dxOn (h.vals.mul (fun p => -P.k * Real.exp (-P.Ek / kB / T.T.val p) * (mv.conc a T).1.val p *
          (P.n p - t.sol.val p)) (fun p => rfl) fun p => rfl) _
      · congr 1
        exact Over.GV.dxOn (h.vals.mul (fun p => P.p * Real.exp (-P.Ep / kB / T.T.val p) * t.sol.val p)
          (fun p => rfl) fun p => rfl) _

theorem over_trapLoop (h : O.Gathers [] v' v) (mv : Mobile Ω Γ d) (T : Temp Ω Γ d) (t : Trap Ω Γ d) (mats : List Mat) :
    ∀ i, Same m m' (trapLoop mv T t v i mats) (trapLoop (O.mobile mv) (O.temp T) (O.trap t) v' i mats) := by
  induction mats with
  | nil => intro i; exact same_ok rfl
  | cons a mats ih =>
    intro i
    unfold trapLoop
    rw [over_params, Over.conc]
    cases t.params i with
    | error e => exact .inl ⟨e, rfl, rfl⟩
    | ok P =>
      dsimp only [bind, Except.bind, Except.map]
      by_cases hh : mv.theta = true ∧ a.law = .henry
      · have h1 : (O.mobile mv).theta = true ∧ a.law = .henry := hh
        rw [if_pos hh, if_pos h1]
        exact .inl ⟨_, rfl, rfl⟩
      · have h1 : ¬((O.mobile mv).theta = true ∧ a.law = .henry) := hh
        rw [if_neg hh, if_neg h1]
        refine same_bind (ih (i + 1)) fun F F' hF => same_ok ?_
        simp only [assemble_append, assemble_cons, assemble_nil, hF]
        congr 1
        congr 1
        · exact Over.GV.dxOn (h.vals.mul (fun p => -P.k * Real.exp (-P.Ek / kB / T.T.val p) * (mv.conc a T).1.val p *
            (P.n p - t.sol.val p)) (fun p => rfl) fun p => rfl) _
        · congr 1
          exact Over.GV.dxOn (h.vals.mul (fun p => P.p * Real.exp (-P.Ep / kB / T.T.val p) * t.sol.val p)
            (fun p => rfl) fun p => rfl) _

theorem over_mobileTraps (h : O.Gathers [] v' v) (mv : Mobile Ω Γ d) (T : Temp Ω Γ d) (traps : List (Trap Ω Γ d)) :
    Same m m' (mobileTraps mv T v traps) (mobileTraps (O.mobile mv) (O.temp T) v' (traps.map O.trap)) := by
  induction traps with
  | nil => exact same_ok rfl
  | cons t l ih =>
    rw [List.map_cons]
    unfold mobileTraps
    refine same_bind (over_mobileTrapLoop h mv T t t.materials 0) fun F F' hF => same_bind ih fun G G' hG => same_ok ?_
    rw [assemble_append, assemble_append, hF, hG]

theorem over_srcAt (s : Src Ω) (c : Ω → ℝ) (c' : Ω' → ℝ) (hc : ∀ p, c' p = c (O.pt p)) (p : Ω') :
    (O.src s).at c' p = s.at c (O.pt p) := by
  obtain ⟨val, vols⟩ := s
  cases val with
  | given f => rfl
  | decay lam => show -lam * c' p = -lam * c (O.pt p); rw [hc]

theorem over_source (h : O.Gathers [] v' v) (mats : List Mat) (mv : Mobile Ω Γ d) (l : List (Src Ω)) :
    m'.assemble (sourceForm m' mats (O.mobile mv) (l.map O.src) v') = m.assemble (sourceForm m mats mv l v) := by
  unfold sourceForm
  rw [assemble_flatMap, assemble_flatMap, List.map_map]
  congr 1
  refine List.map_congr_left fun s _ => ?_
  show m'.assemble (s.volumes.map _) = _
  rw [assemble_map, assemble_map]
  congr 1
  refine List.map_congr_left fun i _ => ?_
  exact Over.GV.dxOn (h.vals.mul (fun p => -s.at (mv.mobileConc m mats) p)
    (fun p => by rw [over_srcAt s _ _ fun p => Over.mobileConc mats mv p]) fun p => rfl) _

theorem over_trapForm (h : O.Gathers [] v' v) (mats : List Mat) (mv : Mobile Ω Γ d) (T : Temp Ω Γ d) (dt : Option ℝ)
    (t : Trap Ω Γ d) :
    Same m m' (trapForm mats mv T dt t v) (trapForm mats (O.mobile mv) (O.temp T) dt (O.trap t) v') := by
  unfold trapForm trappingForm
  refine same_bind (same_bind (over_trapLoop h mv T t t.materials 0) fun F F' hF => same_ok ?_) fun F F' hF => same_ok ?_
  · rw [assemble_append, assemble_append, hF]
    congr 1
    cases dt with
    | some h0 =>
      simp only [assemble_cons, assemble_nil]
      congr 1
      exact Over.GV.dx (h.vals.mul (fun p => (t.sol.val p - t.prev.val p) / h0) (fun p => rfl) fun p => rfl)
    | none =>
      dsimp only
      rw [assemble_map, assemble_map]
      show ((mats.filter fun a => a.uid ∉ t.materials.map (·.uid)).map _).sum = _
      congr 1
      refine List.map_congr_left fun a _ => ?_
      exact Over.GV.dxOn (h.vals.mul (fun p => t.sol.val p) (fun p => rfl) fun p => rfl) _
  · rw [assemble_append, assemble_append, hF]
    congr 1
    unfold trapSourceForm
    rw [assemble_map, assemble_map, show (O.trap t).sources = t.sources.map O.src from rfl, List.map_map]
    congr 1
    refine List.map_congr_left fun s _ => ?_
    exact Over.GV.dxOn (h.vals.mul (fun p => -s.at t.sol.val p)
      (fun p => by rw [over_srcAt s t.sol.val (O.trap t).sol.val fun p => rfl]) fun p => rfl) _

theorem over_trapsForm (mats : List Mat) (mv : Mobile Ω Γ d) (T : Temp Ω Γ d) (dt : Option ℝ) {vt' : List (Fld Ω' Γ' d')}
    {vt : List (Fld Ω Γ d)} (ht : List.Forall₂ (O.Gathers []) vt' vt) (traps : List (Trap Ω Γ d)) :
    Same m m' (trapsForm mats mv T dt (traps.zip vt))
      (trapsForm mats (O.mobile mv) (O.temp T) dt ((traps.map O.trap).zip vt')) := by
  induction ht generalizing traps with
  | nil => simp only [List.zip_nil_right]; exact same_ok rfl
  | cons hv _ ih =>
    cases traps with
    | nil => exact same_ok rfl
    | cons t l =>
      rw [List.map_cons, List.zip_cons_cons, List.zip_cons_cons]
      unfold trapsForm
      refine same_bind (over_trapForm hv mats mv T dt t) fun F F' hF => same_bind (ih l) fun G G' hG => same_ok ?_
      rw [assemble_append, assemble_append, hF, hG]

theorem over_fluxForm (f : Flux Γ) (T c : Γ → ℝ) (T' c' : Γ' → ℝ) (hT : ∀ q, T' q = T (O.ptS q)) (hc : ∀ q, c' q = c (O.ptS q))
    (q : Γ') : (O.flux f).form T' c' q = f.form T c (O.ptS q) := by
  cases f <;> simp only [Over.flux, Flux.form, hT, hc]

theorem over_sk (b : SK Γ) (k : ℕ → ℝ) (hk : ∀ s ∈ b.surfaces, O.Copies k s.id) (c cp T : Γ → ℝ) (c' cp' T' : Γ' → ℝ)
    (hc : ∀ q, c' q = c (O.ptS q)) (hp : ∀ q, cp' q = cp (O.ptS q)) (hT : ∀ q, T' q = T (O.ptS q))
    (hv : ∀ s ∈ b.surfaces, O.GS s.id v'.tr v.tr) (dt : Option ℝ) (vs : List ℝ) :
    m'.assemble ((O.sk b).form c' cp' v'.tr T' dt vs) =
      m.assemble (b.form c cp v.tr T dt (List.zipWith (fun s x => k s.id * x) b.surfaces vs)) := by
  obtain ⟨k1, k2, k3, la, ns, ni, surfs⟩ := b
  unfold SK.form
  dsimp only [Over.sk] at hk hv ⊢
  induction surfs generalizing vs with
  | nil => rfl
  | cons s l ih =>
    cases vs with
    | nil => rfl
    | cons x vs =>
      rw [List.zipWith_cons_cons, List.zip_cons_cons, List.zip_cons_cons, List.flatMap_cons, List.flatMap_cons,
        assemble_append, assemble_append]
      have e := ih vs (fun s hs => hk s (List.mem_cons_of_mem _ hs)) (fun s hs => hv s (List.mem_cons_of_mem _ hs))
      have h1 : O.GS s.id (fun _ => x) (fun _ => k s.id * x) := by
        intro q hq
        have := hk s List.mem_cons_self q hq
        rw [show m.ws q * (k s.id * x) = (k s.id * m.ws q) * x by ring, ← this, Finset.sum_mul]
        refine Finset.sum_congr rfl fun q' _ => ?_
        by_cases h0 : O.ptS q' = q
        · rw [if_pos h0, if_pos h0]
        · rw [if_neg h0, if_neg h0, zero_mul]
      have h2 := hv s List.mem_cons_self
      congr 1
      · unfold SK.surfForm
        rw [assemble_append, assemble_append]
        congr 1
        · cases dt with
          | none => rfl
          | some h0 =>
            simp only [assemble_cons, assemble_nil]
            congr 1
            · exact Over.GS.ds (h1.mul (fun q => (s.sol - s.prev) / h0) (fun q => rfl) fun q => rfl)
            · congr 1
              exact Over.GS.ds (h2.mul (fun q => la * (c q - cp q) / h0) (fun q => by rw [hc, hp]) fun q => rfl)
        · simp only [assemble_cons, assemble_nil]
          congr 1
          · refine Over.GS.ds (h1.mul (fun q => -(k3 q (T q) s.sol (c q) +
              SK.Jbs ⟨k1, k2, k3, la, ns, ni, s :: l⟩ T c s.sol q - SK.Jsb ⟨k1, k2, k3, la, ns, ni, s :: l⟩ T c s.sol q))
              (fun q => ?_) fun q => rfl)
            simp only [SK.Jbs, SK.Jsb, hc, hT]
          · congr 1
            refine Over.GS.ds (h2.mul (fun q =>
              SK.Jbs ⟨k1, k2, k3, la, ns, ni, s :: l⟩ T c s.sol q - SK.Jsb ⟨k1, k2, k3, la, ns, ni, s :: l⟩ T c s.sol q)
              (fun q => ?_) fun q => rfl)
            simp only [SK.Jbs, SK.Jsb, hc, hT]

theorem over_fluxes (h : O.Gathers ss v' v) (mats : List Mat) (mv : Mobile Ω Γ d) (T : Temp Ω Γ d) (dt : Option ℝ)
    (k : ℕ → ℝ) (bcs : List (MobBC Γ)) (hb : ∀ b ∈ bcs, ∀ s ∈ b.ids, s ∈ ss)
    (hk : ∀ b vs, MobBC.sk b vs ∈ bcs → ∀ s ∈ b.surfaces, O.Copies k s.id) :
    m'.assemble (fluxesForm m' mats (O.mobile mv) (O.temp T) dt (bcs.map O.bc) v') =
      m.assemble (fluxesForm m mats mv T dt (bcs.map (MobBC.times k)) v) := by
  unfold fluxesForm
  rw [assemble_flatMap, assemble_flatMap, List.map_map, List.map_map]
  congr 1
  refine List.map_congr_left fun b hb' => ?_
  cases b with
  | flux f l =>
    simp only [Function.comp, Over.bc, MobBC.times, MobBC.form]
    rw [assemble_map, assemble_map]
    congr 1
    refine List.map_congr_left fun s hs => ?_
    refine Over.GS.ds ((h.s (hb _ hb' s hs)).mul (fun q => -f.form T.T.tr (mv.mobileConcS m mats) q) (fun q => ?_) fun q => ?_)
    · rw [over_fluxForm f T.T.tr (mv.mobileConcS m mats) (O.temp T).T.tr ((O.mobile mv).mobileConcS m' mats) (fun q => rfl) fun q => Over.mobileConcS mats mv q]; ring
    · ring
  | sk b vs =>
    simp only [Function.comp, Over.bc, MobBC.times, MobBC.form]
    exact over_sk b k (hk b vs hb') _ _ _ _ _ _ (fun q => Over.mobileConcS mats mv q) (fun q => rfl) (fun q => rfl)
      (fun s hs => h.s (hb _ hb' s.id (List.mem_map_of_mem hs))) dt vs

theorem over_form (P : Problem Ω Γ d) (O : Over P.mesh m') (h : O.Gathers ss v' v) {vt' : List (Fld Ω' Γ' d')}
    {vt : List (Fld Ω Γ d)} (ht : List.Forall₂ (O.Gathers []) vt' vt) (k : ℕ → ℝ) (bcs : List (MobBC Γ))
    (hb : ∀ b ∈ bcs, ∀ s ∈ b.ids, s ∈ ss) (hk : ∀ b vs, MobBC.sk b vs ∈ bcs → ∀ s ∈ b.surfaces, O.Copies k s.id) :
    Same P.mesh m' (P.form (bcs.map (MobBC.times k)) v vt) ((O.problem P).form (bcs.map O.bc) v' vt') := by
  have h0 : O.Gathers [] v' v := h.mono fun s hs => by cases hs
  unfold Problem.form mobileForm diffusionForm
  refine same_bind (same_bind (same_bind (over_mobileTraps h0 P.mv P.T P.traps) fun F F' hF => same_ok ?_)
    fun F F' hF => same_ok ?_) fun F F' hF => same_bind (over_trapsForm P.mats P.mv P.T P.dt ht P.traps)
    fun G G' hG => same_ok (by rw [assemble_append, assemble_append, hF, hG])
  · rw [assemble_append, assemble_append, assemble_neg, assemble_neg, hF]
    congr 1
    show m'.assemble (P.mats.flatMap _) = _
    rw [assemble_flatMap, assemble_flatMap]
    congr 1
    refine List.map_congr_left fun a _ => ?_
    rw [assemble_flatMap, assemble_flatMap]
    congr 1
    refine List.map_congr_left fun i _ => ?_
    show m'.assemble (subdomainForm m' a ((O.mobile P.mv).conc a (O.temp P.T)).1 ((O.mobile P.mv).conc a (O.temp P.T)).2
      (O.temp P.T) P.dt P.soret v' i) = _
    rw [Over.conc]
    exact over_subdomain h0 a _ _ P.T P.dt P.soret i
  · rw [assemble_append, assemble_append, assemble_append, assemble_append, hF]
    congr 1
    · congr 1
      exact over_source h0 P.mats P.mv P.sources
    · exact over_fluxes h P.mats P.mv P.T P.dt k bcs hb hk

theorem zip_times_one (l : List SKSurf) (vs : List ℝ) : l.zip (List.zipWith (fun s x => (fun _ : ℕ => (1 : ℝ)) s.id * x) l vs) = l.zip vs := by
  induction l generalizing vs with
  | nil => rfl
  | cons s l ih =>
    cases vs with
    | nil => rfl
    | cons x vs => rw [List.zipWith_cons_cons, List.zip_cons_cons, List.zip_cons_cons, ih]; simp

theorem form_times_one (P : Problem Ω Γ d) (bcs : List (MobBC Γ)) (v : Fld Ω Γ d) (vt : List (Fld Ω Γ d)) :
    P.form (bcs.map (MobBC.times fun _ => 1)) v vt = P.form bcs v vt := by
  have : fluxesForm P.mesh P.mats P.mv P.T P.dt (bcs.map (MobBC.times fun _ => 1)) v =
      fluxesForm P.mesh P.mats P.mv P.T P.dt bcs v := by
    unfold fluxesForm
    rw [List.flatMap_map]
    refine congrArg List.flatten (List.map_congr_left fun b _ => ?_)
    cases b with
    | flux f l => rfl
    | sk b vs =>
      simp only [MobBC.times, MobBC.form, SK.form]
      rw [zip_times_one]
  unfold Problem.form mobileForm
  rw [this]

theorem times_test (k f : ℕ → ℝ) (b : MobBC Γ) : (b.test f).times k = b.test fun s => k s * f s := by
  cases b with
  | flux g l => rfl
  | sk b vs =>
    simp only [MobBC.test, MobBC.times, MobBC.sk.injEq, true_and]
    generalize b.surfaces = l
    induction l with
    | nil => rfl
    | cons s l ih => simp only [List.map_cons, List.zipWith_cons_cons, ih]

/-! ### Heat -/

theorem over_heat (h : O.Gathers ss v' v) (mats : List Mat) (T : Temp Ω Γ d) (dt : Option ℝ) (sources : List ((Ω → ℝ) × List ℕ))
    (bcs : List (Flux Γ × List ℕ)) (hb : ∀ b ∈ bcs, ∀ s ∈ b.2, s ∈ ss) :
    m'.assemble (heatForm m' mats (O.temp T) dt (sources.map fun s => (fun p => s.1 (O.pt p), s.2)) (bcs.map fun b => (O.flux b.1, b.2)) v')
      = m.assemble (heatForm m mats T dt sources bcs v) := by
  have h0 : O.Gathers [] v' v := h.mono (by simp)
  unfold heatForm
  rw [assemble_append, assemble_append, assemble_append, assemble_append]
  congr 1
  · congr 1
    · rw [assemble_flatMap, assemble_flatMap]
      congr 1
      refine List.map_congr_left fun a _ => ?_
      rw [assemble_append, assemble_append]
      congr 1
      · cases dt with
        | none => rfl
        | some k =>
          dsimp only
          rw [assemble_map, assemble_map]
          congr 1
          refine List.map_congr_left fun i _ => ?_
          exact Over.GV.dxOn (h0.vals.mul (fun p => a.rho (T.T.val p) * a.cp (T.T.val p) * (T.T.val p - T.Tn.val p) / k) (fun p => rfl)
            fun p => rfl) _
      · rw [assemble_flatMap, assemble_flatMap]
        congr 1
        refine List.map_congr_left fun i _ => ?_
        unfold heatSubdomain
        rw [O.type]
        cases hty : m.type with
        | other => rfl
        | cartesian =>
          simp only [assemble_cons, assemble_nil]
          congr 1
          refine Over.GV.dxOn (O := O) ?_ _
          have := h0.g fun p i => a.cond (T.T.val p) * T.T.grad p i
          simp only [Over.dir_smul] at this
          exact this
        | cylindrical =>
          have hc : m.type ≠ .cartesian := by rw [hty]; simp
          simp only [assemble_cons, assemble_nil]
          congr 1
          refine Over.GV.dxOn (O := O) ?_ _
          have := (h0.div hc).g fun p i => a.cond (T.T.val p) * T.T.grad p i
          simp only [Over.dir_smul] at this
          exact this.mul (fun p => m.r.val p) (fun p => by rw [O.r_val hc]; rfl) fun p => rfl
        | spherical =>
          have hc : m.type ≠ .cartesian := by rw [hty]; simp
          simp only [assemble_cons, assemble_nil]
          congr 1
          refine Over.GV.dxOn (O := O) ?_ _
          have := ((h0.div hc).div hc).g fun p i => T.T.grad p i
          exact this.mul (fun p => a.cond (T.T.val p) * m.r.val p * m.r.val p) (fun p => by rw [O.r_val hc]; rfl) fun p => rfl
    · rw [assemble_flatMap, assemble_flatMap, List.map_map]
      congr 1
      refine List.map_congr_left fun s _ => ?_
      dsimp only [Function.comp]
      rw [assemble_map, assemble_map]
      congr 1
      refine List.map_congr_left fun i _ => ?_
      exact Over.GV.dxOn (h0.vals.mul (fun p => -s.1 p) (fun p => rfl) fun p => rfl) _
  · rw [assemble_flatMap, assemble_flatMap, List.map_map]
    congr 1
    refine List.map_congr_left fun b hb' => ?_
    dsimp only [Function.comp]
    rw [assemble_map, assemble_map]
    congr 1
    refine List.map_congr_left fun s hs => ?_
    refine Over.GS.ds ((h.s (hb b hb' s hs)).mul (fun q => -b.1.form T.T.tr (fun _ => 0) q) (fun q => ?_) fun q => rfl)
    rw [over_fluxForm b.1 T.T.tr (fun _ => 0) (O.temp T).T.tr (fun _ => 0) (fun q => rfl) fun q => rfl]

theorem bc_test (O : Over m m') (f : ℕ → ℝ) (b : MobBC Γ) : (O.bc b).test f = O.bc (b.test f) := by cases b <;> rfl

theorem ids_test (f : ℕ → ℝ) (b : MobBC Γ) : (b.test f).ids = b.ids := by cases b <;> rfl

end

end Festim.Weak
