import Verif.Props.Bounds
import Mathlib.LinearAlgebra.Dual.Lemmas
import Mathlib.LinearAlgebra.FiniteDimensional.Lemmas

/-!
# Linear problems for piecewise affine functions on a line
-/

open scoped BigOperators

namespace Festim.Weak

section
variable {Ω : Type} [Fintype Ω]

theorem p1_congr (L : Line Ω) {u v : ℕ → ℝ} (h : ∀ i ≤ L.N, u i = v i) : L.p1 u = L.p1 v := by
  unfold Line.p1
  congr 1
  · funext p
    rw [h _ (L.cell_lt p).le, h _ (L.cell_lt p)]
  · funext p _
    rw [h _ (L.cell_lt p).le, h _ (L.cell_lt p)]
  · funext q
    rw [h _ le_rfl, h _ (Nat.zero_le _)]

theorem p1_val_add (L : Line Ω) (u v : ℕ → ℝ) (p : Ω) :
    (L.p1 (u + v)).val p = (L.p1 u).val p + (L.p1 v).val p := by
  simp only [Line.p1, Pi.add_apply]; ring

theorem p1_grad_add (L : Line Ω) (u v : ℕ → ℝ) (p : Ω) (i : Fin 1) :
    (L.p1 (u + v)).grad p i = (L.p1 u).grad p i + (L.p1 v).grad p i := by
  simp only [Line.p1, Pi.add_apply]; ring

theorem p1_tr_add (L : Line Ω) (u v : ℕ → ℝ) (q : Bool) :
    (L.p1 (u + v)).tr q = (L.p1 u).tr q + (L.p1 v).tr q := by
  cases q <;> simp [Line.p1]

theorem p1_val_smul (L : Line Ω) (a : ℝ) (u : ℕ → ℝ) (p : Ω) :
    (L.p1 (a • u)).val p = a * (L.p1 u).val p := by
  simp only [Line.p1, Pi.smul_apply, smul_eq_mul]; ring

theorem p1_grad_smul (L : Line Ω) (a : ℝ) (u : ℕ → ℝ) (p : Ω) (i : Fin 1) :
    (L.p1 (a • u)).grad p i = a * (L.p1 u).grad p i := by
  simp only [Line.p1, Pi.smul_apply, smul_eq_mul]; ring

theorem p1_tr_smul (L : Line Ω) (a : ℝ) (u : ℕ → ℝ) (q : Bool) :
    (L.p1 (a • u)).tr q = a * (L.p1 u).tr q := by
  cases q <;> simp [Line.p1]

/-- `∫ α u v + ∫ K u' v' + Σ β u v` (the sum over both ends). -/
noncomputable def bil (L : Line Ω) (α K : Ω → ℝ) (β : Bool → ℝ) (u v : ℕ → ℝ) : ℝ :=
  (∑ p, L.w p * (α p * ((L.p1 u).val p * (L.p1 v).val p)
      + K p * ((L.p1 u).grad p 0 * (L.p1 v).grad p 0)))
    + ∑ q, β q * ((L.p1 u).tr q * (L.p1 v).tr q)

/-- `∫ f v + Σ g v`. -/
noncomputable def lin (L : Line Ω) (f : Ω → ℝ) (g : Bool → ℝ) (v : ℕ → ℝ) : ℝ :=
  (∑ p, L.w p * (f p * (L.p1 v).val p)) + ∑ q, g q * (L.p1 v).tr q

theorem bil_symm (L : Line Ω) (α K : Ω → ℝ) (β : Bool → ℝ) (u v : ℕ → ℝ) :
    bil L α K β u v = bil L α K β v u := by
  unfold bil
  congr 1 <;> refine Finset.sum_congr rfl fun p _ => by ring

theorem bil_add (L : Line Ω) (α K : Ω → ℝ) (β : Bool → ℝ) (u u' v : ℕ → ℝ) :
    bil L α K β (u + u') v = bil L α K β u v + bil L α K β u' v := by
  unfold bil
  rw [add_add_add_comm, ← Finset.sum_add_distrib, ← Finset.sum_add_distrib]
  congr 1 <;> refine Finset.sum_congr rfl fun p _ => ?_
  · rw [p1_val_add, p1_grad_add]; ring
  · rw [p1_tr_add]; ring

theorem bil_smul (L : Line Ω) (α K : Ω → ℝ) (β : Bool → ℝ) (a : ℝ) (u v : ℕ → ℝ) :
    bil L α K β (a • u) v = a * bil L α K β u v := by
  unfold bil
  rw [mul_add, Finset.mul_sum, Finset.mul_sum]
  congr 1 <;> refine Finset.sum_congr rfl fun p _ => ?_
  · rw [p1_val_smul, p1_grad_smul]; ring
  · rw [p1_tr_smul]; ring

theorem bil_sub (L : Line Ω) (α K : Ω → ℝ) (β : Bool → ℝ) (u u' v : ℕ → ℝ) :
    bil L α K β (u - u') v = bil L α K β u v - bil L α K β u' v := by
  have h1 : u - u' = u + (-1 : ℝ) • u' := by rw [neg_one_smul]; rfl
  rw [h1, bil_add, bil_smul]
  ring

theorem lin_add (L : Line Ω) (f : Ω → ℝ) (g : Bool → ℝ) (u v : ℕ → ℝ) :
    lin L f g (u + v) = lin L f g u + lin L f g v := by
  unfold lin
  rw [add_add_add_comm, ← Finset.sum_add_distrib, ← Finset.sum_add_distrib]
  congr 1 <;> refine Finset.sum_congr rfl fun p _ => ?_
  · rw [p1_val_add]; ring
  · rw [p1_tr_add]; ring

theorem lin_smul (L : Line Ω) (f : Ω → ℝ) (g : Bool → ℝ) (a : ℝ) (v : ℕ → ℝ) :
    lin L f g (a • v) = a * lin L f g v := by
  unfold lin
  rw [mul_add, Finset.mul_sum, Finset.mul_sum]
  congr 1 <;> refine Finset.sum_congr rfl fun p _ => ?_
  · rw [p1_val_smul]; ring
  · rw [p1_tr_smul]; ring

/-- Coefficients of a well-posed linear problem: diffusion everywhere, no negative reaction, and something which
fixes the constants. -/
structure Coercive (L : Line Ω) (α K : Ω → ℝ) (β : Bool → ℝ) (dir : Bool → Prop) : Prop where
  weights : ∀ p, 0 ≤ L.w p
  reaction : ∀ p, 0 ≤ α p
  diffusion : ∀ p, 0 < K p
  exchange : ∀ q, 0 ≤ β q
  fixed : (∀ p, 0 < α p) ∨ ∃ q, dir q ∨ 0 < β q

theorem slope_zero (L : Line Ω) (hw : ∀ p, 0 ≤ L.w p) (K : Ω → ℝ) (hK : ∀ p, 0 < K p) (v : ℕ → ℝ)
    (h : ∑ p, L.w p * (K p * ((L.p1 v).grad p 0 * (L.p1 v).grad p 0)) = 0) :
    ∀ i ≤ L.N, v i = v 0 := by
  have hz := (Finset.sum_eq_zero_iff_of_nonneg fun p _ =>
    mul_nonneg (hw p) (mul_nonneg (hK p).le (mul_self_nonneg _))).1 h
  intro i
  induction i with
  | zero => intro _; rfl
  | succ i ih =>
    intro hi
    rw [← ih (by omega)]
    by_contra hne
    have hh := L.h_pos i hi
    have hs := L.exact i hi
    rw [Finset.sum_eq_zero] at hs
    · exact hh.ne hs
    · intro p hp
      have hc : L.cell p = i := (Finset.mem_filter.1 hp).2
      have h2 := hz p (Finset.mem_univ _)
      refine (mul_eq_zero.1 h2).resolve_right ?_
      have h3 : (L.p1 v).grad p 0 ≠ 0 := by
        simp only [Line.p1, hc]
        exact div_ne_zero (sub_ne_zero.2 hne) hh.ne'
      exact mul_ne_zero (hK p).ne' (mul_ne_zero h3 h3)

theorem bil_definite (L : Line Ω) {α K : Ω → ℝ} {β : Bool → ℝ} {dir : Bool → Prop}
    (hc : Coercive L α K β dir) (v : ℕ → ℝ) (hv : ∀ q, dir q → (L.p1 v).tr q = 0)
    (h : bil L α K β v v = 0) : ∀ i ≤ L.N, v i = 0 := by
  unfold bil at h
  have e : (∑ p, L.w p * (α p * ((L.p1 v).val p * (L.p1 v).val p)
      + K p * ((L.p1 v).grad p 0 * (L.p1 v).grad p 0)))
      = (∑ p, L.w p * (α p * ((L.p1 v).val p * (L.p1 v).val p)))
        + ∑ p, L.w p * (K p * ((L.p1 v).grad p 0 * (L.p1 v).grad p 0)) := by
    rw [← Finset.sum_add_distrib]
    exact Finset.sum_congr rfl fun p _ => by ring
  rw [e] at h
  have ha : ∀ p ∈ Finset.univ, 0 ≤ L.w p * (α p * ((L.p1 v).val p * (L.p1 v).val p)) := fun p _ =>
    mul_nonneg (hc.weights p) (mul_nonneg (hc.reaction p) (mul_self_nonneg _))
  have hk : ∀ p ∈ Finset.univ, 0 ≤ L.w p * (K p * ((L.p1 v).grad p 0 * (L.p1 v).grad p 0)) := fun p _ =>
    mul_nonneg (hc.weights p) (mul_nonneg (hc.diffusion p).le (mul_self_nonneg _))
  have hb : ∀ q ∈ Finset.univ, 0 ≤ β q * ((L.p1 v).tr q * (L.p1 v).tr q) := fun q _ =>
    mul_nonneg (hc.exchange q) (mul_self_nonneg _)
  have sa := Finset.sum_nonneg ha
  have sk := Finset.sum_nonneg hk
  have sb := Finset.sum_nonneg hb
  have hconst := slope_zero L hc.weights K hc.diffusion v (by linarith)
  have h0 : v 0 = 0 := by
    rcases hc.fixed with h1 | ⟨q, h1 | h1⟩
    · have hz := (Finset.sum_eq_zero_iff_of_nonneg ha).1 (by linarith)
      by_contra hne
      have hs := L.exact 0 L.N_pos
      rw [Finset.sum_eq_zero] at hs
      · exact (L.h_pos 0 L.N_pos).ne hs
      · intro p _
        refine (mul_eq_zero.1 (hz p (Finset.mem_univ _))).resolve_right ?_
        have h3 : (L.p1 v).val p = v 0 := by
          simp only [Line.p1]
          rw [hconst _ (L.cell_lt p).le, hconst _ (L.cell_lt p)]
          ring
        rw [h3]
        exact mul_ne_zero (h1 p).ne' (mul_ne_zero hne hne)
    · have := hv q h1
      cases q
      · simpa [Line.p1] using this
      · rw [← hconst L.N le_rfl]
        simpa [Line.p1] using this
    · have hz := (Finset.sum_eq_zero_iff_of_nonneg hb).1 (by linarith) q (Finset.mem_univ _)
      have := (mul_eq_zero.1 hz).resolve_left h1.ne'
      have := mul_self_eq_zero.1 this
      cases q
      · simpa [Line.p1] using this
      · rw [← hconst L.N le_rfl]
        simpa [Line.p1] using this
  intro i hi
  rw [hconst i hi, h0]

/-- Nodal values from a vector. -/
def extend (N : ℕ) (x : Fin (N + 1) → ℝ) (i : ℕ) : ℝ := if h : i < N + 1 then x ⟨i, h⟩ else 0

theorem extend_add (N : ℕ) (x y : Fin (N + 1) → ℝ) : extend N (x + y) = extend N x + extend N y := by
  funext i
  by_cases h : i < N + 1 <;> simp [extend, h]

theorem extend_smul (N : ℕ) (a : ℝ) (x : Fin (N + 1) → ℝ) : extend N (a • x) = a • extend N x := by
  funext i
  by_cases h : i < N + 1 <;> simp [extend, h]

/-- The vectors which vanish at the ends with Dirichlet conditions. -/
def freeNodes (L : Line Ω) (dir : Bool → Prop) : Submodule ℝ (Fin (L.N + 1) → ℝ) where
  carrier := {x | ∀ q, dir q → (L.p1 (extend L.N x)).tr q = 0}
  add_mem' := by
    intro x y hx hy q hq
    rw [extend_add, p1_tr_add, hx q hq, hy q hq, add_zero]
  zero_mem' := by
    intro q _
    have : extend L.N 0 = (0 : ℝ) • (fun _ => 0 : ℕ → ℝ) := by
      funext i; by_cases h : i < L.N + 1 <;> simp [extend, h]
    rw [this, p1_tr_smul, zero_mul]
  smul_mem' := by
    intro a x hx q hq
    rw [extend_smul, p1_tr_smul, hx q hq, mul_zero]

theorem restrict_extend (L : Line Ω) (v : ℕ → ℝ) :
    L.p1 (extend L.N fun i => v i) = L.p1 v :=
  p1_congr L fun i hi => by simp [extend, Nat.lt_succ_of_le hi]

theorem bil_congr (L : Line Ω) (α K : Ω → ℝ) (β : Bool → ℝ) {u u' v v' : ℕ → ℝ} (h : L.p1 u = L.p1 u')
    (h' : L.p1 v = L.p1 v') : bil L α K β u v = bil L α K β u' v' := by
  unfold bil; rw [h, h']

theorem lin_congr (L : Line Ω) (f : Ω → ℝ) (g : Bool → ℝ) {v v' : ℕ → ℝ} (h' : L.p1 v = L.p1 v') :
    lin L f g v = lin L f g v' := by
  unfold lin; rw [h']

/-- A well-posed linear problem has a solution with given values at the Dirichlet ends. -/
theorem bil_solve (L : Line Ω) {α K : Ω → ℝ} {β : Bool → ℝ} {dir : Bool → Prop}
    (hc : Coercive L α K β dir) (f : Ω → ℝ) (g val : Bool → ℝ) :
    ∃ u : ℕ → ℝ, (∀ q, dir q → (L.p1 u).tr q = val q) ∧
      ∀ v : ℕ → ℝ, (∀ q, dir q → (L.p1 v).tr q = 0) → bil L α K β u v = lin L f g v := by
  have hN := L.N_pos
  set V := freeNodes L dir
  let B : V →ₗ[ℝ] V →ₗ[ℝ] ℝ := LinearMap.mk₂ ℝ
    (fun x y => bil L α K β (extend L.N x) (extend L.N y))
    (fun x x' y => by
      rw [show ((x + x' : V) : Fin (L.N + 1) → ℝ) = x + x' from rfl, extend_add, bil_add])
    (fun a x y => by
      rw [show ((a • x : V) : Fin (L.N + 1) → ℝ) = a • (x : Fin (L.N + 1) → ℝ) from rfl, extend_smul,
        bil_smul, smul_eq_mul])
    (fun x y y' => by
      rw [show ((y + y' : V) : Fin (L.N + 1) → ℝ) = y + y' from rfl, extend_add, bil_symm, bil_add,
        bil_symm, bil_symm L α K β (extend L.N y')])
    (fun a x y => by
      rw [show ((a • y : V) : Fin (L.N + 1) → ℝ) = a • (y : Fin (L.N + 1) → ℝ) from rfl, extend_smul,
        bil_symm, bil_smul, smul_eq_mul, bil_symm])
  have hinj : Function.Injective B := by
    rw [← LinearMap.ker_eq_bot, LinearMap.ker_eq_bot']
    intro x hx
    have h0 : bil L α K β (extend L.N x) (extend L.N x) = 0 := LinearMap.congr_fun hx x
    have := bil_definite L hc _ x.2 h0
    apply Subtype.ext
    funext i
    have hi := this i (Nat.lt_succ_iff.1 i.2)
    simpa [extend, i.2] using hi
  have hsurj : Function.Surjective B :=
    (LinearMap.injective_iff_surjective_of_finrank_eq_finrank
      (Subspace.dual_finrank_eq (K := ℝ) (V := V)).symm).1 hinj
  let u0 : ℕ → ℝ := fun i => if i = 0 then val false else if i = L.N then val true else 0
  let ℓ : V →ₗ[ℝ] ℝ :=
    { toFun := fun y => lin L f g (extend L.N y) - bil L α K β (extend L.N y) u0
      map_add' := by
        intro x y
        rw [show ((x + y : V) : Fin (L.N + 1) → ℝ) = x + y from rfl, extend_add, lin_add, bil_add]
        ring
      map_smul' := by
        intro a x
        rw [show ((a • x : V) : Fin (L.N + 1) → ℝ) = a • (x : Fin (L.N + 1) → ℝ) from rfl, extend_smul,
          lin_smul, bil_smul, RingHom.id_apply, smul_eq_mul]
        ring }
  obtain ⟨x, hx⟩ := hsurj ℓ
  refine ⟨u0 + extend L.N x, ?_, ?_⟩
  · intro q hq
    rw [p1_tr_add, x.2 q hq, add_zero]
    cases q
    · simp [Line.p1, u0]
    · have : L.N ≠ 0 := by omega
      simp [Line.p1, u0, this]
  · intro v hv
    have hmem : (fun i => v i : Fin (L.N + 1) → ℝ) ∈ V := by
      intro q hq
      rw [restrict_extend]
      exact hv q hq
    have e : bil L α K β (extend L.N x) (extend L.N fun i => v i)
        = lin L f g (extend L.N fun i => v i) - bil L α K β (extend L.N fun i => v i) u0 :=
      LinearMap.congr_fun hx ⟨_, hmem⟩
    rw [lin_congr L f g (restrict_extend L v),
      bil_congr L α K β rfl (restrict_extend L v), bil_congr L α K β (restrict_extend L v) rfl] at e
    rw [bil_add, e, bil_symm L α K β v u0]
    ring

/-- Two solutions agree. -/
theorem bil_unique (L : Line Ω) {α K : Ω → ℝ} {β : Bool → ℝ} {dir : Bool → Prop}
    (hc : Coercive L α K β dir) (f : Ω → ℝ) (g : Bool → ℝ) {u u' : ℕ → ℝ}
    (hd : ∀ q, dir q → (L.p1 u).tr q = (L.p1 u').tr q)
    (h : ∀ v : ℕ → ℝ, (∀ q, dir q → (L.p1 v).tr q = 0) → bil L α K β u v = lin L f g v)
    (h' : ∀ v : ℕ → ℝ, (∀ q, dir q → (L.p1 v).tr q = 0) → bil L α K β u' v = lin L f g v) :
    ∀ i ≤ L.N, u i = u' i := by
  have hv : ∀ q, dir q → (L.p1 (u - u')).tr q = 0 := by
    intro q hq
    have := hd q hq
    cases q <;> simp_all [Line.p1]
  have := bil_definite L hc (u - u') hv (by rw [bil_sub, h _ hv, h' _ hv, sub_self])
  intro i hi
  exact sub_eq_zero.1 (this i hi)

end

end Festim.Weak
