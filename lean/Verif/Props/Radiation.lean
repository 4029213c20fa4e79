import Verif.Props.Recombination

/-!
# C123: radiation and other custom heat fluxes
-/

open scoped BigOperators

set_option linter.unusedSectionVars false
set_option linter.unusedSimpArgs false

namespace Festim.Weak

open Festim.Props

section
variable {Ω : Type} [Fintype Ω] {L : Line Ω} {α K : Ω → ℝ} {β : Bool → ℝ} {dir : Bool → Prop}

/-- A well-posed linear problem with rates `R` of loss at the ends which, for values which are not negative, do not decrease and have
bounded slopes on bounded intervals, extended by their values at 0, has a solution. -/
theorem bil_solve_loss (hq : ∀ p, 0 ≤ L.lam p ∧ L.lam p ≤ 1) (hc : Coercive L α K β dir) (f : Ω → ℝ) (g val : Bool → ℝ)
    (R : Bool → ℝ → ℝ) (hmono : ∀ q x y, 0 ≤ x → x ≤ y → R q x ≤ R q y)
    (hlip : ∀ q B, 0 ≤ B → ∃ k, 0 ≤ k ∧ ∀ x y, 0 ≤ x → x ≤ y → y ≤ B → R q y ≤ R q x + k * (y - x)) :
    ∃ u : ℕ → ℝ, (∀ q, dir q → (L.p1 u).tr q = val q) ∧
      ∀ v : ℕ → ℝ, (∀ q, dir q → (L.p1 v).tr q = 0) →
        bil L α K β u v + ∑ q, R q (max 0 ((L.p1 u).tr q)) * (L.p1 v).tr q = lin L f g v := by
  obtain ⟨z, hz, hzsol⟩ := bil_solve L hc f g val
  obtain ⟨γ, hγ, hE⟩ := hc.ends hq
  set ρ : Bool → ℝ := fun q => |R q 0| + |R q (max 0 ((L.p1 z).tr q))| with hρ
  have hρ0 : ∀ q, 0 ≤ ρ q := fun q => by positivity
  set B : ℝ := |(L.p1 z).tr true| + |(L.p1 z).tr false| + (ρ true + ρ false) / γ with hB
  have hB0 : 0 ≤ B := by
    have := div_nonneg (add_nonneg (hρ0 true) (hρ0 false)) hγ.le
    positivity
  choose k hk0 hkl using fun q => hlip q B hB0
  have hk : ∀ q, Gentle (k q) fun x => R q (clamp B x) := fun q =>
    Gentle.clamp (hk0 q) hB0 fun x y hx hxy hy => ⟨hmono q x y hx hxy, hkl q x y hx hxy hy⟩
  obtain ⟨u, hval, hsol⟩ := bil_solve_monotone hq hc f g val (fun q x => R q (clamp B x)) (1 + k true + k false)
    (by linarith [hk0 true, hk0 false]) fun q => by
      cases q
      · exact (hk false).le (by linarith [hk0 true])
      · exact (hk true).le (by linarith [hk0 false])
  set v : ℕ → ℝ := u - z with hv
  have hvtr : ∀ q, (L.p1 v).tr q = (L.p1 u).tr q - (L.p1 z).tr q := by
    intro q
    cases q <;> simp [Line.p1, hv]
  have hv0 : ∀ q, dir q → (L.p1 v).tr q = 0 := fun q hq => by rw [hvtr, hval q hq, hz q hq, sub_self]
  have e1 := hsol v hv0
  have e2 := hzsol v hv0
  have e5 : bil L α K β v v = bil L α K β u v - bil L α K β z v := by rw [hv, bil_sub]
  have hRz : ∀ q, |R q (clamp B ((L.p1 z).tr q))| ≤ ρ q := by
    intro q
    have h1 := (clamp_mem hB0 ((L.p1 z).tr q)).1
    have h2 : R q 0 ≤ R q (clamp B ((L.p1 z).tr q)) := hmono q _ _ le_rfl h1
    have h3 : R q (clamp B ((L.p1 z).tr q)) ≤ R q (max 0 ((L.p1 z).tr q)) :=
      hmono q _ _ h1 (max_le_max le_rfl (min_le_left _ _))
    simp only [hρ]
    rw [abs_le]
    constructor
    · linarith [neg_abs_le (R q 0), abs_nonneg (R q (max 0 ((L.p1 z).tr q)))]
    · linarith [le_abs_self (R q (max 0 ((L.p1 z).tr q))), abs_nonneg (R q 0)]
  have hterm : ∀ q, -(ρ q * |(L.p1 v).tr q|) ≤ R q (clamp B ((L.p1 u).tr q)) * (L.p1 v).tr q := by
    intro q
    have hRm : 0 ≤ (R q (clamp B ((L.p1 u).tr q)) - R q (clamp B ((L.p1 z).tr q))) * (L.p1 v).tr q := by
      rw [hvtr]
      rcases le_total ((L.p1 z).tr q) ((L.p1 u).tr q) with hc | hc
      · exact mul_nonneg (sub_nonneg.2 (hk q _ _ hc).1) (sub_nonneg.2 hc)
      · exact mul_nonneg_of_nonpos_of_nonpos (sub_nonpos.2 (hk q _ _ hc).1) (sub_nonpos.2 hc)
    have h1 := mul_le_mul_of_nonneg_right (hRz q) (abs_nonneg ((L.p1 v).tr q))
    have h2 := neg_abs_le (R q (clamp B ((L.p1 z).tr q)) * (L.p1 v).tr q)
    rw [abs_mul] at h2
    linarith
  have hEv := hE v hv0
  rw [Fintype.sum_bool] at hEv e1
  have hsum : γ * ((L.p1 v).tr true ^ 2 + (L.p1 v).tr false ^ 2)
      ≤ ρ true * |(L.p1 v).tr true| + ρ false * |(L.p1 v).tr false| := by
    linarith [hterm true, hterm false]
  have hvB : ∀ q, |(L.p1 v).tr q| ≤ (ρ true + ρ false) / γ := by
    set a := |(L.p1 v).tr true| with ha
    set b := |(L.p1 v).tr false| with hb
    have ha0 : 0 ≤ a := abs_nonneg _
    have hb0 : 0 ≤ b := abs_nonneg _
    rw [← sq_abs ((L.p1 v).tr true), ← sq_abs ((L.p1 v).tr false), ← ha, ← hb] at hsum
    have r1 := hρ0 true
    have r2 := hρ0 false
    have hab : max a b ≤ (ρ true + ρ false) / γ := by
      rw [le_div_iff₀ hγ]
      rcases (le_max_of_le_left (b := a) (c := b) ha0).eq_or_lt with h0 | h0
      · rw [← h0, zero_mul]
        linarith
      · have m1 : (max a b) ^ 2 ≤ a ^ 2 + b ^ 2 := by
          rcases max_cases a b with ⟨h, _⟩ | ⟨h, _⟩ <;> rw [h] <;> nlinarith
        have m2 : ρ true * a + ρ false * b ≤ (ρ true + ρ false) * max a b := by
          have i1 := mul_le_mul_of_nonneg_left (le_max_left a b) r1
          have i2 := mul_le_mul_of_nonneg_left (le_max_right a b) r2
          linarith
        have m3 : γ * max a b * max a b ≤ (ρ true + ρ false) * max a b := by
          have := mul_le_mul_of_nonneg_left m1 hγ.le
          nlinarith
        have := le_of_mul_le_mul_right m3 h0
        linarith
    intro q
    cases q
    · exact (le_max_right a b).trans hab
    · exact (le_max_left a b).trans hab
  have huB : ∀ q, (L.p1 u).tr q ≤ B := by
    intro q
    have h1 := (le_abs_self _).trans (hvB q)
    rw [hvtr] at h1
    have h2 : (L.p1 z).tr q ≤ |(L.p1 z).tr true| + |(L.p1 z).tr false| := by
      cases q
      · exact (le_abs_self _).trans (le_add_of_nonneg_left (abs_nonneg _))
      · exact (le_abs_self _).trans (le_add_of_nonneg_right (abs_nonneg _))
    linarith
  refine ⟨u, hval, fun w hw => ?_⟩
  have := hsol w hw
  simp only [clamp, min_eq_left (huB _)] at this
  exact this

/-- Without storage: a solution is not negative when loads, given values and inflows at 0 are not. -/
theorem loss_steady_nonneg (hq : ∀ p, 0 ≤ L.lam p ∧ L.lam p ≤ 1) (hc : Coercive L α K β dir) (hα : ∀ p, α p = 0) {f : Ω → ℝ}
    {g val : Bool → ℝ} {R : Bool → ℝ → ℝ} (hR0 : ∀ q, R q 0 ≤ 0) (hf : ∀ p, 0 ≤ f p) (hg : ∀ q, 0 ≤ g q)
    {u : ℕ → ℝ} (hval : ∀ q, dir q → (L.p1 u).tr q = val q) (hv : ∀ q, dir q → 0 ≤ val q)
    (hsol : ∀ v : ℕ → ℝ, (∀ q, dir q → (L.p1 v).tr q = 0) →
        bil L α K β u v + ∑ q, R q (max 0 ((L.p1 u).tr q)) * (L.p1 v).tr q = lin L f g v) : ∀ j ≤ L.N, 0 ≤ u j := by
  set n : ℕ → ℝ := fun i => min 0 (u i) with hn
  have hn0 : ∀ i, n i ≤ 0 := fun i => min_le_left _ _
  have htr : ∀ q, (L.p1 n).tr q = min 0 ((L.p1 u).tr q) := fun q => by cases q <;> simp [Line.p1, hn]
  have hdir : ∀ q, dir q → (L.p1 n).tr q = 0 := fun q hd => by
    rw [htr, hval q hd, min_eq_left (hv q hd)]
  have e := hsol n hdir
  have hlin : lin L f g n ≤ 0 := by
    unfold lin
    refine add_nonpos (Finset.sum_nonpos fun p _ => ?_) (Finset.sum_nonpos fun q _ => ?_)
    · refine mul_nonpos_of_nonneg_of_nonpos (hc.weights p) (mul_nonpos_of_nonneg_of_nonpos (hf p) ?_)
      have h1 := mul_nonpos_of_nonneg_of_nonpos (sub_nonneg.2 (hq p).2) (hn0 (L.cell p))
      have h2 := mul_nonpos_of_nonneg_of_nonpos (hq p).1 (hn0 (L.cell p + 1))
      simp only [Line.p1]
      linarith
    · rw [htr]
      exact mul_nonpos_of_nonneg_of_nonpos (hg q) (min_le_left _ _)
  have hloss : 0 ≤ ∑ q, R q (max 0 ((L.p1 u).tr q)) * (L.p1 n).tr q := by
    refine Finset.sum_nonneg fun q _ => ?_
    rw [htr]
    rcases le_total 0 ((L.p1 u).tr q) with h | h
    · rw [min_eq_left h, mul_zero]
    · rw [max_eq_left h]
      exact mul_nonneg_of_nonpos_of_nonpos (hR0 q) (min_le_left _ _)
  have hbil : bil L α K β n n ≤ bil L α K β u n := by
    unfold bil
    refine add_le_add (Finset.sum_le_sum fun p _ => ?_) (Finset.sum_le_sum fun q _ => ?_)
    · refine mul_le_mul_of_nonneg_left ?_ (hc.weights p)
      rw [hα, zero_mul, zero_mul, zero_add, zero_add]
      refine mul_le_mul_of_nonneg_left ?_ (hc.diffusion p).le
      have hh := L.h_pos (L.cell p) (L.cell_lt p)
      simp only [Line.p1, hn]
      rw [div_mul_div_comm, div_mul_div_comm]
      refine div_le_div_of_nonneg_right ?_ (mul_pos hh hh).le
      rcases le_total 0 (u (L.cell p + 1)) with h1 | h1 <;> rcases le_total 0 (u (L.cell p)) with h2 | h2 <;>
        simp only [min_eq_left, min_eq_right, h1, h2] <;> nlinarith
    · refine mul_le_mul_of_nonneg_left ?_ (hc.exchange q)
      rw [htr]
      rcases le_total 0 ((L.p1 u).tr q) with h | h
      · rw [min_eq_left h, mul_zero, mul_zero]
      · rw [min_eq_right h]
  have hz := bil_definite L hc n hdir (le_antisymm (by linarith) (hc.parts n).2.2.2)
  intro j hj
  have := hz j hj
  simp only [hn] at this
  exact min_eq_left_iff.1 this

/-- `CustomFlux(surfaces, function, field="T")` of the temperature. -/
structure Radiator where
  gain : Bool → ℝ → ℝ
  surfaces : List ℕ

/-- The boundary condition. -/
def Radiator.bc (r : Radiator) : Flux Bool × List ℕ := (.custom fun q T _ => r.gain q T, r.surfaces)

/-- `a (T0⁴ - T⁴)`. -/
noncomputable def stefan (a T0 : Bool → ℝ) (surfaces : List ℕ) : Radiator := ⟨fun q T => a q * (T0 q ^ 4 - T ^ 4), surfaces⟩

/-- Heat gained at an end, where the temperature is `T`. -/
noncomputable def gained (L : Line Ω) (rs : List Radiator) (q : Bool) (T : ℝ) : ℝ :=
  (rs.map fun r => (r.surfaces.map fun i => if i = (if q then L.right else L.left) then r.gain q T else 0).sum).sum

/-- The hotter the surface the less it gains, without jumps; at absolute zero it loses nothing. -/
def Radiates (rs : List Radiator) : Prop := ∀ r ∈ rs, ∀ q,
  (∀ x y, 0 ≤ x → x ≤ y → r.gain q y ≤ r.gain q x) ∧
  (∀ B, 0 ≤ B → ∃ k, 0 ≤ k ∧ ∀ x y, 0 ≤ x → x ≤ y → y ≤ B → r.gain q x - r.gain q y ≤ k * (y - x)) ∧ 0 ≤ r.gain q 0

theorem gained_anti {rs : List Radiator} (hr : Radiates rs) (q : Bool) {x y : ℝ} (hx : 0 ≤ x) (hxy : x ≤ y) :
    gained L rs q y ≤ gained L rs q x := by
  unfold gained
  refine List.sum_le_sum fun r hm => List.sum_le_sum fun i _ => ?_
  by_cases hi : i = if q then L.right else L.left
  · simp only [if_pos hi]
    exact (hr r hm q).1 x y hx hxy
  · simp only [if_neg hi, le_refl]

theorem gained_zero {rs : List Radiator} (hr : Radiates rs) (q : Bool) : 0 ≤ gained L rs q 0 := by
  unfold gained
  refine List.sum_nonneg fun x hx => ?_
  obtain ⟨r, hm, rfl⟩ := List.mem_map.1 hx
  refine List.sum_nonneg fun x hx => ?_
  obtain ⟨i, _, rfl⟩ := List.mem_map.1 hx
  by_cases hi : i = if q then L.right else L.left
  · simp only [if_pos hi]
    exact (hr r hm q).2.2
  · simp only [if_neg hi, le_refl]

theorem lip_list {A : Type} (l : List A) (f : A → ℝ → ℝ) {B : ℝ}
    (h : ∀ a ∈ l, ∃ k, 0 ≤ k ∧ ∀ x y, 0 ≤ x → x ≤ y → y ≤ B → f a x - f a y ≤ k * (y - x)) :
    ∃ k, 0 ≤ k ∧ ∀ x y, 0 ≤ x → x ≤ y → y ≤ B →
      (l.map fun a => f a x).sum - (l.map fun a => f a y).sum ≤ k * (y - x) := by
  induction l with
  | nil => exact ⟨0, le_rfl, by simp⟩
  | cons a l ih =>
    obtain ⟨k, hk, h1⟩ := h a (List.mem_cons_self ..)
    obtain ⟨k', hk', h2⟩ := ih fun b hb => h b (List.mem_cons_of_mem _ hb)
    refine ⟨k + k', add_nonneg hk hk', fun x y hx hxy hy => ?_⟩
    simp only [List.map_cons, List.sum_cons, add_mul]
    linarith [h1 x y hx hxy hy, h2 x y hx hxy hy]

theorem gained_lip {rs : List Radiator} (hr : Radiates rs) (q : Bool) {B : ℝ} (hB : 0 ≤ B) :
    ∃ k, 0 ≤ k ∧ ∀ x y, 0 ≤ x → x ≤ y → y ≤ B → gained L rs q x - gained L rs q y ≤ k * (y - x) := by
  unfold gained
  refine lip_list rs _ fun r hm => lip_list r.surfaces _ fun i _ => ?_
  by_cases hi : i = if q then L.right else L.left
  · simp only [if_pos hi]
    exact (hr r hm q).2.1 B hB
  · simp only [if_neg hi]
    exact ⟨0, le_rfl, by simp⟩

theorem gained_ends (G : Bool → ℝ) (q : Bool) (T : ℝ) : gained L [⟨fun q _ => G q, [L.left, L.right]⟩] q T = G q := by
  have hne := L.ends
  cases q <;> simp [gained, hne, hne.symm]

/-- The form with these conditions. -/
theorem radiation_form (L : Line Ω) (r : Fld Ω Bool 1) (mats : List Mat) (T : Temp Ω Bool 1) (dt : Option ℝ)
    (sources : List ((Ω → ℝ) × List ℕ)) (rs : List Radiator) (bcs : List (Flux Bool × List ℕ)) (v : Fld Ω Bool 1) :
    (L.mesh r).assemble (heatForm (L.mesh r) mats T dt sources (rs.map Radiator.bc ++ bcs) v)
      = (L.mesh r).assemble (heatForm (L.mesh r) mats T dt sources bcs v) - ∑ q, gained L rs q (T.T.tr q) * v.tr q := by
  have e : (L.mesh r).assemble ((rs.map Radiator.bc).flatMap fun b =>
      b.2.map fun s => .ds s fun q => -b.1.form T.T.tr (fun _ => 0) q * v.tr q) = -∑ q, gained L rs q (T.T.tr q) * v.tr q := by
    unfold gained
    rw [List.flatMap_map, assemble_flatMap]
    simp only [← List.sum_map_mul_right]
    rw [← Finset.sum_neg_distrib]
    simp only [List.sum_neg, List.map_map]
    rw [← list_sum_comm]
    congr 1
    apply List.map_congr_left
    intro x _
    simp only [Radiator.bc, Flux.form, Function.comp_apply, List.sum_neg, List.map_map]
    rw [← list_sum_comm]
    unfold Mesh.assemble
    rw [List.map_map]
    congr 1
    apply List.map_congr_left
    intro i _
    simp only [Function.comp_apply, integrate_ds]
    unfold surface
    rw [Finset.sum_filter]
    refine Finset.sum_congr rfl fun q _ => ?_
    cases q <;> simp [Line.mesh, eq_comm] <;> split <;> simp
  unfold heatForm
  rw [List.flatMap_append]
  simp only [assemble_append]
  rw [e]
  ring

end

end Festim.Weak

namespace Festim.Props

open Festim.Weak

section
variable {Ω : Type} [Fintype Ω] {L : Line Ω} {r : Fld Ω Bool 1} {mats : List Mat} {mat : Ω → Mat} {dt : Option ℝ}
  {bcs : List (Flux Bool × List ℕ)} {cap cond : Ω → ℝ} {dir : Bool → Prop} {sources : List ((Ω → ℝ) × List ℕ)}
  {Tn : Fld Ω Bool 1} {val : Bool → ℝ} {u w : ℕ → ℝ} {rs : List Radiator}

theorem radiation_equation (hP : LinearHeat L r mats mat dt bcs cap cond dir)
    (hu : HeatSolves L r mats dt sources (rs.map Radiator.bc ++ bcs) Tn dir val u) (v : ℕ → ℝ)
    (hv : ∀ q, dir q → (L.p1 v).tr q = 0) :
    bil L (heatReaction dt cap) cond (fun q => (bcs.map (heatBcExchange L r q)).sum) u v
      - ∑ q, gained L rs q ((L.p1 u).tr q) * (L.p1 v).tr q
      = lin L (heatLoad L dt sources cap Tn) (fun q => (bcs.map (heatBcGiven L r q)).sum) v := by
  have e := hu.2 v hv
  rw [radiation_form, hP.residual] at e
  dsimp only at e
  linarith

/-- **C123 (a).** A step or a steady state of the heat problem with such fluxes has at most one solution which is not negative at the
ends. -/
theorem C123_unique (hP : LinearHeat L r mats mat dt bcs cap cond dir) (hr : Radiates rs)
    (hu : HeatSolves L r mats dt sources (rs.map Radiator.bc ++ bcs) Tn dir val u)
    (hw : HeatSolves L r mats dt sources (rs.map Radiator.bc ++ bcs) Tn dir val w)
    (hu0 : ∀ q, 0 ≤ (L.p1 u).tr q) (hw0 : ∀ q, 0 ≤ (L.p1 w).tr q) : ∀ j ≤ L.N, u j = w j := by
  set v : ℕ → ℝ := u - w with hv
  have hvtr : ∀ q, (L.p1 v).tr q = (L.p1 u).tr q - (L.p1 w).tr q := by
    intro q
    cases q <;> simp [Line.p1, hv]
  have hv0 : ∀ q, dir q → (L.p1 v).tr q = 0 := fun q hq => by rw [hvtr, hu.1 q hq, hw.1 q hq, sub_self]
  have e1 := radiation_equation hP hu v hv0
  have e2 := radiation_equation hP hw v hv0
  have hmono : 0 ≤ ∑ q, (gained L rs q ((L.p1 w).tr q) - gained L rs q ((L.p1 u).tr q)) * (L.p1 v).tr q := by
    refine Finset.sum_nonneg fun q _ => ?_
    rw [hvtr]
    rcases le_total ((L.p1 w).tr q) ((L.p1 u).tr q) with hc | hc
    · exact mul_nonneg (sub_nonneg.2 (gained_anti hr q (hw0 q) hc)) (sub_nonneg.2 hc)
    · exact mul_nonneg_of_nonpos_of_nonpos (sub_nonpos.2 (gained_anti hr q (hu0 q) hc)) (sub_nonpos.2 hc)
  have e5 := bil_sub L (heatReaction dt cap) cond (fun q => (bcs.map (heatBcExchange L r q)).sum) u w v
  rw [← hv] at e5
  simp only [sub_mul, Finset.sum_sub_distrib] at hmono
  have hz := bil_definite L hP.coercive v hv0 (le_antisymm (by linarith) (hP.coercive.parts v).2.2.2)
  exact fun j hj => sub_eq_zero.1 (hz j hj)

/-- **C123 (b).** It has one, nowhere negative: in a transient with cells short compared with the distance heat diffuses during the
step, or in a steady state, if sources, imposed and external temperatures, imposed fluxes and the previous temperature are not
negative. -/
theorem C123_exists (hP : LinearHeat L r mats mat dt bcs cap cond dir) (hL : L.Exact2) (hr : Radiates rs)
    (hsrc : ∀ s ∈ sources, ∀ p, 0 ≤ s.1 p) (hbc : ∀ b ∈ bcs, ∀ q, 0 ≤ inward b.1 0 0 q) (hval : ∀ q, dir q → 0 ≤ val q)
    (hstep : (∃ (h : ℝ) (un ca : ℕ → ℝ), dt = some h ∧ Tn = L.p1 un ∧ (∀ j ≤ L.N, 0 ≤ un j) ∧ (∀ p, cap p = ca (L.cell p)) ∧
        ∀ p, cap p * L.h (L.cell p) ^ 2 ≤ 6 * cond p * h) ∨ dt = none) :
    ∃ u, HeatSolves L r mats dt sources (rs.map Radiator.bc ++ bcs) Tn dir val u ∧ ∀ j ≤ L.N, 0 ≤ u j := by
  have hq : ∀ p, 0 ≤ L.lam p ∧ L.lam p ≤ 1 := fun p => ⟨hL.lam_nonneg p, hL.lam_le p⟩
  obtain ⟨u, hu, hsol⟩ := bil_solve_loss hq hP.coercive (heatLoad L dt sources cap Tn)
    (fun q => (bcs.map (heatBcGiven L r q)).sum) val (fun q x => -gained L rs q x)
    (fun q x y hx hxy => neg_le_neg (gained_anti hr q hx hxy)) fun q B hB => by
      obtain ⟨k, hk, h⟩ := gained_lip (L := L) hr q hB
      exact ⟨k, hk, fun x y hx hxy hy => by linarith [h x y hx hxy hy]⟩
  have hu0 : ∀ j ≤ L.N, 0 ≤ u j := by
    rcases hstep with ⟨h, un, ca, hdt, hTn, hun, hca, hcell⟩ | hdt
    · subst hdt hTn
      have hon : HeatOnLine L r mats sources
          ((.value fun q => gained L rs q (max 0 ((L.p1 u).tr q)), [L.left, L.right]) :: bcs) mat u un ca dir h := by
        refine ⟨hL, hP.cover, hP.step h rfl, fun p => by rw [hP.capacity, hca], ?_, ?_, fun p => by
          rw [hP.conduct, ← hca]; exact hcell p⟩
        · intro i hi
          by_contra hc
          have hs := L.exact i hi
          rw [Finset.sum_eq_zero] at hs
          · exact (L.h_pos i hi).ne hs
          · intro p hp
            have hci : L.cell p = i := (Finset.mem_filter.1 hp).2
            exact absurd (hci ▸ hca p ▸ hP.cap_pos p) hc
        · intro v hv
          have e := hsol v hv
          have e0 := radiation_form L r mats ⟨L.p1 u, L.p1 un⟩ (some h) sources
            [⟨fun q _ => gained L rs q (max 0 ((L.p1 u).tr q)), [L.left, L.right]⟩] bcs (L.p1 v)
          have e1 : ∀ q, gained L [⟨fun q _ => gained L rs q (max 0 ((L.p1 u).tr q)), [L.left, L.right]⟩] q ((L.p1 u).tr q)
              = gained L rs q (max 0 ((L.p1 u).tr q)) := fun q => gained_ends _ q _
          rw [hP.residual] at e0
          simp only [e1] at e0
          simp only [neg_mul, Finset.sum_neg_distrib] at e
          exact e0.trans (by linarith)
      refine C75_heat_lower_bound L r mats sources _ mat u un ca dir h 0 hon hun hsrc ?_ fun q hd => by rw [hu q hd]; exact hval q hd
      intro b hb q _ hlt
      rcases List.mem_cons.1 hb with rfl | hb
      · simp only [inward, max_eq_left hlt.le]
        exact gained_zero hr q
      · have h0 := hbc b hb q
        have ha := hP.fluxes b hb
        obtain ⟨f, ss⟩ := b
        cases f with
        | value g => exact h0
        | convective hh Te =>
          have := ha q
          simp only [inward] at h0 ⊢
          nlinarith
        | dissoc Kd E pr => exact absurd ha (by simp [AffineHeat])
        | recomb Kr E n => exact absurd ha (by simp [AffineHeat])
        | mass h ce => exact absurd ha (by simp [AffineHeat])
        | custom g => exact absurd ha (by simp [AffineHeat])
    · subst hdt
      refine loss_steady_nonneg (R := fun q x => -gained L rs q x) hq hP.coercive (fun p => rfl) (fun q => neg_nonpos.2 (gained_zero hr q)) ?_ ?_ hu hval hsol
      · intro p
        simp only [heatLoad, heatReaction, zero_mul, zero_add, heatGivenAt]
        refine List.sum_nonneg fun x hx => ?_
        obtain ⟨s, hs, rfl⟩ := List.mem_map.1 hx
        refine List.sum_nonneg fun x hx => ?_
        obtain ⟨vol, _, rfl⟩ := List.mem_map.1 hx
        split
        · exact hsrc s hs p
        · exact le_rfl
      · intro q
        refine List.sum_nonneg fun x hx => ?_
        obtain ⟨b, hb, rfl⟩ := List.mem_map.1 hx
        unfold heatBcGiven
        refine List.sum_nonneg fun x hx => ?_
        obtain ⟨s, _, rfl⟩ := List.mem_map.1 hx
        split
        · exact hbc b hb q
        · exact le_rfl
  refine ⟨u, ⟨hu, fun v hv => ?_⟩, hu0⟩
  have htr : ∀ q, 0 ≤ (L.p1 u).tr q := fun q => by
    cases q
    · simpa [Line.p1] using hu0 0 (Nat.zero_le _)
    · simpa [Line.p1] using hu0 L.N le_rfl
  have e := hsol v hv
  simp only [max_eq_right (htr _), neg_mul, Finset.sum_neg_distrib] at e
  rw [radiation_form, hP.residual]
  dsimp only
  linarith

/-- **C123 (b).** A whole simulation: for any initial temperature which is not negative and any data of the steps there is exactly one
sequence of temperatures which are not negative at the ends and in which each one solves its step; it is nowhere negative. -/
theorem C123_run (L : Line Ω) (r : Fld Ω Bool 1) (mats : List Mat) (mat : Ω → Mat) (bcs : ℕ → List (Flux Bool × List ℕ))
    (cap cond : Ω → ℝ) (dir : Bool → Prop) (sources : ℕ → List ((Ω → ℝ) × List ℕ)) (val : ℕ → Bool → ℝ) (rs : ℕ → List Radiator)
    (h : ℕ → ℝ) (ca : ℕ → ℝ) (hP : ∀ k, LinearHeat L r mats mat (some (h k)) (bcs k) cap cond dir) (hL : L.Exact2)
    (hr : ∀ k, Radiates (rs k)) (hsrc : ∀ k, ∀ s ∈ sources k, ∀ p, 0 ≤ s.1 p)
    (hbc : ∀ k, ∀ b ∈ bcs k, ∀ q, 0 ≤ inward b.1 0 0 q) (hval : ∀ k q, dir q → 0 ≤ val k q) (hca : ∀ p, cap p = ca (L.cell p))
    (hstep : ∀ k p, cap p * L.h (L.cell p) ^ 2 ≤ 6 * cond p * h k) (u0 : ℕ → ℝ) (h0 : ∀ j ≤ L.N, 0 ≤ u0 j) :
    (∃ U : ℕ → ℕ → ℝ, U 0 = u0 ∧ (∀ k, HeatSolves L r mats (some (h k)) (sources k) ((rs k).map Radiator.bc ++ bcs k) (L.p1 (U k)) dir
      (val k) (U (k + 1))) ∧ ∀ k, ∀ j ≤ L.N, 0 ≤ U k j) ∧
    ∀ U V : ℕ → ℕ → ℝ, U 0 = u0 → V 0 = u0 →
      (∀ k, HeatSolves L r mats (some (h k)) (sources k) ((rs k).map Radiator.bc ++ bcs k) (L.p1 (U k)) dir (val k) (U (k + 1))) →
      (∀ k, HeatSolves L r mats (some (h k)) (sources k) ((rs k).map Radiator.bc ++ bcs k) (L.p1 (V k)) dir (val k) (V (k + 1))) →
      (∀ k q, 0 ≤ (L.p1 (U k)).tr q) → (∀ k q, 0 ≤ (L.p1 (V k)).tr q) → ∀ k, ∀ i ≤ L.N, U k i = V k i := by
  refine ⟨?_, ?_⟩
  · have hex : ∀ (k : ℕ) (u : ℕ → ℝ), ∃ w, (∀ j ≤ L.N, 0 ≤ u j) →
        HeatSolves L r mats (some (h k)) (sources k) ((rs k).map Radiator.bc ++ bcs k) (L.p1 u) dir (val k) w ∧ ∀ j ≤ L.N, 0 ≤ w j := by
      intro k u
      by_cases hu : ∀ j ≤ L.N, 0 ≤ u j
      · obtain ⟨w, hw⟩ := C123_exists (Tn := L.p1 u) (hP k) hL (hr k) (hsrc k) (hbc k) (hval k)
          (Or.inl ⟨h k, u, ca, rfl, rfl, hu, hca, hstep k⟩)
        exact ⟨w, fun _ => hw⟩
      · exact ⟨0, fun hu' => absurd hu' hu⟩
    choose next hnext using hex
    let U : ℕ → ℕ → ℝ := fun k => Nat.rec u0 (fun k u => next k u) k
    have hU : ∀ k, ∀ j ≤ L.N, 0 ≤ U k j := by
      intro k
      induction k with
      | zero => exact h0
      | succ k ih => exact (hnext k (U k) ih).2
    exact ⟨U, rfl, fun k => (hnext k (U k) (hU k)).1, hU⟩
  · intro U V hU hV h h' hu hv k
    induction k with
    | zero => intro i _; rw [hU, hV]
    | succ k ih =>
      have e : L.p1 (U k) = L.p1 (V k) := p1_congr L ih
      have h1 := h k
      rw [e] at h1
      exact C123_unique (hP k) (hr k) h1 (h' k) (hu (k + 1)) (hv (k + 1))

/-- **C123 (c).** Radiation to surroundings is such a flux. -/
theorem C123_stefan (a T0 : Bool → ℝ) (ha : ∀ q, 0 ≤ a q) (surfaces : List ℕ) : Radiates [stefan a T0 surfaces] := by
  intro x hx q
  rw [List.mem_singleton.1 hx]
  refine ⟨fun x y hx hxy => ?_, fun B hB => ⟨a q * (4 * B ^ 3), mul_nonneg (ha q) (by positivity), fun x y hx hxy hy => ?_⟩, ?_⟩
  · exact mul_le_mul_of_nonneg_left (by linarith [pow_le_pow_left₀ hx hxy 4]) (ha q)
  · have hy0 := hx.trans hxy
    have hxB := hxy.trans hy
    have e : a q * (T0 q ^ 4 - x ^ 4) - a q * (T0 q ^ 4 - y ^ 4)
        = a q * ((y ^ 3 + y ^ 2 * x + y * x ^ 2 + x ^ 3) * (y - x)) := by ring
    show a q * (T0 q ^ 4 - x ^ 4) - a q * (T0 q ^ 4 - y ^ 4) ≤ _
    rw [e, mul_assoc]
    refine mul_le_mul_of_nonneg_left (mul_le_mul_of_nonneg_right ?_ (sub_nonneg.2 hxy)) (ha q)
    have h1 := pow_le_pow_left₀ hy0 hy 3
    have h2 := pow_le_pow_left₀ hx hxB 3
    have h3 : y ^ 2 * x ≤ B ^ 2 * B := mul_le_mul (pow_le_pow_left₀ hy0 hy 2) hxB hx (by positivity)
    have h4 : y * x ^ 2 ≤ B * B ^ 2 := mul_le_mul hy (pow_le_pow_left₀ hx hxB 2) (by positivity) hB
    nlinarith
  · show 0 ≤ a q * (T0 q ^ 4 - 0 ^ 4)
    have := ha q
    have : 0 ≤ T0 q ^ 4 := by positivity
    simp only [ne_eq, OfNat.ofNat_ne_zero, not_false_eq_true, zero_pow, sub_zero]
    positivity

end

namespace KinCase

/-- Unit conductivity and capacity. -/
noncomputable def hM : Mat := { uid := 0, ids := [1], D_0 := 1, E_D := 0, cond := fun _ => 1, cp := fun _ => 1, rho := fun _ => 1 }

/-- Radiation at both ends to surroundings at 1. -/
noncomputable def glow : List Radiator := [stefan (fun _ => 1 / 10) (fun _ => 1) [1, 2]]

theorem hot_case (dt : Option ℝ) (hdt : ∀ h, dt = some h → 0 < h) (dir : Bool → Prop) (hf : dt ≠ none ∨ ∃ q, dir q) :
    LinearHeat L (Fld.const 1) [hM] (fun _ => hM) dt [] (fun _ => 1) (fun _ => 1) dir where
  weights := exact2.w_nonneg
  cover := ⟨by simp, by simp [L, Line.mesh, hM], by simp [hM]⟩
  capacity := by simp [hM, Mat.vcap]
  conduct := by simp [hM]
  cap_pos := by simp
  cond_pos := by simp
  step := hdt
  fluxes := by simp
  fixed := by
    rcases hf with h | ⟨q, h⟩
    · exact Or.inl h
    · exact Or.inr ⟨q, Or.inl h⟩

theorem gained_glow (q : Bool) (T : ℝ) : gained L glow q T = (1 - T ^ 4) / 10 := by
  cases q <;> simp [gained, glow, stefan, L] <;> ring

theorem glow_solves (c : ℝ) (hc : c - 1 + (c ^ 4 - 1) / 5 = 0) :
    HeatSolves L (Fld.const 1) [hM] (some 1) [] (glow.map Radiator.bc ++ []) (L.p1 fun _ => 1) (fun _ => False) (fun _ => 0)
      fun _ => c := by
  refine ⟨by simp, fun v _ => ?_⟩
  rw [radiation_form, (hot_case (some 1) (by simp) (fun _ => False) (by simp)).residual]
  simp only [gained_glow]
  have h21 : ¬ (2 : Fin 3) = 1 := by decide
  simp [bil, lin, heatReaction, heatLoad, heatGivenAt, Line.p1, L, Fin.sum_univ_three, h21]
  linear_combination (v 0 + v 1) / 2 * hc

end KinCase

open KinCase in
/-- **C123 (d).** The equations have solutions below absolute zero as well: a plate of width 1 with unit conductivity and capacity, in
equilibrium with its surroundings at temperature 1, a step of 1 s: both `T = 1` and `T = -2` solve the step. -/
theorem C123_two_solutions :
    HeatSolves L (Fld.const 1) [hM] (some 1) [] (glow.map Radiator.bc ++ []) (L.p1 fun _ => 1) (fun _ => False) (fun _ => 0)
      (fun _ => 1) ∧
    HeatSolves L (Fld.const 1) [hM] (some 1) [] (glow.map Radiator.bc ++ []) (L.p1 fun _ => 1) (fun _ => False) (fun _ => 0)
      fun _ => -2 :=
  ⟨glow_solves _ (by norm_num), glow_solves _ (by norm_num)⟩

namespace KinCase

theorem glow_radiates : Radiates glow := C123_stefan _ _ (by intro q; norm_num) _

-- the steady state with one side held at 5
example : ∃ u, HeatSolves L (Fld.const 1) [hM] none [] (glow.map Radiator.bc ++ []) (Fld.const 0) (fun q => q = true) (fun _ => 5) u ∧
    ∀ j ≤ L.N, 0 ≤ u j :=
  C123_exists (hot_case none (by simp) _ (Or.inr ⟨true, rfl⟩)) exact2 glow_radiates (by simp) (by simp) (by intro q _; norm_num)
    (Or.inr rfl)

example : ∃ u, HeatSolves L (Fld.const 1) [hM] (some 1) [] (glow.map Radiator.bc ++ []) (L.p1 fun _ => 7) (fun _ => False) (fun _ => 0)
    u ∧ ∀ j ≤ L.N, 0 ≤ u j :=
  C123_exists (hot_case (some 1) (by simp) _ (by simp)) exact2 glow_radiates (by simp) (by simp) (by simp)
    (Or.inl ⟨1, fun _ => 7, fun _ => 1, rfl, rfl, by intros; norm_num, by simp, by simp [L]⟩)

example (u : ℕ → ℝ) (hu : HeatSolves L (Fld.const 1) [hM] (some 1) [] (glow.map Radiator.bc ++ []) (L.p1 fun _ => 1) (fun _ => False)
    (fun _ => 0) u) (hu0 : ∀ q, 0 ≤ (L.p1 u).tr q) : ∀ j ≤ L.N, u j = 1 :=
  C123_unique (hot_case (some 1) (by simp) _ (by simp)) glow_radiates hu C123_two_solutions.1 hu0
    (by intro q; cases q <;> simp [Line.p1])

example (u0 : ℕ → ℝ) (h0 : ∀ j ≤ L.N, 0 ≤ u0 j) :=
  C123_run L (Fld.const 1) [hM] (fun _ => hM) (fun _ => []) (fun _ => 1) (fun _ => 1) (fun _ => False) (fun _ => []) (fun _ _ => 0)
    (fun _ => glow) (fun _ => 1) (fun _ => 1) (fun _ => hot_case (some 1) (by simp) _ (by simp)) exact2 (fun _ => glow_radiates)
    (by simp) (by simp) (by simp) (by simp) (by simp [L]) u0 h0

end KinCase

end Festim.Props
