import Verif.Props.KineticsSolution

/-!
# C120: recombination on the surfaces
-/

open scoped BigOperators

set_option linter.unusedSectionVars false
set_option linter.unusedSimpArgs false

namespace Festim.Weak

open Festim.Props

section
variable {Ω : Type} [Fintype Ω] {L : Line Ω} {P : Problem Ω Bool 1} {bcs : List (MobBC Bool)}
  {mat : Ω → Mat} {matS : Bool → Mat} {u un : ℕ → ℝ} {dir : Bool → Prop} {h M : ℝ}

/-- `RecombinationFlux(Kr_0, E_Kr, order, surfaces)`. -/
structure Recomb where
  Kr_0 : Bool → ℝ
  E_Kr : Bool → ℝ
  order : ℝ
  surfaces : List ℕ

/-- The boundary condition. -/
def Recomb.bc (r : Recomb) : MobBC Bool := .flux (.recomb r.Kr_0 r.E_Kr r.order) r.surfaces

/-- Hydrogen which recombines at an end, where the concentration is `c`. -/
noncomputable def recombined (L : Line Ω) (T : Bool → ℝ) (rs : List Recomb) (q : Bool) (c : ℝ) : ℝ :=
  (rs.map fun r => (r.surfaces.map fun i =>
    if i = (if q then L.right else L.left) then arr (r.Kr_0 q) (r.E_Kr q) (T q) * c ^ r.order else 0).sum).sum

/-- Coefficients which are not negative, orders at least one. -/
def Recombines (rs : List Recomb) : Prop := ∀ r ∈ rs, (∀ q, 0 ≤ r.Kr_0 q) ∧ 1 ≤ r.order

/-- The form with recombination. -/
theorem recomb_form {rd : Fld Ω Bool 1} (hm : P.mesh = L.mesh rd) (ht : P.traps = []) (hth : P.mv.theta = false)
    (rs : List Recomb) (v : Fld Ω Bool 1) (F₀ : Form Ω Bool) (h₀ : P.form bcs v [] = .ok F₀) :
    ∃ F, P.form (rs.map Recomb.bc ++ bcs) v [] = .ok F ∧ P.mesh.assemble F = P.mesh.assemble F₀
      + ∑ q, recombined L P.T.T.tr rs q (P.mv.sol.tr q) * v.tr q := by
  have hc : P.mv.mobileConcS P.mesh P.mats = P.mv.sol.tr := by
    funext q
    simp [Mobile.mobileConcS, hth]
  have e : P.mesh.assemble (fluxesForm P.mesh P.mats P.mv P.T P.dt (rs.map Recomb.bc) v)
      = ∑ q, recombined L P.T.T.tr rs q (P.mv.sol.tr q) * v.tr q := by
    unfold fluxesForm recombined
    rw [List.flatMap_map, assemble_flatMap]
    simp only [← List.sum_map_mul_right]
    rw [← list_sum_comm]
    congr 1
    apply List.map_congr_left
    intro r _
    simp only [Recomb.bc, MobBC.form, hc, Flux.form]
    rw [← list_sum_comm]
    unfold Mesh.assemble
    rw [List.map_map]
    congr 1
    apply List.map_congr_left
    intro i _
    simp only [Function.comp_apply, integrate_ds]
    rw [surface_ends hm]
    refine Finset.sum_congr rfl fun q _ => ?_
    rw [ite_mul, zero_mul]
    congr 1
    unfold arr
    ring
  unfold Problem.form mobileForm diffusionForm at h₀ ⊢
  rw [ht] at h₀ ⊢
  refine ⟨_, rfl, ?_⟩
  injection h₀ with h₀
  rw [← h₀, ← e]
  simp only [fluxesForm, List.flatMap_append, assemble_append]
  ring

theorem recombined_mono {rs : List Recomb} (hr : Recombines rs) {T : Bool → ℝ} (q : Bool) {x y : ℝ} (hx : 0 ≤ x)
    (hxy : x ≤ y) : recombined L T rs q x ≤ recombined L T rs q y := by
  unfold recombined
  refine List.sum_le_sum fun r hm => List.sum_le_sum fun i _ => ?_
  split
  all_goals split
  all_goals first
    | exact le_rfl
    | exact mul_le_mul_of_nonneg_left (Real.rpow_le_rpow hx hxy (by linarith [(hr r hm).2]))
        (by unfold arr; have := (hr r hm).1 q; positivity)

theorem recombined_zero {rs : List Recomb} (hr : Recombines rs) {T : Bool → ℝ} (q : Bool) : recombined L T rs q 0 = 0 := by
  unfold recombined
  refine List.sum_eq_zero fun x hx => ?_
  obtain ⟨r, hm, rfl⟩ := List.mem_map.1 hx
  refine List.sum_eq_zero fun x hx => ?_
  obtain ⟨i, _, rfl⟩ := List.mem_map.1 hx
  rw [Real.zero_rpow (by linarith [(hr r hm).2]), mul_zero, ite_self]

theorem rpow_gentle {o B : ℝ} (ho : 1 ≤ o) {x y : ℝ} (hx : 0 ≤ x) (hxy : x ≤ y) (hy : y ≤ B) :
    y ^ o - x ^ o ≤ o * B ^ (o - 1) * (y - x) := by
  rcases hxy.eq_or_lt with rfl | hlt
  · simp
  have hd : ∀ z ∈ Set.Icc x y, HasDerivWithinAt (fun z => z ^ o) (o * z ^ (o - 1)) (Set.Icc x y) z := fun z _ =>
    (Real.hasDerivAt_rpow_const (Or.inr ho)).hasDerivWithinAt
  have key := Convex.norm_image_sub_le_of_norm_hasDerivWithin_le (C := o * B ^ (o - 1)) hd (fun z hz => by
    have hz0 : 0 ≤ z := hx.trans hz.1
    rw [Real.norm_eq_abs, abs_of_nonneg (mul_nonneg (by linarith) (Real.rpow_nonneg hz0 _))]
    exact mul_le_mul_of_nonneg_left (Real.rpow_le_rpow hz0 (hz.2.trans hy) (by linarith)) (by linarith))
    (convex_Icc x y) (Set.left_mem_Icc.2 hxy) (Set.right_mem_Icc.2 hxy)
  rw [Real.norm_eq_abs, Real.norm_eq_abs, abs_of_nonneg (sub_nonneg.2 hxy)] at key
  exact (le_abs_self _).trans key

theorem recombined_gentle {rs : List Recomb} (hr : Recombines rs) {T : Bool → ℝ} (q : Bool) {B : ℝ} (hB : 0 ≤ B) :
    ∃ k, 0 ≤ k ∧ Gentle k fun x => recombined L T rs q (clamp B x) := by
  unfold recombined
  refine Gentle.list rs _ fun r hm => Gentle.list r.surfaces _ fun i _ => ?_
  by_cases hid : i = if q then L.right else L.left
  · simp only [if_pos hid]
    have hk : 0 ≤ arr (r.Kr_0 q) (r.E_Kr q) (T q) := by unfold arr; have := (hr r hm).1 q; positivity
    have ho := (hr r hm).2
    have hb : 0 ≤ r.order * B ^ (r.order - 1) := mul_nonneg (by linarith) (Real.rpow_nonneg hB _)
    refine ⟨arr (r.Kr_0 q) (r.E_Kr q) (T q) * (r.order * B ^ (r.order - 1)), mul_nonneg hk hb,
      Gentle.clamp (R := fun x => arr (r.Kr_0 q) (r.E_Kr q) (T q) * x ^ r.order) (mul_nonneg hk hb) hB fun x y hx hxy hy => ⟨?_, ?_⟩⟩
    · exact mul_le_mul_of_nonneg_left (Real.rpow_le_rpow hx hxy (by linarith)) hk
    · have := mul_le_mul_of_nonneg_left (rpow_gentle ho hx hxy hy) hk
      linarith
  · simp only [if_neg hid]
    exact ⟨0, le_rfl, Gentle.zero⟩

end

end Festim.Weak

namespace Festim.Props

open Festim.Weak

section
variable {Ω : Type} [Fintype Ω] {L : Line Ω} {P : Problem Ω Bool 1} {bcs : List (MobBC Bool)}
  {mat : Ω → Mat} {matS : Bool → Mat} {u w un : ℕ → ℝ} {dir : Bool → Prop} {val : Bool → ℝ} {h : ℝ} {rs : List Recomb}

theorem recomb_equation (hP : LinearLine L P bcs mat matS dir) (hth : P.mv.theta = false) (hu : LineSolves L P (rs.map Recomb.bc ++ bcs) dir val u) (v : ℕ → ℝ)
    (hv : ∀ q, dir q → (L.p1 v).tr q = 0) :
    bil L (reactionOf P mat) (conductivity P mat) (exchangeOf P bcs matS) u v
      + ∑ q, recombined L P.T.T.tr rs q ((L.p1 u).tr q) * (L.p1 v).tr q = lin L (loadOf P mat) (fluxAt P bcs) v := by
  obtain ⟨r, hm⟩ := hP.mesh
  obtain ⟨F₀, h₀⟩ := hP.formOk u v
  obtain ⟨F, hF, e⟩ := recomb_form (P := P.withSol (L.p1 u)) (rd := r) hm hP.traps hth rs (L.p1 v) F₀ h₀
  obtain ⟨F', hF', e'⟩ := hu.2 v hv
  obtain rfl : F = F' := by
    rw [hF] at hF'
    injection hF' with h
  have e2 : P.mesh.assemble F = P.mesh.assemble F₀ + ∑ q, recombined L P.T.T.tr rs q ((L.p1 u).tr q) * (L.p1 v).tr q := e
  rw [e', hP.residual u v F₀ h₀] at e2
  linarith

/-- **C120 (a).** With recombination fluxes of any orders at least one, a step or a steady state has at most one solution which is
not negative at the ends. -/
theorem C120_unique (hP : LinearLine L P bcs mat matS dir) (hth : P.mv.theta = false) (hr : Recombines rs)
    (hu : LineSolves L P (rs.map Recomb.bc ++ bcs) dir val u) (hw : LineSolves L P (rs.map Recomb.bc ++ bcs) dir val w)
    (hu0 : ∀ q, 0 ≤ (L.p1 u).tr q) (hw0 : ∀ q, 0 ≤ (L.p1 w).tr q) : ∀ j ≤ L.N, u j = w j := by
  set v : ℕ → ℝ := u - w with hv
  have hvtr : ∀ q, (L.p1 v).tr q = (L.p1 u).tr q - (L.p1 w).tr q := by
    intro q
    cases q <;> simp [Line.p1, hv]
  have hv0 : ∀ q, dir q → (L.p1 v).tr q = 0 := fun q hq => by rw [hvtr, hu.1 q hq, hw.1 q hq, sub_self]
  have e1 := recomb_equation hP hth hu v hv0
  have e2 := recomb_equation hP hth hw v hv0
  have hmono : 0 ≤ ∑ q, (recombined L P.T.T.tr rs q ((L.p1 u).tr q) - recombined L P.T.T.tr rs q ((L.p1 w).tr q)) * (L.p1 v).tr q := by
    refine Finset.sum_nonneg fun q _ => ?_
    rw [hvtr]
    rcases le_total ((L.p1 w).tr q) ((L.p1 u).tr q) with hc | hc
    · exact mul_nonneg (sub_nonneg.2 (recombined_mono hr q (hw0 q) hc)) (sub_nonneg.2 hc)
    · exact mul_nonneg_of_nonpos_of_nonpos (sub_nonpos.2 (recombined_mono hr q (hu0 q) hc)) (sub_nonpos.2 hc)
  have e5 : bil L (reactionOf P mat) (conductivity P mat) (exchangeOf P bcs matS) v v
      = bil L (reactionOf P mat) (conductivity P mat) (exchangeOf P bcs matS) u v
      - bil L (reactionOf P mat) (conductivity P mat) (exchangeOf P bcs matS) w v := by rw [hv, bil_sub]
  simp only [sub_mul, Finset.sum_sub_distrib] at hmono
  have hz := bil_definite L hP.coercive v hv0 (le_antisymm (by linarith) (hP.coercive.parts v).2.2.2)
  exact fun j hj => sub_eq_zero.1 (hz j hj)

/-- **C120 (b).** It has one, nowhere negative: in a transient with cells short compared with the distance diffused during the
step, or in a steady state with a Dirichlet condition, if nothing else pushes the concentration below zero. -/
theorem C120_exists (hP : LinearLine L P bcs mat matS dir) (hL : L.Exact2) (hth : P.mv.theta = false) (hso : P.soret = false)
    (hr : Recombines rs)
    (hpush : ∀ u, (∀ q, dir q → (L.p1 u).tr q = val q) → Pushes L (P.withSol (L.p1 u)) bcs u dir 1 0)
    (hstep : (∃ h un, P.dt = some h ∧ P.mv.prev = L.p1 un ∧ (∀ j ≤ L.N, 0 ≤ un j) ∧
        ∀ p, L.h (L.cell p) ^ 2 ≤ 6 * diffAt P mat p * h) ∨ P.dt = none ∧ ∃ q, dir q) :
    ∃ u, LineSolves L P (rs.map Recomb.bc ++ bcs) dir val u ∧ ∀ j ≤ L.N, 0 ≤ u j := by
  obtain ⟨r, hm⟩ := hP.mesh
  have hq : ∀ p, 0 ≤ L.lam p ∧ L.lam p ≤ 1 := fun p => ⟨hL.lam_nonneg p, hL.lam_le p⟩
  -- without recombination
  obtain ⟨z, hz, hzsol⟩ := bil_solve L hP.coercive (loadOf P mat) (fluxAt P bcs) val
  obtain ⟨γ, hγ, hE⟩ := hP.coercive.ends hq
  set ρ : Bool → ℝ := fun q => recombined L P.T.T.tr rs q (max 0 ((L.p1 z).tr q)) with hρ
  have hρ0 : ∀ q, 0 ≤ ρ q := fun q => by
    have := recombined_mono (L := L) (T := P.T.T.tr) hr q le_rfl (le_max_left 0 ((L.p1 z).tr q))
    rwa [recombined_zero hr] at this
  set B : ℝ := |(L.p1 z).tr true| + |(L.p1 z).tr false| + (ρ true + ρ false) / γ with hB
  have hB0 : 0 ≤ B := by
    have := div_nonneg (add_nonneg (hρ0 true) (hρ0 false)) hγ.le
    positivity
  set R : Bool → ℝ → ℝ := fun q x => recombined L P.T.T.tr rs q (clamp B x) with hR
  choose k hk0 hk using fun q => recombined_gentle (L := L) (T := P.T.T.tr) hr q hB0
  obtain ⟨u, hval, hsol⟩ := bil_solve_monotone hq hP.coercive (loadOf P mat) (fluxAt P bcs) val R (1 + k true + k false)
    (by linarith [hk0 true, hk0 false]) fun q => by
      cases q
      · exact (hk false).le (by linarith [hk0 true])
      · exact (hk true).le (by linarith [hk0 false])
  -- bound
  set v : ℕ → ℝ := u - z with hv
  have hvtr : ∀ q, (L.p1 v).tr q = (L.p1 u).tr q - (L.p1 z).tr q := by
    intro q
    cases q <;> simp [Line.p1, hv]
  have hv0 : ∀ q, dir q → (L.p1 v).tr q = 0 := fun q hq => by rw [hvtr, hval q hq, hz q hq, sub_self]
  have e1 := hsol v hv0
  have e2 := hzsol v hv0
  have e5 : bil L (reactionOf P mat) (conductivity P mat) (exchangeOf P bcs matS) v v
      = bil L (reactionOf P mat) (conductivity P mat) (exchangeOf P bcs matS) u v
      - bil L (reactionOf P mat) (conductivity P mat) (exchangeOf P bcs matS) z v := by rw [hv, bil_sub]
  have hRz : ∀ q, 0 ≤ R q ((L.p1 z).tr q) ∧ R q ((L.p1 z).tr q) ≤ ρ q := by
    intro q
    have h1 := (clamp_mem hB0 ((L.p1 z).tr q)).1
    constructor
    · have := recombined_mono (L := L) (T := P.T.T.tr) hr q le_rfl h1
      rwa [recombined_zero hr] at this
    · exact recombined_mono hr q h1 (max_le_max le_rfl (min_le_left _ _))
  have hterm : ∀ q, -(ρ q * |(L.p1 v).tr q|) ≤ R q ((L.p1 u).tr q) * (L.p1 v).tr q := by
    intro q
    have hRm : 0 ≤ (R q ((L.p1 u).tr q) - R q ((L.p1 z).tr q)) * (L.p1 v).tr q := by
      rw [hvtr]
      rcases le_total ((L.p1 z).tr q) ((L.p1 u).tr q) with hc | hc
      · exact mul_nonneg (sub_nonneg.2 (hk q _ _ hc).1) (sub_nonneg.2 hc)
      · exact mul_nonneg_of_nonpos_of_nonpos (sub_nonpos.2 (hk q _ _ hc).1) (sub_nonpos.2 hc)
    have h1 := mul_le_mul_of_nonneg_right (hRz q).2 (abs_nonneg ((L.p1 v).tr q))
    have h2 := mul_le_mul_of_nonneg_left (neg_abs_le ((L.p1 v).tr q)) (hRz q).1
    linarith
  have hEv := hE v hv0
  rw [Fintype.sum_bool] at hEv e1
  have hsum : γ * ((L.p1 v).tr true ^ 2 + (L.p1 v).tr false ^ 2)
      ≤ ρ true * |(L.p1 v).tr true| + ρ false * |(L.p1 v).tr false| := by
    linarith [hterm true, hterm false]
  have hvB : ∀ q, |(L.p1 v).tr q| ≤ (ρ true + ρ false) / γ := by
    set a := |(L.p1 v).tr true| with ha
    set b := |(L.p1 v).tr false| with hb
    have ha0 : 0 ≤ a := abs_nonneg _
    have hb0 : 0 ≤ b := abs_nonneg _
    rw [← sq_abs ((L.p1 v).tr true), ← sq_abs ((L.p1 v).tr false), ← ha, ← hb] at hsum
    have r1 := hρ0 true
    have r2 := hρ0 false
    have hab : max a b ≤ (ρ true + ρ false) / γ := by
      rw [le_div_iff₀ hγ]
      rcases (le_max_of_le_left (b := a) (c := b) ha0).eq_or_lt with h0 | h0
      · rw [← h0, zero_mul]
        linarith
      · have m1 : (max a b) ^ 2 ≤ a ^ 2 + b ^ 2 := by
          rcases max_cases a b with ⟨h, _⟩ | ⟨h, _⟩ <;> rw [h] <;> nlinarith
        have m2 : ρ true * a + ρ false * b ≤ (ρ true + ρ false) * max a b := by
          rw [add_mul]
          exact add_le_add (mul_le_mul_of_nonneg_left (le_max_left _ _) r1) (mul_le_mul_of_nonneg_left (le_max_right _ _) r2)
        have m3 : γ * max a b * max a b ≤ (ρ true + ρ false) * max a b := by
          have := mul_le_mul_of_nonneg_left m1 hγ.le
          nlinarith
        have := le_of_mul_le_mul_right m3 h0
        linarith
    intro q
    cases q
    · exact (le_max_right a b).trans hab
    · exact (le_max_left a b).trans hab
  have huB : ∀ q, (L.p1 u).tr q ≤ B := by
    intro q
    have h1 := (le_abs_self _).trans (hvB q)
    rw [hvtr] at h1
    have h2 : (L.p1 z).tr q ≤ |(L.p1 z).tr true| + |(L.p1 z).tr false| := by
      cases q
      · exact (le_abs_self _).trans (le_add_of_nonneg_left (abs_nonneg _))
      · exact (le_abs_self _).trans (le_add_of_nonneg_right (abs_nonneg _))
    linarith
  -- it is not negative
  have hon : OnLine L (P.withSol (L.p1 u)) (.flux (.value fun q => -R q ((L.p1 u).tr q)) [L.left, L.right] :: bcs) mat u dir := by
    refine ⟨hL, ⟨r, hm⟩, hP.traps, hth, hso, rfl, hP.cover, ?_, ?_⟩
    · intro b vs hb
      rcases List.mem_cons.1 hb with hb | hb
      · cases hb
      · exact hP.noSK b vs hb
    · intro v hv F hF
      obtain ⟨F₀, h₀⟩ := hP.formOk u v
      have e := hsol v hv
      have e0 := hP.residual u v F₀ h₀
      have e1 : (P.withSol (L.p1 u)).mesh.assemble F₀ + ∑ q, R q ((L.p1 u).tr q) * (L.p1 v).tr q = 0 := by
        show P.mesh.assemble F₀ + _ = 0
        rw [e0]
        linarith
      rw [value_ends (show (P.withSol (L.p1 u)).mesh = L.mesh r from hm) hP.traps _ _ F F₀ hF h₀]
      simp only [neg_mul, Finset.sum_neg_distrib, sub_neg_eq_add]
      exact e1
  have push := hpush u hval
  have push' : Pushes L (P.withSol (L.p1 u)) (.flux (.value fun q => -R q ((L.p1 u).tr q)) [L.left, L.right] :: bcs) u dir 1 0 :=
    ⟨push.src, fun f ss hf q hq hlt => by
      rcases List.mem_cons.1 hf with hf | hf
      · cases hf
        have hneg : (L.p1 u).tr q < 0 := by simpa using hlt
        have hc : clamp B ((L.p1 u).tr q) = 0 := by
          unfold clamp
          rw [min_eq_left (huB q), max_eq_left hneg.le]
        show 0 ≤ 1 * -R q ((L.p1 u).tr q)
        simp only [hR, hc, recombined_zero hr, neg_zero, mul_zero, le_refl]
      · exact push.bc f ss hf q hq hlt, push.dirichlet⟩
  have hu : ∀ j ≤ L.N, 0 ≤ u j := by
    rcases hstep with ⟨h, un, hdt, hprev, hun, hcell⟩ | ⟨hdt, hdir⟩
    · exact C75_lower_bound L _ _ mat u un dir h 0 hon hdt (hP.step h hdt) hprev hun push' hcell
    · exact C75_steady L _ _ mat u dir 0 hon hdt push' (fun p => arr_pos (hP.D_pos _ (hP.cover.mem p))) hdir
  refine ⟨u, ⟨hval, fun v hv => ?_⟩, hu⟩
  have htr : ∀ q, 0 ≤ (L.p1 u).tr q := fun q => by
    cases q
    · simpa [Line.p1] using hu 0 (Nat.zero_le _)
    · simpa [Line.p1] using hu L.N le_rfl
  obtain ⟨F₀, h₀⟩ := hP.formOk u v
  obtain ⟨F, hF, e⟩ := recomb_form (P := P.withSol (L.p1 u)) (rd := r) hm hP.traps hth rs (L.p1 v) F₀ h₀
  refine ⟨F, hF, ?_⟩
  have e2 : P.mesh.assemble F = P.mesh.assemble F₀ + ∑ q, recombined L P.T.T.tr rs q ((L.p1 u).tr q) * (L.p1 v).tr q := e
  rw [e2, hP.residual u v F₀ h₀]
  have e3 := hsol v hv
  simp only [hR, clamp_self ⟨htr _, huB _⟩] at e3
  linarith

/-- **C120 (b).** A whole simulation: for any initial concentration which is not negative and any data of the steps there is exactly
one sequence of fields which are not negative at the ends and in which each one solves its step; it is nowhere negative. -/
theorem C120_run (Ps : ℕ → Problem Ω Bool 1) (bcs : ℕ → List (MobBC Bool)) (mat : ℕ → Ω → Mat) (matS : ℕ → Bool → Mat)
    (dir : ℕ → Bool → Prop) (val : ℕ → Bool → ℝ) (rs : ℕ → List Recomb) (h : ℕ → ℝ) (hL : L.Exact2)
    (hP : ∀ k, LinearLine L (Ps k) (bcs k) (mat k) (matS k) (dir k)) (hth : ∀ k, (Ps k).mv.theta = false)
    (hso : ∀ k, (Ps k).soret = false) (hr : ∀ k, Recombines (rs k))
    (hpush : ∀ k u, (∀ q, dir k q → (L.p1 u).tr q = val k q) → Pushes L ((Ps k).withSol (L.p1 u)) (bcs k) u (dir k) 1 0)
    (hdt : ∀ k, (Ps k).dt = some (h k)) (hstep : ∀ k p, L.h (L.cell p) ^ 2 ≤ 6 * diffAt (Ps k) (mat k) p * h k)
    (u0 : ℕ → ℝ) (h0 : ∀ j ≤ L.N, 0 ≤ u0 j) :
    (∃ U : ℕ → ℕ → ℝ, U 0 = u0 ∧ (∀ k, LineSolves L ((Ps k).withPrev (L.p1 (U k))) ((rs k).map Recomb.bc ++ bcs k) (dir k) (val k)
      (U (k + 1))) ∧ ∀ k, ∀ j ≤ L.N, 0 ≤ U k j) ∧
    ∀ U V : ℕ → ℕ → ℝ, U 0 = u0 → V 0 = u0 →
      (∀ k, LineSolves L ((Ps k).withPrev (L.p1 (U k))) ((rs k).map Recomb.bc ++ bcs k) (dir k) (val k) (U (k + 1))) →
      (∀ k, LineSolves L ((Ps k).withPrev (L.p1 (V k))) ((rs k).map Recomb.bc ++ bcs k) (dir k) (val k) (V (k + 1))) →
      (∀ k q, 0 ≤ (L.p1 (U k)).tr q) → (∀ k q, 0 ≤ (L.p1 (V k)).tr q) → ∀ k, ∀ i ≤ L.N, U k i = V k i := by
  refine ⟨?_, ?_⟩
  · have hex : ∀ (k : ℕ) (u : ℕ → ℝ), ∃ w, (∀ j ≤ L.N, 0 ≤ u j) →
        LineSolves L ((Ps k).withPrev (L.p1 u)) ((rs k).map Recomb.bc ++ bcs k) (dir k) (val k) w ∧ ∀ j ≤ L.N, 0 ≤ w j := by
      intro k u
      by_cases hu : ∀ j ≤ L.N, 0 ≤ u j
      · obtain ⟨w, hw⟩ := C120_exists (P := (Ps k).withPrev (L.p1 u)) (rs := rs k) (val := val k) (LinearLine.withPrev (hP k) (L.p1 u)) hL
          (hth k) (hso k) (hr k) (fun x hx => ⟨(hpush k x hx).src, (hpush k x hx).bc, (hpush k x hx).dirichlet⟩)
          (Or.inl ⟨h k, u, hdt k, rfl, hu, hstep k⟩)
        exact ⟨w, fun _ => hw⟩
      · exact ⟨0, fun hu' => absurd hu' hu⟩
    choose next hnext using hex
    let U : ℕ → ℕ → ℝ := fun k => Nat.rec u0 (fun k u => next k u) k
    have hU : ∀ k, ∀ j ≤ L.N, 0 ≤ U k j := by
      intro k
      induction k with
      | zero => exact h0
      | succ k ih => exact (hnext k (U k) ih).2
    exact ⟨U, rfl, fun k => (hnext k (U k) (hU k)).1, hU⟩
  · intro U V hU hV h h' hu hv k
    induction k with
    | zero => intro i _; rw [hU, hV]
    | succ k ih =>
      have e : L.p1 (U k) = L.p1 (V k) := p1_congr L ih
      have h1 := h k
      rw [e] at h1
      exact C120_unique (LinearLine.withPrev (hP k) (L.p1 (V k))) (hth k) (hr k) h1 (h' k) (hu (k + 1)) (hv (k + 1))

/-- **C120 (d).** The more recombination, the less hydrogen: of two solutions which are not negative at the ends, the one with nowhere
larger coefficients and nowhere smaller sources, imposed and previous concentrations has nowhere less hydrogen. -/
theorem C120_comparison {mat : Ω → Mat} (un wn : ℕ → ℝ) (ss : List (((Ω → ℝ) × (Ω → ℝ)) × List ℕ)) (rs : List (Recomb × Recomb))
    (hrs : ∀ r ∈ rs, r.2.E_Kr = r.1.E_Kr ∧ r.2.order = r.1.order ∧ r.2.surfaces = r.1.surfaces ∧ 0 ≤ r.1.order ∧
      ∀ q, 0 ≤ r.2.Kr_0 q ∧ r.2.Kr_0 q ≤ r.1.Kr_0 q)
    (h1 : OnLine L (P.withData (L.p1 u) (L.p1 un) (ss.map fun s => ⟨.given s.1.1, s.2⟩)) (rs.map fun r => r.1.bc) mat u dir)
    (h2 : OnLine L (P.withData (L.p1 w) (L.p1 wn) (ss.map fun s => ⟨.given s.1.2, s.2⟩)) (rs.map fun r => r.2.bc) mat w dir)
    (hss : ∀ s ∈ ss, ∀ p, s.1.1 p ≤ s.1.2 p) (hdir : ∀ q, dir q → (L.p1 u).tr q ≤ (L.p1 w).tr q)
    (hw0 : ∀ q, 0 ≤ (L.p1 w).tr q)
    (hstep : (∃ h, P.dt = some h ∧ 0 < h ∧ (∀ j ≤ L.N, un j ≤ wn j) ∧ ∀ p, L.h (L.cell p) ^ 2 ≤ 6 * diffAt P mat p * h) ∨
      P.dt = none ∧ (∀ p, 0 < diffAt P mat p) ∧ ∃ q, dir q) : ∀ j ≤ L.N, u j ≤ w j := by
  refine C108_comparison L P mat dir u w un wn ss
    (rs.map fun r => ((.recomb r.1.Kr_0 r.1.E_Kr r.1.order, .recomb r.2.Kr_0 r.2.E_Kr r.2.order), r.1.surfaces)) ?_ ?_ hss ?_ hdir hstep
  · rw [List.map_map]
    exact h1
  · rw [List.map_map]
    have e : rs.map ((fun f : (Flux Bool × Flux Bool) × List ℕ => MobBC.flux f.1.2 f.2) ∘ fun r =>
        ((.recomb r.1.Kr_0 r.1.E_Kr r.1.order, .recomb r.2.Kr_0 r.2.E_Kr r.2.order), r.1.surfaces)) = rs.map fun r => r.2.bc := by
      apply List.map_congr_left
      intro r hr
      simp [Recomb.bc, (hrs r hr).2.2.1]
    rw [e]
    exact h2
  · intro f hf q hlt
    obtain ⟨r, hr, rfl⟩ := List.mem_map.1 hf
    obtain ⟨e1, e2, _, ho, hK⟩ := hrs r hr
    simp only [inward, e1, e2]
    have a1 := Real.rpow_le_rpow (hw0 q) hlt.le ho
    have a2 := Real.rpow_nonneg (hw0 q) r.1.order
    have a3 : arr (r.2.Kr_0 q) (r.1.E_Kr q) (P.T.T.tr q) ≤ arr (r.1.Kr_0 q) (r.1.E_Kr q) (P.T.T.tr q) :=
      mul_le_mul_of_nonneg_right (hK q).2 (Real.exp_pos _).le
    have a4 : 0 ≤ arr (r.1.Kr_0 q) (r.1.E_Kr q) (P.T.T.tr q) := mul_nonneg ((hK q).1.trans (hK q).2) (Real.exp_pos _).le
    exact neg_le_neg (mul_le_mul a3 a1 a2 a4)

end

namespace KinCase

/-- Recombination of order two at both ends. -/
noncomputable def pairs : List Recomb := [⟨fun _ => 1, fun _ => 0, 2, [1, 2]⟩]

theorem pairs_rates : Recombines pairs := by
  intro r hr
  simp only [pairs, List.mem_singleton] at hr
  subst hr
  exact ⟨fun _ => zero_le_one, by norm_num⟩

theorem recombined_pairs (q : Bool) (c : ℝ) : recombined L (fun _ => 300) pairs q c = c ^ 2 := by
  cases q <;> simp [recombined, pairs, L, arr]

theorem pairs_solves (c : ℝ) (hc : c - 1 + 2 * c ^ 2 = 0) :
    LineSolves L (P (some 1) (fun _ => 0) fun _ => 1) (pairs.map Recomb.bc ++ []) (fun _ => False) (fun _ => 0) fun _ => c := by
  refine ⟨by simp, fun v _ => ?_⟩
  obtain ⟨F₀, h₀⟩ := form_ok_notraps (P (some 1) (fun _ => c) fun _ => 1) [] (L.p1 v) rfl
  obtain ⟨F, hF, e⟩ := recomb_form (P := P (some 1) (fun _ => c) fun _ => 1) (rd := Fld.const 1) rfl rfl rfl pairs (L.p1 v) F₀ h₀
  refine ⟨F, hF, ?_⟩
  have e1 := cell_form _ _ _ _ F₀ h₀
  have e2 : ∀ q, recombined L (P (some 1) (fun _ => c) fun _ => 1).T.T.tr pairs q ((L.p1 fun _ => c).tr q) = c ^ 2 := by
    intro q
    have := recombined_pairs q c
    cases q <;> simpa [P, Fld.const, Line.p1] using this
  show (P (some 1) (fun _ => c) fun _ => 1).mesh.assemble F = 0
  rw [e, e1]
  have e3 : ∀ q, recombined L (P (some 1) (fun _ => c) fun _ => 1).T.T.tr pairs q
      ((P (some 1) (fun _ => c) fun _ => 1).mv.sol.tr q) = c ^ 2 := e2
  simp only [e3, Fintype.sum_bool]
  simp [cellMass, Line.p1, cells]
  linear_combination (v 0 + v 1) / 2 * hc

end KinCase

open KinCase in
/-- **C120 (c).** The equations have negative solutions as well: a uniform concentration 1 in a plate of width 1, recombination of
order two with coefficient 1 at both surfaces, a step of 1 s: `c = 1/2` and `c = -1` both solve the step. -/
theorem C120_two_solutions :
    LineSolves L (P (some 1) (fun _ => 0) fun _ => 1) (pairs.map Recomb.bc ++ []) (fun _ => False) (fun _ => 0) (fun _ => 1 / 2) ∧
    LineSolves L (P (some 1) (fun _ => 0) fun _ => 1) (pairs.map Recomb.bc ++ []) (fun _ => False) (fun _ => 0) fun _ => -1 :=
  ⟨pairs_solves _ (by norm_num), pairs_solves _ (by norm_num)⟩

namespace KinCase

/-- The only solution of this step which is not negative. -/
example (w : ℕ → ℝ) (hw : LineSolves L (P (some 1) (fun _ => 0) fun _ => 1) (pairs.map Recomb.bc ++ []) (fun _ => False) (fun _ => 0) w)
    (h0 : 0 ≤ w 0) (h1 : 0 ≤ w 1) : w 0 = 1 / 2 ∧ w 1 = 1 / 2 := by
  have e := C120_unique (line _ _) rfl pairs_rates hw C120_two_solutions.1
    (by
      intro q
      cases q
      · simpa [Line.p1] using h0
      · simpa [Line.p1, cells] using h1)
    (by intro q; cases q <;> norm_num [Line.p1])
  exact ⟨e 0 (by simp [cells]), e 1 (by simp [cells])⟩

/-- Recombination of order 3/2 and 2 on the same surface. -/
noncomputable def mixed : List Recomb := [⟨fun _ => 1, fun _ => 0, 2, [1, 2]⟩, ⟨fun _ => 5, fun _ => 1 / 2, 3 / 2, [2]⟩]

example : ∃ u, LineSolves L (P (some 1) (fun _ => 0) fun _ => 1) (mixed.map Recomb.bc ++ []) (fun _ => False) (fun _ => 0) u ∧
    ∀ j ≤ L.N, 0 ≤ u j :=
  C120_exists (line _ _) exact2 rfl rfl
    (by
      intro r hr
      simp only [mixed, List.mem_cons, List.not_mem_nil, or_false] at hr
      rcases hr with rfl | rfl <;> norm_num)
    (fun u _ => ⟨by simp [P, Problem.withSol], by simp, by simp⟩)
    (Or.inl ⟨1, fun _ => 1, rfl, rfl, fun _ _ => zero_le_one, short _ _⟩)

/-- Without recombination nothing leaves. -/
noncomputable def sealed : List Recomb := [⟨fun _ => 0, fun _ => 0, 2, [1, 2]⟩]

theorem uniform_onLine (c : ℝ) (rs : List Recomb) (hrs : ∀ q, recombined L (fun _ => 300) rs q c = (1 - c) / 2) :
    OnLine L (P (some 1) (fun _ => c) fun _ => 1) (rs.map Recomb.bc) (fun _ => M) (fun _ => c) fun _ => False where
  quad := exact2
  mesh := ⟨_, rfl⟩
  traps := rfl
  theta := rfl
  soret := rfl
  sol := rfl
  cover := ⟨by simp [P], by simp [P, L, Line.mesh, M], by simp [P, M]⟩
  noSK := by simp [Recomb.bc]
  solves v _ F hF := by
    obtain ⟨F₀, h₀⟩ := form_ok_notraps (P (some 1) (fun _ => c) fun _ => 1) [] (L.p1 v) rfl
    obtain ⟨F', hF', e⟩ := recomb_form (P := P (some 1) (fun _ => c) fun _ => 1) (rd := Fld.const 1) rfl rfl rfl rs (L.p1 v) F₀ h₀
    rw [List.append_nil] at hF'
    obtain rfl : F = F' := by
      rw [hF'] at hF
      injection hF with hF
      exact hF.symm
    have e2 : ∀ q, recombined L (P (some 1) (fun _ => c) fun _ => 1).T.T.tr rs q
        ((P (some 1) (fun _ => c) fun _ => 1).mv.sol.tr q) = (1 - c) / 2 := by
      intro q
      have := hrs q
      cases q <;> simpa [P, Fld.const, Line.p1] using this
    rw [e, cell_form _ _ _ _ F₀ h₀]
    simp only [e2, Fintype.sum_bool]
    simp [cellMass, Line.p1, cells]
    ring

example : ∀ j ≤ L.N, (fun _ => 1 / 2 : ℕ → ℝ) j ≤ (fun _ => 1 : ℕ → ℝ) j :=
  C120_comparison (L := L) (P := P (some 1) (fun _ => 0) fun _ => 1) (dir := fun _ => False) (mat := fun _ => M) (fun _ => 1) (fun _ => 1)
    [] (pairs.zip sealed) (by simp [pairs, sealed]) (uniform_onLine (1 / 2) pairs fun q => by rw [recombined_pairs]; norm_num)
    (uniform_onLine 1 sealed fun q => by cases q <;> simp [recombined, sealed, arr]) (by simp) (by simp)
    (by intro q; cases q <;> norm_num [Line.p1]) (Or.inl ⟨1, rfl, one_pos, fun _ _ => le_rfl, short _ _⟩)

end KinCase

end Festim.Props
