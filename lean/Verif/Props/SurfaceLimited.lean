import Verif.Props.Outgassing
import Verif.Props.Permeation

/-!
# C122: permeation between surfaces with dissociation and recombination
-/

open scoped BigOperators Topology
open Filter

set_option linter.unusedSectionVars false
set_option linter.unusedSimpArgs false

namespace Festim.Weak

open Festim.Props

/-- Fluxes which do not depend on the concentration: given ones and dissociation. -/
def GivenFlux {Γ : Type} : MobBC Γ → Prop
  | .flux (.value _) _ => True
  | .flux (.dissoc _ _ _) _ => True
  | _ => False

section
variable {Ω : Type} [Fintype Ω] {L : Line Ω} {P : Problem Ω Bool 1} {gs : List (MobBC Bool)} {rs : List Recomb}
  {mat : Ω → Mat} {matS : Bool → Mat} {u : ℕ → ℝ}

theorem given_affine (h : ∀ b ∈ gs, GivenFlux b) : ∀ b ∈ gs, AffineFlux b := by
  intro b hb
  have := h b hb
  unfold GivenFlux at this
  split at this <;> simp_all [AffineFlux]

theorem given_exchange (h : ∀ b ∈ gs, GivenFlux b) (q : Bool) : exchangeAt P gs q = 0 := by
  unfold exchangeAt
  refine List.sum_eq_zero fun x hx => ?_
  obtain ⟨b, hb, rfl⟩ := List.mem_map.1 hx
  have := h b hb
  unfold GivenFlux at this
  split at this <;> simp_all [bcExchange]

theorem permeation_inflow {r : Fld Ω Bool 1} (hm : P.mesh = L.mesh r) (hth : P.mv.theta = false) (hu : P.mv.sol = L.p1 u)
    (h : ∀ b ∈ gs, GivenFlux b) (q : Bool) :
    inflowAt P (rs.map Recomb.bc ++ gs) matS q = fluxAt P gs q - recombined L P.T.T.tr rs q ((L.p1 u).tr q) := by
  have hc : P.cS matS = (L.p1 u).tr := by
    funext q
    simp [Problem.cS, physConc, hth, hu]
  unfold inflowAt
  rw [List.map_append, List.sum_append, fluxes_linear L P gs r hm (given_affine h), hc]
  simp only [given_exchange h, zero_mul, sub_zero, mul_ite, mul_one, mul_zero, Finset.sum_ite_eq', Finset.mem_univ, if_true]
  rw [add_comm, sub_eq_add_neg]
  congr 1
  unfold recombined
  rw [List.map_map, List.sum_neg, List.map_map]
  congr 1
  apply List.map_congr_left
  intro r' _
  simp only [Function.comp_apply, Recomb.bc, bcInflow]
  rw [List.sum_neg, List.map_map]
  congr 1
  apply List.map_congr_left
  intro i _
  simp only [Function.comp_apply]
  rw [surface_ends hm, Fintype.sum_bool]
  cases q <;> simp [inward] <;> split <;> simp

end

end Festim.Weak

namespace Festim.Props

open Festim.Weak

section
variable {Ω : Type} [Fintype Ω] {L : Line Ω} {P Q : Problem Ω Bool 1} {gs : List (MobBC Bool)} {rs : List Recomb}
  {mat : Ω → Mat} {matS : Bool → Mat} {u w : ℕ → ℝ}

/-- **C122 (a).** Steady permeation through a wall whose faces exchange hydrogen by given fluxes, dissociation and recombination: the
flux `J` towards the right is the difference of the concentrations below the faces over the resistance of the wall, the concentration
follows the resistance, and at each face what enters is what recombines and what goes through. -/
theorem C122_profile (hP : SteadyLine L P (rs.map Recomb.bc ++ gs) mat matS u fun _ => False) (hth : P.mv.theta = false)
    (hg : ∀ b ∈ gs, GivenFlux b) (hK : ∀ i < L.N, 0 < cellInt L (conductivity P mat) i) :
    (∀ j ≤ L.N, u j = u 0 - (u 0 - u L.N) / resistance L (conductivity P mat) L.N * resistance L (conductivity P mat) j) ∧
    fluxAt P gs false = recombined L P.T.T.tr rs false (u 0) + (u 0 - u L.N) / resistance L (conductivity P mat) L.N ∧
    fluxAt P gs true + (u 0 - u L.N) / resistance L (conductivity P mat) L.N = recombined L P.T.T.tr rs true (u L.N) := by
  obtain ⟨r, hm⟩ := hP.mesh
  obtain ⟨J, _, h2, h3, h4⟩ := C89_profile hP hK
  have hR := resistance_pos L _ hK
  have hJ : (u 0 - u L.N) / resistance L (conductivity P mat) L.N = -J := by
    rw [h2 L.N le_rfl]
    field_simp
    ring
  have f1 := h3 (fun h => h)
  have f2 := h4 (fun h => h)
  rw [permeation_inflow hm hth hP.sol hg] at f1 f2
  simp only [Line.p1, if_true, Bool.false_eq_true, if_false] at f1 f2
  rw [hJ]
  refine ⟨fun j hj => ?_, ?_, ?_⟩
  · rw [h2 j hj]
    ring
  · linarith
  · linarith

/-- Concentrations below the faces and flux, from the equations of the faces. -/
theorem faces_unique {L : Line Ω} (hr : Recombines rs) {T : Bool → ℝ} {R a b a' b' gL gR : ℝ} (hR : 0 < R) (ha : 0 ≤ a) (hb : 0 ≤ b) (ha' : 0 ≤ a')
    (hb' : 0 ≤ b') (h1 : gL = recombined L T rs false a + (a - b) / R) (h2 : gR + (a - b) / R = recombined L T rs true b)
    (h1' : gL = recombined L T rs false a' + (a' - b') / R) (h2' : gR + (a' - b') / R = recombined L T rs true b')
    (hpos : ∃ q, ∃ r ∈ rs, (if q then L.right else L.left) ∈ r.surfaces ∧ 0 < r.Kr_0 q) : a = a' ∧ b = b' := by
  have key : ∀ a b a' b' : ℝ, 0 ≤ a → 0 ≤ b → 0 ≤ a' → 0 ≤ b' → gL = recombined L T rs false a + (a - b) / R →
      gR + (a - b) / R = recombined L T rs true b → gL = recombined L T rs false a' + (a' - b') / R →
      gR + (a' - b') / R = recombined L T rs true b' → a - b ≤ a' - b' := by
    intro a b a' b' ha hb ha' hb' h1 h2 h1' h2'
    by_contra hlt
    push Not at hlt
    have hd : (a' - b') / R < (a - b) / R := div_lt_div_of_pos_right hlt hR
    have e1 : a < a' := by
      by_contra hc
      push Not at hc
      have := recombined_mono (L := L) (T := T) hr false ha' hc
      linarith
    have e2 : b' < b := by
      by_contra hc
      push Not at hc
      have := recombined_mono (L := L) (T := T) hr true hb hc
      linarith
    linarith
  have hJ : a - b = a' - b' := le_antisymm (key a b a' b' ha hb ha' hb' h1 h2 h1' h2') (key a' b' a b ha' hb' ha hb h1' h2' h1 h2)
  have strict : ∀ q x y, (∃ r ∈ rs, (if q then L.right else L.left) ∈ r.surfaces ∧ 0 < r.Kr_0 q) → 0 ≤ x → x < y →
      recombined L T rs q x < recombined L T rs q y := by
    intro q x y ⟨r, hr', hs, hk⟩ hx hxy
    unfold recombined
    have hle : ∀ r ∈ rs, ∀ i : ℕ, (if i = (if q then L.right else L.left) then arr (r.Kr_0 q) (r.E_Kr q) (T q) * x ^ r.order else 0)
        ≤ if i = (if q then L.right else L.left) then arr (r.Kr_0 q) (r.E_Kr q) (T q) * y ^ r.order else 0 := by
      intro r hr'' i
      by_cases hi : i = if q then L.right else L.left
      · rw [if_pos hi, if_pos hi]
        exact mul_le_mul_of_nonneg_left (Real.rpow_le_rpow hx hxy.le (by linarith [(hr r hr'').2]))
          (mul_nonneg ((hr r hr'').1 q) (Real.exp_pos _).le)
      · rw [if_neg hi, if_neg hi]
    refine List.sum_lt_sum _ _ (fun r hr'' => List.sum_le_sum fun i _ => hle r hr'' i) ⟨r, hr', ?_⟩
    refine List.sum_lt_sum _ _ (fun i _ => hle r hr' i) ⟨_, hs, ?_⟩
    rw [if_pos rfl, if_pos rfl]
    exact mul_lt_mul_of_pos_left (Real.rpow_lt_rpow hx hxy (by linarith [(hr r hr').2])) (mul_pos hk (Real.exp_pos _))
  rw [hJ] at h1 h2
  obtain ⟨q, hq⟩ := hpos
  cases q
  · have : a = a' := by
      rcases lt_trichotomy a a' with hc | hc | hc
      · have := strict false a a' hq ha hc
        linarith
      · exact hc
      · have := strict false a' a hq ha' hc
        linarith
    exact ⟨this, by linarith⟩
  · have : b = b' := by
      rcases lt_trichotomy b b' with hc | hc | hc
      · have := strict true b b' hq hb hc
        linarith
      · exact hc
      · have := strict true b' b hq hb' hc
        linarith
    exact ⟨by linarith, this⟩

/-- **C122 (b).** If something recombines at one face at least, the solution which is not negative below the faces is unique, whatever
the traps. -/
theorem C122_unique (hP : SteadyLine L P (rs.map Recomb.bc ++ gs) mat matS u fun _ => False)
    (hQ : SteadyLine L Q (rs.map Recomb.bc ++ gs) mat matS w fun _ => False) (hT : Q.T = P.T) (hth : P.mv.theta = false)
    (hthQ : Q.mv.theta = false) (hr : Recombines rs) (hg : ∀ b ∈ gs, GivenFlux b)
    (hK : ∀ i < L.N, 0 < cellInt L (conductivity P mat) i)
    (hpos : ∃ q, ∃ r ∈ rs, (if q then L.right else L.left) ∈ r.surfaces ∧ 0 < r.Kr_0 q)
    (hu : 0 ≤ u 0 ∧ 0 ≤ u L.N) (hw : 0 ≤ w 0 ∧ 0 ≤ w L.N) : ∀ j ≤ L.N, u j = w j := by
  have e : conductivity Q mat = conductivity P mat := by
    funext p
    simp [conductivity, hT, hth, hthQ]
  obtain ⟨r1, m1⟩ := hP.mesh
  obtain ⟨r2, m2⟩ := hQ.mesh
  have ef : ∀ q, fluxAt Q gs q = fluxAt P gs q := by
    intro q
    unfold fluxAt
    congr 1
    apply List.map_congr_left
    intro b _
    cases b with
    | sk b vs => rfl
    | flux f ss => simp only [bcGiven, hT, m1, m2, Line.mesh]
  obtain ⟨p1, p2, p3⟩ := C122_profile hP hth hg hK
  obtain ⟨q1, q2, q3⟩ := C122_profile hQ hthQ hg (by rw [e]; exact hK)
  rw [e] at q1 q2 q3
  rw [ef, hT] at q2 q3
  obtain ⟨a, b⟩ := faces_unique hr (resistance_pos L _ hK) hu.1 hu.2 hw.1 hw.2 p2 p3 q2 q3 hpos
  intro j hj
  rw [p1 j hj, q1 j hj, a, b]

/-- **C122 (c).** Regimes: with fluxes which enter at the left face only, the flux through the wall is neither negative nor above what
enters nor above the one of a wall whose left face is in equilibrium with the source and whose right face is empty. -/
theorem C122_limits (hP : SteadyLine L P (rs.map Recomb.bc ++ gs) mat matS u fun _ => False) (hth : P.mv.theta = false)
    (hr : Recombines rs) (hg : ∀ b ∈ gs, GivenFlux b) (hK : ∀ i < L.N, 0 < cellInt L (conductivity P mat) i)
    (hu : 0 ≤ u 0 ∧ 0 ≤ u L.N) (hG : fluxAt P gs true = 0) :
    0 ≤ (u 0 - u L.N) / resistance L (conductivity P mat) L.N ∧
    (u 0 - u L.N) / resistance L (conductivity P mat) L.N ≤ fluxAt P gs false ∧
    ∀ ceq, 0 ≤ ceq → fluxAt P gs false < recombined L P.T.T.tr rs false ceq →
      (u 0 - u L.N) / resistance L (conductivity P mat) L.N < ceq / resistance L (conductivity P mat) L.N := by
  obtain ⟨_, p2, p3⟩ := C122_profile hP hth hg hK
  have h1 := recombined_nonneg (L := L) (T := P.T.T.tr) hr false hu.1
  have h2 := recombined_nonneg (L := L) (T := P.T.T.tr) hr true hu.2
  refine ⟨by linarith, by linarith, fun ceq hc hlt => ?_⟩
  refine div_lt_div_of_pos_right ?_ (resistance_pos L _ hK)
  have : u 0 < ceq := by
    by_contra hn
    push Not at hn
    have := recombined_mono (L := L) (T := P.T.T.tr) hr false hc hn
    linarith
  linarith [hu.2]

theorem bil_profile (L : Line Ω) (K : Ω → ℝ) (u v : ℕ → ℝ) : bil L (fun _ => 0) K (fun _ => 0) u v
    = ∑ i ∈ Finset.range L.N, cellFlux L K u i * (v (i + 1) - v i) := by
  have e := line_volume L (Fld.const 1) (fun p => K p * (L.p1 u).grad p 0) v
  unfold volume at e
  unfold bil
  simp only [zero_mul, zero_add, Finset.sum_const_zero, add_zero]
  refine Eq.trans ?_ (e.trans ?_)
  · refine Finset.sum_congr rfl fun p _ => ?_
    show _ = L.w p * _
    ring
  · refine Finset.sum_congr rfl fun i _ => ?_
    congr 1
    unfold cellFlux cellInt
    rw [div_mul_eq_mul_div, Finset.sum_mul]
    congr 1
    refine Finset.sum_congr rfl fun p hp => ?_
    have hc : L.cell p = i := (Finset.mem_filter.1 hp).2
    simp only [Line.p1, hc]
    ring

theorem recombined_continuous (L : Line Ω) (hr : Recombines rs) (T : Bool → ℝ) (q : Bool) :
    Continuous (recombined L T rs q) := by
  unfold recombined
  refine continuous_list_sum _ fun r hm => continuous_list_sum _ fun i _ => ?_
  by_cases hi : i = if q then L.right else L.left
  · simp only [if_pos hi]
    exact continuous_const.mul (Real.continuous_rpow_const (by linarith [(hr r hm).2]))
  · simp only [if_neg hi]
    exact continuous_const

/-- The equations of the faces have a solution. -/
theorem faces_exist {L : Line Ω} (hr : Recombines rs) {T : Bool → ℝ} {R gL gR : ℝ} (hR : 0 < R) (hL : 0 ≤ gL) (hR' : 0 ≤ gR)
    (hpos : ∃ q, ∃ r ∈ rs, (if q then L.right else L.left) ∈ r.surfaces ∧ 0 < r.Kr_0 q) :
    ∃ a b, 0 ≤ a ∧ 0 ≤ b ∧ gL = recombined L T rs false a + (a - b) / R ∧ gR + (a - b) / R = recombined L T rs true b := by
  set g : ℝ → ℝ := fun x => x + R * (recombined L T rs false x - gL) with hg
  set Φ : ℝ → ℝ := fun x => recombined L T rs true (max 0 (g x)) + recombined L T rs false x - (gL + gR) with hΦ
  have c1 := recombined_continuous L hr T false
  have c2 := recombined_continuous L hr T true
  have hcont : Continuous Φ := by
    refine ((c2.comp (continuous_const.max ?_)).add c1).sub continuous_const
    exact continuous_id.add (continuous_const.mul (c1.sub continuous_const))
  have z1 := recombined_zero (L := L) (T := T) hr false
  have z2 := recombined_zero (L := L) (T := T) hr true
  have h0 : Φ 0 ≤ 0 := by
    have : max 0 (g 0) = 0 := by
      refine max_eq_left ?_
      simp only [hg, z1, zero_sub, zero_add]
      nlinarith
    simp only [hΦ, this, z1, z2]
    linarith
  obtain ⟨q, r, hm, hs, hk⟩ := hpos
  set κ := arr (r.Kr_0 q) (r.E_Kr q) (T q) with hκd
  have hκ : 0 < κ := mul_pos hk (Real.exp_pos _)
  set y : ℝ := max 1 ((gL + gR) / κ) with hy
  have hy1 : 1 ≤ y := le_max_left _ _
  have hyo : gL + gR ≤ κ * y ^ r.order := by
    have e1 : y ≤ y ^ r.order := by
      have := Real.rpow_le_rpow_of_exponent_le hy1 (hr r hm).2
      rwa [Real.rpow_one] at this
    have e2 : (gL + gR) / κ ≤ y := le_max_right _ _
    rw [div_le_iff₀ hκ] at e2
    nlinarith
  have hB0 : 0 ≤ y + R * gL := by positivity
  have hB : 0 ≤ Φ (y + R * gL) := by
    have n1 := recombined_nonneg (L := L) (T := T) hr false hB0
    have n2 := recombined_nonneg (L := L) (T := T) hr true (le_max_left 0 (g (y + R * gL)))
    have hge : gL + gR ≤ recombined L T rs true (max 0 (g (y + R * gL))) + recombined L T rs false (y + R * gL) := by
      cases q
      · have e1 := recombined_ge (L := L) (T := T) hr false (zero_le_one.trans hy1) hm hs le_rfl
        have e2 := recombined_mono (L := L) (T := T) hr false (zero_le_one.trans hy1) (show y ≤ y + R * gL by nlinarith)
        linarith
      · have e1 := recombined_ge (L := L) (T := T) hr true (zero_le_one.trans hy1) hm hs le_rfl
        have hgy : y ≤ max 0 (g (y + R * gL)) := by
          refine le_max_of_le_right ?_
          simp only [hg]
          nlinarith
        have e2 := recombined_mono (L := L) (T := T) hr true (zero_le_one.trans hy1) hgy
        linarith
    simp only [hΦ]
    linarith
  obtain ⟨x, hx, e⟩ := intermediate_value_Icc hB0 hcont.continuousOn ⟨h0, hB⟩
  have hgx : 0 ≤ g x := by
    by_contra hn
    push Not at hn
    simp only [hΦ, max_eq_left hn.le, z2] at e
    have : 0 ≤ g x := by
      simp only [hg]
      have : 0 ≤ R * (recombined L T rs false x - gL) := mul_nonneg hR.le (by linarith)
      linarith [hx.1]
    linarith
  simp only [hΦ, max_eq_right hgx] at e
  have hd : (x - g x) / R = gL - recombined L T rs false x := by
    simp only [hg]
    field_simp
    ring
  exact ⟨x, g x, hx.1, hgx, by rw [hd]; ring, by rw [hd]; linarith⟩

theorem resistance_bounds {K : Ω → ℝ} (hK : ∀ i < L.N, 0 < cellInt L K i) (j : ℕ) (hj : j ≤ L.N) :
    0 ≤ resistance L K j ∧ resistance L K j ≤ resistance L K L.N := by
  have hn : ∀ i < L.N, 0 ≤ L.h i / (cellInt L K i / L.h i) := fun i hi =>
    (div_pos (L.h_pos i hi) (div_pos (hK i hi) (L.h_pos i hi))).le
  unfold resistance
  exact ⟨Finset.sum_nonneg fun i hi => hn i (lt_of_lt_of_le (Finset.mem_range.1 hi) hj),
    Finset.sum_le_sum_of_subset_of_nonneg (Finset.range_mono hj) fun i hi _ => hn i (Finset.mem_range.1 hi)⟩

/-- **C122 (d).** With fluxes which do not leave and recombination at one face at least there is such a solution. -/
theorem C122_exists (hP : LinearLine L P gs mat matS fun _ => True) (hdt : P.dt = none) (hsrc : P.sources = [])
    (hth : P.mv.theta = false) (hr : Recombines rs) (hg : ∀ b ∈ gs, GivenFlux b) (hG : ∀ q, 0 ≤ fluxAt P gs q)
    (hpos : ∃ q, ∃ r ∈ rs, (if q then L.right else L.left) ∈ r.surfaces ∧ 0 < r.Kr_0 q) (val : Bool → ℝ) :
    ∃ u, LineSolves L P (rs.map Recomb.bc ++ gs) (fun _ => False) val u ∧ ∀ j ≤ L.N, 0 ≤ u j := by
  obtain ⟨r, hm⟩ := hP.mesh
  have hK : ∀ i < L.N, 0 < cellInt L (conductivity P mat) i := by
    intro i hi
    have hh := L.exact i hi ▸ L.h_pos i hi
    obtain ⟨p, hp, hw⟩ : ∃ p ∈ Finset.univ.filter (fun p => L.cell p = i), 0 < L.w p := by
      by_contra hn
      push Not at hn
      exact absurd hh (not_lt.2 (Finset.sum_nonpos hn))
    exact Finset.sum_pos' (fun p _ => mul_nonneg (hP.weights p) (conductivity_pos hP p).le) ⟨p, hp, mul_pos hw (conductivity_pos hP p)⟩
  set K := conductivity P mat with hKd
  have hR := resistance_pos L _ hK
  obtain ⟨a, b, ha, hb, e1, e2⟩ := faces_exist (L := L) (T := P.T.T.tr) hr hR (hG false) (hG true) hpos
  set J := (a - b) / resistance L K L.N with hJ
  set u : ℕ → ℝ := fun j => a - J * resistance L K j with hu
  have hu0 : u 0 = a := by simp [hu, resistance]
  have huN : u L.N = b := by
    simp only [hu, hJ]
    field_simp
    ring
  have hcell : ∀ i < L.N, cellFlux L K u i = -J := by
    intro i hi
    have h1 := (L.h_pos i hi).ne'
    have h2 := (hK i hi).ne'
    unfold cellFlux
    simp only [hu, resistance, Finset.sum_range_succ]
    field_simp
    ring
  refine ⟨u, ⟨by simp, fun v _ => ?_⟩, fun j hj => ?_⟩
  · obtain ⟨F₀, h₀⟩ := hP.formOk u v
    obtain ⟨F, hF, e⟩ := recomb_form (P := P.withSol (L.p1 u)) (rd := r) hm hP.traps hth rs (L.p1 v) F₀ h₀
    refine ⟨F, hF, ?_⟩
    have e3 : P.mesh.assemble F = P.mesh.assemble F₀ + ∑ q, recombined L P.T.T.tr rs q ((L.p1 u).tr q) * (L.p1 v).tr q := e
    have f1 : reactionOf P mat = fun _ => 0 := by
      funext p
      simp [reactionOf, hdt, decayAt, hsrc]
    have f2 : exchangeOf P gs matS = fun _ => 0 := by
      funext q
      simp [exchangeOf, given_exchange hg]
    have f3 : loadOf P mat = fun _ => 0 := by
      funext p
      simp [loadOf, hdt, givenAt, hsrc]
    rw [e3, hP.residual u v F₀ h₀, f1, f2, f3, bil_profile,
      Finset.sum_congr rfl fun i hi => by rw [hcell i (Finset.mem_range.1 hi)], ← Finset.mul_sum, Finset.sum_range_sub]
    simp only [lin, zero_mul, mul_zero, Finset.sum_const_zero, zero_add, Fintype.sum_bool, Line.p1, if_true, Bool.false_eq_true,
      if_false, hu0, huN]
    rw [e1, ← e2]
    ring
  · obtain ⟨r1, r2⟩ := resistance_bounds hK j hj
    have : u j = (a * (resistance L K L.N - resistance L K j) + b * resistance L K j) / resistance L K L.N := by
      simp only [hu, hJ]
      field_simp
      ring
    rw [this]
    exact div_nonneg (add_nonneg (mul_nonneg ha (sub_nonneg.2 r2)) (mul_nonneg hb r1)) hR.le

/-- **C122 (e).** `SurfaceFlux` reports exactly what the flux conditions of the faces give: what recombines less what enters. -/
theorem C122_reported (hP : SteadyLine L P (rs.map Recomb.bc ++ gs) mat matS u fun _ => False) (hth : P.mv.theta = false)
    (hg : ∀ b ∈ gs, GivenFlux b) (hK : ∀ i < L.N, 0 < cellInt L (conductivity P mat) i)
    (e : PostEnv Ω Bool 1) (proj : Bool) (he : e.mesh = P.mesh) (hn : e.n = Line.normal) (hes : e.soret = false)
    (hp : PropertiesOf e P.mats matS) (hgr : ∀ q, e.solute.gradS q 0 = L.endSlope u q)
    (hT : ∀ q p, L.cell p = L.endCell q → mat p = matS q ∧ P.T.T.val p = e.T.tr q) :
    (hydrogenFlux L.right).value e proj = .ok (-(recombined L P.T.T.tr rs true (u L.N) - fluxAt P gs true)) ∧
    (hydrogenFlux L.left).value e proj = .ok (-(recombined L P.T.T.tr rs false (u 0) - fluxAt P gs false)) := by
  obtain ⟨_, p2, p3⟩ := C122_profile hP hth hg hK
  obtain ⟨a, b⟩ := C89_reported hP hK e proj he hn hes hp (fun q => by rw [hgr]; simp [hth]) hT
  constructor
  · rw [a, ← p3]
    congr 1
    ring
  · rw [b, p2]
    congr 1
    ring

end

namespace KinCase

/-- Dissociation on the left, recombination of order two on both sides. -/
noncomputable def gas : List (MobBC Bool) := [.flux (.dissoc (fun _ => 5) (fun _ => 0) fun _ => 1) [1]]

def incline (i : ℕ) : ℝ := if i = 0 then 2 else 1

theorem gas_given : ∀ b ∈ gas, GivenFlux b := by simp [gas, GivenFlux]

theorem gas_line : LinearLine L (P none (fun _ => 0) fun _ => 0) gas (fun _ => M) (fun _ => M) fun _ => True where
  mesh := ⟨_, rfl⟩
  weights := exact2.w_nonneg
  cover := ⟨by simp [P], by simp [P, L, Line.mesh, M], by simp [P, M]⟩
  solubility := ⟨by simp [P], by simp [P], by simp [P], by simp [P]⟩
  law := by simp [P]
  uniform := by simp [P]
  D_pos := by simp [P, M]
  S_pos := by simp [P]
  step := by simp [P]
  traps := rfl
  decay := by simp [P]
  fluxes := given_affine gas_given
  fixed := Or.inr ⟨false, Or.inl trivial⟩

theorem gas_flux (u : ℕ → ℝ) : fluxAt (P none u fun _ => 0) gas false = 5 ∧ fluxAt (P none u fun _ => 0) gas true = 0 := by
  constructor <;> simp [fluxAt, bcGiven, gas, P, L, Line.mesh, inward, arr]

example : ∃ u, LineSolves L (P none (fun _ => 0) fun _ => 0) (pairs.map Recomb.bc ++ gas) (fun _ => False) (fun _ => 0) u ∧
    ∀ j ≤ L.N, 0 ≤ u j :=
  C122_exists gas_line rfl rfl rfl pairs_rates gas_given
    (by
      intro q
      cases q
      · rw [(gas_flux _).1]; norm_num
      · rw [(gas_flux _).2])
    ⟨false, _, List.mem_singleton.2 rfl, by simp [L], one_pos⟩ _

theorem gas_steady : SteadyLine L (P none incline fun _ => 0) (pairs.map Recomb.bc ++ gas) (fun _ => M) (fun _ => M) incline
    fun _ => False where
  mesh := ⟨_, rfl⟩
  steady := rfl
  sol := rfl
  cover := ⟨by simp [P], by simp [P, L, Line.mesh, M], by simp [P, M]⟩
  solubility := ⟨by simp [P], by simp [P], by simp [P], by simp [P]⟩
  law := by simp [P]
  uniform := by simp [P]
  sources := ⟨rfl, by simp [P]⟩
  outside := by simp [P]
  noSK := by simp [pairs, Recomb.bc, gas]
  solves := by
    intro v _
    obtain ⟨F₀, h₀⟩ := gas_line.formOk incline v
    obtain ⟨F, hF, e⟩ := recomb_form (P := P none incline fun _ => 0) (bcs := gas) (rd := Fld.const 1) rfl rfl rfl pairs (L.p1 v) F₀ h₀
    refine ⟨F, hF, ?_⟩
    have f1 : reactionOf (P none (fun _ => 0) fun _ => 0) (fun _ => M) = fun _ => 0 := by
      funext p
      simp [reactionOf, P, decayAt]
    have f2 : exchangeOf (P none (fun _ => 0) fun _ => 0) gas (fun _ => M) = fun _ => 0 := by
      funext q
      simp [exchangeOf, given_exchange gas_given]
    have f3 : loadOf (P none (fun _ => 0) fun _ => 0) (fun _ => M) = fun _ => 0 := by
      funext p
      simp [loadOf, P, givenAt]
    have e0 : (P none incline fun _ => 0).mesh.assemble F₀ = _ := gas_line.residual incline v F₀ h₀
    have e2 : ∀ q, recombined L (P none incline fun _ => 0).T.T.tr pairs q ((P none incline fun _ => 0).mv.sol.tr q)
        = (if q then 1 else 2) ^ 2 := by
      intro q
      have := recombined_pairs q (if q then 1 else 2)
      cases q <;> simpa [P, Fld.const, Line.p1, incline, cells] using this
    rw [e, e0, f1, f2, f3, bil_profile]
    simp only [e2, Fintype.sum_bool, lin, zero_mul, mul_zero, Finset.sum_const_zero, zero_add, (gas_flux _).1, (gas_flux _).2]
    have h21 : ¬ (2 : Fin 3) = 1 := by decide
    norm_num [cells, cellFlux, cellInt, conductivity, P, M, arr, incline, Line.p1, L, Finset.sum_filter, Fin.sum_univ_three, h21]
    ring

theorem gas_cells (u : ℕ → ℝ) : ∀ i < L.N, 0 < cellInt L (conductivity (P none u fun _ => 0) fun _ => M) i := by
  intro i hi
  have h21 : ¬ (2 : Fin 3) = 1 := by decide
  obtain rfl : i = 0 := by simp only [L] at hi; omega
  norm_num [cellInt, conductivity, P, M, arr, L, Finset.sum_filter, Fin.sum_univ_three, h21]

/-- The flux is 1: below the 5 which enter and below that of a wall in equilibrium with the gas (`√5` over the thickness). -/
example : 0 ≤ (incline 0 - incline L.N) / resistance L (conductivity (P none incline fun _ => 0) fun _ => M) L.N ∧
    (incline 0 - incline L.N) / resistance L (conductivity (P none incline fun _ => 0) fun _ => M) L.N ≤ 5 := by
  have := C122_limits gas_steady rfl pairs_rates gas_given (gas_cells _) (by norm_num [incline, cells]) (gas_flux _).2
  rw [(gas_flux _).1] at this
  exact ⟨this.1, this.2.1⟩

/-- No other steady state has concentrations which are not negative. -/
example (w : ℕ → ℝ) (hw : SteadyLine L (P none w fun _ => 0) (pairs.map Recomb.bc ++ gas) (fun _ => M) (fun _ => M) w fun _ => False)
    (h0 : 0 ≤ w 0) (h1 : 0 ≤ w 1) : w 0 = 2 ∧ w 1 = 1 := by
  have e := C122_unique gas_steady hw rfl rfl rfl pairs_rates gas_given (gas_cells _)
    ⟨false, _, List.mem_singleton.2 rfl, by simp [L], one_pos⟩ (by norm_num [incline, cells]) ⟨h0, by simpa [cells] using h1⟩
  refine ⟨(e 0 (by simp [cells])).symm.trans (by simp [incline]), (e 1 (by simp [cells])).symm.trans (by simp [incline])⟩

noncomputable def funL (u : ℕ → ℝ) : PostFun (Fin 3) Bool 1 where
  val := (L.p1 u).val
  tr := (L.p1 u).tr
  gradS q _ := L.endSlope u q
  cells := [(1, [u 0, u 1])]
  pt _ := 0
  isFun := true

noncomputable def gasEnv : PostEnv (Fin 3) Bool 1 where
  mesh := (P none incline fun _ => 0).mesh
  n := Line.normal
  D _ := 1
  cond := none
  Q := none
  T := funL fun _ => 300
  soret := false
  solute := funL incline
  traps := []
  ids := []
  adsorbed := []

/-- What is reported on the right is what recombines there. -/
example : (hydrogenFlux 2).value gasEnv false = .ok (-1) := by
  have := (C122_reported gas_steady rfl gas_given (gas_cells _) gasEnv false rfl rfl rfl
    ⟨by intro q; cases q <;> simp [gasEnv, P, L, Line.mesh, findMat, M],
      by intro q; cases q <;> simp [gasEnv, P, L, Line.mesh, arrheniusCoeff, findMat, M],
      by simp [gasEnv], by simp [gasEnv]⟩ (fun _ => rfl)
    (by
      intro q p _
      refine ⟨rfl, ?_⟩
      cases q <;> simp [P, Fld.const, gasEnv, funL, Line.p1])).1
  rw [(gas_flux _).2, show recombined L (P none incline fun _ => 0).T.T.tr pairs true (incline L.N) = (incline L.N) ^ 2 from
    recombined_pairs true _] at this
  simpa [incline, cells, L] using this

end KinCase

end Festim.Props
