import Verif.Props.ReportedBalance

/-!
# C117: the balance of heat from reported fluxes

The temperature computed by a `HeatTransferProblem` in one dimension, and the values of `ThermalFlux` at
the two ends.
-/

open scoped BigOperators

set_option linter.unusedSectionVars false
set_option linter.unusedSimpArgs false

namespace Festim.Weak

open Festim.Props

section
variable {Ω : Type} [Fintype Ω]

/-- Heat stored per unit time, counted with the weight `v`; zero in steady state. -/
noncomputable def heatStored (m : Mesh Ω Bool 1) (mat : Ω → Mat) (T : Temp Ω Bool 1) (dt : Option ℝ)
    (v : Ω → ℝ) : ℝ :=
  match dt with
  | some h => volume m fun p => (mat p).vcap (T.T.val p) * (T.T.val p - T.Tn.val p) / h * v p
  | none => 0

/-- Heat produced by the volume sources per unit time, counted with the weight `v`. -/
noncomputable def heatMade (m : Mesh Ω Bool 1) (sources : List ((Ω → ℝ) × List ℕ)) (v : Ω → ℝ) : ℝ :=
  (sources.map fun s => (s.2.map fun vol => volumeOf m vol fun p => s.1 p * v p).sum).sum

/-- The heat entering per unit time according to the outputs: the values `x` of `ThermalFlux` where the
temperature is imposed, and the imposed fluxes at the other ends. -/
noncomputable def heatEntering (L : Line Ω) (r : Fld Ω Bool 1) (bcs : List (Flux Bool × List ℕ)) (T : Bool → ℝ)
    (dir : Bool → Prop) (x : Bool → ℝ) : ℝ :=
  open Classical in ∑ q, if dir q then x q else Props.heatInflowAt L r bcs T q

/-- What the flux at the end `q` gains when the conductivity at the surface is replaced by its mean over
the cell. -/
noncomputable def conductivityGap (L : Line Ω) (mat : Ω → Mat) (matS : Bool → Mat) (u : ℕ → ℝ) (q : Bool) : ℝ :=
  (cellInt L (fun p => (mat p).cond ((L.p1 u).val p)) (L.endCell q) / L.h (L.endCell q)
    - (matS q).cond ((L.p1 u).tr q)) * L.endSlope u q * Line.normal q 0

/-- `ThermalFlux` is evaluated on the temperature `u` of this step. -/
structure HeatReport (L : Line Ω) (r : Fld Ω Bool 1) (mats : List Mat) (matS : Bool → Mat) (u : ℕ → ℝ)
    (e : PostEnv Ω Bool 1) : Prop where
  mesh : e.mesh = L.mesh r
  normal : e.n = Line.normal
  properties : PropertiesOf e mats matS
  cond : e.cond.isSome
  grad : ∀ q, e.T.gradS q 0 = L.endSlope u q
  tr : ∀ q, e.T.tr q = (L.p1 u).tr q

variable {L : Line Ω} {r : Fld Ω Bool 1} {mats : List Mat} {mat : Ω → Mat} {matS : Bool → Mat} {u : ℕ → ℝ}
  {e : PostEnv Ω Bool 1} {dir : Bool → Prop} {dt : Option ℝ} {sources : List ((Ω → ℝ) × List ℕ)}
  {bcs : List (Flux Bool × List ℕ)} {Tn : Fld Ω Bool 1}

/-- The value of `ThermalFlux` at an end. -/
theorem heat_reported (he : HeatReport L r mats matS u e) (proj : Bool) (q : Bool) :
    (thermalFlux (if q then L.right else L.left)).value e proj
      = .ok ((matS q).cond ((L.p1 u).tr q) * L.endSlope u q * Line.normal q 0) := by
  unfold thermalFlux
  rw [Props.C62_heat_flux e proj .cartesian _ (by simp [Geom.curved]) mats matS he.properties he.cond]
  congr 1
  simp only [fluxAngle, one_mul, Geom.suffix, jacS, surface, he.mesh, he.normal, Line.mesh]
  have hends := L.ends
  rw [Finset.sum_filter, Fintype.sum_bool]
  cases q <;> simp [dot, Line.normal, hends, hends.symm, he.grad, he.tr]

/-- The equation with a test function. -/
theorem heat_line_balance (hcov : Covers (L.mesh r) mats mat) (v : ℕ → ℝ)
    (h0 : (L.mesh r).assemble (heatForm (L.mesh r) mats ⟨L.p1 u, Tn⟩ dt sources bcs (L.p1 v)) = 0) :
    heatStored (L.mesh r) mat ⟨L.p1 u, Tn⟩ dt (L.p1 v).val
      = v 0 * Props.heatInflowAt L r bcs (L.p1 u).tr false + v L.N * Props.heatInflowAt L r bcs (L.p1 u).tr true
        + heatMade (L.mesh r) sources (L.p1 v).val
        - ∑ i ∈ Finset.range L.N,
            cellFlux L (fun p => (mat p).cond ((L.p1 u).val p)) u i * (v (i + 1) - v i) := by
  rw [Props.C58_weak_form (L.mesh r) mats _ dt sources bcs mat _ hcov (by simp [Line.mesh])] at h0
  have e1 : volume (L.mesh r) (fun p => dot (fun i => (mat p).cond ((L.p1 u).val p) *
        (L.p1 u).grad p i) (coordGrad (L.mesh r) (L.p1 v) p))
      = ∑ i ∈ Finset.range L.N,
          cellFlux L (fun p => (mat p).cond ((L.p1 u).val p)) u i * (v (i + 1) - v i) := by
    have e : (fun p => dot (fun i => (mat p).cond ((L.p1 u).val p) *
          (L.p1 u).grad p i) (coordGrad (L.mesh r) (L.p1 v) p))
        = fun p => ((mat p).cond ((L.p1 u).val p) * (L.p1 u).grad p 0) * (L.p1 v).grad p 0 := by
      funext p
      unfold dot
      rw [Fin.sum_univ_one]
      simp [coordGrad, Line.mesh]
    rw [e, line_volume]
    refine Finset.sum_congr rfl fun i hi => ?_
    congr 1
    unfold cellFlux cellInt
    rw [div_mul_eq_mul_div, Finset.sum_mul]
    congr 1
    refine Finset.sum_congr rfl fun p hp => ?_
    have hc : L.cell p = i := (Finset.mem_filter.1 hp).2
    simp only [Line.p1, hc]
    ring
  have e2 : heatSupply (L.mesh r) sources bcs (L.p1 u).tr (L.p1 v)
      = heatMade (L.mesh r) sources (L.p1 v).val + (v 0 * Props.heatInflowAt L r bcs (L.p1 u).tr false
        + v L.N * Props.heatInflowAt L r bcs (L.p1 u).tr true) := by
    unfold heatSupply heatMade Props.heatInflowAt
    rw [← List.sum_map_mul_left, ← List.sum_map_mul_left, ← List.sum_map_add]
    congr 2
    apply List.map_congr_left
    intro b hb
    rw [← List.sum_map_mul_left, ← List.sum_map_mul_left, ← List.sum_map_add]
    congr 1
    apply List.map_congr_left
    intro s _
    unfold surface
    rw [Finset.mul_sum, Finset.mul_sum, ← Finset.sum_add_distrib]
    refine Finset.sum_congr rfl fun q _ => ?_
    cases q <;> simp [Line.p1] <;> ring
  rw [e1, e2] at h0
  unfold heatStored
  cases dt <;> dsimp only at h0 ⊢ <;> linarith

theorem heatStored_lin (m : Mesh Ω Bool 1) (T : Temp Ω Bool 1) (a b : ℝ) (w f g : Ω → ℝ) :
    heatStored m mat T dt (fun p => w p - a * f p - b * g p)
      = heatStored m mat T dt w - a * heatStored m mat T dt f - b * heatStored m mat T dt g := by
  unfold heatStored
  cases dt with
  | none => simp
  | some h =>
    simp only [volume]
    rw [Finset.mul_sum, Finset.mul_sum, ← Finset.sum_sub_distrib, ← Finset.sum_sub_distrib]
    exact Finset.sum_congr rfl fun p _ => by ring

theorem heatMade_lin (m : Mesh Ω Bool 1) (a b : ℝ) (w f g : Ω → ℝ) :
    heatMade m sources (fun p => w p - a * f p - b * g p)
      = heatMade m sources w - a * heatMade m sources f - b * heatMade m sources g := by
  unfold heatMade
  refine sum_lin _ a b _ _ _ _ fun s _ => sum_lin _ a b _ _ _ _ fun vol _ => ?_
  unfold volumeOf
  rw [Finset.mul_sum, Finset.mul_sum, ← Finset.sum_sub_distrib, ← Finset.sum_sub_distrib]
  exact Finset.sum_congr rfl fun p _ => by ring

end

end Festim.Weak

namespace Festim.Props

open Festim.Weak

section
variable {Ω : Type} [Fintype Ω] {L : Line Ω} {r : Fld Ω Bool 1} {mats : List Mat} {mat : Ω → Mat}
  {matS : Bool → Mat} {u : ℕ → ℝ} {e : PostEnv Ω Bool 1} {dir : Bool → Prop} {dt : Option ℝ}
  {sources : List ((Ω → ℝ) × List ℕ)} {bcs : List (Flux Bool × List ℕ)} {Tn : Fld Ω Bool 1}

/-- **C117 (a).** A step (or a steady state) of the heat equation: the heat stored per unit time is what enters according
to the outputs and what the sources produce, up to two terms of the ends where the temperature is imposed: what is stored
(less what is produced) in the cell there, counted with the function which decreases from 1 to 0 in it, and the difference
between the conductivity at the surface and its mean over that cell, times the slope. -/
theorem C117_balance (hcov : Covers (L.mesh r) mats mat)
    (hsolves : ∀ v : ℕ → ℝ, (∀ q, dir q → (L.p1 v).tr q = 0) →
      (L.mesh r).assemble (heatForm (L.mesh r) mats ⟨L.p1 u, Tn⟩ dt sources bcs (L.p1 v)) = 0)
    (he : HeatReport L r mats matS u e) (proj : Bool) :
    ∃ x : Bool → ℝ, (thermalFlux L.right).value e proj = .ok (x true) ∧
      (thermalFlux L.left).value e proj = .ok (x false) ∧
      heatStored (L.mesh r) mat ⟨L.p1 u, Tn⟩ dt (fun _ => 1)
        = heatEntering L r bcs (L.p1 u).tr dir x + heatMade (L.mesh r) sources (fun _ => 1)
          + overEnds dir fun q => heatStored (L.mesh r) mat ⟨L.p1 u, Tn⟩ dt (L.atEnd q)
            - heatMade (L.mesh r) sources (L.atEnd q) + conductivityGap L mat matS u q := by
  classical
  refine ⟨fun q => (matS q).cond ((L.p1 u).tr q) * L.endSlope u q * Line.normal q 0,
    heat_reported he proj true, heat_reported he proj false, ?_⟩
  set Φ := cellFlux L (fun p => (mat p).cond ((L.p1 u).val p)) u with hΦ
  have hN := L.N_pos
  have hN0 : L.N ≠ 0 := by omega
  have h0N : 0 ≠ L.N := by omega
  set a : ℝ := if dir false then 1 else 0 with ha
  set b : ℝ := if dir true then 1 else 0 with hb
  set v : ℕ → ℝ := fun i => 1 - a * hat 0 i - b * hat L.N i with hv
  have hv0 : v 0 = 1 - a := by simp [hv, hat, h0N]
  have hvN : v L.N = 1 - b := by simp [hv, hat, hN0]
  have hval : (L.p1 v).val = fun p => 1 - a * L.atEnd false p - b * L.atEnd true p := by
    funext p
    simp only [Line.p1, hv, Line.atEnd, Line.endNode]
    simp
    ring
  have hsum : (∑ i ∈ Finset.range L.N, Φ i * (v (i + 1) - v i)) = a * Φ 0 - b * Φ (L.N - 1) := by
    have e0 := hat_sum Φ L.N 0 (Nat.zero_le _)
    have eN := hat_sum Φ L.N L.N le_rfl
    simp only [lt_irrefl, if_false, hN, if_true] at e0 eN
    have : (∑ i ∈ Finset.range L.N, Φ i * (v (i + 1) - v i))
        = -(a * ∑ i ∈ Finset.range L.N, Φ i * (hat 0 (i + 1) - hat 0 i))
          - b * ∑ i ∈ Finset.range L.N, Φ i * (hat L.N (i + 1) - hat L.N i) := by
      rw [Finset.mul_sum, Finset.mul_sum, ← Finset.sum_neg_distrib, ← Finset.sum_sub_distrib]
      exact Finset.sum_congr rfl fun i _ => by simp only [hv]; ring
    rw [this, e0, eN]
    ring
  have main := heat_line_balance hcov v (hsolves v (by
    intro q hq
    cases q
    · simp [Line.p1, hv0, ha, hq]
    · simp [Line.p1, hvN, hb, hq]))
  rw [hv0, hvN, hval, hsum, heatStored_lin _ _ _ _ fun _ => 1, heatMade_lin _ _ _ fun _ => 1] at main
  have g0 : conductivityGap L mat matS u false
      = -Φ 0 + (matS false).cond ((L.p1 u).tr false) * L.endSlope u false := by
    simp only [conductivityGap, hΦ, cellFlux, Line.endSlope, Line.endCell, Line.normal]
    simp
    ring
  have gN : conductivityGap L mat matS u true
      = Φ (L.N - 1) - (matS true).cond ((L.p1 u).tr true) * L.endSlope u true := by
    simp only [conductivityGap, hΦ, cellFlux, Line.endSlope, Line.endCell, Line.normal, if_true,
      Nat.sub_add_cancel hN]
    ring
  have ex : heatEntering L r bcs (L.p1 u).tr dir
      (fun q => (matS q).cond ((L.p1 u).tr q) * L.endSlope u q * Line.normal q 0)
      = (1 - a) * heatInflowAt L r bcs (L.p1 u).tr false + (1 - b) * heatInflowAt L r bcs (L.p1 u).tr true
        - a * ((matS false).cond ((L.p1 u).tr false) * L.endSlope u false)
        + b * ((matS true).cond ((L.p1 u).tr true) * L.endSlope u true) := by
    unfold heatEntering
    rw [Fintype.sum_bool, ha, hb]
    by_cases h1 : dir true <;> by_cases h2 : dir false <;> simp [h1, h2, Line.normal] <;> ring
  have eo : ∀ z : Bool → ℝ, overEnds dir z = a * z false + b * z true := by
    intro z
    unfold overEnds
    rw [Fintype.sum_bool, ha, hb]
    by_cases h1 : dir true <;> by_cases h2 : dir false <;> simp [h1, h2] <;> ring
  rw [ex, eo, g0, gN]
  linarith

/-- **C117 (b).** The second term vanishes when the conductivity in the cell at that end is that at the surface, in particular
when it does not depend on the temperature. -/
theorem C117_no_gap (q : Bool)
    (h : ∀ p, L.cell p = L.endCell q → (mat p).cond ((L.p1 u).val p) = (matS q).cond ((L.p1 u).tr q)) :
    conductivityGap L mat matS u q = 0 := by
  have hN := L.N_pos
  have hlt : L.endCell q < L.N := by cases q <;> simp [Line.endCell] <;> omega
  have hh := (L.h_pos _ hlt).ne'
  have : cellInt L (fun p => (mat p).cond ((L.p1 u).val p)) (L.endCell q)
      = L.h (L.endCell q) * (matS q).cond ((L.p1 u).tr q) := by
    unfold cellInt
    rw [← line_exact L _ hlt]
    exact Finset.sum_congr rfl fun p hp => by dsimp only; rw [h p (Finset.mem_filter.1 hp).2]
  unfold conductivityGap
  rw [this, mul_div_cancel_left₀ _ hh, sub_self, zero_mul, zero_mul]

/-- **C117 (c).** In general it is at most the cell size times the square of the slope, times the rate at which the
conductivity changes with the temperature. -/
theorem C117_gap_bound (hL : L.Exact2) (q : Bool) (K : ℝ)
    (h : ∀ p, L.cell p = L.endCell q → |(mat p).cond ((L.p1 u).val p) - (matS q).cond ((L.p1 u).tr q)|
      ≤ K * |(L.p1 u).val p - (L.p1 u).tr q|) :
    |conductivityGap L mat matS u q| ≤ K * (L.h (L.endCell q) / 2) * L.endSlope u q ^ 2 := by
  have hN := L.N_pos
  have hlt : L.endCell q < L.N := by cases q <;> simp [Line.endCell] <;> omega
  have hh := L.h_pos _ hlt
  set s := L.endSlope u q with hs
  have hdiff : ∀ p, L.cell p = L.endCell q →
      |(L.p1 u).val p - (L.p1 u).tr q| = (if q then 1 - L.lam p else L.lam p) * L.h (L.endCell q) * |s| := by
    intro p hp
    have h0 := hL.lam_nonneg p
    have h1 := hL.lam_le p
    cases q with
    | false =>
      have hp' : L.cell p = 0 := by simpa [Line.endCell] using hp
      have hs' : s = (u 1 - u 0) / L.h 0 := by simp [hs, Line.endSlope]
      have hh0 : 0 < L.h 0 := L.h_pos 0 hN
      have : (L.p1 u).val p - (L.p1 u).tr false = L.lam p * L.h 0 * s := by
        rw [hs']
        simp only [Line.p1, hp']
        simp
        field_simp
        ring
      rw [this, abs_mul, abs_of_nonneg (by positivity)]
      simp [Line.endCell]
    | true =>
      have hp' : L.cell p = L.N - 1 := by simpa [Line.endCell] using hp
      have hs' : s = (u L.N - u (L.N - 1)) / L.h (L.N - 1) := by simp [hs, Line.endSlope]
      have hh0 : 0 < L.h (L.N - 1) := L.h_pos _ (by omega)
      have : (L.p1 u).val p - (L.p1 u).tr true = -((1 - L.lam p) * L.h (L.N - 1) * s) := by
        rw [hs']
        simp only [Line.p1, hp', Nat.sub_add_cancel hN]
        simp
        field_simp
        ring
      rw [this, abs_neg, abs_mul, abs_of_nonneg (by nlinarith)]
      simp [Line.endCell]
  have half : ∑ p ∈ Finset.univ.filter (fun p => L.cell p = L.endCell q), L.w p * (if q then 1 - L.lam p else L.lam p)
      = L.h (L.endCell q) / 2 := by
    cases q
    · simpa using hL.one _ hlt
    · have h1 := hL.one _ hlt
      have h2 := L.exact _ hlt
      simp only [if_true, mul_sub, mul_one, Finset.sum_sub_distrib, h1, h2]
      ring
  have hmean : cellInt L (fun p => (mat p).cond ((L.p1 u).val p)) (L.endCell q) / L.h (L.endCell q)
      - (matS q).cond ((L.p1 u).tr q)
      = (∑ p ∈ Finset.univ.filter (fun p => L.cell p = L.endCell q),
          L.w p * ((mat p).cond ((L.p1 u).val p) - (matS q).cond ((L.p1 u).tr q))) / L.h (L.endCell q) := by
    simp only [mul_sub, Finset.sum_sub_distrib]
    rw [line_exact L _ hlt, sub_div, mul_div_cancel_left₀ _ hh.ne']
    rfl
  have hn : |Line.normal q 0| = 1 := by cases q <;> simp [Line.normal]
  have hbound : |(∑ p ∈ Finset.univ.filter (fun p => L.cell p = L.endCell q),
          L.w p * ((mat p).cond ((L.p1 u).val p) - (matS q).cond ((L.p1 u).tr q)))|
      ≤ K * L.h (L.endCell q) * |s| * (L.h (L.endCell q) / 2) := by
    rw [← half, Finset.mul_sum]
    refine (Finset.abs_sum_le_sum_abs _ _).trans (Finset.sum_le_sum fun p hp => ?_)
    have hp' := (Finset.mem_filter.1 hp).2
    have hw := hL.w_nonneg p
    rw [abs_mul, abs_of_nonneg hw]
    have := (h p hp').trans_eq (by rw [hdiff p hp'])
    calc L.w p * _ ≤ L.w p * (K * ((if q then 1 - L.lam p else L.lam p) * L.h (L.endCell q) * |s|)) :=
          mul_le_mul_of_nonneg_left this hw
      _ = _ := by ring
  unfold conductivityGap
  rw [hmean, ← hs, abs_mul, abs_mul, hn, mul_one, abs_div, abs_of_pos hh]
  calc _ ≤ K * L.h (L.endCell q) * |s| * (L.h (L.endCell q) / 2) / L.h (L.endCell q) * |s| :=
        mul_le_mul_of_nonneg_right (div_le_div_of_nonneg_right hbound hh.le) (abs_nonneg _)
    _ = K * (L.h (L.endCell q) / 2) * (|s| * |s|) := by field_simp
    _ = _ := by rw [abs_mul_abs_self]; ring

end

/-! ### A plate whose conductivity depends on the temperature, and a heated insulated one -/

namespace EndCase

noncomputable def hot : Mat := { uid := 0, ids := [1], D_0 := 1, E_D := 0, cond := fun T => T - 299 }

/-- 300 K and 306 K are imposed; the flux in both cells is 12. -/
noncomputable def heated (j : ℕ) : ℝ := if j = 0 then 300 else if j = 1 then 304 else 306

theorem heated_solves (v : ℕ → ℝ) (hv : ∀ q, True → (L.p1 v).tr q = 0) :
    (L.mesh (Fld.const 1)).assemble
      (heatForm (L.mesh (Fld.const 1)) [hot] ⟨L.p1 heated, Fld.const 0⟩ none [] [] (L.p1 v)) = 0 := by
  have h0 : v 0 = 0 := by simpa [Line.p1] using hv false trivial
  have h2 : v 2 = 0 := by simpa [Line.p1, L, BoundCase.simpson] using hv true trivial
  have h21 : ¬ (2 : Fin 3) = 1 := by decide
  rw [C58_weak_form _ [hot] _ none [] [] (fun _ => hot) _
    ⟨by simp, by simp [L, Line.mesh, BoundCase.simpson, hot], by simp [hot]⟩ (by simp [Line.mesh])]
  simp [heatSupply, volume, Line.mesh, coordGrad, dot, hot, Line.p1, heated, L, BoundCase.simpson,
    Fin.sum_univ_two, Fin.sum_univ_three, Fintype.sum_prod_type, h0, h2, h21]
  ring

noncomputable def heatEnv (m : Mat) (u : ℕ → ℝ) : PostEnv (Fin 2 × Fin 3) Bool 1 where
  mesh := L.mesh (Fld.const 1)
  n := Line.normal
  D _ := 1
  cond := some fun q => m.cond ((L.p1 u).tr q)
  Q := none
  T := fun1 u
  soret := false
  solute := fun1 fun _ => 0
  traps := []
  ids := []
  adsorbed := []

theorem heat_report (m : Mat) (hm : m.ids = [1] ∧ m.D_0 = 1 ∧ m.E_D = 0) (u : ℕ → ℝ) :
    HeatReport L (Fld.const 1) [m] (fun _ => m) u (heatEnv m u) where
  mesh := rfl
  normal := rfl
  properties := ⟨by intro q; cases q <;> simp [L, Line.mesh, heatEnv, findMat, hm, BoundCase.simpson],
    by intro q; cases q <;> simp [L, Line.mesh, heatEnv, arrheniusCoeff, findMat, hm, BoundCase.simpson],
    by
      intro k hk q
      simp only [heatEnv, Option.some.injEq] at hk
      subst hk
      cases q <;> simp [L, Line.mesh, heatEnv, thermalProp, findMat, hm, BoundCase.simpson, fun1],
    by simp [heatEnv]⟩
  cond := rfl
  grad := by intro q; simp [heatEnv, fun1]
  tr := by intro q; simp [heatEnv, fun1]

/-- What is reported for this steady state: 4 leaves on one side and 14 enters on the other (the flux is 12). -/
theorem heated_reported : (thermalFlux L.left).value (heatEnv hot heated) false = .ok (-4) ∧
    (thermalFlux L.right).value (heatEnv hot heated) false = .ok 14 := by
  have h := heat_report hot ⟨rfl, rfl, rfl⟩ heated
  refine ⟨(heat_reported h false false).trans ?_, (heat_reported h false true).trans ?_⟩ <;>
    norm_num [hot, heated, Line.p1, Line.endSlope, Line.normal, L, BoundCase.simpson]

example : ∃ x : Bool → ℝ, (thermalFlux L.right).value (heatEnv hot heated) false = .ok (x true) ∧
    (thermalFlux L.left).value (heatEnv hot heated) false = .ok (x false) ∧
    0 = heatEntering L (Fld.const 1) [] (L.p1 heated).tr (fun _ => True) x + heatMade (L.mesh (Fld.const 1)) [] (fun _ => 1)
      + overEnds (fun _ => True) fun q => 0 - heatMade (L.mesh (Fld.const 1)) [] (L.atEnd q)
        + conductivityGap L (fun _ => hot) (fun _ => hot) heated q :=
  C117_balance (dt := none) (Tn := Fld.const 0)
    ⟨by simp, by simp [L, Line.mesh, BoundCase.simpson, hot], by simp [hot]⟩ heated_solves
    (heat_report hot ⟨rfl, rfl, rfl⟩ heated) false

example : |conductivityGap L (fun _ => hot) (fun _ => hot) heated false| ≤ 1 * (1 / 2) * 4 ^ 2 := by
  have h := C117_gap_bound (L := L) (mat := fun _ => hot) (matS := fun _ => hot) (u := heated)
    (BoundCase.simpson_exact2 1 one_pos) false 1 (by intro p _; simp [hot])
  have hs : L.endSlope heated false = 4 := by norm_num [Line.endSlope, heated, L, BoundCase.simpson]
  have hh : L.h (L.endCell false) = 1 := by simp [L, BoundCase.simpson]
  rwa [hs, hh] at h

/-- A plate at 0 heated by 5 per unit volume for a unit of time, insulated on the left and held at 5 on the right. -/
example : ∃ x : Bool → ℝ, (thermalFlux L.right).value (heatEnv M fun _ => 5) false = .ok (x true) ∧
    (thermalFlux L.left).value (heatEnv M fun _ => 5) false = .ok (x false) ∧
    heatStored (L.mesh (Fld.const 1)) (fun _ => M) ⟨L.p1 fun _ => 5, Fld.const 0⟩ (some 1) (fun _ => 1)
      = heatEntering L (Fld.const 1) [] (L.p1 fun _ => 5).tr (fun q => q = true) x
        + heatMade (L.mesh (Fld.const 1)) [(fun _ => 5, [1])] (fun _ => 1)
        + overEnds (fun q => q = true) fun q =>
            heatStored (L.mesh (Fld.const 1)) (fun _ => M) ⟨L.p1 fun _ => 5, Fld.const 0⟩ (some 1) (L.atEnd q)
          - heatMade (L.mesh (Fld.const 1)) [(fun _ => 5, [1])] (L.atEnd q)
          + conductivityGap L (fun _ => M) (fun _ => M) (fun _ => 5) q := by
  have hcov : Covers (L.mesh (Fld.const 1)) [M] (fun _ => M) :=
    ⟨by simp, by simp [L, Line.mesh, BoundCase.simpson, M], by simp [M]⟩
  refine C117_balance hcov (fun v _ => ?_) (heat_report M ⟨rfl, rfl, rfl⟩ _) false
  have h21 : ¬ (2 : Fin 3) = 1 := by decide
  rw [C58_weak_form _ [M] _ (some 1) _ [] (fun _ => M) _ hcov (by simp [Line.mesh])]
  simp [heatSupply, volume, volumeOf, Line.mesh, coordGrad, dot, M, Mat.vcap, Line.p1, L, BoundCase.simpson, Fld.const,
    Fin.sum_univ_two, Fin.sum_univ_three, Fintype.sum_prod_type, h21]
  ring

example (q : Bool) : conductivityGap L (fun _ => M) (fun _ => M) heated q = 0 :=
  C117_no_gap q (by intro p _; simp [M])

end EndCase

/-- **C117 (d).** The reported fluxes of a steady state without sources need not cancel: two cells, conductivity `T - 299`,
imposed temperatures 300 and 306; -4 and 14 are reported. -/
theorem C117_unequal : ∃ (L : Line (Fin 2 × Fin 3)) (r : Fld (Fin 2 × Fin 3) Bool 1) (m : Mat) (u : ℕ → ℝ)
    (e : PostEnv (Fin 2 × Fin 3) Bool 1), L.Exact2 ∧ Covers (L.mesh r) [m] (fun _ => m) ∧
      (∀ v : ℕ → ℝ, (∀ q, (L.p1 v).tr q = 0) →
        (L.mesh r).assemble (heatForm (L.mesh r) [m] ⟨L.p1 u, Fld.const 0⟩ none [] [] (L.p1 v)) = 0) ∧
      HeatReport L r [m] (fun _ => m) u e ∧
      (thermalFlux L.left).value e false = .ok (-4) ∧ (thermalFlux L.right).value e false = .ok 14 :=
  ⟨EndCase.L, Fld.const 1, EndCase.hot, EndCase.heated, EndCase.heatEnv EndCase.hot EndCase.heated,
    BoundCase.simpson_exact2 1 one_pos,
    ⟨by simp, by simp [EndCase.L, Line.mesh, BoundCase.simpson, EndCase.hot], by simp [EndCase.hot]⟩,
    fun v hv => EndCase.heated_solves v fun q _ => hv q, EndCase.heat_report _ ⟨rfl, rfl, rfl⟩ _,
    EndCase.heated_reported.1, EndCase.heated_reported.2⟩

end Festim.Props
