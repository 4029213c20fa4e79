import Verif.Proofs.SteadyAccuracy
import Verif.Props.Accuracy

/-!
# C103: accuracy of steady simulations, and of the fluxes which they report

In 1D without traps.  The computed nodal values are compared in the maximum norm with a solution of the steady diffusion
equation, of which only ordinary derivatives are mentioned (`Balances`, Spec/SteadyAccuracy.lean), and `SurfaceFlux` with the
exact flux at the ends.
-/

open scoped BigOperators

namespace Festim.Props

open Run Spec Newton Solve Closed Weak

section
variable {Ω : Type} [Fintype Ω] {L : Line Ω} {x0 : ℝ} {K r : ℕ → ℝ} {f : ℕ → ℝ → ℝ} {w : ℝ → ℝ}
  {slope curv : ℕ → ℝ → ℝ} {Mr Mx ε : ℝ} {P : Problem Ω Bool 1} {bcs : List (MobBC Bool)} {mat : Ω → Mat}
  {matS : Bool → Mat} {dir : Bool → Prop} {val : Bool → ℝ}

/-- The steady problem given to the solver has the coefficients, sources and boundary values of the equation of `w`: `K` is the
diffusivity, times the solubility with conservation of the chemical potential; `r` the decay constant, likewise. -/
structure SteadyData (L : Line Ω) (x0 : ℝ) (K r : ℕ → ℝ) (f : ℕ → ℝ → ℝ) (w : ℝ → ℝ) (slope : ℕ → ℝ → ℝ) (ε : ℝ)
    (P : Problem Ω Bool 1) (bcs : List (MobBC Bool)) (mat : Ω → Mat) (matS : Bool → Mat) (dir : Bool → Prop)
    (val : Bool → ℝ) : Prop where
  dt : P.dt = none
  conduct : ∀ p, conductivity P mat p = K (L.cell p)
  decay : ∀ p, decayAt P p * unitConc P.mv.theta (mat p) (P.T.T.val p) = r (L.cell p)
  source : ∀ p, |givenAt P p - f (L.cell p) (L.pos x0 p)| ≤ ε
  fixed : ∀ q, dir q → val q = w (L.node x0 (L.endNo q))
  flux : ∀ q, ¬ dir q → K (L.endCell q) * slope (L.endCell q) (L.node x0 (L.endNo q)) * Line.normal q 0
    = fluxAt P bcs q
      - exchangeAt P bcs q * unitConc P.mv.theta (matS q) (P.T.T.tr q) * w (L.node x0 (L.endNo q))

theorem line_point (L : Line Ω) (i : ℕ) (hi : i < L.N) : ∃ p, L.cell p = i := by
  by_contra hn
  push Not at hn
  have := L.exact i hi
  rw [Finset.filter_false_of_mem fun p _ => hn p, Finset.sum_empty] at this
  exact (L.h_pos i hi).ne this

theorem SteadyData.K_pos (hd : SteadyData L x0 K r f w slope ε P bcs mat matS dir val)
    (hP : LinearLine L P bcs mat matS dir) (i : ℕ) (hi : i < L.N) : 0 < K i := by
  obtain ⟨p, rfl⟩ := line_point L i hi
  rw [← hd.conduct p]
  exact conductivity_pos hP p

theorem SteadyData.r_nonneg (hd : SteadyData L x0 K r f w slope ε P bcs mat matS dir val)
    (hP : LinearLine L P bcs mat matS dir) (i : ℕ) (hi : i < L.N) : 0 ≤ r i := by
  obtain ⟨p, rfl⟩ := line_point L i hi
  rw [← hd.decay p]
  exact mul_nonneg (decayAt_nonneg P hP.decay p) (unitConc_pos fun h => hP.S_pos h _ (hP.cover.mem p)).le

theorem exchangeOf_nonneg (hP : LinearLine L P bcs mat matS dir) (q : Bool) : 0 ≤ exchangeOf P bcs matS q :=
  mul_nonneg (exchangeAt_nonneg P bcs hP.fluxes q)
    (unitConc_pos fun h => hP.S_pos h _ (hP.solubility.memS h q)).le

/-- The error satisfies the discrete equation with a small right-hand side. -/
theorem SteadyData.error (hL : L.Exact2) (hw : Balances L x0 K r f w slope curv) (hM : BalancesBy L x0 K r w curv Mr Mx)
    {H : ℝ} (hH : ∀ i < L.N, L.h i ≤ H) (hP : LinearLine L P bcs mat matS dir)
    (hd : SteadyData L x0 K r f w slope ε P bcs mat matS dir val) {u : ℕ → ℝ} (hu : LineSolves L P bcs dir val u) :
    (∀ q, dir q → (L.p1 (u - L.nodal x0 w)).tr q = 0) ∧
    ∀ v : ℕ → ℝ, (∀ q, dir q → (L.p1 v).tr q = 0) → ∀ M, (∀ i ≤ L.N, |v i| ≤ M) →
      |bil L (fun p => r (L.cell p)) (fun p => K (L.cell p)) (exchangeOf P bcs matS) (u - L.nodal x0 w) v|
        ≤ (H ^ 2 / 8 * (Mr + 3 * Mx) + ε) * L.extent * M := by
  constructor
  · intro q hq
    have h1 := hu.1 q hq
    rw [hd.fixed q hq, p1_node] at h1
    rw [p1_node]
    simp only [Pi.sub_apply, h1, Line.nodal, sub_self]
  · intro v hv M hvM
    obtain ⟨F, hF, h0⟩ := hu.2 v hv
    have h := hP.residual u v F hF
    rw [h0] at h
    have h := (sub_eq_zero.1 h.symm)
    have e1 : reactionOf P mat = fun p => r (L.cell p) := by
      funext p
      simp only [reactionOf, hd.dt, zero_add]
      exact hd.decay p
    have e2 : conductivity P mat = fun p => K (L.cell p) := funext hd.conduct
    have e3 : loadOf P mat = givenAt P := by
      funext p
      simp only [loadOf, hd.dt, zero_add]
    rw [e1, e2, e3] at h
    have h2 := steady_consistency hL hw hM hH hd.source (g := fluxAt P bcs) (β := exchangeOf P bcs matS) (dir := dir)
      (fun q hq => hd.flux q hq) hv hvM
    rw [bil_sub, h]
    refine h2.trans (le_of_eq ?_)
    ring

/-- At this end the level of the concentration is fixed, through the resistance `s`: zero with an imposed concentration, one over
the exchange coefficient with a mass flux. -/
def LevelAt (P : Problem Ω Bool 1) (bcs : List (MobBC Bool)) (matS : Bool → Mat) (dir : Bool → Prop) (q : Bool) (s : ℝ) : Prop :=
  (dir q ∧ s = 0) ∨
    (0 < exchangeAt P bcs q * unitConc P.mv.theta (matS q) (P.T.T.tr q) ∧
      s = 1 / (exchangeAt P bcs q * unitConc P.mv.theta (matS q) (P.T.T.tr q)))

/-- **C103.** The values at all nodes: second order in the mesh size. -/
theorem C103_accuracy (hL : L.Exact2) (hw : Balances L x0 K r f w slope curv) (hM : BalancesBy L x0 K r w curv Mr Mx)
    {H : ℝ} (hH : ∀ i < L.N, L.h i ≤ H) (hP : LinearLine L P bcs mat matS dir)
    (hd : SteadyData L x0 K r f w slope ε P bcs mat matS dir val) {q0 : Bool} {s : ℝ}
    (hs : LevelAt P bcs matS dir q0 s) {u : ℕ → ℝ} (hu : LineSolves L P bcs dir val u) :
    ∀ i ≤ L.N, |u i - w (L.node x0 i)|
      ≤ (s + L.resist K) * ((H ^ 2 / 8 * (Mr + 3 * Mx) + ε) * L.extent) := by
  obtain ⟨h1, h2⟩ := hd.error hL hw hM hH hP hu
  exact max_bound hL (hd.K_pos hP) (hd.r_nonneg hP) (exchangeOf_nonneg hP) hs h1 h2

/-- **C103.** When the divergence of the flux and the decay are affine in each cell, the nodal values are exact, whatever the mesh:
for instance with sources constant in each cell and no decay. -/
theorem C103_exact (hL : L.Exact2) (hw : Balances L x0 K r f w slope curv) (hM : BalancesBy L x0 K r w curv 0 0)
    (hP : LinearLine L P bcs mat matS dir) (hd : SteadyData L x0 K r f w slope 0 P bcs mat matS dir val) {q0 : Bool} {s : ℝ}
    (hs : LevelAt P bcs matS dir q0 s) {u : ℕ → ℝ} (hu : LineSolves L P bcs dir val u) (i : ℕ) (hi : i ≤ L.N) :
    u i = w (L.node x0 i) := by
  have hH : ∀ i < L.N, L.h i ≤ L.extent := fun i hi =>
    Finset.single_le_sum (f := L.h) (fun j hj => (L.h_pos j (Finset.mem_range.1 hj)).le) (Finset.mem_range.2 hi)
  have h := C103_accuracy hL hw hM hH hP hd hs hu i hi
  have e : (s + L.resist K) * ((L.extent ^ 2 / 8 * (0 + 3 * 0) + 0) * L.extent) = 0 := by ring
  rw [e] at h
  exact sub_eq_zero.1 (abs_nonpos_iff.1 h)

/-- What `SurfaceFlux` reports at an end is the conductivity there times the slope of the nodal values in the cell at the end. -/
theorem reported_slope (hP : LinearLine L P bcs mat matS dir) (hK : ∀ p, conductivity P mat p = K (L.cell p)) {u : ℕ → ℝ}
    (e : PostEnv Ω Bool 1) (proj : Bool) (he : e.mesh = P.mesh) (hn : e.n = Line.normal) (hes : e.soret = false)
    (hp : PropertiesOf e P.mats matS)
    (hg : ∀ q, e.solute.gradS q 0
      = (if P.mv.theta then arr (matS q).S_0 (matS q).E_S (e.T.tr q) else 1) * L.endSlope u q)
    (hT : ∀ q p, L.cell p = L.endCell q → mat p = matS q ∧ P.T.T.val p = e.T.tr q) (q : Bool) :
    (hydrogenFlux (if q then L.right else L.left)).value e proj
      = .ok (K (L.endCell q) * ((u (L.endCell q + 1) - u (L.endCell q)) / L.h (L.endCell q)) * Line.normal q 0) := by
  obtain ⟨r, hm⟩ := hP.mesh
  have hN := L.N_pos
  have hend : ∀ q, arr (matS q).D_0 (matS q).E_D (e.T.tr q) * e.solute.gradS q 0
      = K (L.endCell q) * ((u (L.endCell q + 1) - u (L.endCell q)) / L.h (L.endCell q)) := by
    intro q
    have hlt : L.endCell q < L.N := by cases q <;> simp [Line.endCell] <;> omega
    obtain ⟨p, hpq⟩ := line_point L _ hlt
    obtain ⟨h5, h6⟩ := hT q p hpq
    rw [← hpq, ← hK p, hpq, hg q]
    unfold conductivity
    rw [h5, h6, mul_assoc]
    congr 2
    cases q
    · simp [Line.endSlope, Line.endCell]
    · simp only [Line.endSlope, Line.endCell, if_true]
      rw [Nat.sub_add_cancel hN]
  unfold hydrogenFlux
  rw [C62_reported_is_inward_flux e proj .cartesian (.name "solute") _ (by simp) e.solute
    (label_solute e proj) (by simp [Geom.curved]) P.mats matS hp (by simp [hes])]
  congr 1
  simp only [fluxAngle, one_mul, Geom.suffix, jacS, surface, he, hm, hn, Line.mesh]
  have hends := L.ends
  rw [Finset.sum_filter, Fintype.sum_bool]
  have hgf : ∀ q, gradFlux e.soret false (matS q) (e.T.tr q) (e.solute.tr q) (e.T.gradS q) (e.solute.gradS q) 0
      = K (L.endCell q) * ((u (L.endCell q + 1) - u (L.endCell q)) / L.h (L.endCell q)) := by
    intro q
    rw [← hend q]
    simp [gradFlux, physGrad, hes]
  cases q <;> simp [dot, Line.normal, hends, hends.symm, hgf]

/-- The slope of the chord, from that of the function at any point of the cell. -/
theorem chord_slope (hw : Balances L x0 K r f w slope curv) (i : ℕ) (hi : i < L.N) {Mc : ℝ}
    (hc : ∀ x ∈ L.span x0 i, |curv i x| ≤ Mc) (x : ℝ) (hx : x ∈ L.span x0 i) :
    |(w (L.node x0 (i + 1)) - w (L.node x0 i)) / L.h i - slope i x| ≤ Mc * L.h i := by
  have hh := L.h_pos i hi
  have hspan : L.span x0 i = Set.Icc (L.node x0 i) (L.node x0 (i + 1)) := rfl
  have hnode : L.node x0 (i + 1) - L.node x0 i = L.h i := by
    simp [Line.node, Finset.sum_range_succ]
  have hlt : L.node x0 i < L.node x0 (i + 1) := by linarith
  obtain ⟨ξ, hξ, hξ'⟩ := exists_hasDerivAt_eq_slope w (slope i) hlt
    (fun y hy => (hw.hasSlope i hi y hy).continuousWithinAt)
    (fun y hy => (hw.hasSlope i hi y (Set.Ioo_subset_Icc_self hy)).hasDerivAt (Icc_mem_nhds hy.1 hy.2))
  rw [hnode] at hξ'
  rw [← hξ']
  have hξm : ξ ∈ L.span x0 i := Set.Ioo_subset_Icc_self hξ
  have h1 := (convex_Icc (L.node x0 i) (L.node x0 (i + 1))).norm_image_sub_le_of_norm_hasDerivWithin_le
    (f := slope i) (f' := curv i) (C := Mc) (fun y hy => hw.hasCurv i hi y hy) (fun y hy => hc y hy) hx hξm
  rw [Real.norm_eq_abs, Real.norm_eq_abs] at h1
  have hMc : 0 ≤ Mc := (abs_nonneg _).trans (hc x hx)
  refine h1.trans (mul_le_mul_of_nonneg_left ?_ hMc)
  have a1 := hx.1
  have a2 := hx.2
  have b1 := hξm.1
  have b2 := hξm.2
  rw [abs_le]
  constructor <;> linarith

theorem endCell_lt (L : Line Ω) (q : Bool) : L.endCell q < L.N := by
  have := L.N_pos
  cases q <;> simp [Line.endCell] <;> omega

theorem end_mem (L : Line Ω) (x0 : ℝ) (q : Bool) : L.node x0 (L.endNo q) ∈ L.span x0 (L.endCell q) := by
  have hlt := endCell_lt L q
  have hh := L.h_pos _ hlt
  have hnode : L.node x0 (L.endCell q + 1) - L.node x0 (L.endCell q) = L.h (L.endCell q) := by
    simp [Line.node, Finset.sum_range_succ]
  cases q
  · simp only [Line.endNo, Line.endCell, Bool.false_eq_true, if_false] at hnode hh ⊢
    exact ⟨le_rfl, by linarith⟩
  · have e : L.endNo true = L.endCell true + 1 := by
      have := L.N_pos
      simp only [Line.endNo, Line.endCell, if_true]
      omega
    rw [e]
    exact ⟨by linarith, le_rfl⟩

/-- **C103.** What `SurfaceFlux` reports at each end, compared with the exact flux `K dw/dx n`: the accuracy is of first order in
the size of the cell at the end, and of second order in the mesh size otherwise. -/
theorem C103_flux (hL : L.Exact2) (hw : Balances L x0 K r f w slope curv) (hM : BalancesBy L x0 K r w curv Mr Mx)
    {H : ℝ} (hH : ∀ i < L.N, L.h i ≤ H) (hP : LinearLine L P bcs mat matS dir)
    (hd : SteadyData L x0 K r f w slope ε P bcs mat matS dir val) {q0 : Bool} {s : ℝ}
    (hs : LevelAt P bcs matS dir q0 s) {u : ℕ → ℝ} (hu : LineSolves L P bcs dir val u) {R : ℝ}
    (hR : ∀ i < L.N, r i ≤ R) (e : PostEnv Ω Bool 1) (proj : Bool) (he : e.mesh = P.mesh) (hn : e.n = Line.normal)
    (hes : e.soret = false) (hp : PropertiesOf e P.mats matS)
    (hg : ∀ q, e.solute.gradS q 0
      = (if P.mv.theta then arr (matS q).S_0 (matS q).E_S (e.T.tr q) else 1) * L.endSlope u q)
    (hT : ∀ q p, L.cell p = L.endCell q → mat p = matS q ∧ P.T.T.val p = e.T.tr q) (q : Bool) {Mc : ℝ}
    (hc : ∀ x ∈ L.span x0 (L.endCell q), |curv (L.endCell q) x| ≤ Mc) :
    ∃ J, (hydrogenFlux (if q then L.right else L.left)).value e proj = .ok J ∧
      |J - K (L.endCell q) * slope (L.endCell q) (L.node x0 (L.endNo q)) * Line.normal q 0|
        ≤ (H ^ 2 / 8 * (Mr + 3 * Mx) + ε) * L.extent * (1 + (s + L.resist K) * (R * L.extent + 2 / L.resist K))
          + K (L.endCell q) * Mc * L.h (L.endCell q) := by
  refine ⟨_, reported_slope hP hd.conduct e proj he hn hes hp hg hT q, ?_⟩
  obtain ⟨h1, h2⟩ := hd.error hL hw hM hH hP hu
  have hE := C103_accuracy hL hw hM hH hP hd hs hu
  have hlt := endCell_lt L q
  have h3 := flux_bound hL (hd.K_pos hP) (R := R)
    (fun i hi => by rw [abs_of_nonneg (hd.r_nonneg hP i hi)]; exact hR i hi) hE h2 _ hlt
  have h4 := chord_slope hw _ hlt hc _ (end_mem L x0 q)
  have hKp := hd.K_pos hP _ hlt
  have h5 := mul_le_mul_of_nonneg_left h4 hKp.le
  rw [← abs_of_pos hKp, ← abs_mul, abs_of_pos hKp] at h5
  have hnn : |Line.normal q 0| = 1 := by cases q <;> simp [Line.normal]
  have e1 : K (L.endCell q) * ((u (L.endCell q + 1) - u (L.endCell q)) / L.h (L.endCell q)) * Line.normal q 0
      - K (L.endCell q) * slope (L.endCell q) (L.node x0 (L.endNo q)) * Line.normal q 0
      = (K (L.endCell q) * (((u - L.nodal x0 w) (L.endCell q + 1) - (u - L.nodal x0 w) (L.endCell q)) / L.h (L.endCell q))
        + K (L.endCell q) * ((w (L.node x0 (L.endCell q + 1)) - w (L.node x0 (L.endCell q))) / L.h (L.endCell q)
          - slope (L.endCell q) (L.node x0 (L.endNo q)))) * Line.normal q 0 := by
    simp only [Pi.sub_apply, Line.nodal]
    ring
  rw [e1, abs_mul, hnn, mul_one]
  refine (abs_add_le _ _).trans ((add_le_add h3 h5).trans (le_of_eq ?_))
  ring

/-- **C103.** The first order is sharp: where the exact profile has a constant second derivative `c` in the cell at the end and
the nodal values are exact, the reported flux differs from the exact one by exactly `K c h / 2` - with a uniform source, half of what is
produced in that cell. -/
theorem C103_flux_offset (hL : L.Exact2) (hw : Balances L x0 K r f w slope curv) (hM : BalancesBy L x0 K r w curv 0 0)
    (hP : LinearLine L P bcs mat matS dir) (hd : SteadyData L x0 K r f w slope 0 P bcs mat matS dir val) {q0 : Bool} {s : ℝ}
    (hs : LevelAt P bcs matS dir q0 s) {u : ℕ → ℝ} (hu : LineSolves L P bcs dir val u) (e : PostEnv Ω Bool 1) (proj : Bool)
    (he : e.mesh = P.mesh) (hn : e.n = Line.normal) (hes : e.soret = false) (hp : PropertiesOf e P.mats matS)
    (hg : ∀ q, e.solute.gradS q 0
      = (if P.mv.theta then arr (matS q).S_0 (matS q).E_S (e.T.tr q) else 1) * L.endSlope u q)
    (hT : ∀ q p, L.cell p = L.endCell q → mat p = matS q ∧ P.T.T.val p = e.T.tr q) (q : Bool) {c : ℝ}
    (hc : ∀ x ∈ L.span x0 (L.endCell q), curv (L.endCell q) x = c) :
    (hydrogenFlux (if q then L.right else L.left)).value e proj
      = .ok (K (L.endCell q) * slope (L.endCell q) (L.node x0 (L.endNo q)) * Line.normal q 0
        - K (L.endCell q) * c * L.h (L.endCell q) / 2) := by
  have hlt := endCell_lt L q
  have hh := L.h_pos _ hlt
  rw [reported_slope hP hd.conduct e proj he hn hes hp hg hT q,
    C103_exact hL hw hM hP hd hs hu _ hlt, C103_exact hL hw hM hP hd hs hu _ hlt.le]
  congr 1
  have hnode : L.node x0 (L.endCell q + 1) - L.node x0 (L.endCell q) = L.h (L.endCell q) := by
    simp [Line.node, Finset.sum_range_succ]
  set i := L.endCell q with hi
  set a := L.node x0 i with ha
  set b := L.node x0 (i + 1) with hb
  set z := L.node x0 (L.endNo q) with hz
  have hzm : z ∈ L.span x0 i := end_mem L x0 q
  have hab : a ≤ b := by linarith
  -- `w x - slope z (x - z) - c (x - z)² / 2` is constant
  have hs' : ∀ x ∈ L.span x0 i, slope i x = slope i z + c * (x - z) := by
    intro x hx
    have h1 := (convex_Icc a b).norm_image_sub_le_of_norm_hasDerivWithin_le
      (f := fun y => slope i y - c * y) (f' := fun y => curv i y - c) (C := 0)
      (fun y hy => (hw.hasCurv i hlt y hy).sub (by simpa using ((hasDerivAt_id y).const_mul c).hasDerivWithinAt))
      (fun y hy => by rw [hc y hy]; simp) hzm hx
    rw [zero_mul] at h1
    have h2 := norm_le_zero_iff.1 h1
    linarith
  have hw' : ∀ x ∈ L.span x0 i, w x = w z + slope i z * (x - z) + c * (x - z) ^ 2 / 2 := by
    intro x hx
    have h1 := (convex_Icc a b).norm_image_sub_le_of_norm_hasDerivWithin_le
      (f := fun y => w y - (slope i z * (y - z) + c * (y - z) ^ 2 / 2))
      (f' := fun y => slope i y - (slope i z + c * (y - z))) (C := 0)
      (fun y hy => (hw.hasSlope i hlt y hy).sub (by
        have d1 := ((hasDerivAt_id y).sub_const z).const_mul (slope i z)
        have d2 := ((((hasDerivAt_id y).sub_const z).pow 2).const_mul c).div_const 2
        have := (d1.add d2).hasDerivWithinAt (s := Set.Icc a b)
        refine (this.congr_deriv ?_)
        simp
        ring))
      (fun y hy => by rw [hs' y hy]; simp) hzm hx
    rw [zero_mul] at h1
    have h2 := norm_le_zero_iff.1 h1
    simp only [sub_self, mul_zero, ne_eq, OfNat.ofNat_ne_zero, not_false_eq_true, zero_pow, zero_div, add_zero, sub_zero] at h2
    linarith
  rw [hw' b ⟨hab, le_rfl⟩, hw' a ⟨le_rfl, hab⟩]
  cases q
  · have e1 : z = a := rfl
    have e2 : b - a = L.h i := hnode
    rw [e1, e2]
    simp only [Line.normal, Bool.false_eq_true, if_false]
    field_simp
    ring
  · have e1 : z = b := by
      have : L.endNo true = L.endCell true + 1 := by
        have := L.N_pos
        simp only [Line.endNo, Line.endCell, if_true]
        omega
      rw [hz, hb, hi, this]
    have e2 : a - b = -L.h i := by linarith
    rw [e1, e2]
    simp only [Line.normal, if_true]
    field_simp
    ring

/-- **C103.** The same for the steady temperature, with conductivities which do not depend on it. -/
theorem C103_heat (hL : L.Exact2) (hw : Balances L x0 K (fun _ => 0) f w slope curv)
    (hM : BalancesBy L x0 K (fun _ => 0) w curv Mr Mx) {H : ℝ} (hH : ∀ i < L.N, L.h i ≤ H) {rad : Fld Ω Bool 1}
    {mats : List Mat} {hbcs : List (Flux Bool × List ℕ)} {cap cond : Ω → ℝ} {sources : List ((Ω → ℝ) × List ℕ)}
    {Tn : Fld Ω Bool 1} (hP : LinearHeat L rad mats mat none hbcs cap cond dir) (hK : ∀ p, cond p = K (L.cell p))
    (hsrc : ∀ p, |heatGivenAt L sources p - f (L.cell p) (L.pos x0 p)| ≤ ε)
    (hfix : ∀ q, dir q → val q = w (L.node x0 (L.endNo q)))
    (hflux : ∀ q, ¬ dir q → K (L.endCell q) * slope (L.endCell q) (L.node x0 (L.endNo q)) * Line.normal q 0
      = (hbcs.map (heatBcGiven L rad q)).sum - (hbcs.map (heatBcExchange L rad q)).sum * w (L.node x0 (L.endNo q)))
    {q0 : Bool} {s : ℝ} (hs : (dir q0 ∧ s = 0) ∨ (0 < (hbcs.map (heatBcExchange L rad q0)).sum ∧
      s = 1 / (hbcs.map (heatBcExchange L rad q0)).sum)) {u : ℕ → ℝ}
    (hu : HeatSolves L rad mats none sources hbcs Tn dir val u) :
    ∀ i ≤ L.N, |u i - w (L.node x0 i)|
      ≤ (s + L.resist K) * ((H ^ 2 / 8 * (Mr + 3 * Mx) + ε) * L.extent) := by
  have hKp : ∀ i < L.N, 0 < K i := by
    intro i hi
    obtain ⟨p, rfl⟩ := line_point L i hi
    rw [← hK p]
    exact hP.cond_pos p
  have hβ : ∀ q, 0 ≤ (hbcs.map (heatBcExchange L rad q)).sum := fun q => List.sum_nonneg fun y hy => by
    obtain ⟨b, hb, rfl⟩ := List.mem_map.1 hy
    exact heatBcExchange_nonneg L rad q (hP.fluxes b hb)
  refine max_bound (r := fun _ => 0) hL hKp (fun _ _ => le_rfl) hβ hs (e := u - L.nodal x0 w) (fun q hq => ?_) fun v hv M hvM => ?_
  · have h1 := hu.1 q hq
    rw [hfix q hq, p1_node] at h1
    rw [p1_node]
    simp only [Pi.sub_apply, h1, Line.nodal, sub_self]
  · have h1 := hu.2 v hv
    rw [hP.residual] at h1
    have h := sub_eq_zero.1 h1
    have e1 : heatReaction none cap = fun _ : Ω => (0 : ℝ) := by
      funext p
      simp only [heatReaction]
    have e2 : cond = fun p => K (L.cell p) := funext hK
    have e3 : heatLoad L none sources cap Tn = heatGivenAt L sources := by
      funext p
      simp only [heatLoad, heatReaction]
      ring
    rw [e1, e2, e3] at h
    have h2 := steady_consistency hL hw hM hH hsrc (g := fun q => (hbcs.map (heatBcGiven L rad q)).sum)
      (β := fun q => (hbcs.map (heatBcExchange L rad q)).sum) (dir := dir) hflux hv hvM
    rw [bil_sub, h]
    refine h2.trans (le_of_eq ?_)
    ring

/-- **C103.** Convergence: the mesh size for a given accuracy depends only on the length, the resistances and the smoothness of
the solution, whatever the mesh, the materials and the conditions. -/
theorem C103_converges (ℓ ρ Mr Mx δ : ℝ) (hδ : 0 < δ) : ∃ η > 0,
    ∀ {Ω : Type} [Fintype Ω] (L : Line Ω) (x0 : ℝ) (K r : ℕ → ℝ) (f : ℕ → ℝ → ℝ) (w : ℝ → ℝ) (slope curv : ℕ → ℝ → ℝ) (ε : ℝ)
      (P : Problem Ω Bool 1) (bcs : List (MobBC Bool)) (mat : Ω → Mat) (matS : Bool → Mat) (dir : Bool → Prop) (val : Bool → ℝ)
      (q0 : Bool) (s : ℝ) (u : ℕ → ℝ), L.Exact2 → L.extent ≤ ℓ → s + L.resist K ≤ ρ → Balances L x0 K r f w slope curv →
      BalancesBy L x0 K r w curv Mr Mx → LinearLine L P bcs mat matS dir →
      SteadyData L x0 K r f w slope ε P bcs mat matS dir val → LevelAt P bcs matS dir q0 s → LineSolves L P bcs dir val u →
      (∀ i < L.N, L.h i ≤ η) → ε ≤ η → ∀ i ≤ L.N, |u i - w (L.node x0 i)| ≤ δ := by
  set A : ℝ := |ρ| * (((|Mr| + 3 * |Mx|) / 8 + 1) * |ℓ|) with hA
  have hA0 : 0 ≤ A := by positivity
  refine ⟨min 1 (δ / (1 + A)), by positivity, ?_⟩
  intro Ω _ L x0 K r f w slope curv ε P bcs mat matS dir val q0 s u hL hℓ hρ hw hM hP hd hs hu hH hε i hi
  set η := min 1 (δ / (1 + A)) with hη
  have hη0 : 0 < η := by positivity
  have hη1 : η ≤ 1 := min_le_left _ _
  have h1 := C103_accuracy hL hw hM hH hP hd hs hu i hi
  have hs0 : 0 ≤ s + L.resist K := by
    have := resist_pos L (hd.K_pos hP)
    rcases hs with ⟨-, rfl⟩ | ⟨h, rfl⟩
    · linarith
    · have := one_div_pos.2 h
      linarith
  have hlen := (extent_pos L).le
  have hin : η ^ 2 / 8 * (Mr + 3 * Mx) + ε ≤ ((|Mr| + 3 * |Mx|) / 8 + 1) * η := by
    have e2 : η ^ 2 / 8 * (Mr + 3 * Mx) ≤ (|Mr| + 3 * |Mx|) / 8 * η := by
      have e3 : Mr + 3 * Mx ≤ |Mr| + 3 * |Mx| := by linarith [le_abs_self Mr, le_abs_self Mx]
      have e4 : 0 ≤ |Mr| + 3 * |Mx| := by positivity
      have e5 : η ^ 2 ≤ η := by nlinarith
      nlinarith [mul_le_mul_of_nonneg_left e3 (sq_nonneg η), mul_le_mul_of_nonneg_right e5 e4]
    linarith
  have hB0 : 0 ≤ ((|Mr| + 3 * |Mx|) / 8 + 1) * η := by positivity
  have h2 : (η ^ 2 / 8 * (Mr + 3 * Mx) + ε) * L.extent ≤ ((|Mr| + 3 * |Mx|) / 8 + 1) * η * |ℓ| :=
    (mul_le_mul_of_nonneg_right hin hlen).trans (mul_le_mul_of_nonneg_left (hℓ.trans (le_abs_self _)) hB0)
  have h3 : (s + L.resist K) * ((η ^ 2 / 8 * (Mr + 3 * Mx) + ε) * L.extent)
      ≤ |ρ| * (((|Mr| + 3 * |Mx|) / 8 + 1) * η * |ℓ|) :=
    (mul_le_mul_of_nonneg_left h2 hs0).trans
      (mul_le_mul_of_nonneg_right (hρ.trans (le_abs_self _)) (mul_nonneg hB0 (abs_nonneg _)))
  have h4 : |ρ| * (((|Mr| + 3 * |Mx|) / 8 + 1) * η * |ℓ|) = A * η := by rw [hA]; ring
  have h5 : A * η ≤ δ := by
    have h6 : η * (1 + A) ≤ δ := by
      have := mul_le_mul_of_nonneg_right (min_le_right 1 (δ / (1 + A))) (by linarith : (0 : ℝ) ≤ 1 + A)
      rwa [div_mul_cancel₀ _ (by linarith : (1 : ℝ) + A ≠ 0)] at this
    nlinarith
  linarith

end

/-! ### Two layers

Diffusivities 1 and 2, production 2 everywhere, concentration 0 on the left and 1 entering on the right.  The solution is
`5 x - x²` then `4 + 3/2 (x - 1) - (x - 1)²/2`. -/

namespace SteadyCase

open AccCase (L A B mat exact2 span0 span1 lineN bend_const)

noncomputable def P : Problem (Fin 2 × Fin 3) Bool 1 where
  mesh := L.mesh (Fld.const 1)
  mats := [A, B]
  mv := { theta := false, sol := Fld.const 0, prev := Fld.const 0 }
  T := ⟨Fld.const 300, Fld.const 400⟩
  dt := none
  soret := false
  sources := [⟨.given fun _ => 2, [1, 2]⟩]
  traps := []

noncomputable def bcs : List (MobBC Bool) := [.flux (.value fun _ => 1) [2]]

noncomputable def w (x : ℝ) : ℝ := if x ≤ 1 then 5 * x - x ^ 2 else 4 + 3 / 2 * (x - 1) - (x - 1) ^ 2 / 2
noncomputable def slope (i : ℕ) (x : ℝ) : ℝ := if i = 0 then 5 - 2 * x else 3 / 2 - (x - 1)
def curv (i : ℕ) (_ : ℝ) : ℝ := if i = 0 then -2 else -1
def K (i : ℕ) : ℝ := if i = 0 then 1 else 2

theorem linear : LinearLine L P bcs mat (fun q => if q then B else A) (· = false) where
  mesh := ⟨_, rfl⟩
  weights := exact2.w_nonneg
  cover := ⟨by intro p; by_cases h : p.1 = 0 <;> simp [mat, P, h],
    by
      rintro ⟨p, p'⟩
      fin_cases p <;> simp [mat, P, L, Line.mesh, A, B], by simp [P, A, B]⟩
  solubility := ⟨by simp [P], by simp [P], by simp [P], by simp [P]⟩
  law := by simp [P]
  uniform := by simp [P]
  D_pos := by simp [P, A, B]
  S_pos := by simp [P]
  step := by simp [P]
  traps := rfl
  decay := by simp [P]
  fluxes := by simp [AffineFlux, bcs]
  fixed := Or.inr ⟨false, Or.inl rfl⟩

theorem w_eq : (∀ x ∈ Set.Icc (0 : ℝ) 1, w x = 5 * x - x ^ 2) ∧
    ∀ x ∈ Set.Icc (1 : ℝ) 2, w x = 4 + 3 / 2 * (x - 1) - (x - 1) ^ 2 / 2 := by
  refine ⟨fun x hx => by simp [w, hx.2], fun x hx => ?_⟩
  unfold w
  split_ifs with h
  · have : x = 1 := le_antisymm h hx.1
    rw [this]; norm_num
  · rfl

theorem balances : Balances L 0 K (fun _ => 0) (fun _ _ => 2) w slope curv where
  hasSlope := by
    intro i hi x hx
    rw [lineN] at hi
    interval_cases i
    · rw [span0] at hx ⊢
      have h := ((hasDerivAt_id x).const_mul 5).sub ((hasDerivAt_id x).pow 2)
      have h2 := h.hasDerivWithinAt (s := Set.Icc (0 : ℝ) 1)
      refine (h2.congr (fun y hy => w_eq.1 y hy) (w_eq.1 x hx)).congr_deriv ?_
      simp [slope]
    · rw [span1] at hx ⊢
      have d := (hasDerivAt_id x).sub_const 1
      have h := ((d.const_mul (3 / 2)).const_add 4).sub ((d.pow 2).div_const 2)
      have h2 := h.hasDerivWithinAt (s := Set.Icc (1 : ℝ) 2)
      refine (h2.congr (fun y hy => w_eq.2 y hy) (w_eq.2 x hx)).congr_deriv ?_
      simp [slope]
  hasCurv := by
    intro i hi x hx
    rw [lineN] at hi
    interval_cases i
    · have h := (((hasDerivAt_id x).const_mul 2).const_sub 5).hasDerivWithinAt (s := L.span 0 0)
      refine (h.congr (fun y _ => by simp [slope]) (by simp [slope])).congr_deriv ?_
      simp [curv]
    · have h := (((hasDerivAt_id x).sub_const 1).const_sub (3 / 2)).hasDerivWithinAt (s := L.span 0 1)
      refine (h.congr (fun y _ => by simp [slope]) (by simp [slope])).congr_deriv ?_
      simp [curv]
  equation := by
    intro i hi x _
    rw [lineN] at hi
    interval_cases i <;> simp [K, curv]
  flux := by
    intro i hi
    rw [lineN] at hi
    obtain rfl : i = 0 := by omega
    simp [K, slope, Line.node, L, BoundCase.simpson]
    norm_num

theorem smooth : BalancesBy L 0 K (fun _ => 0) w curv 0 0 where
  bendDecay := fun i _ => by simpa using bend_const 0 _
  bendCurv := fun i _ => bend_const (K i * if i = 0 then -2 else -1) _

theorem data : SteadyData L 0 K (fun _ => 0) (fun _ _ => 2) w slope 0 P bcs mat (fun q => if q then B else A) (· = false)
    (fun _ => 0) where
  dt := rfl
  conduct := by
    rintro ⟨p, p'⟩
    fin_cases p <;> simp [conductivity, P, mat, A, B, arr, K, L, BoundCase.simpson]
  decay := by
    rintro ⟨p, p'⟩
    fin_cases p <;> simp [decayAt, P, Src.lam, L, Line.mesh]
  source := by
    rintro ⟨p, p'⟩
    fin_cases p <;> simp [givenAt, P, Src.rate, L, Line.mesh]
  fixed := by
    rintro q rfl
    simp [w, Line.node, Line.endNo]
  flux := by
    intro q hq
    have : q = true := by simpa using hq
    subst this
    simp [Line.normal, Line.endCell, Line.endNo, Line.node, K, slope, Weak.fluxAt, exchangeAt, bcs, bcGiven, bcExchange, P, L,
      Line.mesh, BoundCase.simpson, inward]
    norm_num

theorem level : LevelAt P bcs (fun q => if q then B else A) (· = false) false 0 := Or.inl ⟨rfl, rfl⟩

/-- A function of the nodes, as it is seen by the derived quantities. -/
noncomputable def field (u : ℕ → ℝ) : PostFun (Fin 2 × Fin 3) Bool 1 where
  val := (L.p1 u).val
  tr := (L.p1 u).tr
  gradS q _ := L.endSlope u q
  cells := [(1, [u 0, u 1]), (2, [u 1, u 2])]
  pt _ := 0
  isFun := true

noncomputable def env (u : ℕ → ℝ) : PostEnv (Fin 2 × Fin 3) Bool 1 where
  mesh := P.mesh
  n := Line.normal
  D q := if q then 2 else 1
  cond := none
  Q := none
  T := field fun _ => 300
  soret := false
  solute := field u
  traps := []
  ids := []
  adsorbed := []

theorem properties (u : ℕ → ℝ) : PropertiesOf (env u) P.mats (fun q => if q then B else A) :=
  ⟨by intro q; cases q <;> simp [env, P, L, Line.mesh, findMat, A, B, BoundCase.simpson],
    by intro q; cases q <;> simp [env, P, L, Line.mesh, arrheniusCoeff, findMat, A, B, BoundCase.simpson],
    by simp [env], by simp [env]⟩

/-- The solver finds 0, 4 and 5.  At the right end, where 1 enters, 2 is reported, and at the left end -4 instead of -5. -/
example : ∃ u : ℕ → ℝ, LineSolves L P bcs (· = false) (fun _ => 0) u ∧ (u 0 = 0 ∧ u 1 = 4 ∧ u 2 = 5) ∧
    (hydrogenFlux 2).value (env u) false = .ok 2 ∧ (hydrogenFlux 1).value (env u) false = .ok (-4) := by
  obtain ⟨u, hu⟩ := C90_exists linear (fun _ => 0)
  have hx := C103_exact exact2 balances smooth linear data level hu
  have hf := fun q => C103_flux_offset exact2 balances smooth linear data level hu (env u) false rfl rfl rfl (properties u)
    (by intro q; simp [env, field, P])
    (by
      rintro q ⟨p, p'⟩ h
      cases q <;> fin_cases p <;>
        simp_all [L, Line.endCell, mat, P, env, field, Line.p1, Fld.const, BoundCase.simpson]) q
    (c := curv (L.endCell q) 0) (fun _ _ => rfl)
  refine ⟨u, hu, ⟨?_, ?_, ?_⟩, ?_, ?_⟩
  · rw [hx 0 (by simp)]
    simp [w, Line.node]
  · rw [hx 1 (by simp [lineN])]
    simp [w, Line.node, L, BoundCase.simpson]
    norm_num
  · rw [hx 2 (by simp [lineN])]
    simp [w, Line.node, L, BoundCase.simpson]
    norm_num
  · have h := hf true
    have e1 : L.right = 2 := rfl
    simp only [if_true, e1] at h
    rw [h]
    congr 1
    simp [Line.endCell, Line.endNo, K, slope, curv, Line.normal, Line.node, L, BoundCase.simpson]
    norm_num
  · have h := hf false
    have e1 : L.left = 1 := rfl
    simp only [Bool.false_eq_true, if_false, e1] at h
    rw [h]
    congr 1
    simp [Line.endCell, Line.endNo, K, slope, curv, Line.normal, Line.node, L, BoundCase.simpson]
    norm_num

/-- The general bound: the first order of the cells at the ends remains. -/
example (u : ℕ → ℝ) (hu : LineSolves L P bcs (· = false) (fun _ => 0) u) :
    ∃ J, (hydrogenFlux 2).value (env u) false = .ok J ∧ |J - 1| ≤ 2 := by
  obtain ⟨J, hJ, h⟩ := C103_flux exact2 balances smooth (H := 1) (fun i _ => le_rfl) linear data level hu (R := 0)
    (fun _ _ => le_rfl) (env u) false rfl rfl rfl (properties u) (by intro q; simp [env, field, P])
    (by
      rintro q ⟨p, p'⟩ h
      cases q <;> fin_cases p <;>
        simp_all [L, Line.endCell, mat, P, env, field, Line.p1, Fld.const, BoundCase.simpson]) true (Mc := 1)
    (fun x _ => by simp [curv, Line.endCell, L, BoundCase.simpson])
  refine ⟨J, hJ, ?_⟩
  have e1 : K (L.endCell true) * slope (L.endCell true) (L.node 0 (L.endNo true)) * Line.normal true 0 = 1 := by
    simp [Line.endCell, Line.endNo, K, slope, Line.normal, Line.node, L, BoundCase.simpson]
    norm_num
  have e2 : K (L.endCell true) * 1 * L.h (L.endCell true) = 2 := by
    simp [Line.endCell, K, L, BoundCase.simpson]
  rw [e1, e2] at h
  linarith

theorem heat : LinearHeat L (Fld.const 1) [LineCase.hA, LineCase.hB] AccCase.hmat none
    [(.value fun _ => 1, [2])] (fun _ => 1) (fun p => K (L.cell p)) (· = false) where
  weights := exact2.w_nonneg
  cover := ⟨by intro p; by_cases h : p.1 = 0 <;> simp [AccCase.hmat, h],
    by
      rintro ⟨p, p'⟩
      fin_cases p <;> simp [AccCase.hmat, L, Line.mesh, LineCase.hA, LineCase.hB], by simp [LineCase.hA, LineCase.hB]⟩
  capacity := by
    rintro ⟨p, p'⟩ T
    fin_cases p <;> simp [AccCase.hmat, LineCase.hA, LineCase.hB, Mat.vcap]
  conduct := by
    rintro ⟨p, p'⟩ T
    fin_cases p <;> simp [AccCase.hmat, LineCase.hA, LineCase.hB, K, L, BoundCase.simpson]
  cap_pos := by simp
  cond_pos := by
    intro p
    simp only [K]
    split_ifs <;> norm_num
  step := by simp
  fluxes := by simp [AffineHeat]
  fixed := Or.inr ⟨false, Or.inl rfl⟩

/-- The same equation for a temperature: 0, 4 and 5 again. -/
example (Tn : Fld (Fin 2 × Fin 3) Bool 1) (u : ℕ → ℝ) (hu : HeatSolves L (Fld.const 1) [LineCase.hA, LineCase.hB] none
      [(fun _ => 2, [1, 2])] [(.value fun _ => 1, [2])] Tn (· = false) (fun _ => 0) u) : u 2 = 5 := by
  have h := C103_heat (H := 1) (ε := 0) (q0 := false) (s := 0) exact2 balances smooth (fun _ _ => le_rfl) heat (fun _ => rfl)
    (by
      rintro ⟨p, p'⟩
      fin_cases p <;> simp [heatGivenAt, L])
    (by
      rintro q rfl
      simp [w, Line.node, Line.endNo])
    (fun q hq => by
      have : q = true := by simpa using hq
      subst this
      simp [Line.normal, Line.endCell, Line.endNo, Line.node, K, slope, heatBcGiven, heatBcExchange, L, Line.mesh,
        BoundCase.simpson, inward]
      norm_num)
    (Or.inl ⟨rfl, rfl⟩) hu 2 (by simp [lineN])
  have e : w (L.node 0 2) = 5 := by
    simp [w, Line.node, L, BoundCase.simpson]
    norm_num
  rw [e] at h
  simp only [mul_zero, add_zero, zero_mul] at h
  exact sub_eq_zero.1 (abs_nonpos_iff.1 h)

end SteadyCase

end Festim.Props
