import Verif.Spec.Tube
import Verif.Props.ReportedBalance
import Verif.Props.CoordBalance

/-!
# C113: reported fluxes in cylindrical coordinates
-/

open scoped BigOperators

set_option linter.unusedSectionVars false
set_option linter.unusedSimpArgs false

namespace Festim.Weak

open Festim.Props

section
variable {Ω : Type} [Fintype Ω]

/-- A one-dimensional simulation in cylindrical coordinates, the nodes being at the radii `x`: any materials, traps and
sources, with or without Soret effect and chemical potential, no surface kinetics. -/
structure TubeData (L : Line Ω) (x : ℕ → ℝ) (P : Problem Ω Bool 1) (bcs : List (MobBC Bool)) (mat : Ω → Mat)
    (matS : Bool → Mat) : Prop where
  mesh : P.mesh = lineMesh L .cylindrical x
  nodes : ∀ i < L.N, x (i + 1) = x i + L.h i
  radius : ∀ p, (L.p1 x).val p ≠ 0
  cover : Covers P.mesh P.mats mat
  solubility : Solubility P mat matS
  noSK : ∀ b vs, MobBC.sk b vs ∉ bcs

/-- The residual vanishes for the test functions which vanish at the ends `dir` where a concentration is imposed. -/
def LineSolved (L : Line Ω) (P : Problem Ω Bool 1) (bcs : List (MobBC Bool)) (dir : Bool → Prop) : Prop :=
  ∀ v : ℕ → ℝ, (∀ q, dir q → (L.p1 v).tr q = 0) →
    ∃ F, P.form bcs (L.p1 v) (P.traps.map fun _ => L.p1 v) = .ok F ∧ P.mesh.assemble F = 0

/-- The derived quantities are evaluated on the solution: the flux does not vary in the cells at the ends and it is the flux
at the end. -/
structure TubeReport (L : Line Ω) (P : Problem Ω Bool 1) (mat : Ω → Mat) (matS : Bool → Mat) (e : PostEnv Ω Bool 1) :
    Prop where
  mesh : e.mesh = P.mesh
  normal : e.n = Line.normal
  properties : PropertiesOf e P.mats matS
  heat : e.soret = true → e.Q.isSome
  function : e.solute.isFun = true
  ends : ∀ q p, L.cell p = L.endCell q →
    gradFlux P.soret P.mv.theta (mat p) (P.T.T.val p) (P.mv.sol.val p) (P.T.T.grad p) (P.mv.sol.grad p) 0
      = gradFlux e.soret false (matS q) (e.T.tr q) (e.solute.tr q) (e.T.gradS q) (e.solute.gradS q) 0

/-- `SurfaceFluxCylindrical(field="solute", surface=s, azimuth_range=az)`. -/
def tubeFlux (az : ℝ × ℝ) (s : ℕ) : Quantity := .surfaceFlux (.cylindrical az) (.name "solute") s

/-- What enters per unit time and angle: the reported values, corrected, where the concentration is imposed, and the fluxes
imposed at the other ends. -/
noncomputable def enteringTube (L : Line Ω) (x : ℕ → ℝ) (P : Problem Ω Bool 1) (bcs : List (MobBC Bool)) (matS : Bool → Mat)
    (dir : Bool → Prop) (y : Bool → ℝ) : ℝ :=
  open Classical in ∑ q, if dir q then y q * L.correction x q else x (L.endNode q) * inflowAt P bcs matS q

variable {L : Line Ω} {x : ℕ → ℝ} {P : Problem Ω Bool 1} {bcs : List (MobBC Bool)} {mat : Ω → Mat} {matS : Bool → Mat}
  {dir : Bool → Prop} {k : ℝ}

/-- What the flux conditions supply, in any coordinates. -/
theorem inflow_ends (hno : ∀ b vs, MobBC.sk b vs ∉ bcs) (v : ℕ → ℝ) :
    (bcs.map (bcInflow P.mesh P.T.T.tr (P.cS matS) (L.p1 v).tr)).sum
      = v 0 * inflowAt P bcs matS false + v L.N * inflowAt P bcs matS true := by
  unfold inflowAt
  rw [← List.sum_map_mul_left, ← List.sum_map_mul_left, ← List.sum_map_add]
  congr 1
  apply List.map_congr_left
  intro b hb
  cases b with
  | sk b vs => exact absurd hb (hno b vs)
  | flux f ss =>
    simp only [bcInflow]
    rw [← List.sum_map_mul_left, ← List.sum_map_mul_left, ← List.sum_map_add]
    congr 1
    apply List.map_congr_left
    intro s _
    unfold surface
    rw [Finset.mul_sum, Finset.mul_sum, ← Finset.sum_add_distrib]
    refine Finset.sum_congr rfl fun q _ => ?_
    cases q <;> simp [Line.p1] <;> ring

/-- The flux of the equation, radially. -/
noncomputable def radialFlux (P : Problem Ω Bool 1) (mat : Ω → Mat) (p : Ω) : ℝ :=
  gradFlux P.soret P.mv.theta (mat p) (P.T.T.val p) (P.mv.sol.val p) (P.T.T.grad p) (P.mv.sol.grad p) 0

/-- The flux term for the test function `v`. -/
noncomputable def tubeTerm (L : Line Ω) (x : ℕ → ℝ) (J : Ω → ℝ) (v : ℕ → ℝ) : ℝ :=
  ∑ p, L.w p * (J p * ((L.p1 v).grad p 0 - (L.p1 v).val p / (L.p1 x).val p))

theorem TubeData.slope (hP : TubeData L x P bcs mat matS) (p : Ω) (i : Fin 1) : (L.p1 x).grad p i = 1 := by
  have h := hP.nodes _ (L.cell_lt p)
  have := (L.h_pos _ (L.cell_lt p)).ne'
  simp only [Line.p1, h]
  field_simp
  ring

theorem TubeData.fluxTerm (hP : TubeData L x P bcs mat matS) (v : ℕ → ℝ) :
    volume P.mesh (fun p => dot (gradFlux P.soret P.mv.theta (mat p) (P.T.T.val p) (P.mv.sol.val p)
              (P.T.T.grad p) (P.mv.sol.grad p)) (coordGrad P.mesh (L.p1 v) p))
      = tubeTerm L x (radialFlux P mat) v := by
  unfold volume tubeTerm
  rw [hP.mesh]
  refine Finset.sum_congr rfl fun p _ => ?_
  unfold dot
  beta_reduce
  rw [Fin.sum_univ_one]
  have : coordGrad (lineMesh L .cylindrical x) (L.p1 v) p 0 = (L.p1 v).grad p 0 - (L.p1 v).val p / (L.p1 x).val p := by
    unfold coordGrad
    simp only [lineMesh, Line.mesh]
    rw [hP.slope p 0, mul_one]
  rw [this]
  rfl

/-- No term for the radius itself. -/
theorem TubeData.term_radius (hP : TubeData L x P bcs mat matS) (J : Ω → ℝ) : tubeTerm L x J x = 0 := by
  refine Finset.sum_eq_zero fun p _ => ?_
  rw [hP.slope p 0, div_self (hP.radius p)]
  ring

theorem endCell_lt (L : Line Ω) (q : Bool) : L.endCell q < L.N := by
  have := L.N_pos
  cases q <;> simp [Line.endCell] <;> omega

theorem hatEnd_grad (q : Bool) (p : Ω) :
    (L.p1 (hat (L.endNode q))).grad p 0
      = if L.cell p = L.endCell q then (if q then 1 else -1) / L.h (L.endCell q) else 0 := by
  have hlt := L.cell_lt p
  have hN := L.N_pos
  by_cases h : L.cell p = L.endCell q
  · rw [if_pos h]
    cases q
    · have h' : L.cell p = 0 := by simpa [Line.endCell] using h
      simp [Line.p1, hat, Line.endNode, h', Line.endCell]
    · have h' : L.cell p = L.N - 1 := by simpa [Line.endCell] using h
      have h1 : ¬ L.N - 1 = L.N := by omega
      have h2 : L.N - 1 + 1 = L.N := by omega
      simp only [Line.p1, hat, Line.endNode, h', Line.endCell, if_true, h1, h2, if_false, sub_zero]
  · rw [if_neg h]
    cases q
    · have h' : L.cell p ≠ 0 := by simpa [Line.endCell] using h
      simp [Line.p1, hat, Line.endNode, h']
    · have h' : L.cell p ≠ L.N - 1 := by simpa [Line.endCell] using h
      have h1 : L.cell p ≠ L.N := by omega
      have h2 : L.cell p + 1 ≠ L.N := by omega
      simp [Line.p1, hat, Line.endNode, h1, h2]

/-- The term of the node at an end. -/
theorem term_end (x : ℕ → ℝ) (J : Ω → ℝ) (JS : Bool → ℝ) (hJ : ∀ q p, L.cell p = L.endCell q → J p = JS q) (q : Bool) :
    tubeTerm L x J (hat (L.endNode q)) = (if q then 1 else -1) * JS q * L.correction x q := by
  have e : tubeTerm L x J (hat (L.endNode q))
      = JS q * ((∑ p, L.w p * (L.p1 (hat (L.endNode q))).grad p 0) - L.curvature x q) := by
    unfold tubeTerm Line.curvature
    rw [← Finset.sum_sub_distrib, Finset.mul_sum]
    refine Finset.sum_congr rfl fun p _ => ?_
    by_cases h : L.cell p = L.endCell q
    · rw [hJ q p h]
      unfold Line.atEnd
      ring
    · have h1 := atEnd_of_ne q p h
      have h2 := hatEnd_grad (L := L) q p
      rw [if_neg h] at h2
      rw [h2, h1, show (L.p1 (hat (L.endNode q))).val p = 0 from h1]
      ring
  have s : (∑ p, L.w p * (L.p1 (hat (L.endNode q))).grad p 0) = if q then 1 else -1 := by
    have h0 := (L.h_pos _ (endCell_lt L q)).ne'
    simp only [hatEnd_grad, mul_ite, mul_zero]
    rw [← Finset.sum_filter, line_exact L _ (endCell_lt L q)]
    split_ifs <;> field_simp
  rw [e, s]
  unfold Line.correction
  cases q <;> simp <;> ring

theorem term_lin (x : ℕ → ℝ) (J : Ω → ℝ) (a b : ℝ) (u v w : ℕ → ℝ) :
    tubeTerm L x J (fun i => u i - a * v i - b * w i)
      = tubeTerm L x J u - a * tubeTerm L x J v - b * tubeTerm L x J w := by
  unfold tubeTerm
  rw [Finset.mul_sum, Finset.mul_sum, ← Finset.sum_sub_distrib, ← Finset.sum_sub_distrib]
  refine Finset.sum_congr rfl fun p _ => ?_
  simp only [Line.p1]
  ring

end

end Festim.Weak

namespace Festim.Props

open Festim.Weak

section
variable {Ω : Type} [Fintype Ω] {L : Line Ω} {x : ℕ → ℝ} {P : Problem Ω Bool 1} {bcs : List (MobBC Bool)} {mat : Ω → Mat}
  {matS : Bool → Mat} {dir : Bool → Prop} {k : ℝ}

/-- Values of the cylindrical surface fluxes. -/
theorem tube_reported (hP : TubeData L x P bcs mat matS) (e : PostEnv Ω Bool 1) (proj : Bool)
    (he : TubeReport L P mat matS e) (az : ℝ × ℝ) (q : Bool) :
    (tubeFlux az (if q then L.right else L.left)).value e proj
      = .ok (turnAngle az * (x (L.endNode q) * ((if q then 1 else -1)
        * gradFlux e.soret false (matS q) (e.T.tr q) (e.solute.tr q) (e.T.gradS q) (e.solute.gradS q) 0))) := by
  unfold tubeFlux
  rw [C62_reported_is_inward_flux e proj (.cylindrical az) (.name "solute") _ (by simp) e.solute
    (label_solute e proj) (fun _ => he.function) P.mats matS he.properties he.heat]
  congr 1
  simp only [fluxAngle, Geom.suffix, jacS, surface, he.mesh, hP.mesh, he.normal, lineMesh, Line.mesh]
  have hends := L.ends
  rw [Finset.sum_filter, Fintype.sum_bool]
  cases q <;> simp [dot, Line.normal, hends, hends.symm, Line.p1, Line.endNode]

/-- **C113 (a).** A steady simulation on a line in cylindrical coordinates without sources and with nothing trapped outside
the materials of the traps: at an end with flux conditions the value reported by `SurfaceFluxCylindrical`, multiplied by
the correction of this end, is the flux imposed there; and it is the corrected values at both ends which add up to zero, not
the reported ones. -/
theorem C113_steady (hP : TubeData L x P bcs mat matS) (hdt : P.dt = none)
    (hsrc : P.sources = [] ∧ ∀ t ∈ P.traps, t.sources = [])
    (hout : ∀ t ∈ P.traps, ∀ p, mat p ∉ t.materials → t.sol.val p = 0) (hs : LineSolved L P bcs dir)
    (e : PostEnv Ω Bool 1) (proj : Bool) (he : TubeReport L P mat matS e) (az : ℝ × ℝ) :
    ∃ y : Bool → ℝ, (tubeFlux az L.right).value e proj = .ok (turnAngle az * y true) ∧
      (tubeFlux az L.left).value e proj = .ok (turnAngle az * y false) ∧
      y true * L.correction x true + y false * L.correction x false = 0 ∧
      ∀ q, ¬ dir q → y q * L.correction x q = x (L.endNode q) * inflowAt P bcs matS q := by
  classical
  set JS : Bool → ℝ := fun q => gradFlux e.soret false (matS q) (e.T.tr q) (e.solute.tr q) (e.T.gradS q)
    (e.solute.gradS q) 0 with hJS
  refine ⟨fun q => x (L.endNode q) * ((if q then 1 else -1) * JS q), by simpa using tube_reported hP e proj he az true,
    by simpa using tube_reported hP e proj he az false, ?_⟩
  have hN := L.N_pos
  have hN0 : L.N ≠ 0 := by omega
  have h0N : 0 ≠ L.N := by omega
  have node : ∀ v : ℕ → ℝ, (∀ q, dir q → (L.p1 v).tr q = 0) →
      tubeTerm L x (radialFlux P mat) v = v 0 * inflowAt P bcs matS false + v L.N * inflowAt P bcs matS true := by
    intro v hv
    obtain ⟨F, hF, h0⟩ := hs v hv
    rw [steady_weak_traps P bcs mat matS (L.p1 v) F hdt hP.cover hP.solubility
      (fun _ p => by rw [hP.mesh]; exact hP.radius p) hout hP.noSK hF, hP.fluxTerm v] at h0
    have hts : (P.traps.map fun t => (t.sources.map fun s =>
        volumeIn P.mesh s.volumes fun p => srcRate s (t.sol.val p) p * (L.p1 v).val p).sum).sum = 0 := by
      apply List.sum_eq_zero
      intro z hz
      obtain ⟨t, ht, rfl⟩ := List.mem_map.1 hz
      simp [hsrc.2 t ht]
    have e3 : supply P bcs mat matS (L.p1 v) = v 0 * inflowAt P bcs matS false + v L.N * inflowAt P bcs matS true := by
      rw [← inflow_ends hP.noSK v]
      unfold supply
      rw [hsrc.1, hts]
      simp
    rw [e3] at h0
    linarith
  have tend := term_end (L := L) x (radialFlux P mat) JS he.ends
  have free : ∀ q, ¬ dir q → (if q then 1 else -1) * JS q * L.correction x q = inflowAt P bcs matS q := by
    intro q hq
    have h := node (hat (L.endNode q)) (by
      intro q' hq'
      have hne : q' ≠ q := fun h => hq (h ▸ hq')
      cases q <;> cases q' <;> simp_all [Line.p1, hat, Line.endNode])
    rw [tend] at h
    cases q <;> simpa [hat, Line.endNode, hN0, h0N] using h
  refine ⟨?_, fun q hq => ?_⟩
  · set a : ℝ := if dir false then x 0 else 0 with ha
    set b : ℝ := if dir true then x L.N else 0 with hb
    have h := node (fun i => x i - a * hat (L.endNode false) i - b * hat (L.endNode true) i) (by
      intro q hq
      cases q
      · simp [Line.p1, hat, Line.endNode, h0N, ha, hq]
      · simp [Line.p1, hat, Line.endNode, hN0, hb, hq])
    rw [term_lin, hP.term_radius, tend, tend] at h
    simp only [hat, Line.endNode, h0N, hN0, if_true, if_false, Bool.false_eq_true, mul_one, mul_zero, sub_zero] at h ⊢
    by_cases h1 : dir true <;> by_cases h2 : dir false
    · simp only [ha, hb, h1, h2, if_true] at h
      linarith
    · have := free false h2
      simp only [ha, hb, h1, h2, if_true, if_false, ← this] at h
      simp at h ⊢
      linarith
    · have := free true h1
      simp only [ha, hb, h1, h2, if_true, if_false, ← this] at h
      simp at h ⊢
      linarith
    · have k1 := free true h1
      have k2 := free false h2
      simp only [ha, hb, h1, h2, if_true, if_false, ← k1, ← k2] at h
      simp at h ⊢
      linarith
  · have := free q hq
    beta_reduce
    rw [← this]
    ring

/-- **C113 (b).** The corrections: with a quadrature exact for polynomials of degree 2 and radii which are not 0,
`curvature` is between half of the size of the cell over its larger and over its smaller radius. -/
theorem C113_curvature (hL : L.Exact2) (hx : ∀ i < L.N, x (i + 1) = x i + L.h i) (h0 : 0 < x 0) (q : Bool) :
    L.h (L.endCell q) / (2 * x (L.endCell q + 1)) ≤ L.curvature x q ∧
      L.curvature x q ≤ L.h (L.endCell q) / (2 * x (L.endCell q)) := by
  have hpos : ∀ i ≤ L.N, 0 < x i := by
    intro i
    induction i with
    | zero => intro _; exact h0
    | succ i ih =>
      intro hi
      rw [hx i (by omega)]
      exact add_pos (ih (by omega)) (L.h_pos i (by omega))
  have hlt := endCell_lt L q
  have hh := L.h_pos _ hlt
  have hr := hx _ hlt
  have p0 := hpos _ hlt.le
  have p1 := hpos _ hlt
  have half : ∑ p ∈ Finset.univ.filter (fun p => L.cell p = L.endCell q), L.w p * L.atEnd q p = L.h (L.endCell q) / 2 := by
    rw [Finset.sum_congr rfl fun p hp => by rw [atEnd_of_eq q p (Finset.mem_filter.1 hp).2]]
    cases q
    · have h1 := hL.one _ hlt
      have h2 := L.exact _ hlt
      simp only [Bool.false_eq_true, if_false, mul_sub, mul_one, Finset.sum_sub_distrib, h1, h2]
      ring
    · simpa using hL.one _ hlt
  have e : L.curvature x q
      = ∑ p ∈ Finset.univ.filter (fun p => L.cell p = L.endCell q), L.w p * (L.atEnd q p / (L.p1 x).val p) := by
    unfold Line.curvature
    rw [Finset.sum_filter]
    refine Finset.sum_congr rfl fun p _ => ?_
    split_ifs with h
    · rfl
    · rw [atEnd_of_ne q p h]; simp
  have bounds : ∀ p, L.cell p = L.endCell q → x (L.endCell q) ≤ (L.p1 x).val p ∧ (L.p1 x).val p ≤ x (L.endCell q + 1) ∧
      0 ≤ L.atEnd q p := by
    intro p hp
    have l0 := hL.lam_nonneg p
    have l1 := hL.lam_le p
    refine ⟨?_, ?_, ?_⟩
    · simp only [Line.p1, hp, hr]
      nlinarith
    · simp only [Line.p1, hp, hr]
      nlinarith
    · rw [atEnd_of_eq q p hp]
      split_ifs <;> linarith
  have c1 : ∀ z : ℝ, z ≠ 0 → L.h (L.endCell q) / (2 * z)
      = ∑ p ∈ Finset.univ.filter (fun p => L.cell p = L.endCell q), L.w p * (L.atEnd q p / z) := by
    intro z hz
    have : L.h (L.endCell q) / (2 * z) = L.h (L.endCell q) / 2 / z := by field_simp
    rw [this, ← half, Finset.sum_div]
    exact Finset.sum_congr rfl fun p _ => by ring
  rw [e, c1 _ p1.ne', c1 _ p0.ne']
  constructor
  · refine Finset.sum_le_sum fun p hp => mul_le_mul_of_nonneg_left ?_ (hL.w_nonneg p)
    obtain ⟨b1, b2, b3⟩ := bounds p (Finset.mem_filter.1 hp).2
    exact div_le_div_of_nonneg_left b3 (lt_of_lt_of_le p0 b1) b2
  · refine Finset.sum_le_sum fun p hp => mul_le_mul_of_nonneg_left ?_ (hL.w_nonneg p)
    obtain ⟨b1, b2, b3⟩ := bounds p (Finset.mem_filter.1 hp).2
    exact div_le_div_of_nonneg_left b3 p0 b1

/-- The outer correction is not negative. -/
theorem curvature_le (hL : L.Exact2) (hx : ∀ i < L.N, x (i + 1) = x i + L.h i) (h0 : 0 < x 0) :
    L.curvature x true ≤ 1 := by
  have hpos : ∀ i ≤ L.N, 0 < x i := by
    intro i
    induction i with
    | zero => intro _; exact h0
    | succ i ih =>
      intro hi
      rw [hx i (by omega)]
      exact add_pos (ih (by omega)) (L.h_pos i (by omega))
  have hlt := endCell_lt L true
  have hh := L.h_pos _ hlt
  have p0 := hpos _ hlt.le
  calc L.curvature x true
      = ∑ p ∈ Finset.univ.filter (fun p => L.cell p = L.endCell true), L.w p * (L.atEnd true p / (L.p1 x).val p) := by
        unfold Line.curvature
        rw [Finset.sum_filter]
        refine Finset.sum_congr rfl fun p _ => ?_
        split_ifs with h
        · rfl
        · rw [atEnd_of_ne true p h]; simp
    _ ≤ ∑ p ∈ Finset.univ.filter (fun p => L.cell p = L.endCell true), L.w p * (1 / L.h (L.endCell true)) := by
        refine Finset.sum_le_sum fun p hp => mul_le_mul_of_nonneg_left ?_ (hL.w_nonneg p)
        have hc := (Finset.mem_filter.1 hp).2
        have l0 := hL.lam_nonneg p
        have l1 := hL.lam_le p
        have hv : (L.p1 x).val p = x (L.endCell true) + L.lam p * L.h (L.endCell true) := by
          simp only [Line.p1, hc, hx _ hlt]
          ring
        have hr : 0 < (L.p1 x).val p := by rw [hv]; positivity
        rw [atEnd_of_eq true p hc, if_pos rfl, div_le_div_iff₀ hr hh, hv]
        linarith
    _ = 1 := by
        rw [line_exact L _ hlt]
        field_simp

/-- **C113 (c).** Hence the reported values never balance unless nothing flows: the value at the inner end is smaller in
magnitude than the one at the outer end, by a fraction of about `h / (2 r)` of both ends. -/
theorem C113_defect (hL : L.Exact2) (hP : TubeData L x P bcs mat matS) (h0 : 0 < x 0) (hdt : P.dt = none)
    (hsrc : P.sources = [] ∧ ∀ t ∈ P.traps, t.sources = [])
    (hout : ∀ t ∈ P.traps, ∀ p, mat p ∉ t.materials → t.sol.val p = 0) (hs : LineSolved L P bcs dir)
    (e : PostEnv Ω Bool 1) (proj : Bool) (he : TubeReport L P mat matS e) (az : ℝ × ℝ) :
    ∃ y : Bool → ℝ, (tubeFlux az L.right).value e proj = .ok (turnAngle az * y true) ∧
      (tubeFlux az L.left).value e proj = .ok (turnAngle az * y false) ∧
      y true + y false = y true * L.curvature x true - y false * L.curvature x false ∧
      (y true + y false = 0 ↔ y true = 0 ∧ y false = 0) ∧ (y true ≠ 0 → |y false| < |y true|) := by
  obtain ⟨y, h1, h2, h3, _⟩ := C113_steady hP hdt hsrc hout hs e proj he az
  have hN := L.N_pos
  have hpos : ∀ i ≤ L.N, 0 < x i := by
    intro i
    induction i with
    | zero => intro _; exact h0
    | succ i ih =>
      intro hi
      rw [hP.nodes i (by omega)]
      exact add_pos (ih (by omega)) (L.h_pos i (by omega))
  have kpos : ∀ q, 0 < L.curvature x q := by
    intro q
    refine lt_of_lt_of_le ?_ (C113_curvature hL hP.nodes h0 q).1
    have := L.h_pos _ (endCell_lt L q)
    have := hpos _ (endCell_lt L q)
    positivity
  have k1 := kpos true
  have k2 := kpos false
  simp only [Line.correction, if_true, Bool.false_eq_true, if_false] at h3
  refine ⟨y, h1, h2, by linarith, ⟨fun h => ?_, fun h => by rw [h.1, h.2, add_zero]⟩, fun h => ?_⟩
  · have e1 : y true = -y false := by linarith
    rw [e1] at h3
    have e2 : y false * (L.curvature x true + L.curvature x false) = 0 := by linarith
    have e3 : y false = 0 := by
      rcases mul_eq_zero.1 e2 with h | h
      · exact h
      · linarith
    exact ⟨by rw [e1, e3, neg_zero], e3⟩
  · have hlt : |1 - L.curvature x true| < 1 + L.curvature x false := by
      have hlast := curvature_le hL hP.nodes h0
      rw [abs_lt]
      constructor <;> linarith
    have e1 : |y false| * (1 + L.curvature x false) = |y true| * |1 - L.curvature x true| := by
      have hp : |1 + L.curvature x false| = 1 + L.curvature x false := abs_of_pos (by linarith)
      rw [← abs_mul, ← abs_neg (y true * _), ← hp, ← abs_mul]
      congr 1
      linarith
    have hy : 0 < |y true| := abs_pos.2 h
    have : |y false| * (1 + L.curvature x false) < |y true| * (1 + L.curvature x false) := by
      rw [e1]
      exact mul_lt_mul_of_pos_left hlt hy
    exact lt_of_mul_lt_mul_right this (by linarith)

/-- **C113 (d).** One converged step: the hydrogen per unit angle (weight `r`, as `TotalVolumeCylindrical` does) changes by
the stepsize times what enters, the reported values being corrected as in the steady state, and what the sources produce, up
to what is stored at the ends where a concentration is imposed. -/
theorem C113_step (hP : TubeData L x P bcs mat matS) (hdt : P.dt = some k) (hk : 0 < k) (hs : LineSolved L P bcs dir)
    (e : PostEnv Ω Bool 1) (proj : Bool) (he : TubeReport L P mat matS e) (az : ℝ × ℝ) :
    ∃ y : Bool → ℝ, (tubeFlux az L.right).value e proj = .ok (turnAngle az * y true) ∧
      (tubeFlux az L.left).value e proj = .ok (turnAngle az * y false) ∧
      held P mat (L.p1 x).val = heldBefore P mat (L.p1 x).val
        + k * (enteringTube L x P bcs matS dir y + produced P mat (L.p1 x).val)
        + overEnds dir fun q => x (L.endNode q)
          * (held P mat (L.atEnd q) - heldBefore P mat (L.atEnd q) - k * produced P mat (L.atEnd q)) := by
  classical
  set JS : Bool → ℝ := fun q => gradFlux e.soret false (matS q) (e.T.tr q) (e.solute.tr q) (e.T.gradS q)
    (e.solute.gradS q) 0 with hJS
  refine ⟨fun q => x (L.endNode q) * ((if q then 1 else -1) * JS q), by simpa using tube_reported hP e proj he az true,
    by simpa using tube_reported hP e proj he az false, ?_⟩
  have hN := L.N_pos
  have hN0 : L.N ≠ 0 := by omega
  have h0N : 0 ≠ L.N := by omega
  have tend := term_end (L := L) x (radialFlux P mat) JS he.ends
  set a : ℝ := if dir false then x 0 else 0 with ha
  set b : ℝ := if dir true then x L.N else 0 with hb
  set v : ℕ → ℝ := fun i => x i - a * hat (L.endNode false) i - b * hat (L.endNode true) i with hv
  have hv0 : v 0 = x 0 - a := by simp [hv, hat, h0N, Line.endNode]
  have hvN : v L.N = x L.N - b := by simp [hv, hat, hN0, Line.endNode]
  have hval : (L.p1 v).val = fun p => (L.p1 x).val p - a * L.atEnd false p - b * L.atEnd true p := by
    funext p
    simp only [Line.p1, hv, Line.atEnd]
    ring
  obtain ⟨F, hF, main⟩ := hs v (by
    intro q hq
    cases q
    · simp [Line.p1, hv0, ha, hq]
    · simp [Line.p1, hvN, hb, hq])
  rw [C41_weak_form P bcs mat matS k (L.p1 v) F hdt hP.cover hP.solubility (fun _ p => by rw [hP.mesh]; exact hP.radius p)
    (fun b vs hb => absurd hb (hP.noSK b vs)) (Or.inr hP.noSK) hF, hP.fluxTerm v] at main
  have e1 : stock P bcs mat matS (L.p1 v) = held P mat (L.p1 v).val := by
    unfold stock held
    rw [bcStock_zero _ _ _ _ _ hP.noSK, add_zero]
  have e2 : stockPrev P bcs mat matS (L.p1 v) = heldBefore P mat (L.p1 v).val := by
    unfold stockPrev heldBefore
    rw [bcStock_zero _ _ _ _ _ hP.noSK, add_zero]
  have e3 : supply P bcs mat matS (L.p1 v) = produced P mat (L.p1 v).val
      + (v 0 * inflowAt P bcs matS false + v L.N * inflowAt P bcs matS true) := by
    rw [← inflow_ends hP.noSK v]
    rfl
  have e4 : tubeTerm L x (radialFlux P mat) v
      = -(a * ((-1) * JS false * L.correction x false)) - b * (1 * JS true * L.correction x true) := by
    rw [hv, term_lin, hP.term_radius, tend, tend]
    simp
  rw [e1, e2, e3, e4, hv0, hvN, hval, held_lin _ _ _ _ (L.p1 x).val, heldBefore_lin _ _ _ _ (L.p1 x).val,
    produced_lin _ _ _ _ (L.p1 x).val] at main
  have ex : enteringTube L x P bcs matS dir (fun q => x (L.endNode q) * ((if q then 1 else -1) * JS q))
      = (x 0 - a) * inflowAt P bcs matS false + (x L.N - b) * inflowAt P bcs matS true
        + a * ((-1) * JS false * L.correction x false) + b * (1 * JS true * L.correction x true) := by
    unfold enteringTube
    rw [Fintype.sum_bool, ha, hb]
    by_cases h1 : dir true <;> by_cases h2 : dir false <;> simp [h1, h2, Line.endNode] <;> ring
  have eo : ∀ z : Bool → ℝ, overEnds dir (fun q => x (L.endNode q) * z q) = a * z false + b * z true := by
    intro z
    unfold overEnds
    rw [Fintype.sum_bool, ha, hb]
    by_cases h1 : dir true <;> by_cases h2 : dir false <;> simp [h1, h2, Line.endNode] <;> ring
  rw [ex, eo]
  have hk' := hk.ne'
  field_simp at main
  linarith

end

/-! ## A tube of radii 1 and 3, two cells -/

namespace TubeCase

noncomputable def L : Line (Fin 2 × Fin 3) := BoundCase.simpson 1 one_pos
noncomputable def M : Mat := { uid := 0, ids := [1], D_0 := 1, E_D := 0 }

/-- Radii of the nodes. -/
def x (i : ℕ) : ℝ := i + 1

/-- Concentration 1 is imposed inside and 0 outside. -/
noncomputable def u (i : ℕ) : ℝ := if i = 0 then 1 else if i = 1 then 125 / 344 else 0

noncomputable def P : Problem (Fin 2 × Fin 3) Bool 1 where
  mesh := lineMesh L .cylindrical x
  mats := [M]
  mv := { theta := false, sol := L.p1 u, prev := L.p1 u }
  T := ⟨Fld.const 300, Fld.const 300⟩
  dt := none
  soret := false
  sources := []
  traps := []

theorem data : TubeData L x P [] (fun _ => M) (fun _ => M) where
  mesh := rfl
  nodes := by intro i _; simp [x, L, BoundCase.simpson]
  radius := by
    rintro ⟨p, p'⟩
    fin_cases p <;> fin_cases p' <;> norm_num [L, BoundCase.simpson, Line.p1, x]
  cover := ⟨by simp [P], by simp [P, L, lineMesh, Line.mesh, BoundCase.simpson, M], by simp [P, M]⟩
  solubility := ⟨by simp [P], by simp [P], by simp [P], by simp [P]⟩
  noSK := by simp

theorem solved : LineSolved L P [] fun _ => True := by
  intro v hv
  have h0 : v 0 = 0 := by simpa [Line.p1] using hv false trivial
  have h2 : v 2 = 0 := by simpa [Line.p1, L, BoundCase.simpson] using hv true trivial
  have h21 : ¬ (2 : Fin 3) = 1 := by decide
  refine ⟨_, rfl, ?_⟩
  simp [P, lineMesh, Line.mesh, Mesh.assemble, Mesh.integrate, Form.neg, mobileForm, diffusionForm,
    subdomainForm, Fld.const, dot, sourceForm, fluxesForm, M, Line.p1, u, x, L, BoundCase.simpson, trapsForm, h21,
    Fin.sum_univ_two, Fin.sum_univ_three, Fintype.sum_prod_type, h0, h2, Mobile.conc, Finset.sum_filter, Fld.div_val, Fld.div_grad]
  ring

noncomputable def fun1 (u : ℕ → ℝ) : PostFun (Fin 2 × Fin 3) Bool 1 where
  val := (L.p1 u).val
  tr := (L.p1 u).tr
  gradS q _ := L.endSlope u q
  cells := [(1, [u 0, u 1, u 2])]
  pt _ := 0
  isFun := true

noncomputable def env : PostEnv (Fin 2 × Fin 3) Bool 1 where
  mesh := P.mesh
  n := Line.normal
  D _ := 1
  cond := none
  Q := none
  T := fun1 fun _ => 300
  soret := false
  solute := fun1 u
  traps := []
  ids := []
  adsorbed := []

theorem report : TubeReport L P (fun _ => M) (fun _ => M) env where
  mesh := rfl
  normal := rfl
  properties := ⟨by intro q; cases q <;> simp [P, L, lineMesh, Line.mesh, env, findMat, M, BoundCase.simpson],
    by intro q; cases q <;> simp [P, L, lineMesh, Line.mesh, env, arrheniusCoeff, findMat, M, BoundCase.simpson],
    by simp [env], by simp [env]⟩
  heat := by simp [env]
  function := rfl
  ends := by
    intro q p hp
    have hc : p.1.val = L.endCell q := hp
    cases q <;> simp [P, env, gradFlux, physGrad, fun1, Line.endSlope, Line.p1, L, BoundCase.simpson, Line.endCell, M,
      arr] at hc ⊢ <;> simp [hc]

/-- `219/344` per unit angle enters inside and `375/344` leaves outside, according to the reported values. -/
example : (tubeFlux (0, 1) L.left).value env false = .ok (turnAngle (0, 1) * (219 / 344)) ∧
    (tubeFlux (0, 1) L.right).value env false = .ok (turnAngle (0, 1) * (-375 / 344)) := by
  constructor
  · have := tube_reported data env false report (0, 1) false
    simp only [Bool.false_eq_true, if_false] at this
    rw [this]
    norm_num [env, gradFlux, physGrad, fun1, Line.endSlope, L, BoundCase.simpson, M, arr, u, x, Line.endNode]
  · have := tube_reported data env false report (0, 1) true
    simp only [if_true] at this
    rw [this]
    norm_num [env, gradFlux, physGrad, fun1, Line.endSlope, L, BoundCase.simpson, M, arr, u, x, Line.endNode]

example : ∃ y : Bool → ℝ, (tubeFlux (0, 1) L.right).value env false = .ok (turnAngle (0, 1) * y true) ∧
      (tubeFlux (0, 1) L.left).value env false = .ok (turnAngle (0, 1) * y false) ∧
      y true + y false = y true * L.curvature x true - y false * L.curvature x false ∧
      (y true + y false = 0 ↔ y true = 0 ∧ y false = 0) ∧ (y true ≠ 0 → |y false| < |y true|) :=
  C113_defect (BoundCase.simpson_exact2 1 one_pos) data (by simp [x]) rfl (by simp [P]) (by simp [P]) solved env false
    report (0, 1)

example : ∃ y : Bool → ℝ, (tubeFlux (0, 1) L.right).value env false = .ok (turnAngle (0, 1) * y true) ∧
      (tubeFlux (0, 1) L.left).value env false = .ok (turnAngle (0, 1) * y false) ∧
      y true * L.correction x true + y false * L.correction x false = 0 ∧
      ∀ q, ¬ True → y q * L.correction x q = x (L.endNode q) * inflowAt P [] (fun _ => M) q :=
  C113_steady data rfl (by simp [P]) (by simp [P]) solved env false report (0, 1)

/-- The corrections of this tube are `73/90` outside and `25/18` inside. -/
example : L.correction x true = 73 / 90 ∧ L.correction x false = 25 / 18 := by
  have h21 : ¬ (2 : Fin 3) = 1 := by decide
  constructor <;>
    norm_num [Line.correction, Line.curvature, Line.atEnd, Line.endNode, hat, Line.p1, x, L, BoundCase.simpson,
      Fintype.sum_prod_type, Fin.sum_univ_two, Fin.sum_univ_three, h21]

/-- The same state is kept by a transient step (the case for `C113_step`). -/
noncomputable def Pt : Problem (Fin 2 × Fin 3) Bool 1 := { P with dt := some 1 }

theorem solved_step : LineSolved L Pt [] fun _ => True := by
  intro v hv
  have h0 : v 0 = 0 := by simpa [Line.p1] using hv false trivial
  have h2 : v 2 = 0 := by simpa [Line.p1, L, BoundCase.simpson] using hv true trivial
  have h21 : ¬ (2 : Fin 3) = 1 := by decide
  refine ⟨_, rfl, ?_⟩
  simp [Pt, P, lineMesh, Line.mesh, Mesh.assemble, Mesh.integrate, Form.neg, mobileForm, diffusionForm,
    subdomainForm, Fld.const, dot, sourceForm, fluxesForm, M, Line.p1, u, x, L, BoundCase.simpson, trapsForm, h21,
    Fin.sum_univ_two, Fin.sum_univ_three, Fintype.sum_prod_type, h0, h2, Mobile.conc, Finset.sum_filter, Fld.div_val, Fld.div_grad]
  ring

example : ∃ y : Bool → ℝ, (tubeFlux (0, 1) L.right).value env false = .ok (turnAngle (0, 1) * y true) ∧
      (tubeFlux (0, 1) L.left).value env false = .ok (turnAngle (0, 1) * y false) ∧
      held Pt (fun _ => M) (L.p1 x).val = heldBefore Pt (fun _ => M) (L.p1 x).val
        + 1 * (enteringTube L x Pt [] (fun _ => M) (fun _ => True) y + produced Pt (fun _ => M) (L.p1 x).val)
        + overEnds (fun _ => True) fun q => x (L.endNode q)
          * (held Pt (fun _ => M) (L.atEnd q) - heldBefore Pt (fun _ => M) (L.atEnd q)
            - 1 * produced Pt (fun _ => M) (L.atEnd q)) :=
  C113_step (P := Pt) ⟨rfl, data.nodes, data.radius, data.cover, ⟨by simp [Pt, P], by simp [Pt, P], by simp [Pt, P], by simp [Pt, P]⟩, by simp⟩ rfl one_pos
    solved_step env false ⟨rfl, rfl, report.properties, report.heat, rfl, report.ends⟩ (0, 1)

end TubeCase

end Festim.Props
