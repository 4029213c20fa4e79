import Verif.Props.Bounds
import Verif.Props.Theta

/-!
# C89: steady permeation through layers
-/

open scoped BigOperators

set_option linter.unusedSectionVars false

namespace Festim.Weak

section
variable {Ω Γ : Type} [Fintype Ω] [Fintype Γ] {d : ℕ}

/-- What a steady trap equation contains outside the materials of the trap. -/
noncomputable def trapSink (P : Problem Ω Γ d) (t : Trap Ω Γ d) (v : Fld Ω Γ d) : ℝ :=
  ((P.mats.filter fun a => a.uid ∉ t.materials.map (·.uid)).map fun a =>
    volumeIn P.mesh a.ids fun p => t.sol.val p * v.val p).sum

/-- Steady equation with traps. -/
theorem steady_weak_sink (P : Problem Ω Γ d) (bcs : List (MobBC Γ)) (mat : Ω → Mat) (matS : Γ → Mat)
    (v : Fld Ω Γ d) (F : Form Ω Γ) (hdt : P.dt = none) (hcov : Covers P.mesh P.mats mat)
    (hsol : Solubility P mat matS)
    (hr : (P.mesh.type = .cylindrical ∨ P.mesh.type = .spherical) → ∀ p, P.mesh.r.val p ≠ 0)
    (hno : ∀ b vs, MobBC.sk b vs ∉ bcs) (hF : P.form bcs v (P.traps.map fun _ => v) = .ok F) :
    P.mesh.assemble F
      = volume P.mesh (fun p =>
            dot (gradFlux P.soret P.mv.theta (mat p) (P.T.T.val p) (P.mv.sol.val p)
              (P.T.T.grad p) (P.mv.sol.grad p)) (coordGrad P.mesh v p))
        - supply P bcs mat matS v + (P.traps.map fun t => trapSink P t v).sum := by
  rw [form_assemble P bcs v F hF, bulk_eq P v hcov hr, source_eq P v hcov hsol, hdt,
    fluxesForm_dt P bcs v none (some 1) hno,
    fluxes_eq P v bcs 1 (P.cS matS) (fun q => mobileConcS_eq P hcov hsol q)
      (fun b vs hm => absurd hm (hno b vs)), bcStock_zero _ _ _ _ _ hno, bcStock_zero _ _ _ _ _ hno]
  have hrest : (P.traps.map fun t => trapRest P.mesh P.mats none t v).sum
      = (P.traps.map fun t => trapSink P t v).sum
        - (P.traps.map fun t => (t.sources.map fun s =>
          volumeIn P.mesh s.volumes fun p => srcRate s (t.sol.val p) p * v.val p).sum).sum := by
    rw [← sum_sub_map]
    simp only [trapRest, srcAt_eq, trapSink]
  rw [hrest]
  unfold supply
  simp only [zero_add, sub_zero, zero_div, Problem.c]
  ring

/-- Steady equation with traps, when nothing is trapped outside the materials of the traps (C44). -/
theorem steady_weak_traps (P : Problem Ω Γ d) (bcs : List (MobBC Γ)) (mat : Ω → Mat) (matS : Γ → Mat)
    (v : Fld Ω Γ d) (F : Form Ω Γ) (hdt : P.dt = none) (hcov : Covers P.mesh P.mats mat)
    (hsol : Solubility P mat matS)
    (hr : (P.mesh.type = .cylindrical ∨ P.mesh.type = .spherical) → ∀ p, P.mesh.r.val p ≠ 0)
    (hout : ∀ t ∈ P.traps, ∀ p, mat p ∉ t.materials → t.sol.val p = 0)
    (hno : ∀ b vs, MobBC.sk b vs ∉ bcs) (hF : P.form bcs v (P.traps.map fun _ => v) = .ok F) :
    P.mesh.assemble F
      = volume P.mesh (fun p =>
            dot (gradFlux P.soret P.mv.theta (mat p) (P.T.T.val p) (P.mv.sol.val p)
              (P.T.T.grad p) (P.mv.sol.grad p)) (coordGrad P.mesh v p))
        - supply P bcs mat matS v := by
  rw [steady_weak_sink P bcs mat matS v F hdt hcov hsol hr hno hF, List.sum_eq_zero, add_zero]
  intro x hx
  obtain ⟨t, ht, rfl⟩ := List.mem_map.1 hx
  apply List.sum_eq_zero
  intro x hx
  obtain ⟨a, ha, rfl⟩ := List.mem_map.1 hx
  obtain ⟨ha1, ha2⟩ := List.mem_filter.1 ha
  apply Finset.sum_eq_zero
  intro p hp
  have hp' : P.mesh.vm p ∈ a.ids := (Finset.mem_filter.1 hp).2
  have e : mat p = a := same_mat hcov.nodup (hcov.mem p) ha1 (hcov.has p) hp'
  beta_reduce
  rw [hout t ht p, zero_mul, mul_zero]
  intro hm
  rw [e] at hm
  simp only [decide_eq_true_eq] at ha2
  exact ha2 (List.mem_map.2 ⟨a, hm, rfl⟩)

end

section
variable {Ω : Type} [Fintype Ω]

/-- What multiplies the gradient of the unknown in the equation: the diffusivity, times the solubility with
conservation of the chemical potential. -/
noncomputable def conductivity (P : Problem Ω Bool 1) (mat : Ω → Mat) (p : Ω) : ℝ :=
  arr (mat p).D_0 (mat p).E_D (P.T.T.val p)
    * if P.mv.theta then arr (mat p).S_0 (mat p).E_S (P.T.T.val p) else 1

/-- Resistance of the cells before node `j`: thickness over mean conductivity, added up. -/
noncomputable def resistance (L : Line Ω) (K : Ω → ℝ) (j : ℕ) : ℝ :=
  ∑ i ∈ Finset.range j, L.h i / (cellInt L K i / L.h i)

/-- Inflow at the end `q` due to the flux conditions. -/
noncomputable def inflowAt (P : Problem Ω Bool 1) (bcs : List (MobBC Bool)) (matS : Bool → Mat)
    (q : Bool) : ℝ :=
  (bcs.map (bcInflow P.mesh P.T.T.tr (P.cS matS) fun q' => if q' = q then 1 else 0)).sum

/-- Data of a simulation on a line: piecewise affine unknown with nodal values `u` (the concentration, or
`θ` with conservation of the chemical potential and Sieverts materials), any traps and sources.  The temperature
is uniform if there is a Soret effect or chemical potential. -/
structure LineData (L : Line Ω) (P : Problem Ω Bool 1) (bcs : List (MobBC Bool)) (mat : Ω → Mat)
    (matS : Bool → Mat) (u : ℕ → ℝ) : Prop where
  mesh : ∃ r, P.mesh = L.mesh r
  sol : P.mv.sol = L.p1 u
  cover : Covers P.mesh P.mats mat
  solubility : Solubility P mat matS
  law : P.mv.theta = true → ∀ a ∈ P.mats, a.law = .sievert
  uniform : P.soret = true ∨ P.mv.theta = true → ∀ p, P.T.T.grad p 0 = 0
  noSK : ∀ b vs, MobBC.sk b vs ∉ bcs

/-- A steady simulation without sources. -/
structure SteadyData (L : Line Ω) (P : Problem Ω Bool 1) (bcs : List (MobBC Bool)) (mat : Ω → Mat)
    (matS : Bool → Mat) (u : ℕ → ℝ) : Prop extends LineData L P bcs mat matS u where
  steady : P.dt = none
  sources : P.sources = [] ∧ ∀ t ∈ P.traps, t.sources = []

/-- The equations hold.  `dir q`: the end `q` has a Dirichlet condition; the residual vanishes for the test functions
which vanish at such ends.  Nothing is trapped outside the materials of the traps (see C44 and C111). -/
structure SteadyLine (L : Line Ω) (P : Problem Ω Bool 1) (bcs : List (MobBC Bool)) (mat : Ω → Mat)
    (matS : Bool → Mat) (u : ℕ → ℝ) (dir : Bool → Prop) : Prop extends SteadyData L P bcs mat matS u where
  outside : ∀ t ∈ P.traps, ∀ p, mat p ∉ t.materials → t.sol.val p = 0
  solves : ∀ v : ℕ → ℝ, (∀ q, dir q → (L.p1 v).tr q = 0) →
    ∃ F, P.form bcs (L.p1 v) (P.traps.map fun _ => L.p1 v) = .ok F ∧ P.mesh.assemble F = 0

variable {L : Line Ω} {P : Problem Ω Bool 1} {bcs : List (MobBC Bool)} {mat : Ω → Mat}
  {matS : Bool → Mat} {u : ℕ → ℝ} {dir : Bool → Prop}

/-- Flux of the equation through the cell `i`, towards the left. -/
noncomputable def cellFlux (L : Line Ω) (K : Ω → ℝ) (u : ℕ → ℝ) (i : ℕ) : ℝ :=
  cellInt L K i / L.h i * ((u (i + 1) - u i) / L.h i)

theorem LineData.flux (hP : LineData L P bcs mat matS u) (p : Ω) :
    gradFlux P.soret P.mv.theta (mat p) (P.T.T.val p) (P.mv.sol.val p) (P.T.T.grad p)
      (P.mv.sol.grad p) 0 = conductivity P mat p * (L.p1 u).grad p 0 := by
  have hlaw := fun h => hP.law h _ (hP.cover.mem p)
  have hu := hP.uniform
  unfold gradFlux conductivity
  rw [hP.sol]
  cases hth : P.mv.theta with
  | false =>
    cases hs : P.soret with
    | false => simp [physGrad]
    | true => simp [physGrad, hu (Or.inl hs) p]
  | true =>
    have hl := hlaw hth
    have h0 := hu (Or.inr hth) p
    simp only [physGrad, hl, h0, mul_zero, add_zero, if_true, ite_self]
    ring

/-- The flux term of the equation, on the line. -/
theorem LineData.fluxTerm (hP : LineData L P bcs mat matS u) (v : ℕ → ℝ) :
    volume P.mesh (fun p => dot (gradFlux P.soret P.mv.theta (mat p) (P.T.T.val p) (P.mv.sol.val p)
              (P.T.T.grad p) (P.mv.sol.grad p)) (coordGrad P.mesh (L.p1 v) p))
      = ∑ i ∈ Finset.range L.N, cellFlux L (conductivity P mat) u i * (v (i + 1) - v i) := by
  obtain ⟨r, hm⟩ := hP.mesh
  have hmt : P.mesh.type = .cartesian := by rw [hm]; rfl
  have e : (fun p => dot (gradFlux P.soret P.mv.theta (mat p) (P.T.T.val p) (P.mv.sol.val p)
            (P.T.T.grad p) (P.mv.sol.grad p)) (coordGrad P.mesh (L.p1 v) p))
      = fun p => (conductivity P mat p * (L.p1 u).grad p 0) * (L.p1 v).grad p 0 := by
    funext p
    unfold dot
    rw [Fin.sum_univ_one, hP.flux p]
    simp [coordGrad, hmt]
  rw [e, hm, line_volume]
  refine Finset.sum_congr rfl fun i hi => ?_
  congr 1
  unfold cellFlux cellInt
  rw [div_mul_eq_mul_div, Finset.sum_mul]
  congr 1
  refine Finset.sum_congr rfl fun p hp => ?_
  have hc : L.cell p = i := (Finset.mem_filter.1 hp).2
  simp only [Line.p1, hc]
  ring

/-- What the flux conditions supply, on the line. -/
theorem LineData.inflow (hP : LineData L P bcs mat matS u) (v : ℕ → ℝ) :
    (bcs.map (bcInflow P.mesh P.T.T.tr (P.cS matS) (L.p1 v).tr)).sum
      = v 0 * inflowAt P bcs matS false + v L.N * inflowAt P bcs matS true := by
  unfold inflowAt
  rw [← List.sum_map_mul_left, ← List.sum_map_mul_left, ← List.sum_map_add]
  congr 1
  apply List.map_congr_left
  intro b hb
  cases b with
  | sk b vs => exact absurd hb (hP.noSK b vs)
  | flux f ss =>
    simp only [bcInflow]
    rw [← List.sum_map_mul_left, ← List.sum_map_mul_left, ← List.sum_map_add]
    congr 1
    apply List.map_congr_left
    intro s _
    unfold surface
    rw [Finset.mul_sum, Finset.mul_sum, ← Finset.sum_add_distrib]
    refine Finset.sum_congr rfl fun q _ => ?_
    cases q <;> simp [Line.p1] <;> ring

/-- The terms of the equation, on the line. -/
theorem SteadyData.weak (hP : SteadyData L P bcs mat matS u) (v : ℕ → ℝ) :
    volume P.mesh (fun p => dot (gradFlux P.soret P.mv.theta (mat p) (P.T.T.val p) (P.mv.sol.val p)
              (P.T.T.grad p) (P.mv.sol.grad p)) (coordGrad P.mesh (L.p1 v) p))
        - supply P bcs mat matS (L.p1 v)
      = (∑ i ∈ Finset.range L.N, cellFlux L (conductivity P mat) u i * (v (i + 1) - v i))
        - (v 0 * inflowAt P bcs matS false + v L.N * inflowAt P bcs matS true) := by
  have hts : (P.traps.map fun t => (t.sources.map fun s =>
      volumeIn P.mesh s.volumes fun p => srcRate s (t.sol.val p) p * (L.p1 v).val p).sum).sum = 0 := by
    apply List.sum_eq_zero
    intro x hx
    obtain ⟨t, ht, rfl⟩ := List.mem_map.1 hx
    simp [hP.sources.2 t ht]
  rw [hP.fluxTerm v, ← hP.inflow v]
  unfold supply
  rw [hP.sources.1, hts]
  simp

/-- The equation of node `j`. -/
theorem SteadyLine.node (hP : SteadyLine L P bcs mat matS u dir) (v : ℕ → ℝ)
    (hv : ∀ q, dir q → (L.p1 v).tr q = 0) :
    (∑ i ∈ Finset.range L.N, cellFlux L (conductivity P mat) u i * (v (i + 1) - v i))
      = v 0 * inflowAt P bcs matS false + v L.N * inflowAt P bcs matS true := by
  obtain ⟨F, hF, h0⟩ := hP.solves v hv
  obtain ⟨r, hm⟩ := hP.mesh
  have hmt : P.mesh.type = .cartesian := by rw [hm]; rfl
  rw [steady_weak_traps P bcs mat matS (L.p1 v) F hP.steady hP.cover hP.solubility
    (by simp [hmt]) hP.outside hP.noSK hF, hP.weak v] at h0
  linarith

theorem hat_sum (Φ : ℕ → ℝ) (N j : ℕ) (hj : j ≤ N) :
    (∑ i ∈ Finset.range N, Φ i * (hat j (i + 1) - hat j i))
      = (if 0 < j then Φ (j - 1) else 0) - if j < N then Φ j else 0 :=
  Props.telescope N j hj Φ

end

end Festim.Weak

namespace Festim.Props

open Festim.Weak

section
variable {Ω : Type} [Fintype Ω] {L : Line Ω} {P : Problem Ω Bool 1} {bcs : List (MobBC Bool)}
  {mat : Ω → Mat} {matS : Bool → Mat} {u : ℕ → ℝ} {dir : Bool → Prop}

/-- Node by node, the equations of a steady problem on a line determine the flux and the profile. -/
theorem line_profile (L : Line Ω) (K : Ω → ℝ) (u : ℕ → ℝ) (dir : Bool → Prop) (inL inR : ℝ)
    (hnode : ∀ v : ℕ → ℝ, (∀ q, dir q → (L.p1 v).tr q = 0) →
      (∑ i ∈ Finset.range L.N, cellFlux L K u i * (v (i + 1) - v i)) = v 0 * inL + v L.N * inR)
    (hK : ∀ i < L.N, 0 < cellInt L K i) :
    ∃ J : ℝ, (∀ i < L.N, cellFlux L K u i = J) ∧ (∀ j ≤ L.N, u j = u 0 + J * resistance L K j) ∧
      (¬ dir true → inR = J) ∧ (¬ dir false → inL = -J) := by
  have hN := L.N_pos
  have hconst : ∀ i, i < L.N → cellFlux L K u i = cellFlux L K u 0 := by
    intro i
    induction i with
    | zero => intro _; rfl
    | succ i ih =>
      intro hi
      have h1 : L.N ≠ i + 1 := by omega
      have := hnode (hat (i + 1)) (by
        intro q _
        cases q <;> simp [Line.p1, hat, h1])
      rw [hat_sum _ _ _ hi.le] at this
      simp [hat, h1, hi] at this
      linarith [ih (by omega)]
  refine ⟨cellFlux L K u 0, hconst, ?_, ?_, ?_⟩
  · intro j
    induction j with
    | zero => intro _; simp [resistance]
    | succ j ih =>
      intro hj
      have hc := hconst j (by omega)
      have hh := L.h_pos j (by omega)
      have hk := hK j (by omega)
      have e1 := ih (by omega)
      unfold resistance at e1 ⊢
      rw [Finset.sum_range_succ, mul_add, ← add_assoc, ← e1, ← hc]
      unfold cellFlux
      field_simp
      ring
  · intro hd
    have := hnode (hat L.N) (by
      intro q hq
      cases q
      · have : 0 ≠ L.N := by omega
        simp [Line.p1, hat, this]
      · exact absurd hq hd)
    rw [hat_sum _ _ _ le_rfl] at this
    have h0 : 0 ≠ L.N := by omega
    simp [hat, hN, h0] at this
    rw [← this]
    exact hconst _ (by omega)
  · intro hd
    have := hnode (hat 0) (by
      intro q hq
      cases q
      · exact absurd hq hd
      · have : L.N ≠ 0 := by omega
        simp [Line.p1, hat, this])
    rw [hat_sum _ _ _ (Nat.zero_le _)] at this
    have h0 : L.N ≠ 0 := by omega
    simp [hat, hN, h0] at this
    linarith

/-- **C89 (a).** In a steady simulation the flux is the same everywhere, it is what flows in at an end with flux
conditions, and the unknown increases along the line in proportion to the resistance, exactly and whatever the mesh. -/
theorem C89_profile (hP : SteadyLine L P bcs mat matS u dir)
    (hK : ∀ i < L.N, 0 < cellInt L (conductivity P mat) i) :
    ∃ J : ℝ, (∀ i < L.N, cellFlux L (conductivity P mat) u i = J) ∧
      (∀ j ≤ L.N, u j = u 0 + J * resistance L (conductivity P mat) j) ∧
      (¬ dir true → inflowAt P bcs matS true = J) ∧ (¬ dir false → inflowAt P bcs matS false = -J) :=
  line_profile L _ u dir _ _ hP.node hK

/-- Uniform conductivities in the cells: the usual resistance of layers in series. -/
theorem resistance_layers (L : Line Ω) (K : Ω → ℝ) (κ : ℕ → ℝ) (hκ : ∀ p, K p = κ (L.cell p)) (j : ℕ)
    (hj : j ≤ L.N) : resistance L K j = ∑ i ∈ Finset.range j, L.h i / κ i := by
  unfold resistance
  refine Finset.sum_congr rfl fun i hi => ?_
  have hi' : i < L.N := lt_of_lt_of_le (Finset.mem_range.1 hi) hj
  have hh := (L.h_pos i hi').ne'
  have e : cellInt L K i = L.h i * κ i := by
    unfold cellInt
    rw [← line_exact L i hi']
    refine Finset.sum_congr rfl fun p hp => ?_
    rw [hκ p, (Finset.mem_filter.1 hp).2]
  rw [e, mul_div_cancel_left₀ _ hh]

theorem resistance_pos (L : Line Ω) (K : Ω → ℝ) (hK : ∀ i < L.N, 0 < cellInt L K i) :
    0 < resistance L K L.N := by
  unfold resistance
  apply Finset.sum_pos
  · intro i hi
    have hi' := Finset.mem_range.1 hi
    exact div_pos (L.h_pos i hi') (div_pos (hK i hi') (L.h_pos i hi'))
  · exact ⟨0, Finset.mem_range.2 L.N_pos⟩

/-- **C89 (b).** With values imposed on both ends, or a value on the left and fluxes on the right, the solution at the
nodes is explicit. -/
theorem C89_solution (hP : SteadyLine L P bcs mat matS u dir)
    (hK : ∀ i < L.N, 0 < cellInt L (conductivity P mat) i) (j : ℕ) (hj : j ≤ L.N) :
    u j = u 0 + (u L.N - u 0) * (resistance L (conductivity P mat) j
      / resistance L (conductivity P mat) L.N) ∧
    (¬ dir true → u j = u 0 + inflowAt P bcs matS true * resistance L (conductivity P mat) j) ∧
    (¬ dir false → u j = u L.N + inflowAt P bcs matS false *
      (resistance L (conductivity P mat) L.N - resistance L (conductivity P mat) j)) := by
  obtain ⟨J, _, h2, h3, h4⟩ := C89_profile hP hK
  have hR := (resistance_pos L _ hK).ne'
  refine ⟨?_, ?_, ?_⟩
  · rw [h2 j hj, h2 L.N le_rfl]
    field_simp
    ring
  · intro hd
    rw [h3 hd]
    exact h2 j hj
  · intro hd
    rw [h4 hd, h2 L.N le_rfl, h2 j hj]
    ring

/-- **C89 (c).** Hence the steady mobile concentration does not depend on the traps. -/
theorem C89_traps (hP : SteadyLine L P bcs mat matS u dir) {Q : Problem Ω Bool 1}
    {bcs' : List (MobBC Bool)} {u' : ℕ → ℝ} {dir' : Bool → Prop}
    (hQ : SteadyLine L Q bcs' mat matS u' dir') (hT : ∀ p, Q.T.T.val p = P.T.T.val p)
    (hth : Q.mv.theta = P.mv.theta) (hK : ∀ i < L.N, 0 < cellInt L (conductivity P mat) i)
    (h0 : u' 0 = u 0) (h1 : u' L.N = u L.N) (j : ℕ) (hj : j ≤ L.N) : u' j = u j := by
  have e : conductivity Q mat = conductivity P mat := by
    funext p
    unfold conductivity
    rw [hT, hth]
  have a := (C89_solution hP hK j hj).1
  have b := (C89_solution hQ (by rw [e]; exact hK) j hj).1
  rw [b, a, e, h0, h1]

/-- What is reported by `SurfaceFlux` at both ends: the flux through the cells there.  (`gradS` of the reported field is the
slope in the cells at the ends, times the solubility with the chemical potential; material and temperature are uniform
there.) -/
theorem line_reported (hP : LineData L P bcs mat matS u)
    (e : PostEnv Ω Bool 1) (proj : Bool) (he : e.mesh = P.mesh) (hn : e.n = Line.normal)
    (hes : e.soret = false) (hp : PropertiesOf e P.mats matS)
    (hg : ∀ q, e.solute.gradS q 0
      = (if P.mv.theta then arr (matS q).S_0 (matS q).E_S (e.T.tr q) else 1) * L.endSlope u q)
    (hT : ∀ q p, L.cell p = L.endCell q → mat p = matS q ∧ P.T.T.val p = e.T.tr q) :
    (hydrogenFlux L.right).value e proj = .ok (cellFlux L (conductivity P mat) u (L.N - 1)) ∧
    (hydrogenFlux L.left).value e proj = .ok (-cellFlux L (conductivity P mat) u 0) := by
  obtain ⟨r, hm⟩ := hP.mesh
  have hN := L.N_pos
  have hend : ∀ q, arr (matS q).D_0 (matS q).E_D (e.T.tr q) * e.solute.gradS q 0
      = cellFlux L (conductivity P mat) u (L.endCell q) := by
    intro q
    have hlt : L.endCell q < L.N := by cases q <;> simp [Line.endCell] <;> omega
    have hh := (L.h_pos _ hlt).ne'
    rw [hg q]
    unfold cellFlux
    have e1 : cellInt L (conductivity P mat) (L.endCell q)
        = L.h (L.endCell q) * (arr (matS q).D_0 (matS q).E_D (e.T.tr q)
          * if P.mv.theta then arr (matS q).S_0 (matS q).E_S (e.T.tr q) else 1) := by
      unfold cellInt
      rw [← line_exact L _ hlt]
      refine Finset.sum_congr rfl fun p hp => ?_
      obtain ⟨h5, h6⟩ := hT q p (Finset.mem_filter.1 hp).2
      unfold conductivity
      rw [h5, h6]
    rw [e1, mul_div_cancel_left₀ _ hh, mul_assoc]
    congr 2
    cases q
    · simp [Line.endSlope, Line.endCell]
    · simp only [Line.endSlope, Line.endCell, if_true]
      rw [Nat.sub_add_cancel hN]
  have hval : ∀ q : Bool, (hydrogenFlux (if q then L.right else L.left)).value e proj
      = .ok (cellFlux L (conductivity P mat) u (L.endCell q) * if q then 1 else -1) := by
    intro q
    unfold hydrogenFlux
    rw [C62_reported_is_inward_flux e proj .cartesian (.name "solute") _ (by simp) e.solute
      (label_solute e proj) (by simp [Geom.curved]) P.mats matS hp (by simp [hes])]
    congr 1
    simp only [fluxAngle, one_mul, Geom.suffix, jacS, surface, he, hm, hn, Line.mesh]
    have hends := L.ends
    rw [Finset.sum_filter, Fintype.sum_bool]
    have hgf : ∀ q, gradFlux e.soret false (matS q) (e.T.tr q) (e.solute.tr q) (e.T.gradS q)
        (e.solute.gradS q) 0 = cellFlux L (conductivity P mat) u (L.endCell q) := by
      intro q
      rw [← hend q]
      simp [gradFlux, physGrad, hes]
    cases q <;> simp [dot, Line.normal, hends, hends.symm, hgf]
  refine ⟨?_, ?_⟩
  · rw [show L.right = (if true then L.right else L.left) from rfl, hval true]
    simp [Line.endCell]
  · rw [show L.left = (if false then L.right else L.left) from rfl, hval false]
    simp [Line.endCell]

/-- **C89 (d).** What is reported by `SurfaceFlux` on both sides: the difference of the imposed values over the total
resistance, with opposite signs.  (`gradS` of the reported field is the slope in the cells at the ends, times the solubility
with the chemical potential; material and temperature are uniform there.) -/
theorem C89_reported (hP : SteadyLine L P bcs mat matS u dir)
    (hK : ∀ i < L.N, 0 < cellInt L (conductivity P mat) i)
    (e : PostEnv Ω Bool 1) (proj : Bool) (he : e.mesh = P.mesh) (hn : e.n = Line.normal)
    (hes : e.soret = false) (hp : PropertiesOf e P.mats matS)
    (hg : ∀ q, e.solute.gradS q 0
      = (if P.mv.theta then arr (matS q).S_0 (matS q).E_S (e.T.tr q) else 1) * L.endSlope u q)
    (hT : ∀ q p, L.cell p = L.endCell q → mat p = matS q ∧ P.T.T.val p = e.T.tr q) :
    (hydrogenFlux L.right).value e proj
      = .ok ((u L.N - u 0) / resistance L (conductivity P mat) L.N) ∧
    (hydrogenFlux L.left).value e proj
      = .ok (-((u L.N - u 0) / resistance L (conductivity P mat) L.N)) := by
  have hN := L.N_pos
  obtain ⟨J, h1, h2, _, _⟩ := C89_profile hP hK
  have hR := (resistance_pos L _ hK).ne'
  have hJ : (u L.N - u 0) / resistance L (conductivity P mat) L.N = J := by
    rw [h2 L.N le_rfl]
    field_simp
    ring
  have := line_reported hP.toLineData e proj he hn hes hp hg hT
  rw [h1 _ (by omega), h1 _ hN] at this
  rwa [hJ]

/-- **C89 (e).** Richardson's law: a plate of one material at a uniform temperature, in contact with a gas at pressure `pr`
on the left (`SievertsBC` with the solubility of the material) and vacuum on the right.  `SurfaceFlux` reports the
permeability `D S` times `√pr` over the thickness, with and without conservation of the chemical potential. -/
theorem C89_richardson (hP : SteadyLine L P bcs mat matS u dir)
    (a : Mat) (ha : ∀ p, mat p = a) (haS : ∀ q, matS q = a) (hD : 0 < a.D_0) (hS : 0 < a.S_0) (T pr : ℝ)
    (hTv : ∀ p, P.T.T.val p = T)
    (h0 : (Dirichlet.sieverts a.S_0 a.E_S fun _ => pr).imposed P.mats P.mv.theta true P.mesh.vmS
      (fun _ => T) false = .ok (u 0))
    (h1 : u L.N = 0)
    (e : PostEnv Ω Bool 1) (proj : Bool) (he : e.mesh = P.mesh) (hn : e.n = Line.normal)
    (hes : e.soret = false) (hp : PropertiesOf e P.mats matS) (heT : ∀ q, e.T.tr q = T)
    (hg : ∀ q, e.solute.gradS q 0
      = (if P.mv.theta then arr (matS q).S_0 (matS q).E_S (e.T.tr q) else 1) * L.endSlope u q) :
    (hydrogenFlux L.right).value e proj
      = .ok (-(arr a.D_0 a.E_D T * arr a.S_0 a.E_S T * √pr / ∑ i ∈ Finset.range L.N, L.h i)) := by
  have hN := L.N_pos
  have hDp : 0 < arr a.D_0 a.E_D T := by unfold arr; positivity
  have hSp : 0 < arr a.S_0 a.E_S T := by unfold arr; positivity
  have hKv : ∀ p, conductivity P mat p
      = arr a.D_0 a.E_D T * if P.mv.theta then arr a.S_0 a.E_S T else 1 := by
    intro p
    unfold conductivity
    rw [ha p, hTv p]
  have hk0 : 0 < arr a.D_0 a.E_D T * if P.mv.theta then arr a.S_0 a.E_S T else 1 := by
    split
    · positivity
    · simpa using hDp
  have hK : ∀ i < L.N, 0 < cellInt L (conductivity P mat) i := by
    intro i hi
    unfold cellInt
    rw [Finset.sum_congr rfl (fun p _ => by rw [hKv p]), line_exact L i hi]
    exact mul_pos (L.h_pos i hi) hk0
  have hlen : 0 < ∑ i ∈ Finset.range L.N, L.h i := by
    apply Finset.sum_pos
    · intro i hi
      exact L.h_pos i (Finset.mem_range.1 hi)
    · exact ⟨0, Finset.mem_range.2 hN⟩
  have hR : resistance L (conductivity P mat) L.N = (∑ i ∈ Finset.range L.N, L.h i)
      / (arr a.D_0 a.E_D T * if P.mv.theta then arr a.S_0 a.E_S T else 1) := by
    rw [resistance_layers L _ (fun _ => _) (fun p => hKv p) _ le_rfl, Finset.sum_div]
  have hsqrt : pr ^ (0.5 : ℝ) = √pr := by
    rw [Real.sqrt_eq_rpow]
    norm_num
  have hu0 : (if P.mv.theta then arr a.S_0 a.E_S T else 1) * u 0 = arr a.S_0 a.E_S T * √pr := by
    cases hth : P.mv.theta with
    | false =>
      rw [hth] at h0
      simp only [Dirichlet.imposed, Dirichlet.at, Bool.and_false, Bool.false_eq_true, if_false,
        Except.ok.injEq] at h0
      rw [← h0, hsqrt]
      simp only [Bool.false_eq_true, if_false, one_mul, arr]
    | true =>
      rw [hth] at h0
      have hmem : a ∈ P.mats := haS false ▸ hP.solubility.memS hth false
      have hf := hp.mat false
      rw [he, haS] at hf
      simp only [Dirichlet.imposed, Dirichlet.at, Bool.and_self, if_true, bcTheta, hf, hP.law hth a hmem,
        Except.ok.injEq] at h0
      rw [← h0, hsqrt]
      simp only [if_true, arr]
      unfold arr at hSp
      field_simp
  rw [(C89_reported hP hK e proj he hn hes hp hg (fun q p _ => ⟨by rw [ha, haS], by rw [hTv, heT]⟩)).1, hR, h1]
  congr 1
  rw [mul_assoc, ← hu0]
  field_simp
  ring

/-- Heat entering at the end `q` through the flux conditions. -/
noncomputable def heatInflowAt (L : Line Ω) (r : Fld Ω Bool 1) (bcs : List (Flux Bool × List ℕ))
    (T : Bool → ℝ) (q : Bool) : ℝ :=
  (bcs.map fun b => (b.2.map fun s => surface (L.mesh r) s fun q' =>
    inward b.1 (T q') 0 q' * if q' = q then 1 else 0).sum).sum

/-- **C89 (f).** The steady temperature without volume sources: the heat flux is the same everywhere, and the temperature
changes in proportion to the thermal resistance. -/
theorem C89_heat (L : Line Ω) (r : Fld Ω Bool 1) (mats : List Mat) (mat : Ω → Mat)
    (hcov : Covers (L.mesh r) mats mat) (bcs : List (Flux Bool × List ℕ)) (u : ℕ → ℝ) (Tn : Fld Ω Bool 1)
    (dir : Bool → Prop)
    (hsolves : ∀ v : ℕ → ℝ, (∀ q, dir q → (L.p1 v).tr q = 0) →
      (L.mesh r).assemble (heatForm (L.mesh r) mats ⟨L.p1 u, Tn⟩ none [] bcs (L.p1 v)) = 0)
    (hK : ∀ i < L.N, 0 < cellInt L (fun p => (mat p).cond ((L.p1 u).val p)) i) :
    ∃ J : ℝ, (∀ j ≤ L.N, u j = u 0 + J * resistance L (fun p => (mat p).cond ((L.p1 u).val p)) j) ∧
      (¬ dir true → heatInflowAt L r bcs (L.p1 u).tr true = J) ∧
      (¬ dir false → heatInflowAt L r bcs (L.p1 u).tr false = -J) := by
  obtain ⟨J, _, h2, h3, h4⟩ := line_profile L (fun p => (mat p).cond ((L.p1 u).val p)) u dir
    (heatInflowAt L r bcs (L.p1 u).tr false) (heatInflowAt L r bcs (L.p1 u).tr true) (by
      intro v hv
      have h0 := hsolves v hv
      rw [C58_weak_form (L.mesh r) mats _ none [] bcs mat _ hcov (by simp [Line.mesh])] at h0
      have e1 : volume (L.mesh r) (fun p => dot (fun i => (mat p).cond ((L.p1 u).val p) *
            (L.p1 u).grad p i) (coordGrad (L.mesh r) (L.p1 v) p))
          = ∑ i ∈ Finset.range L.N,
              cellFlux L (fun p => (mat p).cond ((L.p1 u).val p)) u i * (v (i + 1) - v i) := by
        have e : (fun p => dot (fun i => (mat p).cond ((L.p1 u).val p) *
              (L.p1 u).grad p i) (coordGrad (L.mesh r) (L.p1 v) p))
            = fun p => ((mat p).cond ((L.p1 u).val p) * (L.p1 u).grad p 0) * (L.p1 v).grad p 0 := by
          funext p
          unfold dot
          rw [Fin.sum_univ_one]
          simp [coordGrad, Line.mesh]
        rw [e, line_volume]
        refine Finset.sum_congr rfl fun i hi => ?_
        congr 1
        unfold cellFlux cellInt
        rw [div_mul_eq_mul_div, Finset.sum_mul]
        congr 1
        refine Finset.sum_congr rfl fun p hp => ?_
        have hc : L.cell p = i := (Finset.mem_filter.1 hp).2
        simp only [Line.p1, hc]
        ring
      have e2 : heatSupply (L.mesh r) [] bcs (L.p1 u).tr (L.p1 v)
          = v 0 * heatInflowAt L r bcs (L.p1 u).tr false
            + v L.N * heatInflowAt L r bcs (L.p1 u).tr true := by
        unfold heatSupply heatInflowAt
        rw [← List.sum_map_mul_left, ← List.sum_map_mul_left, ← List.sum_map_add]
        simp only [List.map_nil, List.sum_nil, zero_add]
        congr 1
        apply List.map_congr_left
        intro b hb
        rw [← List.sum_map_mul_left, ← List.sum_map_mul_left, ← List.sum_map_add]
        congr 1
        apply List.map_congr_left
        intro s _
        unfold surface
        rw [Finset.mul_sum, Finset.mul_sum, ← Finset.sum_add_distrib]
        refine Finset.sum_congr rfl fun q _ => ?_
        cases q <;> simp [Line.p1] <;> ring
      simp only [zero_add] at h0
      rw [e1, e2] at h0
      linarith) hK
  exact ⟨J, h2, h3, h4⟩

end

/-! ### Two layers with a trap in the first one: concentrations 0 and 3 imposed -/

namespace LineCase

noncomputable def layerTrap : Trap (Fin 2) Bool 1 where
  k_0 := .list [1]
  E_k := .list [0]
  p_0 := .list [1]
  E_p := .list [0]
  density := [fun _ => 4]
  materials := [A]
  sol := ⟨fun p => if p = 0 then 2 else 0, fun _ _ => 0, fun _ => 0⟩
  prev := Fld.const 0

noncomputable def PT : Problem (Fin 2) Bool 1 := { P with traps := [layerTrap] }

theorem layers : SteadyLine L PT [] mat (fun q => if q then B else A) u fun _ => True where
  mesh := ⟨_, rfl⟩
  steady := rfl
  sol := rfl
  cover := ⟨by intro p; fin_cases p <;> simp [mat, PT, P],
    by intro p; fin_cases p <;> simp [mat, PT, P, L, Line.mesh, A, B], by simp [PT, P, A, B]⟩
  solubility := ⟨by simp [PT, P], by simp [PT, P], by simp [PT, P], by simp [PT, P]⟩
  law := by simp [PT, P]
  uniform := by simp [PT, P]
  sources := ⟨rfl, by simp [PT, layerTrap]⟩
  outside := by
    intro t ht p hp
    simp only [PT, List.mem_singleton] at ht
    subst ht
    fin_cases p
    · simp [layerTrap, mat] at hp
    · simp [layerTrap]
  noSK := by simp
  solves := by
    intro v hv
    have h0 : v 0 = 0 := by simpa [Line.p1] using hv false trivial
    have h2 : v 2 = 0 := by simpa [Line.p1, L] using hv true trivial
    refine ⟨_, rfl, ?_⟩
    simp [PT, P, L, Line.mesh, Mesh.assemble, Mesh.integrate, Form.neg, layerTrap,
      subdomainForm, Fld.const, dot, sourceForm, fluxesForm, A, B, Line.p1, u,
      Fin.sum_univ_two, h0, h2, Mobile.conc, trapSourceForm]
    ring

theorem layers_pos : ∀ i < L.N, 0 < cellInt L (conductivity PT mat) i := by
  intro i hi
  have : i = 0 ∨ i = 1 := by simp only [L] at hi; omega
  rcases this with rfl | rfl <;>
    simp [cellInt, conductivity, L, PT, P, mat, A, B, arr, Finset.sum_filter, Fin.sum_univ_two]

example : u 1 = u 0 + (u 2 - u 0) * (resistance L (conductivity PT mat) 1
      / resistance L (conductivity PT mat) 2) :=
  (C89_solution layers layers_pos 1 (by simp [L])).1

example : resistance L (conductivity PT mat) 2 = 3 / 2 := by
  rw [resistance_layers L _ (fun i => if i = 0 then 1 else 2) _ 2 (by simp [L])]
  · simp [L, Finset.sum_range_succ]; norm_num
  · intro p
    fin_cases p <;> simp [conductivity, PT, P, mat, A, B, arr, L]

/-- What is reported: 3 over the resistance 3/2. -/
example : (hydrogenFlux 2).value env false
    = .ok ((u 2 - u 0) / resistance L (conductivity PT mat) 2) :=
  (C89_reported layers layers_pos env false rfl rfl rfl
    ⟨by intro q; cases q <;> simp [env, PT, P, L, Line.mesh, findMat, A, B],
      by intro q; cases q <;> simp [env, PT, P, L, Line.mesh, arrheniusCoeff, findMat, A, B],
      by simp [env], by simp [env]⟩
    (by intro q; simp [env, fun1, PT, P])
    (by
      intro q p h
      cases q <;> fin_cases p <;> simp_all [L, Line.endCell, mat, PT, P, env, fun1, Line.p1, Fld.const])).1

/-- One plate, with conservation of the chemical potential: 4 Pa on the left. -/
noncomputable def M : Mat := { uid := 0, ids := [1, 2], D_0 := 1, E_D := 0, S_0 := 3, E_S := 0 }

def plateU (i : ℕ) : ℝ := if i = 0 then 2 else if i = 1 then 1 else 0

noncomputable def plate : Problem (Fin 2) Bool 1 where
  mesh := L.mesh (Fld.const 1)
  mats := [M]
  mv := { theta := true, sol := L.p1 plateU, prev := Fld.const 0, S := Fld.const 3 }
  T := ⟨Fld.const 300, Fld.const 300⟩
  dt := none
  soret := false
  sources := []
  traps := []

theorem plate_steady : SteadyLine L plate [] (fun _ => M) (fun _ => M) plateU fun _ => True where
  mesh := ⟨_, rfl⟩
  steady := rfl
  sol := rfl
  cover := ⟨by simp [plate], by intro p; fin_cases p <;> simp [plate, L, Line.mesh, M], by simp [plate, M]⟩
  solubility := by
    constructor
    · simp [plate, M, arr, Fld.const]
    · simp [plate]
    · intro _ q
      cases q <;> simp [plate, Line.mesh, L, M]
    · simp [plate, M, arr, Fld.const]
  law := by simp [plate, M]
  uniform := by simp [plate, Fld.const]
  sources := ⟨rfl, by simp [plate]⟩
  outside := by simp [plate]
  noSK := by simp
  solves := by
    intro v hv
    have h0 : v 0 = 0 := by simpa [Line.p1] using hv false trivial
    have h2 : v 2 = 0 := by simpa [Line.p1, L] using hv true trivial
    have eg : ∀ (u : Fld (Fin 2) Bool 1) p i, u.exp.grad p i = Real.exp (u.val p) * u.grad p i :=
      fun _ _ _ => rfl
    refine ⟨_, rfl, ?_⟩
    simp [plate, L, Line.mesh, Mesh.assemble, Mesh.integrate, Form.neg,
      subdomainForm, Fld.const, dot, sourceForm, fluxesForm, M, Line.p1, plateU,
      Fin.sum_univ_two, h0, h2, Mobile.conc, arrhenius, eg]
    ring

noncomputable def plateEnv : PostEnv (Fin 2) Bool 1 where
  mesh := plate.mesh
  n := Line.normal
  D _ := 1
  cond := none
  Q := none
  T := fun1 fun _ => 300
  soret := false
  solute := fun1 fun i => 3 * plateU i
  traps := []
  ids := []
  adsorbed := []

/-- `D S √p / thickness = 1 * 3 * 2 / 2`. -/
example : (hydrogenFlux 2).value plateEnv false
    = .ok (-(arr 1 0 300 * arr 3 0 300 * √4 / ∑ i ∈ Finset.range 2, L.h i)) :=
  C89_richardson plate_steady M (fun _ => rfl) (fun _ => rfl) (by norm_num [M]) (by norm_num [M]) 300 4
    (fun _ => rfl)
    (by
      have h4 : (4 : ℝ) ^ (0.5 : ℝ) = 2 := by
        rw [show (0.5 : ℝ) = 1 / 2 by norm_num, ← Real.sqrt_eq_rpow, show (4 : ℝ) = 2 ^ 2 by norm_num,
          Real.sqrt_sq (by norm_num)]
      simp [Dirichlet.imposed, Dirichlet.at, bcTheta, findMat, plate, M, L, Line.mesh, plateU, h4])
    rfl plateEnv false rfl rfl rfl
    ⟨by intro q; cases q <;> simp [plateEnv, plate, L, Line.mesh, findMat, M],
      by intro q; cases q <;> simp [plateEnv, plate, L, Line.mesh, arrheniusCoeff, findMat, M],
      by simp [plateEnv], by simp [plateEnv]⟩
    (by intro q; cases q <;> simp [plateEnv, fun1, Line.p1])
    (by
      intro q
      cases q <;> simp [plateEnv, plate, fun1, Line.endSlope, M, arr, L, plateU] <;> norm_num)

/-- Heat: conductivities 1 and 2, temperature 300 on the left, 2 entering on the right. -/
noncomputable def hA : Mat := { uid := 0, ids := [1], D_0 := 1, E_D := 0, cond := fun _ => 1 }
noncomputable def hB : Mat := { uid := 1, ids := [2], D_0 := 1, E_D := 0, cond := fun _ => 2 }

def heatU (i : ℕ) : ℝ := if i = 0 then 300 else if i = 1 then 302 else 303

noncomputable def hmat (p : Fin 2) : Mat := if p = 0 then hA else hB

example : ∃ J : ℝ, (∀ j ≤ L.N, heatU j = heatU 0
      + J * resistance L (fun p => (hmat p).cond ((L.p1 heatU).val p)) j) ∧
    (¬ (true = false) → heatInflowAt L (Fld.const 1) [(.value fun _ => 2, [2])] (L.p1 heatU).tr true = J) ∧
    (¬ (false = false) → heatInflowAt L (Fld.const 1) [(.value fun _ => 2, [2])] (L.p1 heatU).tr false = -J) :=
  C89_heat L (Fld.const 1) [hA, hB] hmat
    ⟨by intro p; fin_cases p <;> simp [hmat],
      by intro p; fin_cases p <;> simp [hmat, L, Line.mesh, hA, hB], by simp [hA, hB]⟩
    _ heatU (Fld.const 0) (· = false)
    (by
      intro v hv
      have h0 : v 0 = 0 := by simpa [Line.p1] using hv false rfl
      simp [heatForm, heatSubdomain, L, Line.mesh, Mesh.assemble, Mesh.integrate, Fld.const, dot, hA, hB,
        Line.p1, heatU, Fin.sum_univ_two, h0, Flux.form]
      ring)
    (by
      intro i hi
      have : i = 0 ∨ i = 1 := by simp only [L] at hi; omega
      rcases this with rfl | rfl <;>
        simp [cellInt, L, hmat, hA, hB, Finset.sum_filter, Fin.sum_univ_two])

end LineCase

end Festim.Props
