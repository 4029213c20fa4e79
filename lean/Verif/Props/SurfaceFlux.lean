import Verif.Props.Derived
import Verif.Props.Balance
import Verif.Spec.Line

/-!
# C62: the reported surface fluxes
-/

set_option linter.unusedSectionVars false

open scoped BigOperators

namespace Festim.Weak

section
variable {Ω Γ : Type} [Fintype Ω] [Fintype Γ] {d : ℕ}

theorem fluxesForm_dt (P : Problem Ω Γ d) (bcs : List (MobBC Γ)) (v : Fld Ω Γ d) (dt dt' : Option ℝ)
    (hno : ∀ b vs, MobBC.sk b vs ∉ bcs) :
    fluxesForm P.mesh P.mats P.mv P.T dt bcs v = fluxesForm P.mesh P.mats P.mv P.T dt' bcs v := by
  unfold fluxesForm
  induction bcs with
  | nil => rfl
  | cons b l ih =>
    rw [List.flatMap_cons, List.flatMap_cons, ih fun b vs hm => hno b vs (by simp [hm])]
    congr 1
    cases b with
    | flux f s => rfl
    | sk b vs => exact absurd List.mem_cons_self (hno b vs)

theorem bcStock_zero (m : Mesh Ω Γ d) (bcs : List (MobBC Γ)) (b : Bool) (c v : Γ → ℝ)
    (hno : ∀ b vs, MobBC.sk b vs ∉ bcs) : (bcs.map (bcStock m b c v)).sum = 0 := by
  induction bcs with
  | nil => rfl
  | cons x l ih =>
    rw [List.map_cons, List.sum_cons, ih fun b vs hm => hno b vs (by simp [hm])]
    cases x with
    | flux f s => simp [bcStock]
    | sk b vs => exact absurd List.mem_cons_self (hno b vs)

/-- Steady equation without traps nor surface kinetics. -/
theorem steady_weak_form (P : Problem Ω Γ d) (bcs : List (MobBC Γ)) (mat : Ω → Mat) (matS : Γ → Mat)
    (v : Fld Ω Γ d) (F : Form Ω Γ) (hdt : P.dt = none) (hcov : Covers P.mesh P.mats mat)
    (hsol : Solubility P mat matS)
    (hr : (P.mesh.type = .cylindrical ∨ P.mesh.type = .spherical) → ∀ p, P.mesh.r.val p ≠ 0)
    (ht : P.traps = []) (hno : ∀ b vs, MobBC.sk b vs ∉ bcs) (hF : P.form bcs v [] = .ok F) :
    P.mesh.assemble F
      = volume P.mesh (fun p =>
            dot (gradFlux P.soret P.mv.theta (mat p) (P.T.T.val p) (P.mv.sol.val p)
              (P.T.T.grad p) (P.mv.sol.grad p)) (coordGrad P.mesh v p))
        - supply P bcs mat matS v := by
  have hF' : P.form bcs v (P.traps.map fun _ => v) = .ok F := by rw [ht]; exact hF
  rw [form_assemble P bcs v F hF', bulk_eq P v hcov hr, source_eq P v hcov hsol, hdt,
    fluxesForm_dt P bcs v none (some 1) hno,
    fluxes_eq P v bcs 1 (P.cS matS) (fun q => mobileConcS_eq P hcov hsol q)
      (fun b vs hm => absurd hm (hno b vs)), bcStock_zero _ _ _ _ _ hno, bcStock_zero _ _ _ _ _ hno]
  unfold supply
  rw [ht]
  simp only [List.map_nil, List.sum_nil, add_zero, zero_add, sub_zero, zero_div, Problem.c]
  ring

end

section line
variable {Ω : Type} [Fintype Ω]

theorem line_exact (L : Line Ω) (i : ℕ) (hi : i < L.N) (k : ℝ) :
    (∑ p ∈ Finset.univ.filter (fun p => L.cell p = i), L.w p * k) = L.h i * k := by
  rw [← Finset.sum_mul, L.exact i hi]

/-- Integral of `J v'` for piecewise affine `v`, cell by cell. -/
theorem line_volume (L : Line Ω) (r : Fld Ω Bool 1) (J : Ω → ℝ) (v : ℕ → ℝ) :
    volume (L.mesh r) (fun p => J p * (L.p1 v).grad p 0)
      = ∑ i ∈ Finset.range L.N,
          (∑ p ∈ Finset.univ.filter (fun p => L.cell p = i), L.w p * J p) / L.h i
            * (v (i + 1) - v i) := by
  unfold volume
  rw [← Finset.sum_fiberwise_of_maps_to (s := Finset.univ) (t := Finset.range L.N) (g := L.cell)
    (fun p _ => Finset.mem_range.2 (L.cell_lt p))]
  apply Finset.sum_congr rfl
  intro i _
  rw [Finset.sum_div, Finset.sum_mul]
  apply Finset.sum_congr rfl
  intro p hp
  have : L.cell p = i := by simpa using hp
  simp only [Line.mesh, Line.p1, this]
  ring

end line

end Festim.Weak

namespace Festim.Props

open Festim.Weak

section
variable {Ω Γ : Type} [Fintype Ω] [Fintype Γ] {d : ℕ}

/-- The properties of a `PostEnv` are those of the materials (`Materials.create_properties`); `matS` is
the material at the boundary points. -/
structure PropertiesOf (e : PostEnv Ω Γ d) (mats : List Mat) (matS : Γ → Mat) : Prop where
  mat : ∀ q, findMat mats (e.mesh.vmS q) = .ok (matS q)
  D : ∀ q, arrheniusCoeff mats (·.D_0) (·.E_D) (e.mesh.vmS q) (e.T.tr q) = .ok (e.D q)
  cond : ∀ k, e.cond = some k → ∀ q, thermalProp mats (·.cond) (e.mesh.vmS q) (e.T.tr q) = .ok (k q)
  Q : ∀ k, e.Q = some k → ∀ q, thermalProp mats (·.Q) (e.mesh.vmS q) (e.T.tr q) = .ok (k q)

/-- **C62.** The reported flux of the solute is the integral over the surface, with the Jacobian and the
angles, of `D (∇c + Q c / (k_B T²) ∇T) · n` (the second term with the Soret effect): the hydrogen which
*enters* per unit time according to the diffusive flux of the equation (`gradFlux`, C41). -/
theorem C62_reported_is_inward_flux (e : PostEnv Ω Γ d) (proj : Bool) (g : Geom) (f : Field) (s : ℕ)
    (hf : f = .int 0 ∨ f = .strInt 0 ∨ f = .name "solute") (φ : PostFun Ω Γ d)
    (hl : e.label proj f = .ok φ) (hfun : g.curved = true → φ.isFun = true) (mats : List Mat)
    (matS : Γ → Mat) (hp : PropertiesOf e mats matS) (hQ : e.soret = true → e.Q.isSome) :
    (Quantity.surfaceFlux g f s).value e proj
      = .ok (fluxAngle g * surface e.mesh s fun q => jacS e.mesh g.suffix q *
          dot (gradFlux e.soret false (matS q) (e.T.tr q) (φ.tr q) (e.T.gradS q) (φ.gradS q))
            (e.n q)) := by
  rw [flux_solute e proj g f s hf φ hl hfun (if e.soret then e.Q else none)
    (by cases hs : e.soret <;> simp; exact hQ hs)]
  congr 2
  unfold fluxIntegral
  congr 1
  funext q
  have hD : e.D q = arr (matS q).D_0 (matS q).E_D (e.T.tr q) := by
    have := hp.D q
    unfold arrheniusCoeff at this
    rw [hp.mat q] at this
    exact (Except.ok.inj this).symm
  congr 1
  have hdot : dot (gradFlux e.soret false (matS q) (e.T.tr q) (φ.tr q) (e.T.gradS q) (φ.gradS q))
      (e.n q) = e.D q * (dot (φ.gradS q) (e.n q) + if e.soret then
        (matS q).Q (e.T.tr q) * φ.tr q / (kB * e.T.tr q ^ 2) * dot (e.T.gradS q) (e.n q) else 0) := by
    cases e.soret
    · have hg : gradFlux false false (matS q) (e.T.tr q) (φ.tr q) (e.T.gradS q) (φ.gradS q)
          = fun i => e.D q * φ.gradS q i := by
        funext i
        simp [gradFlux, physGrad, hD]
      rw [hg, dot_smul_left]
      simp
    · have hg : gradFlux true false (matS q) (e.T.tr q) (φ.tr q) (e.T.gradS q) (φ.gradS q)
          = fun i => e.D q * (φ.gradS q i
            + (matS q).Q (e.T.tr q) * φ.tr q / (kB * e.T.tr q ^ 2) * e.T.gradS q i) := by
        funext i
        simp [gradFlux, physGrad, physConc, hD]
      rw [hg, dot_smul_left, dot_add_left, dot_smul_left]
      simp
  rw [hdot]
  congr 2
  cases hs : e.soret with
  | false => rfl
  | true =>
    obtain ⟨Q, hQ'⟩ := Option.isSome_iff_exists.1 (hQ hs)
    simp only [hQ', if_true]
    have := hp.Q Q hQ' q
    unfold thermalProp at this
    rw [hp.mat q] at this
    rw [← Except.ok.inj this]

/-- **C62.** The reported heat flux is the integral of `λ(T) ∇T · n`: the heat which enters. -/
theorem C62_heat_flux (e : PostEnv Ω Γ d) (proj : Bool) (g : Geom) (s : ℕ)
    (hfun : g.curved = true → e.T.isFun = true) (mats : List Mat) (matS : Γ → Mat)
    (hp : PropertiesOf e mats matS) (hk : e.cond.isSome) :
    (Quantity.surfaceFlux g (.name "T") s).value e proj
      = .ok (fluxAngle g * surface e.mesh s fun q => jacS e.mesh g.suffix q *
          ((matS q).cond (e.T.tr q) * dot (e.T.gradS q) (e.n q))) := by
  obtain ⟨k, hk'⟩ := Option.isSome_iff_exists.1 hk
  rw [flux_heat e proj g s hfun k hk']
  congr 2
  unfold fluxIntegral
  congr 1
  funext q
  have := hp.cond k hk' q
  unfold thermalProp at this
  rw [hp.mat q] at this
  rw [← Except.ok.inj this, add_zero]

/-- **C62.** The documentation of `SurfaceFluxCylindrical` and `SurfaceFluxSpherical` announces
`∫ -D ∇c · n`; the reported value is the opposite, and agrees only when it is zero. -/
theorem C62_documented_sign (e : PostEnv Ω Γ d) (proj : Bool) (g : Geom) (s : ℕ)
    (hfun : e.solute.isFun = true) (hs : e.soret = false) (documented : ℝ)
    (hdoc : documented = fluxAngle g * surface e.mesh s fun q =>
      jacS e.mesh g.suffix q * (-(e.D q) * dot (e.solute.gradS q) (e.n q))) :
    (Quantity.surfaceFlux g (.name "solute") s).value e proj = .ok (-documented) ∧
    ((Quantity.surfaceFlux g (.name "solute") s).value e proj = .ok documented ↔ documented = 0) := by
  have key : (Quantity.surfaceFlux g (.name "solute") s).value e proj = .ok (-documented) := by
    rw [flux_solute e proj g (.name "solute") s (by simp) e.solute (label_solute e proj)
      (fun _ => hfun) none (by simp [hs]), hdoc, neg_mul_eq_mul_neg, ← neg_one_mul (surface _ _ _),
      ← surface_smul]
    congr 2
    unfold fluxIntegral
    congr 1
    funext q
    ring
  refine ⟨key, ?_⟩
  rw [key]
  simp only [Except.ok.injEq]
  constructor <;> intro h <;> linarith

/-- **C62.** No flux is reported for a trap or the retention, although the documentation lists them:
`KeyError` in all coordinates, or `AttributeError` for a retention which was not projected in cylindrical and spherical
ones. -/
theorem C62_other_fields_fail (e : PostEnv Ω Γ d) (proj : Bool) (g : Geom) (f : Field) (s : ℕ)
    (φ : PostFun Ω Γ d) (hl : e.label proj f = .ok φ)
    (hf : f ≠ .int 0 ∧ f ≠ .strInt 0 ∧ f ≠ .name "solute" ∧ f ≠ .name "T") :
    (g = .cartesian ∨ φ.isFun = true →
      ∃ m, (Quantity.surfaceFlux g f s).value e proj = .error (.keyError m)) ∧
    (g ≠ .cartesian → φ.isFun = false →
      ∃ m, (Quantity.surfaceFlux g f s).value e proj = .error (.attributeError m)) := by
  have hpr : (Quantity.surfaceFlux g f s).projects proj = proj := by
    simp [Quantity.projects, Quantity.isExtremum]
  unfold Quantity.value
  rw [hpr]
  simp only [Quantity.function, Quantity.field, hl, Quantity.compute, needMesh, Geom.curved]
  unfold evalSurfaceFlux PostEnv.prop
  cases hφ : φ.isFun <;> cases g <;> simp [hf.1, hf.2.1, hf.2.2.1, hf.2.2.2]

/-- **C62.** With the Soret effect but materials without `Q`, or a heat flux with materials without
`thermal_cond`, the computation of the export fails with `TypeError`. -/
theorem C62_missing_property (e : PostEnv Ω Γ d) (proj : Bool) (s : ℕ) :
    (e.soret = true → e.Q = none →
      ∃ m, (hydrogenFlux s).value e proj = .error (.typeError m)) ∧
    (e.cond = none → ∃ m, (thermalFlux s).value e proj = .error (.typeError m)) := by
  constructor
  · intro hs hQ
    refine ⟨"unsupported operand type(s) for *: 'NoneType'", ?_⟩
    unfold hydrogenFlux Quantity.value
    simp only [Quantity.function, Quantity.field, label_solute, Quantity.compute, needMesh,
      Geom.curved, Bool.false_and, Bool.false_eq_true, if_false]
    unfold evalSurfaceFlux PostEnv.prop
    simp [hs, hQ]
  · intro hk
    refine ⟨"unsupported operand type(s) for *: 'NoneType'", ?_⟩
    unfold thermalFlux Quantity.value
    simp only [Quantity.function, Quantity.field, label_T, Quantity.compute, needMesh,
      Geom.curved, Bool.false_and, Bool.false_eq_true, if_false]
    unfold evalSurfaceFlux PostEnv.prop
    simp [hk]

end

section line
variable {Ω : Type} [Fintype Ω]

/-- A material used where none is looked at. -/
private def anyMat : Mat := { uid := 0, ids := [], D_0 := 0, E_D := 0 }

/-- Mean over a cell of the gradient flux. -/
noncomputable def cellMean (L : Line Ω) (J : Ω → ℝ) (i : ℕ) : ℝ :=
  (∑ p ∈ Finset.univ.filter (fun p => L.cell p = i), L.w p * J p) / L.h i

/-- Inflow at the end `q` due to the flux conditions. -/
noncomputable def imposedAt (P : Problem Ω Bool 1) (bcs : List (MobBC Bool)) (q : Bool) : ℝ :=
  (bcs.map (bcInflow P.mesh P.T.T.tr P.mv.sol.tr fun q' => if q' = q then 1 else 0)).sum

theorem telescope (N j : ℕ) (hj : j ≤ N) (Φ : ℕ → ℝ) :
    (∑ i ∈ Finset.range N, Φ i * ((if i + 1 = j then (1 : ℝ) else 0) - if i = j then 1 else 0))
      = (if 0 < j then Φ (j - 1) else 0) - if j < N then Φ j else 0 := by
  simp only [mul_sub, Finset.sum_sub_distrib, mul_ite, mul_one, mul_zero]
  congr 1
  · cases j with
    | zero => simp
    | succ j =>
      simp only [Nat.add_right_cancel_iff, Finset.sum_ite_eq', Finset.mem_range]
      simp
      intro h; omega
  · rw [Finset.sum_ite_eq']
    simp

/-- The steady equation on a line, node by node. -/
theorem line_node (L : Line Ω) (r : Fld Ω Bool 1) (P : Problem Ω Bool 1) (bcs : List (MobBC Bool))
    (mat : Ω → Mat) (hm : P.mesh = L.mesh r) (hdt : P.dt = none) (ht : P.traps = [])
    (hs : P.sources = []) (hth : P.mv.theta = false) (hcov : Covers P.mesh P.mats mat)
    (hno : ∀ b vs, MobBC.sk b vs ∉ bcs) (j : ℕ) (hj : j ≤ L.N) (F : Form Ω Bool)
    (hF : P.form bcs (L.p1 fun i => if i = j then 1 else 0) [] = .ok F) :
    let Φ := cellMean L fun p => gradFlux P.soret false (mat p) (P.T.T.val p) (P.mv.sol.val p)
      (P.T.T.grad p) (P.mv.sol.grad p) 0
    P.mesh.assemble F = ((if 0 < j then Φ (j - 1) else 0) - if j < L.N then Φ j else 0)
      - ((if j = 0 then imposedAt P bcs false else 0)
        + if j = L.N then imposedAt P bcs true else 0) := by
  intro Φ
  have hsol : Solubility P mat fun _ => anyMat :=
    ⟨by simp [hth], by simp [hth], by simp [hth], by simp [hth]⟩
  rw [steady_weak_form P bcs mat _ _ F hdt hcov hsol (by simp [hm, Line.mesh]) ht hno hF]
  congr 1
  · have : (fun p => dot (gradFlux P.soret P.mv.theta (mat p) (P.T.T.val p) (P.mv.sol.val p)
        (P.T.T.grad p) (P.mv.sol.grad p)) (coordGrad P.mesh (L.p1 fun i => if i = j then 1 else 0) p))
        = fun p => gradFlux P.soret false (mat p) (P.T.T.val p) (P.mv.sol.val p)
        (P.T.T.grad p) (P.mv.sol.grad p) 0 * (L.p1 fun i => if i = j then (1 : ℝ) else 0).grad p 0 := by
      funext p
      simp [dot, coordGrad, hm, Line.mesh, hth]
    rw [this, hm, line_volume]
    exact telescope L.N j hj Φ
  · unfold supply
    rw [hs, ht]
    simp only [List.map_nil, List.sum_nil, zero_add]
    have hc : P.cS (fun _ => anyMat) = P.mv.sol.tr := by
      funext q; simp [Problem.cS, physConc, hth]
    rw [hc]
    have hN := L.N_pos
    have htr : (L.p1 fun i => if i = j then (1 : ℝ) else 0).tr
        = fun q => if q then (if L.N = j then 1 else 0) else (if 0 = j then 1 else 0) := by
      funext q; simp [Line.p1]
    rw [htr]
    have hzero : (bcs.map (bcInflow P.mesh P.T.T.tr P.mv.sol.tr fun _ => 0)).sum = 0 := by
      apply List.sum_eq_zero
      intro x hx
      obtain ⟨b, hb, rfl⟩ := List.mem_map.1 hx
      cases b with
      | flux f ss =>
        simp only [bcInflow, mul_zero]
        apply List.sum_eq_zero
        intro x hx
        obtain ⟨s, _, rfl⟩ := List.mem_map.1 hx
        simp [surface]
      | sk b vs => exact absurd hb (hno b vs)
    unfold imposedAt
    by_cases h0 : j = 0
    · subst h0
      have h1 : L.N ≠ 0 := by omega
      have h2 : ¬ (0 = L.N) := by omega
      simp only [h1, h2, if_true, if_false, add_zero]
      congr 3
      funext q
      cases q <;> simp
    · by_cases h1 : j = L.N
      · subst h1
        have h2 : ¬ (0 = L.N) := by omega
        simp only [h0, h2, if_true, if_false, zero_add]
      · have h2 : ¬ (L.N = j) := fun h => h1 h.symm
        have h3 : ¬ (0 = j) := fun h => h0 h.symm
        simp only [h0, h1, h2, h3, if_false, add_zero]
        convert hzero using 4
        rename_i q
        cases q <;> simp

/-- **C62.** Steady state on any one-dimensional mesh, any materials, no source and no trap: if the
residual vanishes for the test functions of the space (those vanishing at the ends `dir` where a value
is imposed) and the diffusive flux does not vary inside the cells at the ends, then what is reported at
the left and right surfaces sums to zero, and at an end with flux conditions the reported flux is
exactly the imposed inward flux. -/
theorem C62_steady_fluxes_general (L : Line Ω) (r : Fld Ω Bool 1) (P : Problem Ω Bool 1)
    (bcs : List (MobBC Bool)) (mat : Ω → Mat) (hm : P.mesh = L.mesh r) (hdt : P.dt = none)
    (ht : P.traps = []) (hs : P.sources = []) (hth : P.mv.theta = false)
    (hcov : Covers P.mesh P.mats mat) (hno : ∀ b vs, MobBC.sk b vs ∉ bcs) (dir : Bool → Prop)
    (hres : ∀ v : ℕ → ℝ, (∀ q, dir q → (L.p1 v).tr q = 0) →
      ∀ F, P.form bcs (L.p1 v) [] = .ok F → P.mesh.assemble F = 0)
    (e : PostEnv Ω Bool 1) (proj : Bool) (he : e.mesh = P.mesh) (hn : e.n = Line.normal)
    (matS : Bool → Mat) (hp : PropertiesOf e P.mats matS) (hQ : e.soret = true → e.Q.isSome)
    (hend : ∀ q p, L.cell p = L.endCell q →
      gradFlux P.soret false (mat p) (P.T.T.val p) (P.mv.sol.val p) (P.T.T.grad p) (P.mv.sol.grad p) 0
      = gradFlux e.soret false (matS q) (e.T.tr q) (e.solute.tr q) (e.T.gradS q) (e.solute.gradS q) 0) :
    ∃ x : Bool → ℝ, (hydrogenFlux L.left).value e proj = .ok (x false) ∧
      (hydrogenFlux L.right).value e proj = .ok (x true) ∧
      x false + x true = 0 ∧ ∀ q, ¬ dir q → x q = imposedAt P bcs q := by
  set J : Ω → ℝ := fun p => gradFlux P.soret false (mat p) (P.T.T.val p) (P.mv.sol.val p)
      (P.T.T.grad p) (P.mv.sol.grad p) 0 with hJ
  set JS : Bool → ℝ := fun q => gradFlux e.soret false (matS q) (e.T.tr q) (e.solute.tr q)
      (e.T.gradS q) (e.solute.gradS q) 0 with hJS
  have hN := L.N_pos
  have hform : ∀ v, ∃ F, P.form bcs (L.p1 v) [] = .ok F := by
    intro v
    unfold Problem.form
    simp [mobileForm, diffusionForm, ht, mobileTraps, trapsForm, bind, Except.bind]
  -- the mean in the cell at an end is the value at the end
  have hmean : ∀ q, cellMean L J (L.endCell q) = JS q := by
    intro q
    have hlt : L.endCell q < L.N := by cases q <;> simp [Line.endCell] <;> omega
    unfold cellMean
    rw [Finset.sum_congr rfl (g := fun p => L.w p * JS q)
      (fun p hp' => by rw [hJ]; simp only; rw [hend q p (by simpa using hp')]), line_exact L _ hlt]
    have := (L.h_pos _ hlt).ne'
    field_simp
  -- it does not vary from cell to cell
  have hconst : ∀ i, i < L.N → cellMean L J i = cellMean L J 0 := by
    intro i
    induction i with
    | zero => intro _; rfl
    | succ i ih =>
      intro hi
      obtain ⟨F, hF⟩ := hform fun k => if k = i + 1 then 1 else 0
      have h0 := hres _ (by
        intro q _
        have h1 : ¬ (L.N = i + 1) := by omega
        cases q <;> simp [Line.p1, h1]) F hF
      rw [line_node L r P bcs mat hm hdt ht hs hth hcov hno (i + 1) hi.le F hF] at h0
      have h1 : ¬ (i + 1 = L.N) := by omega
      simp only [Nat.succ_pos, if_true, hi, h1, if_false, Nat.add_sub_cancel, add_zero, sub_zero,
        Nat.succ_ne_zero] at h0
      have := ih (by omega)
      rw [← hJ] at h0
      linarith
  have hleft : cellMean L J 0 = JS false := hmean false
  have hright : cellMean L J 0 = JS true := by
    rw [← hconst (L.N - 1) (by omega)]; exact hmean true
  have hval : ∀ q : Bool, (hydrogenFlux (if q then L.right else L.left)).value e proj
      = .ok (JS q * if q then 1 else -1) := by
    intro q
    unfold hydrogenFlux
    rw [C62_reported_is_inward_flux e proj .cartesian (.name "solute") _ (by simp) e.solute
      (label_solute e proj) (by simp [Geom.curved]) P.mats matS hp hQ]
    congr 1
    simp only [fluxAngle, one_mul, Geom.suffix, jacS, surface, he, hm, hn, Line.mesh]
    have hends := L.ends
    rw [Finset.sum_filter, Fintype.sum_bool]
    cases q <;> simp [dot, Line.normal, hends, hends.symm, hJS]
  refine ⟨fun q => JS q * if q then 1 else -1, hval false, hval true, ?_, ?_⟩
  · simp only [Bool.false_eq_true, if_false, if_true]
    linarith
  · intro q hq
    cases q with
    | false =>
      obtain ⟨F, hF⟩ := hform fun k => if k = 0 then 1 else 0
      have h0 := hres _ (by
        intro q hd
        cases q
        · exact absurd hd hq
        · simp [Line.p1]; omega) F hF
      rw [line_node L r P bcs mat hm hdt ht hs hth hcov hno 0 (by omega) F hF] at h0
      have h1 : ¬ (0 = L.N) := by omega
      simp only [lt_irrefl, if_false, hN, if_true, h1, add_zero, zero_sub] at h0
      rw [← hJ, hleft] at h0
      simp only [Bool.false_eq_true, if_false]
      linarith
    | true =>
      obtain ⟨F, hF⟩ := hform fun k => if k = L.N then 1 else 0
      have h0 := hres _ (by
        intro q hd
        cases q
        · simp [Line.p1]; omega
        · exact absurd hd hq) F hF
      rw [line_node L r P bcs mat hm hdt ht hs hth hcov hno L.N le_rfl F hF] at h0
      have h1 : ¬ (L.N = 0) := by omega
      simp only [hN, lt_irrefl, if_false, if_true, h1, zero_add, sub_zero] at h0
      rw [← hJ, hconst (L.N - 1) (by omega), hright] at h0
      simp only [if_true]
      linarith

/-- **C62.** In particular without the Soret effect when the temperature and the material are uniform in
the cells at the ends, the reported values being those of the computed concentration. -/
theorem C62_steady_fluxes (L : Line Ω) (r : Fld Ω Bool 1) (P : Problem Ω Bool 1)
    (bcs : List (MobBC Bool)) (mat : Ω → Mat) (u : ℕ → ℝ) (hm : P.mesh = L.mesh r)
    (hdt : P.dt = none) (ht : P.traps = []) (hs : P.sources = []) (hth : P.mv.theta = false)
    (hsor : P.soret = false) (hu : P.mv.sol = L.p1 u)
    (hcov : Covers P.mesh P.mats mat) (hno : ∀ b vs, MobBC.sk b vs ∉ bcs) (dir : Bool → Prop)
    (hres : ∀ v : ℕ → ℝ, (∀ q, dir q → (L.p1 v).tr q = 0) →
      ∀ F, P.form bcs (L.p1 v) [] = .ok F → P.mesh.assemble F = 0)
    (e : PostEnv Ω Bool 1) (proj : Bool) (he : e.mesh = P.mesh) (hn : e.n = Line.normal)
    (hes : e.soret = false) (hg : ∀ q, e.solute.gradS q 0 = L.endSlope u q)
    (matS : Bool → Mat) (hp : PropertiesOf e P.mats matS)
    (hT : ∀ q p, L.cell p = L.endCell q → mat p = matS q ∧ P.T.T.val p = e.T.tr q) :
    ∃ x : Bool → ℝ, (hydrogenFlux L.left).value e proj = .ok (x false) ∧
      (hydrogenFlux L.right).value e proj = .ok (x true) ∧
      x false + x true = 0 ∧ ∀ q, ¬ dir q → x q = imposedAt P bcs q := by
  refine C62_steady_fluxes_general L r P bcs mat hm hdt ht hs hth hcov hno dir hres e proj he hn matS hp
    (by simp [hes]) ?_
  intro q p hc
  obtain ⟨h1, h2⟩ := hT q p hc
  have hN := L.N_pos
  simp only [gradFlux, physGrad, hsor, hes, Bool.false_eq_true, if_false, add_zero, h1, h2, hg, hu]
  congr 1
  simp only [Line.p1, hc, Line.endCell, Line.endSlope]
  cases q
  · simp
  · simp only [if_true]
    rw [Nat.sub_add_cancel hN]

end line

/-! ### Two cells of different materials, concentration 0 imposed on the left, flux 2 on the right -/

namespace LineCase

noncomputable def L : Line (Fin 2) where
  N := 2
  h _ := 1
  cell p := p.val
  lam _ := 1 / 2
  w _ := 1
  vm p := p.val + 1
  left := 1
  right := 2
  vmL := 1
  vmR := 2
  N_pos := by norm_num
  h_pos := by intros; norm_num
  cell_lt p := p.isLt
  exact := by
    intro i hi
    rw [Finset.sum_filter, Fin.sum_univ_two]
    interval_cases i <;> simp
  ends := by norm_num

noncomputable def A : Mat := { uid := 0, ids := [1], D_0 := 1, E_D := 0 }
noncomputable def B : Mat := { uid := 1, ids := [2], D_0 := 2, E_D := 0 }

def u (i : ℕ) : ℝ := if i = 0 then 0 else if i = 1 then 2 else 3

noncomputable def P : Problem (Fin 2) Bool 1 where
  mesh := L.mesh (Fld.const 1)
  mats := [A, B]
  mv := { theta := false, sol := L.p1 u, prev := Fld.const 0 }
  T := ⟨Fld.const 300, Fld.const 300⟩
  dt := none
  soret := false
  sources := []
  traps := []

def bcs : List (MobBC Bool) := [.flux (.value fun _ => 2) [2]]

noncomputable def mat (p : Fin 2) : Mat := if p = 0 then A else B

noncomputable def fun1 (u : ℕ → ℝ) : PostFun (Fin 2) Bool 1 where
  val := (L.p1 u).val
  tr := (L.p1 u).tr
  gradS q _ := L.endSlope u q
  cells := [(1, [u 0, u 1]), (2, [u 1, u 2])]
  pt _ := 0
  isFun := true

noncomputable def env : PostEnv (Fin 2) Bool 1 where
  mesh := P.mesh
  n := Line.normal
  D q := if q then 2 else 1
  cond := none
  Q := none
  T := fun1 fun _ => 300
  soret := false
  solute := fun1 u
  traps := []
  ids := []
  adsorbed := []

theorem residual (v : ℕ → ℝ) (h : ∀ q, q = false → (L.p1 v).tr q = 0) (F : Form (Fin 2) Bool)
    (hF : P.form bcs (L.p1 v) [] = .ok F) : P.mesh.assemble F = 0 := by
  have h0 : v 0 = 0 := by simpa [Line.p1] using h false rfl
  have : P.form bcs (L.p1 v) [] = .ok _ := rfl
  rw [this] at hF
  cases hF
  simp [P, L, Line.mesh, bcs, Mesh.assemble, Mesh.integrate, Form.neg,
    subdomainForm, Fld.const, dot, sourceForm, fluxesForm, MobBC.form, Flux.form, A, B, Line.p1, u,
    Fin.sum_univ_two, h0, Mobile.conc]
  ring

example : ∃ x : Bool → ℝ, (hydrogenFlux 1).value env false = .ok (x false) ∧
      (hydrogenFlux 2).value env false = .ok (x true) ∧
      x false + x true = 0 ∧ ∀ q, ¬ (q = false) → x q = imposedAt P bcs q :=
  C62_steady_fluxes L (Fld.const 1) P bcs mat u rfl rfl rfl rfl rfl rfl rfl
    ⟨by intro p; fin_cases p <;> simp [mat, P],
      by intro p; fin_cases p <;> simp [mat, P, L, Line.mesh, A, B],
      by simp [P, A, B]⟩
    (by simp [bcs]) (· = false) residual env false rfl rfl rfl (fun _ => rfl)
    (fun q => if q then B else A)
    ⟨by intro q; cases q <;> simp [env, P, L, Line.mesh, findMat, A, B],
      by intro q; cases q <;> simp [env, P, L, Line.mesh, arrheniusCoeff, findMat, A, B],
      by simp [env], by simp [env]⟩
    (by
      intro q p h
      cases q <;> fin_cases p <;> simp_all [L, Line.endCell, mat, P, env, fun1, Line.p1, Fld.const])

end LineCase

end Festim.Props
