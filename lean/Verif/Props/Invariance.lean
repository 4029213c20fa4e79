import Verif.Proofs.Invariance
import Verif.Proofs.Relabel
import Verif.Props.BalanceCases

/-!
# C106: the equations do not depend on how the problem is written

Units, order of the lists, numbering of volumes and surfaces, grouping of traps.
-/

open scoped BigOperators

set_option linter.unusedSimpArgs false
set_option linter.unusedSectionVars false

namespace Festim.Props

open Festim.Weak

section
variable {Ω Γ : Type} [Fintype Ω] [Fintype Γ] {d : ℕ}

/-- **C106 (a)** Writing a problem in other units of length, time and amount multiplies all residuals by the same number, so that
the solution in the new units is the old one converted; a problem which cannot be written fails in the same way.
Not so: SurfaceKinetics with conservation of the chemical potential (`C106_units_surface_kinetics`), and in steady state the
equation "no trapped hydrogen outside the materials of the trap", which scales differently (harmlessly, hence `hd`). -/
theorem C106_units (U : Scaling) (P : Problem Ω Γ d) (bcs : List (MobBC Γ)) (v : Fld Ω Γ d) (vt : List (Fld Ω Γ d))
    (hs : P.mv.theta = false ∨ ∀ b vs, MobBC.sk b vs ∉ bcs)
    (hd : P.dt = none → U.time = 1 ∨ ∀ t ∈ P.traps, ∀ a ∈ P.mats, a.uid ∈ t.materials.map (·.uid)) :
    (∀ e, P.form bcs v vt = .error e → (U.problem P).form (bcs.map U.bc) (U.test v) (vt.map U.test) = .error e) ∧
      ∀ r, Residual P bcs v vt r ↔
        Residual (U.problem P) (bcs.map U.bc) (U.test v) (vt.map U.test) (U.vol * (U.conc / U.time) * r) := by
  have h := Scaling.form_same U P bcs v vt hs hd
  have hk : U.vol * (U.conc / U.time) ≠ 0 := mul_ne_zero U.vol_pos.ne' (div_pos U.conc_pos U.time_pos).ne'
  cases h1 : P.form bcs v vt with
  | error e =>
    cases h2 : (U.problem P).form (bcs.map U.bc) (U.test v) (vt.map U.test) with
    | error e' =>
      rw [h1, h2] at h
      refine ⟨fun e0 h0 => (by rw [show e' = e from h]; exact h0), fun r => ?_⟩
      constructor
      · rintro ⟨F, hF, _⟩; rw [h1] at hF; cases hF
      · rintro ⟨F, hF, _⟩; rw [h2] at hF; cases hF
    | ok F' => rw [h1, h2] at h; exact h.elim
  | ok F =>
    cases h2 : (U.problem P).form (bcs.map U.bc) (U.test v) (vt.map U.test) with
    | error e' => rw [h1, h2] at h; exact h.elim
    | ok F' =>
      rw [h1, h2] at h
      have ha : (U.problem P).mesh.assemble F' = U.vol * (U.conc / U.time) * P.mesh.assemble F :=
        Scaling.same_assemble U P.mesh _ h
      refine ⟨fun e0 h0 => (by cases h0), fun r => ?_⟩
      constructor
      · rintro ⟨F0, hF, rfl⟩
        rw [h1] at hF; cases hF
        exact ⟨F', h2, ha⟩
      · rintro ⟨F0, hF, hr⟩
        rw [h2] at hF; cases hF
        rw [ha] at hr
        exact ⟨F, h1, mul_left_cancel₀ hk hr⟩

/-- The step is solved in the new units if and only if it is in the old ones. -/
theorem C106_units_solved (U : Scaling) (P : Problem Ω Γ d) (bcs : List (MobBC Γ)) (v : Fld Ω Γ d) (vt : List (Fld Ω Γ d))
    (hs : P.mv.theta = false ∨ ∀ b vs, MobBC.sk b vs ∉ bcs)
    (hd : P.dt = none → U.time = 1 ∨ ∀ t ∈ P.traps, ∀ a ∈ P.mats, a.uid ∈ t.materials.map (·.uid)) :
    Residual P bcs v vt 0 ↔ Residual (U.problem P) (bcs.map U.bc) (U.test v) (vt.map U.test) 0 := by
  have := (C106_units U P bcs v vt hs hd).2 0
  rwa [mul_zero] at this

/-- **C106 (b)** The heat equation: conductivities, heat capacities, sources and fluxes converted, `conc` being the factor of an
energy per unit of volume. -/
theorem C106_heat_units (U : Scaling) (m : Mesh Ω Γ d) (mats : List Mat) (T : Temp Ω Γ d) (tr : Option ℝ)
    (sources : List ((Ω → ℝ) × List ℕ)) (bcs : List (Flux Γ × List ℕ)) (v : Fld Ω Γ d) :
    (U.mesh m).assemble (heatForm (U.mesh m) (mats.map U.heatMat) (U.temp T) (tr.map (U.time * ·))
        (sources.map fun s => (fun p => U.conc / U.time * s.1 p, s.2)) (bcs.map fun b => (U.flux b.1, b.2)) (U.test v))
      = U.vol * (U.conc / U.time) * m.assemble (heatForm m mats T tr sources bcs v) :=
  Scaling.same_assemble U m _ (Scaling.heat_same U m mats T tr sources bcs v)

/-- **C106 (c)** The order of the materials, sources, boundary conditions and traps does not matter. -/
theorem C106_order (P : Problem Ω Γ d) (bcs bcs' : List (MobBC Γ)) (v : Fld Ω Γ d) (mats' : List Mat) (sources' : List (Src Ω))
    (traps traps' : List (Trap Ω Γ d × Fld Ω Γ d)) (hm : P.mats.Perm mats') (hsrc : P.sources.Perm sources')
    (hb : bcs.Perm bcs') (ht : traps.Perm traps') (r : ℝ) :
    Residual { P with traps := traps.map (·.1) } bcs v (traps.map (·.2)) r ↔
      Residual { P with mats := mats', sources := sources', traps := traps'.map (·.1) } bcs' v (traps'.map (·.2)) r := by
  have hz : ∀ l : List (Trap Ω Γ d × Fld Ω Γ d), (l.map (·.1)).zip (l.map (·.2)) = l := by
    intro l
    induction l with
    | nil => rfl
    | cons a l ih => rw [List.map_cons, List.map_cons, List.zip_cons_cons, ih]
  have e1 : P.mesh.assemble (bulkForm { P with traps := traps.map (·.1) } v) =
      P.mesh.assemble (bulkForm { P with mats := mats', sources := sources', traps := traps'.map (·.1) } v) :=
    perm_assemble P.mesh (hm.flatMap_right _)
  have e2 : P.mesh.assemble (sourceForm P.mesh P.mats P.mv P.sources v) =
      P.mesh.assemble (sourceForm P.mesh mats' P.mv sources' v) := by
    unfold sourceForm
    rw [perm_mobileConc P.mesh hm]
    exact perm_assemble P.mesh (hsrc.flatMap_right _)
  have e3 : P.mesh.assemble (fluxesForm P.mesh P.mats P.mv P.T P.dt bcs v) =
      P.mesh.assemble (fluxesForm P.mesh mats' P.mv P.T P.dt bcs' v) := by
    have : MobBC.form P.mesh P.mats P.mv P.T P.dt v = MobBC.form P.mesh mats' P.mv P.T P.dt v := by
      funext b
      cases b with
      | flux f ss => simp only [MobBC.form, perm_mobileConcS P.mesh hm]
      | sk b vs => simp only [MobBC.form, perm_mobileConcS P.mesh hm]
    unfold fluxesForm
    rw [this]
    exact perm_assemble P.mesh (hb.flatMap_right _)
  simp only [residual_iff, hz, e1, e2, e3]
  refine exists_congr fun a => exists_congr fun b => ?_
  rw [perm_mobileTraps P.mesh P.mv P.T v (ht.map _), perm_trapsForm P.mesh P.mats P.mv P.T P.dt ht,
    perm_mats_trapsForm P.mesh hm]

/-- **C106 (d)** Volumes and surfaces can be renumbered or cut in pieces carrying the same material, sources and fluxes. -/
theorem C106_numbering (R : Relabelling) (P : Problem Ω Γ d) (m' : Mesh Ω Γ d) (h : R.Marks P.mesh m') (bcs : List (MobBC Γ))
    (v : Fld Ω Γ d) (vt : List (Fld Ω Γ d))
    (hs : ∀ b vs, MobBC.sk b vs ∈ bcs → ∀ s ∈ b.surfaces, (R.surf s.id).length = 1) :
    (∀ e, P.form bcs v vt = .error e → (R.problem P m').form (bcs.map R.bc) v vt = .error e) ∧
      ∀ r, Residual P bcs v vt r ↔ Residual (R.problem P m') (bcs.map R.bc) v vt r := by
  rcases relabel_form P m' R h bcs v vt hs with ⟨e, h1, h2⟩ | ⟨F, F', h1, h2, ha⟩
  · refine ⟨fun e0 h0 => (by rw [h2, ← h0, h1]), fun r => ?_⟩
    constructor
    · rintro ⟨F, hF, _⟩; rw [h1] at hF; cases hF
    · rintro ⟨F, hF, _⟩; rw [h2] at hF; cases hF
  · refine ⟨fun e0 h0 => (by rw [h1] at h0; cases h0), fun r => ?_⟩
    constructor
    · rintro ⟨F0, hF, rfl⟩
      rw [h1] at hF; cases hF
      exact ⟨F', h2, ha⟩
    · rintro ⟨F0, hF, rfl⟩
      rw [h2] at hF; cases hF
      exact ⟨F, h1, ha.symm⟩

/-- **C106 (e)** Two traps with the same kinetics act as one with the sum of their densities, whose content is the sum of theirs. -/
theorem C106_traps_together (P : Problem Ω Γ d) (bcs : List (MobBC Γ)) (v w : Fld Ω Γ d) (t t' : Trap Ω Γ d)
    (l : List (Trap Ω Γ d)) (vt : List (Fld Ω Γ d)) (h : SameKinetics t t') (r : ℝ) :
    Residual { P with traps := t :: t' :: l } bcs v (w :: w :: vt) r ↔
      Residual { P with traps := t.together t' :: l } bcs v (w :: vt) r := by
  have key : ∀ u : Fld Ω Γ d, Group t t' (t.together t') u u u := fun u =>
    { k1 := rfl, k2 := h.k_0, e1 := rfl, e2 := h.E_k, p1 := rfl, p2 := h.p_0, f1 := rfl, f2 := h.E_p, m1 := rfl,
      m2 := h.materials, s1 := h.sources, s2 := h.sources', s := h.sources
      l1 := by simp [Trap.together, h.density]
      l2 := by simp [Trap.together, h.density]
      density := by
        intro i n1 n2 n h1 h2 h3 p
        simp only [Trap.together, List.getElem?_zipWith, h1, h2, Option.some.injEq] at h3
        rw [← h3]; ring
      sol := fun p => by
        show (t.sol.val p + t'.sol.val p) * _ = _
        ring
      prev := fun p => by
        show (t.prev.val p + t'.prev.val p) * _ = _
        ring }
  exact group_residual P bcs v t t' (t.together t') w w w l vt (key v) (key w) r

/-- **C106 (f)** Conversely a trap can be shared between two in the proportions `a` and `1 - a`, its content with it. -/
theorem C106_trap_shared (P : Problem Ω Γ d) (bcs : List (MobBC Γ)) (v w w' : Fld Ω Γ d) (t : Trap Ω Γ d) (a : ℝ)
    (l : List (Trap Ω Γ d)) (vt : List (Fld Ω Γ d)) (hs : t.sources = []) (r : ℝ) :
    Residual { P with traps := t.fraction a :: t.fraction (1 - a) :: l } bcs v (w :: w' :: vt) r ↔
      Residual { P with traps := t :: l } bcs v ((Fld.const a * w + Fld.const (1 - a) * w') :: vt) r := by
  have key : ∀ u u' z : Fld Ω Γ d, (∀ p, z.val p = a * u.val p + (1 - a) * u'.val p) →
      Group (t.fraction a) (t.fraction (1 - a)) t u u' z := fun u u' z hz =>
    { k1 := rfl, k2 := rfl, e1 := rfl, e2 := rfl, p1 := rfl, p2 := rfl, f1 := rfl, f2 := rfl, m1 := rfl, m2 := rfl
      s1 := hs, s2 := hs, s := hs
      l1 := by simp [Trap.fraction]
      l2 := by simp [Trap.fraction]
      density := by
        intro i n1 n2 n h1 h2 h3 p
        simp only [Trap.fraction, List.getElem?_map, h3, Option.map_some, Option.some.injEq] at h1 h2
        rw [← h1, ← h2, hz]; ring
      sol := fun p => by
        show _ = a * t.sol.val p * _ + (1 - a) * t.sol.val p * _
        rw [hz]; ring
      prev := fun p => by
        show _ = a * t.prev.val p * _ + (1 - a) * t.prev.val p * _
        rw [hz]; ring }
  exact group_residual P bcs v _ _ t w w' _ l vt (key v v v fun p => by ring) (key w w' _ fun p => rfl) r

/-- **C106 (g)** An empty trap changes nothing. -/
theorem C106_empty_trap (P : Problem Ω Γ d) (bcs : List (MobBC Γ)) (v w : Fld Ω Γ d) (t : Trap Ω Γ d)
    (l : List (Trap Ω Γ d)) (vt : List (Fld Ω Γ d)) (h : EmptyTrap t)
    (hok : ∃ F F', mobileTrapLoop P.mv P.T t v 0 t.materials = .ok F ∧ trapForm P.mats P.mv P.T P.dt t w = .ok F') (r : ℝ) :
    Residual { P with traps := t :: l } bcs v (w :: vt) r ↔ Residual { P with traps := l } bcs v vt r := by
  have key : ∀ u : Fld Ω Γ d, Group t t t u u u := fun u =>
    { k1 := rfl, k2 := rfl, e1 := rfl, e2 := rfl, p1 := rfl, p2 := rfl, f1 := rfl, f2 := rfl, m1 := rfl, m2 := rfl
      s1 := h.sources, s2 := h.sources, s := h.sources, l1 := rfl, l2 := rfl
      density := by
        intro i n1 n2 n h1 h2 h3 p
        rw [h1] at h2 h3
        cases h2; cases h3
        rw [h.density n1 (List.mem_of_getElem? h1)]; ring
      sol := fun p => by rw [h.sol]; ring
      prev := fun p => by rw [h.prev]; ring }
  obtain ⟨F, F', hF, hF'⟩ := hok
  have e0 : P.mesh.assemble F = 0 := by
    have := (sums_val P.mesh (group_mobileTrapLoop P.mesh P.mv P.T (key v) t.materials 0) _).1 ⟨F, hF, rfl⟩
    obtain ⟨a, b, ⟨F1, h1, rfl⟩, ⟨F2, h2, rfl⟩, h3⟩ := this
    rw [hF] at h1 h2
    cases h1; cases h2
    linarith
  have e1 : P.mesh.assemble F' = 0 := by
    have := (group_trapForm P.mesh P.mats P.mv P.T P.dt (key w) _).1 ⟨F', hF', rfl⟩
    obtain ⟨a, b, ⟨F1, h1, rfl⟩, ⟨F2, h2, rfl⟩, h3⟩ := this
    rw [hF'] at h1 h2
    cases h1; cases h2
    linarith
  simp only [residual_iff, List.zip_cons_cons, val_mobileTraps_cons, val_trapsForm_cons]
  constructor
  · rintro ⟨_, _, ⟨a, b, ⟨F1, h1, rfl⟩, hb, rfl⟩, ⟨a', b', ⟨F2, h2, rfl⟩, hb', rfl⟩, rfl⟩
    rw [hF] at h1; cases h1
    rw [hF'] at h2; cases h2
    exact ⟨b, b', hb, hb', by rw [e0, e1, zero_add, zero_add]; rfl⟩
  · rintro ⟨b, b', hb, hb', rfl⟩
    exact ⟨_, _, ⟨_, b, ⟨F, hF, rfl⟩, hb, rfl⟩, ⟨_, b', ⟨F', hF', rfl⟩, hb', rfl⟩, by rw [e0, e1, zero_add, zero_add]; rfl⟩

end

namespace Case

/-- Millimetres, minutes and H/mm³ instead of metres, seconds and H/m³, in one dimension. -/
noncomputable def mm : Scaling := ⟨1000, 1 / 60, 1 / 10 ^ 9, 1000, by norm_num, by norm_num, by norm_num, by norm_num⟩

/-- The layer of `BalanceCases`, with conservation of the chemical potential: solved. -/
theorem layered_solved : Residual layered [.sk skL [1]] (weight layered.mesh) [] 0 := by
  refine ⟨_, rfl, ?_⟩
  rw [weak_form_general layered [.sk skL [1]] (fun _ => matS) (fun _ => matS) 1 _ _ rfl
    layered_covers layered_solubility (by simp [layered, meshOf]) layered_tests rfl]
  simp [stock, stockPrev, supply, layered, volume, Problem.c, Problem.cPrev, Problem.cS, physConc,
    matS, arr, meshOf, gradFlux, physGrad, dot, bcStock, bcInflow, skL, surface, weight,
    Finset.sum_filter, card0, card1]
  norm_num

/-- Twice as small a unit of amount. -/
noncomputable def twice : Scaling := ⟨1, 1, 2, 1, by norm_num, by norm_num, by norm_num, by norm_num⟩

theorem layered_twice : Residual (twice.problem layered) ([.sk skL [1]].map twice.bc) (twice.test (weight layered.mesh)) [] 1 := by
  refine ⟨_, rfl, ?_⟩
  simp [Scaling.problem, Scaling.bc, Scaling.sk, Scaling.mesh, Scaling.mat, Scaling.mobile, Scaling.temp, Scaling.test, Scaling.fld,
    twice, layered, skL, matS, meshOf, weight, mobileForm, Mesh.assemble, Mesh.integrate, Form.neg, diffusionForm, subdomainForm,
    Fld.const, dot, sourceForm, fluxesForm, MobBC.form, Src.at, Mobile.conc, arrhenius, Fld.exp, SK.form, SK.surfForm, SK.Jbs,
    SK.Jsb, Mobile.mobileConcS, lawMarker]
  norm_num

end Case

/-- **C106 (a), exception** With conservation of the chemical potential the condition SurfaceKinetics subtracts `c/S` at the
previous time from the present concentration: whether a step is solved depends on the units. -/
theorem C106_units_surface_kinetics : ∃ (P : Problem (Fin 2) (Fin 2) 1) (bcs : List (MobBC (Fin 2))) (v : Fld (Fin 2) (Fin 2) 1)
    (U : Scaling), Residual P bcs v [] 0 ∧ ∃ r, r ≠ 0 ∧ Residual (U.problem P) (bcs.map U.bc) (U.test v) [] r :=
  ⟨Case.layered, [.sk Case.skL [1]], weight Case.layered.mesh, Case.twice, Case.layered_solved, 1, one_ne_zero, Case.layered_twice⟩

namespace Case

theorem sk_solved : Residual (probOf .cartesian 5) [.sk sk [1]] (Fld.const 1) [Fld.const 1] 0 := by
  refine ⟨_, rfl, ?_⟩
  simp [probOf, meshOf, mat, trap, sk, weight, mobileForm, Mesh.assemble, Mesh.integrate, Form.neg,
    diffusionForm, subdomainForm, Fld.const, dot, sourceForm, fluxesForm, MobBC.form, Flux.form,
    Src.at, Mobile.conc, trapSourceForm, SK.form, SK.surfForm, SK.Jbs, SK.Jsb, Mobile.mobileConcS]
  norm_num

/-- C106 (a): a step with a trap, a source and surface kinetics, solved in metres and in millimetres. -/
example : Residual (mm.problem (probOf .cartesian 5)) ([.sk sk [1]].map mm.bc) (mm.test (Fld.const 1)) [mm.test (Fld.const 1)] 0 :=
  (C106_units_solved mm (probOf .cartesian 5) [.sk sk [1]] (Fld.const 1) [Fld.const 1] (.inl rfl)
    (fun h => by simp [probOf] at h)).1 sk_solved

/-- In these units the trapping rate is 60·10⁻⁹·… times larger, the diffusivity 10⁶·60 times. -/
example : (mm.mat mat).D_0 = 60000000 ∧ (mm.trap trap).p_0 = .num 240 ∧ (mm.trap trap).k_0 = .num 60000000000 := by
  refine ⟨?_, ?_, ?_⟩ <;> simp [Scaling.mat, Scaling.trap, Scaling.param, mm, mat, trap] <;> norm_num

/-- C106 (a): a source twice too large, residual -5 in metres and `-5·mm` in millimetres. -/
example : Residual (mm.problem (probOf .cartesian 10)) ([.sk sk [1]].map mm.bc) (mm.test (Fld.const 1)) [mm.test (Fld.const 1)]
    (1000 * (1 / 10 ^ 9 / (1 / 60)) * -5) := by
  refine ((C106_units mm (probOf .cartesian 10) [.sk sk [1]] (Fld.const 1) [Fld.const 1] (.inl rfl)
    (fun h => by simp [probOf] at h)).2 (-5)).1 ⟨_, rfl, ?_⟩
  simp [probOf, meshOf, mat, trap, sk, weight, mobileForm, Mesh.assemble, Mesh.integrate, Form.neg,
    diffusionForm, subdomainForm, Fld.const, dot, sourceForm, fluxesForm, MobBC.form, Flux.form,
    Src.at, Mobile.conc, trapSourceForm, SK.form, SK.surfForm, SK.Jbs, SK.Jsb, Mobile.mobileConcS]
  norm_num

/-- C106 (b): conductivity 10⁶ times, flux 10³ times larger per unit of energy density. -/
example (v : Fld (Fin 2) (Fin 2) 1) :
    (mm.mesh (meshOf .spherical)).assemble (heatForm (mm.mesh (meshOf .spherical)) ([{ mat with cond := fun T => T }].map mm.heatMat)
        (mm.temp ⟨⟨![300, 400], fun _ _ => 100, ![300, 400]⟩, Fld.const 300⟩) (some (1 / 60 * 2))
        [] ([(.convective (fun _ => 3) fun _ => 350, [1])].map fun b => (mm.flux b.1, b.2)) (mm.test v))
      = 1000 * (1 / 10 ^ 9 / (1 / 60)) * (meshOf .spherical).assemble (heatForm (meshOf .spherical) [{ mat with cond := fun T => T }]
        ⟨⟨![300, 400], fun _ _ => 100, ![300, 400]⟩, Fld.const 300⟩ (some 2) [] [(.convective (fun _ => 3) fun _ => 350, [1])] v) :=
  C106_heat_units mm (meshOf .spherical) [{ mat with cond := fun T => T }] _ (some 2) [] [(.convective (fun _ => 3) fun _ => 350, [1])] v

/-- Two materials, a second trap. -/
def left : Mat := { uid := 1, ids := [1], D_0 := 1, E_D := 0 }
def right : Mat := { uid := 2, ids := [2], D_0 := 3, E_D := 0 }
def trapL (n s : ℝ) : Trap (Fin 2) (Fin 2) 1 := { trap with materials := [left], density := [fun _ => n], sol := Fld.const s }
noncomputable def two : Problem (Fin 2) (Fin 2) 1 := { probOf .cartesian 2 with mats := [left, right] }

/-- C106 (c): materials, fluxes and traps in the other order. -/
example (v w w' : Fld (Fin 2) (Fin 2) 1) (r : ℝ) :
    Residual { two with traps := [trap, trapL 2 1] } bcs v [w, w'] r ↔
      Residual { two with mats := [right, left], traps := [trapL 2 1, trap] } bcs.reverse v [w', w] r :=
  C106_order two bcs bcs.reverse v [right, left] two.sources [(trap, w), (trapL 2 1, w')] [(trapL 2 1, w'), (trap, w)]
    (List.Perm.swap _ _ _) (List.Perm.refl _) bcs.reverse_perm.symm (List.Perm.swap _ _ _) r

/-- Volumes 1 and 2 become 7 and {5, 6}; surfaces 1 and 2 become 2 and 1. -/
def renum : Relabelling where
  vol := fun i => if i = 1 then [7] else if i = 2 then [5, 6] else []
  surf := fun s => if s = 1 then [2] else if s = 2 then [1] else []

noncomputable def meshR : Mesh (Fin 2) (Fin 2) 1 :=
  { meshOf .cartesian with vm := ![7, 6], vmS := ![7, 5], sm := ![2, 1] }

theorem renum_marks : renum.Marks (meshOf .cartesian) meshR where
  w := rfl
  ws := rfl
  r := rfl
  type := rfl
  vol_nodup := by intro i; unfold renum; dsimp only; split_ifs <;> decide
  surf_nodup := by intro i; unfold renum; dsimp only; split_ifs <;> decide
  vm := by intro p i; fin_cases p <;> simp only [renum, meshR, meshOf] <;> split_ifs <;> simp_all <;> omega
  vmS := by intro p i; fin_cases p <;> simp only [renum, meshR, meshOf] <;> split_ifs <;> simp_all <;> omega
  sm := by intro p i; fin_cases p <;> simp only [renum, meshR, meshOf] <;> split_ifs <;> simp_all <;> omega

/-- C106 (d). -/
example : Residual (renum.problem (probOf .cartesian 5) meshR) ([.sk sk [1]].map renum.bc) (Fld.const 1) [Fld.const 1] 0 :=
  ((C106_numbering renum (probOf .cartesian 5) meshR renum_marks [.sk sk [1]] (Fld.const 1) [Fld.const 1]
    (by intro b vs h s hs
        simp only [List.mem_singleton, MobBC.sk.injEq] at h
        obtain ⟨rfl, rfl⟩ := h
        simp only [sk, List.mem_singleton] at hs
        subst hs
        rfl)).2 0).1 sk_solved

example : (renum.mat mat).ids = [7, 5, 6] := rfl

/-- C106 (e): densities 2 and 1, contents 1 and 1/2. -/
example (v w : Fld (Fin 2) (Fin 2) 1) (r : ℝ) :
    Residual { two with traps := [trapL 2 1, trapL 1 (1 / 2)] } bcs v [w, w] r ↔
      Residual { two with traps := [(trapL 2 1).together (trapL 1 (1 / 2))] } bcs v [w] r :=
  C106_traps_together two bcs v w (trapL 2 1) (trapL 1 (1 / 2)) [] [] ⟨rfl, rfl, rfl, rfl, rfl, rfl, rfl, rfl⟩ r

example : ((trapL 2 1).together (trapL 1 (1 / 2))).sol.val 0 = 3 / 2 := by
  show (1 : ℝ) + 1 / 2 = _
  norm_num

/-- C106 (f): a third and two thirds. -/
example : Residual { probOf .cartesian 5 with traps := [trap.fraction (1 / 3), trap.fraction (1 - 1 / 3)] } [.sk sk [1]]
    (Fld.const 1) [Fld.const 1, Fld.const 1] 0 := by
  refine (C106_trap_shared (probOf .cartesian 5) [.sk sk [1]] (Fld.const 1) (Fld.const 1) (Fld.const 1) trap (1 / 3) [] [] rfl 0).2 ?_
  rw [show (Fld.const (1 / 3) * Fld.const 1 + Fld.const (1 - 1 / 3) * Fld.const 1 : Fld (Fin 2) (Fin 2) 1) = Fld.const 1 by
    ext
    · show (1 / 3 : ℝ) * 1 + (1 - 1 / 3) * 1 = 1
      norm_num
    · show ((0 : ℝ) * 1 + 1 / 3 * 0) + (0 * 1 + (1 - 1 / 3) * 0) = 0
      norm_num
    · show (1 / 3 : ℝ) * 1 + (1 - 1 / 3) * 1 = 1
      norm_num]
  exact sk_solved

/-- C106 (g). -/
example (w : Fld (Fin 2) (Fin 2) 1) :
    Residual { probOf .cartesian 5 with traps := [trapL 0 0, trap] } [.sk sk [1]] (Fld.const 1) [w, Fld.const 1] 0 :=
  (C106_empty_trap (probOf .cartesian 5) [.sk sk [1]] (Fld.const 1) w (trapL 0 0) [trap] [Fld.const 1]
    ⟨by intro n hn p; simp only [trapL, List.mem_singleton] at hn; rw [hn], fun _ => rfl, fun _ => rfl, rfl⟩
    ⟨_, _, rfl, rfl⟩ 0).2 sk_solved

end Case

end Festim.Props
