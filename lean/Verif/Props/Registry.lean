import Verif.Model.Registry
import Verif.Props.Temperature

/-!
# C57: the forms are evaluated with all their data at the current time
-/

set_option linter.unusedSectionVars false

namespace Festim.Weak

section
variable {Ω Γ : Type} {d : ℕ}

theorem TVal.now_congr {A : Type} (x : TVal A) (env env' : ℕ → ℚ)
    (h : ∀ i ∈ x.ids, env i = env' i) : x.now env = x.now env' := by
  cases x with
  | expr id f => simp only [TVal.now]; rw [h id (by simp [TVal.ids])]
  | fixed a => rfl

theorem TVal.map_now_congr {A : Type} (l : List (TVal A)) (env env' : ℕ → ℚ)
    (h : ∀ i ∈ l.flatMap TVal.ids, env i = env' i) :
    l.map (·.now env) = l.map (·.now env') := by
  refine List.map_congr_left fun x hx => x.now_congr env env' fun i hi => h i ?_
  exact List.mem_flatMap.2 ⟨x, hx, hi⟩

theorem TFlux.now_congr (x : TFlux Γ) (env env' : ℕ → ℚ)
    (h : ∀ i ∈ x.subs, env i = env' i) : x.now env = x.now env' := by
  cases x with
  | value f => simp only [TFlux.now]; rw [f.now_congr env env' h]
  | recomb K E o =>
    simp only [TFlux.subs, List.mem_append] at h
    simp only [TFlux.now]
    rw [K.now_congr env env' fun i hi => h i (.inl hi), E.now_congr env env' fun i hi => h i (.inr hi)]
  | dissoc K E P =>
    simp only [TFlux.subs, List.mem_append] at h
    simp only [TFlux.now]
    rw [K.now_congr env env' fun i hi => h i (.inl (.inl hi)),
      E.now_congr env env' fun i hi => h i (.inl (.inr hi)),
      P.now_congr env env' fun i hi => h i (.inr hi)]
  | mass a b =>
    simp only [TFlux.subs, List.mem_append] at h
    simp only [TFlux.now]
    rw [a.now_congr env env' fun i hi => h i (.inl hi), b.now_congr env env' fun i hi => h i (.inr hi)]
  | convective a b =>
    simp only [TFlux.subs, List.mem_append] at h
    simp only [TFlux.now]
    rw [a.now_congr env env' fun i hi => h i (.inl hi), b.now_congr env env' fun i hi => h i (.inr hi)]
  | custom prms f =>
    simp only [TFlux.now]
    rw [TVal.map_now_congr prms env env' h]

theorem TMobBC.now_congr (x : TMobBC Γ) (env env' : ℕ → ℚ)
    (h : ∀ i ∈ x.subs, env i = env' i) : x.now env = x.now env' := by
  cases x with
  | flux f s => simp only [TMobBC.now]; rw [f.now_congr env env' h]
  | sk b vs =>
    simp only [TMobBC.now, TSK.now]
    rw [TVal.map_now_congr b.prms env env' h]

theorem TDirichlet.now_congr (x : TDirichlet Γ) (env env' : ℕ → ℚ)
    (h : ∀ i ∈ x.subs, env i = env' i) : x.now env = x.now env' := by
  cases x with
  | value f => simp only [TDirichlet.now]; rw [f.now_congr env env' h]
  | custom prms f => simp only [TDirichlet.now]; rw [TVal.map_now_congr prms env env' h]
  | sieverts S E p => simp only [TDirichlet.now]; rw [p.now_congr env env' h]
  | henrys S E p => simp only [TDirichlet.now]; rw [p.now_congr env env' h]
  | implantation phi R D E Kr EKr Kd EKd P =>
    simp only [TDirichlet.subs, List.mem_append] at h
    simp only [TDirichlet.now]
    rw [phi.now_congr env env' fun i hi => h i (.inl (.inl hi)),
      R.now_congr env env' fun i hi => h i (.inl (.inr hi))]
    cases P with
    | none => rfl
    | some P =>
      simp only [Option.map_some]
      rw [P.now_congr env env' fun i hi => h i (.inr hi)]

theorem TSrc.now_congr (x : TSrc Ω) (env env' : ℕ → ℚ)
    (h : ∀ i ∈ x.subs, env i = env' i) : x.now env = x.now env' := by
  obtain ⟨v, vol⟩ := x
  cases v with
  | given f => simp only [TSrc.now]; rw [f.now_congr env env' h]
  | decay lam => rfl

/-- Two traps that differ only by densities which are not chosen for any material. -/
structure SameUsed (t t' : Trap Ω Γ d) : Prop where
  mats : t.materials = t'.materials
  sol : t.sol = t'.sol
  prev : t.prev = t'.prev
  sources : t.sources = t'.sources
  params : ∀ i < t.materials.length, t.params i = t'.params i
  paramsMobile : ∀ i < t.materials.length, t.paramsMobile i = t'.paramsMobile i

theorem mobileTrapLoop_congr (mv : Mobile Ω Γ d) (T : Temp Ω Γ d) (t t' : Trap Ω Γ d)
    (v : Fld Ω Γ d) (hs : t.sol = t'.sol) (l : List Mat) (i : ℕ)
    (h : ∀ j, i ≤ j → j < i + l.length → t.paramsMobile j = t'.paramsMobile j) :
    mobileTrapLoop mv T t v i l = mobileTrapLoop mv T t' v i l := by
  induction l generalizing i with
  | nil => rfl
  | cons m l ih =>
    rw [mobileTrapLoop, mobileTrapLoop, h i le_rfl (by simp), hs,
      ih (i + 1) fun j h1 h2 => h j (by omega) (by simp only [List.length_cons]; omega)]

theorem trapLoop_congr (mv : Mobile Ω Γ d) (T : Temp Ω Γ d) (t t' : Trap Ω Γ d)
    (v : Fld Ω Γ d) (hs : t.sol = t'.sol) (l : List Mat) (i : ℕ)
    (h : ∀ j, i ≤ j → j < i + l.length → t.params j = t'.params j) :
    trapLoop mv T t v i l = trapLoop mv T t' v i l := by
  induction l generalizing i with
  | nil => rfl
  | cons m l ih =>
    rw [trapLoop, trapLoop, h i le_rfl (by simp), hs,
      ih (i + 1) fun j h1 h2 => h j (by omega) (by simp only [List.length_cons]; omega)]

theorem mobileTraps_congr (mv : Mobile Ω Γ d) (T : Temp Ω Γ d) (v : Fld Ω Γ d)
    (l l' : List (Trap Ω Γ d)) (h : List.Forall₂ SameUsed l l') :
    mobileTraps mv T v l = mobileTraps mv T v l' := by
  induction h with
  | nil => rfl
  | @cons t t' l l' h _ ih =>
    rw [mobileTraps, mobileTraps, ih, ← h.mats,
      mobileTrapLoop_congr mv T t t' v h.sol t.materials 0 fun j _ hj => h.paramsMobile j (by simpa using hj)]

theorem trapForm_congr (mats : List Mat) (mv : Mobile Ω Γ d) (T : Temp Ω Γ d) (dt : Option ℝ)
    (t t' : Trap Ω Γ d) (v : Fld Ω Γ d) (h : SameUsed t t') :
    trapForm mats mv T dt t v = trapForm mats mv T dt t' v := by
  unfold trapForm trappingForm trapSourceForm
  rw [← h.mats, trapLoop_congr mv T t t' v h.sol t.materials 0 fun j _ hj => h.params j (by simpa using hj),
    h.sol, h.prev, h.sources]

theorem trapsForm_congr (mats : List Mat) (mv : Mobile Ω Γ d) (T : Temp Ω Γ d) (dt : Option ℝ)
    (l l' : List (Trap Ω Γ d)) (vt : List (Fld Ω Γ d)) (h : List.Forall₂ SameUsed l l') :
    trapsForm mats mv T dt (l.zip vt) = trapsForm mats mv T dt (l'.zip vt) := by
  induction h generalizing vt with
  | nil => rfl
  | @cons t t' l l' h _ ih =>
    cases vt with
    | nil => rfl
    | cons v vt =>
      rw [List.zip_cons_cons, List.zip_cons_cons, trapsForm, trapsForm, ih]
      simp only
      rw [trapForm_congr mats mv T dt t t' v h]

theorem TTrap.now_sameUsed (t : TTrap Ω Γ d) (env env' : ℕ → ℚ)
    (h : ∀ i ∈ t.subs, env i = env' i) : SameUsed (t.now env) (t.now env') := by
  have hd : ∀ i < t.materials.length,
      densityAt (t.density.map (·.now env)) (t.densityIndex i) =
        densityAt (t.density.map (·.now env')) (t.densityIndex i) := by
    intro i hi
    unfold densityAt
    rw [List.getElem?_map, List.getElem?_map]
    cases hn : t.density[t.densityIndex i]? with
    | none => rfl
    | some n =>
      simp only [Option.map_some]
      rw [n.now_congr env env' fun j hj => h j ?_]
      unfold TTrap.subs
      refine List.mem_append.2 (.inl (List.mem_flatMap.2 ⟨i, List.mem_range.2 hi, ?_⟩))
      rw [hn]
      exact hj
  refine ⟨rfl, rfl, rfl, ?_, ?_, ?_⟩
  · show t.sources.map _ = t.sources.map _
    refine List.map_congr_left fun x hx => x.now_congr env env' fun i hi => h i ?_
    exact List.mem_append.2 (.inr (List.mem_flatMap.2 ⟨x, hx, hi⟩))
  · intro i hi
    have := hd i hi
    unfold TTrap.densityIndex at this
    unfold Trap.params TTrap.now
    cases hk : t.k_0 with
    | num x => rw [hk] at this; simp only at this ⊢; rw [this]
    | list l => rw [hk] at this; simp only at this ⊢; rw [this]
  · intro i hi
    have := hd i hi
    unfold TTrap.densityIndex at this
    unfold Trap.paramsMobile TTrap.now
    cases hk : t.k_0 with
    | num x => rw [hk] at this; simp only at this ⊢; rw [this]
    | list l => rw [hk] at this; simp only at this ⊢; rw [this]

end

end Festim.Weak

namespace Festim.Props

open Festim.Weak

section
variable {Ω Γ : Type} {d : ℕ}

/-- **C57.** The list of expressions of the hydrogen transport problem is complete: once they are
updated to `t`, the residual (for all test functions) and all the imposed values are those in which
every source, trap density, flux parameter and boundary value is taken at `t`. -/
theorem C57_registry_complete (P : TProblem Ω Γ d) (t : ℚ) (env : ℕ → ℚ) :
    (∀ v vt, P.form (updateExpressions P.expressions t env) v vt = P.form (fun _ => t) v vt) ∧
    P.dirichlet.map (·.now (updateExpressions P.expressions t env)) =
      P.dirichlet.map (·.now fun _ => t) := by
  have hall : ∀ i ∈ P.expressions, updateExpressions P.expressions t env i = t := fun i hi => by
    rw [updateExpressions_apply, if_pos hi]
  generalize updateExpressions P.expressions t env = env' at hall ⊢
  unfold TProblem.expressions at hall
  simp only [List.mem_append] at hall
  refine ⟨fun v vt => ?_, ?_⟩
  · have hsrc : P.sources.map (·.now env') = P.sources.map (·.now fun _ => t) :=
      List.map_congr_left fun x hx => x.now_congr env' _ fun i hi =>
        hall i (.inl (.inl (.inl (List.mem_flatMap.2 ⟨x, hx, hi⟩))))
    have hbc : P.bcs.map (·.now env') = P.bcs.map (·.now fun _ => t) :=
      List.map_congr_left fun x hx => x.now_congr env' _ fun i hi =>
        hall i (.inl (.inl (.inr (List.mem_flatMap.2 ⟨x, hx, hi⟩))))
    have htr : List.Forall₂ SameUsed (P.traps.map (·.now env')) (P.traps.map (·.now fun _ => t)) := by
      rw [List.forall₂_map_left_iff, List.forall₂_map_right_iff, List.forall₂_same]
      intro x hx
      exact x.now_sameUsed env' _ fun i hi =>
        hall i (.inl (.inr (List.mem_flatMap.2 ⟨x, hx, hi⟩)))
    unfold TProblem.form Problem.form mobileForm diffusionForm TProblem.now
    simp only
    rw [hsrc, hbc, mobileTraps_congr _ _ _ _ _ htr, trapsForm_congr _ _ _ _ _ _ _ htr]
  · exact List.map_congr_left fun x hx => x.now_congr env' _ fun i hi =>
      hall i (.inr (List.mem_flatMap.2 ⟨x, hx, hi⟩))

/-- **C57.** The same for a heat transfer problem. -/
theorem C57_heat_registry (h : THeat Ω Γ d) (t : ℚ) (env : ℕ → ℚ) :
    (∀ dt T v, h.form (updateExpressions h.subs t env) dt T v = h.form (fun _ => t) dt T v) ∧
    h.dirichlet.map (·.now (updateExpressions h.subs t env)) =
      h.dirichlet.map (·.now fun _ => t) := by
  have hall : ∀ i ∈ h.subs, updateExpressions h.subs t env i = t := fun i hi => by
    rw [updateExpressions_apply, if_pos hi]
  generalize updateExpressions h.subs t env = env' at hall ⊢
  unfold THeat.subs at hall
  simp only [List.mem_append] at hall
  refine ⟨fun dt T v => ?_, ?_⟩
  · have hsrc : (h.sources.map fun s => (s.1.now env', s.2)) =
        h.sources.map fun s => (s.1.now fun _ => t, s.2) :=
      List.map_congr_left fun x hx => by
        rw [x.1.now_congr env' (fun _ => t) fun i hi =>
          hall i (.inl (.inl (List.mem_flatMap.2 ⟨x, hx, hi⟩)))]
    have hbc : (h.bcs.map fun s => (s.1.now env', s.2)) =
        h.bcs.map fun s => (s.1.now fun _ => t, s.2) :=
      List.map_congr_left fun x hx => by
        rw [x.1.now_congr env' (fun _ => t) fun i hi =>
          hall i (.inl (.inr (List.mem_flatMap.2 ⟨x, hx, hi⟩)))]
    unfold THeat.form
    rw [hsrc, hbc]
  · exact List.map_congr_left fun x hx => x.now_congr env' _ fun i hi =>
      hall i (.inr (List.mem_flatMap.2 ⟨x, hx, hi⟩))

/-- **C57.** In a whole run, whatever the Newton outcomes and the temperature: every accepted step, and
every attempt, solves the hydrogen equations with all their data at the time of the step. -/
theorem C57_hydrogen_data {F : Type} (P : TProblem Ω Γ d) (cfg : SimCfg F) (zero : F)
    (outs : List Outcome) (s : SimState F) (hreg : cfg.registry = P.expressions)
    (h : cfg.exec zero outs = .ok s) :
    (∀ r ∈ s.recs, (∀ v vt, P.form r.env v vt = P.form (fun _ => r.t) v vt) ∧
      P.dirichlet.map (·.now r.env) = P.dirichlet.map (·.now fun _ => r.t)) ∧
    ∀ nom failed, s.run.phase = .solving nom failed →
      (∀ v vt, P.form s.env v vt = P.form (fun _ => s.run.t) v vt) ∧
      P.dirichlet.map (·.now s.env) = P.dirichlet.map (·.now fun _ => s.run.t) := by
  have key := C57_run cfg zero outs s h
  have hfix : ∀ (env : ℕ → ℚ) (t : ℚ), (∀ i ∈ cfg.registry, env i = t) →
      updateExpressions P.expressions t env = env := by
    intro env t he
    funext i
    rw [updateExpressions_apply]
    split
    · rename_i hi
      rw [← hreg] at hi
      exact (he i hi).symm
    · rfl
  refine ⟨fun r hr => ?_, fun nom failed hp => ?_⟩
  · have := C57_registry_complete P r.t r.env
    rw [hfix r.env r.t (key.1 r hr).1] at this
    exact this
  · have := C57_registry_complete P s.run.t s.env
    rw [hfix s.env s.run.t (key.2 nom failed hp).1] at this
    exact this

/-- **C57.** Not so for the parameters of extrinsic traps: unless the same expression object is also
used elsewhere, they keep for the whole run the value they have at `t = 0`. -/
theorem C57_extrinsic_frozen {F : Type} (e : TExtrinsic Ω) (cfg : SimCfg F) (zero : F)
    (outs : List Outcome) (s : SimState F)
    (hown : ∀ i ∈ e.used, i ∉ cfg.registry ∧ i ∉ heatSubs cfg.temp)
    (h : cfg.exec zero outs = .ok s) :
    ∀ r ∈ s.recs, e.now r.env = e.now fun _ => 0 := by
  intro r hr
  have h0 : ∀ i ∈ e.used, r.env i = (fun _ => (0 : ℚ)) i := fun i hi =>
    ((C57_run cfg zero outs s h).1 r hr).2 i (hown i hi).1 (hown i hi).2
  unfold TExtrinsic.used at h0
  simp only [List.mem_append] at h0
  unfold TExtrinsic.now
  rw [e.phi_0.now_congr r.env (fun _ => 0) fun i hi => h0 i (by simp [hi]),
    e.n_amax.now_congr r.env (fun _ => 0) fun i hi => h0 i (by simp [hi]),
    e.n_bmax.now_congr r.env (fun _ => 0) fun i hi => h0 i (by simp [hi]),
    e.eta_a.now_congr r.env (fun _ => 0) fun i hi => h0 i (by simp [hi]),
    e.eta_b.now_congr r.env (fun _ => 0) fun i hi => h0 i (by simp [hi]),
    e.f_a.now_congr r.env (fun _ => 0) fun i hi => h0 i (by simp [hi]),
    e.f_b.now_congr r.env (fun _ => 0) fun i hi => h0 i (by simp [hi])]

/-- **C57.** Nor for those of neutron-induced traps. -/
theorem C57_neutron_frozen {F : Type} (e : TNeutron Ω) (cfg : SimCfg F) (zero : F)
    (outs : List Outcome) (s : SimState F)
    (hown : ∀ i ∈ e.used, i ∉ cfg.registry ∧ i ∉ heatSubs cfg.temp)
    (h : cfg.exec zero outs = .ok s) :
    ∀ r ∈ s.recs, e.now r.env = e.now fun _ => 0 := by
  intro r hr
  have h0 : ∀ i ∈ e.used, r.env i = (fun _ => (0 : ℚ)) i := fun i hi =>
    ((C57_run cfg zero outs s h).1 r hr).2 i (hown i hi).1 (hown i hi).2
  unfold TNeutron.used at h0
  simp only [List.mem_append] at h0
  unfold TNeutron.now
  rw [e.phi.now_congr r.env (fun _ => 0) fun i hi => h0 i (by simp [hi]),
    e.K.now_congr r.env (fun _ => 0) fun i hi => h0 i (by simp [hi]),
    e.n_max.now_congr r.env (fun _ => 0) fun i hi => h0 i (by simp [hi]),
    e.A_0.now_congr r.env (fun _ => 0) fun i hi => h0 i (by simp [hi]),
    e.E_A.now_congr r.env (fun _ => 0) fun i hi => h0 i (by simp [hi])]

end

/-! ## Concrete cases -/

/-- One cell, one boundary point; a source and an imposed flux growing with time, a Sieverts condition
with a pressure growing with time, a trap whose second density is not used. -/
noncomputable def regProblem : TProblem (Fin 1) (Fin 1) 1 where
  mesh := { w := fun _ => 1, vm := fun _ => 1, ws := fun _ => 1, sm := fun _ => 1, vmS := fun _ => 1,
            type := .cartesian, r := Fld.const 1 }
  mats := [{ uid := 0, ids := [1], D_0 := 1, E_D := 0 }]
  mv := { theta := false, sol := Fld.const 2, prev := Fld.const 1 }
  T := ⟨Fld.const 300, Fld.const 300⟩
  dt := some 1
  soret := false
  sources := [⟨.given (.expr 10 fun t _ => (t : ℝ)), [1]⟩, ⟨.decay 3, [1]⟩]
  traps := [{ k_0 := .num 1, E_k := .num 0, p_0 := .num 1, E_p := .num 0,
              density := [.expr 11 fun t _ => 1 + (t : ℝ), .expr 12 fun t _ => (t : ℝ)],
              materials := [{ uid := 0, ids := [1], D_0 := 1, E_D := 0 }],
              sol := Fld.const 1, prev := Fld.const 1 }]
  bcs := [.flux (.value (.expr 13 fun t _ => (t : ℝ))) [1],
          .flux (.recomb (.expr 14 fun _ _ => 1) (.expr 15 fun _ _ => 0) 2) [1]]
  dirichlet := [.sieverts 1 0 (.expr 16 fun t _ => (t : ℝ))]

example : regProblem.expressions = [10, 13, 14, 15, 11, 16] := rfl

/-- The values do change with time. -/
example : (regProblem.dirichlet.map fun b => b.now (updateExpressions regProblem.expressions 5 fun _ => 0)) =
    [.sieverts 1 0 fun _ => ((5 : ℚ) : ℝ)] := rfl

/-- A run whose registry is the one of this problem. -/
example : ∃ s, ({ sampleCfg (.fromXDMF 300) with registry := regProblem.expressions } :
      SimCfg ℚ).exec 0 sampleOuts = .ok s ∧ s.recs.map (fun r => (r.env 16, r.env 12)) =
        [(1, 0), (2, 0), (3, 0)] := by
  refine ⟨_, rfl, ?_⟩
  decide +kernel

/-- An extrinsic trap whose irradiation flux is `t`, in the run of `sampleCfg`: it stays `0`. -/
def regExtrinsic : TExtrinsic (Fin 1) where
  phi_0 := .expr 20 fun t _ => (t : ℝ)
  n_amax := .fixed fun _ => 1
  n_bmax := .fixed fun _ => 1
  eta_a := .fixed fun _ => 1
  eta_b := .fixed fun _ => 1
  f_a := .fixed fun _ => 1
  f_b := .fixed fun _ => 1

example : ∀ i ∈ regExtrinsic.used,
    i ∉ (sampleCfg sampleHeat).registry ∧ i ∉ heatSubs (sampleCfg sampleHeat).temp := by
  simp [regExtrinsic, TExtrinsic.used, TVal.ids, sampleCfg, sampleHeat, heatSubs]

/-- A neutron-induced trap whose damage rate is `1 + t`: it stays `1`. -/
def regNeutron : TNeutron (Fin 1) where
  phi := .expr 21 fun t _ => 1 + (t : ℝ)
  K := .fixed fun _ => 1
  n_max := .fixed fun _ => 2
  A_0 := .fixed fun _ => 1
  E_A := .fixed fun _ => 0

example (s : SimState ℚ) (h : (sampleCfg sampleHeat).exec 0 sampleOuts = .ok s) :
    ∀ r ∈ s.recs, (regNeutron.now r.env).phi = fun _ => 1 := by
  intro r hr
  rw [C57_neutron_frozen regNeutron (sampleCfg sampleHeat) 0 sampleOuts s
    (by simp [regNeutron, TNeutron.used, TVal.ids, sampleCfg, sampleHeat, heatSubs]) h r hr]
  simp [regNeutron, TNeutron.now, TVal.now]

/-- A heat problem with a source and a convective condition; everything is registered. -/
noncomputable def regHeat : THeat (Fin 1) (Fin 1) 1 where
  mesh := regProblem.mesh
  mats := regProblem.mats
  sources := [(.expr 30 fun t _ => (t : ℝ), [1])]
  bcs := [(.convective (.expr 31 fun _ _ => 1) (.expr 32 fun t _ => 300 + (t : ℝ)), [1])]
  dirichlet := [.value (.expr 33 fun t _ => 300 + (t : ℝ))]

example : regHeat.subs = [30, 31, 32, 33] := rfl

end Festim.Props
