import Verif.Model.Warnings
import Verif.Props.SurfaceFlux
import Verif.Model.Forms

/-!
# C93: which material properties matter, and which are announced as ignored
-/

namespace Festim.Weak

section
variable {Ω Γ : Type} {d : ℕ}

/-- The problem with edited materials (the traps refer to the same objects). -/
def Problem.editMats (P : Problem Ω Γ d) (f : Mat → Mat) : Problem Ω Γ d :=
  { P with mats := P.mats.map f, traps := P.traps.map fun t => { t with materials := t.materials.map f } }

/-- An edit which keeps what the hydrogen problem looks at. -/
structure KeepsHydrogen (theta soret : Bool) (f : Mat → Mat) : Prop where
  uid : ∀ m, (f m).uid = m.uid
  ids : ∀ m, (f m).ids = m.ids
  D_0 : ∀ m, (f m).D_0 = m.D_0
  E_D : ∀ m, (f m).E_D = m.E_D
  Q : soret = true → ∀ m, (f m).Q = m.Q
  S_0 : theta = true → ∀ m, (f m).S_0 = m.S_0
  E_S : theta = true → ∀ m, (f m).E_S = m.E_S
  law : theta = true → ∀ m, (f m).law = m.law

variable {theta soret : Bool} {f : Mat → Mat}

theorem conc_edit {mv : Mobile Ω Γ d} (hf : KeepsHydrogen mv.theta soret f) (m : Mat) (T : Temp Ω Γ d) :
    mv.conc (f m) T = mv.conc m T := by
  unfold Mobile.conc
  by_cases ht : mv.theta = true
  · simp only [ht, if_true, hf.S_0 ht, hf.E_S ht, hf.law ht]
  · simp [ht]

theorem lawMarker_edit (mats : List Mat) (law : Law) (i : ℕ) (hi : ∀ m, (f m).ids = m.ids)
    (hl : ∀ m, (f m).law = m.law) : lawMarker (mats.map f) law i = lawMarker mats law i := by
  simp [lawMarker, Function.comp_def, hi, hl]

theorem mobileConc_edit (mesh : Mesh Ω Γ d) (mats : List Mat) {mv : Mobile Ω Γ d}
    (hf : KeepsHydrogen mv.theta soret f) : mv.mobileConc mesh (mats.map f) = mv.mobileConc mesh mats := by
  funext p
  unfold Mobile.mobileConc
  split
  · rename_i ht
    rw [lawMarker_edit _ _ _ hf.ids (hf.law ht), lawMarker_edit _ _ _ hf.ids (hf.law ht)]
  · rfl

theorem mobileConcS_edit (mesh : Mesh Ω Γ d) (mats : List Mat) {mv : Mobile Ω Γ d}
    (hf : KeepsHydrogen mv.theta soret f) : mv.mobileConcS mesh (mats.map f) = mv.mobileConcS mesh mats := by
  funext p
  unfold Mobile.mobileConcS
  split
  · rename_i ht
    rw [lawMarker_edit _ _ _ hf.ids (hf.law ht), lawMarker_edit _ _ _ hf.ids (hf.law ht)]
  · rfl

theorem subdomain_edit (mesh : Mesh Ω Γ d) (hf : KeepsHydrogen theta soret f) (m : Mat) (c cn : Fld Ω Γ d)
    (T : Temp Ω Γ d) (dt : Option ℝ) (v : Fld Ω Γ d) (sub : ℕ) :
    subdomainForm mesh (f m) c cn T dt soret v sub = subdomainForm mesh m c cn T dt soret v sub := by
  unfold subdomainForm
  cases hs : soret with
  | false => simp only [hf.D_0, hf.E_D, Bool.false_eq_true, if_false]
  | true => simp only [hf.D_0, hf.E_D, hf.Q hs]

theorem mobileTrapLoop_edit {mv : Mobile Ω Γ d} (hf : KeepsHydrogen mv.theta soret f) (T : Temp Ω Γ d)
    (trap : Trap Ω Γ d) (v : Fld Ω Γ d) (l l' : List Mat) (i : ℕ) :
    mobileTrapLoop mv T { trap with materials := l' } v i (l.map f) = mobileTrapLoop mv T trap v i l := by
  induction l generalizing i with
  | nil => rfl
  | cons m l ih =>
    simp only [List.map_cons, mobileTrapLoop, ih, conc_edit hf, hf.ids]
    rfl

theorem mobileTraps_edit {mv : Mobile Ω Γ d} (hf : KeepsHydrogen mv.theta soret f) (T : Temp Ω Γ d)
    (v : Fld Ω Γ d) (traps : List (Trap Ω Γ d)) :
    mobileTraps mv T v (traps.map fun t => { t with materials := t.materials.map f })
      = mobileTraps mv T v traps := by
  induction traps with
  | nil => rfl
  | cons t l ih => simp only [List.map_cons, mobileTraps, ih, mobileTrapLoop_edit hf]

theorem trapLoop_edit {mv : Mobile Ω Γ d} (hf : KeepsHydrogen mv.theta soret f) (T : Temp Ω Γ d)
    (trap : Trap Ω Γ d) (v : Fld Ω Γ d) (l l' : List Mat) (i : ℕ) :
    trapLoop mv T { trap with materials := l' } v i (l.map f) = trapLoop mv T trap v i l := by
  induction l generalizing i with
  | nil => rfl
  | cons m l ih =>
    have hl : (mv.theta = true ∧ (f m).law = .henry) = (mv.theta = true ∧ m.law = .henry) := by
      by_cases ht : mv.theta = true
      · rw [hf.law ht]
      · simp [ht]
    simp only [List.map_cons, trapLoop, ih, conc_edit hf, hf.ids, hl]
    rfl

theorem trapForm_edit {mv : Mobile Ω Γ d} (hf : KeepsHydrogen mv.theta soret f) (mats : List Mat) (T : Temp Ω Γ d)
    (dt : Option ℝ) (trap : Trap Ω Γ d) (v : Fld Ω Γ d) :
    trapForm (mats.map f) mv T dt { trap with materials := trap.materials.map f } v
      = trapForm mats mv T dt trap v := by
  have e : ((mats.map f).filter fun mat => mat.uid ∉ (trap.materials.map f).map (·.uid)).map
        (fun mat => (Term.dxOn mat.ids fun p => trap.sol.val p * v.val p : Term Ω Γ))
      = (mats.filter fun mat => mat.uid ∉ trap.materials.map (·.uid)).map
        fun mat => Term.dxOn mat.ids fun p => trap.sol.val p * v.val p := by
    rw [List.filter_map, List.map_map]
    simp only [List.map_map, Function.comp_def, hf.uid, hf.ids]
  simp only [trapForm, trappingForm, trapLoop_edit hf, e]
  rfl

theorem trapsForm_edit {mv : Mobile Ω Γ d} (hf : KeepsHydrogen mv.theta soret f) (mats : List Mat) (T : Temp Ω Γ d)
    (dt : Option ℝ) (traps : List (Trap Ω Γ d)) (vt : List (Fld Ω Γ d)) :
    trapsForm (mats.map f) mv T dt
        ((traps.map fun t => ({ t with materials := t.materials.map f } : Trap Ω Γ d)).zip vt)
      = trapsForm mats mv T dt (traps.zip vt) := by
  induction traps generalizing vt with
  | nil => rfl
  | cons t l ih =>
    cases vt with
    | nil => rfl
    | cons v vt =>
      simp only [List.map_cons, List.zip_cons_cons, trapsForm, ih]
      rw [trapForm_edit hf]

/-- An edit which keeps what the heat problem looks at. -/
structure KeepsHeat (transient : Bool) (f : Mat → Mat) : Prop where
  ids : ∀ m, (f m).ids = m.ids
  cond : ∀ m, (f m).cond = m.cond
  capacity : transient = true → ∀ m T, (f m).rho T * (f m).cp T = m.rho T * m.cp T

end

end Festim.Weak

namespace Festim.Props

open Festim.Weak

section
variable {Ω Γ : Type} {d : ℕ}

/-- **C93 (a).** The hydrogen equations see of a material its ids, `D_0` and `E_D`; with the Soret effect also `Q`;
with conservation of the chemical potential also `S_0`, `E_S` and the solubility law.  Any change of the other
properties leaves the equations (and the errors) as they are. -/
theorem C93_hydrogen (P : Problem Ω Γ d) (bcs : List (MobBC Γ)) (v : Fld Ω Γ d) (vt : List (Fld Ω Γ d))
    (f : Mat → Mat) (hf : KeepsHydrogen P.mv.theta P.soret f) :
    (P.editMats f).form bcs v vt = P.form bcs v vt := by
  have h1 : diffusionForm P.mesh (P.mats.map f) P.mv P.T P.dt
      (P.traps.map fun t => { t with materials := t.materials.map f }) P.soret v
      = diffusionForm P.mesh P.mats P.mv P.T P.dt P.traps P.soret v := by
    unfold diffusionForm
    rw [mobileTraps_edit hf]
    simp only [List.flatMap_map, hf.ids, conc_edit hf, subdomain_edit P.mesh hf]
  have h2 : mobileForm P.mesh (P.mats.map f) P.mv P.T P.dt
      (P.traps.map fun t => { t with materials := t.materials.map f }) P.soret P.sources bcs v
      = mobileForm P.mesh P.mats P.mv P.T P.dt P.traps P.soret P.sources bcs v := by
    unfold mobileForm
    rw [h1]
    have h3 : sourceForm P.mesh (P.mats.map f) P.mv P.sources v = sourceForm P.mesh P.mats P.mv P.sources v := by
      simp only [sourceForm, mobileConc_edit _ _ hf]
    have h4 : fluxesForm P.mesh (P.mats.map f) P.mv P.T P.dt bcs v
        = fluxesForm P.mesh P.mats P.mv P.T P.dt bcs v := by
      unfold fluxesForm
      congr 1
      funext b
      cases b <;> simp only [MobBC.form, mobileConcS_edit _ _ hf]
    rw [h3, h4]
  have h5 := trapsForm_edit hf P.mats P.T P.dt P.traps vt
  unfold Problem.form Problem.editMats
  dsimp only
  rw [h2, h5]

/-- **C93 (b).** The heat equation sees the ids and the conductivity; in transient mode also the product of density
and heat capacity, and only the product. -/
theorem C93_heat (mesh : Mesh Ω Γ d) (mats : List Mat) (T : Temp Ω Γ d) (transient : Option ℝ)
    (sources : List ((Ω → ℝ) × List ℕ)) (bcs : List (Flux Γ × List ℕ)) (v : Fld Ω Γ d) (f : Mat → Mat)
    (hf : KeepsHeat transient.isSome f) :
    heatForm mesh (mats.map f) T transient sources bcs v = heatForm mesh mats T transient sources bcs v := by
  have h1 : ∀ m, heatSubdomain mesh (f m) T v = heatSubdomain mesh m T v := by
    intro m
    funext vol
    simp only [heatSubdomain, hf.cond]
  unfold heatForm
  congr 2
  rw [List.flatMap_map]
  congr 1
  funext m
  rw [hf.ids, h1]
  congr 1
  cases transient with
  | none => rfl
  | some h => simp only [hf.capacity rfl]

end

/-! ### Warnings -/

theorem count_flatMap_if {α : Type} (l : List α) (p : α → Bool) (s w : String) :
    (l.flatMap fun a => if p a then [s] else []).count w = if s = w then l.countP p else 0 := by
  induction l with
  | nil => simp
  | cons a l ih =>
    rw [List.flatMap_cons, List.count_append, ih, List.countP_cons]
    by_cases hs : s = w <;> by_cases hp : p a = true <;> simp [hs, hp]
    omega

theorem count_transient (l : List Material) (w : String) :
    (l.flatMap transientWarnings).count w
      = (if "rho key will be ignored" = w then l.countP (·.rho) else 0)
        + if "heat_capacity key will be ignored" = w then l.countP (·.heatCapacity) else 0 := by
  induction l with
  | nil => simp
  | cons a l ih =>
    rw [List.flatMap_cons, List.count_append, ih, List.countP_cons, List.countP_cons]
    unfold transientWarnings
    rw [List.count_append]
    have key : ∀ (b : Bool) (s : String), (if b = true then [s] else []).count w
        = if s = w then (if b = true then 1 else 0) else 0 := by
      intro b s
      cases b <;> by_cases hs : s = w <;> simp [hs]
    rw [key, key]
    by_cases h1 : "rho key will be ignored" = w <;> by_cases h2 : "heat_capacity key will be ignored" = w <;>
      simp only [h1, h2, if_true, if_false] <;> omega

/-- **C93 (c).** With a prescribed temperature, `initialise` warns once for each material with a density, once for
each one with a heat capacity and once for each one with a conductivity; with a `HeatTransferProblem` it never
does.  Nothing else is said, and the exports play no role. -/
theorem C93_warnings (ms : List Material) (T : TempKind) (exports : List QuantityInfo)
    (hc : checkConsistency ms = .ok ()) (w : String) :
    (initialiseWarnings ms T exports).count w =
      match T with
      | .heatTransfer _ => 0
      | .plain =>
        if w = "rho key will be ignored" then ms.countP (·.rho)
        else if w = "heat_capacity key will be ignored" then ms.countP (·.heatCapacity)
        else if w = "thermal_cond key will be ignored" then ms.countP (·.thermalCond)
        else 0 := by
  unfold initialiseWarnings checkMaterialsWarnings
  rw [hc]
  have h0 : (if ms.length > 0 then unusedWarnings ms T [] else []) = unusedWarnings ms T [] := by
    cases ms with
    | nil => cases T <;> rfl
    | cons m ms => rw [if_pos (by simp)]
  refine (congrArg (List.count w) h0).trans ?_
  unfold unusedWarnings
  cases T with
  | heatTransfer t =>
    simp only [warnCond, Bool.and_false, Bool.false_eq_true, if_false, List.nil_append]
    rw [show (ms.flatMap fun _ => ([] : List String)) = [] by simp]
    rfl
  | plain =>
    simp only [warnCond, List.any_nil, Bool.not_false, Bool.and_true]
    rw [List.count_append, count_transient, count_flatMap_if]
    have n1 : "heat_capacity key will be ignored" ≠ "rho key will be ignored" := by decide +kernel
    have n2 : "thermal_cond key will be ignored" ≠ "rho key will be ignored" := by decide +kernel
    have n3 : "thermal_cond key will be ignored" ≠ "heat_capacity key will be ignored" := by decide +kernel
    by_cases h1 : w = "rho key will be ignored"
    · subst h1; simp [n1, n2]
    · by_cases h2 : w = "heat_capacity key will be ignored"
      · subst h2; simp [n3, n1, Ne.symm n1]
      · by_cases h3 : w = "thermal_cond key will be ignored"
        · subst h3; simp [n2, n3, Ne.symm n2, Ne.symm n3]
        · simp [h1, h2, h3, Ne.symm h1, Ne.symm h2, Ne.symm h3]

/-- Called directly with the list of derived quantities, `check_materials` warns about the conductivity unless one of them is a
`SurfaceFlux` of `T`: the fault is in the call made by `initialise`, which hands over an empty list. -/
theorem C93_direct_check (ms : List Material) (qs : List QuantityInfo) (hc : checkConsistency ms = .ok ()) :
    (checkMaterialsWarnings ms .plain qs).count "thermal_cond key will be ignored" =
      if ∃ q ∈ qs, q.isSurfaceFlux = true ∧ q.field = "T" then 0 else ms.countP (·.thermalCond) := by
  unfold checkMaterialsWarnings
  rw [hc]
  have h0 : (if ms.length > 0 then unusedWarnings ms .plain qs else []) = unusedWarnings ms .plain qs := by
    cases ms with
    | nil => rfl
    | cons m ms => rw [if_pos (by simp)]
  refine (congrArg (List.count _) h0).trans ?_
  unfold unusedWarnings
  have n2 : "thermal_cond key will be ignored" ≠ "rho key will be ignored" := by decide +kernel
  have n3 : "thermal_cond key will be ignored" ≠ "heat_capacity key will be ignored" := by decide +kernel
  have hw : warnCond .plain qs = !decide (∃ q ∈ qs, q.isSurfaceFlux = true ∧ q.field = "T") := by
    unfold warnCond
    congr 1
    rw [Bool.eq_iff_iff]
    simp
  dsimp only
  rw [List.count_append, count_transient, hw]
  by_cases h : ∃ q ∈ qs, q.isSurfaceFlux = true ∧ q.field = "T"
  · simp only [h, Ne.symm n2, Ne.symm n3, decide_true, Bool.not_true, Bool.and_false, Bool.false_eq_true, if_true, if_false, zero_add]
    rw [show (ms.flatMap fun _ => ([] : List String)) = [] by simp]
    rfl
  · simp only [h, decide_false, Bool.not_false, Bool.and_true, if_false]
    rw [count_flatMap_if]
    simp [Ne.symm n2, Ne.symm n3]

/-- **C93 (d).** The warning about the conductivity is wrong when a thermal flux is exported: with a prescribed
temperature `initialise` announces that it will be ignored, and the exported flux is proportional to it. -/
theorem C93_false_warning {Ω Γ : Type} [Fintype Ω] [Fintype Γ] {d : ℕ} (ms : List Material)
    (exports : List QuantityInfo) (hc : checkConsistency ms = .ok ()) (hm : ∃ m ∈ ms, m.thermalCond = true)
    (e : PostEnv Ω Γ d) (k : Γ → ℝ) (a : ℝ) (s : ℕ) (proj : Bool) :
    "thermal_cond key will be ignored" ∈ initialiseWarnings ms .plain exports ∧
    ∃ φ, (thermalFlux s).value { e with cond := some k } proj = .ok φ ∧
      (thermalFlux s).value { e with cond := some fun q => a * k q } proj = .ok (a * φ) := by
  constructor
  · rw [← List.count_pos_iff, C93_warnings ms .plain exports hc]
    have n2 : "thermal_cond key will be ignored" ≠ "rho key will be ignored" := by decide +kernel
    have n3 : "thermal_cond key will be ignored" ≠ "heat_capacity key will be ignored" := by decide +kernel
    simp only [n2, n3, if_true, if_false]
    exact List.countP_pos_iff.2 hm
  · refine ⟨_, flux_heat _ proj .cartesian s (by simp [Geom.curved]) k rfl, ?_⟩
    refine (flux_heat _ proj .cartesian s (by simp [Geom.curved]) (fun q => a * k q) rfl).trans ?_
    congr 1
    rw [← mul_left_comm]
    congr 1
    unfold fluxIntegral
    rw [← surface_smul]
    congr 1
    funext q
    ring

/-- **C93 (e).** What is ignored in silence: a steady heat problem ignores densities and heat capacities, and a
simulation without conservation of the chemical potential ignores solubilities; no warning is given, whatever
the materials. -/
theorem C93_silently_ignored {Ω Γ : Type} {d : ℕ} (f : Mat → Mat) :
    ((∀ m, (f m).ids = m.ids ∧ (f m).cond = m.cond) →
      ∀ (mesh : Mesh Ω Γ d) (mats : List Mat) (T : Temp Ω Γ d) (sources : List ((Ω → ℝ) × List ℕ))
        (bcs : List (Flux Γ × List ℕ)) (v : Fld Ω Γ d),
        heatForm mesh (mats.map f) T none sources bcs v = heatForm mesh mats T none sources bcs v) ∧
    ((∀ m, (f m).uid = m.uid ∧ (f m).ids = m.ids ∧ (f m).D_0 = m.D_0 ∧ (f m).E_D = m.E_D ∧ (f m).Q = m.Q) →
      ∀ (P : Problem Ω Γ d) (bcs : List (MobBC Γ)) (v : Fld Ω Γ d) (vt : List (Fld Ω Γ d)),
        P.mv.theta = false → (P.editMats f).form bcs v vt = P.form bcs v vt) ∧
    ∀ (ms : List Material) (transient : Bool) (exports : List QuantityInfo),
      initialiseWarnings ms (.heatTransfer transient) exports = [] := by
  refine ⟨fun h mesh mats T sources bcs v => ?_, fun h P bcs v vt ht => ?_, fun ms transient exports => ?_⟩
  · exact C93_heat mesh mats T none sources bcs v f ⟨fun m => (h m).1, fun m => (h m).2, by simp⟩
  · refine C93_hydrogen P bcs v vt f ?_
    refine ⟨fun m => (h m).1, fun m => (h m).2.1, fun m => (h m).2.2.1, fun m => (h m).2.2.2.1,
      fun _ m => (h m).2.2.2.2, ?_, ?_, ?_⟩ <;> simp [ht]
  · unfold initialiseWarnings checkMaterialsWarnings
    split
    · split
      · rfl
      · simp [unusedWarnings, warnCond]
    · rfl

/-! ### Examples -/

/-- C93 (a): an edit of everything the hydrogen problem does not look at. -/
noncomputable def strip (m : Mat) : Mat :=
  { m with S_0 := 0, E_S := 0, law := .henry, cond := fun _ => 0, cp := fun _ => 0, rho := fun _ => 0 }

example (soret : Bool) : KeepsHydrogen false soret strip := by
  constructor <;> intros <;> first | rfl | contradiction

/-- C93 (b): density and heat capacity may be exchanged. -/
example (transient : Bool) : KeepsHeat transient fun m => { m with rho := m.cp, cp := m.rho } := by
  constructor
  · intro m; rfl
  · intro m; rfl
  · intro _ m T; exact mul_comm _ _

/-- C93 (c), (d): two materials, with the thermal flux exported. -/
def exHot : List Material :=
  [{ id := .one 1, thermalCond := true, rho := true }, { id := .one 2, thermalCond := true, rho := true }]

example : checkConsistency exHot = .ok () ∧ initialiseWarnings exHot .plain [⟨true, "T"⟩] =
    ["rho key will be ignored", "rho key will be ignored",
     "thermal_cond key will be ignored", "thermal_cond key will be ignored"] := by decide +kernel

/-- Given the list of exports, the check would have been silent about the conductivity. -/
example : checkMaterialsWarnings exHot .plain [⟨true, "T"⟩] =
    ["rho key will be ignored", "rho key will be ignored"] := by decide +kernel

end Festim.Props
