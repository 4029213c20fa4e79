import Verif.Spec.SteadyTraps
import Verif.Proofs.Traps
import Verif.Props.Theta

/-! # The equations of the mobile concentration and of the traps, taken apart (C111) -/

open scoped BigOperators

set_option linter.unusedSectionVars false

namespace Festim.Weak

section
variable {Ω Γ : Type} [Fintype Ω] [Fintype Γ] {d : ℕ}

/-- Whether the kinetic terms can be written does not depend on the test function. -/
theorem trapLoop_any (mv : Mobile Ω Γ d) (T : Temp Ω Γ d) (t : Trap Ω Γ d) (v w : Fld Ω Γ d) (ms : List Mat) (i : ℕ)
    (F : Form Ω Γ) (h : trapLoop mv T t v i ms = .ok F) : ∃ G, trapLoop mv T t w i ms = .ok G := by
  induction ms generalizing i F with
  | nil => exact ⟨_, rfl⟩
  | cons a ms ih =>
    simp only [trapLoop, bind, Except.bind] at h ⊢
    cases hp : t.params i with
    | error e => rw [hp] at h; cases h
    | ok K =>
      rw [hp] at h
      simp only at h ⊢
      split_ifs at h ⊢
      cases hl : trapLoop mv T t v (i + 1) ms with
      | error e => rw [hl] at h; cases h
      | ok G =>
        obtain ⟨G', hG'⟩ := ih _ _ hl
        rw [hG']
        exact ⟨_, rfl⟩

/-- Kinetic terms with two test functions which agree where the trap is defined. -/
theorem trapLoop_agree (m : Mesh Ω Γ d) (mv : Mobile Ω Γ d) (T : Temp Ω Γ d) (t : Trap Ω Γ d) (v w : Fld Ω Γ d)
    (ms : List Mat) (i : ℕ) (F G : Form Ω Γ) (h : trapLoop mv T t v i ms = .ok F) (h' : trapLoop mv T t w i ms = .ok G)
    (hv : ∀ a ∈ ms, ∀ p, m.vm p ∈ a.ids → v.val p = w.val p) : m.assemble F = m.assemble G := by
  induction ms generalizing i F G with
  | nil => cases h; cases h'; rfl
  | cons a ms ih =>
    simp only [trapLoop, bind, Except.bind] at h h'
    cases hp : t.params i with
    | error e => rw [hp] at h; cases h
    | ok K =>
      rw [hp] at h h'
      simp only at h h'
      split_ifs at h h'
      cases hl : trapLoop mv T t v (i + 1) ms with
      | error e => rw [hl] at h; cases h
      | ok F1 =>
        cases hl' : trapLoop mv T t w (i + 1) ms with
        | error e => rw [hl'] at h'; cases h'
        | ok G1 =>
          rw [hl] at h
          rw [hl'] at h'
          cases h
          cases h'
          have hc : ∀ f g : Ω → ℝ, (∀ p, m.vm p ∈ a.ids → f p = g p) → volumeIn m a.ids f = volumeIn m a.ids g := by
            intro f g hfg
            unfold volumeIn
            refine Finset.sum_congr rfl fun p hp => ?_
            rw [hfg p (Finset.mem_filter.1 hp).2]
          rw [assemble_append, assemble_append, ih _ _ _ hl hl' fun b hb => hv b (List.mem_cons_of_mem _ hb)]
          simp only [assemble_cons, assemble_nil, integrate_dxOn]
          rw [hc _ (fun p => -K.k * Real.exp (-K.Ek / kB / T.T.val p) * (mv.conc a T).1.val p * (K.n p - t.sol.val p)
              * w.val p) (fun p hp => by rw [hv a (List.mem_cons_self ..) p hp]),
            hc (fun p => K.p * Real.exp (-K.Ep / kB / T.T.val p) * t.sol.val p * v.val p)
              (fun p => K.p * Real.exp (-K.Ep / kB / T.T.val p) * t.sol.val p * w.val p)
              (fun p hp => by rw [hv a (List.mem_cons_self ..) p hp])]

/-- Value of the kinetic terms (zero if they cannot be written). -/
noncomputable def kin (P : Problem Ω Γ d) (t : Trap Ω Γ d) (v : Fld Ω Γ d) : ℝ :=
  match trapLoop P.mv P.T t v 0 t.materials with
  | .ok F => P.mesh.assemble F
  | .error _ => 0

/-- The kinetic terms can be written. -/
def Writable (P : Problem Ω Γ d) (t : Trap Ω Γ d) : Prop :=
  ∀ v, ∃ F, trapLoop P.mv P.T t v 0 t.materials = .ok F

theorem writable_of {P : Problem Ω Γ d} {t : Trap Ω Γ d} {v : Fld Ω Γ d} {F : Form Ω Γ}
    (h : trapLoop P.mv P.T t v 0 t.materials = .ok F) : Writable P t := fun w =>
  trapLoop_any P.mv P.T t v w t.materials 0 F h

theorem kin_eq {P : Problem Ω Γ d} {t : Trap Ω Γ d} {v : Fld Ω Γ d} {F : Form Ω Γ}
    (h : trapLoop P.mv P.T t v 0 t.materials = .ok F) : kin P t v = P.mesh.assemble F := by
  unfold kin
  rw [h]

theorem kin_agree {P : Problem Ω Γ d} {t : Trap Ω Γ d} (h : Writable P t) (v w : Fld Ω Γ d)
    (hv : ∀ a ∈ t.materials, ∀ p, P.mesh.vm p ∈ a.ids → v.val p = w.val p) : kin P t v = kin P t w := by
  obtain ⟨F, hF⟩ := h v
  obtain ⟨G, hG⟩ := h w
  rw [kin_eq hF, kin_eq hG]
  exact trapLoop_agree P.mesh P.mv P.T t v w t.materials 0 F G hF hG hv

/-- A trap equation: kinetic terms and rest. -/
theorem trapForm_iff (P : Problem Ω Γ d) (t : Trap Ω Γ d) (v : Fld Ω Γ d) (x : ℝ) :
    (∃ F, trapForm P.mats P.mv P.T P.dt t v = .ok F ∧ P.mesh.assemble F = x)
      ↔ Writable P t ∧ kin P t v + trapRest P.mesh P.mats P.dt t v = x := by
  constructor
  · rintro ⟨F, hF, rfl⟩
    obtain ⟨K, hK, e⟩ := trapForm_ok P.mesh P.mats P.mv P.T P.dt t v F hF
    exact ⟨writable_of hK, by rw [e, kin_eq hK]⟩
  · rintro ⟨hw, rfl⟩
    obtain ⟨K, hK⟩ := hw v
    have : ∃ F, trapForm P.mats P.mv P.T P.dt t v = .ok F := by
      simp only [trapForm, trappingForm, bind, Except.bind, hK]
      exact ⟨_, rfl⟩
    obtain ⟨F, hF⟩ := this
    obtain ⟨K', hK', e⟩ := trapForm_ok P.mesh P.mats P.mv P.T P.dt t v F hF
    exact ⟨F, hF, by rw [e, kin_eq hK']⟩

/-- The equations of the traps. -/
theorem trapsForm_iff (P : Problem Ω Γ d) (l : List (Trap Ω Γ d)) (vt : List (Fld Ω Γ d)) (hl : vt.length = l.length) (x : ℝ) :
    (∃ F, trapsForm P.mats P.mv P.T P.dt (l.zip vt) = .ok F ∧ P.mesh.assemble F = x)
      ↔ (∀ t ∈ l, Writable P t) ∧
        ((l.zip vt).map fun y => kin P y.1 y.2 + trapRest P.mesh P.mats P.dt y.1 y.2).sum = x := by
  induction l generalizing vt x with
  | nil =>
    simp only [List.zip_nil_left, trapsForm, List.map_nil, List.sum_nil]
    constructor
    · rintro ⟨F, hF, rfl⟩
      cases hF
      exact ⟨by simp, rfl⟩
    · rintro ⟨_, rfl⟩
      exact ⟨[], rfl, rfl⟩
  | cons t l ih =>
    cases vt with
    | nil => simp at hl
    | cons w vt =>
      have hl' : vt.length = l.length := by simpa using hl
      simp only [List.zip_cons_cons, trapsForm, bind, Except.bind, List.map_cons, List.sum_cons]
      constructor
      · rintro ⟨F, hF, rfl⟩
        cases h1 : trapForm P.mats P.mv P.T P.dt t w with
        | error e => rw [h1] at hF; cases hF
        | ok F1 =>
          rw [h1] at hF
          simp only at hF
          cases h2 : trapsForm P.mats P.mv P.T P.dt (l.zip vt) with
          | error e => rw [h2] at hF; cases hF
          | ok F2 =>
            rw [h2] at hF
            cases hF
            obtain ⟨a, b⟩ := (trapForm_iff P t w _).1 ⟨F1, h1, rfl⟩
            obtain ⟨a', b'⟩ := (ih vt hl' _).1 ⟨F2, h2, rfl⟩
            refine ⟨?_, by rw [assemble_append, b, b']⟩
            intro s hs
            rcases List.mem_cons.1 hs with rfl | hs
            · exact a
            · exact a' s hs
      · rintro ⟨hw, rfl⟩
        obtain ⟨F1, h1, e1⟩ := (trapForm_iff P t w _).2 ⟨hw t (List.mem_cons_self ..), rfl⟩
        obtain ⟨F2, h2, e2⟩ := (ih vt hl' _).2 ⟨fun s hs => hw s (List.mem_cons_of_mem _ hs), rfl⟩
        rw [h1]
        simp only
        rw [h2]
        exact ⟨_, rfl, by rw [assemble_append, e1, e2]⟩

/-- The kinetic terms in the mobile equation. -/
theorem mobileTraps_kin (P : Problem Ω Γ d) (l : List (Trap Ω Γ d)) (v : Fld Ω Γ d) (hw : ∀ t ∈ l, Writable P t) :
    ∃ K, mobileTraps P.mv P.T v l = .ok K ∧ P.mesh.assemble K = (l.map fun t => kin P t v).sum := by
  induction l with
  | nil => exact ⟨[], rfl, by simp⟩
  | cons t l ih =>
    obtain ⟨K1, h1⟩ := hw t (List.mem_cons_self ..) v
    obtain ⟨K2, h2, e2⟩ := ih fun s hs => hw s (List.mem_cons_of_mem _ hs)
    refine ⟨K1 ++ K2, ?_, ?_⟩
    · simp only [mobileTraps, bind, Except.bind, trapLoop_mobile _ _ _ _ _ _ _ h1, h2]
    · rw [assemble_append, e2, List.map_cons, List.sum_cons, kin_eq h1]

/-- What the mobile equation contains besides the kinetic terms. -/
noncomputable def mobileRest (P : Problem Ω Γ d) (bcs : List (MobBC Γ)) (v : Fld Ω Γ d) : ℝ :=
  bulk P v + P.mesh.assemble (sourceForm P.mesh P.mats P.mv P.sources v)
    + P.mesh.assemble (fluxesForm P.mesh P.mats P.mv P.T P.dt bcs v)

/-- All the equations, term by term. -/
theorem residual_terms (P : Problem Ω Γ d) (bcs : List (MobBC Γ)) (v : Fld Ω Γ d) (vt : List (Fld Ω Γ d))
    (hl : vt.length = P.traps.length) (x : ℝ) :
    Residual P bcs v vt x ↔ (∀ t ∈ P.traps, Writable P t) ∧
      mobileRest P bcs v - (P.traps.map fun t => kin P t v).sum
        + ((P.traps.zip vt).map fun y => kin P y.1 y.2 + trapRest P.mesh P.mats P.dt y.1 y.2).sum = x := by
  unfold Residual
  constructor
  · rintro ⟨F, hF, rfl⟩
    simp only [Problem.form, mobileForm, diffusionForm, bind, Except.bind] at hF
    cases hm : mobileTraps P.mv P.T v P.traps with
    | error e => rw [hm] at hF; cases hF
    | ok K =>
      rw [hm] at hF
      simp only at hF
      cases ht : trapsForm P.mats P.mv P.T P.dt (P.traps.zip vt) with
      | error e => rw [ht] at hF; cases hF
      | ok G =>
        rw [ht] at hF
        cases hF
        obtain ⟨hw, e⟩ := (trapsForm_iff P P.traps vt hl _).1 ⟨G, ht, rfl⟩
        obtain ⟨K', hK', e'⟩ := mobileTraps_kin P P.traps v hw
        rw [hm] at hK'
        cases hK'
        refine ⟨hw, ?_⟩
        simp only [assemble_append, assemble_neg, e, e', bulk, assemble_flatMap, mobileRest]
        ring
  · rintro ⟨hw, rfl⟩
    obtain ⟨G, hG, e⟩ := (trapsForm_iff P P.traps vt hl _).2 ⟨hw, rfl⟩
    obtain ⟨K, hK, e'⟩ := mobileTraps_kin P P.traps v hw
    simp only [Problem.form, mobileForm, diffusionForm, bind, Except.bind, hK, hG]
    refine ⟨_, rfl, ?_⟩
    simp only [assemble_append, assemble_neg, e, e', bulk, assemble_flatMap, mobileRest]
    ring

/-- Equations which hold for all choices of test functions hold one by one. -/
theorem zip_all {α β : Type} (Q : β → Prop) (z : β) (hz : Q z) (g : α → β → ℝ) (hg : ∀ t, g t z = 0) (l : List α) (A : ℝ) :
    (∀ vt : List β, vt.length = l.length → (∀ w ∈ vt, Q w) → A + ((l.zip vt).map fun y => g y.1 y.2).sum = 0)
      ↔ A = 0 ∧ ∀ t ∈ l, ∀ w, Q w → g t w = 0 := by
  induction l generalizing A with
  | nil =>
    constructor
    · intro h
      exact ⟨by simpa using h [] rfl (by simp), by simp⟩
    · rintro ⟨rfl, _⟩ vt _ _
      simp
  | cons t l ih =>
    constructor
    · intro h
      have h1 : ∀ w, Q w → A + g t w = 0 ∧ ∀ s ∈ l, ∀ w, Q w → g s w = 0 := by
        intro w hw
        refine (ih (A + g t w)).1 fun vt hl hvt => ?_
        have := h (w :: vt) (by simp [hl]) (by
          intro y hy
          rcases List.mem_cons.1 hy with rfl | hy
          · exact hw
          · exact hvt y hy)
        simp only [List.zip_cons_cons, List.map_cons, List.sum_cons] at this
        linarith
      obtain ⟨a, b⟩ := h1 z hz
      rw [hg t, add_zero] at a
      refine ⟨a, ?_⟩
      intro s hs w hw
      rcases List.mem_cons.1 hs with rfl | hs
      · have := (h1 w hw).1
        linarith
      · exact b s hs w hw
    · rintro ⟨rfl, h⟩ vt hl hvt
      cases vt with
      | nil => simp at hl
      | cons w vt =>
        have := (ih 0).2 ⟨rfl, fun s hs => h s (List.mem_cons_of_mem _ hs)⟩ vt (by simpa using hl)
          fun y hy => hvt y (List.mem_cons_of_mem _ hy)
        simp only [List.zip_cons_cons, List.map_cons, List.sum_cons]
        rw [h t (List.mem_cons_self ..) w (hvt w (List.mem_cons_self ..))]
        linarith

theorem kin_zero (P : Problem Ω Γ d) (t : Trap Ω Γ d) (z : Fld Ω Γ d) (hz : ∀ p, z.val p = 0) : kin P t z = 0 := by
  unfold kin
  split
  · next F hF => exact trapLoop_outside P.mesh P.mv P.T t z t.materials 0 F hF fun _ _ p _ => hz p
  · rfl

theorem trapRest_zero (P : Problem Ω Γ d) (t : Trap Ω Γ d) (z : Fld Ω Γ d) (hz : ∀ p, z.val p = 0) :
    trapRest P.mesh P.mats P.dt t z = 0 := by
  have h1 : ∀ (ids : List ℕ) (f : Ω → ℝ), volumeIn P.mesh ids (fun p => f p * z.val p) = 0 := fun ids f =>
    volumeIn_zero P.mesh ids _ fun p _ => by rw [hz p, mul_zero]
  unfold trapRest
  rw [List.sum_eq_zero (l := t.sources.map _), sub_zero]
  · cases P.dt with
    | some h => simp [volume, hz]
    | none =>
      apply List.sum_eq_zero
      intro x hx
      obtain ⟨a, _, rfl⟩ := List.mem_map.1 hx
      exact h1 a.ids t.sol.val
  · intro x hx
    obtain ⟨s, _, rfl⟩ := List.mem_map.1 hx
    exact h1 s.volumes _

/-- The equations of the mobile concentration and those of the traps. -/
theorem equationsHold_iff (W Wt : Fld Ω Γ d → Prop) (P : Problem Ω Γ d) (bcs : List (MobBC Γ)) (v0 z : Fld Ω Γ d) (hv0 : W v0)
    (hz : Wt z) (hz0 : ∀ p, z.val p = 0) :
    EquationsHold W Wt P bcs ↔ (∀ t ∈ P.traps, Writable P t) ∧ (∀ t ∈ P.traps, TrapHolds Wt P t) ∧
      ∀ v, W v → ∀ f, mobileRest P (bcs.map (MobBC.test f)) v = (P.traps.map fun t => kin P t v).sum := by
  have key : ∀ A, (∀ vt : List (Fld Ω Γ d), vt.length = P.traps.length → (∀ w ∈ vt, Wt w) →
      A + ((P.traps.zip vt).map fun y => kin P y.1 y.2 + trapRest P.mesh P.mats P.dt y.1 y.2).sum = 0)
      ↔ A = 0 ∧ ∀ t ∈ P.traps, ∀ w, Wt w → kin P t w + trapRest P.mesh P.mats P.dt t w = 0 := fun A =>
    zip_all Wt z hz (fun t w => kin P t w + trapRest P.mesh P.mats P.dt t w)
      (fun t => by rw [kin_zero P t z hz0, trapRest_zero P t z hz0, add_zero]) P.traps A
  constructor
  · intro h
    have hw : ∀ t ∈ P.traps, Writable P t :=
      ((residual_terms P _ v0 (P.traps.map fun _ => z) (by simp) 0).1 (h v0 hv0 (P.traps.map fun _ => z) (by simp) (by
        intro w hw
        obtain ⟨_, _, rfl⟩ := List.mem_map.1 hw
        exact hz) fun _ => 0)).1
    have hs : ∀ v, W v → ∀ f, mobileRest P (bcs.map (MobBC.test f)) v - (P.traps.map fun t => kin P t v).sum = 0 ∧
        ∀ t ∈ P.traps, ∀ w, Wt w → kin P t w + trapRest P.mesh P.mats P.dt t w = 0 := fun v hv f =>
      (key _).1 fun vt hl hvt => ((residual_terms P _ v vt hl 0).1 (h v hv vt hl hvt f)).2
    refine ⟨hw, ?_, fun v hv f => by linarith [(hs v hv f).1]⟩
    intro t ht w hwt
    exact (trapForm_iff P t w 0).2 ⟨hw t ht, (hs v0 hv0 fun _ => 0).2 t ht w hwt⟩
  · rintro ⟨hw, ht, hm⟩ v hv vt hl hvt f
    refine (residual_terms P _ v vt hl 0).2 ⟨hw, ?_⟩
    refine (key _).2 ⟨by rw [hm v hv f, sub_self], ?_⟩ vt hl hvt
    intro t htm w hwt
    exact ((trapForm_iff P t w 0).1 (ht t htm w hwt)).2

/-- The steady rest of a trap equation. -/
theorem trapRest_steady {P : Problem Ω Γ d} {mat : Ω → Mat} (h : TrapsPlaced P mat) (hdt : P.dt = none) {t : Trap Ω Γ d}
    (ht : t ∈ P.traps) (hs : t.sources = []) (v : Fld Ω Γ d) :
    trapRest P.mesh P.mats P.dt t v = trappedOutside P.mesh mat t v.val := by
  classical
  unfold trapRest trappedOutside
  rw [hdt, hs]
  simp only [List.map_nil, List.sum_nil, sub_zero]
  have e : ((P.mats.filter fun a => a.uid ∉ t.materials.map (·.uid)).map fun a =>
        volumeIn P.mesh a.ids fun p => t.sol.val p * v.val p).sum
      = (P.mats.map fun a => volumeIn P.mesh a.ids fun p =>
          if a ∈ t.materials then 0 else t.sol.val p * v.val p).sum := by
    have : ∀ l : List Mat, (∀ a ∈ l, a ∈ P.mats) →
        ((l.filter fun a => a.uid ∉ t.materials.map (·.uid)).map fun a =>
          volumeIn P.mesh a.ids fun p => t.sol.val p * v.val p).sum
        = (l.map fun a => volumeIn P.mesh a.ids fun p =>
          if a ∈ t.materials then 0 else t.sol.val p * v.val p).sum := by
      intro l
      induction l with
      | nil => intro _; rfl
      | cons a l ih =>
        intro hl
        have ih' := ih fun b hb => hl b (List.mem_cons_of_mem _ hb)
        by_cases ha : a ∈ t.materials
        · have h1 : a.uid ∈ t.materials.map (·.uid) := List.mem_map.2 ⟨a, ha, rfl⟩
          rw [List.filter_cons_of_neg (by simpa using h1), ih', List.map_cons, List.sum_cons]
          simp [ha, volumeIn]
        · have h1 : a.uid ∉ t.materials.map (·.uid) := by
            intro hc
            obtain ⟨b, hb, hu⟩ := List.mem_map.1 hc
            exact ha (h.told b (h.among t ht b hb) a (hl a (List.mem_cons_self ..)) hu ▸ hb)
          rw [List.filter_cons_of_pos (by simpa using h1), List.map_cons, List.sum_cons, ih', List.map_cons, List.sum_cons]
          simp [ha]
    exact this P.mats fun _ h => h
  rw [e]
  have e2 := sum_materials P.mesh h.cover fun a p => if a ∈ t.materials then 0 else t.sol.val p * v.val p
  have hnd : ∀ l : List Mat, (l.flatMap (·.ids)).Nodup → ∀ a ∈ l, a.ids.Nodup := by
    intro l
    induction l with
    | nil => intro _ a ha; simp at ha
    | cons b l ih =>
      intro hl a ha
      rw [List.flatMap_cons, List.nodup_append] at hl
      rcases List.mem_cons.1 ha with rfl | ha
      · exact hl.1
      · exact ih hl.2.1 a ha
  rw [List.map_congr_left fun a ha => volumeIn_eq_sum P.mesh a.ids (hnd P.mats h.cover.nodup a ha) _, e2]
  unfold volume
  refine Finset.sum_congr rfl fun p _ => ?_
  by_cases hp : mat p ∈ t.materials <;> simp [hp]

end

end Festim.Weak
