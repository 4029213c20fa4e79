import Verif.Spec.Invariance
import Verif.Proofs.Forms

/-! # Lemmas for C106: order, numbering and grouping -/

open scoped BigOperators

set_option linter.unusedSectionVars false

namespace Festim.Weak

section
variable {Ω Γ : Type} [Fintype Ω] [Fintype Γ] {d : ℕ} (m : Mesh Ω Γ d)

/-- The form exists and is assembled to `r`. -/
def Val (x : Except PyErr (Form Ω Γ)) (r : ℝ) : Prop := ∃ F, x = .ok F ∧ m.assemble F = r

theorem val_append (x y : Except PyErr (Form Ω Γ)) (r : ℝ) :
    Val m (do let F ← x; let G ← y; .ok (F ++ G)) r ↔ ∃ a b, Val m x a ∧ Val m y b ∧ r = a + b := by
  constructor
  · rintro ⟨F, h, rfl⟩
    cases x with
    | error e => cases h
    | ok F1 =>
      cases y with
      | error e => cases h
      | ok F2 =>
        cases h
        exact ⟨_, _, ⟨F1, rfl, rfl⟩, ⟨F2, rfl, rfl⟩, assemble_append m F1 F2⟩
  · rintro ⟨a, b, ⟨F1, rfl, rfl⟩, ⟨F2, rfl, rfl⟩, rfl⟩
    exact ⟨_, rfl, assemble_append m F1 F2⟩

theorem val_mobileTraps_cons (mv : Mobile Ω Γ d) (T : Temp Ω Γ d) (v : Fld Ω Γ d) (t : Trap Ω Γ d) (l : List (Trap Ω Γ d)) (r : ℝ) :
    Val m (mobileTraps mv T v (t :: l)) r ↔
      ∃ a b, Val m (mobileTrapLoop mv T t v 0 t.materials) a ∧ Val m (mobileTraps mv T v l) b ∧ r = a + b := by
  exact val_append m (mobileTrapLoop mv T t v 0 t.materials) (mobileTraps mv T v l) r

theorem val_trapsForm_cons (mats : List Mat) (mv : Mobile Ω Γ d) (T : Temp Ω Γ d) (dt : Option ℝ) (t : Trap Ω Γ d × Fld Ω Γ d)
    (l : List (Trap Ω Γ d × Fld Ω Γ d)) (r : ℝ) :
    Val m (trapsForm mats mv T dt (t :: l)) r ↔
      ∃ a b, Val m (trapForm mats mv T dt t.1 t.2) a ∧ Val m (trapsForm mats mv T dt l) b ∧ r = a + b := by
  exact val_append m (trapForm mats mv T dt t.1 t.2) (trapsForm mats mv T dt l) r

/-- Accumulation of a trap, or absence from the other materials. -/
noncomputable def accForm (mats : List Mat) (dt : Option ℝ) (t : Trap Ω Γ d) (v : Fld Ω Γ d) : Form Ω Γ :=
  match dt with
  | some h => [.dx fun p => (t.sol.val p - t.prev.val p) / h * v.val p]
  | none => (mats.filter fun mat => mat.uid ∉ t.materials.map (·.uid)).map fun mat =>
      .dxOn mat.ids fun p => t.sol.val p * v.val p

theorem val_trapForm (mats : List Mat) (mv : Mobile Ω Γ d) (T : Temp Ω Γ d) (dt : Option ℝ) (t : Trap Ω Γ d) (v : Fld Ω Γ d)
    (r : ℝ) : Val m (trapForm mats mv T dt t v) r ↔
      ∃ a, Val m (trapLoop mv T t v 0 t.materials) a ∧
        r = m.assemble (accForm mats dt t v) + a + m.assemble (trapSourceForm t v) := by
  unfold trapForm trappingForm
  constructor
  · rintro ⟨F, h, rfl⟩
    cases hx : trapLoop mv T t v 0 t.materials with
    | error e => rw [hx] at h; cases h
    | ok F1 =>
      rw [hx] at h
      cases h
      exact ⟨_, ⟨F1, rfl, rfl⟩, by rw [assemble_append, assemble_append]; rfl⟩
  · rintro ⟨a, ⟨F1, hx, rfl⟩, rfl⟩
    refine ⟨_, by rw [hx]; rfl, ?_⟩
    rw [assemble_append, assemble_append]; rfl

/-- Diffusion, accumulation and Soret terms. -/
noncomputable def bulkForm (P : Problem Ω Γ d) (v : Fld Ω Γ d) : Form Ω Γ :=
  P.mats.flatMap fun mat => mat.ids.flatMap fun sub =>
    subdomainForm P.mesh mat (P.mv.conc mat P.T).1 (P.mv.conc mat P.T).2 P.T P.dt P.soret v sub

theorem residual_iff (P : Problem Ω Γ d) (bcs : List (MobBC Γ)) (v : Fld Ω Γ d) (vt : List (Fld Ω Γ d)) (r : ℝ) :
    Residual P bcs v vt r ↔ ∃ a b, Val P.mesh (mobileTraps P.mv P.T v P.traps) a ∧
      Val P.mesh (trapsForm P.mats P.mv P.T P.dt (P.traps.zip vt)) b ∧
      r = P.mesh.assemble (bulkForm P v) - a + P.mesh.assemble (sourceForm P.mesh P.mats P.mv P.sources v)
        + P.mesh.assemble (fluxesForm P.mesh P.mats P.mv P.T P.dt bcs v) + b := by
  unfold Residual Problem.form mobileForm diffusionForm
  constructor
  · rintro ⟨F, h, rfl⟩
    cases hx : mobileTraps P.mv P.T v P.traps with
    | error e => rw [hx] at h; cases h
    | ok F1 =>
      rw [hx] at h
      cases hy : trapsForm P.mats P.mv P.T P.dt (P.traps.zip vt) with
      | error e => rw [hy] at h; cases h
      | ok F2 =>
        rw [hy] at h
        cases h
        refine ⟨_, _, ⟨F1, rfl, rfl⟩, ⟨F2, rfl, rfl⟩, ?_⟩
        rw [assemble_append, assemble_append, assemble_append, assemble_append, assemble_neg, ← sub_eq_add_neg]; rfl
  · rintro ⟨a, b, ⟨F1, hx, rfl⟩, ⟨F2, hy, rfl⟩, rfl⟩
    refine ⟨_, by rw [hx, hy]; rfl, ?_⟩
    rw [assemble_append, assemble_append, assemble_append, assemble_append, assemble_neg, ← sub_eq_add_neg]; rfl

/-! ## Order -/

theorem perm_mobileTraps (mv : Mobile Ω Γ d) (T : Temp Ω Γ d) (v : Fld Ω Γ d) {l l' : List (Trap Ω Γ d)} (h : l.Perm l') :
    ∀ r, Val m (mobileTraps mv T v l) r ↔ Val m (mobileTraps mv T v l') r := by
  induction h with
  | nil => exact fun r => Iff.rfl
  | cons t _ ih => intro r; simp only [val_mobileTraps_cons, ih]
  | swap t u l =>
    intro r
    simp only [val_mobileTraps_cons]
    constructor
    · rintro ⟨a, b, ha, ⟨a', b', ha', hb', rfl⟩, rfl⟩
      exact ⟨a', _, ha', ⟨a, b', ha, hb', rfl⟩, by ring⟩
    · rintro ⟨a, b, ha, ⟨a', b', ha', hb', rfl⟩, rfl⟩
      exact ⟨a', _, ha', ⟨a, b', ha, hb', rfl⟩, by ring⟩
  | trans _ _ ih ih' => exact fun r => (ih r).trans (ih' r)

theorem perm_trapsForm (mats : List Mat) (mv : Mobile Ω Γ d) (T : Temp Ω Γ d) (dt : Option ℝ)
    {l l' : List (Trap Ω Γ d × Fld Ω Γ d)} (h : l.Perm l') :
    ∀ r, Val m (trapsForm mats mv T dt l) r ↔ Val m (trapsForm mats mv T dt l') r := by
  induction h with
  | nil => exact fun r => Iff.rfl
  | cons t _ ih => intro r; simp only [val_trapsForm_cons, ih]
  | swap t u l =>
    intro r
    simp only [val_trapsForm_cons]
    constructor
    · rintro ⟨a, b, ha, ⟨a', b', ha', hb', rfl⟩, rfl⟩
      exact ⟨a', _, ha', ⟨a, b', ha, hb', rfl⟩, by ring⟩
    · rintro ⟨a, b, ha, ⟨a', b', ha', hb', rfl⟩, rfl⟩
      exact ⟨a', _, ha', ⟨a, b', ha, hb', rfl⟩, by ring⟩
  | trans _ _ ih ih' => exact fun r => (ih r).trans (ih' r)

theorem perm_assemble {F G : Form Ω Γ} (h : F.Perm G) : m.assemble F = m.assemble G := (h.map _).sum_eq

theorem perm_acc {mats mats' : List Mat} (h : mats.Perm mats') (dt : Option ℝ) (t : Trap Ω Γ d) (v : Fld Ω Γ d) :
    m.assemble (accForm mats dt t v) = m.assemble (accForm mats' dt t v) := by
  cases dt with
  | some h0 => rfl
  | none => exact perm_assemble m ((h.filter _).map _)

theorem perm_mats_trapsForm {mats mats' : List Mat} (h : mats.Perm mats') (mv : Mobile Ω Γ d) (T : Temp Ω Γ d) (dt : Option ℝ)
    (l : List (Trap Ω Γ d × Fld Ω Γ d)) :
    ∀ r, Val m (trapsForm mats mv T dt l) r ↔ Val m (trapsForm mats' mv T dt l) r := by
  induction l with
  | nil => exact fun r => Iff.rfl
  | cons t l ih => intro r; simp only [val_trapsForm_cons, ih, val_trapForm, perm_acc m h]

theorem perm_lawMarker {mats mats' : List Mat} (h : mats.Perm mats') (law : Law) (i : ℕ) :
    lawMarker mats law i = lawMarker mats' law i := (h.map _).sum_eq

theorem perm_mobileConc {mats mats' : List Mat} (h : mats.Perm mats') (mv : Mobile Ω Γ d) :
    mv.mobileConc m mats = mv.mobileConc m mats' := by
  funext p; unfold Mobile.mobileConc; rw [perm_lawMarker h, perm_lawMarker h]

theorem perm_mobileConcS {mats mats' : List Mat} (h : mats.Perm mats') (mv : Mobile Ω Γ d) :
    mv.mobileConcS m mats = mv.mobileConcS m mats' := by
  funext p; unfold Mobile.mobileConcS; rw [perm_lawMarker h, perm_lawMarker h]

/-! ## Grouping -/

/-- What a trap and its test function contribute is the sum of what two others do. -/
structure Group (t1 t2 t : Trap Ω Γ d) (v1 v2 v : Fld Ω Γ d) : Prop where
  k1 : t1.k_0 = t.k_0
  k2 : t2.k_0 = t.k_0
  e1 : t1.E_k = t.E_k
  e2 : t2.E_k = t.E_k
  p1 : t1.p_0 = t.p_0
  p2 : t2.p_0 = t.p_0
  f1 : t1.E_p = t.E_p
  f2 : t2.E_p = t.E_p
  m1 : t1.materials = t.materials
  m2 : t2.materials = t.materials
  s1 : t1.sources = []
  s2 : t2.sources = []
  s : t.sources = []
  l1 : t1.density.length = t.density.length
  l2 : t2.density.length = t.density.length
  density : ∀ (i : ℕ) (n1 n2 n : Ω → ℝ), t1.density[i]? = some n1 → t2.density[i]? = some n2 → t.density[i]? = some n →
    ∀ p, n p * v.val p = n1 p * v1.val p + n2 p * v2.val p
  sol : ∀ p, t.sol.val p * v.val p = t1.sol.val p * v1.val p + t2.sol.val p * v2.val p
  prev : ∀ p, t.prev.val p * v.val p = t1.prev.val p * v1.val p + t2.prev.val p * v2.val p

/-- Three forms, the last being the sum of the others; or three failures. -/
def Sums (x1 x2 x : Except PyErr (Form Ω Γ)) : Prop :=
  (∃ e1 e2 e, x1 = .error e1 ∧ x2 = .error e2 ∧ x = .error e) ∨
    ∃ F1 F2 F, x1 = .ok F1 ∧ x2 = .ok F2 ∧ x = .ok F ∧ m.assemble F = m.assemble F1 + m.assemble F2

theorem sums_val {x1 x2 x : Except PyErr (Form Ω Γ)} (h : Sums m x1 x2 x) (r : ℝ) :
    Val m x r ↔ ∃ a b, Val m x1 a ∧ Val m x2 b ∧ r = a + b := by
  rcases h with ⟨e1, e2, e, rfl, rfl, rfl⟩ | ⟨F1, F2, F, rfl, rfl, rfl, h⟩
  · constructor
    · rintro ⟨F, h, _⟩; cases h
    · rintro ⟨a, b, ⟨F, h, _⟩, _⟩; cases h
  · constructor
    · rintro ⟨F, h0, rfl⟩
      cases h0
      exact ⟨_, _, ⟨F1, rfl, rfl⟩, ⟨F2, rfl, rfl⟩, h⟩
    · rintro ⟨a, b, ⟨F1', h1, rfl⟩, ⟨F2', h2, rfl⟩, rfl⟩
      cases h1; cases h2
      exact ⟨F, rfl, h⟩

theorem group_params {t1 t2 t : Trap Ω Γ d} {v1 v2 v : Fld Ω Γ d} (h : Group t1 t2 t v1 v2 v) (i : ℕ) :
    (∃ e1 e2 e, t1.params i = .error e1 ∧ t2.params i = .error e2 ∧ t.params i = .error e) ∨
      ∃ k Ek q Ep n1 n2 n, t1.params i = .ok ⟨k, Ek, q, Ep, n1⟩ ∧ t2.params i = .ok ⟨k, Ek, q, Ep, n2⟩ ∧
        t.params i = .ok ⟨k, Ek, q, Ep, n⟩ ∧ ∀ p, n p * v.val p = n1 p * v1.val p + n2 p * v2.val p := by
  have dens : ∀ j, (∃ e, densityAt t1.density j = .error e ∧ densityAt t2.density j = .error e ∧ densityAt t.density j = .error e) ∨
      ∃ n1 n2 n, densityAt t1.density j = .ok n1 ∧ densityAt t2.density j = .ok n2 ∧ densityAt t.density j = .ok n ∧
        ∀ p, n p * v.val p = n1 p * v1.val p + n2 p * v2.val p := by
    intro j
    by_cases hj : j < t.density.length
    · have h1 : t1.density[j]? = some (t1.density[j]'(h.l1 ▸ hj)) := List.getElem?_eq_getElem _
      have h2 : t2.density[j]? = some (t2.density[j]'(h.l2 ▸ hj)) := List.getElem?_eq_getElem _
      have h3 : t.density[j]? = some t.density[j] := List.getElem?_eq_getElem _
      exact .inr ⟨_, _, _, by rw [densityAt, h1], by rw [densityAt, h2], by rw [densityAt, h3], h.density j _ _ _ h1 h2 h3⟩
    · have h1 : t1.density[j]? = none := by rw [List.getElem?_eq_none_iff, h.l1]; omega
      have h2 : t2.density[j]? = none := by rw [List.getElem?_eq_none_iff, h.l2]; omega
      have h3 : t.density[j]? = none := by rw [List.getElem?_eq_none_iff]; omega
      exact .inl ⟨_, by rw [densityAt, h1], by rw [densityAt, h2], by rw [densityAt, h3]⟩
  unfold Trap.params
  rw [h.k1, h.k2, h.e1, h.e2, h.p1, h.p2, h.f1, h.f2]
  cases t.k_0 with
  | list l =>
    dsimp only
    cases (Param.list l).index i with
    | error e => exact .inl ⟨_, _, _, rfl, rfl, rfl⟩
    | ok k =>
      cases t.E_k.index i with
      | error e => exact .inl ⟨_, _, _, rfl, rfl, rfl⟩
      | ok Ek =>
        cases t.p_0.index i with
        | error e => exact .inl ⟨_, _, _, rfl, rfl, rfl⟩
        | ok q =>
          cases t.E_p.index i with
          | error e => exact .inl ⟨_, _, _, rfl, rfl, rfl⟩
          | ok Ep =>
            rcases dens i with ⟨e, h1, h2, h3⟩ | ⟨n1, n2, n, h1, h2, h3, h4⟩
            · rw [h1, h2, h3]; exact .inl ⟨_, _, _, rfl, rfl, rfl⟩
            · rw [h1, h2, h3]; exact .inr ⟨_, _, _, _, _, _, _, rfl, rfl, rfl, h4⟩
  | num x =>
    dsimp only
    rcases dens 0 with ⟨e, h1, h2, h3⟩ | ⟨n1, n2, n, h1, h2, h3, h4⟩
    · rw [h1, h2, h3]; exact .inl ⟨_, _, _, rfl, rfl, rfl⟩
    · rw [h1, h2, h3]
      cases t.E_k.asNum with
      | error e => exact .inl ⟨_, _, _, rfl, rfl, rfl⟩
      | ok Ek =>
        cases t.p_0.asNum with
        | error e => exact .inl ⟨_, _, _, rfl, rfl, rfl⟩
        | ok q =>
          cases t.E_p.asNum with
          | error e => exact .inl ⟨_, _, _, rfl, rfl, rfl⟩
          | ok Ep => exact .inr ⟨_, _, _, _, _, _, _, rfl, rfl, rfl, h4⟩

theorem dxOn_add (ids : List ℕ) (f g h : Ω → ℝ) (e : ∀ p, h p = f p + g p) :
    m.integrate (.dxOn ids h) = m.integrate (.dxOn ids f) + m.integrate (.dxOn ids g) := by
  simp only [Mesh.integrate]
  rw [← Finset.sum_add_distrib]
  refine Finset.sum_congr rfl fun p _ => ?_
  split_ifs
  · rw [e]; ring
  · simp

theorem dx_add (f g h : Ω → ℝ) (e : ∀ p, h p = f p + g p) :
    m.integrate (.dx h) = m.integrate (.dx f) + m.integrate (.dx g) := by
  simp only [Mesh.integrate]
  rw [← Finset.sum_add_distrib]
  exact Finset.sum_congr rfl fun p _ => by rw [e]; ring

theorem exchange_add {t1 t2 t : Trap Ω Γ d} {v1 v2 v : Fld Ω Γ d} (h : Group t1 t2 t v1 v2 v) (ids : List ℕ)
    (k Ek q Ep : ℝ) (c T : Ω → ℝ) {n1 n2 n : Ω → ℝ} (hn : ∀ p, n p * v.val p = n1 p * v1.val p + n2 p * v2.val p)
    {F1 F2 F : Form Ω Γ} (hF : m.assemble F = m.assemble F1 + m.assemble F2) :
    m.assemble ([.dxOn ids fun p => -k * Real.exp (-Ek / kB / T p) * c p * (n p - t.sol.val p) * v.val p,
        .dxOn ids fun p => q * Real.exp (-Ep / kB / T p) * t.sol.val p * v.val p] ++ F)
      = m.assemble ([.dxOn ids fun p => -k * Real.exp (-Ek / kB / T p) * c p * (n1 p - t1.sol.val p) * v1.val p,
        .dxOn ids fun p => q * Real.exp (-Ep / kB / T p) * t1.sol.val p * v1.val p] ++ F1)
      + m.assemble ([.dxOn ids fun p => -k * Real.exp (-Ek / kB / T p) * c p * (n2 p - t2.sol.val p) * v2.val p,
        .dxOn ids fun p => q * Real.exp (-Ep / kB / T p) * t2.sol.val p * v2.val p] ++ F2) := by
  simp only [assemble_append, assemble_cons, assemble_nil, hF]
  rw [dxOn_add m ids (fun p => -k * Real.exp (-Ek / kB / T p) * c p * (n1 p - t1.sol.val p) * v1.val p)
      (fun p => -k * Real.exp (-Ek / kB / T p) * c p * (n2 p - t2.sol.val p) * v2.val p)
      (fun p => -k * Real.exp (-Ek / kB / T p) * c p * (n p - t.sol.val p) * v.val p)
      (fun p => by
        rw [mul_assoc (-k * _ * _), sub_mul, hn p, h.sol p]; ring),
    dxOn_add m ids (fun p => q * Real.exp (-Ep / kB / T p) * t1.sol.val p * v1.val p)
      (fun p => q * Real.exp (-Ep / kB / T p) * t2.sol.val p * v2.val p)
      (fun p => q * Real.exp (-Ep / kB / T p) * t.sol.val p * v.val p)
      (fun p => by rw [mul_assoc _ (t.sol.val p), h.sol p]; ring)]
  ring

theorem group_mobileTrapLoop (mv : Mobile Ω Γ d) (T : Temp Ω Γ d) {t1 t2 t : Trap Ω Γ d} {v1 v2 v : Fld Ω Γ d}
    (h : Group t1 t2 t v1 v2 v) (mats : List Mat) :
    ∀ i, Sums m (mobileTrapLoop mv T t1 v1 i mats) (mobileTrapLoop mv T t2 v2 i mats) (mobileTrapLoop mv T t v i mats) := by
  induction mats with
  | nil => intro i; exact .inr ⟨[], [], [], rfl, rfl, rfl, by simp⟩
  | cons a mats ih =>
    intro i
    have ih := ih (i + 1)
    unfold mobileTrapLoop
    rw [params_eq, params_eq, params_eq]
    rcases group_params h i with ⟨e1, e2, e, h1, h2, h3⟩ | ⟨k, Ek, q, Ep, n1, n2, n, h1, h2, h3, hn⟩
    · rw [h1, h2, h3]; exact .inl ⟨_, _, _, rfl, rfl, rfl⟩
    · rw [h1, h2, h3]
      rcases ih with ⟨e1, e2, e, g1, g2, g3⟩ | ⟨F1, F2, F, g1, g2, g3, hF⟩
      · rw [g1, g2, g3]; exact .inl ⟨_, _, _, rfl, rfl, rfl⟩
      · rw [g1, g2, g3]
        exact .inr ⟨_, _, _, rfl, rfl, rfl, exchange_add m h a.ids k Ek q Ep _ _ hn hF⟩

theorem group_trapLoop (mv : Mobile Ω Γ d) (T : Temp Ω Γ d) {t1 t2 t : Trap Ω Γ d} {v1 v2 v : Fld Ω Γ d}
    (h : Group t1 t2 t v1 v2 v) (mats : List Mat) :
    ∀ i, Sums m (trapLoop mv T t1 v1 i mats) (trapLoop mv T t2 v2 i mats) (trapLoop mv T t v i mats) := by
  induction mats with
  | nil => intro i; exact .inr ⟨[], [], [], rfl, rfl, rfl, by simp⟩
  | cons a mats ih =>
    intro i
    have ih := ih (i + 1)
    unfold trapLoop
    rcases group_params h i with ⟨e1, e2, e, h1, h2, h3⟩ | ⟨k, Ek, q, Ep, n1, n2, n, h1, h2, h3, hn⟩
    · rw [h1, h2, h3]; exact .inl ⟨_, _, _, rfl, rfl, rfl⟩
    · rw [h1, h2, h3]
      dsimp only [bind, Except.bind]
      by_cases hh : mv.theta = true ∧ a.law = .henry
      · rw [if_pos hh, if_pos hh, if_pos hh]; exact .inl ⟨_, _, _, rfl, rfl, rfl⟩
      · rw [if_neg hh, if_neg hh, if_neg hh]
        rcases ih with ⟨e1, e2, e, g1, g2, g3⟩ | ⟨F1, F2, F, g1, g2, g3, hF⟩
        · rw [g1, g2, g3]; exact .inl ⟨_, _, _, rfl, rfl, rfl⟩
        · rw [g1, g2, g3]
          exact .inr ⟨_, _, _, rfl, rfl, rfl, exchange_add m h a.ids k Ek q Ep _ _ hn hF⟩

theorem group_acc (mats : List Mat) (dt : Option ℝ) {t1 t2 t : Trap Ω Γ d} {v1 v2 v : Fld Ω Γ d} (h : Group t1 t2 t v1 v2 v) :
    m.assemble (accForm mats dt t v) = m.assemble (accForm mats dt t1 v1) + m.assemble (accForm mats dt t2 v2) := by
  cases dt with
  | some h0 =>
    simp only [accForm, assemble_cons, assemble_nil, add_zero]
    refine dx_add m _ _ _ fun p => ?_
    rw [show (t.sol.val p - t.prev.val p) / h0 * v.val p = (t.sol.val p * v.val p - t.prev.val p * v.val p) / h0 by ring,
      h.sol, h.prev]
    ring
  | none =>
    simp only [accForm, h.m1, h.m2]
    induction mats.filter fun mat => mat.uid ∉ t.materials.map (·.uid) with
    | nil => simp
    | cons a l ih =>
      simp only [List.map_cons, assemble_cons]
      rw [ih, dxOn_add m a.ids _ _ _ h.sol]
      ring

theorem group_trapForm (mats : List Mat) (mv : Mobile Ω Γ d) (T : Temp Ω Γ d) (dt : Option ℝ) {t1 t2 t : Trap Ω Γ d}
    {v1 v2 v : Fld Ω Γ d} (h : Group t1 t2 t v1 v2 v) (r : ℝ) :
    Val m (trapForm mats mv T dt t v) r ↔
      ∃ a b, Val m (trapForm mats mv T dt t1 v1) a ∧ Val m (trapForm mats mv T dt t2 v2) b ∧ r = a + b := by
  have e1 : trapSourceForm t1 v1 = [] := by rw [trapSourceForm, h.s1]; rfl
  have e2 : trapSourceForm t2 v2 = [] := by rw [trapSourceForm, h.s2]; rfl
  have e : trapSourceForm t v = [] := by rw [trapSourceForm, h.s]; rfl
  simp only [val_trapForm, e, e1, e2, h.m1, h.m2, sums_val m (group_trapLoop m mv T h t.materials 0), group_acc m mats dt h]
  constructor
  · rintro ⟨a, ⟨a1, a2, h1, h2, rfl⟩, rfl⟩
    exact ⟨_, _, ⟨a1, h1, rfl⟩, ⟨a2, h2, rfl⟩, by simp; ring⟩
  · rintro ⟨_, _, ⟨a1, h1, rfl⟩, ⟨a2, h2, rfl⟩, rfl⟩
    exact ⟨_, ⟨a1, a2, h1, h2, rfl⟩, by simp; ring⟩

theorem group_residual (P : Problem Ω Γ d) (bcs : List (MobBC Γ)) (v : Fld Ω Γ d) (t1 t2 t : Trap Ω Γ d) (w1 w2 w : Fld Ω Γ d)
    (l : List (Trap Ω Γ d)) (vt : List (Fld Ω Γ d)) (hv : Group t1 t2 t v v v) (hw : Group t1 t2 t w1 w2 w) (r : ℝ) :
    Residual { P with traps := t1 :: t2 :: l } bcs v (w1 :: w2 :: vt) r ↔ Residual { P with traps := t :: l } bcs v (w :: vt) r := by
  simp only [residual_iff, List.zip_cons_cons, val_mobileTraps_cons, val_trapsForm_cons, group_trapForm P.mesh _ _ _ _ hw, hv.m1,
    hv.m2, sums_val P.mesh (group_mobileTrapLoop P.mesh P.mv P.T hv t.materials 0)]
  constructor
  · rintro ⟨_, _, ⟨a1, _, h1, ⟨a2, a3, h2, h3, rfl⟩, rfl⟩, ⟨b1, _, g1, ⟨b2, b3, g2, g3, rfl⟩, rfl⟩, rfl⟩
    exact ⟨_, _, ⟨_, a3, ⟨a1, a2, h1, h2, rfl⟩, h3, rfl⟩, ⟨_, b3, ⟨b1, b2, g1, g2, rfl⟩, g3, rfl⟩,
      by simp only [bulkForm]; ring⟩
  · rintro ⟨_, _, ⟨_, a3, ⟨a1, a2, h1, h2, rfl⟩, h3, rfl⟩, ⟨_, b3, ⟨b1, b2, g1, g2, rfl⟩, g3, rfl⟩, rfl⟩
    exact ⟨_, _, ⟨a1, _, h1, ⟨a2, a3, h2, h3, rfl⟩, rfl⟩, ⟨b1, _, g1, ⟨b2, b3, g2, g3, rfl⟩, rfl⟩,
      by simp only [bulkForm]; ring⟩

end

end Festim.Weak
