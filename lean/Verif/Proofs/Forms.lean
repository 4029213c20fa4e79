import Verif.Spec.Forms
import Mathlib.Tactic.Ring
import Mathlib.Tactic.FieldSimp
import Mathlib.Tactic.Linarith
import Mathlib.Algebra.BigOperators.Ring.Finset

/-! # Lemmas about the variational forms -/

open scoped BigOperators

set_option linter.unusedSectionVars false

namespace Festim.Weak

section
variable {Ω Γ : Type} {d : ℕ}

@[simp] theorem Fld.const_val (a : ℝ) (p : Ω) : (Fld.const a : Fld Ω Γ d).val p = a := rfl
@[simp] theorem Fld.const_grad (a : ℝ) (p : Ω) (i : Fin d) :
    (Fld.const a : Fld Ω Γ d).grad p i = 0 := rfl
@[simp] theorem Fld.const_tr (a : ℝ) (q : Γ) : (Fld.const a : Fld Ω Γ d).tr q = a := rfl
@[simp] theorem Fld.mul_val (u v : Fld Ω Γ d) (p : Ω) : (u * v).val p = u.val p * v.val p := rfl
@[simp] theorem Fld.mul_grad (u v : Fld Ω Γ d) (p : Ω) (i : Fin d) :
    (u * v).grad p i = u.grad p i * v.val p + u.val p * v.grad p i := rfl
@[simp] theorem Fld.mul_tr (u v : Fld Ω Γ d) (q : Γ) : (u * v).tr q = u.tr q * v.tr q := rfl
@[simp] theorem Fld.sub_val (u v : Fld Ω Γ d) (p : Ω) : (u - v).val p = u.val p - v.val p := rfl
@[simp] theorem Fld.sub_grad (u v : Fld Ω Γ d) (p : Ω) (i : Fin d) :
    (u - v).grad p i = u.grad p i - v.grad p i := rfl
@[simp] theorem Fld.sub_tr (u v : Fld Ω Γ d) (q : Γ) : (u - v).tr q = u.tr q - v.tr q := rfl
@[simp] theorem Fld.div_val (u v : Fld Ω Γ d) (p : Ω) : (u / v).val p = u.val p / v.val p := rfl
@[simp] theorem Fld.div_grad (u v : Fld Ω Γ d) (p : Ω) (i : Fin d) :
    (u / v).grad p i = (u.grad p i * v.val p - u.val p * v.grad p i) / v.val p ^ 2 := rfl
@[simp] theorem Fld.div_tr (u v : Fld Ω Γ d) (q : Γ) : (u / v).tr q = u.tr q / v.tr q := rfl
@[simp] theorem Fld.exp_val (u : Fld Ω Γ d) (p : Ω) : (Fld.exp u).val p = Real.exp (u.val p) := rfl
@[simp] theorem Fld.sq_val (u : Fld Ω Γ d) (p : Ω) : u.sq.val p = u.val p ^ 2 := rfl

theorem dot_zero_right (a : Fin d → ℝ) (b : Fin d → ℝ) (h : ∀ i, b i = 0) : dot a b = 0 := by
  simp [dot, h]

theorem dot_smul_left (k : ℝ) (a b : Fin d → ℝ) : dot (fun i => k * a i) b = k * dot a b := by
  simp only [dot, Finset.mul_sum, mul_assoc]

theorem dot_self_nonneg (a : Fin d → ℝ) : 0 ≤ dot a a :=
  Finset.sum_nonneg fun i _ => mul_self_nonneg (a i)

theorem conc_val (mv : Mobile Ω Γ d) (mat : Mat) (T : Temp Ω Γ d) (p : Ω) :
    (mv.conc mat T).1.val p = physConc mv.theta mat (T.T.val p) (mv.sol.val p) := by
  unfold Mobile.conc physConc arrhenius arr
  cases mv.theta <;> cases mat.law <;> simp [mul_comm]

theorem conc_prev_val (mv : Mobile Ω Γ d) (mat : Mat) (T : Temp Ω Γ d) (p : Ω) :
    (mv.conc mat T).2.val p = physConc mv.theta mat (T.Tn.val p) (mv.prev.val p) := by
  unfold Mobile.conc physConc arrhenius arr
  cases mv.theta <;> cases mat.law <;> simp [mul_comm]

theorem params_eq (trap : Trap Ω Γ d) (i : ℕ) : trap.paramsMobile i = trap.params i := rfl

end

section
variable {Ω Γ : Type} [Fintype Ω] [Fintype Γ] {d : ℕ} (m : Mesh Ω Γ d)

@[simp] theorem assemble_nil : m.assemble [] = 0 := rfl

@[simp] theorem assemble_cons (t : Term Ω Γ) (F : Form Ω Γ) :
    m.assemble (t :: F) = m.integrate t + m.assemble F := rfl

@[simp] theorem assemble_append (F G : Form Ω Γ) :
    m.assemble (F ++ G) = m.assemble F + m.assemble G := by
  simp [Mesh.assemble]

theorem assemble_flatMap {α : Type} (l : List α) (f : α → Form Ω Γ) :
    m.assemble (l.flatMap f) = (l.map fun x => m.assemble (f x)).sum := by
  induction l with
  | nil => rfl
  | cons x l ih => simp [ih]

theorem assemble_map {α : Type} (l : List α) (f : α → Term Ω Γ) :
    m.assemble (l.map f) = (l.map fun x => m.integrate (f x)).sum := by
  induction l with
  | nil => rfl
  | cons x l ih => simp [ih]

theorem integrate_dx (g : Ω → ℝ) : m.integrate (.dx g) = volume m g := rfl

theorem integrate_dxOn (ids : List ℕ) (g : Ω → ℝ) :
    m.integrate (.dxOn ids g) = volumeIn m ids g := by
  simp [Mesh.integrate, volumeIn, Finset.sum_filter]

theorem integrate_dxOn1 (i : ℕ) (g : Ω → ℝ) :
    m.integrate (.dxOn [i] g) = volumeOf m i g := by
  simp [Mesh.integrate, volumeOf, Finset.sum_filter]

theorem integrate_ds (i : ℕ) (g : Γ → ℝ) : m.integrate (.ds i g) = surface m i g := by
  simp [Mesh.integrate, surface, Finset.sum_filter]

theorem assemble_neg (F : Form Ω Γ) : m.assemble (Form.neg F) = -m.assemble F := by
  induction F with
  | nil => simp [Form.neg]
  | cons t F ih =>
    have hneg : m.assemble (Form.neg (t :: F)) = -m.integrate t + m.assemble (Form.neg F) := by
      unfold Form.neg
      rw [List.map_cons, assemble_cons]
      congr 1
      cases t with
      | dx g => simp [Mesh.integrate]
      | dxOn ids g =>
        simp only [Mesh.integrate]
        rw [← Finset.sum_neg_distrib]
        refine Finset.sum_congr rfl fun p _ => ?_
        split_ifs <;> simp
      | ds id g =>
        simp only [Mesh.integrate]
        rw [← Finset.sum_neg_distrib]
        refine Finset.sum_congr rfl fun p _ => ?_
        split_ifs <;> simp
    rw [hneg, ih, assemble_cons]
    ring

theorem volume_add (f g : Ω → ℝ) : volume m (fun p => f p + g p) = volume m f + volume m g := by
  simp [volume, mul_add, Finset.sum_add_distrib]

theorem volume_sub (f g : Ω → ℝ) : volume m (fun p => f p - g p) = volume m f - volume m g := by
  simp [volume, mul_sub, Finset.sum_sub_distrib]

theorem volume_smul (k : ℝ) (f : Ω → ℝ) : volume m (fun p => k * f p) = k * volume m f := by
  simp only [volume, Finset.mul_sum]
  exact Finset.sum_congr rfl fun p _ => by ring

theorem volumeOf_add (i : ℕ) (f g : Ω → ℝ) :
    volumeOf m i (fun p => f p + g p) = volumeOf m i f + volumeOf m i g := by
  simp [volumeOf, mul_add, Finset.sum_add_distrib]

theorem volumeOf_smul (i : ℕ) (k : ℝ) (f : Ω → ℝ) :
    volumeOf m i (fun p => k * f p) = k * volumeOf m i f := by
  simp only [volumeOf, Finset.mul_sum]
  exact Finset.sum_congr rfl fun p _ => by ring

theorem volumeIn_smul (i : List ℕ) (k : ℝ) (f : Ω → ℝ) :
    volumeIn m i (fun p => k * f p) = k * volumeIn m i f := by
  simp only [volumeIn, Finset.mul_sum]
  exact Finset.sum_congr rfl fun p _ => by ring

theorem surface_smul (i : ℕ) (k : ℝ) (f : Γ → ℝ) :
    surface m i (fun p => k * f p) = k * surface m i f := by
  simp only [surface, Finset.mul_sum]
  exact Finset.sum_congr rfl fun p _ => by ring

theorem surface_add (i : ℕ) (f g : Γ → ℝ) :
    surface m i (fun p => f p + g p) = surface m i f + surface m i g := by
  simp [surface, mul_add, Finset.sum_add_distrib]

/-- Sum over the materials and their subdomains of an integral is the integral over the mesh. -/
theorem sum_materials {mats : List Mat} {mat : Ω → Mat} (h : Covers m mats mat)
    (g : Mat → Ω → ℝ) :
    (mats.map fun mt => (mt.ids.map fun i => volumeOf m i (g mt)).sum).sum
      = volume m fun p => g (mat p) p := by
  have key : ∀ (l : List Mat), (∀ mt ∈ l, mt ∈ mats) → (l.flatMap (·.ids)).Nodup →
      (l.map fun mt => (mt.ids.map fun i => volumeOf m i (g mt)).sum).sum
        = ∑ p, m.w p * (l.map fun mt => if m.vm p ∈ mt.ids then g mt p else 0).sum := by
    intro l hl hnd
    induction l with
    | nil => simp
    | cons a l ih =>
      rw [List.map_cons, List.sum_cons,
        ih (fun x hx => hl x (List.mem_cons_of_mem _ hx)) (by
          rw [List.flatMap_cons, List.nodup_append] at hnd; exact hnd.2.1)]
      simp only [List.map_cons, List.sum_cons, mul_add, Finset.sum_add_distrib]
      congr 1
      rw [List.flatMap_cons, List.nodup_append] at hnd
      have hndids := hnd.1
      clear ih hnd hl
      generalize a.ids = L at hndids ⊢
      induction L with
      | nil => simp
      | cons i ids ih2 =>
        rw [List.map_cons, List.sum_cons, ih2 (List.nodup_cons.1 hndids).2, volumeOf,
          Finset.sum_filter, ← Finset.sum_add_distrib]
        refine Finset.sum_congr rfl fun p _ => ?_
        by_cases hp : m.vm p = i
        · have : m.vm p ∉ ids := by rw [hp]; exact (List.nodup_cons.1 hndids).1
          simp [hp, (List.nodup_cons.1 hndids).1]
        · simp [hp]
  rw [key mats (fun _ h => h) h.nodup, volume]
  refine Finset.sum_congr rfl fun p _ => ?_
  congr 1
  have hone : ∀ (l : List Mat), (l.flatMap (·.ids)).Nodup → mat p ∈ l →
      (l.map fun mt => if m.vm p ∈ mt.ids then g mt p else 0).sum = g (mat p) p := by
    intro l hnd hmem
    induction l with
    | nil => simp at hmem
    | cons a l ih =>
      rw [List.flatMap_cons, List.nodup_append] at hnd
      by_cases ha : m.vm p ∈ a.ids
      · have hz : ∀ mt ∈ l, m.vm p ∉ mt.ids := by
          intro mt hmt hin
          exact hnd.2.2 _ ha _ (List.mem_flatMap.2 ⟨mt, hmt, hin⟩) rfl
        have hmat : mat p = a := by
          rcases List.mem_cons.1 hmem with h1 | h1
          · exact h1
          · exact absurd (h.has p) (hz _ h1)
        have hzero : (l.map fun mt => if m.vm p ∈ mt.ids then g mt p else 0).sum = 0 := by
          apply List.sum_eq_zero
          intro x hx
          obtain ⟨mt, hmt, rfl⟩ := List.mem_map.1 hx
          simp [hz mt hmt]
        rw [List.map_cons, List.sum_cons, hzero, hmat]
        simp [ha]
      · have hmat : mat p ∈ l := by
          rcases List.mem_cons.1 hmem with h1 | h1
          · exact absurd (h1 ▸ h.has p) ha
          · exact h1
        rw [List.map_cons, List.sum_cons, ih hnd.2.1 hmat]
        simp [ha]
  exact hone mats h.nodup (h.mem p)

/-- The kinetic terms of the trap equation are those of the mobile equation. -/
theorem trapLoop_mobile (mv : Mobile Ω Γ d) (T : Temp Ω Γ d) (trap : Trap Ω Γ d) (v : Fld Ω Γ d)
    (ms : List Mat) (i : ℕ) (F : Form Ω Γ) (h : trapLoop mv T trap v i ms = .ok F) :
    mobileTrapLoop mv T trap v i ms = .ok F := by
  induction ms generalizing i F with
  | nil => exact h
  | cons a ms ih =>
    simp only [trapLoop, bind, Except.bind] at h
    simp only [mobileTrapLoop, params_eq, bind, Except.bind]
    cases hp : trap.params i with
    | error e => rw [hp] at h; cases h
    | ok P =>
      rw [hp] at h
      simp only at h ⊢
      split_ifs at h
      cases hl : trapLoop mv T trap v (i + 1) ms with
      | error e => rw [hl] at h; cases h
      | ok G =>
        rw [hl] at h
        rw [ih _ _ hl]
        exact h

/-- What remains of a trap equation besides its kinetics. -/
noncomputable def trapRest (mats : List Mat) (dt : Option ℝ) (trap : Trap Ω Γ d) (v : Fld Ω Γ d) :
    ℝ :=
  (match dt with
    | some h => volume m fun p => (trap.sol.val p - trap.prev.val p) / h * v.val p
    | none =>
      ((mats.filter fun mat => mat.uid ∉ trap.materials.map (·.uid)).map fun mat =>
        volumeIn m mat.ids fun p => trap.sol.val p * v.val p).sum)
  - (trap.sources.map fun s => volumeIn m s.volumes fun p => s.at trap.sol.val p * v.val p).sum

theorem trapSource_assemble (trap : Trap Ω Γ d) (v : Fld Ω Γ d) :
    m.assemble (trapSourceForm trap v)
      = -(trap.sources.map fun s => volumeIn m s.volumes fun p => s.at trap.sol.val p * v.val p).sum := by
  rw [trapSourceForm, assemble_map]
  induction trap.sources with
  | nil => simp
  | cons s l ih =>
    rw [List.map_cons, List.sum_cons, ih, List.map_cons, List.sum_cons, integrate_dxOn, neg_add]
    congr 1
    have := volumeIn_smul m s.volumes (-1) (fun p => s.at trap.sol.val p * v.val p)
    rw [neg_one_mul] at this
    rw [← this]
    congr 1
    funext p
    ring

theorem trapForm_ok (mats : List Mat) (mv : Mobile Ω Γ d) (T : Temp Ω Γ d) (dt : Option ℝ)
    (trap : Trap Ω Γ d) (v : Fld Ω Γ d) (F : Form Ω Γ) (h : trapForm mats mv T dt trap v = .ok F) :
    ∃ K, trapLoop mv T trap v 0 trap.materials = .ok K ∧
      m.assemble F = m.assemble K + trapRest m mats dt trap v := by
  simp only [trapForm, trappingForm, bind, Except.bind] at h
  cases hl : trapLoop mv T trap v 0 trap.materials with
  | error e => rw [hl] at h; cases h
  | ok K =>
    rw [hl] at h
    refine ⟨K, rfl, ?_⟩
    simp only [Except.ok.injEq] at h
    subst h
    rw [assemble_append, assemble_append, trapSource_assemble]
    unfold trapRest
    cases dt with
    | some h => simp only [assemble_cons, assemble_nil, integrate_dx]; ring
    | none =>
      simp only [assemble_map, integrate_dxOn]
      ring

theorem trapsForm_ok (mats : List Mat) (mv : Mobile Ω Γ d) (T : Temp Ω Γ d) (dt : Option ℝ)
    (traps : List (Trap Ω Γ d)) (v : Fld Ω Γ d) (F : Form Ω Γ)
    (h : trapsForm mats mv T dt (traps.zip (traps.map fun _ => v)) = .ok F) :
    ∃ K, mobileTraps mv T v traps = .ok K ∧
      m.assemble F = m.assemble K + (traps.map fun t => trapRest m mats dt t v).sum := by
  induction traps generalizing F with
  | nil =>
    cases h
    exact ⟨[], rfl, by simp⟩
  | cons t traps ih =>
    simp only [List.map_cons, List.zip_cons_cons, trapsForm, bind, Except.bind] at h
    cases ht : trapForm mats mv T dt t v with
    | error e => rw [ht] at h; cases h
    | ok F1 =>
      rw [ht] at h
      simp only at h
      cases hr : trapsForm mats mv T dt (traps.zip (traps.map fun _ => v)) with
      | error e => rw [hr] at h; cases h
      | ok F2 =>
        rw [hr] at h
        simp only [Except.ok.injEq] at h
        subst h
        obtain ⟨K1, hK1, e1⟩ := trapForm_ok m mats mv T dt t v F1 ht
        obtain ⟨K2, hK2, e2⟩ := ih F2 hr
        refine ⟨K1 ++ K2, ?_, ?_⟩
        · simp only [mobileTraps, bind, Except.bind, trapLoop_mobile _ _ _ _ _ _ _ hK1, hK2]
        · rw [assemble_append, assemble_append, e1, e2, List.map_cons, List.sum_cons]
          ring

/-- Transient, diffusion and Soret terms of all the materials. -/
noncomputable def bulk (P : Problem Ω Γ d) (v : Fld Ω Γ d) : ℝ :=
  (P.mats.map fun mat => (mat.ids.map fun sub =>
    P.mesh.assemble (subdomainForm P.mesh mat (P.mv.conc mat P.T).1 (P.mv.conc mat P.T).2 P.T P.dt
      P.soret v sub)).sum).sum

/-- With the same test function for the solute and all the traps, the kinetics disappears. -/
theorem form_assemble (P : Problem Ω Γ d) (bcs : List (MobBC Γ)) (v : Fld Ω Γ d) (F : Form Ω Γ)
    (h : P.form bcs v (P.traps.map fun _ => v) = .ok F) :
    P.mesh.assemble F = bulk P v
      + P.mesh.assemble (sourceForm P.mesh P.mats P.mv P.sources v)
      + P.mesh.assemble (fluxesForm P.mesh P.mats P.mv P.T P.dt bcs v)
      + (P.traps.map fun t => trapRest P.mesh P.mats P.dt t v).sum := by
  simp only [Problem.form, mobileForm, diffusionForm, bind, Except.bind] at h
  cases hm : mobileTraps P.mv P.T v P.traps with
  | error e => rw [hm] at h; cases h
  | ok K =>
    rw [hm] at h
    simp only at h
    cases ht : trapsForm P.mats P.mv P.T P.dt (P.traps.zip (P.traps.map fun _ => v)) with
    | error e => rw [ht] at h; cases h
    | ok G =>
      rw [ht] at h
      simp only [Except.ok.injEq] at h
      subst h
      obtain ⟨K', hK', e⟩ := trapsForm_ok P.mesh P.mats P.mv P.T P.dt P.traps v G ht
      rw [hm] at hK'
      cases hK'
      simp only [assemble_append, assemble_neg, e, bulk, assemble_flatMap]
      ring

end

end Festim.Weak

namespace Festim.Weak

section
variable {Ω Γ : Type} {d : ℕ}

theorem conc_grad (mv : Mobile Ω Γ d) (mat : Mat) (T : Temp Ω Γ d) (p : Ω) (i : Fin d) :
    (mv.conc mat T).1.grad p i
      = physGrad mv.theta mat (T.T.val p) (mv.sol.val p) (T.T.grad p) (mv.sol.grad p) i := by
  unfold Mobile.conc physGrad arrhenius arr
  have hexp : ∀ (E : ℝ), (Fld.exp (Fld.const (-E / kB) / T.T)).grad p i
      = Real.exp (-E / kB / T.T.val p) * (E / (kB * T.T.val p ^ 2) * T.T.grad p i) := by
    intro E
    show Real.exp _ * ((0 * _ - _) / _) = _
    congr 1
    simp only [Fld.const_val, zero_mul, zero_sub]
    simp only [div_eq_mul_inv, mul_inv]
    ring
  cases mv.theta <;> cases mat.law <;> simp [hexp, Fld.sq]
  · ring
  · ring

theorem lawMarker_eq {mats : List Mat} {mt : Mat} {i : ℕ} (hm : mt ∈ mats) (hi : i ∈ mt.ids)
    (hnd : (mats.flatMap (·.ids)).Nodup) (law : Law) :
    lawMarker mats law i = if mt.law = law then 1 else 0 := by
  have hcount : ∀ L : List ℕ, L.Nodup →
      (L.map fun j => if j = i then (1 : ℝ) else 0).sum = if i ∈ L then 1 else 0 := by
    intro L hL
    induction L with
    | nil => simp
    | cons a L ih =>
      rw [List.map_cons, List.sum_cons, ih (List.nodup_cons.1 hL).2]
      by_cases ha : a = i
      · subst ha
        simp [(List.nodup_cons.1 hL).1]
      · simp [ha, Ne.symm ha]
  unfold lawMarker
  induction mats with
  | nil => simp at hm
  | cons a l ih =>
    rw [List.flatMap_cons, List.nodup_append] at hnd
    rw [List.map_cons, List.sum_cons]
    by_cases ha : i ∈ a.ids
    · have hz : ∀ x ∈ l, i ∉ x.ids := fun x hx hin =>
        hnd.2.2 _ ha _ (List.mem_flatMap.2 ⟨x, hx, hin⟩) rfl
      have hmt : mt = a := by
        rcases List.mem_cons.1 hm with h | h
        · exact h
        · exact absurd hi (hz _ h)
      have hzero : (l.map fun mat => if mat.law = law then
          (mat.ids.map fun j => if j = i then (1 : ℝ) else 0).sum else 0).sum = 0 := by
        apply List.sum_eq_zero
        intro x hx
        obtain ⟨y, hy, rfl⟩ := List.mem_map.1 hx
        have : y.ids.Nodup := by
          have := hnd.2.1
          rw [List.nodup_flatMap] at this
          exact this.1 y hy
        simp [hcount _ this, hz y hy]
      rw [hzero, hmt, hcount _ hnd.1]
      simp [ha]
    · have hmt : mt ∈ l := by
        rcases List.mem_cons.1 hm with h | h
        · exact absurd (h ▸ hi) ha
        · exact h
      rw [ih hmt hnd.2.1, hcount _ hnd.1]
      simp [ha]

theorem mobileConc_eq (P : Problem Ω Γ d) {mat : Ω → Mat} {matS : Γ → Mat}
    (hc : Covers P.mesh P.mats mat) (hs : Solubility P mat matS) (p : Ω) :
    P.mv.mobileConc P.mesh P.mats p
      = physConc P.mv.theta (mat p) (P.T.T.val p) (P.mv.sol.val p) := by
  unfold Mobile.mobileConc physConc
  cases ht : P.mv.theta with
  | false => simp
  | true =>
    simp only [if_true, hs.vol ht p, lawMarker_eq (hc.mem p) (hc.has p) hc.nodup]
    cases (mat p).law <;> simp [mul_comm]

theorem mobileConcS_eq (P : Problem Ω Γ d) {mat : Ω → Mat} {matS : Γ → Mat}
    (hc : Covers P.mesh P.mats mat) (hs : Solubility P mat matS) (q : Γ) :
    P.mv.mobileConcS P.mesh P.mats q
      = physConc P.mv.theta (matS q) (P.T.T.tr q) (P.mv.sol.tr q) := by
  unfold Mobile.mobileConcS physConc
  cases ht : P.mv.theta with
  | false => simp
  | true =>
    simp only [if_true, hs.surf ht q, lawMarker_eq (hs.memS ht q) (hs.hasS ht q) hc.nodup]
    cases (matS q).law <;> simp [mul_comm]

theorem srcAt_eq (s : Src Ω) (conc : Ω → ℝ) (p : Ω) : s.at conc p = srcRate s (conc p) p := by
  unfold Src.at srcRate
  cases s.value <;> simp

theorem flux_form_eq (f : Flux Γ) (T c : Γ → ℝ) (q : Γ) : f.form T c q = inward f (T q) (c q) q := by
  unfold Flux.form inward arr
  cases f <;> simp only
  · ring
  · ring
  · ring

theorem dot_coordGrad_cyl (m : Mesh Ω Γ d) (v : Fld Ω Γ d) (p : Ω) (hr : m.r.val p ≠ 0)
    (a : Fin d → ℝ) :
    m.r.val p * dot a ((v / m.r).grad p)
      = dot a (fun i => v.grad p i - v.val p / m.r.val p * m.r.grad p i) := by
  simp only [dot, Finset.mul_sum, Fld.div_grad]
  refine Finset.sum_congr rfl fun i _ => ?_
  field_simp

theorem dot_coordGrad_sph (m : Mesh Ω Γ d) (v : Fld Ω Γ d) (p : Ω) (hr : m.r.val p ≠ 0)
    (a : Fin d → ℝ) :
    m.r.val p * m.r.val p * dot a ((v / m.r / m.r).grad p)
      = dot a (fun i => v.grad p i - 2 * v.val p / m.r.val p * m.r.grad p i) := by
  simp only [dot, Finset.mul_sum, Fld.div_grad, Fld.div_val]
  refine Finset.sum_congr rfl fun i _ => ?_
  field_simp
  ring

end

section
variable {Ω Γ : Type} [Fintype Ω] [Fintype Γ] {d : ℕ}

theorem dot_add_left (a b c : Fin d → ℝ) : dot (fun i => a i + b i) c = dot a c + dot b c := by
  simp [dot, add_mul, Finset.sum_add_distrib]

/-- One subdomain of the mobile equation. -/
theorem subdomain_assemble (P : Problem Ω Γ d) (mt : Mat) (v : Fld Ω Γ d) (sub : ℕ)
    (hr : (P.mesh.type = .cylindrical ∨ P.mesh.type = .spherical) → ∀ p, P.mesh.r.val p ≠ 0) :
    P.mesh.assemble (subdomainForm P.mesh mt (P.mv.conc mt P.T).1 (P.mv.conc mt P.T).2 P.T P.dt
      P.soret v sub)
    = volumeOf P.mesh sub fun p =>
        (match P.dt with
          | some h => (physConc P.mv.theta mt (P.T.T.val p) (P.mv.sol.val p)
              - physConc P.mv.theta mt (P.T.Tn.val p) (P.mv.prev.val p)) / h * v.val p
          | none => 0)
        + dot (gradFlux P.soret P.mv.theta mt (P.T.T.val p) (P.mv.sol.val p) (P.T.T.grad p)
            (P.mv.sol.grad p)) (coordGrad P.mesh v p) := by
  have hG : ∀ p (b : Fin d → ℝ),
      dot (gradFlux P.soret P.mv.theta mt (P.T.T.val p) (P.mv.sol.val p) (P.T.T.grad p)
        (P.mv.sol.grad p)) b
      = dot (fun i => mt.D_0 * Real.exp (-mt.E_D / kB / P.T.T.val p)
            * (P.mv.conc mt P.T).1.grad p i) b
        + if P.soret then dot (fun i => mt.D_0 * Real.exp (-mt.E_D / kB / P.T.T.val p)
            * mt.Q (P.T.T.val p) * (P.mv.conc mt P.T).1.val p / (kB * P.T.T.val p ^ 2)
            * P.T.T.grad p i) b else 0 := by
    intro p b
    cases P.soret with
    | false =>
      simp only [Bool.false_eq_true, if_false, add_zero]
      unfold gradFlux arr
      simp only [Bool.false_eq_true, if_false, add_zero, conc_grad]
    | true =>
      simp only [if_true]
      rw [← dot_add_left]
      unfold gradFlux arr
      simp only [if_true, conc_grad, conc_val]
      congr 1
      funext i
      ring
  unfold subdomainForm
  rw [assemble_append, volumeOf_add]
  congr 1
  · cases P.dt with
    | none => simp [volumeOf]
    | some h => simp only [assemble_cons, assemble_nil, integrate_dxOn1, add_zero, conc_val,
        conc_prev_val]
  · simp only [hG]
    cases htype : P.mesh.type with
    | cartesian =>
      have hcg : ∀ p, coordGrad P.mesh v p = v.grad p := by
        intro p; funext i; simp [coordGrad, htype]
      simp only [hcg]
      cases P.soret <;> simp [integrate_dxOn1, volumeOf_add]
    | cylindrical =>
      have hr' := hr (Or.inl htype)
      have hcg : ∀ p (a : Fin d → ℝ), dot a (coordGrad P.mesh v p)
          = P.mesh.r.val p * dot a ((v / P.mesh.r).grad p) := by
        intro p a
        rw [dot_coordGrad_cyl _ _ _ (hr' p)]
        congr 1
        funext i
        simp [coordGrad, htype]
      simp only [hcg]
      cases P.soret <;> simp [integrate_dxOn1, volumeOf_add]
    | spherical =>
      have hr' := hr (Or.inr htype)
      have hcg : ∀ p (a : Fin d → ℝ), dot a (coordGrad P.mesh v p)
          = P.mesh.r.val p * P.mesh.r.val p * dot a ((v / P.mesh.r / P.mesh.r).grad p) := by
        intro p a
        rw [dot_coordGrad_sph _ _ _ (hr' p)]
        congr 1
        funext i
        simp [coordGrad, htype]
      have hD : ∀ (D x : ℝ) (a b : Fin d → ℝ), D * x * x * dot a b
          = x * x * dot (fun i => D * a i) b := by
        intro D x a b; rw [dot_smul_left]; ring
      simp only [hcg, hD]
      cases P.soret with
      | false => simp [integrate_dxOn1]
      | true =>
        simp only [if_true, assemble_append, assemble_cons, assemble_nil, add_zero,
          integrate_dxOn1, volumeOf_add]
        congr 1
        congr 1
        funext p
        congr 2
        funext i
        ring
    | other =>
      have hcg : ∀ p (a : Fin d → ℝ), dot a (coordGrad P.mesh v p) = 0 := by
        intro p a
        apply dot_zero_right
        intro i
        simp [coordGrad, htype]
      simp [hcg, volumeOf]

/-- All the materials. -/
theorem bulk_eq (P : Problem Ω Γ d) (v : Fld Ω Γ d) {mat : Ω → Mat}
    (hc : Covers P.mesh P.mats mat)
    (hr : (P.mesh.type = .cylindrical ∨ P.mesh.type = .spherical) → ∀ p, P.mesh.r.val p ≠ 0) :
    bulk P v = volume P.mesh fun p =>
        (match P.dt with
          | some h => (physConc P.mv.theta (mat p) (P.T.T.val p) (P.mv.sol.val p)
              - physConc P.mv.theta (mat p) (P.T.Tn.val p) (P.mv.prev.val p)) / h * v.val p
          | none => 0)
        + dot (gradFlux P.soret P.mv.theta (mat p) (P.T.T.val p) (P.mv.sol.val p) (P.T.T.grad p)
            (P.mv.sol.grad p)) (coordGrad P.mesh v p) := by
  unfold bulk
  simp only [subdomain_assemble P _ v _ hr]
  exact sum_materials P.mesh hc (fun mt p =>
        (match P.dt with
          | some h => (physConc P.mv.theta mt (P.T.T.val p) (P.mv.sol.val p)
              - physConc P.mv.theta mt (P.T.Tn.val p) (P.mv.prev.val p)) / h * v.val p
          | none => 0)
        + dot (gradFlux P.soret P.mv.theta mt (P.T.T.val p) (P.mv.sol.val p) (P.T.T.grad p)
            (P.mv.sol.grad p)) (coordGrad P.mesh v p))

theorem neg_sum_map {α : Type} (l : List α) (f g : α → ℝ) (h : ∀ x ∈ l, f x = -g x) :
    (l.map f).sum = -(l.map g).sum := by
  induction l with
  | nil => simp
  | cons a l ih =>
    rw [List.map_cons, List.sum_cons, List.map_cons, List.sum_cons, h a (by simp),
      ih fun x hx => h x (by simp [hx])]
    ring

theorem source_eq (P : Problem Ω Γ d) (v : Fld Ω Γ d) {mat : Ω → Mat} {matS : Γ → Mat}
    (hc : Covers P.mesh P.mats mat) (hs : Solubility P mat matS) :
    P.mesh.assemble (sourceForm P.mesh P.mats P.mv P.sources v)
      = -(P.sources.map fun s => (s.volumes.map fun vol => volumeOf P.mesh vol fun p =>
          srcRate s (physConc P.mv.theta (mat p) (P.T.T.val p) (P.mv.sol.val p)) p * v.val p).sum).sum := by
  rw [sourceForm, assemble_flatMap]
  apply neg_sum_map
  intro s _
  rw [assemble_map]
  apply neg_sum_map
  intro vol _
  rw [integrate_dxOn1, ← neg_one_mul, ← volumeOf_smul]
  congr 1
  funext p
  rw [srcAt_eq, mobileConc_eq P hc hs]
  ring

end

end Festim.Weak

namespace Festim.Weak

section
variable {Ω Γ : Type} [Fintype Ω] [Fintype Γ] {d : ℕ}

theorem surface_congr (m : Mesh Ω Γ d) (s : ℕ) (f g : Γ → ℝ) (h : ∀ q, m.sm q = s → f q = g q) :
    surface m s f = surface m s g := by
  unfold surface
  refine Finset.sum_congr rfl fun q hq => ?_
  rw [h q (Finset.mem_filter.1 hq).2]

theorem sk_assemble (m : Mesh Ω Γ d) (b : SK Γ) (c cprev v T : Γ → ℝ) (h : ℝ) (l : List SKSurf)
    (vs : List ℝ) (hlen : vs.length = l.length)
    (hvs : ∀ x ∈ l.zip vs, ∀ q, m.sm q = x.1.id → x.2 = v q) :
    m.assemble ((l.zip vs).flatMap fun p => b.surfForm c cprev v T (some h) p.1 p.2)
      = ((l.map fun s => surface m s.id fun q => (s.sol + b.lambda_IS * c q) * v q).sum
        - (l.map fun s => surface m s.id fun q => (s.prev + b.lambda_IS * cprev q) * v q).sum) / h
        - (l.map fun s => surface m s.id fun q => b.J_vs q (T q) s.sol (c q) * v q).sum := by
  induction l generalizing vs with
  | nil => simp
  | cons s l ih =>
    cases vs with
    | nil => simp at hlen
    | cons x vs =>
      rw [List.zip_cons_cons, List.flatMap_cons, assemble_append,
        ih vs (by simpa using hlen) (fun y hy => hvs y (by simp [hy]))]
      have hx : ∀ q, m.sm q = s.id → x = v q := hvs (s, x) (by simp)
      simp only [SK.surfForm, assemble_append, assemble_cons, assemble_nil, integrate_ds, add_zero,
        List.map_cons, List.sum_cons, ← surface_add]
      have key : surface m s.id (fun q =>
            (s.sol - s.prev) / h * x + b.lambda_IS * (c q - cprev q) / h * v q
              + (-(b.J_vs q (T q) s.sol (c q) + b.Jbs T c s.sol q - b.Jsb T c s.sol q) * x
                + (b.Jbs T c s.sol q - b.Jsb T c s.sol q) * v q))
          = (surface m s.id (fun q => (s.sol + b.lambda_IS * c q) * v q)
            - surface m s.id (fun q => (s.prev + b.lambda_IS * cprev q) * v q)) / h
            - surface m s.id (fun q => b.J_vs q (T q) s.sol (c q) * v q) := by
        have h1 := surface_smul m s.id (-1 / h) (fun q => (s.prev + b.lambda_IS * cprev q) * v q)
        have h2 := surface_smul m s.id (1 / h) (fun q => (s.sol + b.lambda_IS * c q) * v q)
        have h3 := surface_smul m s.id (-1) (fun q => b.J_vs q (T q) s.sol (c q) * v q)
        have : (surface m s.id (fun q => (s.sol + b.lambda_IS * c q) * v q)
            - surface m s.id (fun q => (s.prev + b.lambda_IS * cprev q) * v q)) / h
            - surface m s.id (fun q => b.J_vs q (T q) s.sol (c q) * v q)
            = (1 / h) * surface m s.id (fun q => (s.sol + b.lambda_IS * c q) * v q)
              + (-1 / h) * surface m s.id (fun q => (s.prev + b.lambda_IS * cprev q) * v q)
              + (-1) * surface m s.id (fun q => b.J_vs q (T q) s.sol (c q) * v q) := by ring
        rw [this, ← h1, ← h2, ← h3, ← surface_add, ← surface_add]
        apply surface_congr
        intro q hq
        rw [hx q hq]
        ring
      rw [key]
      ring

/-- Flux conditions of the mobile equation in a transient simulation. -/
theorem fluxes_eq (P : Problem Ω Γ d) (v : Fld Ω Γ d) (bcs : List (MobBC Γ)) (h : ℝ)
    (c : Γ → ℝ) (hcS : ∀ q, P.mv.mobileConcS P.mesh P.mats q = c q)
    (hsk : SKTests P.mesh v.tr bcs) :
    P.mesh.assemble (fluxesForm P.mesh P.mats P.mv P.T (some h) bcs v)
      = ((bcs.map (bcStock P.mesh true c v.tr)).sum
          - (bcs.map (bcStock P.mesh false P.mv.prev.tr v.tr)).sum) / h
        - (bcs.map (bcInflow P.mesh P.T.T.tr c v.tr)).sum := by
  have hcS' : P.mv.mobileConcS P.mesh P.mats = c := funext hcS
  unfold fluxesForm
  rw [assemble_flatMap]
  induction bcs with
  | nil => simp
  | cons b bcs ih =>
    simp only [List.map_cons, List.sum_cons]
    rw [ih fun b' vs' hm => hsk b' vs' (by simp [hm])]
    have key : P.mesh.assemble (MobBC.form P.mesh P.mats P.mv P.T (some h) v b)
        = (bcStock P.mesh true c v.tr b - bcStock P.mesh false P.mv.prev.tr v.tr b) / h
          - bcInflow P.mesh P.T.T.tr c v.tr b := by
      cases b with
      | flux f surfaces =>
        simp only [MobBC.form, bcStock, bcInflow, sub_zero, zero_div, zero_sub, hcS']
        rw [assemble_map]
        apply neg_sum_map
        intro s _
        rw [integrate_ds, ← neg_one_mul, ← surface_smul]
        congr 1
        funext q
        rw [flux_form_eq]
        ring
      | sk b vs =>
        obtain ⟨hlen, hvs⟩ := hsk b vs (by simp)
        simp only [MobBC.form, SK.form, bcStock, bcInflow, hcS']
        rw [sk_assemble P.mesh b c P.mv.prev.tr v.tr P.T.T.tr h b.surfaces vs hlen hvs]
        simp
    rw [key]
    ring

theorem coordGrad_weight (m : Mesh Ω Γ d)
    (hr : (m.type = .cylindrical ∨ m.type = .spherical) → ∀ p, m.r.val p ≠ 0) (p : Ω) (i : Fin d) :
    coordGrad m (weight m) p i = 0 := by
  unfold coordGrad weight
  cases ht : m.type with
  | cartesian => simp
  | cylindrical =>
    have := hr (Or.inl ht) p
    simp only
    rw [div_self this]
    ring
  | spherical =>
    have := hr (Or.inr ht) p
    simp only [Fld.mul_grad, Fld.mul_val]
    field_simp
    ring
  | other => simp

end

end Festim.Weak
