import Verif.Spec.Invariance
import Verif.Proofs.Forms

/-! # Lemmas for C106 -/

open scoped BigOperators

set_option linter.unusedSectionVars false

namespace Festim.Weak

section
variable {Ω Γ : Type} {d : ℕ}

theorem rpow_mul_of_pos {g : ℝ} (hg : 0 < g) (c y : ℝ) : (g * c) ^ y = g ^ y * c ^ y := by
  rcases lt_trichotomy c 0 with hc | hc | hc
  · rw [Real.rpow_def_of_neg (mul_neg_of_pos_of_neg hg hc), Real.rpow_def_of_neg hc, Real.rpow_def_of_pos hg,
      Real.log_mul hg.ne' hc.ne, add_mul, Real.exp_add]
    ring
  · subst hc
    by_cases hy : y = 0
    · simp [hy]
    · simp [Real.zero_rpow hy]
  · exact Real.mul_rpow hg.le hc.le

variable (U : Scaling)

namespace Scaling

theorem fld_mul (a b : ℝ) (u v : Fld Ω Γ d) : U.fld a u * U.fld b v = U.fld (a * b) (u * v) := by
  have := U.len_pos.ne'
  ext
  · simp [fld]; ring
  · simp [fld]; ring
  · simp [fld]; ring

theorem fld_div (a b : ℝ) (hb : b ≠ 0) (u v : Fld Ω Γ d) : U.fld a u / U.fld b v = U.fld (a / b) (u / v) := by
  have := U.len_pos.ne'
  ext p i
  · simp [fld]; rw [mul_div_mul_comm]
  · simp only [Fld.div_grad, fld]
    by_cases hv : v.val p = 0
    · simp [hv]
    · field_simp
  · simp [fld]; rw [mul_div_mul_comm]

theorem fld_exp (u : Fld Ω Γ d) : (U.fld 1 u).exp = U.fld 1 u.exp := by
  ext
  · simp [fld, Fld.exp]
  · simp [fld, Fld.exp]; ring
  · simp [fld, Fld.exp]

theorem fld_sq (a : ℝ) (u : Fld Ω Γ d) : (U.fld a u).sq = U.fld (a ^ 2) u.sq := by
  ext
  · simp [fld, Fld.sq]; ring
  · simp [fld, Fld.sq]; ring
  · simp [fld, Fld.sq]; ring

theorem fld_const (a b : ℝ) : (Fld.const (a * b) : Fld Ω Γ d) = U.fld a (Fld.const b) := by
  ext <;> simp [fld, Fld.const]

theorem fld_arrhenius (a A E : ℝ) (T : Fld Ω Γ d) : arrhenius (a * A) E (U.fld 1 T) = U.fld a (arrhenius A E T) := by
  unfold arrhenius
  have h : (Fld.const (-E / kB) : Fld Ω Γ d) = U.fld 1 (Fld.const (-E / kB)) := by rw [← fld_const, one_mul]
  conv_lhs => rw [h, fld_div U 1 1 one_ne_zero, div_one, fld_exp, fld_const U a A, fld_mul, mul_one]

theorem conc_scale (mv : Mobile Ω Γ d) (a : Mat) (T : Temp Ω Γ d) :
    (U.mobile mv).conc (U.mat a) (U.temp T) = (U.fld U.conc (mv.conc a T).1, U.fld U.conc (mv.conc a T).2) := by
  unfold Mobile.conc mobile mat temp
  cases mv.theta with
  | false => simp
  | true =>
    cases h : a.law with
    | sievert => simp [fld_arrhenius, fld_mul]
    | henry => simp [fld_arrhenius, fld_mul, fld_sq]

theorem lawMarker_scale (mats : List Mat) (law : Law) (i : ℕ) : lawMarker (mats.map U.mat) law i = lawMarker mats law i := by
  unfold lawMarker
  rw [List.map_map]
  rfl

theorem mobileConc_scale (m : Mesh Ω Γ d) (mats : List Mat) (mv : Mobile Ω Γ d) (p : Ω) :
    (U.mobile mv).mobileConc (U.mesh m) (mats.map U.mat) p = U.conc * mv.mobileConc m mats p := by
  unfold Mobile.mobileConc
  rw [lawMarker_scale, lawMarker_scale]
  cases h : mv.theta <;> simp [mobile, mesh, fld, h]
  ring

theorem mobileConcS_scale (m : Mesh Ω Γ d) (mats : List Mat) (mv : Mobile Ω Γ d) (q : Γ) :
    (U.mobile mv).mobileConcS (U.mesh m) (mats.map U.mat) q = U.conc * mv.mobileConcS m mats q := by
  unfold Mobile.mobileConcS
  rw [lawMarker_scale, lawMarker_scale]
  cases h : mv.theta <;> simp [mobile, mesh, fld, h]
  ring

/-- The term of the new form which corresponds to a term of the old one: integrands are multiplied by `k` in the volume and by
`k * len` on the surface. -/
def Same (k : ℝ) : Term Ω Γ → Term Ω Γ → Prop
  | .dx g, .dx g' => ∀ p, g' p = k * g p
  | .dxOn ids g, .dxOn ids' g' => ids' = ids ∧ ∀ p, g' p = k * g p
  | .ds i g, .ds i' g' => i' = i ∧ ∀ q, g' q = k * U.len * g q
  | _, _ => False

theorem same_assemble [Fintype Ω] [Fintype Γ] (m : Mesh Ω Γ d) (k : ℝ) {F F' : Form Ω Γ} (h : List.Forall₂ (Same U k) F F') :
    (U.mesh m).assemble F' = U.vol * k * m.assemble F := by
  have hl := U.len_pos.ne'
  induction h with
  | nil => simp
  | cons h _ ih =>
    rw [assemble_cons, assemble_cons, ih, mul_add]
    congr 1
    rename_i t t' _ _ _
    cases t <;> cases t' <;> simp only [Same] at h
    · simp only [Mesh.integrate, mesh, Finset.mul_sum]
      exact Finset.sum_congr rfl fun p _ => by rw [h p]; ring
    · obtain ⟨rfl, h⟩ := h
      simp only [Mesh.integrate, mesh, Finset.mul_sum]
      refine Finset.sum_congr rfl fun p _ => ?_
      rename_i ids _ _
      by_cases hm : m.vm p ∈ ids
      · exact (if_pos hm).trans (by rw [if_pos hm, h p]; ring)
      · exact (if_neg hm).trans (by rw [if_neg hm, mul_zero])
    · obtain ⟨rfl, h⟩ := h
      simp only [Mesh.integrate, mesh, Finset.mul_sum]
      refine Finset.sum_congr rfl fun p _ => ?_
      change (if m.sm p = _ then U.vol / U.len * m.ws p * _ else 0) = _
      split_ifs
      · rw [h p]; field_simp
      · simp

theorem dot_scale (a b : ℝ) (x y : Fin d → ℝ) : dot (fun i => a * x i) (fun i => b * y i) = a * b * dot x y := by
  simp only [dot, Finset.mul_sum]
  exact Finset.sum_congr rfl fun i _ => by ring

theorem forall₂_flatMap {α β γ δ : Type} {R : α → β → Prop} {S : γ → δ → Prop} {l : List α} {l' : List β} {f : α → List γ}
    {g : β → List δ} (h : List.Forall₂ R l l') (hf : ∀ x y, R x y → List.Forall₂ S (f x) (g y)) :
    List.Forall₂ S (l.flatMap f) (l'.flatMap g) := by
  induction h with
  | nil => simp
  | cons h _ ih => rw [List.flatMap_cons, List.flatMap_cons]; exact List.rel_append (hf _ _ h) ih

theorem forall₂_flatMap_map {α β γ δ : Type} {S : γ → δ → Prop} (l : List α) (e : α → β) {f : α → List γ}
    {g : β → List δ} (hf : ∀ x, List.Forall₂ S (f x) (g (e x))) : List.Forall₂ S (l.flatMap f) ((l.map e).flatMap g) := by
  induction l with
  | nil => simp
  | cons x l ih => rw [List.flatMap_cons, List.map_cons, List.flatMap_cons]; exact List.rel_append (hf x) ih

theorem subdomain_same (m : Mesh Ω Γ d) (a : Mat) (c cn : Fld Ω Γ d) (T : Temp Ω Γ d) (dt : Option ℝ) (soret : Bool)
    (v : Fld Ω Γ d) (sub : ℕ) :
    List.Forall₂ (Same U (U.conc / U.time)) (subdomainForm m a c cn T dt soret v sub)
      (subdomainForm (U.mesh m) (U.mat a) (U.fld U.conc c) (U.fld U.conc cn) (U.temp T) (dt.map (U.time * ·)) soret (U.test v)
        sub) := by
  have hl := U.len_pos.ne'
  have ht := U.time_pos.ne'
  have hc := U.conc_pos.ne'
  have hvr : U.test v / (U.mesh m).r = U.fld (1 / U.len) (v / m.r) := fld_div U 1 U.len hl v m.r
  have hvrr : U.test v / (U.mesh m).r / (U.mesh m).r = U.fld (1 / U.len / U.len) (v / m.r / m.r) := by
    rw [hvr]; exact fld_div U _ U.len hl _ m.r
  unfold subdomainForm
  refine List.rel_append ?_ ?_
  · cases dt with
    | none => exact List.Forall₂.nil
    | some h =>
      refine List.Forall₂.cons ⟨rfl, fun p => ?_⟩ List.Forall₂.nil
      simp only [fld, test]
      by_cases hh : h = 0
      · simp [hh]
      · field_simp
  · show List.Forall₂ _ _ (match m.type with | .cartesian => _ | .cylindrical => _ | .spherical => _ | .other => _)
    cases m.type with
    | other => exact List.Forall₂.nil
    | cartesian =>
      refine List.rel_append ?_ ?_
      · refine List.Forall₂.cons ⟨rfl, fun p => ?_⟩ List.Forall₂.nil
        simp only [fld, test, temp, mat, dot, Finset.mul_sum]
        refine Finset.sum_congr rfl fun i _ => ?_
        field_simp
      · cases soret with
        | false => exact List.Forall₂.nil
        | true =>
          refine List.Forall₂.cons ⟨rfl, fun p => ?_⟩ List.Forall₂.nil
          simp only [fld, test, temp, mat, dot, Finset.mul_sum]
          refine Finset.sum_congr rfl fun i _ => ?_
          field_simp
    | cylindrical =>
      dsimp only
      rw [hvr]
      refine List.rel_append ?_ ?_
      · refine List.Forall₂.cons ⟨rfl, fun p => ?_⟩ List.Forall₂.nil
        simp only [fld, mesh, temp, mat, dot, Finset.mul_sum]
        refine Finset.sum_congr rfl fun i _ => ?_
        field_simp
      · cases soret with
        | false => exact List.Forall₂.nil
        | true =>
          refine List.Forall₂.cons ⟨rfl, fun p => ?_⟩ List.Forall₂.nil
          simp only [fld, mesh, temp, mat, dot, Finset.mul_sum]
          refine Finset.sum_congr rfl fun i _ => ?_
          field_simp
    | spherical =>
      dsimp only
      rw [hvrr]
      refine List.rel_append ?_ ?_
      · refine List.Forall₂.cons ⟨rfl, fun p => ?_⟩ List.Forall₂.nil
        simp only [fld, mesh, temp, mat, dot, Finset.mul_sum]
        refine Finset.sum_congr rfl fun i _ => ?_
        field_simp
      · cases soret with
        | false => exact List.Forall₂.nil
        | true =>
          refine List.Forall₂.cons ⟨rfl, fun p => ?_⟩ List.Forall₂.nil
          simp only [fld, mesh, temp, mat, dot, Finset.mul_sum]
          refine Finset.sum_congr rfl fun i _ => ?_
          field_simp

/-- The same exception, or corresponding forms. -/
def SameE (k : ℝ) : Except PyErr (Form Ω Γ) → Except PyErr (Form Ω Γ) → Prop
  | .error e, .error e' => e' = e
  | .ok F, .ok F' => List.Forall₂ (Same U k) F F'
  | _, _ => False

noncomputable def kinetics (P : Kinetics Ω) : Kinetics Ω :=
  ⟨1 / (U.conc * U.time) * P.k, P.Ek, 1 / U.time * P.p, P.Ep, fun p => U.conc * P.n p⟩

theorem index_scale (a : ℝ) (x : Param) (i : ℕ) : (param a x).index i = (x.index i).map (a * ·) := by
  cases x with
  | num x => rfl
  | list l => simp only [param, Param.index, List.getElem?_map]; cases l[i]? <;> rfl

theorem asNum_scale (a : ℝ) (x : Param) : (param a x).asNum = x.asNum.map (a * ·) := by
  cases x <;> rfl

theorem densityAt_scale (l : List (Ω → ℝ)) (i : ℕ) :
    densityAt (l.map fun n p => U.conc * n p) i = (densityAt l i).map fun n p => U.conc * n p := by
  simp only [densityAt, List.getElem?_map]; cases l[i]? <;> rfl

theorem params_scale (t : Trap Ω Γ d) (i : ℕ) : (U.trap t).params i = (t.params i).map U.kinetics := by
  unfold Trap.params
  cases hk : t.k_0 with
  | list l =>
    have hk' : (U.trap t).k_0 = .list (l.map (1 / (U.conc * U.time) * ·)) := by simp only [trap, hk, param]
    rw [hk']
    dsimp only
    rw [show (U.trap t).p_0 = param (1 / U.time) t.p_0 from rfl, show (U.trap t).E_k = t.E_k from rfl,
      show (U.trap t).E_p = t.E_p from rfl, show (U.trap t).density = t.density.map fun n p => U.conc * n p from rfl,
      show Param.list (l.map (1 / (U.conc * U.time) * ·)) = param (1 / (U.conc * U.time)) (Param.list l) from rfl,
      index_scale, index_scale, densityAt_scale]
    cases (Param.list l).index i with
    | error e => rfl
    | ok k =>
      cases t.E_k.index i with
      | error e => rfl
      | ok Ek =>
        cases t.p_0.index i with
        | error e => rfl
        | ok p =>
          cases t.E_p.index i with
          | error e => rfl
          | ok Ep => cases densityAt t.density i <;> rfl
  | num x =>
    have hk' : (U.trap t).k_0 = .num (1 / (U.conc * U.time) * x) := by simp only [trap, hk, param]
    rw [hk']
    dsimp only
    rw [show (U.trap t).p_0 = param (1 / U.time) t.p_0 from rfl, show (U.trap t).E_k = t.E_k from rfl,
      show (U.trap t).E_p = t.E_p from rfl, show (U.trap t).density = t.density.map fun n p => U.conc * n p from rfl,
      show Param.num (1 / (U.conc * U.time) * x) = param (1 / (U.conc * U.time)) (Param.num x) from rfl,
      asNum_scale, asNum_scale, densityAt_scale]
    cases densityAt t.density 0 with
    | error e => rfl
    | ok n =>
      cases t.E_k.asNum with
      | error e => rfl
      | ok Ek =>
        cases t.p_0.asNum with
        | error e => rfl
        | ok p => cases t.E_p.asNum <;> rfl

theorem exchange_same (P : Kinetics Ω) (c sol : Fld Ω Γ d) (T : Temp Ω Γ d) (v : Fld Ω Γ d) (ids : List ℕ) {F F' : Form Ω Γ}
    (h : List.Forall₂ (Same U (U.conc / U.time)) F F') :
    List.Forall₂ (Same U (U.conc / U.time))
      ([.dxOn ids fun p => -P.k * Real.exp (-P.Ek / kB / T.T.val p) * c.val p * (P.n p - sol.val p) * v.val p,
        .dxOn ids fun p => P.p * Real.exp (-P.Ep / kB / T.T.val p) * sol.val p * v.val p] ++ F)
      ([.dxOn ids fun p => -(U.kinetics P).k * Real.exp (-(U.kinetics P).Ek / kB / (U.temp T).T.val p) *
          (U.fld U.conc c).val p * ((U.kinetics P).n p - (U.fld U.conc sol).val p) * (U.test v).val p,
        .dxOn ids fun p => (U.kinetics P).p * Real.exp (-(U.kinetics P).Ep / kB / (U.temp T).T.val p) *
          (U.fld U.conc sol).val p * (U.test v).val p] ++ F') := by
  have ht := U.time_pos.ne'
  have hc := U.conc_pos.ne'
  refine List.rel_append (List.Forall₂.cons ⟨rfl, fun p => ?_⟩ (List.Forall₂.cons ⟨rfl, fun p => ?_⟩ List.Forall₂.nil)) h
  · simp only [kinetics, fld, temp, test, one_mul]; field_simp
  · simp only [kinetics, fld, temp, test, one_mul]; field_simp

theorem mobileTrapLoop_same (mv : Mobile Ω Γ d) (T : Temp Ω Γ d) (t : Trap Ω Γ d) (v : Fld Ω Γ d) (mats : List Mat) :
    ∀ i, SameE U (U.conc / U.time) (mobileTrapLoop mv T t v i mats)
      (mobileTrapLoop (U.mobile mv) (U.temp T) (U.trap t) (U.test v) i (mats.map U.mat)) := by
  induction mats with
  | nil => intro i; exact List.Forall₂.nil
  | cons a mats ih =>
    intro i
    have ih := ih (i + 1)
    rw [List.map_cons]
    unfold mobileTrapLoop
    rw [params_eq, params_eq, params_scale, conc_scale]
    cases t.params i with
    | error e => exact rfl
    | ok P =>
      revert ih
      cases mobileTrapLoop mv T t v (i + 1) mats with
      | error e =>
        cases mobileTrapLoop (U.mobile mv) (U.temp T) (U.trap t) (U.test v) (i + 1) (mats.map U.mat) with
        | error e' => intro h; exact h
        | ok F' => intro h; exact h.elim
      | ok F =>
        cases mobileTrapLoop (U.mobile mv) (U.temp T) (U.trap t) (U.test v) (i + 1) (mats.map U.mat) with
        | error e' => intro h; exact h.elim
        | ok F' => intro h; exact exchange_same U P _ t.sol T v a.ids h

theorem trapLoop_same (mv : Mobile Ω Γ d) (T : Temp Ω Γ d) (t : Trap Ω Γ d) (v : Fld Ω Γ d) (mats : List Mat) :
    ∀ i, SameE U (U.conc / U.time) (trapLoop mv T t v i mats)
      (trapLoop (U.mobile mv) (U.temp T) (U.trap t) (U.test v) i (mats.map U.mat)) := by
  induction mats with
  | nil => intro i; exact List.Forall₂.nil
  | cons a mats ih =>
    intro i
    have ih := ih (i + 1)
    rw [List.map_cons]
    unfold trapLoop
    rw [params_scale, conc_scale]
    cases t.params i with
    | error e => exact rfl
    | ok P =>
      by_cases hh : mv.theta = true ∧ a.law = .henry
      · have h1 : (U.mobile mv).theta = true ∧ (U.mat a).law = .henry := hh
        dsimp only [Except.map, bind, Except.bind]
        rw [if_pos hh, if_pos h1]
        exact rfl
      · have h1 : ¬((U.mobile mv).theta = true ∧ (U.mat a).law = .henry) := hh
        dsimp only [Except.map, bind, Except.bind]
        rw [if_neg hh, if_neg h1]
        revert ih
        cases trapLoop mv T t v (i + 1) mats with
        | error e =>
          cases trapLoop (U.mobile mv) (U.temp T) (U.trap t) (U.test v) (i + 1) (mats.map U.mat) with
          | error e' => intro h; exact h
          | ok F' => intro h; exact h.elim
        | ok F =>
          cases trapLoop (U.mobile mv) (U.temp T) (U.trap t) (U.test v) (i + 1) (mats.map U.mat) with
          | error e' => intro h; exact h.elim
          | ok F' => intro h; exact exchange_same U P _ t.sol T v a.ids h

theorem sameE_bind {k : ℝ} {x x' : Except PyErr (Form Ω Γ)} {f f' : Form Ω Γ → Except PyErr (Form Ω Γ)} (h : SameE U k x x')
    (hf : ∀ F F', List.Forall₂ (Same U k) F F' → SameE U k (f F) (f' F')) : SameE U k (x >>= f) (x' >>= f') := by
  cases x with
  | error e =>
    cases x' with
    | error e' => exact h
    | ok F' => exact h.elim
  | ok F =>
    cases x' with
    | error e' => exact h.elim
    | ok F' => exact hf F F' h

theorem mobileTraps_same (mv : Mobile Ω Γ d) (T : Temp Ω Γ d) (v : Fld Ω Γ d) (traps : List (Trap Ω Γ d)) :
    SameE U (U.conc / U.time) (mobileTraps mv T v traps)
      (mobileTraps (U.mobile mv) (U.temp T) (U.test v) (traps.map U.trap)) := by
  induction traps with
  | nil => exact List.Forall₂.nil
  | cons t traps ih =>
    rw [List.map_cons]
    unfold mobileTraps
    exact sameE_bind U (mobileTrapLoop_same U mv T t v t.materials 0) fun F F' h =>
      sameE_bind U ih fun G G' h' => List.rel_append h h'

theorem neg_same {k : ℝ} {F F' : Form Ω Γ} (h : List.Forall₂ (Same U k) F F') :
    List.Forall₂ (Same U k) (Form.neg F) (Form.neg F') := by
  induction h with
  | nil => exact List.Forall₂.nil
  | cons h _ ih =>
    refine List.Forall₂.cons ?_ ih
    rename_i t t' _ _ _
    cases t <;> cases t' <;> simp only [Same] at h
    · intro p; dsimp only; rw [h p]; ring
    · obtain ⟨rfl, h⟩ := h
      exact ⟨rfl, fun p => by dsimp only; rw [h p]; ring⟩
    · obtain ⟨rfl, h⟩ := h
      exact ⟨rfl, fun p => by dsimp only; rw [h p]; ring⟩

theorem srcAt_scale (s : Src Ω) (c c' : Ω → ℝ) (p : Ω) (h : c' p = U.conc * c p) :
    (U.src s).at c' p = U.conc / U.time * s.at c p := by
  have ht := U.time_pos.ne'
  unfold Src.at
  cases hs : s.value with
  | given f => simp [src, hs]
  | decay lam => simp only [src, hs, h]; field_simp

theorem source_same (m : Mesh Ω Γ d) (mats : List Mat) (mv : Mobile Ω Γ d) (l : List (Src Ω)) (v : Fld Ω Γ d) :
    List.Forall₂ (Same U (U.conc / U.time)) (sourceForm m mats mv l v)
      (sourceForm (U.mesh m) (mats.map U.mat) (U.mobile mv) (l.map U.src) (U.test v)) := by
  unfold sourceForm
  refine forall₂_flatMap_map l U.src fun s => ?_
  show List.Forall₂ _ (s.volumes.map _) (s.volumes.map _)
  rw [List.forall₂_map_left_iff, List.forall₂_map_right_iff, List.forall₂_same]
  intro i _
  refine ⟨rfl, fun p => ?_⟩
  dsimp only
  rw [srcAt_scale U s _ _ p (mobileConc_scale U m mats mv p)]
  simp only [test, fld]; ring

theorem trapSource_same (t : Trap Ω Γ d) (v : Fld Ω Γ d) :
    List.Forall₂ (Same U (U.conc / U.time)) (trapSourceForm t v) (trapSourceForm (U.trap t) (U.test v)) := by
  unfold trapSourceForm
  show List.Forall₂ _ (t.sources.map _) ((t.sources.map U.src).map _)
  rw [List.forall₂_map_left_iff, List.map_map, List.forall₂_map_right_iff, List.forall₂_same]
  intro s _
  refine ⟨rfl, fun p => ?_⟩
  simp only
  rw [srcAt_scale U s t.sol.val (U.trap t).sol.val p rfl]
  simp only [test, fld]; ring

theorem flux_scale (f : Flux Γ) (T c T' c' : Γ → ℝ) (q : Γ) (hT : T' q = T q) (h : c' q = U.conc * c q) :
    (U.flux f).form T' c' q = U.conc / U.time * U.len * f.form T c q := by
  have hc := U.conc_pos.ne'
  have ht := U.time_pos.ne'
  cases f with
  | value f => simp only [flux, Flux.form]; ring
  | recomb Kr E o =>
    have ho := (Real.rpow_pos_of_pos U.conc_pos o).ne'
    simp only [flux, Flux.form, hT, h, rpow_mul_of_pos U.conc_pos]
    field_simp
  | dissoc Kd E P => simp only [flux, Flux.form, hT]; ring
  | mass k c_ext => simp only [flux, Flux.form, h]; ring
  | convective k Te => simp only [flux, Flux.form, hT]; ring
  | custom g =>
    simp only [flux, Flux.form, hT, h]
    rw [mul_div_cancel_left₀ _ hc]; ring

theorem sk_same (b : SK Γ) (c cp v T : Γ → ℝ) (c' cp' v' T' : Γ → ℝ) (dt : Option ℝ) (vs : List ℝ)
    (hT : ∀ q, T' q = T q) (h : ∀ q, c' q = U.conc * c q) (hp : ∀ q, cp' q = U.conc * cp q) (hv : ∀ q, v' q = v q) :
    List.Forall₂ (Same (Ω := Ω) U (U.conc / U.time)) (b.form c cp v T dt vs)
      ((U.sk b).form c' cp' v' T' (dt.map (U.time * ·)) vs) := by
  have hc := U.conc_pos.ne'
  have ht := U.time_pos.ne'
  have hl := U.len_pos.ne'
  unfold SK.form
  show List.Forall₂ _ ((b.surfaces.zip vs).flatMap _) (((b.surfaces.map _).zip vs).flatMap _)
  rw [show (b.surfaces.map fun s : SKSurf => (⟨s.id, U.conc * U.len * s.sol, U.conc * U.len * s.prev⟩ : SKSurf)).zip vs =
    (b.surfaces.zip vs).map (Prod.map (fun s : SKSurf => ⟨s.id, U.conc * U.len * s.sol, U.conc * U.len * s.prev⟩) id) by
      rw [← List.zip_map, List.map_id]]
  refine forall₂_flatMap_map _ _ fun x => ?_
  obtain ⟨s, vs⟩ := x
  have e1 : ∀ x : ℝ, U.conc * U.len * x / (U.conc * U.len) = x := fun x => by field_simp
  have e2 : ∀ x : ℝ, U.conc * x / U.conc = x := fun x => by field_simp
  have hbs : ∀ q, (U.sk b).Jbs T' c' (U.conc * U.len * s.sol) q = U.conc / U.time * U.len * b.Jbs T c s.sol q := by
    intro q
    simp only [SK.Jbs, sk, hT, h, e1, e2]
    rw [mul_div_mul_left _ _ (mul_ne_zero hc hl)]
    ring
  have hsb : ∀ q, (U.sk b).Jsb T' c' (U.conc * U.len * s.sol) q = U.conc / U.time * U.len * b.Jsb T c s.sol q := by
    intro q
    simp only [SK.Jsb, sk, hT, h, e1, e2]
    rw [mul_div_mul_left _ _ hc]
    ring
  unfold SK.surfForm
  refine List.rel_append ?_ ?_
  · cases dt with
    | none => exact List.Forall₂.nil
    | some h0 =>
      have e3 : ∀ x : ℝ, U.conc * x / (U.time * h0) = U.conc / U.time * (x / h0) := fun x => mul_div_mul_comm _ _ _ _
      refine List.Forall₂.cons ⟨rfl, fun q => ?_⟩ (List.Forall₂.cons ⟨rfl, fun q => ?_⟩ List.Forall₂.nil)
      · simp only [Prod.map, id]
        rw [show U.conc * U.len * s.sol - U.conc * U.len * s.prev = U.conc * (U.len * (s.sol - s.prev)) by ring, e3]
        ring
      · simp only [sk, h, hp, hv]
        rw [show U.len * b.lambda_IS * (U.conc * c q - U.conc * cp q) = U.conc * (U.len * (b.lambda_IS * (c q - cp q))) by ring,
          e3]
        ring
  · refine List.Forall₂.cons ⟨rfl, fun q => ?_⟩ (List.Forall₂.cons ⟨rfl, fun q => ?_⟩ List.Forall₂.nil)
    · simp only [Prod.map, id]
      rw [hbs, hsb]
      simp only [sk, hT, h, e1, e2]
      ring
    · simp only [Prod.map, id]
      rw [hbs, hsb, hv]
      ring

theorem bcs_same (m : Mesh Ω Γ d) (mats : List Mat) (mv : Mobile Ω Γ d) (T : Temp Ω Γ d) (dt : Option ℝ)
    (bcs : List (MobBC Γ)) (v : Fld Ω Γ d) (hs : mv.theta = false ∨ ∀ b vs, MobBC.sk b vs ∉ bcs) :
    List.Forall₂ (Same U (U.conc / U.time)) (fluxesForm m mats mv T dt bcs v)
      (fluxesForm (U.mesh m) (mats.map U.mat) (U.mobile mv) (U.temp T) (dt.map (U.time * ·)) (bcs.map U.bc) (U.test v)) := by
  unfold fluxesForm
  induction bcs with
  | nil => exact List.Forall₂.nil
  | cons b bcs ih =>
    rw [List.flatMap_cons, List.map_cons, List.flatMap_cons]
    refine List.rel_append ?_ (ih ?_)
    · cases b with
      | flux f ss =>
        show List.Forall₂ _ (ss.map _) (ss.map _)
        rw [List.forall₂_map_left_iff, List.forall₂_map_right_iff, List.forall₂_same]
        intro i _
        refine ⟨rfl, fun q => ?_⟩
        dsimp only
        rw [flux_scale U f T.T.tr (mv.mobileConcS m mats) _ _ q (one_mul _) (mobileConcS_scale U m mats mv q)]
        simp only [test, fld]; ring
      | sk b vs =>
        have hth : mv.theta = false := by
          rcases hs with hs | hs
          · exact hs
          · exact absurd List.mem_cons_self (hs b vs)
        exact sk_same U b _ _ _ _ _ _ _ _ dt vs (fun q => one_mul _) (fun q => mobileConcS_scale U m mats mv q)
          (fun q => by simp [mobile, hth, fld]) (fun q => one_mul _)
    · rcases hs with hs | hs
      · exact .inl hs
      · exact .inr fun b vs h => hs b vs (List.mem_cons_of_mem _ h)

theorem trapForm_same (mats : List Mat) (mv : Mobile Ω Γ d) (T : Temp Ω Γ d) (dt : Option ℝ) (t : Trap Ω Γ d) (v : Fld Ω Γ d)
    (hd : dt = none → U.time = 1 ∨ ∀ a ∈ mats, a.uid ∈ t.materials.map (·.uid)) :
    SameE U (U.conc / U.time) (trapForm mats mv T dt t v)
      (trapForm (mats.map U.mat) (U.mobile mv) (U.temp T) (dt.map (U.time * ·)) (U.trap t) (U.test v)) := by
  have ht := U.time_pos.ne'
  unfold trapForm trappingForm
  refine sameE_bind U (sameE_bind U (trapLoop_same U mv T t v t.materials 0) fun F F' h => ?_) fun F F' h =>
    List.rel_append h (trapSource_same U t v)
  refine List.rel_append ?_ h
  cases dt with
  | some h0 =>
    refine List.Forall₂.cons (fun p => ?_) List.Forall₂.nil
    simp only [trap, fld, test]
    rw [← mul_sub, mul_div_mul_comm]; ring
  | none =>
    have hu : (U.trap t).materials.map (·.uid) = t.materials.map (·.uid) := by
      show (t.materials.map U.mat).map (·.uid) = _
      rw [List.map_map]; rfl
    have hf : ((mats.map U.mat).filter fun a => a.uid ∉ (U.trap t).materials.map (·.uid)) =
        (mats.filter fun a => a.uid ∉ t.materials.map (·.uid)).map U.mat := by
      rw [hu, List.filter_map]; rfl
    show List.Forall₂ _ ((mats.filter fun a => a.uid ∉ t.materials.map (·.uid)).map _)
      (((mats.map U.mat).filter fun a => a.uid ∉ (U.trap t).materials.map (·.uid)).map _)
    rw [hf]
    rcases hd rfl with h1 | h1
    · rw [List.forall₂_map_left_iff, List.map_map, List.forall₂_map_right_iff, List.forall₂_same]
      intro a _
      refine ⟨rfl, fun p => ?_⟩
      simp only [trap, fld, test, h1]
      ring
    · have : (mats.filter fun a => a.uid ∉ t.materials.map (·.uid)) = [] := by
        rw [List.filter_eq_nil_iff]
        intro a ha
        simpa using h1 a ha
      rw [this]
      exact List.Forall₂.nil

theorem trapsForm_same (mats : List Mat) (mv : Mobile Ω Γ d) (T : Temp Ω Γ d) (dt : Option ℝ) (traps : List (Trap Ω Γ d))
    (hd : dt = none → U.time = 1 ∨ ∀ t ∈ traps, ∀ a ∈ mats, a.uid ∈ t.materials.map (·.uid)) :
    ∀ vt : List (Fld Ω Γ d), SameE U (U.conc / U.time) (trapsForm mats mv T dt (traps.zip vt))
      (trapsForm (mats.map U.mat) (U.mobile mv) (U.temp T) (dt.map (U.time * ·)) ((traps.map U.trap).zip (vt.map U.test))) := by
  induction traps with
  | nil => intro vt; exact List.Forall₂.nil
  | cons t traps ih =>
    intro vt
    cases vt with
    | nil => exact List.Forall₂.nil
    | cons v vt =>
      rw [List.map_cons, List.map_cons, List.zip_cons_cons, List.zip_cons_cons]
      unfold trapsForm
      refine sameE_bind U (trapForm_same U mats mv T dt t v fun h => ?_) fun F F' h =>
        sameE_bind U (ih (fun h => ?_) vt) fun G G' h' => List.rel_append h h'
      · rcases hd h with h1 | h1
        · exact .inl h1
        · exact .inr (h1 t List.mem_cons_self)
      · rcases hd h with h1 | h1
        · exact .inl h1
        · exact .inr fun t ht => h1 t (List.mem_cons_of_mem _ ht)

theorem form_same (P : Problem Ω Γ d) (bcs : List (MobBC Γ)) (v : Fld Ω Γ d) (vt : List (Fld Ω Γ d))
    (hs : P.mv.theta = false ∨ ∀ b vs, MobBC.sk b vs ∉ bcs)
    (hd : P.dt = none → U.time = 1 ∨ ∀ t ∈ P.traps, ∀ a ∈ P.mats, a.uid ∈ t.materials.map (·.uid)) :
    SameE U (U.conc / U.time) (P.form bcs v vt) ((U.problem P).form (bcs.map U.bc) (U.test v) (vt.map U.test)) := by
  unfold Problem.form mobileForm diffusionForm
  refine sameE_bind U (sameE_bind U (sameE_bind U (mobileTraps_same U P.mv P.T v P.traps) fun F F' h => ?_) fun F F' h =>
    List.rel_append (List.rel_append h (source_same U P.mesh P.mats P.mv P.sources v))
      (bcs_same U P.mesh P.mats P.mv P.T P.dt bcs v hs)) fun F F' h =>
    sameE_bind U (trapsForm_same U P.mats P.mv P.T P.dt P.traps hd vt) fun G G' h' => List.rel_append h h'
  refine List.rel_append ?_ (neg_same U h)
  refine forall₂_flatMap_map P.mats U.mat fun a => ?_
  show List.Forall₂ _ (a.ids.flatMap _) (a.ids.flatMap _)
  have := forall₂_flatMap_map (S := Same U (U.conc / U.time)) a.ids id
    (f := fun sub => subdomainForm P.mesh a (P.mv.conc a P.T).1 (P.mv.conc a P.T).2 P.T P.dt P.soret v sub)
    (g := fun sub => subdomainForm (U.mesh P.mesh) (U.mat a) ((U.mobile P.mv).conc (U.mat a) (U.temp P.T)).1
      ((U.mobile P.mv).conc (U.mat a) (U.temp P.T)).2 (U.temp P.T) (P.dt.map (U.time * ·)) P.soret (U.test v) sub)
    fun sub => by rw [conc_scale]; exact subdomain_same U P.mesh a _ _ P.T P.dt P.soret v sub
  rw [List.map_id] at this
  exact this

theorem heatSub_same (m : Mesh Ω Γ d) (a : Mat) (T : Temp Ω Γ d) (v : Fld Ω Γ d) (sub : ℕ) :
    List.Forall₂ (Same U (U.conc / U.time)) (heatSubdomain m a T v sub)
      (heatSubdomain (U.mesh m) (U.heatMat a) (U.temp T) (U.test v) sub) := by
  have hl := U.len_pos.ne'
  have ht := U.time_pos.ne'
  have hvr : U.test v / (U.mesh m).r = U.fld (1 / U.len) (v / m.r) := fld_div U 1 U.len hl v m.r
  have hvrr : U.test v / (U.mesh m).r / (U.mesh m).r = U.fld (1 / U.len / U.len) (v / m.r / m.r) := by
    rw [hvr]; exact fld_div U _ U.len hl _ m.r
  unfold heatSubdomain
  show List.Forall₂ _ _ (match m.type with | .cartesian => _ | .cylindrical => _ | .spherical => _ | .other => _)
  cases m.type with
  | other => exact List.Forall₂.nil
  | cartesian =>
    refine List.Forall₂.cons ⟨rfl, fun p => ?_⟩ List.Forall₂.nil
    simp only [fld, test, temp, heatMat, dot, Finset.mul_sum, one_mul]
    refine Finset.sum_congr rfl fun i _ => ?_
    field_simp
  | cylindrical =>
    dsimp only
    rw [hvr]
    refine List.Forall₂.cons ⟨rfl, fun p => ?_⟩ List.Forall₂.nil
    simp only [fld, mesh, temp, heatMat, dot, Finset.mul_sum, one_mul]
    refine Finset.sum_congr rfl fun i _ => ?_
    field_simp
  | spherical =>
    dsimp only
    rw [hvrr]
    refine List.Forall₂.cons ⟨rfl, fun p => ?_⟩ List.Forall₂.nil
    simp only [fld, mesh, temp, heatMat, dot, Finset.mul_sum, one_mul]
    refine Finset.sum_congr rfl fun i _ => ?_
    field_simp

theorem heat_same (m : Mesh Ω Γ d) (mats : List Mat) (T : Temp Ω Γ d) (tr : Option ℝ) (sources : List ((Ω → ℝ) × List ℕ))
    (bcs : List (Flux Γ × List ℕ)) (v : Fld Ω Γ d) :
    List.Forall₂ (Same U (U.conc / U.time)) (heatForm m mats T tr sources bcs v)
      (heatForm (U.mesh m) (mats.map U.heatMat) (U.temp T) (tr.map (U.time * ·))
        (sources.map fun s => (fun p => U.conc / U.time * s.1 p, s.2)) (bcs.map fun b => (U.flux b.1, b.2)) (U.test v)) := by
  unfold heatForm
  refine List.rel_append (List.rel_append ?_ ?_) ?_
  · refine forall₂_flatMap_map mats U.heatMat fun a => List.rel_append ?_ ?_
    · cases tr with
      | none => exact List.Forall₂.nil
      | some h =>
        show List.Forall₂ _ (a.ids.map _) (a.ids.map _)
        rw [List.forall₂_map_left_iff, List.forall₂_map_right_iff, List.forall₂_same]
        intro i _
        refine ⟨rfl, fun p => ?_⟩
        simp only [heatMat, temp, fld, test, one_mul]
        rw [show U.conc * a.rho (T.T.val p) * a.cp (T.T.val p) * (T.T.val p - T.Tn.val p) / (U.time * h) =
          U.conc / U.time * (a.rho (T.T.val p) * a.cp (T.T.val p) * (T.T.val p - T.Tn.val p) / h) by
            rw [mul_assoc, mul_assoc, mul_div_mul_comm, mul_assoc]]
        ring
    · have := forall₂_flatMap_map (S := Same U (U.conc / U.time)) a.ids id (f := heatSubdomain m a T v)
        (g := heatSubdomain (U.mesh m) (U.heatMat a) (U.temp T) (U.test v)) fun sub => heatSub_same U m a T v sub
      rw [List.map_id] at this
      exact this
  · refine forall₂_flatMap_map sources _ fun s => ?_
    dsimp only
    rw [List.forall₂_map_left_iff, List.forall₂_map_right_iff, List.forall₂_same]
    intro i _
    refine ⟨rfl, fun p => ?_⟩
    simp only [fld, test, one_mul]
    ring
  · refine forall₂_flatMap_map bcs _ fun b => ?_
    dsimp only
    rw [List.forall₂_map_left_iff, List.forall₂_map_right_iff, List.forall₂_same]
    intro i _
    refine ⟨rfl, fun q => ?_⟩
    dsimp only
    rw [flux_scale U b.1 T.T.tr (fun _ => 0) _ _ q (one_mul _) (by simp)]
    simp only [fld, test, one_mul]
    ring

end Scaling

end

end Festim.Weak
