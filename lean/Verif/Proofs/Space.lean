import Verif.Spec.Space
import Verif.Proofs.Forms
import Mathlib.Analysis.SpecialFunctions.Pow.Deriv
import Mathlib.Analysis.Calculus.ContDiff.Operations

/-!
# The residual of a step as a function of the coefficients
-/

open scoped BigOperators

set_option linter.unusedSectionVars false

namespace Festim.Weak

section
variable {Ω Γ : Type} [Fintype Ω] [Fintype Γ] {d : ℕ} {ι : Type} [Fintype ι]

/-- A smooth number. -/
abbrev Smooth (f : (ι → ℝ) → ℝ) : Prop := ContDiff ℝ 1 f

theorem smooth_coord (i : ι) : Smooth fun x : ι → ℝ => x i := contDiff_apply ℝ ℝ i

theorem smooth_lin (c : ι → ℝ) : Smooth fun x : ι → ℝ => ∑ i, x i * c i :=
  ContDiff.sum fun i _ => (smooth_coord i).mul contDiff_const

/-- A smooth field. -/
structure SmoothFld (f : (ι → ℝ) → Fld Ω Γ d) : Prop where
  val : ∀ p, Smooth fun x => (f x).val p
  grad : ∀ p k, Smooth fun x => (f x).grad p k
  tr : ∀ q, Smooth fun x => (f x).tr q

theorem smooth_comb (e : ι → Fld Ω Γ d) : SmoothFld fun x => Fld.comb x e :=
  ⟨fun p => smooth_lin fun i => (e i).val p, fun p k => smooth_lin fun i => (e i).grad p k,
    fun q => smooth_lin fun i => (e i).tr q⟩

theorem smooth_const (f : Fld Ω Γ d) : SmoothFld fun _ : ι → ℝ => f :=
  ⟨fun _ => contDiff_const, fun _ _ => contDiff_const, fun _ => contDiff_const⟩

theorem SmoothFld.mul {f g : (ι → ℝ) → Fld Ω Γ d} (hf : SmoothFld f) (hg : SmoothFld g) :
    SmoothFld fun x => f x * g x :=
  ⟨fun p => (hf.val p).mul (hg.val p),
    fun p k => ((hf.grad p k).mul (hg.val p)).add ((hf.val p).mul (hg.grad p k)),
    fun q => (hf.tr q).mul (hg.tr q)⟩

theorem SmoothFld.sq {f : (ι → ℝ) → Fld Ω Γ d} (hf : SmoothFld f) : SmoothFld fun x => (f x).sq :=
  ⟨fun p => (hf.val p).pow 2, fun p k => (contDiff_const.mul (hf.val p)).mul (hf.grad p k),
    fun q => (hf.tr q).pow 2⟩

theorem smooth_dot {f : (ι → ℝ) → Fin d → ℝ} (hf : ∀ k, Smooth fun x => f x k) (b : Fin d → ℝ) :
    Smooth fun x => dot (f x) b :=
  ContDiff.sum fun k _ => (hf k).mul contDiff_const

theorem smooth_conc {mv : Mobile Ω Γ d} {u : (ι → ℝ) → Fld Ω Γ d} (hu : SmoothFld u) (mat : Mat) (T : Temp Ω Γ d) :
    SmoothFld fun x => (({ mv with sol := u x } : Mobile Ω Γ d).conc mat T).1 := by
  unfold Mobile.conc
  cases mv.theta with
  | false => exact hu
  | true =>
    cases mat.law with
    | sievert => exact hu.mul (smooth_const _)
    | henry => exact hu.sq.mul (smooth_const _)

theorem smooth_mobileConc {mv : Mobile Ω Γ d} {u : (ι → ℝ) → Fld Ω Γ d} (hu : SmoothFld u) (m : Mesh Ω Γ d)
    (mats : List Mat) (p : Ω) : Smooth fun x => ({ mv with sol := u x } : Mobile Ω Γ d).mobileConc m mats p := by
  unfold Mobile.mobileConc
  cases mv.theta with
  | false => exact hu.val p
  | true =>
    simp only [if_true]
    exact (contDiff_const.mul (((hu.val p).pow 2).mul contDiff_const)).add
      (contDiff_const.mul ((hu.val p).mul contDiff_const))

theorem smooth_mobileConcS {mv : Mobile Ω Γ d} {u : (ι → ℝ) → Fld Ω Γ d} (hu : SmoothFld u) (m : Mesh Ω Γ d)
    (mats : List Mat) (q : Γ) : Smooth fun x => ({ mv with sol := u x } : Mobile Ω Γ d).mobileConcS m mats q := by
  unfold Mobile.mobileConcS
  cases mv.theta with
  | false => exact hu.tr q
  | true =>
    simp only [if_true]
    exact (contDiff_const.mul (((hu.tr q).pow 2).mul contDiff_const)).add
      (contDiff_const.mul ((hu.tr q).mul contDiff_const))

section
variable (m : Mesh Ω Γ d)

theorem smooth_dx {g : (ι → ℝ) → Ω → ℝ} (hg : ∀ p, Smooth fun x => g x p) :
    Smooth fun x => m.integrate (.dx (g x)) :=
  ContDiff.sum fun p _ => contDiff_const.mul (hg p)

theorem smooth_dxOn (ids : List ℕ) {g : (ι → ℝ) → Ω → ℝ} (hg : ∀ p, Smooth fun x => g x p) :
    Smooth fun x => m.integrate (.dxOn ids (g x)) := by
  refine ContDiff.sum fun p _ => ?_
  by_cases hp : m.vm p ∈ ids
  · simp only [hp, if_true]; exact contDiff_const.mul (hg p)
  · simp only [hp, if_false]; exact contDiff_const

theorem smooth_ds (id : ℕ) {g : (ι → ℝ) → Γ → ℝ} (hg : ∀ q, Smooth fun x => g x q) :
    Smooth fun x => m.integrate (.ds id (g x)) := by
  refine ContDiff.sum fun q _ => ?_
  by_cases hq : m.sm q = id
  · simp only [hq, if_true]; exact contDiff_const.mul (hg q)
  · simp only [hq, if_false]; exact contDiff_const

/-- A form with stepsize `h` and coefficients `x` whose value is `h⁻¹ (A x - c) + B x`, `B` smooth. -/
def Splits (F : ℝ → (ι → ℝ) → Except PyErr (Form Ω Γ)) (A : (ι → ℝ) → ℝ) : Prop :=
  ∃ (c : ℝ) (B : (ι → ℝ) → ℝ), Smooth B ∧
    ∀ h x f, F h x = .ok f → m.assemble f = h⁻¹ * (A x - c) + B x

variable {m}

theorem Splits.congr {F : ℝ → (ι → ℝ) → Except PyErr (Form Ω Γ)} {A A' : (ι → ℝ) → ℝ} (h : Splits m F A)
    (e : ∀ x, A x = A' x) : Splits m F A' := by
  rw [← funext e]; exact h

theorem splits_nil : Splits m (fun _ _ => .ok []) fun _ : ι → ℝ => 0 :=
  ⟨0, fun _ => 0, contDiff_const, fun h x f e => by cases e; simp⟩

/-- A term without the stepsize. -/
theorem splits_term {t : (ι → ℝ) → Term Ω Γ} (ht : Smooth fun x => m.integrate (t x)) :
    Splits m (fun _ x => .ok [t x]) fun _ => 0 :=
  ⟨0, fun x => m.integrate (t x), ht, fun h x f e => by cases e; simp⟩

theorem Splits.append {F G : ℝ → (ι → ℝ) → Form Ω Γ} {A B : (ι → ℝ) → ℝ} (hF : Splits m (fun h x => .ok (F h x)) A)
    (hG : Splits m (fun h x => .ok (G h x)) B) : Splits m (fun h x => .ok (F h x ++ G h x)) fun x => A x + B x := by
  obtain ⟨c, b, hb, h1⟩ := hF
  obtain ⟨c', b', hb', h2⟩ := hG
  refine ⟨c + c', fun x => b x + b' x, hb.add hb', fun h x f e => ?_⟩
  cases e
  rw [assemble_append, h1 h x _ rfl, h2 h x _ rfl]
  ring

theorem Splits.bind {F G : ℝ → (ι → ℝ) → Except PyErr (Form Ω Γ)} {A B : (ι → ℝ) → ℝ} (hF : Splits m F A)
    (hG : Splits m G B) : Splits m (fun h x => do let f ← F h x; let g ← G h x; .ok (f ++ g)) fun x => A x + B x := by
  obtain ⟨c, b, hb, h1⟩ := hF
  obtain ⟨c', b', hb', h2⟩ := hG
  refine ⟨c + c', fun x => b x + b' x, hb.add hb', fun h x f e => ?_⟩
  dsimp only at e
  cases hf : F h x with
  | error _ => rw [hf] at e; cases e
  | ok f1 =>
    cases hg : G h x with
    | error _ => rw [hf, hg] at e; cases e
    | ok g1 =>
      rw [hf, hg] at e
      cases e
      rw [assemble_append, h1 h x _ hf, h2 h x _ hg]
      ring

theorem Splits.neg {F : ℝ → (ι → ℝ) → Except PyErr (Form Ω Γ)} {A : (ι → ℝ) → ℝ} (hF : Splits m F A) :
    Splits m (fun h x => do let f ← F h x; .ok (Form.neg f)) fun x => -A x := by
  obtain ⟨c, b, hb, h1⟩ := hF
  refine ⟨-c, fun x => -b x, hb.neg, fun h x f e => ?_⟩
  dsimp only at e
  cases hf : F h x with
  | error _ => rw [hf] at e; cases e
  | ok f1 =>
    rw [hf] at e
    cases e
    rw [assemble_neg, h1 h x _ hf]
    ring

theorem splits_flatMap {α : Type} (l : List α) {F : α → ℝ → (ι → ℝ) → Form Ω Γ} {A : α → (ι → ℝ) → ℝ}
    (h : ∀ a ∈ l, Splits m (fun h x => .ok (F a h x)) (A a)) :
    Splits m (fun h x => .ok (l.flatMap fun a => F a h x)) fun x => (l.map fun a => A a x).sum := by
  induction l with
  | nil => exact splits_nil
  | cons a l ih =>
    exact ((h a (by simp)).append (ih fun b hb => h b (by simp [hb])))

theorem splits_map {α : Type} (l : List α) {t : α → (ι → ℝ) → Term Ω Γ}
    (h : ∀ a ∈ l, Smooth fun x => m.integrate (t a x)) :
    Splits m (fun _ x => .ok (l.map fun a => t a x)) fun _ => 0 := by
  induction l with
  | nil => exact splits_nil
  | cons a l ih =>
    exact (((splits_term (h a (by simp))).append (ih fun b hb => h b (by simp [hb]))).congr fun _ => add_zero 0)

end

/-- The term with the stepsize: `(a x - b)/h * v`. -/
theorem splits_dxOn (m : Mesh Ω Γ d) (ids : List ℕ) (a : (ι → ℝ) → Ω → ℝ) (b v : Ω → ℝ) :
    Splits m (fun h x => .ok [.dxOn ids fun p => (a x p - b p) / h * v p])
      fun x => m.integrate (.dxOn ids fun p => a x p * v p) := by
  refine ⟨m.integrate (.dxOn ids fun p => b p * v p), fun _ => 0, contDiff_const, fun h x f e => ?_⟩
  cases e
  simp only [assemble_cons, assemble_nil, Mesh.integrate, add_zero]
  rw [← Finset.sum_sub_distrib, Finset.mul_sum]
  refine Finset.sum_congr rfl fun p _ => ?_
  split
  · rw [div_eq_mul_inv]; ring
  · simp

theorem splits_dx (m : Mesh Ω Γ d) (a : (ι → ℝ) → Ω → ℝ) (b v : Ω → ℝ) :
    Splits m (fun h x => .ok [.dx fun p => (a x p - b p) / h * v p])
      fun x => m.integrate (.dx fun p => a x p * v p) := by
  refine ⟨m.integrate (.dx fun p => b p * v p), fun _ => 0, contDiff_const, fun h x f e => ?_⟩
  cases e
  simp only [assemble_cons, assemble_nil, Mesh.integrate, add_zero]
  rw [← Finset.sum_sub_distrib, Finset.mul_sum]
  refine Finset.sum_congr rfl fun p _ => ?_
  rw [div_eq_mul_inv]; ring

theorem splits_ds (m : Mesh Ω Γ d) (id : ℕ) (k : ℝ) (a : (ι → ℝ) → Γ → ℝ) (b v : Γ → ℝ) :
    Splits m (fun h x => .ok [.ds id fun q => k * (a x q - b q) / h * v q])
      fun x => k * m.integrate (.ds id fun q => a x q * v q) := by
  refine ⟨k * m.integrate (.ds id fun q => b q * v q), fun _ => 0, contDiff_const, fun h x f e => ?_⟩
  cases e
  simp only [assemble_cons, assemble_nil, Mesh.integrate, add_zero]
  rw [← mul_sub, ← Finset.sum_sub_distrib, ← mul_assoc, Finset.mul_sum]
  refine Finset.sum_congr rfl fun p _ => ?_
  split
  · rw [div_eq_mul_inv]; ring
  · simp

section
variable (m : Mesh Ω Γ d) {u : (ι → ℝ) → MixedFun Ω Γ d} (hm : SmoothFld fun x => (u x).mob)
  (ht : ∀ k, SmoothFld fun x => (u x).trap k) (ha : ∀ k, Smooth fun x => (u x).ads k)
include hm

theorem splits_subdomain (mv : Mobile Ω Γ d) (mat : Mat) (T : Temp Ω Γ d) (soret : Bool) (v : Fld Ω Γ d) (sub : ℕ)
    (cn : Fld Ω Γ d) :
    Splits m (fun h x => .ok (subdomainForm m mat (({ mv with sol := (u x).mob } : Mobile Ω Γ d).conc mat T).1 cn T
        (some h) soret v sub))
      fun x => m.integrate (.dxOn [sub] fun p =>
        (({ mv with sol := (u x).mob } : Mobile Ω Γ d).conc mat T).1.val p * v.val p) := by
  have hc := smooth_conc (mv := mv) hm mat T
  set c : (ι → ℝ) → Fld Ω Γ d := fun x => (({ mv with sol := (u x).mob } : Mobile Ω Γ d).conc mat T).1
  change Splits m (fun h x => .ok (subdomainForm m mat (c x) cn T (some h) soret v sub))
    fun x => m.integrate (.dxOn [sub] fun p => (c x).val p * v.val p)
  have hmass := splits_dxOn m [sub] (fun x p => (c x).val p) cn.val v.val
  unfold subdomainForm
  dsimp only
  have hrest : ∀ {R : (ι → ℝ) → Form Ω Γ}, Splits m (fun _ x => .ok (R x)) (fun _ => 0) →
      Splits m (fun h x => .ok ([.dxOn [sub] fun p => ((c x).val p - cn.val p) / h * v.val p] ++ R x))
        fun x => m.integrate (.dxOn [sub] fun p => (c x).val p * v.val p) := fun hR =>
    (hmass.append hR).congr fun _ => add_zero _
  have hone : ∀ {t : (ι → ℝ) → Ω → ℝ}, (∀ p, Smooth fun x => t x p) →
      Splits m (fun _ x => .ok [.dxOn [sub] (t x)]) fun _ => 0 := fun h => splits_term (smooth_dxOn m [sub] h)
  have hif : ∀ {t : (ι → ℝ) → Ω → ℝ}, (∀ p, Smooth fun x => t x p) →
      Splits m (fun _ x => .ok (if soret = true then [.dxOn [sub] (t x)] else [])) fun _ => 0 := by
    intro t h
    cases soret with
    | false => exact splits_nil
    | true => exact hone h
  have hadd : ∀ {R R' : (ι → ℝ) → Form Ω Γ}, Splits m (fun _ x => .ok (R x)) (fun _ => 0) →
      Splits m (fun _ x => .ok (R' x)) (fun _ => 0) → Splits m (fun _ x => .ok (R x ++ R' x)) (fun _ => 0) :=
    fun h1 h2 => (Splits.append (F := fun _ => _) (G := fun _ => _) h1 h2).congr fun _ => add_zero 0
  cases m.type with
  | cartesian =>
    refine hrest (hadd (hone fun p => ?_) (hif fun p => ?_))
    · exact smooth_dot (fun k => contDiff_const.mul (hc.grad p k)) _
    · exact smooth_dot (fun k => ((contDiff_const.mul (hc.val p)).div_const _).mul contDiff_const) _
  | cylindrical =>
    refine hrest (hadd (hone fun p => ?_) (hif fun p => ?_))
    · exact contDiff_const.mul (smooth_dot (fun k => contDiff_const.mul (hc.grad p k)) _)
    · exact contDiff_const.mul
        (smooth_dot (fun k => ((contDiff_const.mul (hc.val p)).div_const _).mul contDiff_const) _)
  | spherical =>
    refine hrest (hadd (hone fun p => ?_) (hif fun p => ?_))
    · exact contDiff_const.mul (smooth_dot (fun k => hc.grad p k) _)
    · exact contDiff_const.mul
        (smooth_dot (fun k => ((contDiff_const.mul (hc.val p)).div_const _).mul contDiff_const) _)
  | other => exact hrest splits_nil

end

theorem splits_error {m : Mesh Ω Γ d} {F : ℝ → (ι → ℝ) → Except PyErr (Form Ω Γ)}
    (h : ∀ h x f, F h x ≠ .ok f) : Splits m F fun _ => 0 :=
  ⟨0, fun _ => 0, contDiff_const, fun k x f e => absurd e (h k x f)⟩

theorem splits_terms {m : Mesh Ω Γ d} {s t : (ι → ℝ) → Term Ω Γ} (hs : Smooth fun x => m.integrate (s x))
    (ht : Smooth fun x => m.integrate (t x)) {F : ℝ → (ι → ℝ) → Except PyErr (Form Ω Γ)} {A : (ι → ℝ) → ℝ}
    (hF : Splits m F A) : Splits m (fun h x => do let f ← F h x; .ok ([s x, t x] ++ f)) A := by
  obtain ⟨c, b, hb, h1⟩ := hF
  refine ⟨c, fun x => m.integrate (s x) + m.integrate (t x) + b x, (hs.add ht).add hb, fun h x f e => ?_⟩
  dsimp only at e
  cases hf : F h x with
  | error _ => rw [hf] at e; cases e
  | ok f1 =>
    rw [hf] at e
    cases e
    rw [assemble_append, h1 h x _ hf]
    simp only [assemble_cons, assemble_nil]
    ring

section
variable (m : Mesh Ω Γ d) {mob tr : (ι → ℝ) → Fld Ω Γ d} (hm : SmoothFld mob) (ht : SmoothFld tr)

include hm ht in
theorem splits_mobileTrapLoop (mv : Mobile Ω Γ d) (T : Temp Ω Γ d) (trap : Trap Ω Γ d) (v : Fld Ω Γ d) (l : List Mat) :
    ∀ i, Splits m (fun _ x => mobileTrapLoop { mv with sol := mob x } T { trap with sol := tr x } v i l)
      fun _ => 0 := by
  induction l with
  | nil => intro i; exact splits_nil
  | cons mat l ih =>
    intro i
    have hc := smooth_conc (mv := mv) hm mat T
    cases hp : trap.paramsMobile i with
    | error e =>
      apply splits_error
      intro h x f
      change (trap.paramsMobile i >>= _) ≠ _
      rw [hp]
      intro e; cases e
    | ok K =>
      have : (fun (_ : ℝ) x => mobileTrapLoop { mv with sol := mob x } T { trap with sol := tr x } v i (mat :: l))
          = fun _ x => mobileTrapLoop { mv with sol := mob x } T { trap with sol := tr x } v (i + 1) l >>= fun f =>
            .ok ([.dxOn mat.ids fun p => -K.k * Real.exp (-K.Ek / kB / T.T.val p)
                  * (({ mv with sol := mob x } : Mobile Ω Γ d).conc mat T).1.val p * (K.n p - (tr x).val p) * v.val p,
                .dxOn mat.ids fun p => K.p * Real.exp (-K.Ep / kB / T.T.val p) * (tr x).val p * v.val p] ++ f) := by
        funext h x
        change (trap.paramsMobile i >>= _) = _
        rw [hp]
        rfl
      rw [this]
      refine splits_terms (smooth_dxOn m _ fun p => ?_) (smooth_dxOn m _ fun p => ?_) (ih (i + 1))
      · exact ((contDiff_const.mul (hc.val p)).mul (contDiff_const.sub (ht.val p))).mul contDiff_const
      · exact (contDiff_const.mul (ht.val p)).mul contDiff_const

include hm ht in
theorem splits_trapLoop (mv : Mobile Ω Γ d) (T : Temp Ω Γ d) (trap : Trap Ω Γ d) (v : Fld Ω Γ d) (l : List Mat) :
    ∀ i, Splits m (fun _ x => trapLoop { mv with sol := mob x } T { trap with sol := tr x } v i l)
      fun _ => 0 := by
  induction l with
  | nil => intro i; exact splits_nil
  | cons mat l ih =>
    intro i
    have hc := smooth_conc (mv := mv) hm mat T
    cases hp : trap.params i with
    | error e =>
      apply splits_error
      intro h x f
      change (trap.params i >>= _) ≠ _
      rw [hp]
      intro e; cases e
    | ok K =>
      by_cases hh : mv.theta = true ∧ mat.law = .henry
      · apply splits_error
        intro h x f
        change (trap.params i >>= _) ≠ _
        rw [hp]
        change (if mv.theta = true ∧ mat.law = .henry then _ else _) ≠ _
        rw [if_pos hh]
        intro e; cases e
      · have : (fun (_ : ℝ) x => trapLoop { mv with sol := mob x } T { trap with sol := tr x } v i (mat :: l))
            = fun _ x => trapLoop { mv with sol := mob x } T { trap with sol := tr x } v (i + 1) l >>= fun f =>
            .ok ([.dxOn mat.ids fun p => -K.k * Real.exp (-K.Ek / kB / T.T.val p)
                    * (({ mv with sol := mob x } : Mobile Ω Γ d).conc mat T).1.val p * (K.n p - (tr x).val p) * v.val p,
                  .dxOn mat.ids fun p => K.p * Real.exp (-K.Ep / kB / T.T.val p) * (tr x).val p * v.val p] ++ f) := by
          funext h x
          change (trap.params i >>= _) = _
          rw [hp]
          change (if mv.theta = true ∧ mat.law = .henry then _ else _) = _
          rw [if_neg hh]
        rw [this]
        refine splits_terms (smooth_dxOn m _ fun p => ?_) (smooth_dxOn m _ fun p => ?_) (ih (i + 1))
        · exact ((contDiff_const.mul (hc.val p)).mul (contDiff_const.sub (ht.val p))).mul contDiff_const
        · exact (contDiff_const.mul (ht.val p)).mul contDiff_const

theorem smooth_srcAt (s : Src Ω) {c : (ι → ℝ) → Ω → ℝ} (hc : ∀ p, Smooth fun x => c x p) (p : Ω) :
    Smooth fun x => s.at (c x) p := by
  unfold Src.at
  cases s.value with
  | given f => exact contDiff_const
  | decay lam => exact contDiff_const.mul (hc p)

theorem Splits.mapOk {F : ℝ → (ι → ℝ) → Except PyErr (Form Ω Γ)} {G : ℝ → (ι → ℝ) → Form Ω Γ} {A B : (ι → ℝ) → ℝ}
    (hF : Splits m F A) (hG : Splits m (fun h x => .ok (G h x)) B) :
    Splits m (fun h x => do let f ← F h x; .ok (f ++ G h x)) fun x => A x + B x :=
  hF.bind hG

theorem Splits.mapOk' {F : ℝ → (ι → ℝ) → Except PyErr (Form Ω Γ)} {G : ℝ → (ι → ℝ) → Form Ω Γ} {A B : (ι → ℝ) → ℝ}
    (hG : Splits m (fun h x => .ok (G h x)) B) (hF : Splits m F A) :
    Splits m (fun h x => do let f ← F h x; .ok (G h x ++ f)) fun x => B x + A x := by
  obtain ⟨c, b, hb, h1⟩ := hF
  obtain ⟨c', b', hb', h2⟩ := hG
  refine ⟨c' + c, fun x => b' x + b x, hb'.add hb, fun h x f e => ?_⟩
  dsimp only at e
  cases hf : F h x with
  | error _ => rw [hf] at e; cases e
  | ok f1 =>
    rw [hf] at e
    cases e
    rw [assemble_append, h1 h x _ hf, h2 h x _ rfl]
    ring

include hm ht in
theorem splits_trapForm (mats : List Mat) (mv : Mobile Ω Γ d) (T : Temp Ω Γ d) (trap : Trap Ω Γ d) (v : Fld Ω Γ d) :
    Splits m (fun h x => trapForm mats { mv with sol := mob x } T (some h) { trap with sol := tr x } v)
      fun x => m.integrate (.dx fun p => (tr x).val p * v.val p) := by
  have h1 := (splits_dx m (fun x => (tr x).val) trap.prev.val v.val).mapOk'
    m (splits_trapLoop m hm ht mv T trap v trap.materials 0)
  have h2 : Splits m (fun _ x => .ok (trapSourceForm ({ trap with sol := tr x } : Trap Ω Γ d) v)) fun _ => 0 :=
    splits_map _ fun s _ => smooth_dxOn m _ fun p =>
      ((smooth_srcAt s (c := fun x => (tr x).val) ht.val p).neg).mul contDiff_const
  exact (Splits.mapOk (G := fun _ x => trapSourceForm ({ trap with sol := tr x } : Trap Ω Γ d) v) m h1 h2).congr
    fun x => by ring

end

section
variable (m : Mesh Ω Γ d)

/-- What the time derivatives of the traps give. -/
def trapMass (f g : ℕ → Fld Ω Γ d) : ℕ → List (Trap Ω Γ d) → ℝ
  | _, [] => 0
  | k, _ :: ts => m.integrate (.dx fun p => (f k).val p * (g k).val p) + trapMass f g (k + 1) ts

/-- And of the adsorbed concentrations. -/
def surfMass (lam : ℝ) (c vtr : Γ → ℝ) (a a' : ℕ → ℝ) : ℕ → List SKSurf → ℝ
  | _, [] => 0
  | k, s :: ss => m.integrate (.ds s.id fun _ => a k * a' k) + lam * m.integrate (.ds s.id fun q => c q * vtr q)
      + surfMass lam c vtr a a' (k + 1) ss

def bcMass (c vtr : Γ → ℝ) (a a' : ℕ → ℝ) : ℕ → List (MobBC Γ) → ℝ
  | _, [] => 0
  | k, .flux _ _ :: bcs => bcMass c vtr a a' k bcs
  | k, .sk b _ :: bcs => surfMass m b.lambda_IS c vtr a a' k b.surfaces
      + bcMass c vtr a a' (k + b.surfaces.length) bcs

/-- And all together. -/
noncomputable def Problem.massForm (P : Problem Ω Γ d) (bcs : List (MobBC Γ)) (u v : MixedFun Ω Γ d) : ℝ :=
  (P.mats.map fun mat => (mat.ids.map fun i => P.mesh.integrate (.dxOn [i] fun p =>
      (({ P.mv with sol := u.mob } : Mobile Ω Γ d).conc mat P.T).1.val p * v.mob.val p)).sum).sum
    + bcMass P.mesh (({ P.mv with sol := u.mob } : Mobile Ω Γ d).mobileConcS P.mesh P.mats) v.mob.tr u.ads v.ads 0 bcs
    + trapMass P.mesh u.trap v.trap 0 P.traps

theorem smooth_flux {f : Flux Γ} (hf : SmoothFlux f) (T : Γ → ℝ) {c : (ι → ℝ) → Γ → ℝ}
    (hc : ∀ q, Smooth fun x => c x q) (q : Γ) : Smooth fun x => f.form T (c x) q := by
  unfold Flux.form
  cases f with
  | value g => exact contDiff_const
  | recomb K E order => exact contDiff_const.mul ((hc q).rpow_const_of_le (by exact_mod_cast hf))
  | dissoc K E P => exact contDiff_const
  | mass h c => exact contDiff_const.mul ((hc q).sub contDiff_const)
  | convective h c => exact contDiff_const
  | custom f => exact (hf q (T q)).comp (hc q)

theorem splits_surfs {b : SK Γ} (hb : SmoothSK b) (prev vtr T : Γ → ℝ) {c : (ι → ℝ) → Γ → ℝ}
    (hc : ∀ q, Smooth fun x => c x q) {a : (ι → ℝ) → ℕ → ℝ} (ha : ∀ k, Smooth fun x => a x k) (a' : ℕ → ℝ)
    (l : List SKSurf) : ∀ k, Splits m
      (fun h x => .ok (((placeSurfs (a x) k l).zip (adsTests a' k l)).flatMap fun p =>
        b.surfForm (Ω := Ω) (c x) prev vtr T (some h) p.1 p.2))
      fun x => surfMass m b.lambda_IS (c x) vtr (a x) a' k l := by
  induction l with
  | nil => intro k; exact splits_nil
  | cons s l ih =>
    intro k
    have hz : ∀ q, Smooth (fun x => b.k_sb q (T q) (a x k) (c x q)) ∧ Smooth (fun x => b.k_bs q (T q) (a x k) (c x q)) ∧
        Smooth (fun x => b.J_vs q (T q) (a x k) (c x q)) := by
      intro q
      have hpair : ContDiff ℝ 1 fun x : ι → ℝ => (a x k, c x q) := (ha k).prodMk (hc q)
      exact ⟨(hb q (T q)).1.comp hpair, (hb q (T q)).2.1.comp hpair, (hb q (T q)).2.2.comp hpair⟩
    have hsb : ∀ q, Smooth fun x => b.Jsb T (c x) (a x k) q := fun q =>
      ((hz q).1.mul (ha k)).mul (contDiff_const.sub ((hc q).div_const _))
    have hbs : ∀ q, Smooth fun x => b.Jbs T (c x) (a x k) q := fun q =>
      ((hz q).2.1.mul (hc q)).mul (contDiff_const.sub ((ha k).div_const _))
    have h1 := splits_ds m s.id 1 (fun x _ => a x k) (fun _ => s.prev) (fun _ => a' k)
    have h2 := splits_ds m s.id b.lambda_IS c prev vtr
    have h3 := splits_term (m := m) (smooth_ds m s.id (g := fun x q =>
      -(b.J_vs q (T q) (a x k) (c x q) + b.Jbs T (c x) (a x k) q - b.Jsb T (c x) (a x k) q) * a' k)
      fun q => ((((hz q).2.2.add (hbs q)).sub (hsb q)).neg).mul contDiff_const)
    have h4 := splits_term (m := m) (smooth_ds m s.id (g := fun x q =>
      (b.Jbs T (c x) (a x k) q - b.Jsb T (c x) (a x k) q) * vtr q)
      fun q => ((hbs q).sub (hsb q)).mul contDiff_const)
    have h5 := (((h1.append h2).append (Splits.append (F := fun _ x => _) (G := fun _ x => _) h3 h4)).append
      (ih (k + 1))).congr (A' := fun x => surfMass m b.lambda_IS (c x) vtr (a x) a' k (s :: l))
      (fun x => by simp only [surfMass]; ring)
    simp only [one_mul] at h5
    exact h5

theorem splits_bcs (mats : List Mat) (mv : Mobile Ω Γ d) (T : Temp Ω Γ d) (v : Fld Ω Γ d)
    {mob : (ι → ℝ) → Fld Ω Γ d} (hm : SmoothFld mob) {a : (ι → ℝ) → ℕ → ℝ} (ha : ∀ k, Smooth fun x => a x k)
    (a' : ℕ → ℝ) (bcs : List (MobBC Γ)) (hb : ∀ bc ∈ bcs, SmoothBC bc) : ∀ k, Splits m
      (fun h x => .ok (fluxesForm m mats { mv with sol := mob x } T (some h) (placeBCs (a x) a' k bcs) v))
      fun x => bcMass m (({ mv with sol := mob x } : Mobile Ω Γ d).mobileConcS m mats) v.tr (a x) a' k bcs := by
  have hc : ∀ q, Smooth fun x => ({ mv with sol := mob x } : Mobile Ω Γ d).mobileConcS m mats q := fun q =>
    smooth_mobileConcS hm m mats q
  induction bcs with
  | nil => intro k; exact splits_nil
  | cons bc bcs ih =>
    intro k
    have ih' := ih fun b hb' => hb b (by simp [hb'])
    have h0 := hb bc (by simp)
    cases bc with
    | flux f l =>
      have h1 : Splits m (fun _ x => .ok (l.map fun s => Term.ds s fun q =>
          -v.tr q * f.form T.T.tr (({ mv with sol := mob x } : Mobile Ω Γ d).mobileConcS m mats) q)) fun _ => 0 :=
        splits_map l fun s _ => smooth_ds m s fun q => contDiff_const.mul (smooth_flux h0 _ hc q)
      exact (Splits.append (F := fun _ x => _) h1 (ih' k)).congr fun x => zero_add _
    | sk b vs =>
      exact (splits_surfs m (b := b) h0 mv.prev.tr v.tr T.T.tr hc ha a' b.surfaces k).append (ih' _)

theorem splits_mobileTraps (mv : Mobile Ω Γ d) (T : Temp Ω Γ d) (v : Fld Ω Γ d)
    {mob : (ι → ℝ) → Fld Ω Γ d} (hm : SmoothFld mob) {tr : (ι → ℝ) → ℕ → Fld Ω Γ d}
    (ht : ∀ k, SmoothFld fun x => tr x k) (traps : List (Trap Ω Γ d)) : ∀ k, Splits m
      (fun _ x => mobileTraps { mv with sol := mob x } T v (placeTraps (tr x) k traps)) fun _ => 0 := by
  induction traps with
  | nil => intro k; exact splits_nil
  | cons t ts ih =>
    intro k
    exact ((splits_mobileTrapLoop m hm (ht k) mv T t v t.materials 0).bind (ih (k + 1))).congr fun _ => add_zero 0

theorem splits_traps (mats : List Mat) (mv : Mobile Ω Γ d) (T : Temp Ω Γ d)
    {mob : (ι → ℝ) → Fld Ω Γ d} (hm : SmoothFld mob) {tr : (ι → ℝ) → ℕ → Fld Ω Γ d}
    (ht : ∀ k, SmoothFld fun x => tr x k) (g : ℕ → Fld Ω Γ d) (traps : List (Trap Ω Γ d)) : ∀ k, Splits m
      (fun h x => trapsForm mats { mv with sol := mob x } T (some h)
        ((placeTraps (tr x) k traps).zip (trapTests g k traps)))
      fun x => trapMass m (tr x) g k traps := by
  induction traps with
  | nil => intro k; exact splits_nil
  | cons t ts ih =>
    intro k
    exact (splits_trapForm m hm (ht k) mats mv T t (g k)).bind (ih (k + 1))

end

/-- The whole form. -/
theorem splits_form (P : Problem Ω Γ d) (bcs : List (MobBC Γ)) (hb : ∀ bc ∈ bcs, SmoothBC bc) (v : MixedFun Ω Γ d)
    {u : (ι → ℝ) → MixedFun Ω Γ d} (hm : SmoothFld fun x => (u x).mob) (ht : ∀ k, SmoothFld fun x => (u x).trap k)
    (ha : ∀ k, Smooth fun x => (u x).ads k) :
    Splits P.mesh (fun h x => ({ P with dt := some h } : Problem Ω Γ d).mixedForm bcs (u x) v)
      fun x => P.massForm bcs (u x) v := by
  have h1 : Splits P.mesh (fun h x => .ok (P.mats.flatMap fun mat => mat.ids.flatMap fun sub =>
      subdomainForm P.mesh mat (({ P.mv with sol := (u x).mob } : Mobile Ω Γ d).conc mat P.T).1
        (P.mv.conc mat P.T).2 P.T (some h) P.soret v.mob sub)) _ :=
    splits_flatMap P.mats fun mat _ => splits_flatMap mat.ids fun sub _ =>
      splits_subdomain P.mesh hm P.mv mat P.T P.soret v.mob sub (P.mv.conc mat P.T).2
  have h2 := (splits_mobileTraps P.mesh P.mv P.T v.mob hm ht P.traps 0).neg
  have h3 := h1.mapOk' P.mesh h2
  have h4 : Splits P.mesh (fun _ x => .ok (sourceForm P.mesh P.mats { P.mv with sol := (u x).mob } P.sources v.mob))
      fun _ => 0 := by
    refine (splits_flatMap P.sources (F := fun s _ x => s.volumes.map fun vol => .dxOn [vol] fun p =>
      -s.at (({ P.mv with sol := (u x).mob } : Mobile Ω Γ d).mobileConc P.mesh P.mats) p * v.mob.val p)
      (A := fun _ _ => 0) fun s _ => splits_map s.volumes fun vol _ => smooth_dxOn P.mesh _ fun p => ?_).congr ?_
    · exact ((smooth_srcAt s (fun p => smooth_mobileConc hm P.mesh P.mats p) p).neg).mul contDiff_const
    · intro x; simp
  have h5 := splits_bcs P.mesh P.mats P.mv P.T v.mob hm ha v.ads bcs hb 0
  have h6 := splits_traps P.mesh P.mats P.mv P.T hm ht v.trap P.traps 0
  have h7 := ((h3.mapOk P.mesh (Splits.append (F := fun _ x => _) h4 h5)).bind h6).congr
    (A' := fun x => P.massForm bcs (u x) v) (fun x => by simp only [Problem.massForm]; ring)
  obtain ⟨c, B, hB, h⟩ := h7
  refine ⟨c, B, hB, fun k x f e => h k x f ?_⟩
  rw [← e]
  unfold Problem.mixedForm Problem.form mobileForm diffusionForm
  simp only [Problem.at, bind_assoc]
  have hconc : ∀ mat, (({ P.mv with sol := (u x).mob } : Mobile Ω Γ d).conc mat P.T).2 = (P.mv.conc mat P.T).2 := by
    intro mat; unfold Mobile.conc; dsimp only; split <;> [(split <;> rfl); rfl]
  simp only [hconc]
  cases mobileTraps { P.mv with sol := (u x).mob } P.T v.mob (placeTraps (u x).trap 0 P.traps) with
  | error e => rfl
  | ok f =>
    simp only [Except.bind, bind, List.append_assoc]

section
variable (P : Problem Ω Γ d) (bcs : List (MobBC Γ)) {e : ι → MixedFun Ω Γ d}

/-- Linear in the coefficients. -/
def Lin (e : ι → MixedFun Ω Γ d) (f : MixedFun Ω Γ d → ℝ) : Prop :=
  ∀ x : ι → ℝ, f (MixedFun.comb x e) = ∑ i, x i * f (e i)

theorem Lin.add {f g : MixedFun Ω Γ d → ℝ} (hf : Lin e f) (hg : Lin e g) : Lin e fun u => f u + g u := by
  intro x
  dsimp only
  rw [hf x, hg x, ← Finset.sum_add_distrib]
  exact Finset.sum_congr rfl fun i _ => by ring

theorem Lin.smul {f : MixedFun Ω Γ d → ℝ} (k : ℝ) (hf : Lin e f) : Lin e fun u => k * f u := by
  intro x
  dsimp only
  rw [hf x, Finset.mul_sum]
  exact Finset.sum_congr rfl fun i _ => by ring

theorem Lin.smul' {f : MixedFun Ω Γ d → ℝ} (k : ℝ) (hf : Lin e f) : Lin e fun u => f u * k := by
  intro x
  dsimp only
  rw [hf x, Finset.sum_mul]
  exact Finset.sum_congr rfl fun i _ => by ring

theorem Lin.zero : Lin e fun _ => 0 := by intro x; simp

theorem Lin.sum {α : Type} (s : Finset α) {f : α → MixedFun Ω Γ d → ℝ} (hf : ∀ a, Lin e (f a)) :
    Lin e fun u => ∑ a ∈ s, f a u := by
  intro x
  simp only [fun a => hf a x]
  rw [Finset.sum_comm]
  exact Finset.sum_congr rfl fun i _ => by rw [Finset.mul_sum]

theorem Lin.mob (p : Ω) : Lin e fun u => u.mob.val p := fun _ => rfl
theorem Lin.mobTr (q : Γ) : Lin e fun u => u.mob.tr q := fun _ => rfl
theorem Lin.trap (k : ℕ) (p : Ω) : Lin e fun u => (u.trap k).val p := fun _ => rfl
theorem Lin.ads (k : ℕ) : Lin e fun u => u.ads k := fun _ => rfl

theorem Lin.dx (m : Mesh Ω Γ d) {g : MixedFun Ω Γ d → Ω → ℝ} (hg : ∀ p, Lin e fun u => g u p) :
    Lin e fun u => m.integrate (.dx (g u)) :=
  Lin.sum _ fun p => (hg p).smul _

theorem Lin.ds (m : Mesh Ω Γ d) (id : ℕ) {g : MixedFun Ω Γ d → Γ → ℝ} (hg : ∀ q, Lin e fun u => g u q) :
    Lin e fun u => m.integrate (.ds id (g u)) := by
  refine Lin.sum _ fun q => ?_
  by_cases hq : m.sm q = id
  · simp only [hq, if_true]; exact (hg q).smul _
  · simp only [hq, if_false]; exact Lin.zero

theorem lin_trapMass (m : Mesh Ω Γ d) (g : ℕ → Fld Ω Γ d) (traps : List (Trap Ω Γ d)) :
    ∀ k, Lin e fun u => trapMass m u.trap g k traps := by
  induction traps with
  | nil => intro k; exact Lin.zero
  | cons t ts ih => intro k; exact (Lin.dx m fun p => (Lin.trap k p).smul' _).add (ih (k + 1))

theorem lin_trapMass' (m : Mesh Ω Γ d) (g : ℕ → Fld Ω Γ d) (traps : List (Trap Ω Γ d)) :
    ∀ k, Lin e fun u => trapMass m g u.trap k traps := by
  induction traps with
  | nil => intro k; exact Lin.zero
  | cons t ts ih => intro k; exact (Lin.dx m fun p => (Lin.trap k p).smul _).add (ih (k + 1))

theorem lin_surfMass (m : Mesh Ω Γ d) (lam : ℝ) {c : MixedFun Ω Γ d → Γ → ℝ} (hc : ∀ q, Lin e fun u => c u q)
    (vtr : Γ → ℝ) (a' : ℕ → ℝ) (l : List SKSurf) : ∀ k, Lin e fun u => surfMass m lam (c u) vtr u.ads a' k l := by
  induction l with
  | nil => intro k; exact Lin.zero
  | cons s l ih =>
    intro k
    exact ((Lin.ds m _ fun q => (Lin.ads k).smul' _).add ((Lin.ds m _ fun q => (hc q).smul' _).smul _)).add (ih (k + 1))

theorem lin_surfMass' (m : Mesh Ω Γ d) (lam : ℝ) (c : Γ → ℝ) (a : ℕ → ℝ) (l : List SKSurf) :
    ∀ k, Lin e fun u => surfMass m lam c u.mob.tr a u.ads k l := by
  induction l with
  | nil => intro k; exact Lin.zero
  | cons s l ih =>
    intro k
    exact ((Lin.ds m _ fun q => (Lin.ads k).smul _).add ((Lin.ds m _ fun q => (Lin.mobTr q).smul _).smul _)).add
      (ih (k + 1))

theorem lin_bcMass (m : Mesh Ω Γ d) {c : MixedFun Ω Γ d → Γ → ℝ} (hc : ∀ q, Lin e fun u => c u q)
    (vtr : Γ → ℝ) (a' : ℕ → ℝ) (l : List (MobBC Γ)) : ∀ k, Lin e fun u => bcMass m (c u) vtr u.ads a' k l := by
  induction l with
  | nil => intro k; exact Lin.zero
  | cons b l ih =>
    intro k
    cases b with
    | flux f s => exact ih k
    | sk b vs => exact (lin_surfMass m _ hc vtr a' _ k).add (ih _)

theorem lin_bcMass' (m : Mesh Ω Γ d) (c : Γ → ℝ) (a : ℕ → ℝ) (l : List (MobBC Γ)) :
    ∀ k, Lin e fun u => bcMass m c u.mob.tr a u.ads k l := by
  induction l with
  | nil => intro k; exact Lin.zero
  | cons b l ih =>
    intro k
    cases b with
    | flux f s => exact ih k
    | sk b vs => exact (lin_surfMass' m _ c a _ k).add (ih _)

/-- The factor between the unknown and the concentration in the cells. -/
noncomputable def sigma (mv : Mobile Ω Γ d) (mat : Mat) (T : ℝ) : ℝ :=
  if mv.theta then mat.S_0 * Real.exp (-mat.E_S / kB / T) else 1

theorem conc_sigma (hth : P.mv.theta = true → ∀ mat ∈ P.mats, mat.law = .sievert) {mat : Mat} (hm : mat ∈ P.mats)
    (u : Fld Ω Γ d) (p : Ω) :
    (({ P.mv with sol := u } : Mobile Ω Γ d).conc mat P.T).1.val p = sigma P.mv mat (P.T.T.val p) * u.val p := by
  unfold Mobile.conc sigma
  cases h : P.mv.theta with
  | false => simp
  | true =>
    simp only [if_true, hth h mat hm, arrhenius, Fld.mul_val, Fld.const_val, Fld.exp_val, Fld.div_val]
    ring

/-- The same on the boundary. -/
noncomputable def sigmaS (q : Γ) : ℝ := if P.mv.theta then lawMarker P.mats .sievert (P.mesh.vmS q) * P.mv.S.tr q else 1

theorem lawMarker_henry {mats : List Mat} (h : ∀ mat ∈ mats, mat.law = .sievert) (i : ℕ) :
    lawMarker mats .henry i = 0 := by
  unfold lawMarker
  apply List.sum_eq_zero
  intro x hx
  obtain ⟨mat, hm, rfl⟩ := List.mem_map.1 hx
  rw [if_neg]
  rw [h mat hm]; decide

theorem concS_sigma (hth : P.mv.theta = true → ∀ mat ∈ P.mats, mat.law = .sievert) (u : Fld Ω Γ d) (q : Γ) :
    ({ P.mv with sol := u } : Mobile Ω Γ d).mobileConcS P.mesh P.mats q = sigmaS P q * u.tr q := by
  unfold Mobile.mobileConcS sigmaS
  cases h : P.mv.theta with
  | false => simp
  | true => simp only [if_true, lawMarker_henry (hth h), zero_mul, zero_add]; ring

theorem mass_cells (hth : P.mv.theta = true → ∀ mat ∈ P.mats, mat.law = .sievert) {mat : Ω → Mat}
    (hc : Covers P.mesh P.mats mat) (u v : Fld Ω Γ d) :
    (P.mats.map fun mat => (mat.ids.map fun i => P.mesh.integrate (.dxOn [i] fun p =>
      (({ P.mv with sol := u } : Mobile Ω Γ d).conc mat P.T).1.val p * v.val p)).sum).sum
      = P.mesh.integrate (.dx fun p => sigma P.mv (mat p) (P.T.T.val p) * u.val p * v.val p) := by
  simp only [integrate_dxOn1]
  rw [sum_materials P.mesh hc fun mt p => (({ P.mv with sol := u } : Mobile Ω Γ d).conc mt P.T).1.val p * v.val p]
  simp only [fun p => conc_sigma P hth (hc.mem p) u p]
  rfl

theorem massForm_eq (hth : P.mv.theta = true → ∀ mat ∈ P.mats, mat.law = .sievert) {mat : Ω → Mat}
    (hc : Covers P.mesh P.mats mat) (u v : MixedFun Ω Γ d) : P.massForm bcs u v
      = P.mesh.integrate (.dx fun p => sigma P.mv (mat p) (P.T.T.val p) * u.mob.val p * v.mob.val p)
        + bcMass P.mesh (fun q => sigmaS P q * u.mob.tr q) v.mob.tr u.ads v.ads 0 bcs
        + trapMass P.mesh u.trap v.trap 0 P.traps := by
  unfold Problem.massForm
  rw [mass_cells P hth hc]
  simp only [show ({ P.mv with sol := u.mob } : Mobile Ω Γ d).mobileConcS P.mesh P.mats
    = fun q => sigmaS P q * u.mob.tr q from funext fun q => concS_sigma P hth u.mob q]

theorem lin_mass (hth : P.mv.theta = true → ∀ mat ∈ P.mats, mat.law = .sievert) {mat : Ω → Mat}
    (hc : Covers P.mesh P.mats mat) (v : MixedFun Ω Γ d) : Lin e fun u => P.massForm bcs u v := by
  simp only [massForm_eq P bcs hth hc]
  exact ((Lin.dx _ fun p => ((Lin.mob p).smul _).smul' _).add
    (lin_bcMass _ (fun q => (Lin.mobTr q).smul _) _ _ _ 0)).add (lin_trapMass _ _ _ 0)

theorem lin_mass' (hth : P.mv.theta = true → ∀ mat ∈ P.mats, mat.law = .sievert) {mat : Ω → Mat}
    (hc : Covers P.mesh P.mats mat) (u : MixedFun Ω Γ d) : Lin e fun v => P.massForm bcs u v := by
  simp only [massForm_eq P bcs hth hc]
  exact ((Lin.dx _ fun p => (Lin.mob p).smul _).add
    (lin_bcMass' _ _ _ _ 0)).add (lin_trapMass' _ _ _ 0)

section
variable (m : Mesh Ω Γ d)

theorem trapMass_nonneg (hw : ∀ p, 0 < m.w p) (f : ℕ → Fld Ω Γ d) (traps : List (Trap Ω Γ d)) :
    ∀ k, 0 ≤ trapMass m f f k traps ∧ (trapMass m f f k traps = 0 →
      ∀ j < traps.length, ∀ p, (f (k + j)).val p = 0) := by
  induction traps with
  | nil => intro k; exact ⟨le_rfl, fun _ j hj => absurd hj (by simp)⟩
  | cons t ts ih =>
    intro k
    have hn : ∀ p ∈ Finset.univ, 0 ≤ m.w p * ((f k).val p * (f k).val p) := fun p _ =>
      mul_nonneg (hw p).le (mul_self_nonneg _)
    have h0 : 0 ≤ m.integrate (.dx fun p => (f k).val p * (f k).val p) := Finset.sum_nonneg hn
    refine ⟨add_nonneg h0 (ih (k + 1)).1, fun he j hj p => ?_⟩
    simp only [trapMass] at he
    have h1 : m.integrate (.dx fun p => (f k).val p * (f k).val p) = 0 := by linarith [(ih (k + 1)).1]
    have h2 : trapMass m f f (k + 1) ts = 0 := by linarith [(ih (k + 1)).1]
    cases j with
    | zero =>
      have := (Finset.sum_eq_zero_iff_of_nonneg hn).1 h1 p (Finset.mem_univ p)
      simpa [(hw p).ne'] using this
    | succ j =>
      have := (ih (k + 1)).2 h2 j (by simpa using hj) p
      rwa [show k + (j + 1) = k + 1 + j by omega]

theorem ds_nonneg (hws : ∀ q, 0 ≤ m.ws q) (id : ℕ) {g : Γ → ℝ} (hg : ∀ q, 0 ≤ g q) : 0 ≤ m.integrate (.ds id g) :=
  Finset.sum_nonneg fun q _ => by
    split
    · exact mul_nonneg (hws q) (hg q)
    · exact le_rfl

theorem surfMass_nonneg (hws : ∀ q, 0 ≤ m.ws q) {lam : ℝ} (hl : 0 ≤ lam) {σ t : Γ → ℝ} (hσ : ∀ q, 0 ≤ σ q)
    (a : ℕ → ℝ) (l : List SKSurf) (hl : ∀ s ∈ l, ∃ q, m.sm q = s.id ∧ 0 < m.ws q) :
    ∀ k, 0 ≤ surfMass m lam (fun q => σ q * t q) t a a k l ∧ (surfMass m lam (fun q => σ q * t q) t a a k l = 0 →
      ∀ j < l.length, a (k + j) = 0) := by
  induction l with
  | nil => intro k; exact ⟨le_rfl, fun _ j hj => absurd hj (by simp)⟩
  | cons s l ih =>
    intro k
    obtain ⟨ih1, ih2⟩ := ih (fun s hs => hl s (by simp [hs])) (k + 1)
    have h0 : 0 ≤ m.integrate (.ds s.id fun _ => a k * a k) := ds_nonneg m hws _ fun _ => mul_self_nonneg _
    have h1 : 0 ≤ lam * m.integrate (.ds s.id fun q => σ q * t q * t q) :=
      mul_nonneg ‹0 ≤ lam› (ds_nonneg m hws _ fun q => by
        rw [mul_assoc]; exact mul_nonneg (hσ q) (mul_self_nonneg _))
    refine ⟨add_nonneg (add_nonneg h0 h1) ih1, fun he j hj => ?_⟩
    simp only [surfMass] at he
    have h2 : m.integrate (.ds s.id fun _ => a k * a k) = 0 := by linarith
    have h3 : surfMass m lam (fun q => σ q * t q) t a a (k + 1) l = 0 := by linarith
    cases j with
    | zero =>
      obtain ⟨q, hq, hq'⟩ := hl s (by simp)
      have := (Finset.sum_eq_zero_iff_of_nonneg (fun q _ => by
        split
        · exact mul_nonneg (hws q) (mul_self_nonneg _)
        · exact le_rfl)).1 h2 q (Finset.mem_univ q)
      rw [if_pos hq] at this
      simpa [hq'.ne'] using this
    | succ j =>
      have := ih2 h3 j (by simpa using hj)
      rwa [show k + (j + 1) = k + 1 + j by omega]

theorem bcMass_nonneg (hws : ∀ q, 0 ≤ m.ws q) {σ t : Γ → ℝ} (hσ : ∀ q, 0 ≤ σ q)
    (a : ℕ → ℝ) (l : List (MobBC Γ)) (hl : ∀ b ∈ l, GoodSK m b) :
    ∀ k, 0 ≤ bcMass m (fun q => σ q * t q) t a a k l ∧ (bcMass m (fun q => σ q * t q) t a a k l = 0 →
      ∀ j < adsCount l, a (k + j) = 0) := by
  induction l with
  | nil => intro k; exact ⟨le_rfl, fun _ j hj => absurd hj (by simp [adsCount])⟩
  | cons b l ih =>
    intro k
    have ih' := ih (fun s hs => hl s (by simp [hs]))
    cases b with
    | flux f s => exact ih' k
    | sk b vs =>
      have hb : 0 ≤ b.lambda_IS ∧ _ := hl (.sk b vs) (by simp)
      obtain ⟨h1, h2⟩ := surfMass_nonneg m hws hb.1 (t := t) hσ a b.surfaces hb.2 k
      obtain ⟨h3, h4⟩ := ih' (k + b.surfaces.length)
      refine ⟨add_nonneg h1 h3, fun he j hj => ?_⟩
      simp only [bcMass] at he
      by_cases hj' : j < b.surfaces.length
      · exact h2 (by linarith) j hj'
      · have := h4 (by linarith) (j - b.surfaces.length) (by simp only [adsCount] at hj; omega)
        rwa [show k + j = k + b.surfaces.length + (j - b.surfaces.length) by omega]

end

theorem lawMarker_nonneg (mats : List Mat) (law : Law) (i : ℕ) : 0 ≤ lawMarker mats law i := by
  unfold lawMarker
  apply List.sum_nonneg
  intro x hx
  obtain ⟨mat, _, rfl⟩ := List.mem_map.1 hx
  split
  · apply List.sum_nonneg
    intro y hy
    obtain ⟨j, _, rfl⟩ := List.mem_map.1 hy
    split <;> norm_num
  · exact le_rfl

/-- The mass form is positive. -/
theorem mass_pos (hth : P.mv.theta = true → ∀ mat ∈ P.mats, mat.law = .sievert ∧ 0 < mat.S_0) {mat : Ω → Mat}
    (hc : Covers P.mesh P.mats mat) (hw : ∀ p, 0 < P.mesh.w p) (hws : ∀ q, 0 ≤ P.mesh.ws q)
    (hS : P.mv.theta = true → ∀ q, 0 ≤ P.mv.S.tr q) (hg : ∀ b ∈ bcs, GoodSK P.mesh b) (u : MixedFun Ω Γ d) :
    0 ≤ P.massForm bcs u u ∧ (P.massForm bcs u u = 0 → (∀ p, u.mob.val p = 0) ∧
      (∀ k < P.traps.length, ∀ p, (u.trap k).val p = 0) ∧ ∀ k < adsCount bcs, u.ads k = 0) := by
  have hσ : ∀ p, 0 < sigma P.mv (mat p) (P.T.T.val p) := by
    intro p
    unfold sigma
    split
    · rename_i h
      exact mul_pos (hth h _ (hc.mem p)).2 (Real.exp_pos _)
    · exact one_pos
  have hσS : ∀ q, 0 ≤ sigmaS P q := by
    intro q
    unfold sigmaS
    split
    · rename_i h
      exact mul_nonneg (lawMarker_nonneg _ _ _) (hS h q)
    · exact zero_le_one
  rw [massForm_eq P bcs (fun h mat hm => (hth h mat hm).1) hc]
  have hn : ∀ p ∈ Finset.univ, 0 ≤ P.mesh.w p * (sigma P.mv (mat p) (P.T.T.val p) * u.mob.val p * u.mob.val p) :=
    fun p _ => mul_nonneg (hw p).le (by rw [mul_assoc]; exact mul_nonneg (hσ p).le (mul_self_nonneg _))
  have h0 : 0 ≤ P.mesh.integrate (.dx fun p => sigma P.mv (mat p) (P.T.T.val p) * u.mob.val p * u.mob.val p) :=
    Finset.sum_nonneg hn
  obtain ⟨h1, h2⟩ := bcMass_nonneg P.mesh hws (t := u.mob.tr) hσS u.ads bcs hg 0
  obtain ⟨h3, h4⟩ := trapMass_nonneg P.mesh hw u.trap P.traps 0
  refine ⟨add_nonneg (add_nonneg h0 h1) h3, fun he => ⟨fun p => ?_, fun k hk p => ?_, fun k hk => ?_⟩⟩
  · have := (Finset.sum_eq_zero_iff_of_nonneg hn).1 (by
      change P.mesh.integrate (.dx fun p => sigma P.mv (mat p) (P.T.T.val p) * u.mob.val p * u.mob.val p) = 0
      linarith) p (Finset.mem_univ p)
    simpa [(hw p).ne', (hσ p).ne'] using this
  · simpa using h4 (by linarith) k hk p
  · simpa using h2 (by linarith) k hk

end

end

end Festim.Weak
