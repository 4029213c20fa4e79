import Verif.Spec.Superposition
import Verif.Proofs.Reorder

/-!
# Proofs for C108
-/

open scoped BigOperators

namespace Festim.Weak

variable {Ω Γ : Type} [Fintype Ω] [Fintype Γ] {d : ℕ}

theorem integrate_comb_dxOn (m : Mesh Ω Γ d) (a b : ℝ) (ids : List ℕ) {f g h : Ω → ℝ} (e : ∀ p, h p = a * f p + b * g p) :
    m.integrate (.dxOn ids h) = a * m.integrate (.dxOn ids f) + b * m.integrate (.dxOn ids g) := by
  simp only [Mesh.integrate, Finset.mul_sum, ← Finset.sum_add_distrib]
  refine Finset.sum_congr rfl fun p _ => ?_
  split
  · rw [e]; ring
  · ring

theorem integrate_comb_ds (m : Mesh Ω Γ d) (a b : ℝ) (s : ℕ) {f g h : Γ → ℝ} (e : ∀ q, m.sm q = s → h q = a * f q + b * g q) :
    m.integrate (.ds s h) = a * m.integrate (.ds s f) + b * m.integrate (.ds s g) := by
  simp only [Mesh.integrate, Finset.mul_sum, ← Finset.sum_add_distrib]
  refine Finset.sum_congr rfl fun q _ => ?_
  split
  · rw [e q ‹_›]; ring
  · ring

theorem sum_comb {α : Type} (a b : ℝ) (l : List α) {f g h : α → ℝ} (e : ∀ x ∈ l, h x = a * f x + b * g x) :
    (l.map h).sum = a * (l.map f).sum + b * (l.map g).sum := by
  induction l with
  | nil => simp
  | cons x l ih =>
    simp only [List.map_cons, List.sum_cons]
    rw [e x (by simp), ih fun y hy => e y (by simp [hy])]
    ring

omit [Fintype Ω] [Fintype Γ] in
theorem dot_comb (a b k : ℝ) (x y z : Fin d → ℝ) :
    dot (fun i => k * (a * x i + b * y i)) z = a * dot (fun i => k * x i) z + b * dot (fun i => k * y i) z := by
  simp only [dot, Finset.mul_sum, ← Finset.sum_add_distrib]
  exact Finset.sum_congr rfl fun i _ => by ring

omit [Fintype Ω] [Fintype Γ] in
theorem dot_comb' (a b k l : ℝ) (x z : Fin d → ℝ) :
    dot (fun i => (a * k + b * l) * x i) z = a * dot (fun i => k * x i) z + b * dot (fun i => l * x i) z := by
  simp only [dot, Finset.mul_sum, ← Finset.sum_add_distrib]
  exact Finset.sum_congr rfl fun i _ => by ring

omit [Fintype Ω] [Fintype Γ] in
theorem dot_comb1 (a b : ℝ) (x y z : Fin d → ℝ) :
    dot (fun i => a * x i + b * y i) z = a * dot x z + b * dot y z := by
  simp only [dot, Finset.mul_sum, ← Finset.sum_add_distrib]
  exact Finset.sum_congr rfl fun i _ => by ring

/-- Forms with the same terms, the integrands of the third being combinations of those of the first two. -/
inductive Blend (a b : ℝ) : Form Ω Γ → Form Ω Γ → Form Ω Γ → Prop
  | nil : Blend a b [] [] []
  | dxOn (ids : List ℕ) {f g h : Ω → ℝ} {F G H : Form Ω Γ} (e : ∀ p, h p = a * f p + b * g p) (t : Blend a b F G H) :
      Blend a b (.dxOn ids f :: F) (.dxOn ids g :: G) (.dxOn ids h :: H)
  | ds (s : ℕ) {f g h : Γ → ℝ} {F G H : Form Ω Γ} (e : ∀ q, h q = a * f q + b * g q) (t : Blend a b F G H) :
      Blend a b (.ds s f :: F) (.ds s g :: G) (.ds s h :: H)

theorem Blend.assemble {a b : ℝ} {F G H : Form Ω Γ} (t : Blend a b F G H) (m : Mesh Ω Γ d) :
    m.assemble H = a * m.assemble F + b * m.assemble G := by
  induction t with
  | nil => simp
  | dxOn ids e _ ih => rw [assemble_cons, assemble_cons, assemble_cons, ih, integrate_comb_dxOn m a b ids e]; ring
  | ds s e _ ih => rw [assemble_cons, assemble_cons, assemble_cons, ih, integrate_comb_ds m a b s fun q _ => e q]; ring

omit [Fintype Ω] [Fintype Γ] in
theorem Blend.append {a b : ℝ} {F G H F' G' H' : Form Ω Γ} (t : Blend a b F G H) (t' : Blend a b F' G' H') :
    Blend a b (F ++ F') (G ++ G') (H ++ H') := by
  induction t with
  | nil => exact t'
  | dxOn ids e _ ih => exact .dxOn ids e ih
  | ds s e _ ih => exact .ds s e ih

omit [Fintype Ω] [Fintype Γ] in
theorem Blend.flatMap {a b : ℝ} {α : Type} (l : List α) {F G H : α → Form Ω Γ} (h : ∀ x ∈ l, Blend a b (F x) (G x) (H x)) :
    Blend a b (l.flatMap F) (l.flatMap G) (l.flatMap H) := by
  induction l with
  | nil => exact .nil
  | cons x l ih =>
    simp only [List.flatMap_cons]
    exact (h x (by simp)).append (ih fun y hy => h y (by simp [hy]))

omit [Fintype Ω] [Fintype Γ] in
theorem subdomain_comb (m : Mesh Ω Γ d) (mat : Mat) (a b : ℝ) (c c' cn cn' : Fld Ω Γ d) (T : Temp Ω Γ d) (dt : Option ℝ)
    (soret : Bool) (v : Fld Ω Γ d) (sub : ℕ) :
    Blend a b (subdomainForm m mat c cn T dt soret v sub) (subdomainForm m mat c' cn' T dt soret v sub)
      (subdomainForm m mat (.mix a c b c') (.mix a cn b cn') T dt soret v sub) := by
  have e2 : ∀ p, ∀ k : ℝ, ∀ z : Fin d → ℝ, dot (fun i => k * (Fld.mix a c b c').grad p i) z
      = a * dot (fun i => k * c.grad p i) z + b * dot (fun i => k * c'.grad p i) z := fun p k z => dot_comb a b k _ _ z
  have e3 : ∀ p, ∀ k l : ℝ, ∀ z : Fin d → ℝ, dot (fun i => k * (Fld.mix a c b c').val p / l * T.T.grad p i) z
      = a * dot (fun i => k * c.val p / l * T.T.grad p i) z + b * dot (fun i => k * c'.val p / l * T.T.grad p i) z := by
    intro p k l z
    rw [← dot_comb']
    congr 1
    funext i
    simp only [Fld.mix]
    ring
  have e4 : ∀ p, ∀ z : Fin d → ℝ, dot ((Fld.mix a c b c').grad p) z = a * dot (c.grad p) z + b * dot (c'.grad p) z :=
    fun p z => dot_comb1 a b _ _ z
  unfold subdomainForm
  refine Blend.append ?_ ?_
  · cases dt with
    | none => exact .nil
    | some h => exact .dxOn _ (fun p => by simp only [Fld.mix]; ring) .nil
  cases m.type
  · refine Blend.append (.dxOn _ (fun p => e2 p _ _) .nil) ?_
    split
    · exact .dxOn _ (fun p => e3 p _ _ _) .nil
    · exact .nil
  · refine Blend.append (.dxOn _ (fun p => ?_) .nil) ?_
    · rw [e2]; ring
    split
    · refine .dxOn _ (fun p => ?_) .nil
      rw [e3]; ring
    · exact .nil
  · refine Blend.append (.dxOn _ (fun p => ?_) .nil) ?_
    · rw [e4]; ring
    split
    · refine .dxOn _ (fun p => ?_) .nil
      rw [e3]; ring
    · exact .nil
  · exact .nil

omit [Fintype Ω] [Fintype Γ] in
theorem lawMarker_sievert {mats : List Mat} (h : ∀ m ∈ mats, m.law = .sievert) (i : ℕ) : lawMarker mats .henry i = 0 := by
  unfold lawMarker
  refine List.sum_eq_zero fun x hx => ?_
  obtain ⟨m, hm, rfl⟩ := List.mem_map.1 hx
  rw [h m hm, if_neg (by decide)]

section
variable (P : Problem Ω Γ d) (hs : P.mv.theta = true → ∀ m ∈ P.mats, m.law = .sievert) (a b : ℝ) (u w un wn : Fld Ω Γ d)

omit [Fintype Ω] [Fintype Γ] in
include hs in
theorem conc_comb (m : Mat) (hm : m ∈ P.mats) :
    let mv := fun u un => ({ P.mv with sol := u, prev := un } : Mobile Ω Γ d)
    (mv (.mix a u b w) (.mix a un b wn)).conc m P.T
      = (.mix a ((mv u un).conc m P.T).1 b ((mv w wn).conc m P.T).1, .mix a ((mv u un).conc m P.T).2 b ((mv w wn).conc m P.T).2) := by
  intro mv
  unfold Mobile.conc
  by_cases ht : P.mv.theta = true
  · have hl := hs ht m hm
    simp only [mv, ht, if_true, hl]
    have mul : ∀ S u w : Fld Ω Γ d, Fld.mix a u b w * S = Fld.mix a (u * S) b (w * S) := by
      intro S u w
      ext
      · show (a * _ + b * _) * _ = a * (_ * _) + b * (_ * _)
        ring
      · show (a * _ + b * _) * _ + (a * _ + b * _) * _ = a * (_ * _ + _ * _) + b * (_ * _ + _ * _)
        ring
      · show (a * _ + b * _) * _ = a * (_ * _) + b * (_ * _)
        ring
    rw [mul, mul]
  · simp only [mv, Bool.not_eq_true] at ht ⊢
    simp only [ht, Bool.false_eq_true, if_false]

omit [Fintype Ω] [Fintype Γ] in
include hs in
theorem bulk_comb (ss ss' ss'' : List (Src Ω)) (v : Fld Ω Γ d) :
    Blend a b (bulkForm (P.withData u un ss) v) (bulkForm (P.withData w wn ss') v)
      (bulkForm (P.withData (.mix a u b w) (.mix a un b wn) ss'') v) := by
  unfold bulkForm
  refine Blend.flatMap _ fun m hm => Blend.flatMap _ fun i _ => ?_
  have := conc_comb P hs a b u w un wn m hm
  show Blend a b _ _ (subdomainForm P.mesh m (Mobile.conc { P.mv with sol := .mix a u b w, prev := .mix a un b wn } m P.T).1
    (Mobile.conc { P.mv with sol := .mix a u b w, prev := .mix a un b wn } m P.T).2 P.T P.dt P.soret v i)
  rw [this]
  exact subdomain_comb P.mesh m a b _ _ _ _ P.T P.dt P.soret v i

omit [Fintype Ω] [Fintype Γ] in
include hs in
theorem mobileConc_comb (p : Ω) :
    ({ P.mv with sol := .mix a u b w, prev := .mix a un b wn } : Mobile Ω Γ d).mobileConc P.mesh P.mats p
      = a * ({ P.mv with sol := u, prev := un } : Mobile Ω Γ d).mobileConc P.mesh P.mats p
        + b * ({ P.mv with sol := w, prev := wn } : Mobile Ω Γ d).mobileConc P.mesh P.mats p := by
  unfold Mobile.mobileConc
  by_cases ht : P.mv.theta = true
  · simp only [ht, if_true, lawMarker_sievert (hs ht), Fld.mix]
    ring
  · simp only [ht, if_false, Fld.mix, Bool.false_eq_true]

omit [Fintype Ω] [Fintype Γ] in
include hs in
theorem mobileConcS_comb (q : Γ) :
    ({ P.mv with sol := .mix a u b w, prev := .mix a un b wn } : Mobile Ω Γ d).mobileConcS P.mesh P.mats q
      = a * ({ P.mv with sol := u, prev := un } : Mobile Ω Γ d).mobileConcS P.mesh P.mats q
        + b * ({ P.mv with sol := w, prev := wn } : Mobile Ω Γ d).mobileConcS P.mesh P.mats q := by
  unfold Mobile.mobileConcS
  by_cases ht : P.mv.theta = true
  · simp only [ht, if_true, lawMarker_sievert (hs ht), Fld.mix]
    ring
  · simp only [ht, if_false, Fld.mix, Bool.false_eq_true]

omit [Fintype Ω] [Fintype Γ] in
theorem src_comb (s t : Src Ω) (hl : s.Like t) (a b : ℝ) (c c' c'' : Ω → ℝ) (hc : ∀ p, c'' p = a * c p + b * c' p) (p : Ω) :
    (s.comb a b t).at c'' p = a * s.at c p + b * t.at c' p := by
  obtain ⟨x, V⟩ := s
  obtain ⟨y, V'⟩ := t
  obtain ⟨_, h⟩ := hl
  unfold Src.at Src.comb
  cases x <;> cases y <;> simp only at h ⊢
  · subst h
    rw [hc]; ring

omit [Fintype Ω] [Fintype Γ] in
include hs in
theorem source_comb (l : List (Src Ω × Src Ω)) (hl : ∀ s ∈ l, s.1.Like s.2) (v : Fld Ω Γ d) :
    Blend a b (sourceForm P.mesh P.mats { P.mv with sol := u, prev := un } (l.map (·.1)) v)
      (sourceForm P.mesh P.mats { P.mv with sol := w, prev := wn } (l.map (·.2)) v)
      (sourceForm P.mesh P.mats { P.mv with sol := .mix a u b w, prev := .mix a un b wn } (l.map fun s => s.1.comb a b s.2) v) := by
  unfold sourceForm
  simp only [List.flatMap_map]
  refine Blend.flatMap _ fun s hsl => ?_
  have h1 := hl s hsl
  have : (s.1.comb a b s.2).volumes = s.1.volumes := rfl
  rw [this, ← h1.1]
  induction s.1.volumes with
  | nil => exact .nil
  | cons i V ih =>
    refine .dxOn _ (fun p => ?_) ih
    rw [src_comb s.1 s.2 h1 a b _ _ _ (mobileConc_comb P hs a b u w un wn)]
    ring

omit [Fintype Ω] [Fintype Γ] in
theorem flux_comb (f g : Flux Γ) (hl : f.Like g) (a b : ℝ) (T c c' c'' : Γ → ℝ) (hc : ∀ q, c'' q = a * c q + b * c' q) (q : Γ) :
    (f.comb a b g).form T c'' q = a * f.form T c q + b * g.form T c' q := by
  cases f <;> cases g <;> simp only [Flux.Like] at hl <;> simp only [Flux.comb, Flux.form]
  · obtain ⟨rfl, rfl, rfl, rfl⟩ := hl
    rw [Real.rpow_one, Real.rpow_one, Real.rpow_one, hc]; ring
  · obtain ⟨rfl, rfl⟩ := hl
    ring
  · subst hl
    rw [hc]; ring

omit [Fintype Ω] [Fintype Γ] in
/-- Any three families of flux conditions whose fluxes are combined. -/
theorem fluxes_comb (l : List ((Flux Γ × Flux Γ) × List ℕ)) (k : Flux Γ × Flux Γ → Flux Γ) (mv mv' mv'' : Mobile Ω Γ d)
    (hk : ∀ x ∈ l, ∀ q, (k x.1).form P.T.T.tr (mv''.mobileConcS P.mesh P.mats) q
      = a * x.1.1.form P.T.T.tr (mv.mobileConcS P.mesh P.mats) q + b * x.1.2.form P.T.T.tr (mv'.mobileConcS P.mesh P.mats) q)
    (v : Fld Ω Γ d) :
    Blend a b (fluxesForm P.mesh P.mats mv P.T P.dt (l.map fun x => .flux x.1.1 x.2) v)
      (fluxesForm P.mesh P.mats mv' P.T P.dt (l.map fun x => .flux x.1.2 x.2) v)
      (fluxesForm P.mesh P.mats mv'' P.T P.dt (l.map fun x => .flux (k x.1) x.2) v) := by
  unfold fluxesForm
  simp only [List.flatMap_map]
  refine Blend.flatMap _ fun x hx => ?_
  show Blend a b (x.2.map _) (x.2.map _) (x.2.map _)
  induction x.2 with
  | nil => exact .nil
  | cons i V ih =>
    refine .ds _ (fun q => ?_) ih
    rw [hk x hx]
    ring

end

theorem residual_notraps (P : Problem Ω Γ d) (ht : P.traps = []) (bcs : List (MobBC Γ)) (v : Fld Ω Γ d) (r : ℝ) :
    Residual P bcs v [] r ↔ r = P.mesh.assemble (bulkForm P v) + P.mesh.assemble (sourceForm P.mesh P.mats P.mv P.sources v)
        + P.mesh.assemble (fluxesForm P.mesh P.mats P.mv P.T P.dt bcs v) := by
  rw [residual_iff, ht]
  constructor
  · rintro ⟨x, y, ⟨F, hF, rfl⟩, ⟨G, hG, rfl⟩, rfl⟩
    cases hF
    cases hG
    simp
  · rintro rfl
    exact ⟨_, _, ⟨_, rfl, rfl⟩, ⟨_, rfl, rfl⟩, by simp⟩

omit [Fintype Ω] [Fintype Γ] in
theorem heatFlux_comb (f g : Flux Γ) (hl : f.HeatLike g) (a b : ℝ) (T T' T'' c : Γ → ℝ) (hc : ∀ q, T'' q = a * T q + b * T' q)
    (q : Γ) : (f.comb a b g).form T'' c q = a * f.form T c q + b * g.form T' c q := by
  cases f <;> cases g <;> simp only [Flux.HeatLike] at hl <;> simp only [Flux.comb, Flux.form]
  subst hl
  rw [hc]; ring

omit [Fintype Ω] [Fintype Γ] in
theorem heat_comb (m : Mesh Ω Γ d) (mats : List Mat) (hc : ∀ x ∈ mats, ∀ s t, x.cond s = x.cond t ∧ x.rho s = x.rho t ∧ x.cp s = x.cp t)
    (a b : ℝ) (T T' Tn Tn' : Fld Ω Γ d) (dt : Option ℝ) (ss : List (((Ω → ℝ) × (Ω → ℝ)) × List ℕ))
    (fs : List ((Flux Γ × Flux Γ) × List ℕ)) (hfs : ∀ f ∈ fs, f.1.1.HeatLike f.1.2) (v : Fld Ω Γ d) :
    Blend a b (heatForm m mats ⟨T, Tn⟩ dt (ss.map fun s => (s.1.1, s.2)) (fs.map fun f => (f.1.1, f.2)) v)
      (heatForm m mats ⟨T', Tn'⟩ dt (ss.map fun s => (s.1.2, s.2)) (fs.map fun f => (f.1.2, f.2)) v)
      (heatForm m mats ⟨.mix a T b T', .mix a Tn b Tn'⟩ dt (ss.map fun s => (fun p => a * s.1.1 p + b * s.1.2 p, s.2))
        (fs.map fun f => (f.1.1.comb a b f.1.2, f.2)) v) := by
  unfold heatForm
  refine Blend.append (Blend.append ?_ ?_) ?_
  · refine Blend.flatMap _ fun x hx => Blend.append ?_ ?_
    · cases dt with
      | none => exact .nil
      | some h =>
        dsimp only
        induction x.ids with
        | nil => exact .nil
        | cons i l ih =>
          refine .dxOn _ (fun p => ?_) ih
          rw [(hc x hx ((Fld.mix a T b T').val p) (T.val p)).2.1, (hc x hx ((Fld.mix a T b T').val p) (T.val p)).2.2,
            (hc x hx (T'.val p) (T.val p)).2.1, (hc x hx (T'.val p) (T.val p)).2.2]
          simp only [Fld.mix]
          ring
    · refine Blend.flatMap _ fun i _ => ?_
      have e : ∀ p, x.cond ((Fld.mix a T b T').val p) = x.cond (T.val p) ∧ x.cond (T'.val p) = x.cond (T.val p) :=
        fun p => ⟨(hc x hx _ _).1, (hc x hx _ _).1⟩
      unfold heatSubdomain
      have e2 : ∀ p, ∀ k : ℝ, ∀ z : Fin d → ℝ, dot (fun i => k * (Fld.mix a T b T').grad p i) z
          = a * dot (fun i => k * T.grad p i) z + b * dot (fun i => k * T'.grad p i) z := fun p k z => dot_comb a b k _ _ z
      have e4 : ∀ p, ∀ z : Fin d → ℝ, dot ((Fld.mix a T b T').grad p) z = a * dot (T.grad p) z + b * dot (T'.grad p) z :=
        fun p z => dot_comb1 a b _ _ z
      cases m.type
      · refine .dxOn _ (fun p => ?_) .nil
        dsimp only
        rw [(e p).1, (e p).2, e2]
      · refine .dxOn _ (fun p => ?_) .nil
        dsimp only
        rw [(e p).1, (e p).2, e2]
        ring
      · refine .dxOn _ (fun p => ?_) .nil
        dsimp only
        rw [(e p).1, (e p).2, e4]
        ring
      · exact .nil
  · simp only [List.flatMap_map]
    refine Blend.flatMap _ fun s _ => ?_
    induction s.2 with
    | nil => exact .nil
    | cons i l ih => exact .dxOn _ (fun p => by ring) ih
  · simp only [List.flatMap_map]
    refine Blend.flatMap _ fun f hf => ?_
    induction f.2 with
    | nil => exact .nil
    | cons i l ih =>
      refine .ds _ (fun q => ?_) ih
      rw [heatFlux_comb _ _ (hfs f hf) a b T.tr T'.tr (Fld.mix a T b T').tr _ (fun q => rfl)]
      ring

omit [Fintype Ω] [Fintype Γ] in
theorem dot_swap (k : ℝ) (x y : Fin d → ℝ) : dot (fun i => k * x i) y = dot (fun i => k * y i) x := by
  unfold dot
  exact Finset.sum_congr rfl fun i _ => by ring

omit [Fintype Ω] [Fintype Γ] in
/-- The bulk terms, from rest, are symmetric. -/
theorem bulk_swap (P : Problem Ω Γ d) (hc : P.mesh.type = .cartesian) (ht : P.mv.theta = false) (hs : P.soret = false)
    (u w : Fld Ω Γ d) (ss ss' : List (Src Ω)) :
    bulkForm (P.withData u (Fld.const 0) ss) w = bulkForm (P.withData w (Fld.const 0) ss') u := by
  unfold bulkForm Problem.withData
  simp only [Mobile.conc, ht, hs, Bool.false_eq_true, if_false, subdomainForm, hc, List.append_nil]
  congr 1
  funext m
  congr 1
  funext i
  congr 1
  · cases P.dt with
    | none => rfl
    | some h =>
      refine congrArg (fun f => [Term.dxOn [i] f]) (funext fun p => ?_)
      simp only [Fld.const]
      ring
  · exact congrArg (fun f => [Term.dxOn [i] f]) (funext fun p => dot_swap _ _ _)

end Festim.Weak
