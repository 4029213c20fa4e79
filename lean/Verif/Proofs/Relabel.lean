import Verif.Proofs.Reorder

/-! # Lemmas for C106: numbering of volumes and surfaces -/

open scoped BigOperators

set_option linter.unusedSectionVars false

namespace Festim.Weak

section
variable {Ω Γ : Type} [Fintype Ω] [Fintype Γ] {d : ℕ} {m m' : Mesh Ω Γ d} {R : Relabelling}

theorem count_sum (l : List ℕ) (hl : l.Nodup) (j : ℕ) (x : ℝ) :
    (l.map fun k => if j = k then x else 0).sum = if j ∈ l then x else 0 := by
  induction l with
  | nil => simp
  | cons a l ih =>
    rw [List.nodup_cons] at hl
    rw [List.map_cons, List.sum_cons, ih hl.2]
    by_cases h : j = a
    · subst h; simp [hl.1]
    · simp [h]

/-- The pieces of a volume make up its integral. -/
theorem pieces_volume (h : R.Marks m m') (i : ℕ) (g : Ω → ℝ) :
    m'.assemble ((R.vol i).map fun j => .dxOn [j] g) = m.integrate (.dxOn [i] g) := by
  rw [assemble_map]
  simp only [Mesh.integrate, List.mem_singleton]
  have : ((R.vol i).map fun j => ∑ p, if m'.vm p = j then m'.w p * g p else 0).sum =
      ∑ p, ((R.vol i).map fun j => if m'.vm p = j then m'.w p * g p else 0).sum := by
    induction R.vol i with
    | nil => simp
    | cons a l ih => simp only [List.map_cons, List.sum_cons, ih, Finset.sum_add_distrib]
  rw [this]
  refine Finset.sum_congr rfl fun p _ => ?_
  rw [count_sum _ (h.vol_nodup i), h.w]
  simp only [h.vm p i]

theorem pieces_surface (h : R.Marks m m') (i : ℕ) (g : Γ → ℝ) :
    m'.assemble ((R.surf i).map fun j => .ds j g) = m.integrate (.ds i g) := by
  rw [assemble_map]
  simp only [Mesh.integrate]
  have : ((R.surf i).map fun j => ∑ p, if m'.sm p = j then m'.ws p * g p else 0).sum =
      ∑ p, ((R.surf i).map fun j => if m'.sm p = j then m'.ws p * g p else 0).sum := by
    induction R.surf i with
    | nil => simp
    | cons a l ih => simp only [List.map_cons, List.sum_cons, ih, Finset.sum_add_distrib]
  rw [this]
  refine Finset.sum_congr rfl fun p _ => ?_
  rw [count_sum _ (h.surf_nodup i), h.ws]
  simp only [h.sm p i]

theorem union_volume (h : R.Marks m m') (ids : List ℕ) (g : Ω → ℝ) :
    m'.integrate (.dxOn (ids.flatMap R.vol) g) = m.integrate (.dxOn ids g) := by
  simp only [Mesh.integrate]
  refine Finset.sum_congr rfl fun p _ => ?_
  rw [h.w]
  have : m'.vm p ∈ ids.flatMap R.vol ↔ m.vm p ∈ ids := by
    simp only [List.mem_flatMap, h.vm]
    constructor
    · rintro ⟨i, hi, rfl⟩; exact hi
    · exact fun hi => ⟨_, hi, rfl⟩
  simp only [this]

theorem relabel_marker (j i : ℕ) (hv : ∀ k, j ∈ R.vol k ↔ i = k) (hn : ∀ k, (R.vol k).Nodup) (mats : List Mat) (law : Law) :
    lawMarker (mats.map R.mat) law j = lawMarker mats law i := by
  unfold lawMarker
  rw [List.map_map]
  congr 1
  refine List.map_congr_left fun a _ => ?_
  show (if a.law = law then ((a.ids.flatMap R.vol).map fun k => if k = j then (1 : ℝ) else 0).sum else 0) = _
  have : ((a.ids.flatMap R.vol).map fun k => if k = j then (1 : ℝ) else 0).sum =
      (a.ids.map fun k => if k = i then (1 : ℝ) else 0).sum := by
    induction a.ids with
    | nil => simp
    | cons b l ih =>
      rw [List.flatMap_cons, List.map_append, List.sum_append, ih, List.map_cons, List.sum_cons]
      congr 1
      have := count_sum (R.vol b) (hn b) j 1
      simp only [eq_comm (a := j)] at this
      rw [this]
      simp only [hv b, eq_comm]
  rw [this]

theorem relabel_mobileConc (h : R.Marks m m') (mats : List Mat) (mv : Mobile Ω Γ d) :
    mv.mobileConc m' (mats.map R.mat) = mv.mobileConc m mats := by
  funext p
  unfold Mobile.mobileConc
  rw [relabel_marker (m'.vm p) (m.vm p) (h.vm p) h.vol_nodup, relabel_marker (m'.vm p) (m.vm p) (h.vm p) h.vol_nodup]

theorem relabel_mobileConcS (h : R.Marks m m') (mats : List Mat) (mv : Mobile Ω Γ d) :
    mv.mobileConcS m' (mats.map R.mat) = mv.mobileConcS m mats := by
  funext q
  unfold Mobile.mobileConcS
  rw [relabel_marker (m'.vmS q) (m.vmS q) (h.vmS q) h.vol_nodup, relabel_marker (m'.vmS q) (m.vmS q) (h.vmS q) h.vol_nodup]

theorem conc_relabel (mv : Mobile Ω Γ d) (a : Mat) (T : Temp Ω Γ d) : mv.conc (R.mat a) T = mv.conc a T := rfl

theorem subdomain_pieces (h : R.Marks m m') (a : Mat) (c cn : Fld Ω Γ d) (T : Temp Ω Γ d) (dt : Option ℝ) (soret : Bool)
    (v : Fld Ω Γ d) (i : ℕ) :
    m'.assemble ((R.vol i).flatMap fun j => subdomainForm m' (R.mat a) c cn T dt soret v j) =
      m.assemble (subdomainForm m a c cn T dt soret v i) := by
  obtain ⟨gs, hg⟩ : ∃ gs : List (Ω → ℝ), (∀ j, subdomainForm m' (R.mat a) c cn T dt soret v j = gs.map fun g => .dxOn [j] g) ∧
      ∀ j, subdomainForm m a c cn T dt soret v j = gs.map fun g => .dxOn [j] g := by
    have h1 : ∀ j, subdomainForm m' (R.mat a) c cn T dt soret v j = subdomainForm m a c cn T dt soret v j := by
      intro j
      unfold subdomainForm
      rw [h.r, h.type]
      rfl
    have h2 : ∃ gs : List (Ω → ℝ), ∀ j, subdomainForm m a c cn T dt soret v j = gs.map fun g => .dxOn [j] g := by
      unfold subdomainForm
      have happ : ∀ A B : ℕ → Form Ω Γ, (∃ gs : List (Ω → ℝ), ∀ j, A j = gs.map fun g => .dxOn [j] g) →
          (∃ gs : List (Ω → ℝ), ∀ j, B j = gs.map fun g => .dxOn [j] g) →
          ∃ gs : List (Ω → ℝ), ∀ j, A j ++ B j = gs.map fun g => .dxOn [j] g := by
        rintro A B ⟨g1, h1⟩ ⟨g2, h2⟩
        exact ⟨g1 ++ g2, fun j => by rw [h1, h2, List.map_append]⟩
      refine happ _ _ ?_ ?_
      · cases dt with
        | none => exact ⟨[], fun j => rfl⟩
        | some h0 => exact ⟨[_], fun j => rfl⟩
      · cases m.type with
        | other => exact ⟨[], fun j => rfl⟩
        | cartesian => exact happ _ _ ⟨[_], fun j => rfl⟩ (by cases soret; exacts [⟨[], fun j => rfl⟩, ⟨[_], fun j => rfl⟩])
        | cylindrical => exact happ _ _ ⟨[_], fun j => rfl⟩ (by cases soret; exacts [⟨[], fun j => rfl⟩, ⟨[_], fun j => rfl⟩])
        | spherical => exact happ _ _ ⟨[_], fun j => rfl⟩ (by cases soret; exacts [⟨[], fun j => rfl⟩, ⟨[_], fun j => rfl⟩])
    obtain ⟨gs, h2⟩ := h2
    exact ⟨gs, fun j => (h1 j).trans (h2 j), h2⟩
  rw [hg.2 i]
  simp only [hg.1]
  rw [assemble_map]
  have : (gs.map fun g => m.integrate (.dxOn [i] g)) = gs.map fun g => m'.assemble ((R.vol i).map fun j => .dxOn [j] g) :=
    List.map_congr_left fun g _ => (pieces_volume h i g).symm
  rw [this, assemble_flatMap]
  simp only [assemble_map]
  generalize R.vol i = l
  induction l with
  | nil => simp
  | cons j l ih =>
    rw [List.map_cons, List.sum_cons, ih, ← List.sum_map_add]
    rfl

/-- The same failure, or forms with the same value. -/
def Agree (m m' : Mesh Ω Γ d) (x x' : Except PyErr (Form Ω Γ)) : Prop :=
  (∃ e, x = .error e ∧ x' = .error e) ∨ ∃ F F', x = .ok F ∧ x' = .ok F' ∧ m'.assemble F' = m.assemble F

theorem agree_bind {x x' : Except PyErr (Form Ω Γ)} {f f' : Form Ω Γ → Except PyErr (Form Ω Γ)} (h : Agree m m' x x')
    (hf : ∀ F F', m'.assemble F' = m.assemble F → Agree m m' (f F) (f' F')) : Agree m m' (x >>= f) (x' >>= f') := by
  rcases h with ⟨e, rfl, rfl⟩ | ⟨F, F', rfl, rfl, h⟩
  · exact .inl ⟨e, rfl, rfl⟩
  · exact hf F F' h

theorem agree_ok {F F' : Form Ω Γ} (h : m'.assemble F' = m.assemble F) : Agree m m' (.ok F) (.ok F') :=
  .inr ⟨F, F', rfl, rfl, h⟩

theorem relabel_mobileTrapLoop (h : R.Marks m m') (mv : Mobile Ω Γ d) (T : Temp Ω Γ d) (t : Trap Ω Γ d) (v : Fld Ω Γ d)
    (mats : List Mat) :
    ∀ i, Agree m m' (mobileTrapLoop mv T t v i mats) (mobileTrapLoop mv T (R.trap t) v i (mats.map R.mat)) := by
  induction mats with
  | nil => intro i; exact agree_ok rfl
  | cons a mats ih =>
    intro i
    rw [List.map_cons]
    unfold mobileTrapLoop
    rw [show (R.trap t).paramsMobile i = t.paramsMobile i from rfl, conc_relabel]
    cases t.paramsMobile i with
    | error e => exact .inl ⟨e, rfl, rfl⟩
    | ok P =>
      refine agree_bind (ih (i + 1)) fun F F' hF => agree_ok ?_
      simp only [assemble_append, assemble_cons, assemble_nil, hF]
      rw [show (R.mat a).ids = a.ids.flatMap R.vol from rfl, union_volume h, union_volume h]
      rfl

theorem relabel_trapLoop (h : R.Marks m m') (mv : Mobile Ω Γ d) (T : Temp Ω Γ d) (t : Trap Ω Γ d) (v : Fld Ω Γ d)
    (mats : List Mat) :
    ∀ i, Agree m m' (trapLoop mv T t v i mats) (trapLoop mv T (R.trap t) v i (mats.map R.mat)) := by
  induction mats with
  | nil => intro i; exact agree_ok rfl
  | cons a mats ih =>
    intro i
    rw [List.map_cons]
    unfold trapLoop
    rw [show (R.trap t).params i = t.params i from rfl, conc_relabel]
    cases t.params i with
    | error e => exact .inl ⟨e, rfl, rfl⟩
    | ok P =>
      dsimp only [bind, Except.bind]
      by_cases hh : mv.theta = true ∧ a.law = .henry
      · have h1 : mv.theta = true ∧ (R.mat a).law = .henry := hh
        rw [if_pos hh, if_pos h1]
        exact .inl ⟨_, rfl, rfl⟩
      · have h1 : ¬(mv.theta = true ∧ (R.mat a).law = .henry) := hh
        rw [if_neg hh, if_neg h1]
        refine agree_bind (ih (i + 1)) fun F F' hF => agree_ok ?_
        simp only [assemble_append, assemble_cons, assemble_nil, hF]
        rw [show (R.mat a).ids = a.ids.flatMap R.vol from rfl, union_volume h, union_volume h]
        rfl

theorem relabel_mobileTraps (h : R.Marks m m') (mv : Mobile Ω Γ d) (T : Temp Ω Γ d) (v : Fld Ω Γ d) (traps : List (Trap Ω Γ d)) :
    Agree m m' (mobileTraps mv T v traps) (mobileTraps mv T v (traps.map R.trap)) := by
  induction traps with
  | nil => exact agree_ok rfl
  | cons t l ih =>
    rw [List.map_cons]
    unfold mobileTraps
    refine agree_bind (relabel_mobileTrapLoop h mv T t v t.materials 0) fun F F' hF => agree_bind ih fun G G' hG => agree_ok ?_
    rw [assemble_append, assemble_append, hF, hG]

theorem relabel_source (h : R.Marks m m') (mats : List Mat) (mv : Mobile Ω Γ d) (l : List (Src Ω)) (v : Fld Ω Γ d) :
    m'.assemble (sourceForm m' (mats.map R.mat) mv (l.map R.src) v) = m.assemble (sourceForm m mats mv l v) := by
  unfold sourceForm
  rw [relabel_mobileConc h, assemble_flatMap, assemble_flatMap, List.map_map]
  congr 1
  refine List.map_congr_left fun s _ => ?_
  show m'.assemble ((s.volumes.flatMap R.vol).map _) = _
  induction s.volumes with
  | nil => rfl
  | cons i l ih =>
    rw [List.flatMap_cons, List.map_append, assemble_append, ih, List.map_cons, assemble_cons, pieces_volume h]
    rfl

theorem relabel_trapSource (h : R.Marks m m') (t : Trap Ω Γ d) (v : Fld Ω Γ d) :
    m'.assemble (trapSourceForm (R.trap t) v) = m.assemble (trapSourceForm t v) := by
  unfold trapSourceForm
  rw [assemble_map, assemble_map, show (R.trap t).sources = t.sources.map R.src from rfl, List.map_map]
  congr 1
  refine List.map_congr_left fun s _ => ?_
  exact union_volume h s.volumes _

theorem relabel_trapForm (h : R.Marks m m') (mats : List Mat) (mv : Mobile Ω Γ d) (T : Temp Ω Γ d) (dt : Option ℝ)
    (t : Trap Ω Γ d) (v : Fld Ω Γ d) :
    Agree m m' (trapForm mats mv T dt t v) (trapForm (mats.map R.mat) mv T dt (R.trap t) v) := by
  unfold trapForm trappingForm
  refine agree_bind (agree_bind (relabel_trapLoop h mv T t v t.materials 0) fun F F' hF => agree_ok ?_) fun F F' hF =>
    agree_ok (by rw [assemble_append, assemble_append, hF, relabel_trapSource h])
  rw [assemble_append, assemble_append, hF]
  congr 1
  cases dt with
  | some h0 =>
    simp only [assemble_cons, assemble_nil, Mesh.integrate, h.w]
    rfl
  | none =>
    have hu : (R.trap t).materials.map (·.uid) = t.materials.map (·.uid) := by
      show (t.materials.map R.mat).map (·.uid) = _
      rw [List.map_map]; rfl
    have hf : ((mats.map R.mat).filter fun a => a.uid ∉ (R.trap t).materials.map (·.uid)) =
        (mats.filter fun a => a.uid ∉ t.materials.map (·.uid)).map R.mat := by
      rw [hu, List.filter_map]; rfl
    dsimp only
    rw [hf, List.map_map, assemble_map, assemble_map]
    congr 1
    refine List.map_congr_left fun a _ => ?_
    exact union_volume h a.ids _

theorem relabel_trapsForm (h : R.Marks m m') (mats : List Mat) (mv : Mobile Ω Γ d) (T : Temp Ω Γ d) (dt : Option ℝ)
    (traps : List (Trap Ω Γ d)) : ∀ vt : List (Fld Ω Γ d),
    Agree m m' (trapsForm mats mv T dt (traps.zip vt)) (trapsForm (mats.map R.mat) mv T dt ((traps.map R.trap).zip vt)) := by
  induction traps with
  | nil => intro vt; exact agree_ok rfl
  | cons t l ih =>
    intro vt
    cases vt with
    | nil => exact agree_ok rfl
    | cons v vt =>
      rw [List.map_cons, List.zip_cons_cons, List.zip_cons_cons]
      unfold trapsForm
      refine agree_bind (relabel_trapForm h mats mv T dt t v) fun F F' hF => agree_bind (ih vt) fun G G' hG => agree_ok ?_
      rw [assemble_append, assemble_append, hF, hG]

theorem relabel_sk (h : R.Marks m m') (b : SK Γ) (c cp v T : Γ → ℝ) (dt : Option ℝ) (vs : List ℝ)
    (hs : ∀ s ∈ b.surfaces, (R.surf s.id).length = 1) :
    m'.assemble (SK.form { b with surfaces := b.surfaces.map fun s => { s with id := (R.surf s.id).headD 0 } } c cp v T dt vs) =
      m.assemble (b.form c cp v T dt vs) := by
  obtain ⟨k1, k2, k3, la, ns, ni, surfs⟩ := b
  unfold SK.form
  dsimp only at hs ⊢
  induction surfs generalizing vs with
  | nil => rfl
  | cons s l ih =>
    cases vs with
    | nil => rfl
    | cons x vs =>
      rw [List.map_cons, List.zip_cons_cons, List.zip_cons_cons, List.flatMap_cons, List.flatMap_cons, assemble_append,
        assemble_append]
      have e := ih vs fun s hs' => hs s (List.mem_cons_of_mem _ hs')
      have hds : ∀ g : Γ → ℝ, m'.integrate (.ds ((R.surf s.id).headD 0) g) = m.integrate (.ds s.id g) := by
        intro g
        obtain ⟨j, hj⟩ := List.length_eq_one_iff.1 (hs s List.mem_cons_self)
        rw [← pieces_surface h, hj]
        simp
      congr 1
      · cases dt with
        | none => simp only [SK.surfForm, assemble_append, assemble_cons, assemble_nil, hds]; rfl
        | some h0 => simp only [SK.surfForm, assemble_append, assemble_cons, assemble_nil, hds]; rfl

theorem relabel_fluxes (h : R.Marks m m') (mats : List Mat) (mv : Mobile Ω Γ d) (T : Temp Ω Γ d) (dt : Option ℝ)
    (bcs : List (MobBC Γ)) (v : Fld Ω Γ d)
    (hs : ∀ b vs, MobBC.sk b vs ∈ bcs → ∀ s ∈ b.surfaces, (R.surf s.id).length = 1) :
    m'.assemble (fluxesForm m' (mats.map R.mat) mv T dt (bcs.map R.bc) v) = m.assemble (fluxesForm m mats mv T dt bcs v) := by
  unfold fluxesForm
  rw [assemble_flatMap, assemble_flatMap, List.map_map]
  congr 1
  refine List.map_congr_left fun b hb => ?_
  cases b with
  | flux f ss =>
    simp only [Function.comp, Relabelling.bc, MobBC.form]
    rw [relabel_mobileConcS h]
    induction ss with
    | nil => rfl
    | cons i l ih =>
      rw [List.flatMap_cons, List.map_append, assemble_append, List.map_cons, assemble_cons, pieces_surface h]
      congr 1
      clear ih hb
      induction l with
      | nil => rfl
      | cons i l ih =>
        rw [List.flatMap_cons, List.map_append, assemble_append, List.map_cons, assemble_cons, pieces_surface h, ih]
  | sk b vs =>
    simp only [Function.comp, Relabelling.bc, MobBC.form]
    rw [relabel_mobileConcS h]
    exact relabel_sk h b _ _ _ _ dt vs (hs b vs hb)

theorem relabel_form (P : Problem Ω Γ d) (m' : Mesh Ω Γ d) (R : Relabelling) (h : R.Marks P.mesh m') (bcs : List (MobBC Γ))
    (v : Fld Ω Γ d) (vt : List (Fld Ω Γ d))
    (hs : ∀ b vs, MobBC.sk b vs ∈ bcs → ∀ s ∈ b.surfaces, (R.surf s.id).length = 1) :
    Agree P.mesh m' (P.form bcs v vt) ((R.problem P m').form (bcs.map R.bc) v vt) := by
  unfold Problem.form mobileForm diffusionForm
  refine agree_bind (agree_bind (agree_bind (relabel_mobileTraps h P.mv P.T v P.traps) fun F F' hF => agree_ok ?_)
    fun F F' hF => agree_ok ?_) fun F F' hF => agree_bind (relabel_trapsForm h P.mats P.mv P.T P.dt P.traps vt)
    fun G G' hG => agree_ok (by rw [assemble_append, assemble_append, hF, hG])
  · rw [assemble_append, assemble_append, assemble_neg, assemble_neg, hF]
    congr 1
    show m'.assemble ((P.mats.map R.mat).flatMap _) = _
    rw [assemble_flatMap, assemble_flatMap, List.map_map]
    congr 1
    refine List.map_congr_left fun a _ => ?_
    show m'.assemble ((a.ids.flatMap R.vol).flatMap _) = _
    rw [List.flatMap_assoc, assemble_flatMap, assemble_flatMap]
    congr 1
    refine List.map_congr_left fun i _ => ?_
    exact subdomain_pieces h a _ _ P.T P.dt P.soret v i
  · rw [assemble_append, assemble_append, assemble_append, assemble_append, hF]
    congr 1
    · congr 1
      exact relabel_source h P.mats P.mv P.sources v
    · exact relabel_fluxes h P.mats P.mv P.T P.dt bcs v hs

end

end Festim.Weak
