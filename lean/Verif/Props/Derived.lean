import Verif.Proofs.Derived

/-!
# C60, C61, C63, C67: averages, extrema, retention, angles
-/

set_option linter.unusedSectionVars false

open scoped BigOperators

namespace Festim.Weak

section
variable {Ω Γ : Type} [Fintype Ω] [Fintype Γ] {d : ℕ}

theorem foldl_max_spec (l : List ℝ) (a : ℝ) : a ≤ l.foldl max a ∧ ∀ x ∈ l, x ≤ l.foldl max a := by
  induction l generalizing a with
  | nil => simp
  | cons b l ih =>
    obtain ⟨h1, h2⟩ := ih (max a b)
    refine ⟨(le_max_left a b).trans h1, ?_⟩
    intro x hx
    rcases List.mem_cons.1 hx with rfl | hx
    · exact (le_max_right a x).trans h1
    · exact h2 x hx

theorem foldl_min_spec (l : List ℝ) (a : ℝ) : l.foldl min a ≤ a ∧ ∀ x ∈ l, l.foldl min a ≤ x := by
  induction l generalizing a with
  | nil => simp
  | cons b l ih =>
    obtain ⟨h1, h2⟩ := ih (min a b)
    refine ⟨h1.trans (min_le_left a b), ?_⟩
    intro x hx
    rcases List.mem_cons.1 hx with rfl | hx
    · exact h1.trans (min_le_right a x)
    · exact h2 x hx

theorem npMax_spec (l : List ℝ) (h : l ≠ []) : ∃ b, npMax l = .ok b ∧ ∀ x ∈ l, x ≤ b := by
  cases l with
  | nil => exact absurd rfl h
  | cons a l =>
    refine ⟨_, rfl, ?_⟩
    intro x hx
    obtain ⟨h1, h2⟩ := foldl_max_spec l a
    rcases List.mem_cons.1 hx with rfl | hx
    · exact h1
    · exact h2 x hx

theorem npMin_spec (l : List ℝ) (h : l ≠ []) : ∃ b, npMin l = .ok b ∧ ∀ x ∈ l, b ≤ x := by
  cases l with
  | nil => exact absurd rfl h
  | cons a l =>
    refine ⟨_, rfl, ?_⟩
    intro x hx
    obtain ⟨h1, h2⟩ := foldl_min_spec l a
    rcases List.mem_cons.1 hx with rfl | hx
    · exact h1
    · exact h2 x hx

theorem subdDofs_spec (f : PostFun Ω Γ d) (v : ℕ) (c : ℕ × List ℝ) (hc : c ∈ f.cells) (hv : c.1 = v) :
    ∃ l, f.subdDofs v = .ok l ∧ ∀ x, x ∈ l ↔ ∃ c ∈ f.cells, c.1 = v ∧ x ∈ c.2 := by
  unfold PostFun.subdDofs
  have hm : c ∈ f.cells.filter fun c => c.1 = v := by simp [hc, hv]
  cases hfl : f.cells.filter fun c => c.1 = v with
  | nil => rw [hfl] at hm; cases hm
  | cons a l =>
    refine ⟨_, rfl, ?_⟩
    intro x
    rw [← hfl]
    simp [List.mem_flatMap, and_assoc]

/-- The fields other than the retention do not depend on the projection. -/
theorem label_proj (e : PostEnv Ω Γ d) (f : Field) (hf : f ≠ .name "retention") (p p' : Bool) :
    e.label p f = e.label p' f := by
  unfold PostEnv.label
  cases h : Dict.get? (labelToFunction e.ids) f with
  | none => rfl
  | some x =>
    cases x with
    | retention =>
      exfalso
      rw [labelToFunction_get] at h
      cases f with
      | int j =>
        cases h2 : (e.ids.zipIdx 1).reverse.find? fun p => decide (p.1 = j) with
        | none => simp only [h2] at h; simp at h
        | some y => simp only [h2] at h; simp at h
      | strInt j =>
        cases h2 : (e.ids.zipIdx 1).reverse.find? fun p => decide (p.1 = j) with
        | none => simp only [h2] at h; simp at h
        | some y => simp only [h2] at h; simp at h
      | name s =>
        apply hf
        simp only at h
        split at h
        · cases h
        · split at h
          · cases h
          · split at h
            · rename_i h3; rw [h3]
            · split at h <;> cases h
    | comp k => cases k <;> rfl
    | temp => rfl
    | adsorbed => rfl

theorem function_min (e : PostEnv Ω Γ d) (f : Field) (v : ℕ) (b : Bool) :
    (Quantity.minimumVolume f v).function e b = e.label b f := rfl

theorem function_max (e : PostEnv Ω Γ d) (f : Field) (v : ℕ) (b : Bool) :
    (Quantity.maximumVolume f v).function e b = e.label b f := rfl

/-- Minimum, some quantity, maximum of the same field in one export. -/
theorem row_of_three (e : PostEnv Ω Γ d) (proj : Bool) (k : LinearKind) (f : Field) (v : ℕ)
    (φ : PostFun Ω Γ d) (hl : e.label true f = .ok φ) (hfun : φ.isFun = true)
    (hm : k.Measurable e.mesh) (l : List ℝ) (hd : φ.subdDofs v = .ok l) (a b : ℝ)
    (ha : npMin l = .ok a) (hb : npMax l = .ok b) :
    derivedRow e proj [.minimumVolume f v, k.of f, .maximumVolume f v]
      = .ok [a, k.meaning e.mesh φ, b] := by
  have hlab : e.label ((Quantity.minimumVolume f v).projects proj) f = .ok φ := by
    by_cases hf : f = .name "retention"
    · subst hf
      simpa [Quantity.projects, Quantity.isExtremum, Quantity.field] using hl
    · rw [label_proj e f hf _ true, hl]
  have hlab2 : ∀ q : Quantity, e.label (q.projects ((Quantity.minimumVolume f v).projects proj)) f
      = .ok φ := by
    intro q
    by_cases hf : f = .name "retention"
    · subst hf
      simpa [Quantity.projects, Quantity.isExtremum, Quantity.field] using hl
    · rw [label_proj e f hf _ true, hl]
  have hmid : (k.of f).value e ((Quantity.minimumVolume f v).projects proj)
      = .ok (k.meaning e.mesh φ) :=
    linear_value e _ k f φ hlab (fun _ => hfun) hm
  unfold Quantity.value at hmid
  rw [linear_projects, linear_function, hlab] at hmid
  simp only at hmid
  unfold derivedRow
  simp only [assignFunctions, function_min, function_max, hlab, linear_projects,
    linear_function, hlab2, computeRow, hmid]
  simp only [Quantity.compute, hd, ha, hb]

theorem volumeOf_le (m : Mesh Ω Γ d) (v : ℕ) (f g : Ω → ℝ)
    (h : ∀ p, m.vm p = v → m.w p * f p ≤ m.w p * g p) : volumeOf m v f ≤ volumeOf m v g := by
  unfold volumeOf
  apply Finset.sum_le_sum
  intro p hp
  exact h p (by simpa using hp)

theorem surface_le (m : Mesh Ω Γ d) (s : ℕ) (f g : Γ → ℝ)
    (h : ∀ q, m.sm q = s → m.ws q * f q ≤ m.ws q * g q) : surface m s f ≤ surface m s g := by
  unfold surface
  apply Finset.sum_le_sum
  intro p hp
  exact h p (by simpa using hp)

theorem hull_bounds (S : Set ℝ) (a b x : ℝ) (ha : ∀ y ∈ S, a ≤ y) (hb : ∀ y ∈ S, y ≤ b)
    (hx : x ∈ convexHull ℝ S) : a ≤ x ∧ x ≤ b :=
  ⟨convexHull_min (t := Set.Ici a) ha (convex_Ici a) hx,
    convexHull_min (t := Set.Iic b) hb (convex_Iic b) hx⟩

end

end Festim.Weak

namespace Festim.Props

open Festim.Weak

section
variable {Ω Γ : Type} [Fintype Ω] [Fintype Γ] {d : ℕ}

/-- **C60.** In one export, the average of a field in a volume lies between its minimum and its maximum
in this volume: any piecewise affine field, any coordinates, any volume of positive measure. -/
theorem C60_average_between (e : PostEnv Ω Γ d) (proj : Bool) (x : Suffix) (f : Field) (v : ℕ)
    (φ : PostFun Ω Γ d) (hl : e.label true f = .ok φ) (hfun : φ.isFun = true)
    (haff : Affine e.mesh φ) (hw : ∀ p, 0 ≤ e.mesh.w p * jac e.mesh x p)
    (hpos : 0 < volumeOf e.mesh v (jac e.mesh x)) :
    ∃ a y b, derivedRow e proj [.minimumVolume f v, .averageVolume x f v, .maximumVolume f v]
      = .ok [a, y, b] ∧ a ≤ y ∧ y ≤ b := by
  obtain ⟨p0, hp0⟩ : ∃ p, e.mesh.vm p = v := by
    by_contra hne
    push Not at hne
    have : volumeOf e.mesh v (jac e.mesh x) = 0 := by
      unfold volumeOf
      apply Finset.sum_eq_zero
      intro p hp
      exact absurd (by simpa using hp) (hne p)
    linarith
  obtain ⟨c, hc, hcv, hx⟩ := haff.vol p0
  obtain ⟨l, hd, hmem⟩ := subdDofs_spec φ v c hc (hcv.trans hp0)
  have hne : l ≠ [] := by
    obtain ⟨y, hy⟩ := convexHull_nonempty_iff.1 ⟨_, hx⟩
    intro h0
    have := (hmem y).2 ⟨c, hc, hcv.trans hp0, hy⟩
    rw [h0] at this
    cases this
  obtain ⟨a, ha, ha'⟩ := npMin_spec l hne
  obtain ⟨b, hb, hb'⟩ := npMax_spec l hne
  refine ⟨a, _, b, row_of_three e proj (.averageVolume x v) f v φ hl hfun hpos.ne' l hd a b ha hb, ?_⟩
  have hbound : ∀ p, e.mesh.vm p = v → a ≤ φ.val p ∧ φ.val p ≤ b := by
    intro p hp
    obtain ⟨c, hc, hcv, hx⟩ := haff.vol p
    exact hull_bounds _ a b _ (fun y hy => ha' y ((hmem y).2 ⟨c, hc, hcv.trans hp, hy⟩))
      (fun y hy => hb' y ((hmem y).2 ⟨c, hc, hcv.trans hp, hy⟩)) hx
  simp only [LinearKind.meaning]
  rw [le_div_iff₀ hpos, div_le_iff₀ hpos, ← volumeOf_smul, ← volumeOf_smul]
  constructor <;> apply volumeOf_le <;> intro p hp
  · have := mul_le_mul_of_nonneg_right (hbound p hp).1 (hw p)
    linarith
  · have := mul_le_mul_of_nonneg_right (hbound p hp).2 (hw p)
    linarith

/-- **C60.** Likewise the average on a surface lies between the extrema in the volume it bounds. -/
theorem C60_surface_average_between (e : PostEnv Ω Γ d) (proj : Bool) (x : Suffix) (f : Field)
    (v s : ℕ) (φ : PostFun Ω Γ d) (hl : e.label true f = .ok φ) (hfun : φ.isFun = true)
    (haff : Affine e.mesh φ) (hbd : ∀ q, e.mesh.sm q = s → e.mesh.vmS q = v)
    (hw : ∀ q, 0 ≤ e.mesh.ws q) (hr : x = .cylindrical → ∀ q, 0 ≤ e.mesh.r.tr q)
    (hpos : 0 < surface e.mesh s (if x = .cylindrical then jacS e.mesh x else fun _ => 1)) :
    ∃ a y b, derivedRow e proj [.minimumVolume f v, .averageSurface x f s, .maximumVolume f v]
      = .ok [a, y, b] ∧ a ≤ y ∧ y ≤ b := by
  obtain ⟨q0, hq0⟩ : ∃ q, e.mesh.sm q = s := by
    by_contra hne
    push Not at hne
    have : surface e.mesh s (if x = .cylindrical then jacS e.mesh x else fun _ => 1) = 0 := by
      unfold surface
      apply Finset.sum_eq_zero
      intro p hp
      exact absurd (by simpa using hp) (hne p)
    linarith
  obtain ⟨c, hc, hcv, hx⟩ := haff.surf q0
  obtain ⟨l, hd, hmem⟩ := subdDofs_spec φ v c hc (hcv.trans (hbd q0 hq0))
  have hne : l ≠ [] := by
    obtain ⟨y, hy⟩ := convexHull_nonempty_iff.1 ⟨_, hx⟩
    intro h0
    have := (hmem y).2 ⟨c, hc, hcv.trans (hbd q0 hq0), hy⟩
    rw [h0] at this
    cases this
  obtain ⟨a, ha, ha'⟩ := npMin_spec l hne
  obtain ⟨b, hb, hb'⟩ := npMax_spec l hne
  have hbound : ∀ q, e.mesh.sm q = s → a ≤ φ.tr q ∧ φ.tr q ≤ b := by
    intro q hq
    obtain ⟨c, hc, hcv, hx⟩ := haff.surf q
    exact hull_bounds _ a b _
      (fun y hy => ha' y ((hmem y).2 ⟨c, hc, hcv.trans (hbd q hq), hy⟩))
      (fun y hy => hb' y ((hmem y).2 ⟨c, hc, hcv.trans (hbd q hq), hy⟩)) hx
  have hmeas : (LinearKind.averageSurface x s).Measurable e.mesh := by
    cases x <;> simpa [LinearKind.Measurable] using hpos.ne'
  refine ⟨a, _, b, row_of_three e proj (.averageSurface x s) f v φ hl hfun hmeas l hd a b ha hb, ?_⟩
  have key : ∀ j : Γ → ℝ, (∀ q, 0 ≤ e.mesh.ws q * j q) → 0 < surface e.mesh s j →
      a ≤ (surface e.mesh s fun q => φ.tr q * j q) / surface e.mesh s j ∧
      (surface e.mesh s fun q => φ.tr q * j q) / surface e.mesh s j ≤ b := by
    intro j hj hpos
    rw [le_div_iff₀ hpos, div_le_iff₀ hpos, ← surface_smul, ← surface_smul]
    constructor <;> apply surface_le <;> intro q hq
    · have := mul_le_mul_of_nonneg_right (hbound q hq).1 (hj q)
      linarith
    · have := mul_le_mul_of_nonneg_right (hbound q hq).2 (hj q)
      linarith
  cases x with
  | cartesian =>
    simpa [LinearKind.meaning] using key (fun _ => 1) (by simpa using hw) (by simpa using hpos)
  | spherical =>
    simpa [LinearKind.meaning] using key (fun _ => 1) (by simpa using hw) (by simpa using hpos)
  | cylindrical =>
    exact key (jacS e.mesh .cylindrical) (fun q => mul_nonneg (hw q) (hr rfl q)) (by simpa using hpos)

/-- **C60.** The total in a volume is the average times the measure of the volume (with its angles). -/
theorem C60_total_is_average_times_measure (e : PostEnv Ω Γ d) (proj : Bool) (g : Geom) (f : Field)
    (v : ℕ) (φ : PostFun Ω Γ d) (hl : e.label proj f = .ok φ)
    (hfun : g.suffix = .cartesian ∨ φ.isFun = true)
    (hm : volumeOf e.mesh v (jac e.mesh g.suffix) ≠ 0) :
    ∃ a t, (Quantity.averageVolume g.suffix f v).value e proj = .ok a ∧
      (Quantity.totalVolume g f v).value e proj = .ok t ∧
      t = a * (totalAngle g * volumeOf e.mesh v (jac e.mesh g.suffix)) := by
  refine ⟨_, _, linear_value e proj (.averageVolume g.suffix v) f φ hl ?_ hm,
    linear_value e proj (.totalVolume g v) f φ hl ?_ trivial, ?_⟩
  · intro h
    rcases hfun with h1 | h1
    · simp [LinearKind.usesRadius, h1] at h
    · exact h1
  · intro h
    rcases hfun with h1 | h1
    · cases g <;> simp [Geom.suffix, LinearKind.usesRadius] at h1 h
    · exact h1
  · simp only [LinearKind.meaning]
    field_simp

/-- **C60.** On a volume without cells the total is zero, but the average raises `ZeroDivisionError` and
the extrema `ValueError`. -/
theorem C60_empty_volume (e : PostEnv Ω Γ d) (proj : Bool) (f : Field) (v : ℕ) (φ : PostFun Ω Γ d)
    (hl : ∀ b, e.label b f = .ok φ) (hp : ∀ p, e.mesh.vm p ≠ v) (hc : ∀ c ∈ φ.cells, c.1 ≠ v) :
    (Quantity.totalVolume .cartesian f v).value e proj = .ok 0 ∧
    (Quantity.averageVolume .cartesian f v).value e proj = .error .zeroDivisionError ∧
    (∃ m, (Quantity.maximumVolume f v).value e proj = .error (.valueError m)) ∧
    (∃ m, (Quantity.minimumVolume f v).value e proj = .error (.valueError m)) := by
  have h0 : ∀ g : Ω → ℝ, volumeOf e.mesh v g = 0 := by
    intro g
    unfold volumeOf
    apply Finset.sum_eq_zero
    intro p hp'
    exact absurd (by simpa using hp') (hp p)
  have hd : φ.subdDofs v = .error (.valueError "need at least one array to concatenate") := by
    unfold PostFun.subdDofs
    have : φ.cells.filter (fun c => c.1 = v) = [] := by
      rw [List.filter_eq_nil_iff]
      intro c hc'
      simpa using hc c hc'
    rw [this]
  refine ⟨?_, ?_, ⟨"need at least one array to concatenate", ?_⟩,
    ⟨"need at least one array to concatenate", ?_⟩⟩
  · rw [show Quantity.totalVolume .cartesian f v = (LinearKind.totalVolume .cartesian v).of f from rfl,
      linear_value e proj (.totalVolume .cartesian v) f φ (hl _) (by simp [LinearKind.usesRadius])
        trivial]
    simp [LinearKind.meaning, h0]
  · simp [Quantity.value, Quantity.function, Quantity.field, hl, Quantity.compute, needMesh,
      evalAverageVolume, integrate_dxOn1, h0, pyDiv]
  all_goals
    simp only [Quantity.value, Quantity.function, Quantity.field, hl, Quantity.compute, hd]

/-- **C61.** With default trap ids, every linear quantity (total or average in a volume or on a surface,
value at a point; any coordinates) of "retention" is that of "solute" plus those of all the traps. -/
theorem C61_retention_adds_up (e : PostEnv Ω Γ d) (proj : Bool) (k : LinearKind)
    (hids : e.ids = List.range' 1 e.traps.length)
    (hfun : e.solute.isFun = true) (hfunt : ∀ t ∈ e.traps, t.isFun = true)
    (hproj : k.usesRadius = true → proj = true ∨ e.traps = []) (hm : k.Measurable e.mesh) :
    ∃ (x : ℝ) (xs : List ℝ), (k.of (.name "solute")).value e proj = .ok x ∧
      xs.length = e.traps.length ∧
      (∀ i y, xs[i]? = some y → (k.of (.int (i + 1))).value e proj = .ok y ∧
        (k.of (.strInt (i + 1))).value e proj = .ok y) ∧
      (k.of (.name "retention")).value e proj = .ok (x + xs.sum) := by
  refine ⟨_, e.traps.map (k.meaning e.mesh),
    linear_value e proj k _ e.solute (label_solute e proj) (fun _ => hfun) hm, by simp, ?_, ?_⟩
  · intro i y hy
    rw [List.getElem?_map] at hy
    obtain ⟨t, ht, rfl⟩ := Option.map_eq_some_iff.1 hy
    have hlt : i < e.traps.length := (List.getElem?_eq_some_iff.1 ht).1
    have hmem : t ∈ e.traps := List.mem_of_getElem? ht
    have key : ∀ f : Field, f = .int (i + 1) ∨ f = .strInt (i + 1) → e.label proj f = .ok t := by
      intro f hf
      unfold PostEnv.label
      rw [(C37_export_by_id e.ids (i + 1) (i + 1) (by omega) f hf).2 ?_]
      · simp [ht]
      · rw [hids]
        refine ⟨?_, ?_⟩
        · rw [List.getElem?_range' (by omega)]; congr 1; omega
        · intro j hj
          by_cases hl : j < e.traps.length
          · rw [List.getElem?_range' hl]; simp; omega
          · rw [List.getElem?_eq_none (by simpa using hl)]; simp
    exact ⟨linear_value e proj k _ t (key _ (.inl rfl)) (fun _ => hfunt t hmem) hm,
      linear_value e proj k _ t (key _ (.inr rfl)) (fun _ => hfunt t hmem) hm⟩
  · rw [linear_value e proj k _ _ (label_retention e proj) ?_ hm]
    · congr 1
      cases proj
      · exact meaning_foldl _ _ _ _
      · simp only [if_true, meaning_project]; exact meaning_foldl _ _ _ _
    · intro hr
      rcases hproj hr with rfl | h0
      · rfl
      · cases proj
        · simp [PostEnv.retention, h0, hfun]
        · rfl

/-- **C61.** With traps, a cylindrical or spherical total or average of "retention" which has not been
projected by an earlier extremum or export fails with `AttributeError`. -/
theorem C61_curvilinear_retention_fails (e : PostEnv Ω Γ d) (k : LinearKind)
    (hr : k.usesRadius = true) (ht : e.traps ≠ []) :
    ∃ m, (k.of (.name "retention")).value e false = .error (.attributeError m) := by
  have hn : e.retention.isFun = false := by
    unfold PostEnv.retention
    rw [foldl_isFun, if_neg ht]
  refine ⟨"'Sum' object has no attribute 'function_space'", ?_⟩
  unfold Quantity.value
  rw [linear_projects, linear_function, label_retention]
  cases k with
  | totalVolume g v =>
    cases g <;> simp [LinearKind.usesRadius] at hr <;>
      simp [LinearKind.of, Quantity.compute, needMesh, Geom.curved, hn]
  | totalSurface g v =>
    cases g <;> simp [LinearKind.usesRadius] at hr <;>
      simp [LinearKind.of, Quantity.compute, needMesh, Geom.curved, hn]
  | averageVolume x v =>
    simp [LinearKind.usesRadius] at hr
    simp [LinearKind.of, Quantity.compute, needMesh, hn, hr]
  | averageSurface x v =>
    simp [LinearKind.usesRadius] at hr
    simp [LinearKind.of, Quantity.compute, needMesh, hn, hr]
  | pointValue x => simp [LinearKind.usesRadius] at hr

/-- **C61.** So the order of the quantities matters: after a maximum of the retention in the same export
the same quantity succeeds, before it the export fails. -/
theorem C61_order_matters (e : PostEnv Ω Γ d) (k : LinearKind) (v : ℕ) (hr : k.usesRadius = true)
    (ht : e.traps ≠ []) (hm : k.Measurable e.mesh) (l : List ℝ) (hl : l ≠ [])
    (hd : e.retention.subdDofs v = .ok l) :
    (∃ r, derivedRow e false [.maximumVolume (.name "retention") v, k.of (.name "retention")]
      = .ok r) ∧
    (∃ m, derivedRow e false [k.of (.name "retention"), .maximumVolume (.name "retention") v]
      = .error (.attributeError m)) := by
  constructor
  · obtain ⟨b, hb, -⟩ := npMax_spec l hl
    refine ⟨[b, k.meaning e.mesh e.retention], ?_⟩
    have h1 := linear_value e true k _ _ (label_retention e true) (fun _ => rfl) hm
    unfold Quantity.value at h1
    rw [linear_projects, linear_function, label_retention] at h1
    simp only [if_true, meaning_project] at h1
    have hd' : e.retention.project.subdDofs v = .ok l := hd
    unfold derivedRow
    simp only [assignFunctions, Quantity.projects, Quantity.isExtremum, Quantity.field, Bool.false_or,
      Bool.true_and, decide_true, function_max, label_retention, if_true, Bool.true_or,
      linear_function, computeRow, h1]
    simp only [Quantity.compute, hd', hb]
  · obtain ⟨m, hmm⟩ := C61_curvilinear_retention_fails e k hr ht
    refine ⟨m, ?_⟩
    unfold Quantity.value at hmm
    rw [linear_projects, linear_function, label_retention] at hmm
    simp only [Bool.false_eq_true, if_false] at hmm
    unfold derivedRow
    simp only [assignFunctions, linear_projects, linear_function, label_retention, function_max,
      computeRow, Bool.false_eq_true, if_false, hmm]

/-- **C67.** An export whose list contains `MaximumSurface` or `MinimumSurface` never computes a row. -/
theorem C67_never_computes (e : PostEnv Ω Γ d) (proj : Bool) (qs : List Quantity) (f : Field) (s : ℕ)
    (h : .maximumSurface f s ∈ qs ∨ .minimumSurface f s ∈ qs) :
    ∀ r, derivedRow e proj qs ≠ .ok r := by
  have hrow : ∀ (l : List (Quantity × PostFun Ω Γ d)) r,
      (∃ φ, (Quantity.maximumSurface f s, φ) ∈ l ∨ (Quantity.minimumSurface f s, φ) ∈ l) →
      computeRow e l ≠ .ok r := by
    intro l
    induction l with
    | nil => rintro r ⟨φ, h | h⟩ <;> cases h
    | cons a l ih =>
      rintro r ⟨φ, h⟩
      obtain ⟨q, g⟩ := a
      unfold computeRow
      intro hr
      cases h1 : q.compute e g with
      | error err => rw [h1] at hr; cases hr
      | ok y =>
        rw [h1] at hr
        simp only at hr
        cases h2 : computeRow e l with
        | error err => rw [h2] at hr; cases hr
        | ok r' =>
          refine ih r' ⟨φ, ?_⟩ h2
          rcases h with h | h <;> rcases List.mem_cons.1 h with h | h
          · cases h; cases h1
          · exact .inl h
          · cases h; cases h1
          · exact .inr h
  have hass : ∀ (qs : List Quantity) (b : Bool) l, assignFunctions e b qs = .ok l →
      ∀ q ∈ qs, ∃ φ, (q, φ) ∈ l := by
    intro qs
    induction qs with
    | nil => intro b l _ q hq; cases hq
    | cons a qs ih =>
      intro b l hl q hq
      unfold assignFunctions at hl
      cases h1 : a.function e (a.projects b) with
      | error err => rw [h1] at hl; cases hl
      | ok g =>
        rw [h1] at hl
        simp only at hl
        cases h2 : assignFunctions e (a.projects b) qs with
        | error err => rw [h2] at hl; cases hl
        | ok l' =>
          rw [h2] at hl
          cases hl
          rcases List.mem_cons.1 hq with rfl | hq
          · exact ⟨g, List.mem_cons_self⟩
          · obtain ⟨φ, hφ⟩ := ih _ _ h2 q hq
            exact ⟨φ, List.mem_cons_of_mem _ hφ⟩
  intro r hr
  unfold derivedRow at hr
  cases h1 : assignFunctions e proj qs with
  | error err => rw [h1] at hr; cases hr
  | ok l =>
    rw [h1] at hr
    rcases h with h | h
    · obtain ⟨φ, hφ⟩ := hass qs proj l h1 _ h
      exact hrow l r ⟨φ, .inl hφ⟩ hr
    · obtain ⟨φ, hφ⟩ := hass qs proj l h1 _ h
      exact hrow l r ⟨φ, .inr hφ⟩ hr

/-- **C67.** Called by hand on a one-dimensional mesh (vertices and cells numbered from left to right, a
piecewise affine function with the values `c₀, c₁, rest` at the vertices, the first vertex marked 1 and
the last one 2), `MaximumSurface.compute` for the left surface returns the maximum over the whole first
cell, `MinimumSurface.compute` the minimum, and both read past the last cell for the right surface. -/
theorem C67_direct_call (f : PostFun Ω Γ d) (c₀ c₁ : ℝ) (rest : List ℝ)
    (hf : f.cells.map (·.2) = List.zipWith (fun a b => [a, b]) (c₀ :: c₁ :: rest) (c₁ :: rest)) :
    f.maximumSurface (1 :: List.replicate rest.length 0 ++ [2]) 1 = some (.ok (max c₀ c₁)) ∧
    f.minimumSurface (1 :: List.replicate rest.length 0 ++ [2]) 1 = some (.ok (min c₀ c₁)) ∧
    f.maximumSurface (1 :: List.replicate rest.length 0 ++ [2]) 2 = none ∧
    f.minimumSurface (1 :: List.replicate rest.length 0 ++ [2]) 2 = none := by
  have hrep : ∀ (n k s : ℕ), s ≠ 0 →
      ((List.replicate n 0).zipIdx k).filter (fun c => decide (c.1 = s)) = [] := by
    intro n k s hs
    rw [List.filter_eq_nil_iff]
    rintro ⟨a, b⟩ hab
    have := List.fst_mem_of_mem_zipIdx hab
    rw [List.eq_of_mem_replicate this]
    simpa using fun h : 0 = s => hs h.symm
  have h1 : ((1 :: List.replicate rest.length 0 ++ [2] : List ℕ).zipIdx.filter
      fun c : ℕ × ℕ => decide (c.1 = 1)).map (fun c : ℕ × ℕ => c.2) = [0] := by
    simp [List.zipIdx_cons, List.zipIdx_append, List.filter_cons, List.filter_append, hrep]
  have h2 : ((1 :: List.replicate rest.length 0 ++ [2] : List ℕ).zipIdx.filter
      fun c : ℕ × ℕ => decide (c.1 = 2)).map (fun c : ℕ × ℕ => c.2) = [rest.length + 1] := by
    simp [List.zipIdx_cons, List.zipIdx_append, List.filter_cons, List.filter_append, hrep, Nat.add_comm]
  have hlen : f.cells.length = rest.length + 1 := by
    have := congrArg List.length hf
    simpa using this
  have hz : (f.cells[0]?).map (·.2) = some [c₀, c₁] := by
    rw [← List.getElem?_map, hf]; rfl
  have hl : (f.cells[rest.length + 1]?).map (·.2) = none := by
    rw [List.getElem?_eq_none (by omega)]; rfl
  have e1 : f.facetDofs (1 :: List.replicate rest.length 0 ++ [2]) 1 = some (.ok [c₀, c₁]) := by
    unfold PostFun.facetDofs
    rw [h1]
    simp [hz]
  have e2 : f.facetDofs (1 :: List.replicate rest.length 0 ++ [2]) 2 = none := by
    unfold PostFun.facetDofs
    rw [h2]
    simp [hl]
  unfold PostFun.maximumSurface PostFun.minimumSurface
  rw [e1, e2]
  exact ⟨rfl, rfl, rfl, rfl⟩

theorem computeRow_append (e : PostEnv Ω Γ d) (l l' : List (Quantity × PostFun Ω Γ d)) (r : List ℝ)
    (h : computeRow e l = .ok r) :
    computeRow e (l ++ l') = match computeRow e l' with
      | .error err => .error err
      | .ok r' => .ok (r ++ r') := by
  induction l generalizing r with
  | nil => cases h; cases h' : computeRow e l' <;> simp [h']
  | cons a l ih =>
    obtain ⟨q, g⟩ := a
    rw [List.cons_append]
    simp only [computeRow] at h ⊢
    cases h1 : q.compute e g with
    | error err => rw [h1] at h; cases h
    | ok y =>
      rw [h1] at h
      simp only at h ⊢
      cases h2 : computeRow e l with
      | error err => rw [h2] at h; cases h
      | ok r' =>
        rw [h2] at h
        cases h
        rw [ih r' h2]
        cases h' : computeRow e l' <;> simp

/-- **C67.** If the quantities before it are computed, the exception is the `TypeError` of the missing
argument. -/
theorem C67_type_error (e : PostEnv Ω Γ d) (proj : Bool) (pre post : List (Quantity × PostFun Ω Γ d))
    (qs : List Quantity) (f : Field) (s : ℕ) (q : Quantity) (φ : PostFun Ω Γ d)
    (hq : q = .maximumSurface f s ∨ q = .minimumSurface f s)
    (h : assignFunctions e proj qs = .ok (pre ++ (q, φ) :: post)) (r : List ℝ)
    (hpre : computeRow e pre = .ok r) :
    derivedRow e proj qs =
      .error (.typeError "compute() missing 1 required positional argument: 'surface_markers'") := by
  unfold derivedRow
  rw [h]
  simp only
  rw [computeRow_append e pre _ r hpre]
  rcases hq with rfl | rfl <;> rfl

/-! ## C63 -/

theorem checkRange_ok (lo hi : ℝ) (msg : String) (v : ℝ × ℝ) :
    checkRange lo hi msg v = .ok () ↔ SubRange lo hi v := by
  unfold checkRange SubRange
  split_ifs with h
  · simp only [reduceCtorEq, false_iff]
    rcases h with h | h
    · exact fun ⟨h1, _⟩ => absurd h (not_lt.2 h1)
    · exact fun ⟨_, h1⟩ => absurd h (not_lt.2 h1)
  · push Not at h
    exact ⟨fun _ => h, fun _ => rfl⟩

theorem checkRange_err (lo hi : ℝ) (msg : String) (v : ℝ × ℝ) (err : PyErr)
    (h : checkRange lo hi msg v = .error err) : err = .valueError msg := by
  unfold checkRange at h
  split_ifs at h
  cases h
  rfl

theorem check2 (lo hi lo' hi' : ℝ) (m m' : String) (v v' : ℝ × ℝ) :
    (match checkRange lo hi m v with
      | .error e => Except.error e
      | .ok () => checkRange lo' hi' m' v') = .ok () ↔ SubRange lo hi v ∧ SubRange lo' hi' v' := by
  cases h : checkRange lo hi m v with
  | error e =>
    have : ¬ SubRange lo hi v := fun h' => by rw [(checkRange_ok lo hi m v).2 h'] at h; cases h
    simp [this]
  | ok u =>
    have := (checkRange_ok lo hi m v).1 (by rw [h])
    simp only [this, true_and]
    exact checkRange_ok _ _ _ _

/-- The documented ranges of a quantity. -/
def DocumentedRanges : Quantity → Prop
  | .surfaceFlux (.cylindrical az) _ _ => SubRange 0 (2 * Real.pi) az
  | .surfaceFlux (.spherical az pol) _ _ => SubRange 0 Real.pi az ∧ SubRange (-Real.pi) Real.pi pol
  | .totalVolume (.cylindrical az) _ _ => SubRange 0 (2 * Real.pi) az
  | .totalVolume (.spherical az pol) _ _ => SubRange 0 (2 * Real.pi) az ∧ SubRange 0 Real.pi pol
  | .totalSurface (.cylindrical az) _ _ => SubRange 0 (2 * Real.pi) az
  | .totalSurface (.spherical az pol) _ _ => SubRange 0 (2 * Real.pi) az ∧ SubRange 0 Real.pi pol
  | _ => True

/-- **C63.** A quantity can be created exactly when the first bound of each range is not below the
documented range and the second not above; otherwise `ValueError`. -/
theorem C63_accepted_iff (q : Quantity) :
    (q.init = .ok () ↔ DocumentedRanges q) ∧ (∀ err, q.init = .error err → ∃ m, err = .valueError m) := by
  have two : ∀ (lo hi lo' hi' : ℝ) (m m' : String) (v v' : ℝ × ℝ) (err : PyErr),
      (match checkRange lo hi m v with
        | .error e => Except.error e
        | .ok () => checkRange lo' hi' m' v') = .error err → ∃ m, err = .valueError m := by
    intro lo hi lo' hi' m m' v v' err h
    cases h1 : checkRange lo hi m v with
    | error e => rw [h1] at h; cases h; exact ⟨_, checkRange_err _ _ _ _ _ h1⟩
    | ok u => rw [h1] at h; exact ⟨_, checkRange_err _ _ _ _ _ h⟩
  cases q with
  | surfaceFlux g f s =>
    cases g with
    | cartesian => simp [Quantity.init, DocumentedRanges]
    | cylindrical az =>
      exact ⟨checkRange_ok _ _ _ _, fun err h => ⟨_, checkRange_err _ _ _ _ _ h⟩⟩
    | spherical az pol =>
      exact ⟨(check2 _ _ _ _ _ _ _ _).trans And.comm, fun err h => two _ _ _ _ _ _ _ _ err h⟩
  | totalVolume g f s =>
    cases g with
    | cartesian => simp [Quantity.init, DocumentedRanges]
    | cylindrical az =>
      exact ⟨checkRange_ok _ _ _ _, fun err h => ⟨_, checkRange_err _ _ _ _ _ h⟩⟩
    | spherical az pol => exact ⟨check2 _ _ _ _ _ _ _ _, fun err h => two _ _ _ _ _ _ _ _ err h⟩
  | totalSurface g f s =>
    cases g with
    | cartesian => simp [Quantity.init, DocumentedRanges]
    | cylindrical az =>
      exact ⟨checkRange_ok _ _ _ _, fun err h => ⟨_, checkRange_err _ _ _ _ _ h⟩⟩
    | spherical az pol => exact ⟨check2 _ _ _ _ _ _ _ _, fun err h => two _ _ _ _ _ _ _ _ err h⟩
  | _ => simp [Quantity.init, DocumentedRanges]

/-- What the messages of the setters announce for the azimuth and the polar angle. -/
def announced : Quantity → String × String
  | .surfaceFlux (.cylindrical _) _ _ => ("0 and 2*pi", "")
  | .surfaceFlux (.spherical _ _) _ _ => ("0 and pi", "- pi and pi")
  | .totalVolume (.cylindrical _) _ _ => ("0 and 2 pi", "")
  | .totalVolume (.spherical _ _) _ _ => ("0 and pi", "0 and pi")
  | .totalSurface (.cylindrical _) _ _ => ("0 and pi", "")
  | .totalSurface (.spherical _ _) _ _ => ("0 and 2 pi", "0 and pi")
  | _ => ("", "")

/-- The azimuth of a quantity is outside its documented interval. -/
def BadAzimuth : Quantity → Prop
  | .surfaceFlux (.cylindrical az) _ _ => ¬ SubRange 0 (2 * Real.pi) az
  | .surfaceFlux (.spherical az _) _ _ => ¬ SubRange 0 Real.pi az
  | .totalVolume (.cylindrical az) _ _ => ¬ SubRange 0 (2 * Real.pi) az
  | .totalVolume (.spherical az _) _ _ => ¬ SubRange 0 (2 * Real.pi) az
  | .totalSurface (.cylindrical az) _ _ => ¬ SubRange 0 (2 * Real.pi) az
  | .totalSurface (.spherical az _) _ _ => ¬ SubRange 0 (2 * Real.pi) az
  | _ => False

/-- The polar angle of a quantity is outside its documented interval. -/
def BadPolar : Quantity → Prop
  | .surfaceFlux (.spherical _ pol) _ _ => ¬ SubRange (-Real.pi) Real.pi pol
  | .totalVolume (.spherical _ pol) _ _ => ¬ SubRange 0 Real.pi pol
  | .totalSurface (.spherical _ pol) _ _ => ¬ SubRange 0 Real.pi pol
  | _ => False

theorem checkRange_bad (lo hi : ℝ) (msg : String) (v : ℝ × ℝ) (err : PyErr)
    (h : checkRange lo hi msg v = .error err) : err = .valueError msg ∧ ¬ SubRange lo hi v :=
  ⟨checkRange_err lo hi msg v err h, fun h' => by rw [(checkRange_ok lo hi msg v).2 h'] at h; cases h⟩

/-- **C63.** The error names an angle which is indeed out of its interval and the interval announced. -/
theorem C63_messages (q : Quantity) (err : PyErr) (h : q.init = .error err) :
    (err = .valueError ("Azimuthal range must be between " ++ (announced q).1) ∧ BadAzimuth q) ∨
    (err = .valueError ("Polar range must be between " ++ (announced q).2) ∧ BadPolar q) := by
  cases q with
  | surfaceFlux g f s =>
    cases g with
    | cartesian => simp [Quantity.init] at h
    | cylindrical az => exact .inl (checkRange_bad _ _ _ _ _ h)
    | spherical az pol =>
      simp only [Quantity.init, checkSphericalFlux] at h
      split at h
      · rename_i e h1
        cases h
        exact .inr (checkRange_bad _ _ _ _ _ h1)
      · exact .inl (checkRange_bad _ _ _ _ _ h)
  | totalVolume g f s =>
    cases g with
    | cartesian => simp [Quantity.init] at h
    | cylindrical az => exact .inl (checkRange_bad _ _ _ _ _ h)
    | spherical az pol =>
      simp only [Quantity.init, checkSphericalVolume] at h
      split at h
      · rename_i e h1
        cases h
        exact .inl (checkRange_bad _ _ _ _ _ h1)
      · exact .inr (checkRange_bad _ _ _ _ _ h)
  | totalSurface g f s =>
    cases g with
    | cartesian => simp [Quantity.init] at h
    | cylindrical az => exact .inl (checkRange_bad _ _ _ _ _ h)
    | spherical az pol =>
      simp only [Quantity.init, checkSphericalSurface] at h
      split at h
      · rename_i e h1
        cases h
        exact .inl (checkRange_bad _ _ _ _ _ h1)
      · exact .inr (checkRange_bad _ _ _ _ _ h)
  | _ => simp [Quantity.init] at h

/-- **C63.** The messages of `TotalSurfaceCylindrical` and `TotalVolumeSpherical` announce half of the
interval which is accepted: any azimuth range reaching beyond `π`, up to `2 π`, is accepted, and the
refusal of a larger one asks for a range between `0` and `π`. -/
theorem C63_misleading_message (f : Field) (s : ℕ) (a b : ℝ) (pol : ℝ × ℝ) (ha : 0 ≤ a)
    (hb : Real.pi < b) (hp : SubRange 0 Real.pi pol) :
    (b ≤ 2 * Real.pi →
      (Quantity.totalSurface (.cylindrical (a, b)) f s).init = .ok () ∧
      (Quantity.totalVolume (.spherical (a, b) pol) f s).init = .ok ()) ∧
    (2 * Real.pi < b →
      (Quantity.totalSurface (.cylindrical (a, b)) f s).init
        = .error (.valueError "Azimuthal range must be between 0 and pi") ∧
      (Quantity.totalVolume (.spherical (a, b) pol) f s).init
        = .error (.valueError "Azimuthal range must be between 0 and pi")) := by
  constructor
  · intro h
    exact ⟨(C63_accepted_iff _).1.2 ⟨ha, h⟩, (C63_accepted_iff _).1.2 ⟨⟨ha, h⟩, hp⟩⟩
  · intro h
    have hr : checkRange 0 (2 * Real.pi) "Azimuthal range must be between 0 and pi" (a, b)
        = .error (.valueError "Azimuthal range must be between 0 and pi") := by
      unfold checkRange
      rw [if_pos (Or.inr h)]
    exact ⟨hr, by simp only [Quantity.init, checkSphericalVolume, hr]⟩

example : ∃ b, Real.pi < b ∧ b ≤ 2 * Real.pi ∧ SubRange 0 Real.pi (0, Real.pi) :=
  ⟨2 * Real.pi, by linarith [Real.pi_pos], le_rfl, le_rfl, le_rfl⟩

/-- **C63.** Increasing ranges are accepted exactly when they are contained in the documented interval. -/
theorem C63_increasing_ranges (lo hi : ℝ) (v : ℝ × ℝ) (hv : v.1 ≤ v.2) :
    SubRange lo hi v ↔ Set.Icc v.1 v.2 ⊆ Set.Icc lo hi := by
  rw [Set.Icc_subset_Icc_iff hv]
  rfl

/-- **C63.** Decreasing ranges, however large, are accepted and change the sign of the result. -/
theorem C63_reversed_range (e : PostEnv Ω Γ d) (proj : Bool) (f : Field) (v : ℕ) (a b : ℝ)
    (ha : 0 ≤ a) (hb : b ≤ 2 * Real.pi) (φ : PostFun Ω Γ d) (hl : e.label proj f = .ok φ)
    (hfun : φ.isFun = true) :
    (Quantity.totalVolume (.cylindrical (a, b)) f v).init = .ok () ∧
    ∃ x, (Quantity.totalVolume (.cylindrical (b, a)) f v).value e proj = .ok x ∧
      (Quantity.totalVolume (.cylindrical (a, b)) f v).value e proj = .ok (-x) := by
  refine ⟨(C63_accepted_iff _).1.2 ⟨ha, hb⟩, _,
    linear_value e proj (.totalVolume (.cylindrical (b, a)) v) f φ hl (fun _ => hfun) trivial, ?_⟩
  refine (linear_value e proj (.totalVolume (.cylindrical (a, b)) v) f φ hl (fun _ => hfun)
    trivial).trans ?_
  simp only [LinearKind.meaning, totalAngle, turnAngle, Geom.suffix,
    intervalIntegral.integral_symm b a]
  rw [neg_mul]

/-- **C63.** With the default ranges the factors are those of a full turn, `2 π`, and of a full sphere,
`4 π`, for totals and fluxes alike. -/
theorem C63_full_ranges :
    totalAngle (.cylindrical (0, 2 * Real.pi)) = 2 * Real.pi ∧
    fluxAngle (.cylindrical (0, 2 * Real.pi)) = 2 * Real.pi ∧
    totalAngle (.spherical (0, 2 * Real.pi) (0, Real.pi)) = 4 * Real.pi ∧
    fluxAngle (.spherical (0, Real.pi) (-Real.pi, Real.pi)) = 4 * Real.pi := by
  refine ⟨?_, ?_, ?_, ?_⟩
  · simp [totalAngle, turnAngle]
  · simp [fluxAngle, turnAngle]
  · simp [totalAngle, solidAngle]; ring
  · simp [fluxAngle, solidAngle]; ring

/-- The integral of a flux quantity over the surface, without the angles. -/
noncomputable def fluxIntegral (e : PostEnv Ω Γ d) (x : Suffix) (s : ℕ) (k : Γ → ℝ)
    (φ : PostFun Ω Γ d) (soret : Option (Γ → ℝ)) : ℝ :=
  surface e.mesh s fun q => jacS e.mesh x q * (k q *
    (dot (φ.gradS q) (e.n q) + match soret with
      | none => 0
      | some Q => Q q * φ.tr q / (kB * e.T.tr q ^ 2) * dot (e.T.gradS q) (e.n q)))

theorem weightS_eq (g : Geom) (m : Mesh Ω Γ d) (q : Γ) : g.weightS m q = jacS m g.suffix q := by
  cases g <;> rfl

/-- A flux of the solute. -/
theorem flux_solute (e : PostEnv Ω Γ d) (proj : Bool) (g : Geom) (f : Field) (s : ℕ)
    (hf : f = .int 0 ∨ f = .strInt 0 ∨ f = .name "solute") (φ : PostFun Ω Γ d)
    (hl : e.label proj f = .ok φ) (hfun : g.curved = true → φ.isFun = true)
    (Q : Option (Γ → ℝ)) (hQ : if e.soret then Q.isSome ∧ e.Q = Q else Q = none) :
    (Quantity.surfaceFlux g f s).value e proj
      = .ok (fluxAngle g * fluxIntegral e g.suffix s e.D φ Q) := by
  have hp : e.prop f = .ok (some e.D) := by
    unfold PostEnv.prop
    rcases hf with rfl | rfl | rfl <;> simp
  have hneed : ∀ x : Except PyErr ℝ, needMesh φ g.curved x = x := by
    intro x
    unfold needMesh
    cases h : g.curved with
    | false => rfl
    | true => simp [hfun h]
  have hpr : (Quantity.surfaceFlux g f s).projects proj = proj := by
    simp [Quantity.projects, Quantity.isExtremum]
  unfold Quantity.value
  rw [hpr]
  simp only [Quantity.function, Quantity.field, hl, Quantity.compute, hneed]
  unfold evalSurfaceFlux
  rw [hp]
  simp only [integrate_ds, weightS_eq, fluxFactor_eq]
  cases hs : e.soret with
  | false =>
    rw [hs] at hQ
    simp only [Bool.false_eq_true, if_false] at hQ
    subst hQ
    simp only [Bool.false_eq_true, false_and, if_false, fluxIntegral, add_zero]
    rw [mul_comm]
    congr 3
    funext q
    ring
  | true =>
    rw [hs] at hQ
    simp only [if_true] at hQ
    obtain ⟨h1, h2⟩ := hQ
    obtain ⟨Q', rfl⟩ := Option.isSome_iff_exists.1 h1
    have hf' : (true = true ∧ (f = .int 0 ∨ f = .strInt 0 ∨ f = .name "solute")) := ⟨rfl, hf⟩
    simp only [hf', h2, if_true, and_self, fluxIntegral]
    rw [mul_comm, ← surface_add]
    congr 3
    funext q
    ring

/-- A flux of heat. -/
theorem flux_heat (e : PostEnv Ω Γ d) (proj : Bool) (g : Geom) (s : ℕ)
    (hfun : g.curved = true → e.T.isFun = true) (k : Γ → ℝ) (hk : e.cond = some k) :
    (Quantity.surfaceFlux g (.name "T") s).value e proj
      = .ok (fluxAngle g * fluxIntegral e g.suffix s k e.T none) := by
  have hp : e.prop (.name "T") = .ok (some k) := by
    unfold PostEnv.prop
    simp [hk]
  have hneed : ∀ x : Except PyErr ℝ, needMesh e.T g.curved x = x := by
    intro x
    unfold needMesh
    cases h : g.curved with
    | false => rfl
    | true => simp [hfun h]
  unfold Quantity.value
  simp only [Quantity.function, Quantity.field, label_T, Quantity.compute, hneed]
  unfold evalSurfaceFlux
  rw [hp]
  simp only [integrate_ds, weightS_eq, fluxFactor_eq, reduceCtorEq, false_or, Field.name.injEq,
    fluxIntegral, add_zero]
  rw [if_neg (by simp), mul_comm]
  congr 3
  funext q
  ring

/-- **C63.** Totals are proportional to the angles, integrated with the Jacobian of the coordinates; so
cutting a range in two parts cuts the value in two parts. -/
theorem C63_totals_additive (e : PostEnv Ω Γ d) (proj : Bool) (f : Field) (v : ℕ) (φ : PostFun Ω Γ d)
    (hl : e.label proj f = .ok φ) (hfun : φ.isFun = true) (g₁ g₂ g : Geom)
    (hg : (∃ a b c, g₁ = .cylindrical (a, b) ∧ g₂ = .cylindrical (b, c) ∧ g = .cylindrical (a, c)) ∨
      (∃ a b c pol, g₁ = .spherical (a, b) pol ∧ g₂ = .spherical (b, c) pol ∧
        g = .spherical (a, c) pol) ∨
      (∃ a b c az, g₁ = .spherical az (a, b) ∧ g₂ = .spherical az (b, c) ∧
        g = .spherical az (a, c))) :
    (∃ x y, (Quantity.totalVolume g₁ f v).value e proj = .ok x ∧
      (Quantity.totalVolume g₂ f v).value e proj = .ok y ∧
      (Quantity.totalVolume g f v).value e proj = .ok (x + y)) ∧
    (∃ x y, (Quantity.totalSurface g₁ f v).value e proj = .ok x ∧
      (Quantity.totalSurface g₂ f v).value e proj = .ok y ∧
      (Quantity.totalSurface g f v).value e proj = .ok (x + y)) := by
  have hang : totalAngle g = totalAngle g₁ + totalAngle g₂ ∧ g₁.suffix = g.suffix ∧
      g₂.suffix = g.suffix := by
    rcases hg with ⟨a, b, c, rfl, rfl, rfl⟩ | ⟨a, b, c, pol, rfl, rfl, rfl⟩ | ⟨a, b, c, az, rfl, rfl, rfl⟩
    · refine ⟨?_, rfl, rfl⟩
      simp [totalAngle, turnAngle]
    · refine ⟨?_, rfl, rfl⟩
      simp [totalAngle, solidAngle]; ring
    · refine ⟨?_, rfl, rfl⟩
      simp [totalAngle, solidAngle]; ring
  obtain ⟨h1, h2, h3⟩ := hang
  constructor
  · refine ⟨_, _, linear_value e proj (.totalVolume g₁ v) f φ hl (fun _ => hfun) trivial,
      linear_value e proj (.totalVolume g₂ v) f φ hl (fun _ => hfun) trivial,
      (linear_value e proj (.totalVolume g v) f φ hl (fun _ => hfun) trivial).trans ?_⟩
    simp only [LinearKind.meaning, h1, h2, h3]
    congr 1; ring
  · refine ⟨_, _, linear_value e proj (.totalSurface g₁ v) f φ hl (fun _ => hfun) trivial,
      linear_value e proj (.totalSurface g₂ v) f φ hl (fun _ => hfun) trivial,
      (linear_value e proj (.totalSurface g v) f φ hl (fun _ => hfun) trivial).trans ?_⟩
    simp only [LinearKind.meaning, h1, h2, h3]
    congr 1; ring

/-- **C63.** The same for the fluxes of the solute and of heat. -/
theorem C63_fluxes_additive (e : PostEnv Ω Γ d) (proj : Bool) (s : ℕ)
    (hsol : e.solute.isFun = true) (hT : e.T.isFun = true) (k : Γ → ℝ) (hk : e.cond = some k)
    (Q : Γ → ℝ) (hQ : e.Q = some Q) (g₁ g₂ g : Geom)
    (hg : (∃ a b c, g₁ = .cylindrical (a, b) ∧ g₂ = .cylindrical (b, c) ∧ g = .cylindrical (a, c)) ∨
      (∃ a b c pol, g₁ = .spherical (a, b) pol ∧ g₂ = .spherical (b, c) pol ∧
        g = .spherical (a, c) pol) ∨
      (∃ a b c az, g₁ = .spherical az (a, b) ∧ g₂ = .spherical az (b, c) ∧
        g = .spherical az (a, c))) (f : Field) (hf : f = .name "solute" ∨ f = .name "T") :
    ∃ x y, (Quantity.surfaceFlux g₁ f s).value e proj = .ok x ∧
      (Quantity.surfaceFlux g₂ f s).value e proj = .ok y ∧
      (Quantity.surfaceFlux g f s).value e proj = .ok (x + y) := by
  have hang : fluxAngle g = fluxAngle g₁ + fluxAngle g₂ ∧ g₁.suffix = g.suffix ∧
      g₂.suffix = g.suffix := by
    rcases hg with ⟨a, b, c, rfl, rfl, rfl⟩ | ⟨a, b, c, pol, rfl, rfl, rfl⟩ | ⟨a, b, c, az, rfl, rfl, rfl⟩
    · refine ⟨?_, rfl, rfl⟩
      simp [fluxAngle, turnAngle]
    · refine ⟨?_, rfl, rfl⟩
      simp [fluxAngle, solidAngle]; ring
    · refine ⟨?_, rfl, rfl⟩
      simp [fluxAngle, solidAngle]; ring
  obtain ⟨h1, h2, h3⟩ := hang
  rcases hf with rfl | rfl
  · have key := fun g => flux_solute e proj g (.name "solute") s (by simp) e.solute
      (label_solute e proj) (fun _ => hsol) (if e.soret then some Q else none)
      (by cases e.soret <;> simp [hQ])
    refine ⟨_, _, key g₁, key g₂, (key g).trans ?_⟩
    simp only [h1, h2, h3]
    congr 1; ring
  · have key := fun g => flux_heat e proj g s (fun _ => hT) k hk
    refine ⟨_, _, key g₁, key g₂, (key g).trans ?_⟩
    simp only [h1, h2, h3]
    congr 1; ring

/-- **C63.** The totals and the fluxes in spherical coordinates do not give the same meaning to the
azimuth and polar ranges: the default azimuth of one is refused by the other, and the same ranges
(`azimuth = (0, π/3)`, `polar = (0, π)`) cover `2π/3` of solid angle for the totals, `π/2` for the
fluxes. -/
theorem C63_spherical_conventions_differ (f : Field) (s v : ℕ) :
    (∃ m, (Quantity.surfaceFlux (.spherical (0, 2 * Real.pi) (0, Real.pi)) f s).init
      = .error (.valueError m)) ∧
    (∃ m, (Quantity.totalVolume (.spherical (0, Real.pi) (-Real.pi, Real.pi)) f v).init
      = .error (.valueError m)) ∧
    (let g := Geom.spherical (0, Real.pi / 3) (0, Real.pi)
     (Quantity.surfaceFlux g f s).init = .ok () ∧ (Quantity.totalVolume g f v).init = .ok () ∧
     totalAngle g = 2 * Real.pi / 3 ∧ fluxAngle g = Real.pi / 2) := by
  have hpi := Real.pi_pos
  have fails : ∀ q : Quantity, ¬ DocumentedRanges q → ∃ m, q.init = .error (.valueError m) := by
    intro q hq
    obtain ⟨h1, h2⟩ := C63_accepted_iff q
    cases h : q.init with
    | ok u => exact absurd (h1.1 h) hq
    | error err =>
      obtain ⟨m, rfl⟩ := h2 err h
      exact ⟨m, rfl⟩
  refine ⟨fails _ ?_, fails _ ?_, ?_⟩
  · rintro ⟨⟨_, h⟩, _⟩
    simp only at h
    linarith
  · rintro ⟨_, ⟨h, _⟩⟩
    simp only at h
    linarith
  · refine ⟨(C63_accepted_iff _).1.2 ⟨⟨?_, ?_⟩, ⟨?_, ?_⟩⟩, (C63_accepted_iff _).1.2
      ⟨⟨?_, ?_⟩, ⟨?_, ?_⟩⟩, ?_, ?_⟩ <;> try (simp only; linarith)
    · simp [totalAngle, solidAngle]; ring
    · simp [fluxAngle, solidAngle, Real.cos_pi_div_three]; ring

end

/-! ## A concrete case

One material, two cells of volume 1 on `[0, 2]`, one quadrature point each, surface 1 at `0` and surface 2
at `2`, one trap. -/

namespace DerivedCase

/-- Points of the volume: the two midpoints; of the boundary: left and right. -/
noncomputable def mesh : Mesh (Fin 2) (Fin 2) 1 where
  w _ := 1
  vm _ := 1
  ws _ := 1
  sm q := if q = 0 then 1 else 2
  vmS _ := 1
  r := ⟨fun p => if p = 0 then 1 / 2 else 3 / 2, fun _ _ => 1, fun q => if q = 0 then 0 else 2⟩
  type := .cylindrical

/-- Nodal values `a, b, c`. -/
noncomputable def p1 (a b c : ℝ) : PostFun (Fin 2) (Fin 2) 1 where
  val p := if p = 0 then (a + b) / 2 else (b + c) / 2
  tr q := if q = 0 then a else c
  gradS q _ := if q = 0 then b - a else c - b
  cells := [(1, [a, b]), (1, [b, c])]
  pt _ := a
  isFun := true

noncomputable def env : PostEnv (Fin 2) (Fin 2) 1 where
  mesh := mesh
  n q _ := if q = 0 then -1 else 1
  D _ := 2
  cond := some fun _ => 3
  Q := some fun _ => 1
  T := p1 300 300 300
  soret := false
  solute := p1 1 2 5
  traps := [p1 1 1 4]
  ids := [1]
  adsorbed := []

theorem p1_affine (a b c : ℝ) : Affine mesh (p1 a b c) := by
  have mid : ∀ x y : ℝ, (x + y) / 2 ∈ convexHull ℝ {z | z ∈ [x, y]} := by
    intro x y
    have h := (convex_convexHull ℝ {z : ℝ | z ∈ [x, y]})
      (subset_convexHull ℝ _ (show x ∈ {z : ℝ | z ∈ [x, y]} by simp))
      (subset_convexHull ℝ _ (show y ∈ {z : ℝ | z ∈ [x, y]} by simp))
      (show (0 : ℝ) ≤ 1 / 2 by norm_num) (show (0 : ℝ) ≤ 1 / 2 by norm_num) (by norm_num)
    have e : (1 / 2 : ℝ) • x + (1 / 2 : ℝ) • y = (x + y) / 2 := by
      simp only [smul_eq_mul]; ring
    rwa [e] at h
  constructor
  · intro p
    fin_cases p
    · exact ⟨(1, [a, b]), by simp [p1], rfl, by simpa [p1] using mid a b⟩
    · exact ⟨(1, [b, c]), by simp [p1], rfl, by simpa [p1] using mid b c⟩
  · intro q
    fin_cases q
    · exact ⟨(1, [a, b]), by simp [p1], rfl, subset_convexHull ℝ _ (by simp [p1])⟩
    · exact ⟨(1, [b, c]), by simp [p1], rfl, subset_convexHull ℝ _ (by simp [p1])⟩

/-- C60 applies: cylindrical average of the solute, strictly between the extrema. -/
example : ∃ a y b, derivedRow env false
    [.minimumVolume (.name "solute") 1, .averageVolume .cylindrical (.name "solute") 1,
      .maximumVolume (.name "solute") 1] = .ok [a, y, b] ∧ a ≤ y ∧ y ≤ b :=
  C60_average_between env false .cylindrical (.name "solute") 1 (p1 1 2 5) (label_solute env true) rfl
    (p1_affine 1 2 5)
    (by intro p; fin_cases p <;> simp [env, mesh, jac] <;> norm_num)
    (by simp [env, mesh, jac, volumeOf]; norm_num)

/-- C60 for a surface. -/
example : ∃ a y b, derivedRow env false
    [.minimumVolume (.name "solute") 1, .averageSurface .cartesian (.name "solute") 2,
      .maximumVolume (.name "solute") 1] = .ok [a, y, b] ∧ a ≤ y ∧ y ≤ b :=
  C60_surface_average_between env false .cartesian (.name "solute") 1 2 (p1 1 2 5)
    (label_solute env true) rfl (p1_affine 1 2 5) (fun _ _ => rfl)
    (by intro p; simp [env, mesh]) (fun h => by cases h)
    (by simp [env, mesh, surface]; exact ⟨1, by simp⟩)

/-- C61 applies to the cylindrical total after a projection, and fails before it. -/
example : ∃ (x : ℝ) (xs : List ℝ),
    (Quantity.totalVolume (.cylindrical (0, 1)) (.name "solute") 1).value env true = .ok x ∧
    xs.length = 1 ∧
    (∀ i y, xs[i]? = some y →
      (Quantity.totalVolume (.cylindrical (0, 1)) (.int (i + 1)) 1).value env true = .ok y ∧
      (Quantity.totalVolume (.cylindrical (0, 1)) (.strInt (i + 1)) 1).value env true = .ok y) ∧
    (Quantity.totalVolume (.cylindrical (0, 1)) (.name "retention") 1).value env true
      = .ok (x + xs.sum) :=
  C61_retention_adds_up env true (.totalVolume (.cylindrical (0, 1)) 1) rfl rfl
    (by simp [env, p1]) (fun _ => .inl rfl) trivial

example : ∃ m, (Quantity.totalVolume (.cylindrical (0, 1)) (.name "retention") 1).value env false
    = .error (.attributeError m) :=
  C61_curvilinear_retention_fails env (.totalVolume (.cylindrical (0, 1)) 1) rfl (by simp [env])

/-- C67: a concentration 1, 5, 2 at the vertices of a mesh of two cells; the "maximum on the left
surface" is 5. -/
example : (⟨fun _ : Fin 2 => 0, fun _ : Fin 2 => 0, fun _ (_ : Fin 1) => 0, [(1, [1, 5]), (1, [5, 2])],
      fun _ => 0, true⟩ : PostFun (Fin 2) (Fin 2) 1).maximumSurface [1, 0, 2] 1 = some (.ok 5) := by
  have h := (C67_direct_call (Ω := Fin 2) (Γ := Fin 2) (d := 1)
    ⟨fun _ => 0, fun _ => 0, fun _ _ => 0, [(1, [1, 5]), (1, [5, 2])], fun _ => 0, true⟩ 1 5 [2]
    (by simp)).1
  rw [show max (1 : ℝ) 5 = 5 by norm_num] at h
  exact h

/-- C67 applies after a quantity which is computed. -/
example : derivedRow env false [.totalVolume .cartesian (.name "solute") 1,
    .maximumSurface (.name "solute") 1]
    = .error (.typeError "compute() missing 1 required positional argument: 'surface_markers'") :=
  C67_type_error env false [(.totalVolume .cartesian (.name "solute") 1, env.solute)] [] _
    (.name "solute") 1 (.maximumSurface (.name "solute") 1) env.solute (.inl rfl)
    (by simp [assignFunctions, Quantity.function, Quantity.field, label_solute])
    [(LinearKind.totalVolume .cartesian 1).meaning env.mesh env.solute]
    (by simp [computeRow, Quantity.compute, needMesh, Geom.curved, evalTotalVolume_eq])

end DerivedCase

end Festim.Props
