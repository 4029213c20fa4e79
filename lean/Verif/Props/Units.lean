import Verif.Spec.Units
import Verif.Proofs.Derived
import Mathlib.Tactic.FieldSimp
import Mathlib.Tactic.Ring

/-! # Units of the derived quantities (C70) -/

open scoped BigOperators

set_option linter.unusedSectionVars false

namespace Festim.Props

open Festim.Weak

section
variable {Ω Γ : Type} [Fintype Ω] [Fintype Γ] {d : ℕ}

/-! ## Integrals -/

theorem integrate_dxOn (m : Mesh Ω Γ d) (l k : ℝ) (ids : List ℕ) (g g' : Ω → ℝ)
    (h : ∀ p, g' p = k * g p) :
    (m.rescale l).integrate (.dxOn ids g') = l ^ d * k * m.integrate (.dxOn ids g) := by
  change (∑ p, if m.vm p ∈ ids then l ^ d * m.w p * g' p else 0) =
    l ^ d * k * ∑ p, if m.vm p ∈ ids then m.w p * g p else 0
  rw [Finset.mul_sum]
  refine Finset.sum_congr rfl fun p _ => ?_
  by_cases hp : m.vm p ∈ ids
  · rw [if_pos hp, if_pos hp, h]; ring
  · rw [if_neg hp, if_neg hp]; ring

theorem integrate_ds (m : Mesh Ω Γ d) (l k : ℝ) (s : ℕ) (g g' : Γ → ℝ) (h : ∀ q, g' q = k * g q) :
    (m.rescale l).integrate (.ds s g') = l ^ ((d : ℤ) - 1) * k * m.integrate (.ds s g) := by
  change (∑ p, if m.sm p = s then l ^ ((d : ℤ) - 1) * m.ws p * g' p else 0) =
    l ^ ((d : ℤ) - 1) * k * ∑ p, if m.sm p = s then m.ws p * g p else 0
  rw [Finset.mul_sum]
  refine Finset.sum_congr rfl fun p _ => ?_
  by_cases hp : m.sm p = s
  · rw [if_pos hp, if_pos hp, h]; ring
  · rw [if_neg hp, if_neg hp]; ring

theorem dot_smul (k : ℝ) (u v : Fin d → ℝ) : dot (fun i => k * u i) v = k * dot u v := by
  simp only [dot, Finset.mul_sum]
  exact Finset.sum_congr rfl fun i _ => by ring

/-! ## Functions -/

theorem rescale_add (a l : ℝ) (f g : PostFun Ω Γ d) :
    (f.rescale a l).add (g.rescale a l) = (f.add g).rescale a l := by
  simp only [PostFun.add, PostFun.rescale, PostFun.mk.injEq, and_true]
  refine ⟨?_, ?_, ?_, ?_, ?_⟩
  · funext p; ring
  · funext p; ring
  · funext p i; ring
  · rw [List.zipWith_map, List.map_zipWith]
    congr 1
    funext x y
    simp only [Prod.mk.injEq, true_and]
    rw [List.zipWith_map, List.map_zipWith]
    congr 1
    funext u v
    ring
  · funext x; ring

theorem rescale_foldl (a l : ℝ) (fs : List (PostFun Ω Γ d)) (f : PostFun Ω Γ d) :
    (fs.map fun g => g.rescale a l).foldl PostFun.add (f.rescale a l) =
      (fs.foldl PostFun.add f).rescale a l := by
  induction fs generalizing f with
  | nil => rfl
  | cons g fs ih => simp only [List.map_cons, List.foldl_cons, rescale_add]; exact ih _

theorem factor_T (c : Change) : c.factor ⟨.K, 0, 0⟩ = 1 := by simp [Change.factor]

theorem factor_H (c : Change) : c.factor ⟨.H, -3, 0⟩ = c.amount / c.len ^ 3 := by
  simp only [Change.factor, zpow_zero, mul_one]
  rw [zpow_neg, div_eq_mul_inv]; norm_cast

theorem factor_pos (c : Change) (u : PhysUnit) : 0 < c.factor u := by
  have h1 := c.len_pos
  have h2 := c.time_pos
  have h3 := c.amount_pos
  have h4 := c.power_pos
  unfold Change.factor
  cases u.base <;> positivity

theorem label_temp_iff (ids : List ℕ) (f : Field)
    (h : Dict.get? (labelToFunction ids) f = some .temp) : f = .name "T" := by
  unfold labelToFunction at h
  generalize hb : ([(.name "solute", .comp 0), (.strInt 0, .comp 0), (.int 0, .comp 0),
    (.name "T", .temp), (.name "retention", .retention), (.name "adsorbed", .adsorbed)] :
      Dict Field ExpFun) = base at h
  have hbase : Dict.get? base f = some .temp → f = .name "T" := by
    subst hb
    intro h0
    by_contra hne
    simp only [Dict.get?, List.find?_cons, List.find?_nil] at h0
    split at h0
    · cases h0
    split at h0
    · cases h0
    split at h0
    · cases h0
    split at h0
    · rename_i hx; exact hne (by simpa using (of_decide_eq_true hx).symm)
    split at h0
    · cases h0
    split at h0 <;> cases h0
  clear hb
  revert h
  generalize ids.zipIdx 1 = l
  induction l generalizing base with
  | nil => exact hbase
  | cons p l ih =>
    intro h
    refine ih _ ?_ h
    intro h0
    simp only [Dict.get?, Dict.set, List.find?_cons] at h0
    split at h0
    · cases h0
    split at h0
    · cases h0
    · exact hbase h0

theorem label_rescale (e : PostEnv Ω Γ d) (c : Change) (proj : Bool) (f : Field) :
    (e.rescale c).label proj f =
      (e.label proj f).map fun φ => φ.rescale (c.factor (fieldUnit f)) c.len := by
  by_cases hf : f = .name "T"
  · subst hf
    rw [label_T, label_T]
    simp [Except.map, fieldUnit, factor_T, PostEnv.rescale]
  · have hu : c.factor (fieldUnit f) = c.amount / c.len ^ 3 := by
      simp only [fieldUnit, hf, if_false, factor_H]
    have hids : (e.rescale c).ids = e.ids := rfl
    unfold PostEnv.label
    rw [hids, hu]
    cases hg : Dict.get? (labelToFunction e.ids) f with
    | none => rfl
    | some x =>
      cases x with
      | comp k =>
        cases k with
        | zero => rfl
        | succ k =>
          simp only [PostEnv.rescale, List.getElem?_map]
          cases e.traps[k]? <;> rfl
      | temp => exact absurd (label_temp_iff _ _ hg) hf
      | retention =>
        simp only [Except.map, Except.ok.injEq]
        have hr : (e.rescale c).retention = e.retention.rescale (c.amount / c.len ^ 3) c.len :=
          rescale_foldl _ _ _ _
        rw [hr]
        split <;> rfl
      | adsorbed => rfl

theorem adsorbed_rescale (k : ℝ) (s : ℕ) (l : List (List ℕ × List ℝ)) (acc : Option ℝ) :
    adsorbedFunction s (l.map fun a => (a.1, a.2.map (k * ·))) (acc.map (k * ·)) =
      (adsorbedFunction s l acc).map (k * ·) := by
  induction l generalizing acc with
  | nil => rfl
  | cons a l ih =>
    obtain ⟨surfs, vals⟩ := a
    simp only [List.map_cons, adsorbedFunction]
    split
    · rw [List.getElem?_map]; exact ih _
    · exact ih _

theorem const_rescale (a l x : ℝ) :
    (PostFun.const x : PostFun Ω Γ d).rescale a l = PostFun.const (a * x) := by
  simp only [PostFun.const, PostFun.rescale, List.map_nil, mul_zero]

/-- Unit of the function of a quantity. -/
def functionUnit (q : Weak.Quantity) : PhysUnit :=
  match q.field with
  | some f => fieldUnit f
  | none => ⟨.H, -2, 0⟩

theorem factor_ads (c : Change) : c.factor ⟨.H, -2, 0⟩ = c.amount / c.len ^ 2 := by
  simp only [Change.factor, zpow_zero, mul_one]
  rw [zpow_neg, div_eq_mul_inv]; norm_cast

theorem rescale_field (c : Change) (q : Weak.Quantity) : (q.rescale c).field = q.field := by
  cases q <;> rfl

theorem rescale_projects (c : Change) (q : Weak.Quantity) (proj : Bool) :
    (q.rescale c).projects proj = q.projects proj := by
  cases q <;> rfl

theorem function_rescale (e : PostEnv Ω Γ d) (c : Change) (proj : Bool) (q : Weak.Quantity) :
    (q.rescale c).function (e.rescale c) proj =
      (q.function e proj).map fun φ => φ.rescale (c.factor (functionUnit q)) c.len := by
  cases q with
  | adsorbed s =>
    simp only [Weak.Quantity.rescale, Weak.Quantity.function, PostEnv.rescale]
    have := adsorbed_rescale (c.amount / c.len ^ 2) s e.adsorbed none
    simp only [Option.map_none] at this
    rw [this]
    cases adsorbedFunction s e.adsorbed none with
    | none => rfl
    | some x =>
      simp only [Option.map_some, Except.map, Except.ok.injEq, functionUnit, Weak.Quantity.field]
      rw [factor_ads, const_rescale]
  | _ => exact label_rescale e c proj _

/-! ## Computations -/

theorem foldl_max_mul (k : ℝ) (hk : 0 < k) (l : List ℝ) (a : ℝ) :
    (l.map (k * ·)).foldl max (k * a) = k * l.foldl max a := by
  induction l generalizing a with
  | nil => rfl
  | cons b l ih =>
    simp only [List.map_cons, List.foldl_cons]
    rw [← mul_max_of_nonneg _ _ hk.le]; exact ih _

theorem foldl_min_mul (k : ℝ) (hk : 0 < k) (l : List ℝ) (a : ℝ) :
    (l.map (k * ·)).foldl min (k * a) = k * l.foldl min a := by
  induction l generalizing a with
  | nil => rfl
  | cons b l ih =>
    simp only [List.map_cons, List.foldl_cons]
    rw [← mul_min_of_nonneg _ _ hk.le]; exact ih _

theorem npMax_mul (k : ℝ) (hk : 0 < k) (l : List ℝ) :
    npMax (l.map (k * ·)) = (npMax l).map (k * ·) := by
  cases l with
  | nil => rfl
  | cons a l => simp only [List.map_cons, npMax, Except.map, foldl_max_mul k hk]

theorem npMin_mul (k : ℝ) (hk : 0 < k) (l : List ℝ) :
    npMin (l.map (k * ·)) = (npMin l).map (k * ·) := by
  cases l with
  | nil => rfl
  | cons a l => simp only [List.map_cons, npMin, Except.map, foldl_min_mul k hk]

theorem subdDofs_rescale (a l : ℝ) (f : PostFun Ω Γ d) (v : ℕ) :
    (f.rescale a l).subdDofs v = (f.subdDofs v).map fun xs => xs.map (a * ·) := by
  have hfil : (f.cells.map fun c => (c.1, c.2.map (a * ·))).filter (fun c => c.1 = v) =
      (f.cells.filter fun c => c.1 = v).map fun c => (c.1, c.2.map (a * ·)) := by
    rw [List.filter_map]; rfl
  unfold PostFun.subdDofs
  simp only [PostFun.rescale]
  rw [hfil]
  cases f.cells.filter fun c => c.1 = v with
  | nil => rfl
  | cons x xs =>
    simp only [List.map_cons, Except.map, Except.ok.injEq, List.flatMap_cons, List.map_append]
    congr 1
    rw [List.flatMap_map, List.map_flatMap]

theorem pyDiv_scale (a b k m : ℝ) (hm : m ≠ 0) :
    pyDiv (k * a) (m * b) = (pyDiv a b).map (k / m * ·) := by
  unfold pyDiv
  by_cases hb : b = 0
  · simp [hb, Except.map]
  · simp only [hb, mul_eq_zero, hm, or_self, if_false, Except.map, Except.ok.injEq]
    field_simp

theorem needMesh_map (f : PostFun Ω Γ d) (a l : ℝ) (b : Bool) (k : ℝ) (x y : Except PyErr ℝ)
    (h : x = y.map (k * ·)) :
    needMesh (f.rescale a l) b x = (needMesh f b y).map (k * ·) := by
  change (if (b && !f.isFun) = true then Except.error _ else x) = _
  unfold needMesh
  by_cases hb : (b && !f.isFun) = true
  · rw [if_pos hb, if_pos hb]; rfl
  · rw [if_neg hb, if_neg hb]; exact h

theorem prop_rescale (e : PostEnv Ω Γ d) (c : Change) (f : Field) :
    (e.rescale c).prop f = (e.prop f).map fun o => o.map fun k q =>
      (if f = .name "T" then c.power / c.len else c.len ^ 2 / c.time) * k q := by
  unfold PostEnv.prop
  by_cases h1 : f = .strInt 0 ∨ f = .name "solute" ∨ f = .int 0
  · have h2 : f ≠ .name "T" := by rintro rfl; simp at h1
    simp only [h1, if_true, h2, if_false]; rfl
  · by_cases h2 : f = .name "T"
    · subst h2; rfl
    · simp only [h1, if_false, h2]; rfl

theorem flux_integral (e : PostEnv Ω Γ d) (c : Change) (g : Geom) (s : ℕ) (κ a : ℝ) (prop : Γ → ℝ)
    (f : PostFun Ω Γ d) :
    (e.rescale c).mesh.integrate (.ds s fun q => κ * prop q * g.weightS (e.rescale c).mesh q *
        dot ((f.rescale a c.len).gradS q) ((e.rescale c).n q)) =
      c.len ^ ((d : ℤ) - 1) * (κ * c.len ^ g.radius * (a / c.len)) *
        e.mesh.integrate (.ds s fun q => prop q * g.weightS e.mesh q * dot (f.gradS q) (e.n q)) := by
  refine integrate_ds e.mesh c.len _ s _ _ fun q => ?_
  have hd : dot ((f.rescale a c.len).gradS q) ((e.rescale c).n q) =
      a / c.len * dot (f.gradS q) (e.n q) := dot_smul _ _ _
  rw [hd]
  cases g with
  | cartesian => simp only [Geom.weightS, Geom.radius, zpow_zero]; ring
  | cylindrical az =>
    simp only [Geom.weightS, Geom.radius, zpow_one, PostEnv.rescale, Mesh.rescale]; ring
  | spherical az pol =>
    simp only [Geom.weightS, Geom.radius, PostEnv.rescale, Mesh.rescale]
    norm_cast
    ring

theorem soret_integral (e : PostEnv Ω Γ d) (c : Change) (g : Geom) (s : ℕ) (κ a : ℝ)
    (prop Q : Γ → ℝ) (f : PostFun Ω Γ d) :
    (e.rescale c).mesh.integrate (.ds s fun q => κ * prop q * g.weightS (e.rescale c).mesh q *
        (f.rescale a c.len).tr q * Q q / (kB * (e.rescale c).T.tr q ^ 2) *
        dot ((e.rescale c).T.gradS q) ((e.rescale c).n q)) =
      c.len ^ ((d : ℤ) - 1) * (κ * c.len ^ g.radius * (a / c.len)) *
        e.mesh.integrate (.ds s fun q => prop q * g.weightS e.mesh q * f.tr q * Q q /
          (kB * e.T.tr q ^ 2) * dot (e.T.gradS q) (e.n q)) := by
  refine integrate_ds e.mesh c.len _ s _ _ fun q => ?_
  have hd : dot ((e.rescale c).T.gradS q) ((e.rescale c).n q) =
      1 / c.len * dot (e.T.gradS q) (e.n q) := dot_smul _ _ _
  have hT : (e.rescale c).T.tr q = e.T.tr q := by simp [PostEnv.rescale, PostFun.rescale]
  have hf : (f.rescale a c.len).tr q = a * f.tr q := rfl
  rw [hd, hT, hf]
  cases g with
  | cartesian => simp only [Geom.weightS, Geom.radius, zpow_zero]; ring
  | cylindrical az =>
    simp only [Geom.weightS, Geom.radius, zpow_one, PostEnv.rescale, Mesh.rescale]; ring
  | spherical az pol =>
    simp only [Geom.weightS, Geom.radius, PostEnv.rescale, Mesh.rescale]
    norm_cast
    ring

theorem flux_factor (c : Change) (g : Geom) (f : Field) (s : ℕ) :
    c.len ^ ((d : ℤ) - 1) * ((if f = .name "T" then c.power / c.len else c.len ^ 2 / c.time) *
      c.len ^ g.radius * (c.factor (fieldUnit f) / c.len)) =
    c.factor ((Weak.Quantity.surfaceFlux g f s).trueUnit d) := by
  have hl := c.len_pos.ne'
  have ht := c.time_pos.ne'
  by_cases hf : f = .name "T"
  · simp only [hf, if_true, fieldUnit, factor_T, Weak.Quantity.trueUnit]
    simp only [Change.factor, zpow_zero, mul_one]
    rw [zpow_sub₀ hl ((d : ℤ) - 1 + g.radius) 2, zpow_add₀ hl]
    have : c.len ^ (2 : ℤ) = c.len ^ 2 := by norm_cast
    rw [this]
    field_simp
  · simp only [hf, if_false, fieldUnit, factor_H, Weak.Quantity.trueUnit]
    simp only [Change.factor, zpow_neg, zpow_one]
    rw [zpow_sub₀ hl ((d : ℤ) - 1 + g.radius) 2, zpow_add₀ hl]
    have : c.len ^ (2 : ℤ) = c.len ^ 2 := by norm_cast
    rw [this]
    field_simp

theorem evalSurfaceFlux_rescale (e : PostEnv Ω Γ d) (c : Change) (g : Geom) (f : Field) (s : ℕ)
    (φ : PostFun Ω Γ d) :
    evalSurfaceFlux (e.rescale c) g f s (φ.rescale (c.factor (fieldUnit f)) c.len) =
      (evalSurfaceFlux e g f s φ).map
        (c.factor ((Weak.Quantity.surfaceFlux g f s).trueUnit d) * ·) := by
  unfold evalSurfaceFlux
  rw [prop_rescale]
  cases e.prop f with
  | error err => rfl
  | ok o =>
    cases o with
    | none => rfl
    | some prop =>
      simp only [Except.map, Option.map_some]
      rw [flux_integral]
      have hs : (e.rescale c).soret = e.soret := rfl
      have hQ : (e.rescale c).Q = e.Q := rfl
      rw [hs, hQ]
      split
      · cases e.Q with
        | none => rfl
        | some Q =>
          simp only [Except.ok.injEq]
          rw [soret_integral, flux_factor c g f s]
          ring
      · simp only [Except.ok.injEq]
        rw [flux_factor c g f s]
        ring

theorem evalTotalVolume_rescale (e : PostEnv Ω Γ d) (c : Change) (g : Geom) (f : Field) (v : ℕ)
    (φ : PostFun Ω Γ d) :
    evalTotalVolume (e.rescale c) g v (φ.rescale (c.factor (fieldUnit f)) c.len) =
      c.factor ((Weak.Quantity.totalVolume g f v).trueUnit d) * evalTotalVolume e g v φ := by
  have hl := c.len_pos.ne'
  have hfac : c.len ^ d * (c.factor (fieldUnit f) * c.len ^ g.radius) =
      c.factor ((Weak.Quantity.totalVolume g f v).trueUnit d) := by
    have hsec : (fieldUnit f).second = 0 := by unfold fieldUnit; split <;> rfl
    simp only [Weak.Quantity.trueUnit, Change.factor, hsec, zpow_zero, mul_one]
    rw [zpow_add₀ hl, zpow_add₀ hl, zpow_natCast]
    ring
  rw [← hfac]
  cases g with
  | cartesian =>
    simp only [evalTotalVolume, Geom.radius, zpow_zero, mul_one]
    exact integrate_dxOn e.mesh c.len _ [v] _ _ fun p => rfl
  | cylindrical az =>
    simp only [evalTotalVolume, Geom.radius, zpow_one]
    rw [show (e.rescale c).mesh = e.mesh.rescale c.len from rfl,
      integrate_dxOn e.mesh c.len (c.factor (fieldUnit f) * c.len) [v] (fun p => φ.val p * e.mesh.r.val p)
      _ fun p => by simp only [PostFun.rescale, Mesh.rescale]; ring]
    ring
  | spherical az pol =>
    simp only [evalTotalVolume, Geom.radius]
    rw [show (e.rescale c).mesh = e.mesh.rescale c.len from rfl,
      integrate_dxOn e.mesh c.len (c.factor (fieldUnit f) * c.len ^ 2) [v]
      (fun p => φ.val p * e.mesh.r.val p ^ 2)
      _ fun p => by simp only [PostFun.rescale, Mesh.rescale]; ring]
    norm_cast
    ring

theorem evalTotalSurface_rescale (e : PostEnv Ω Γ d) (c : Change) (g : Geom) (f : Field) (v : ℕ)
    (φ : PostFun Ω Γ d) :
    evalTotalSurface (e.rescale c) g v (φ.rescale (c.factor (fieldUnit f)) c.len) =
      c.factor ((Weak.Quantity.totalSurface g f v).trueUnit d) * evalTotalSurface e g v φ := by
  have hl := c.len_pos.ne'
  have hfac : c.len ^ ((d : ℤ) - 1) * (c.factor (fieldUnit f) * c.len ^ g.radius) =
      c.factor ((Weak.Quantity.totalSurface g f v).trueUnit d) := by
    have hsec : (fieldUnit f).second = 0 := by unfold fieldUnit; split <;> rfl
    simp only [Weak.Quantity.trueUnit, Change.factor, hsec, zpow_zero, mul_one]
    rw [zpow_add₀ hl, zpow_add₀ hl]
    ring
  rw [← hfac]
  cases g with
  | cartesian =>
    simp only [evalTotalSurface, Geom.radius, zpow_zero, mul_one]
    exact integrate_ds e.mesh c.len _ v _ _ fun p => rfl
  | cylindrical az =>
    simp only [evalTotalSurface, Geom.radius, zpow_one]
    rw [show (e.rescale c).mesh = e.mesh.rescale c.len from rfl,
      integrate_ds e.mesh c.len (c.factor (fieldUnit f) * c.len) v (fun p => φ.tr p * e.mesh.r.tr p)
      _ fun p => by simp only [PostFun.rescale, Mesh.rescale]; ring]
    ring
  | spherical az pol =>
    simp only [evalTotalSurface, Geom.radius]
    rw [show (e.rescale c).mesh = e.mesh.rescale c.len from rfl,
      integrate_ds e.mesh c.len (c.factor (fieldUnit f) * c.len ^ 2) v
      (fun p => φ.tr p * e.mesh.r.tr p ^ 2)
      _ fun p => by simp only [PostFun.rescale, Mesh.rescale]; ring]
    norm_cast
    ring

theorem evalAverageVolume_rescale (e : PostEnv Ω Γ d) (c : Change) (x : Suffix) (v : ℕ) (a : ℝ)
    (φ : PostFun Ω Γ d) :
    evalAverageVolume (e.rescale c) x v (φ.rescale a c.len) =
      (evalAverageVolume e x v φ).map (a * ·) := by
  have hl := c.len_pos.ne'
  have hm : (e.rescale c).mesh = e.mesh.rescale c.len := rfl
  cases x with
  | cartesian =>
    simp only [evalAverageVolume, hm]
    rw [integrate_dxOn e.mesh c.len a [v] φ.val (φ.rescale a c.len).val (fun p => rfl),
      integrate_dxOn e.mesh c.len 1 [v] (fun _ => 1) _ (fun p => by ring),
      pyDiv_scale _ _ _ _ (by positivity)]
    congr 1; funext y; field_simp
  | cylindrical =>
    simp only [evalAverageVolume, hm]
    rw [integrate_dxOn e.mesh c.len (a * c.len) [v] (fun p => φ.val p * e.mesh.r.val p) _
        (fun p => by simp only [PostFun.rescale, Mesh.rescale]; ring),
      integrate_dxOn e.mesh c.len c.len [v] (fun p => 1 * e.mesh.r.val p) _
        (fun p => by simp only [Mesh.rescale]; ring),
      pyDiv_scale _ _ _ _ (by positivity)]
    congr 1; funext y; field_simp
  | spherical =>
    simp only [evalAverageVolume, hm]
    rw [integrate_dxOn e.mesh c.len (a * c.len ^ 2) [v] (fun p => φ.val p * e.mesh.r.val p ^ 2) _
        (fun p => by simp only [PostFun.rescale, Mesh.rescale]; ring),
      integrate_dxOn e.mesh c.len (c.len ^ 2) [v] (fun p => 1 * e.mesh.r.val p ^ 2) _
        (fun p => by simp only [Mesh.rescale]; ring),
      pyDiv_scale _ _ _ _ (by positivity)]
    congr 1; funext y; field_simp

theorem evalAverageSurface_rescale (e : PostEnv Ω Γ d) (c : Change) (x : Suffix) (s : ℕ) (a : ℝ)
    (φ : PostFun Ω Γ d) :
    evalAverageSurface (e.rescale c) x s (φ.rescale a c.len) =
      (evalAverageSurface e x s φ).map (a * ·) := by
  have hl := c.len_pos.ne'
  have hz : c.len ^ ((d : ℤ) - 1) ≠ 0 := zpow_ne_zero _ hl
  have hm : (e.rescale c).mesh = e.mesh.rescale c.len := rfl
  have hplain : pyDiv ((e.mesh.rescale c.len).integrate (.ds s (φ.rescale a c.len).tr))
      ((e.mesh.rescale c.len).integrate (.ds s fun _ => 1)) =
      (pyDiv (e.mesh.integrate (.ds s φ.tr)) (e.mesh.integrate (.ds s fun _ => 1))).map (a * ·) := by
    rw [integrate_ds e.mesh c.len a s φ.tr (φ.rescale a c.len).tr (fun p => rfl),
      integrate_ds e.mesh c.len 1 s (fun _ => 1) _ (fun p => by ring),
      pyDiv_scale _ _ _ _ (by simpa using hz)]
    congr 1; funext y; field_simp
  cases x with
  | cartesian => simpa only [evalAverageSurface, hm] using hplain
  | spherical => simpa only [evalAverageSurface, hm] using hplain
  | cylindrical =>
    simp only [evalAverageSurface, hm]
    rw [integrate_ds e.mesh c.len (a * c.len) s (fun p => φ.tr p * e.mesh.r.tr p) _
        (fun p => by simp only [PostFun.rescale, Mesh.rescale]; ring),
      integrate_ds e.mesh c.len c.len s (fun p => 1 * e.mesh.r.tr p) _
        (fun p => by simp only [Mesh.rescale]; ring),
      pyDiv_scale _ _ _ _ (mul_ne_zero hz hl)]
    congr 1; funext y; field_simp

theorem compute_rescale (e : PostEnv Ω Γ d) (c : Change) (q : Weak.Quantity) (φ : PostFun Ω Γ d) :
    (q.rescale c).compute (e.rescale c) (φ.rescale (c.factor (functionUnit q)) c.len) =
      (q.compute e φ).map (c.factor (q.trueUnit d) * ·) := by
  have hl := c.len_pos.ne'
  cases q with
  | surfaceFlux g f s =>
    exact needMesh_map φ _ _ _ _ _ _ (evalSurfaceFlux_rescale e c g f s φ)
  | totalVolume g f v =>
    exact needMesh_map φ _ _ _ _ _ _ (congrArg Except.ok (evalTotalVolume_rescale e c g f v φ))
  | totalSurface g f v =>
    exact needMesh_map φ _ _ _ _ _ _ (congrArg Except.ok (evalTotalSurface_rescale e c g f v φ))
  | averageVolume x f v =>
    exact needMesh_map φ _ _ _ _ _ _ (evalAverageVolume_rescale e c x v _ φ)
  | averageSurface x f v =>
    exact needMesh_map φ _ _ _ _ _ _ (evalAverageSurface_rescale e c x v _ φ)
  | maximumVolume f v =>
    simp only [Weak.Quantity.rescale, Weak.Quantity.compute]
    rw [subdDofs_rescale]
    cases φ.subdDofs v with
    | error err => rfl
    | ok l => exact npMax_mul _ (factor_pos c _) l
  | minimumVolume f v =>
    simp only [Weak.Quantity.rescale, Weak.Quantity.compute]
    rw [subdDofs_rescale]
    cases φ.subdDofs v with
    | error err => rfl
    | ok l => exact npMin_mul _ (factor_pos c _) l
  | maximumSurface f s => rfl
  | minimumSurface f s => rfl
  | pointValue f x =>
    simp only [Weak.Quantity.rescale, Weak.Quantity.compute, PostFun.rescale, Except.map,
      Except.ok.injEq, functionUnit, Weak.Quantity.field, Weak.Quantity.trueUnit, List.map_map]
    congr 2
    conv_rhs => rw [← List.map_id x]
    refine List.map_congr_left fun y _ => ?_
    simp only [Function.comp, id]
    field_simp
  | adsorbed s =>
    simp only [Weak.Quantity.rescale, Weak.Quantity.compute, Except.map, Except.ok.injEq,
      functionUnit, Weak.Quantity.field]
    rw [show (e.rescale c).mesh = e.mesh.rescale c.len from rfl,
      integrate_ds e.mesh c.len _ s φ.tr (φ.rescale _ c.len).tr (fun p => rfl)]
    congr 1
    simp only [Weak.Quantity.trueUnit, Change.factor, zpow_zero, mul_one]
    rw [zpow_add₀ hl]
    ring

/-- **C70 (a).** Every derived quantity, in every situation, follows a change of the units of length,
time, amount of hydrogen and power as a number measured in its unit does: same exceptions, and the
number multiplied by the corresponding factor. -/
theorem C70_change_of_units (e : PostEnv Ω Γ d) (c : Change) (proj : Bool) (q : Weak.Quantity) :
    (q.rescale c).value (e.rescale c) proj = (q.value e proj).map (c.factor (q.trueUnit d) * ·) := by
  unfold Weak.Quantity.value
  rw [rescale_projects, function_rescale]
  cases q.function e (q.projects proj) with
  | error err => rfl
  | ok φ => exact compute_rescale e c q φ

end

/-! ## The strings -/

/-- The hydrogen totals over a surface. -/
def IsSurfaceHydrogen : Weak.Quantity → Prop
  | .totalSurface _ f _ => f ≠ .name "T"
  | _ => False

/-- **C70 (b).** The unit in the header is the unit of the number, for every quantity but the hydrogen
totals over a surface, in every dimension where the quantity makes sense. -/
theorem C70_header_unit (q : Weak.Quantity) (d : ℕ) (hd : q.Fits d) (hq : ¬ IsSurfaceHydrogen q) :
    q.exportUnit d = (q.trueUnit d).write := by
  cases q with
  | surfaceFlux g f s =>
    by_cases hf : f = .name "T"
    · cases g with
      | cartesian =>
        rcases hd with rfl | rfl | rfl <;> simp only [hf, Weak.Quantity.exportUnit,
          Weak.Quantity.trueUnit, Geom.radius, if_true] <;> decide
      | cylindrical az =>
        rcases hd with rfl | rfl <;> simp only [hf, Weak.Quantity.exportUnit,
          Weak.Quantity.trueUnit, Geom.radius, if_true] <;> decide
      | spherical az pol =>
        cases hd; simp only [hf, Weak.Quantity.exportUnit,
          Weak.Quantity.trueUnit, Geom.radius, if_true]; decide
    · cases g with
      | cartesian =>
        rcases hd with rfl | rfl | rfl <;> simp only [hf, Weak.Quantity.exportUnit,
          Weak.Quantity.trueUnit, Geom.radius, if_false] <;> decide
      | cylindrical az =>
        rcases hd with rfl | rfl <;> simp only [hf, Weak.Quantity.exportUnit,
          Weak.Quantity.trueUnit, Geom.radius, if_false] <;> decide
      | spherical az pol =>
        cases hd; simp only [hf, Weak.Quantity.exportUnit,
          Weak.Quantity.trueUnit, Geom.radius, if_false]; decide
  | totalVolume g f s =>
    by_cases hf : f = .name "T"
    · cases g with
      | cartesian =>
        rcases hd with rfl | rfl | rfl <;> simp only [hf, Weak.Quantity.exportUnit, fieldUnit,
          Weak.Quantity.trueUnit, Geom.radius, if_true] <;> decide
      | cylindrical az =>
        rcases hd with rfl | rfl <;> simp only [hf, Weak.Quantity.exportUnit, fieldUnit,
          Weak.Quantity.trueUnit, Geom.radius, if_true] <;> decide
      | spherical az pol =>
        cases hd; simp only [hf, Weak.Quantity.exportUnit, fieldUnit,
          Weak.Quantity.trueUnit, Geom.radius, if_true]; decide
    · cases g with
      | cartesian =>
        rcases hd with rfl | rfl | rfl <;> simp only [hf, Weak.Quantity.exportUnit, fieldUnit,
          Weak.Quantity.trueUnit, Geom.radius, if_false] <;> decide
      | cylindrical az =>
        rcases hd with rfl | rfl <;> simp only [hf, Weak.Quantity.exportUnit, fieldUnit,
          Weak.Quantity.trueUnit, Geom.radius, if_false] <;> decide
      | spherical az pol =>
        cases hd; simp only [hf, Weak.Quantity.exportUnit, fieldUnit,
          Weak.Quantity.trueUnit, Geom.radius, if_false]; decide
  | totalSurface g f s =>
    have hf : f = .name "T" := not_not.1 hq
    cases g with
      | cartesian =>
        rcases hd with rfl | rfl | rfl <;> simp only [hf, Weak.Quantity.exportUnit, fieldUnit,
          Weak.Quantity.trueUnit, Geom.radius, if_true] <;> decide
      | cylindrical az =>
        rcases hd with rfl | rfl <;> simp only [hf, Weak.Quantity.exportUnit, fieldUnit,
          Weak.Quantity.trueUnit, Geom.radius, if_true] <;> decide
      | spherical az pol =>
        cases hd; simp only [hf, Weak.Quantity.exportUnit, fieldUnit,
          Weak.Quantity.trueUnit, Geom.radius, if_true]; decide
  | adsorbed s =>
    cases hd
    simp only [Weak.Quantity.exportUnit, Weak.Quantity.trueUnit]
    decide
  | _ =>
    simp only [Weak.Quantity.exportUnit, Weak.Quantity.trueUnit, fieldUnit]
    split <;> decide

/-- **C70 (c).** The header of a hydrogen total over a surface has one power of the metre too many, in
every dimension and in all three coordinate systems. -/
theorem C70_surface_hydrogen_wrong (g : Geom) (f : Field) (s : ℕ) (d : ℕ) (hd : g.Fits d)
    (hf : f ≠ .name "T") :
    let q := Weak.Quantity.totalSurface g f s
    let u := q.trueUnit d
    q.exportUnit d = (⟨u.base, u.metre + 1, u.second⟩ : PhysUnit).write ∧
    q.exportUnit d ≠ u.write := by
  cases g with
  | cartesian =>
    rcases hd with rfl | rfl | rfl <;> simp only [hf, Weak.Quantity.exportUnit, fieldUnit,
      Weak.Quantity.trueUnit, Geom.radius, if_false] <;> decide
  | cylindrical az =>
    rcases hd with rfl | rfl <;> simp only [hf, Weak.Quantity.exportUnit, fieldUnit,
      Weak.Quantity.trueUnit, Geom.radius, if_false] <;> decide
  | spherical az pol =>
    cases hd
    simp only [hf, Weak.Quantity.exportUnit, fieldUnit,
      Weak.Quantity.trueUnit, Geom.radius, if_false]; decide

example : ((Weak.Quantity.totalVolume .cartesian (.name "retention") 1).exportUnit 1) =
    "H m-2".toList ∧
    ((Weak.Quantity.totalSurface .cartesian (.name "retention") 1).exportUnit 1) = "H m-2".toList ∧
    ((Weak.Quantity.totalSurface .cartesian (.name "retention") 1).trueUnit 1).write =
      "H m-3".toList ∧
    ((Weak.Quantity.surfaceFlux (.cylindrical (0, 1)) (.name "solute") 1).exportUnit 2) =
      "H s-1".toList := by decide

end Festim.Props
