import Verif.Spec.Derived
import Verif.Proofs.Forms
import Verif.Props.Fields

/-! # Derived quantities (helper lemmas) -/

set_option linter.unusedSectionVars false

open scoped BigOperators

namespace Festim.Weak

theorem totalFactor_eq (g : Geom) : g.totalFactor = totalAngle g := by
  cases g <;> simp [Geom.totalFactor, totalAngle, turnAngle, solidAngle]

theorem fluxFactor_eq (g : Geom) : g.fluxFactor = fluxAngle g := by
  cases g
  · simp [Geom.fluxFactor, fluxAngle]
  · simp [Geom.fluxFactor, fluxAngle, turnAngle]
  · simp [Geom.fluxFactor, fluxAngle, solidAngle]; left; ring

section
variable {Ω Γ : Type} [Fintype Ω] [Fintype Γ] {d : ℕ}

theorem linear_projects (k : LinearKind) (f : Field) (proj : Bool) :
    (k.of f).projects proj = proj := by
  cases k <;> simp [LinearKind.of, Quantity.projects, Quantity.isExtremum]

theorem linear_function (e : PostEnv Ω Γ d) (k : LinearKind) (f : Field) (proj : Bool) :
    (k.of f).function e proj = e.label proj f := by
  cases k <;> rfl

theorem evalTotalVolume_eq (e : PostEnv Ω Γ d) (g : Geom) (v : ℕ) (f : PostFun Ω Γ d) :
    evalTotalVolume e g v f = (LinearKind.totalVolume g v).meaning e.mesh f := by
  cases g <;> simp only [evalTotalVolume, integrate_dxOn1, totalFactor_eq, LinearKind.meaning,
    Geom.suffix, jac, mul_one, totalAngle, one_mul] <;> rw [mul_comm]

theorem evalTotalSurface_eq (e : PostEnv Ω Γ d) (g : Geom) (v : ℕ) (f : PostFun Ω Γ d) :
    evalTotalSurface e g v f = (LinearKind.totalSurface g v).meaning e.mesh f := by
  cases g <;> simp only [evalTotalSurface, integrate_ds, totalFactor_eq, LinearKind.meaning,
    Geom.suffix, jacS, mul_one, totalAngle, one_mul] <;> rw [mul_comm]

theorem pyDiv_ok (a b : ℝ) (h : b ≠ 0) : pyDiv a b = .ok (a / b) := by simp [pyDiv, h]

theorem evalAverageVolume_eq (e : PostEnv Ω Γ d) (x : Suffix) (v : ℕ) (f : PostFun Ω Γ d)
    (h : (LinearKind.averageVolume x v).Measurable e.mesh) :
    evalAverageVolume e x v f = .ok ((LinearKind.averageVolume x v).meaning e.mesh f) := by
  cases x <;> simp only [evalAverageVolume, integrate_dxOn1, one_mul] <;>
    refine (pyDiv_ok _ _ h).trans ?_ <;> simp only [LinearKind.meaning, jac, mul_one] <;> rfl

theorem evalAverageSurface_eq (e : PostEnv Ω Γ d) (x : Suffix) (v : ℕ) (f : PostFun Ω Γ d)
    (h : (LinearKind.averageSurface x v).Measurable e.mesh) :
    evalAverageSurface e x v f = .ok ((LinearKind.averageSurface x v).meaning e.mesh f) := by
  cases x <;> simp only [evalAverageSurface, integrate_ds, one_mul] <;>
    refine (pyDiv_ok _ _ h).trans ?_ <;> rfl

/-- A linear quantity has its meaning. -/
theorem linear_value (e : PostEnv Ω Γ d) (proj : Bool) (k : LinearKind) (f : Field)
    (φ : PostFun Ω Γ d) (hl : e.label proj f = .ok φ) (hr : k.usesRadius = true → φ.isFun = true)
    (hm : k.Measurable e.mesh) : (k.of f).value e proj = .ok (k.meaning e.mesh φ) := by
  unfold Quantity.value
  rw [linear_projects, linear_function, hl]
  simp only
  have hneed : ∀ (b : Bool) (x : Except PyErr ℝ), (b = true → k.usesRadius = true) →
      needMesh φ b x = x := by
    intro b x hb
    unfold needMesh
    cases b with
    | false => rfl
    | true => simp [hr (hb rfl)]
  cases k with
  | totalVolume g v =>
    simp only [LinearKind.of, Quantity.compute]
    rw [hneed _ _ (by cases g <;> simp [Geom.curved, LinearKind.usesRadius]), evalTotalVolume_eq]
  | totalSurface g v =>
    simp only [LinearKind.of, Quantity.compute]
    rw [hneed _ _ (by cases g <;> simp [Geom.curved, LinearKind.usesRadius]), evalTotalSurface_eq]
  | averageVolume x v =>
    simp only [LinearKind.of, Quantity.compute]
    rw [hneed _ _ (by simp [LinearKind.usesRadius]), evalAverageVolume_eq _ _ _ _ hm]
  | averageSurface x v =>
    simp only [LinearKind.of, Quantity.compute]
    rw [hneed _ _ (by simp [LinearKind.usesRadius]), evalAverageSurface_eq _ _ _ _ hm]
  | pointValue x => rfl

theorem meaning_add (m : Mesh Ω Γ d) (k : LinearKind) (f g : PostFun Ω Γ d) :
    k.meaning m (f.add g) = k.meaning m f + k.meaning m g := by
  cases k with
  | totalVolume g v =>
    simp only [LinearKind.meaning, PostFun.add, add_mul, volumeOf_add]; ring
  | totalSurface g v =>
    simp only [LinearKind.meaning, PostFun.add, add_mul, surface_add]; ring
  | averageVolume x v =>
    simp only [LinearKind.meaning, PostFun.add, add_mul, volumeOf_add, add_div]
  | averageSurface x v =>
    cases x <;> simp only [LinearKind.meaning, PostFun.add, add_mul, surface_add, add_div]
  | pointValue x => rfl

theorem meaning_foldl (m : Mesh Ω Γ d) (k : LinearKind) (l : List (PostFun Ω Γ d))
    (f : PostFun Ω Γ d) :
    k.meaning m (l.foldl PostFun.add f) = k.meaning m f + (l.map (k.meaning m)).sum := by
  induction l generalizing f with
  | nil => simp
  | cons a l ih => rw [List.foldl_cons, ih, meaning_add]; simp; ring

theorem meaning_project (m : Mesh Ω Γ d) (k : LinearKind) (f : PostFun Ω Γ d) :
    k.meaning m f.project = k.meaning m f := by
  cases k <;> first | rfl | (rename_i x _; cases x <;> rfl)

theorem label_solute (e : PostEnv Ω Γ d) (proj : Bool) :
    e.label proj (.name "solute") = .ok e.solute := by
  unfold PostEnv.label
  rw [labelToFunction_get]
  rfl

theorem label_T (e : PostEnv Ω Γ d) (proj : Bool) : e.label proj (.name "T") = .ok e.T := by
  unfold PostEnv.label
  rw [labelToFunction_get]
  rfl

theorem label_retention (e : PostEnv Ω Γ d) (proj : Bool) :
    e.label proj (.name "retention")
      = .ok (if proj then e.retention.project else e.retention) := by
  unfold PostEnv.label
  rw [labelToFunction_get]
  rfl

theorem foldl_isFun (l : List (PostFun Ω Γ d)) (f : PostFun Ω Γ d) :
    (l.foldl PostFun.add f).isFun = (if l = [] then f.isFun else false) := by
  induction l generalizing f with
  | nil => rfl
  | cons a l ih => rw [List.foldl_cons, ih]; cases l <;> simp [PostFun.add]

end

end Festim.Weak
