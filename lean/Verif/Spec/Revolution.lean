import Verif.Spec.Over
import Verif.Spec.Forms
import Verif.Model.Derived
import Mathlib.Analysis.SpecialFunctions.Trigonometric.Basic

/-!
# Bodies of revolution

Vocabulary of C109: the three-dimensional domain of which a cylindrical mesh is the half section, or a spherical mesh a radius.
-/

open scoped BigOperators

namespace Festim.Weak

variable {Ω Γ Y : Type} {d d' : ℕ}

/-- The points of `m` with the measure `r dr` (`r² dr`). -/
def Mesh.radial (m : Mesh Ω Γ d) : Mesh Ω Γ d :=
  { m with w := fun p => m.w p * (weight m).val p, ws := fun q => m.ws q * (weight m).tr q, type := .cartesian }

/-- The body: `Y` are the positions around the axis or the centre, `wy` their angles or solid angles.  Its coordinates are cartesian
(`x` is the first one). -/
def Mesh.body (m : Mesh Ω Γ d) (wy : Y → ℝ) (x : Fld (Ω × Y) (Γ × Y) d') : Mesh (Ω × Y) (Γ × Y) d' where
  w p := m.radial.w p.1 * wy p.2
  vm p := m.vm p.1
  ws q := m.radial.ws q.1 * wy q.2
  sm q := m.sm q.1
  vmS q := m.vmS q.1
  r := x
  type := .cartesian

/-- The body over the section: `turn y` gives the directions at the position `y`. -/
def bodyOver (m : Mesh Ω Γ d) (wy : Y → ℝ) (x : Fld (Ω × Y) (Γ × Y) d') (turn : Y → (Fin d → ℝ) →ₗ[ℝ] (Fin d' → ℝ))
    (hturn : ∀ y a b, dot (turn y a) (turn y b) = dot a b) : Over m.radial (m.body wy x) where
  pt p := p.1
  ptS q := q.1
  dir p := turn p.2
  dir_dot p := hturn p.2
  vm _ := rfl
  sm _ := rfl
  vmS _ := rfl
  type := rfl
  r_val h := absurd rfl h
  r_grad h := absurd rfl h

/-- Sum over the positions. -/
def Fld.around [Fintype Y] (wy : Y → ℝ) (turn : Y → (Fin d → ℝ) →ₗ[ℝ] (Fin d' → ℝ)) (V : Fld (Ω × Y) (Γ × Y) d') : Fld Ω Γ d where
  val p := ∑ y, wy y * V.val (p, y)
  grad p i := ∑ y, wy y * dot (turn y (Pi.single i 1)) (V.grad (p, y))
  tr q := ∑ y, wy y * V.tr (q, y)

/-! ### Circles and spheres -/

/-- The radial direction at the angle `θ`, in the plane. -/
noncomputable def onCircle (θ : ℝ) : (Fin 1 → ℝ) →ₗ[ℝ] (Fin 2 → ℝ) where
  toFun a := ![a 0 * Real.cos θ, a 0 * Real.sin θ]
  map_add' a b := by funext i; fin_cases i <;> simp <;> ring
  map_smul' k a := by funext i; fin_cases i <;> simp <;> ring

/-- The radial and axial directions at the angle `θ`, in space. -/
noncomputable def onCylinder (θ : ℝ) : (Fin 2 → ℝ) →ₗ[ℝ] (Fin 3 → ℝ) where
  toFun a := ![a 0 * Real.cos θ, a 0 * Real.sin θ, a 1]
  map_add' a b := by funext i; fin_cases i <;> simp <;> ring
  map_smul' k a := by funext i; fin_cases i <;> simp <;> ring

/-- The radial direction at the point of azimuth `θ` and colatitude `φ` of a sphere. -/
noncomputable def onSphere (θ φ : ℝ) : (Fin 1 → ℝ) →ₗ[ℝ] (Fin 3 → ℝ) where
  toFun a := ![a 0 * (Real.sin φ * Real.cos θ), a 0 * (Real.sin φ * Real.sin θ), a 0 * Real.cos φ]
  map_add' a b := by funext i; fin_cases i <;> simp <;> ring
  map_smul' k a := by funext i; fin_cases i <;> simp <;> ring

/-! ### Derived quantities -/

/-- `f'` is `f` turned around. -/
structure PostFun.Turned (turn : Y → (Fin d → ℝ) →ₗ[ℝ] (Fin d' → ℝ)) (f : PostFun Ω Γ d) (f' : PostFun (Ω × Y) (Γ × Y) d') : Prop where
  val : ∀ p, f'.val p = f.val p.1
  tr : ∀ q, f'.tr q = f.tr q.1
  grad : ∀ q, f'.gradS q = turn q.2 (f.gradS q.1)

/-- The derived quantities of `e'` are computed on the body swept by the mesh of `e`. -/
structure PostEnv.Turned (wy : Y → ℝ) (turn : Y → (Fin d → ℝ) →ₗ[ℝ] (Fin d' → ℝ)) (e : PostEnv Ω Γ d)
    (e' : PostEnv (Ω × Y) (Γ × Y) d') : Prop where
  mesh : e'.mesh = e.mesh.body wy e'.mesh.r
  n : ∀ q, e'.n q = turn q.2 (e.n q.1)
  D : ∀ q, e'.D q = e.D q.1
  cond : e'.cond = e.cond.map fun f q => f q.1
  Q : e'.Q = e.Q.map fun f q => f q.1
  T : e.T.Turned turn e'.T
  soret : e'.soret = e.soret

/-- The classes `...Cylindrical` go with cylindrical meshes, the classes `...Spherical` with spherical ones. -/
def Geom.Matches : Geom → Coord → Prop
  | .cylindrical _, .cylindrical => True
  | .spherical _ _, .spherical => True
  | _, _ => False

end Festim.Weak
