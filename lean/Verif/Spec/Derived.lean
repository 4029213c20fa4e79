import Verif.Model.Derived
import Verif.Spec.Forms
import Mathlib.Analysis.SpecialFunctions.Integrals.Basic
import Mathlib.Analysis.Convex.Hull

/-!
# Vocabulary of the statements about the derived quantities

The measures are written out: `dx`, `r dr dz`, `r² dr` times the integral over the angles; the angles are
integrated with Mathlib's integral.
-/

open scoped BigOperators

namespace Festim.Weak

section
variable {Ω Γ : Type} {d : ℕ}

/-- Jacobian of the coordinates in the volume, without the angles. -/
def jac (m : Mesh Ω Γ d) : Suffix → Ω → ℝ
  | .cartesian, _ => 1
  | .cylindrical, p => m.r.val p
  | .spherical, p => m.r.val p ^ 2

/-- On the boundary. -/
def jacS (m : Mesh Ω Γ d) : Suffix → Γ → ℝ
  | .cartesian, _ => 1
  | .cylindrical, q => m.r.tr q
  | .spherical, q => m.r.tr q ^ 2

/-- Coordinates of a class. -/
def Geom.suffix : Geom → Suffix
  | .cartesian => .cartesian
  | .cylindrical _ => .cylindrical
  | .spherical _ _ => .spherical

/-- Integral over the angles, `turn` being the range of the angle about the axis and `tilt` the range of
the angle from the axis: `∫∫ sin θ dθ dφ`. -/
noncomputable def solidAngle (turn tilt : ℝ × ℝ) : ℝ :=
  (∫ _ in turn.1..turn.2, (1 : ℝ)) * ∫ θ in tilt.1..tilt.2, Real.sin θ

/-- Integral over the angles in cylindrical coordinates. -/
noncomputable def turnAngle (turn : ℝ × ℝ) : ℝ := ∫ _ in turn.1..turn.2, (1 : ℝ)

/-- Angles covered by a total. -/
noncomputable def totalAngle : Geom → ℝ
  | .cartesian => 1
  | .cylindrical az => turnAngle az
  | .spherical az pol => solidAngle az pol

/-- Angles covered by a flux: what `SurfaceFluxSpherical` calls the azimuth is the angle from the axis. -/
noncomputable def fluxAngle : Geom → ℝ
  | .cartesian => 1
  | .cylindrical az => turnAngle az
  | .spherical az pol => solidAngle pol az

/-- The range `v` is a part of `[lo, hi]`. -/
def SubRange (lo hi : ℝ) (v : ℝ × ℝ) : Prop := lo ≤ v.1 ∧ v.2 ≤ hi

/-- A piecewise affine function: at every point of a cell it is a convex combination of the values at
the degrees of freedom of the cell. -/
structure Affine (m : Mesh Ω Γ d) (f : PostFun Ω Γ d) : Prop where
  vol : ∀ p, ∃ c ∈ f.cells, c.1 = m.vm p ∧ f.val p ∈ convexHull ℝ {x | x ∈ c.2}
  surf : ∀ q, ∃ c ∈ f.cells, c.1 = m.vmS q ∧ f.tr q ∈ convexHull ℝ {x | x ∈ c.2}

/-- The families of quantities which are linear in their field. -/
inductive LinearKind where
  | totalVolume (g : Geom) (v : ℕ)
  | totalSurface (g : Geom) (s : ℕ)
  | averageVolume (x : Suffix) (v : ℕ)
  | averageSurface (x : Suffix) (s : ℕ)
  | pointValue (x : List ℝ)

/-- The quantity of the family for a field. -/
def LinearKind.of : LinearKind → Field → Quantity
  | .totalVolume g v, f => .totalVolume g f v
  | .totalSurface g s, f => .totalSurface g f s
  | .averageVolume x v, f => .averageVolume x f v
  | .averageSurface x s, f => .averageSurface x f s
  | .pointValue x, f => .pointValue f x

/-- The class needs the radius. -/
def LinearKind.usesRadius : LinearKind → Bool
  | .totalVolume .cartesian _ => false
  | .totalVolume _ _ => true
  | .totalSurface .cartesian _ => false
  | .totalSurface _ _ => true
  | .averageVolume x _ => x ≠ .cartesian
  | .averageSurface x _ => x = .cylindrical
  | .pointValue _ => false

end

section
variable {Ω Γ : Type} [Fintype Ω] [Fintype Γ] {d : ℕ}

/-- The measure of what an average is taken over is not zero. -/
def LinearKind.Measurable (m : Mesh Ω Γ d) : LinearKind → Prop
  | .averageVolume x v => volumeOf m v (jac m x) ≠ 0
  | .averageSurface .cylindrical s => surface m s (jacS m .cylindrical) ≠ 0
  | .averageSurface _ s => surface m s (fun _ => 1) ≠ 0
  | _ => True

/-- What the quantity means for a field. -/
noncomputable def LinearKind.meaning (m : Mesh Ω Γ d) (f : PostFun Ω Γ d) : LinearKind → ℝ
  | .totalVolume g v => totalAngle g * volumeOf m v fun p => f.val p * jac m g.suffix p
  | .totalSurface g s => totalAngle g * surface m s fun q => f.tr q * jacS m g.suffix q
  | .averageVolume x v => (volumeOf m v fun p => f.val p * jac m x p) / volumeOf m v (jac m x)
  | .averageSurface .cylindrical s =>
    (surface m s fun q => f.tr q * jacS m .cylindrical q) / surface m s (jacS m .cylindrical)
  | .averageSurface _ s => surface m s f.tr / surface m s fun _ => 1
  | .pointValue x => f.pt x

end

end Festim.Weak
