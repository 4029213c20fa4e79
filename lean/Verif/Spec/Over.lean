import Verif.Spec.Invariance
import Mathlib.LinearAlgebra.Pi

/-!
# A domain made of copies of another one

Vocabulary of C107.  A mesh lies over another one when each of its points is above a point of the other: a symmetric domain over
one of its halves, a prism over its base, a turned domain over the original one.
-/

open scoped BigOperators

namespace Festim.Weak

variable {Ω Γ Ω' Γ' : Type} {d d' : ℕ}

/-- `m'` lies over `m`: the point of `m` below each point of `m'`, with its markers, and the directions at the upper point which
correspond to those at the lower one (with the same lengths and angles; there may be more directions above).  The points of the boundary are those of the surfaces
where a flux is given: the others do not appear in the equations. -/
structure Over (m : Mesh Ω Γ d) (m' : Mesh Ω' Γ' d') where
  pt : Ω' → Ω
  ptS : Γ' → Γ
  dir : Ω' → (Fin d → ℝ) →ₗ[ℝ] (Fin d' → ℝ)
  dir_dot : ∀ p a b, dot (dir p a) (dir p b) = dot a b
  vm : ∀ p, m'.vm p = m.vm (pt p)
  sm : ∀ q, m'.sm q = m.sm (ptS q)
  vmS : ∀ q, m'.vmS q = m.vmS (ptS q)
  type : m'.type = m.type
  r_val : m.type ≠ .cartesian → ∀ p, m'.r.val p = m.r.val (pt p)
  r_grad : m.type ≠ .cartesian → ∀ p, m'.r.grad p = dir p (m.r.grad (pt p))

namespace Over

variable {m : Mesh Ω Γ d} {m' : Mesh Ω' Γ' d'} (O : Over m m')

/-- The field which has above the values it has below. -/
def fld (u : Fld Ω Γ d) : Fld Ω' Γ' d' :=
  ⟨fun p => u.val (O.pt p), fun p => O.dir p (u.grad (O.pt p)), fun q => u.tr (O.ptS q)⟩

def mobile (mv : Mobile Ω Γ d) : Mobile Ω' Γ' d' :=
  { theta := mv.theta, sol := O.fld mv.sol, prev := O.fld mv.prev, S := O.fld mv.S }

def temp (T : Temp Ω Γ d) : Temp Ω' Γ' d' := ⟨O.fld T.T, O.fld T.Tn⟩

def src (s : Src Ω) : Src Ω' :=
  { value := match s.value with
      | .given f => .given fun p => f (O.pt p)
      | .decay lam => .decay lam
    volumes := s.volumes }

def trap (t : Trap Ω Γ d) : Trap Ω' Γ' d' :=
  { k_0 := t.k_0, E_k := t.E_k, p_0 := t.p_0, E_p := t.E_p, density := t.density.map fun n p => n (O.pt p),
    materials := t.materials, sol := O.fld t.sol, prev := O.fld t.prev, sources := t.sources.map O.src }

def flux : Flux Γ → Flux Γ'
  | .value f => .value fun q => f (O.ptS q)
  | .recomb k e o => .recomb (fun q => k (O.ptS q)) (fun q => e (O.ptS q)) o
  | .dissoc k e p => .dissoc (fun q => k (O.ptS q)) (fun q => e (O.ptS q)) fun q => p (O.ptS q)
  | .mass h c => .mass (fun q => h (O.ptS q)) fun q => c (O.ptS q)
  | .convective h t => .convective (fun q => h (O.ptS q)) fun q => t (O.ptS q)
  | .custom f => .custom fun q => f (O.ptS q)

def sk (b : SK Γ) : SK Γ' :=
  { k_sb := fun q => b.k_sb (O.ptS q), k_bs := fun q => b.k_bs (O.ptS q), J_vs := fun q => b.J_vs (O.ptS q),
    lambda_IS := b.lambda_IS, n_surf := b.n_surf, n_IS := b.n_IS, surfaces := b.surfaces }

def bc : MobBC Γ → MobBC Γ'
  | .flux f ss => .flux (O.flux f) ss
  | .sk b vs => .sk (O.sk b) vs

/-- The same problem on the upper mesh. -/
def problem (P : Problem Ω Γ d) : Problem Ω' Γ' d' :=
  { mesh := m', mats := P.mats, mv := O.mobile P.mv, T := O.temp P.T, dt := P.dt, soret := P.soret,
    sources := P.sources.map O.src, traps := P.traps.map O.trap }

end Over

section
variable [Fintype Ω'] [Fintype Γ'] [DecidableEq Ω] [DecidableEq Γ] {m : Mesh Ω Γ d} {m' : Mesh Ω' Γ' d'} (O : Over m m')

/-- `v` is, at each point, the sum of the values of `v'` above that point (weighted as the points are), and so are the
derivatives of `v` in each direction; on the boundary this is required on the surfaces `ss` only. -/
structure Over.Gathers (ss : List ℕ) (v' : Fld Ω' Γ' d') (v : Fld Ω Γ d) : Prop where
  val : ∀ p, m.w p * v.val p = ∑ p', if O.pt p' = p then m'.w p' * v'.val p' else 0
  grad : ∀ p a, m.w p * dot a (v.grad p) = ∑ p', if O.pt p' = p then m'.w p' * dot (O.dir p' a) (v'.grad p') else 0
  tr : ∀ q, m.sm q ∈ ss → m.ws q * v.tr q = ∑ q', if O.ptS q' = q then m'.ws q' * v'.tr q' else 0

/-- `k s` copies of surface `s`. -/
def Over.Copies (k : ℕ → ℝ) (s : ℕ) : Prop :=
  ∀ q, m.sm q = s → (∑ q', if O.ptS q' = q then m'.ws q' else 0) = k s * m.ws q

end

/-- The surfaces of a flux condition. -/
def MobBC.ids : MobBC Γ → List ℕ
  | .flux _ ss => ss
  | .sk b _ => b.surfaces.map (·.id)

/-- The test functions of the adsorbed concentrations multiplied by `k` on each surface. -/
def MobBC.times (k : ℕ → ℝ) : MobBC Γ → MobBC Γ
  | .flux f ss => .flux f ss
  | .sk b vs => .sk b (List.zipWith (fun s x => k s.id * x) b.surfaces vs)

/-- The flux conditions with test functions for the adsorbed concentrations: `f s` on surface `s`. -/
def MobBC.test (f : ℕ → ℝ) : MobBC Γ → MobBC Γ
  | .flux g ss => .flux g ss
  | .sk b _ => .sk b (b.surfaces.map fun s => f s.id)

/-- The equations can be written and hold for all the test functions: those of the mobile concentration satisfy `W`, those of the
traps `Wt`. -/
def EquationsHold [Fintype Ω] [Fintype Γ] (W Wt : Fld Ω Γ d → Prop) (P : Problem Ω Γ d) (bcs : List (MobBC Γ)) : Prop :=
  ∀ v, W v → ∀ vt, vt.length = P.traps.length → (∀ w ∈ vt, Wt w) → ∀ f, Residual P (bcs.map (MobBC.test f)) v vt 0

/-! ### A domain and its image in a mirror -/

/-- The domain `m` with its image: `ref` is the action of the mirror on directions, `plane` tells the points of the boundary of
`m` on the mirror, which are inside the whole domain; `r` is the first coordinate on the whole domain. -/
def Mesh.mirror (m : Mesh Ω Γ d) (plane : Γ → Prop)
    (r : Fld (Ω ⊕ Ω) ({q // ¬plane q} ⊕ {q // ¬plane q}) d) : Mesh (Ω ⊕ Ω) ({q // ¬plane q} ⊕ {q // ¬plane q}) d where
  w := Sum.elim m.w m.w
  vm := Sum.elim m.vm m.vm
  ws := Sum.elim (fun q => m.ws q.1) fun q => m.ws q.1
  sm := Sum.elim (fun q => m.sm q.1) fun q => m.sm q.1
  vmS := Sum.elim (fun q => m.vmS q.1) fun q => m.vmS q.1
  r := r
  type := m.type

/-- The field equal to `u` on the domain and to the image of `v` on its image. -/
def Fld.join (ref : (Fin d → ℝ) →ₗ[ℝ] (Fin d → ℝ)) (plane : Γ → Prop) (u v : Fld Ω Γ d) :
    Fld (Ω ⊕ Ω) ({q // ¬plane q} ⊕ {q // ¬plane q}) d where
  val := Sum.elim u.val v.val
  grad := Sum.elim u.grad fun p => ref (v.grad p)
  tr := Sum.elim (fun q => u.tr q.1) fun q => v.tr q.1

/-- The whole domain over its half. -/
def mirrorOver (m : Mesh Ω Γ d) (plane : Γ → Prop) (r : Fld (Ω ⊕ Ω) ({q // ¬plane q} ⊕ {q // ¬plane q}) d)
    (ref : (Fin d → ℝ) →ₗ[ℝ] (Fin d → ℝ)) (href : ∀ a b, dot (ref a) (ref b) = dot a b)
    (hr : m.type ≠ .cartesian → r = Fld.join ref plane m.r m.r) : Over m (m.mirror plane r) where
  pt := Sum.elim id id
  ptS := Sum.elim (·.1) (·.1)
  dir := Sum.elim (fun _ => LinearMap.id) fun _ => ref
  dir_dot := by rintro (p | p) a b; exacts [rfl, href a b]
  vm := by rintro (p | p) <;> rfl
  sm := by rintro (p | p) <;> rfl
  vmS := by rintro (p | p) <;> rfl
  type := rfl
  r_val := by intro h p; rw [show (m.mirror plane r).r = r from rfl, hr h]; cases p <;> rfl
  r_grad := by intro h p; rw [show (m.mirror plane r).r = r from rfl, hr h]; cases p <;> rfl

/-! ### A prism -/

/-- The directions of the base of a prism among those of the prism, which has `e` more. -/
def baseDir (d e : ℕ) : (Fin d → ℝ) →ₗ[ℝ] (Fin (d + e) → ℝ) where
  toFun a := Fin.append a 0
  map_add' a b := by
    funext i
    refine Fin.addCases (fun i => ?_) (fun i => ?_) i <;> simp
  map_smul' k a := by
    funext i
    refine Fin.addCases (fun i => ?_) (fun i => ?_) i <;> simp

/-- The prism with base `m`: the points of `Y`, with weights `wy`, are the heights.  No flux is given on the two bases. -/
def Mesh.prism {Y : Type} (m : Mesh Ω Γ d) (e : ℕ) (wy : Y → ℝ) (r : Fld (Ω × Y) (Γ × Y) (d + e)) :
    Mesh (Ω × Y) (Γ × Y) (d + e) where
  w p := m.w p.1 * wy p.2
  vm p := m.vm p.1
  ws q := m.ws q.1 * wy q.2
  sm q := m.sm q.1
  vmS q := m.vmS q.1
  r := r
  type := m.type

theorem baseDir_dot (d e : ℕ) (a b : Fin d → ℝ) : dot (baseDir d e a) (baseDir d e b) = dot a b := by
  unfold dot
  rw [Fin.sum_univ_add]
  simp [baseDir]

def prismOver {Y : Type} (m : Mesh Ω Γ d) (e : ℕ) (wy : Y → ℝ) (r : Fld (Ω × Y) (Γ × Y) (d + e))
    (hr : m.type ≠ .cartesian → (∀ p, r.val p = m.r.val p.1) ∧ ∀ p, r.grad p = baseDir d e (m.r.grad p.1)) :
    Over m (m.prism e wy r) where
  pt p := p.1
  ptS q := q.1
  dir _ := baseDir d e
  dir_dot _ := baseDir_dot d e
  vm _ := rfl
  sm _ := rfl
  vmS _ := rfl
  type := rfl
  r_val h := (hr h).1
  r_grad h := (hr h).2

/-- The average over the heights. -/
def Fld.overHeights {Y : Type} [Fintype Y] (e : ℕ) (wy : Y → ℝ) (v : Fld (Ω × Y) (Γ × Y) (d + e)) : Fld Ω Γ d where
  val p := ∑ y, wy y * v.val (p, y)
  grad p i := ∑ y, wy y * v.grad (p, y) (Fin.castAdd e i)
  tr q := ∑ y, wy y * v.tr (q, y)

end Festim.Weak
