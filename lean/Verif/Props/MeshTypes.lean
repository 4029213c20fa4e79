import Verif.Model.MeshTypes
import Verif.Props.Derived

/-!
# C97: warnings about mesh types
-/

set_option linter.unusedSectionVars false

open scoped BigOperators

namespace Festim.Spec
open Festim.Weak

section
variable {Ω Γ : Type} [Fintype Ω] [Fintype Γ] {d : ℕ}

/-- Volume element of the body per element of the mesh: the mesh is the body itself, or a half-plane through
the axis, or a ray from the centre. -/
def bodyJac (m : Mesh Ω Γ d) (p : Ω) : ℝ :=
  match m.type with
  | .cylindrical => m.r.val p
  | .spherical => m.r.val p ^ 2
  | _ => 1

/-- The same on the boundary. -/
def bodyJacS (m : Mesh Ω Γ d) (q : Γ) : ℝ :=
  match m.type with
  | .cylindrical => m.r.tr q
  | .spherical => m.r.tr q ^ 2
  | _ => 1

/-- Flux density into the body: `k ∇φ·n`, with the Soret term if there is one. -/
noncomputable def inflow (e : PostEnv Ω Γ d) (φ : PostFun Ω Γ d) (k : Γ → ℝ) (soret : Option (Γ → ℝ)) (q : Γ) :
    ℝ :=
  k q * dot (φ.gradS q) (e.n q) +
    match soret with
    | none => 0
    | some Q => k q * φ.tr q * Q q / (kB * e.T.tr q ^ 2) * dot (e.T.gradS q) (e.n q)

/-- What the name of a quantity says about the number `x` computed from the field `φ`, for the body which
the mesh describes. -/
def Named (e : PostEnv Ω Γ d) (φ : PostFun Ω Γ d) (x : ℝ) : Quantity → Prop
  | .surfaceFlux g f s =>
    (f ≠ .name "T" → e.soret = false →
      x = fluxAngle g * surface e.mesh s fun q => bodyJacS e.mesh q * inflow e φ e.D none q) ∧
    (f ≠ .name "T" → e.soret = true → ∃ Q, e.Q = some Q ∧
      x = fluxAngle g * surface e.mesh s fun q => bodyJacS e.mesh q * inflow e φ e.D (some Q) q) ∧
    (f = .name "T" → ∃ k, e.cond = some k ∧
      x = fluxAngle g * surface e.mesh s fun q => bodyJacS e.mesh q * inflow e φ k none q)
  | .totalVolume g _ v => x = totalAngle g * volumeOf e.mesh v fun p => bodyJac e.mesh p * φ.val p
  | .totalSurface g _ s => x = totalAngle g * surface e.mesh s fun q => bodyJacS e.mesh q * φ.tr q
  | .averageVolume _ _ v => volumeOf e.mesh v (bodyJac e.mesh) ≠ 0 ∧
    x * volumeOf e.mesh v (bodyJac e.mesh) = volumeOf e.mesh v fun p => bodyJac e.mesh p * φ.val p
  | .averageSurface _ _ s => surface e.mesh s (bodyJacS e.mesh) ≠ 0 ∧
    x * surface e.mesh s (bodyJacS e.mesh) = surface e.mesh s fun q => bodyJacS e.mesh q * φ.tr q
  | .maximumVolume _ v =>
    (∃ c ∈ φ.cells, c.1 = v ∧ x ∈ c.2) ∧ ∀ c ∈ φ.cells, c.1 = v → ∀ y ∈ c.2, y ≤ x
  | .minimumVolume _ v =>
    (∃ c ∈ φ.cells, c.1 = v ∧ x ∈ c.2) ∧ ∀ c ∈ φ.cells, c.1 = v → ∀ y ∈ c.2, x ≤ y
  | .pointValue _ y => x = φ.pt y
  | .adsorbed s => ∀ q, (∀ q', e.mesh.sm q' = s ↔ q' = q) → e.mesh.ws q = 1 → x = φ.tr q
  | _ => False

end

end Festim.Spec

namespace Festim.Weak

section
variable {Ω Γ : Type} [Fintype Ω] [Fintype Γ] {d : ℕ}

theorem needMesh_ok {α : Type} {f : PostFun Ω Γ d} {b : Bool} {k : Except PyErr α} {x : α}
    (h : needMesh f b k = .ok x) : k = .ok x := by
  unfold needMesh at h
  split at h
  · cases h
  · exact h

theorem foldl_max_mem (l : List ℝ) (a : ℝ) : l.foldl max a ∈ a :: l := by
  induction l generalizing a with
  | nil => simp
  | cons b l ih =>
    have := ih (max a b)
    rw [List.foldl_cons]
    rcases List.mem_cons.1 this with h | h
    · rw [h]
      rcases max_choice a b with h' | h' <;> rw [h'] <;> simp
    · simp [h]

theorem foldl_min_mem (l : List ℝ) (a : ℝ) : l.foldl min a ∈ a :: l := by
  induction l generalizing a with
  | nil => simp
  | cons b l ih =>
    have := ih (min a b)
    rw [List.foldl_cons]
    rcases List.mem_cons.1 this with h | h
    · rw [h]
      rcases min_choice a b with h' | h' <;> rw [h'] <;> simp
    · simp [h]

theorem subdDofs_mem {f : PostFun Ω Γ d} {v : ℕ} {l : List ℝ} (h : f.subdDofs v = .ok l) (x : ℝ) :
    x ∈ l ↔ ∃ c ∈ f.cells, c.1 = v ∧ x ∈ c.2 := by
  unfold PostFun.subdDofs at h
  split at h
  · cases h
  · cases h
    simp [List.mem_flatMap, and_assoc]

end

end Festim.Weak

namespace Festim.Props

open Festim.Weak Festim.Spec

section
variable {Ω Γ : Type} [Fintype Ω] [Fintype Γ] {d : ℕ}

theorem pyDiv_mul {a b x : ℝ} (h : Weak.pyDiv a b = .ok x) : b ≠ 0 ∧ x * b = a := by
  unfold Weak.pyDiv at h
  split at h
  · cases h
  · rename_i hb
    cases h
    exact ⟨hb, div_mul_cancel₀ a hb⟩

/-- The weight of the class is the one of the body when the class accepts the mesh. -/
theorem jacS_body (m : Mesh Ω Γ d) (g : Geom)
    (h : match g with
      | .cartesian => m.type = .cartesian
      | .cylindrical _ => m.type = .cylindrical
      | .spherical _ _ => m.type = .spherical) (q : Γ) : g.weightS m q = bodyJacS m q := by
  cases g <;> simp only at h <;> simp [Geom.weightS, bodyJacS, h]

theorem flux_named (e : PostEnv Ω Γ d) (g : Geom) (f : Field) (s : ℕ) (φ : PostFun Ω Γ d) (x : ℝ)
    (hw : ∀ q, g.weightS e.mesh q = bodyJacS e.mesh q) (h : evalSurfaceFlux e g f s φ = .ok x) :
    Named e φ x (.surfaceFlux g f s) := by
  unfold evalSurfaceFlux at h
  by_cases hT : f = .name "T"
  · subst hT
    have hp : e.prop (.name "T") = .ok e.cond := by simp [PostEnv.prop]
    rw [hp] at h
    cases hc : e.cond with
    | none => rw [hc] at h; cases h
    | some k =>
      rw [hc] at h
      simp only [reduceCtorEq, Field.name.injEq, String.reduceEq, or_self, and_false, if_false,
        Except.ok.injEq, integrate_ds, hw, fluxFactor_eq] at h
      refine ⟨fun h0 => absurd rfl h0, fun h0 => absurd rfl h0, fun _ => ⟨k, hc, ?_⟩⟩
      rw [← h, mul_comm]
      congr 2
      funext q
      simp only [inflow, add_zero]; ring
  · by_cases h0 : f = .strInt 0 ∨ f = .name "solute" ∨ f = .int 0
    · have hp : e.prop f = .ok (some e.D) := by unfold PostEnv.prop; rw [if_pos h0]
      have h0' : f = .int 0 ∨ f = .strInt 0 ∨ f = .name "solute" := by tauto
      rw [hp] at h
      cases hs : e.soret with
      | false =>
        simp only [hs, Bool.false_eq_true, false_and, if_false, Except.ok.injEq, integrate_ds, hw,
          fluxFactor_eq] at h
        refine ⟨fun _ _ => ?_, fun _ h1 => absurd (hs ▸ h1 : false = true) (by simp),
          fun h1 => absurd h1 hT⟩
        rw [← h, mul_comm]
        congr 2
        funext q
        simp only [inflow, add_zero]; ring
      | true =>
        cases hQ : e.Q with
        | none => simp only [hs, h0', and_self, if_true, hQ] at h; cases h
        | some Q =>
          simp only [hs, h0', and_self, if_true, hQ, Except.ok.injEq, integrate_ds, hw, fluxFactor_eq] at h
          refine ⟨fun _ h1 => absurd (hs ▸ h1 : true = false) (by simp), fun _ _ => ⟨Q, hQ, ?_⟩,
            fun h1 => absurd h1 hT⟩
          rw [← h, ← surface_add, mul_comm]
          congr 2
          funext q
          simp only [inflow]; ring
    · have hp : e.prop f = .error (.keyError "field") := by
        unfold PostEnv.prop; rw [if_neg h0, if_neg hT]
      rw [hp] at h
      cases h

/-- **C97.** When `initialise` does not warn about a quantity, the number written is the one its name
promises for the body the mesh describes: integrals and averages are taken over the cylinder or the sphere,
not over the section which is meshed, the flux is the one through its boundary, ...  `AverageSurface` in a
spherical mesh supposes that the surface is at one radius. -/
theorem C97_silent (e : PostEnv Ω Γ d) (proj : Bool) (q : Weak.Quantity) (φ : PostFun Ω Γ d) (x : ℝ)
    (hw : meshWarnings e.mesh.type [[q]] = []) (hf : q.function e (q.projects proj) = .ok φ)
    (hx : q.value e proj = .ok x)
    (hr : ∀ s, (∃ c f, q = .averageSurface c f s) → e.mesh.type = .spherical →
      ∃ R, R ≠ 0 ∧ ∀ b, e.mesh.sm b = s → e.mesh.r.tr b = R) :
    Named e φ x q := by
  have hmem : e.mesh.type ∈ q.allowedMeshes := by
    by_contra hne
    simp [meshWarnings, hne] at hw
  have hc : q.compute e φ = .ok x := by
    unfold Weak.Quantity.value at hx
    rw [hf] at hx
    exact hx
  cases q with
  | surfaceFlux g f s =>
    refine flux_named e g f s φ x (jacS_body e.mesh g ?_) (needMesh_ok hc)
    cases g <;> simpa [Weak.Quantity.allowedMeshes] using hmem
  | totalVolume g f v =>
    have h := needMesh_ok hc
    simp only [Except.ok.injEq] at h
    unfold Named
    rw [← h]
    cases g <;> simp only [Weak.Quantity.allowedMeshes, List.mem_singleton] at hmem <;>
      simp only [evalTotalVolume, integrate_dxOn1, totalFactor_eq, bodyJac, hmem]
    · simp [totalAngle]
    · rw [mul_comm]; congr 2; funext p; ring
    · rw [mul_comm]; congr 2; funext p; ring
  | totalSurface g f s =>
    have h := needMesh_ok hc
    simp only [Except.ok.injEq] at h
    unfold Named
    rw [← h]
    cases g <;> simp only [Weak.Quantity.allowedMeshes, List.mem_singleton] at hmem <;>
      simp only [evalTotalSurface, integrate_ds, totalFactor_eq, bodyJacS, hmem]
    · simp [totalAngle]
    · rw [mul_comm]; congr 2; funext p; ring
    · rw [mul_comm]; congr 2; funext p; ring
  | averageVolume c f v =>
    have h := needMesh_ok hc
    cases c <;> simp only [Weak.Quantity.allowedMeshes, List.mem_singleton] at hmem <;>
      simp only [evalAverageVolume, integrate_dxOn1] at h <;>
      obtain ⟨h1, h2⟩ := pyDiv_mul h <;> unfold Named
    · have hb : bodyJac e.mesh = fun _ => 1 := by funext p; simp [bodyJac, hmem]
      rw [hb]
      exact ⟨h1, by simpa using h2⟩
    · have hb : bodyJac e.mesh = fun p => 1 * e.mesh.r.val p := by funext p; simp [bodyJac, hmem]
      rw [hb]
      refine ⟨h1, h2.trans ?_⟩
      congr 1; funext p; ring
    · have hb : bodyJac e.mesh = fun p => 1 * e.mesh.r.val p ^ 2 := by funext p; simp [bodyJac, hmem]
      rw [hb]
      refine ⟨h1, h2.trans ?_⟩
      congr 1; funext p; ring
  | averageSurface c f s =>
    have h := needMesh_ok hc
    unfold Named
    have flat : c ≠ .cylindrical → surface e.mesh s (bodyJacS e.mesh) ≠ 0 ∧
        x * surface e.mesh s (bodyJacS e.mesh) = surface e.mesh s fun q => bodyJacS e.mesh q * φ.tr q := by
      intro hcy
      have hmem' : e.mesh.type = .cartesian ∨ e.mesh.type = .spherical := by
        cases c <;> simp [Weak.Quantity.allowedMeshes] at hmem hcy ⊢ <;> exact hmem
      have h' : Weak.pyDiv (surface e.mesh s φ.tr) (surface e.mesh s fun _ => 1) = .ok x := by
        cases c <;> simp [evalAverageSurface, integrate_ds] at h hcy ⊢ <;> exact h
      obtain ⟨h1, h2⟩ := pyDiv_mul h'
      obtain ⟨R, hR, hJ⟩ : ∃ R : ℝ, R ≠ 0 ∧ ∀ b, e.mesh.sm b = s → bodyJacS e.mesh b = R := by
        rcases hmem' with ht | ht
        · exact ⟨1, one_ne_zero, fun b _ => by simp [bodyJacS, ht]⟩
        · obtain ⟨R, hR, hb⟩ := hr s ⟨c, f, rfl⟩ ht
          exact ⟨R ^ 2, pow_ne_zero 2 hR, fun b hbs => by simp [bodyJacS, ht, hb b hbs]⟩
      have hs : ∀ g : Γ → ℝ, (surface e.mesh s fun q => bodyJacS e.mesh q * g q) = R * surface e.mesh s g := by
        intro g
        unfold surface
        rw [Finset.mul_sum]
        refine Finset.sum_congr rfl fun b hb => ?_
        have := hJ b (by simpa using hb)
        simp only [this]; ring
      have hone : surface e.mesh s (bodyJacS e.mesh) = R * surface e.mesh s fun _ => 1 := by
        rw [← hs]; simp
      rw [hone, hs, ← h2]
      exact ⟨mul_ne_zero hR h1, by ring⟩
    cases c with
    | cartesian => exact flat (by simp)
    | spherical => exact flat (by simp)
    | cylindrical =>
      simp only [Weak.Quantity.allowedMeshes, List.mem_singleton] at hmem
      simp only [evalAverageSurface, integrate_ds] at h
      obtain ⟨h1, h2⟩ := pyDiv_mul h
      have hb : bodyJacS e.mesh = fun p => 1 * e.mesh.r.tr p := by funext p; simp [bodyJacS, hmem]
      rw [hb]
      refine ⟨h1, h2.trans ?_⟩
      congr 1; funext p; ring
  | maximumVolume f v =>
    simp only [Weak.Quantity.compute] at hc
    cases hd : φ.subdDofs v with
    | error err => rw [hd] at hc; cases hc
    | ok l =>
      rw [hd] at hc
      cases l with
      | nil => cases hc
      | cons a l =>
        have hx' : l.foldl max a = x := by simpa [npMax] using hc
        refine ⟨(subdDofs_mem hd x).1 (hx' ▸ foldl_max_mem l a), fun c hcm hcv y hy => ?_⟩
        have hy' := (subdDofs_mem hd y).2 ⟨c, hcm, hcv, hy⟩
        rw [← hx']
        rcases List.mem_cons.1 hy' with rfl | hy'
        · exact (foldl_max_spec l y).1
        · exact (foldl_max_spec l a).2 y hy'
  | minimumVolume f v =>
    simp only [Weak.Quantity.compute] at hc
    cases hd : φ.subdDofs v with
    | error err => rw [hd] at hc; cases hc
    | ok l =>
      rw [hd] at hc
      cases l with
      | nil => cases hc
      | cons a l =>
        have hx' : l.foldl min a = x := by simpa [npMin] using hc
        refine ⟨(subdDofs_mem hd x).1 (hx' ▸ foldl_min_mem l a), fun c hcm hcv y hy => ?_⟩
        have hy' := (subdDofs_mem hd y).2 ⟨c, hcm, hcv, hy⟩
        rw [← hx']
        rcases List.mem_cons.1 hy' with rfl | hy'
        · exact (foldl_min_spec l y).1
        · exact (foldl_min_spec l a).2 y hy'
  | maximumSurface f s => simp [Weak.Quantity.compute] at hc
  | minimumSurface f s => simp [Weak.Quantity.compute] at hc
  | pointValue f y =>
    simp only [Weak.Quantity.compute, Except.ok.injEq] at hc
    exact hc.symm
  | adsorbed s =>
    intro q hq hws
    simp only [Weak.Quantity.compute, Except.ok.injEq, integrate_ds] at hc
    rw [← hc]
    unfold surface
    rw [Finset.sum_eq_single_of_mem q (by simp [hq])]
    · rw [hws, one_mul]
    · intro b hb hne
      exact absurd ((hq b).1 (by simpa using hb)) hne

end

/-- Two points at the radii 1 and 2. -/
def twoRadii : Fld (Fin 2) (Fin 2) 1 := ⟨fun p => p.val + 1, fun _ _ => 1, fun q => q.val + 1⟩

/-- A field which is 1 at the larger radius and 0 at the smaller one. -/
def outer : PostFun (Fin 2) (Fin 2) 1 :=
  ⟨fun p => p.val, fun q => q.val, fun q _ => q.val, [(1, [0, 1])], fun _ => 1, true⟩

/-- A mesh of two points with unit weights, of any type and with any marker. -/
def twoEnv (t : Coord) (marker : ℕ) : PostEnv (Fin 2) (Fin 2) 1 :=
  { mesh := ⟨fun _ => 1, fun _ => marker, fun _ => 1, fun _ => marker, fun _ => marker, twoRadii, t⟩
    n := fun _ _ => 1, D := fun _ => 1, cond := none, Q := none, T := outer, soret := false
    solute := outer, traps := [], ids := [], adsorbed := [] }

/-- The angles of a quantity do not cancel its value. -/
def Angles : Weak.Quantity → Prop
  | .surfaceFlux g _ _ => fluxAngle g ≠ 0
  | .totalVolume g _ _ => totalAngle g ≠ 0
  | .totalSurface g _ _ => totalAngle g ≠ 0
  | _ => True

/-- Marker of the volume or surface of a quantity. -/
def place : Weak.Quantity → ℕ
  | .surfaceFlux _ _ s => s
  | .totalVolume _ _ v => v
  | .totalSurface _ _ s => s
  | .averageVolume _ _ v => v
  | .averageSurface _ _ s => s
  | _ => 0

theorem two_surface (t : Coord) (s : ℕ) (f : Fin 2 → ℝ) : surface (twoEnv t s).mesh s f = f 0 + f 1 := by
  simp [surface, twoEnv, Fin.sum_univ_two]

theorem two_volume (t : Coord) (s : ℕ) (f : Fin 2 → ℝ) : volumeOf (twoEnv t s).mesh s f = f 0 + f 1 := by
  simp [volumeOf, twoEnv, Fin.sum_univ_two]

theorem two_jac (t : Coord) (s : ℕ) (p : Fin 2) :
    bodyJac (twoEnv t s).mesh p = match t with
      | .cylindrical => (p.val : ℝ) + 1
      | .spherical => ((p.val : ℝ) + 1) ^ 2
      | _ => 1 := by cases t <;> rfl

theorem two_jacS (t : Coord) (s : ℕ) (p : Fin 2) :
    bodyJacS (twoEnv t s).mesh p = match t with
      | .cylindrical => (p.val : ℝ) + 1
      | .spherical => ((p.val : ℝ) + 1) ^ 2
      | _ => 1 := by cases t <;> rfl

theorem two_weight (t : Coord) (s : ℕ) (g : Geom) (p : Fin 2) :
    g.weightS (twoEnv t s).mesh p = match g with
      | .cartesian => 1
      | .cylindrical _ => (p.val : ℝ) + 1
      | .spherical _ _ => ((p.val : ℝ) + 1) ^ 2 := by cases g <;> rfl

/-- **C97.** No class is warned about in vain: whatever the quantity of the solute about which `initialise`
warns in a cartesian, cylindrical or spherical mesh, there is such a mesh and a concentration for which the
run writes a number that is not what the name of the quantity says. -/
theorem C97_warned (t : Coord) (ht : t ≠ .other) (q : Weak.Quantity) (hq : q.field = some (.name "solute"))
    (ha : Angles q) (hw : q ∈ meshWarnings t [[q]]) :
    ∃ (e : PostEnv (Fin 2) (Fin 2) 1) (x : ℝ), e.mesh.type = t ∧ q.value e false = .ok x ∧
      ¬ Named e e.solute x q := by
  have hmem : t ∉ q.allowedMeshes := by simpa [meshWarnings] using hw
  have hlab : ∀ k b, (twoEnv t k).label b (.name "solute") = .ok outer := fun k b => label_solute _ b
  have hN : ∀ k α (y : Except PyErr α), needMesh outer k y = y := by
    intro k α y; simp [needMesh, outer]
  cases q with
  | surfaceFlux g f s =>
    simp only [Weak.Quantity.field, Option.some.injEq] at hq
    subst hq
    refine ⟨twoEnv t s, fluxAngle g * g.weightS (twoEnv t s).mesh 1, rfl, ?_, ?_⟩
    · rw [flux_solute (twoEnv t s) false g _ s (by simp) outer (hlab _ _) (fun _ => rfl) none
        (by simp [twoEnv])]
      simp only [fluxIntegral, two_surface, weightS_eq]
      simp [twoEnv, outer, dot]
    · rintro ⟨h, -, -⟩
      have := mul_left_cancel₀ ha (h (by decide +kernel) rfl)
      rw [two_surface, two_weight, two_jacS, two_jacS] at this
      simp only [inflow] at this
      cases g <;> cases t <;> simp [Weak.Quantity.allowedMeshes, twoEnv, outer, dot] at hmem this ht <;>
        norm_num at this
  | totalVolume g f v =>
    simp only [Weak.Quantity.field, Option.some.injEq] at hq
    subst hq
    refine ⟨twoEnv t v, _, rfl, linear_value (twoEnv t v) false (.totalVolume g v) _ outer (hlab _ _)
      (fun _ => rfl) trivial, ?_⟩
    intro h
    simp only [Named, LinearKind.meaning] at h
    have := mul_left_cancel₀ ha h
    rw [two_volume, two_volume, two_jac, two_jac] at this
    cases g <;> cases t <;>
      simp [Weak.Quantity.allowedMeshes, twoEnv, outer, jac, Geom.suffix, twoRadii] at hmem this ht <;>
      norm_num at this
  | totalSurface g f s =>
    simp only [Weak.Quantity.field, Option.some.injEq] at hq
    subst hq
    refine ⟨twoEnv t s, _, rfl, linear_value (twoEnv t s) false (.totalSurface g s) _ outer (hlab _ _)
      (fun _ => rfl) trivial, ?_⟩
    intro h
    simp only [Named, LinearKind.meaning] at h
    have := mul_left_cancel₀ ha h
    rw [two_surface, two_surface, two_jacS, two_jacS] at this
    cases g <;> cases t <;>
      simp [Weak.Quantity.allowedMeshes, twoEnv, outer, jacS, Geom.suffix, twoRadii] at hmem this ht <;>
      norm_num at this
  | averageVolume c f v =>
    simp only [Weak.Quantity.field, Option.some.injEq] at hq
    subst hq
    refine ⟨twoEnv t v, _, rfl, linear_value (twoEnv t v) false (.averageVolume c v) _ outer (hlab _ _)
      (fun _ => rfl) ?_, ?_⟩
    · simp only [LinearKind.Measurable]
      rw [two_volume]
      cases c <;> simp [jac, twoEnv, twoRadii] <;> norm_num
    · rintro ⟨-, h⟩
      simp only [LinearKind.meaning] at h
      rw [two_volume, two_volume, two_volume, two_volume, two_jac, two_jac] at h
      cases c <;> cases t <;>
        simp [Weak.Quantity.allowedMeshes, twoEnv, outer, jac, twoRadii] at hmem h ht <;>
        norm_num at h
  | averageSurface c f s =>
    simp only [Weak.Quantity.field, Option.some.injEq] at hq
    subst hq
    refine ⟨twoEnv t s, _, rfl, linear_value (twoEnv t s) false (.averageSurface c s) _ outer (hlab _ _)
      (fun _ => rfl) ?_, ?_⟩
    · cases c <;> simp only [LinearKind.Measurable] <;> rw [two_surface] <;>
        simp [jacS, twoEnv, twoRadii] <;> norm_num
    · rintro ⟨-, h⟩
      cases c <;> cases t <;> simp [Weak.Quantity.allowedMeshes] at hmem ht <;>
        simp only [LinearKind.meaning] at h <;>
        rw [two_surface, two_surface, two_surface, two_surface, two_jacS, two_jacS] at h <;>
        simp [twoEnv, outer, jacS, twoRadii] at h <;> norm_num at h
  | maximumVolume f v => cases t <;> simp [Weak.Quantity.allowedMeshes] at hmem ht
  | minimumVolume f v => cases t <;> simp [Weak.Quantity.allowedMeshes] at hmem ht
  | maximumSurface f v => cases t <;> simp [Weak.Quantity.allowedMeshes] at hmem ht
  | minimumSurface f v => cases t <;> simp [Weak.Quantity.allowedMeshes] at hmem ht
  | pointValue f v => cases t <;> simp [Weak.Quantity.allowedMeshes] at hmem ht
  | adsorbed v => cases t <;> simp [Weak.Quantity.allowedMeshes] at hmem ht

/-- **C97.** The supposition of `C97_silent` about spheres is needed: with one marker on both surfaces of a
hollow sphere, `AverageSurface` gives no warning but the mean of the two values instead of the mean over the
two spheres. -/
theorem C97_hollow_sphere (s : ℕ) :
    meshWarnings .spherical [[.averageSurface .cartesian (.name "solute") s]] = [] ∧
    ∃ x, (Quantity.averageSurface .cartesian (.name "solute") s).value (twoEnv .spherical s) false = .ok x ∧
      x = 1 / 2 ∧ ¬ Named (twoEnv .spherical s) outer x (.averageSurface .cartesian (.name "solute") s) ∧
      Named (twoEnv .spherical s) outer (4 / 5) (.averageSurface .cartesian (.name "solute") s) := by
  have hv := linear_value (twoEnv .spherical s) false (.averageSurface .cartesian s) (.name "solute") outer
    (label_solute _ _) (fun _ => rfl) (by
      simp only [LinearKind.Measurable]; rw [two_surface]; norm_num)
  have hx : (LinearKind.averageSurface .cartesian s).meaning (twoEnv .spherical s).mesh outer = 1 / 2 := by
    simp only [LinearKind.meaning]
    rw [two_surface, two_surface]
    simp [outer]; norm_num
  refine ⟨by simp [meshWarnings, Weak.Quantity.allowedMeshes], _, hv, hx, ?_, ?_⟩
  · rw [hx]
    rintro ⟨-, h⟩
    rw [two_surface, two_surface, two_jacS, two_jacS] at h
    simp [outer] at h
    norm_num at h
  · simp only [Named]
    rw [two_surface, two_surface, two_jacS, two_jacS]
    simp [outer]
    norm_num

/-- **C97.** The warnings follow the order of the exports and each quantity gives at most one; a mesh whose
type has another name gives one for every quantity. -/
theorem C97_list (t : Coord) (exports : List (List Weak.Quantity)) :
    List.Sublist (meshWarnings t exports) exports.flatten ∧
    (∀ q ∈ exports.flatten, q ∉ meshWarnings t exports → t ∈ q.allowedMeshes) ∧
    meshWarnings .other exports = exports.flatten ∧
    (t ≠ .other → ∀ q ∈ meshWarnings t exports, ∃ g f k c, q = .surfaceFlux g f k ∨ q = .totalVolume g f k ∨
      q = .totalSurface g f k ∨ q = .averageVolume c f k ∨ q = .averageSurface c f k) := by
  refine ⟨?_, ?_, ?_, ?_⟩
  · induction exports with
    | nil => simp [meshWarnings]
    | cons qs l ih =>
      simp only [meshWarnings, List.flatMap_cons, List.flatten_cons] at ih ⊢
      exact List.filter_sublist.append ih
  · intro q hq hn
    obtain ⟨qs, h1, h2⟩ := List.mem_flatten.1 hq
    by_contra hne
    exact hn (List.mem_flatMap.2 ⟨qs, h1, by simp [h2, hne]⟩)
  · induction exports with
    | nil => simp [meshWarnings]
    | cons qs l ih =>
      simp only [meshWarnings, List.flatMap_cons, List.flatten_cons] at ih ⊢
      rw [ih]
      congr 1
      rw [List.filter_eq_self]
      intro q _
      cases q with
      | surfaceFlux g f k => cases g <;> simp [Weak.Quantity.allowedMeshes]
      | totalVolume g f k => cases g <;> simp [Weak.Quantity.allowedMeshes]
      | totalSurface g f k => cases g <;> simp [Weak.Quantity.allowedMeshes]
      | averageVolume c f k => cases c <;> simp [Weak.Quantity.allowedMeshes]
      | averageSurface c f k => cases c <;> simp [Weak.Quantity.allowedMeshes]
      | _ => simp [Weak.Quantity.allowedMeshes]
  · intro ht q hq
    obtain ⟨qs, -, h2⟩ := List.mem_flatMap.1 hq
    have hmem : t ∉ q.allowedMeshes := by simpa using (List.mem_filter.1 h2).2
    cases q with
    | surfaceFlux g f k => exact ⟨g, f, k, .cartesian, by simp⟩
    | totalVolume g f k => exact ⟨g, f, k, .cartesian, by simp⟩
    | totalSurface g f k => exact ⟨g, f, k, .cartesian, by simp⟩
    | averageVolume c f k => exact ⟨.cartesian, f, k, c, by simp⟩
    | averageSurface c f k => exact ⟨.cartesian, f, k, c, by simp⟩
    | _ => cases t <;> simp [Weak.Quantity.allowedMeshes] at hmem ht

/-- Non-vacuity: in a cylindrical mesh the volume integral of the cylindrical class is silent and is the
integral over the cylinder; `HydrogenFlux` and `TotalVolume` are announced. -/
example : meshWarnings .cylindrical [[.totalVolume (.cylindrical (0, 2 * Real.pi)) (.name "solute") 1,
      hydrogenFlux 1], [.totalVolume .cartesian (.name "solute") 1, .maximumVolume (.name "solute") 1]] =
    [hydrogenFlux 1, .totalVolume .cartesian (.name "solute") 1] := by
  simp [meshWarnings, Weak.Quantity.allowedMeshes, hydrogenFlux]

example : Named (twoEnv .cylindrical 1) outer (4 * Real.pi)
    (.totalVolume (.cylindrical (0, 2 * Real.pi)) (.name "solute") 1) := by
  simp only [Named]
  rw [two_volume, two_jac, two_jac]
  simp [outer, totalAngle, turnAngle]
  ring

end Festim.Props
