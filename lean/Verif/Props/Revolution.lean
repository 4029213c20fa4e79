import Verif.Spec.Revolution
import Verif.Props.Symmetry
import Verif.Props.Balance
import Verif.Props.BalanceCases

/-!
# C109: cylindrical and spherical simulations are those of bodies of revolution
-/

open scoped BigOperators

namespace Festim.Weak

variable {Ω Γ Y : Type} {d d' : ℕ}

theorem onCircle_dot (θ : ℝ) (a b : Fin 1 → ℝ) : dot (onCircle θ a) (onCircle θ b) = dot a b := by
  have := Real.sin_sq_add_cos_sq θ
  simp only [dot, onCircle, LinearMap.coe_mk, AddHom.coe_mk, Fin.sum_univ_two, Finset.univ_unique, Fin.default_eq_zero, Fin.isValue,
    Finset.sum_singleton, Matrix.cons_val_zero, Matrix.cons_val_one]
  linear_combination (a 0 * b 0) * this

theorem onCylinder_dot (θ : ℝ) (a b : Fin 2 → ℝ) : dot (onCylinder θ a) (onCylinder θ b) = dot a b := by
  have := Real.sin_sq_add_cos_sq θ
  simp only [dot, onCylinder, LinearMap.coe_mk, AddHom.coe_mk, Fin.sum_univ_two, Fin.sum_univ_three, Matrix.cons_val_zero,
    Matrix.cons_val_one, Matrix.cons_val]
  linear_combination (a 0 * b 0) * this

theorem onSphere_dot (θ φ : ℝ) (a b : Fin 1 → ℝ) : dot (onSphere θ φ a) (onSphere θ φ b) = dot a b := by
  have := Real.sin_sq_add_cos_sq θ
  have h2 := Real.sin_sq_add_cos_sq φ
  simp only [dot, onSphere, LinearMap.coe_mk, AddHom.coe_mk, Fin.sum_univ_three, Matrix.cons_val_zero, Finset.univ_unique,
    Fin.default_eq_zero, Fin.isValue, Finset.sum_singleton, Matrix.cons_val_one, Matrix.cons_val]
  linear_combination (a 0 * b 0 * Real.sin φ ^ 2) * this + (a 0 * b 0) * h2

section
variable [Fintype Ω] [Fintype Γ] [Fintype Y] [DecidableEq Ω] [DecidableEq Γ]

theorem body_gathers (m : Mesh Ω Γ d) (wy : Y → ℝ) (x : Fld (Ω × Y) (Γ × Y) d') (turn : Y → (Fin d → ℝ) →ₗ[ℝ] (Fin d' → ℝ))
    (hturn : ∀ y a b, dot (turn y a) (turn y b) = dot a b) (ss : List ℕ) (V : Fld (Ω × Y) (Γ × Y) d') :
    (bodyOver m wy x turn hturn).Gathers ss V (V.around wy turn) := by
  have hsum : ∀ {α : Type} [Fintype α] [DecidableEq α] (p : α) (g : α → Y → ℝ),
      (∑ x : α × Y, if x.1 = p then g x.1 x.2 else 0) = ∑ y, g p y := by
    intro α _ _ p g
    rw [Fintype.sum_prod_type, Finset.sum_comm]
    simp
  refine ⟨fun p => ?_, fun p a => ?_, fun q _ => ?_⟩
  · show _ = ∑ x : Ω × Y, if x.1 = p then m.radial.w x.1 * wy x.2 * V.val (x.1, x.2) else 0
    rw [hsum p fun p y => m.radial.w p * wy y * V.val (p, y)]
    simp only [Fld.around, Finset.mul_sum, mul_assoc]
  · show _ = ∑ x : Ω × Y, if x.1 = p then m.radial.w x.1 * wy x.2 * dot (turn x.2 a) (V.grad (x.1, x.2)) else 0
    rw [hsum p fun p y => m.radial.w p * wy y * dot (turn y a) (V.grad (p, y))]
    have : ∀ y, dot (turn y a) (V.grad (p, y)) = ∑ i, a i * dot (turn y (Pi.single i 1)) (V.grad (p, y)) := by
      intro y
      have ha : a = ∑ i, a i • (Pi.single i 1 : Fin d → ℝ) := by
        funext j
        simp [Finset.sum_apply, Pi.single_apply]
      conv_lhs => rw [ha, map_sum]
      simp only [map_smul, dot, Finset.sum_apply, Pi.smul_apply, smul_eq_mul, Finset.sum_mul, Finset.mul_sum]
      rw [Finset.sum_comm]
      exact Finset.sum_congr rfl fun i _ => Finset.sum_congr rfl fun j _ => by ring
    simp only [this]
    simp only [Fld.around, dot, Finset.mul_sum]
    rw [Finset.sum_comm]
    refine Finset.sum_congr rfl fun y _ => Finset.sum_congr rfl fun i _ => Finset.sum_congr rfl fun j _ => by ring
  · show _ = ∑ x : Γ × Y, if x.1 = q then m.radial.ws x.1 * wy x.2 * V.tr (x.1, x.2) else 0
    rw [hsum q fun p y => m.radial.ws p * wy y * V.tr (p, y)]
    simp only [Fld.around, Finset.mul_sum, mul_assoc]

end

section
variable [Fintype Ω] [Fintype Γ]

omit [Fintype Ω] [Fintype Γ] in
theorem weight_cyl (m : Mesh Ω Γ d) (h : m.type = .cylindrical) (hr : ∀ p, m.r.val p ≠ 0) (hrS : ∀ q, m.r.tr q ≠ 0) (u : Fld Ω Γ d) :
    weight m * u / m.r = u := by
  ext1
  · funext p
    have := hr p
    simp only [weight, h, Fld.div_val, Fld.mul_val]
    field_simp
  · funext p i
    have := hr p
    show ((weight m * u).grad p i * m.r.val p - (weight m * u).val p * m.r.grad p i) / m.r.val p ^ 2 = _
    simp only [weight, h, Fld.mul_val]
    show ((m.r.grad p i * u.val p + m.r.val p * u.grad p i) * m.r.val p - _) / _ = _
    field_simp
    ring
  · funext q
    have := hrS q
    simp only [weight, h, Fld.div_tr, Fld.mul_tr]
    field_simp

omit [Fintype Ω] [Fintype Γ] in
theorem weight_sph (m : Mesh Ω Γ d) (h : m.type = .spherical) (hr : ∀ p, m.r.val p ≠ 0) (hrS : ∀ q, m.r.tr q ≠ 0) (u : Fld Ω Γ d) :
    weight m * u / m.r / m.r = u := by
  ext1
  · funext p
    have := hr p
    simp only [weight, h, Fld.div_val, Fld.mul_val]
    field_simp
  · funext p i
    have := hr p
    simp only [weight, h]
    show ((((((m.r.grad p i * m.r.val p + m.r.val p * m.r.grad p i) * u.val p + m.r.val p * m.r.val p * u.grad p i)) * m.r.val p -
      m.r.val p * m.r.val p * u.val p * m.r.grad p i) / m.r.val p ^ 2) * m.r.val p -
      m.r.val p * m.r.val p * u.val p / m.r.val p * m.r.grad p i) / m.r.val p ^ 2 = _
    field_simp
    ring
  · funext q
    have := hrS q
    simp only [weight, h, Fld.div_tr, Fld.mul_tr]
    field_simp

/-- The same for the equation of the temperature. -/
theorem radial_heat (m : Mesh Ω Γ d) (htype : m.type = .cylindrical ∨ m.type = .spherical) (hr : ∀ p, m.r.val p ≠ 0)
    (hrS : ∀ q, m.r.tr q ≠ 0) (mats : List Mat) (T : Temp Ω Γ d) (dt : Option ℝ) (sources : List ((Ω → ℝ) × List ℕ))
    (bcs : List (Flux Γ × List ℕ)) (v : Fld Ω Γ d) :
    m.assemble (heatForm m mats T dt sources bcs (weight m * v)) = m.radial.assemble (heatForm m.radial mats T dt sources bcs v) := by
  have hw : m.radial = weighted m (weight m) := rfl
  unfold heatForm
  rw [assemble_append, assemble_append, assemble_append, assemble_append]
  congr 1
  · congr 1
    · rw [assemble_flatMap, assemble_flatMap]
      congr 1
      refine List.map_congr_left fun a _ => ?_
      rw [assemble_append, assemble_append]
      congr 1
      · cases dt with
        | none => rfl
        | some k =>
          dsimp only
          rw [assemble_map, assemble_map]
          congr 1
          refine List.map_congr_left fun i _ => ?_
          rw [hw]
          apply scaled_dxOn
          intro p
          rw [Fld.mul_val]
          ring
      · rw [assemble_flatMap, assemble_flatMap]
        congr 1
        refine List.map_congr_left fun i _ => ?_
        unfold heatSubdomain
        rcases htype with h | h
        · simp only [h, Mesh.radial, assemble_cons, assemble_nil]
          congr 1
          rw [weight_cyl m h hr hrS]
          refine scaled_dxOn m (weight m) _ _ _ fun p => ?_
          simp only [weight, h]
        · simp only [h, Mesh.radial, assemble_cons, assemble_nil]
          congr 1
          rw [weight_sph m h hr hrS]
          refine scaled_dxOn m (weight m) _ _ _ fun p => ?_
          simp only [weight, h, Fld.mul_val, dot_smul_left]
          ring
    · rw [assemble_flatMap, assemble_flatMap]
      congr 1
      refine List.map_congr_left fun s _ => ?_
      rw [assemble_map, assemble_map]
      congr 1
      refine List.map_congr_left fun i _ => ?_
      rw [hw]
      apply scaled_dxOn
      intro p
      rw [Fld.mul_val]
      ring
  · rw [assemble_flatMap, assemble_flatMap]
    congr 1
    refine List.map_congr_left fun b _ => ?_
    rw [assemble_map, assemble_map]
    congr 1
    refine List.map_congr_left fun i _ => ?_
    rw [hw]
    apply scaled_ds
    intro p
    rw [Fld.mul_tr]
    ring

/-- C43 as an equivalence. -/
theorem radial_iff (P : Problem Ω Γ d) (htype : P.mesh.type = .cylindrical ∨ P.mesh.type = .spherical)
    (hr : ∀ p, P.mesh.r.val p ≠ 0) (hrS : ∀ q, P.mesh.r.tr q ≠ 0) (bcs : List (MobBC Γ)) (hsk : ∀ b vs, MobBC.sk b vs ∉ bcs)
    (v : Fld Ω Γ d) (vt : List (Fld Ω Γ d)) (x : ℝ) :
    Residual { P with mesh := P.mesh.radial } bcs v vt x ↔
      Residual P bcs (weight P.mesh * v) (vt.map (weight P.mesh * ·)) x := by
  obtain ⟨s, hs, hinv⟩ : ∃ s : Fld Ω Γ d → Fld Ω Γ d, ((P.mesh.type = .cylindrical ∧ s = fun u => u / P.mesh.r) ∨
      (P.mesh.type = .spherical ∧ s = fun u => u / P.mesh.r / P.mesh.r)) ∧ ∀ u, s (weight P.mesh * u) = u := by
    rcases htype with h | h
    · exact ⟨_, .inl ⟨h, rfl⟩, weight_cyl P.mesh h hr hrS⟩
    · exact ⟨_, .inr ⟨h, rfl⟩, weight_sph P.mesh h hr hrS⟩
  have hmap : (vt.map (weight P.mesh * ·)).map s = vt := by
    rw [List.map_map]
    exact (List.map_congr_left fun u _ => hinv u).trans (List.map_id _)
  have fwd : ∀ F, P.form bcs (weight P.mesh * v) (vt.map (weight P.mesh * ·)) = .ok F →
      ∃ F', ({ P with mesh := P.mesh.radial } : Problem Ω Γ d).form bcs v vt = .ok F' ∧ P.mesh.assemble F = P.mesh.radial.assemble F' := by
    intro F hF
    have := Props.C43_measure P bcs _ _ F s hs hr hrS hsk hF
    rwa [hinv, hmap] at this
  have hw0 : ∀ p, (weight P.mesh).val p ≠ 0 := by
    intro p
    rcases htype with h | h
    · simpa [weight, h] using hr p
    · simpa [weight, h] using hr p
  have hw1 : ∀ q, (weight P.mesh).tr q ≠ 0 := by
    intro q
    rcases htype with h | h
    · simpa [weight, h] using hrS q
    · simpa [weight, h] using hrS q
  let ρ : Fld Ω Γ d := ⟨fun p => ((weight P.mesh).val p)⁻¹, fun _ _ => 0, fun q => ((weight P.mesh).tr q)⁻¹⟩
  have hsc : ∀ u : Fld Ω Γ d, Scaled ρ u (weight P.mesh * u) := fun u =>
    ⟨fun p => by rw [Fld.mul_val, ← mul_assoc, inv_mul_cancel₀ (hw0 p), one_mul],
      fun q => by rw [Fld.mul_tr, ← mul_assoc, inv_mul_cancel₀ (hw1 q), one_mul]⟩
  have hvt : List.Forall₂ (Scaled ρ) vt (vt.map (weight P.mesh * ·)) := by
    clear hmap fwd
    induction vt with
    | nil => exact .nil
    | cons a l ih => exact .cons (hsc a) ih
  have bwd : ∀ F', ({ P with mesh := P.mesh.radial } : Problem Ω Γ d).form bcs v vt = .ok F' →
      ∃ F, P.form bcs (weight P.mesh * v) (vt.map (weight P.mesh * ·)) = .ok F := by
    intro F' hF
    simp only [Problem.form, mobileForm, diffusionForm, bind, Except.bind] at hF ⊢
    cases hm : mobileTraps P.mv P.T v P.traps with
    | error e => rw [hm] at hF; cases hF
    | ok K =>
      obtain ⟨K', hK', _⟩ := scaled_mobileTraps P.mesh ρ v (weight P.mesh * v) (hsc v) P.mv P.T P.traps K hm
      rw [hm] at hF
      rw [hK']
      dsimp only at hF ⊢
      cases ht : trapsForm P.mats P.mv P.T P.dt (P.traps.zip vt) with
      | error e => rw [ht] at hF; cases hF
      | ok G =>
        obtain ⟨G', hG', _⟩ := scaled_trapsForm P.mesh ρ P.mats P.mv P.T P.dt P.traps vt _ hvt G ht
        rw [hG']
        exact ⟨_, rfl⟩
  constructor
  · rintro ⟨F', hF', hx⟩
    obtain ⟨F, hF⟩ := bwd F' hF'
    obtain ⟨F'', hF'', he⟩ := fwd F hF
    rw [hF'] at hF''
    cases hF''
    exact ⟨F, hF, he.trans hx⟩
  · rintro ⟨F, hF, hx⟩
    obtain ⟨F', hF', he⟩ := fwd F hF
    exact ⟨F', hF', he ▸ hx⟩

end

end Festim.Weak

namespace Festim.Props

open Festim.Weak

section
variable {Ω Γ Y : Type} [Fintype Ω] [Fintype Γ] [Fintype Y] [DecidableEq Ω] [DecidableEq Γ] {d d' : ℕ}

/-- **C109 (a).** The residual of the three-dimensional problem, for any test functions of the body, is the residual of the
cylindrical (spherical) problem for `r` (`r²`) times their sums over the positions.  (Without surface kinetics, as C43.) -/
theorem C109_residual (P : Problem Ω Γ d) (htype : P.mesh.type = .cylindrical ∨ P.mesh.type = .spherical)
    (hr : ∀ p, P.mesh.r.val p ≠ 0) (hrS : ∀ q, P.mesh.r.tr q ≠ 0) (bcs : List (MobBC Γ)) (hsk : ∀ b vs, MobBC.sk b vs ∉ bcs)
    (wy : Y → ℝ) (x : Fld (Ω × Y) (Γ × Y) d') (turn : Y → (Fin d → ℝ) →ₗ[ℝ] (Fin d' → ℝ))
    (hturn : ∀ y a b, dot (turn y a) (turn y b) = dot a b) (V : Fld (Ω × Y) (Γ × Y) d') (Vt : List (Fld (Ω × Y) (Γ × Y) d')) (R : ℝ) :
    let O := bodyOver P.mesh wy x turn hturn
    Residual (O.problem { P with mesh := P.mesh.radial }) (bcs.map O.bc) V Vt R ↔
      Residual P bcs (weight P.mesh * V.around wy turn) (Vt.map fun w => weight P.mesh * w.around wy turn) R := by
  intro O
  have ht : List.Forall₂ (O.Gathers []) Vt (Vt.map fun w => w.around wy turn) := by
    induction Vt with
    | nil => exact .nil
    | cons a l ih => exact .cons (body_gathers P.mesh wy x turn hturn [] a) ih
  have hb : bcs.map (MobBC.times fun _ => 1) = bcs := by
    refine (List.map_congr_left fun b hb => ?_).trans (List.map_id _)
    cases b with
    | flux f ss => rfl
    | sk b vs => exact absurd hb (hsk b vs)
  have := C107_over { P with mesh := P.mesh.radial } (P.mesh.body wy x) O (bcs.flatMap MobBC.ids) (fun _ => 1) bcs
    (fun b hb s hs => List.mem_flatMap.2 ⟨b, hb, hs⟩) (fun b vs h => absurd h (hsk b vs)) V _
    (body_gathers P.mesh wy x turn hturn _ V) Vt _ ht R
  rw [hb, radial_iff P htype hr hrS bcs hsk, List.map_map] at this
  exact this

/-- **C109 (a), equations.** A state satisfies the cylindrical (spherical) equations exactly when, turned around, it satisfies the
three-dimensional ones.  The test functions of the mesh are those of the body, summed over the positions and multiplied by `r` (`r²`). -/
theorem C109_equations (P : Problem Ω Γ d) (htype : P.mesh.type = .cylindrical ∨ P.mesh.type = .spherical)
    (hr : ∀ p, P.mesh.r.val p ≠ 0) (hrS : ∀ q, P.mesh.r.tr q ≠ 0) (bcs : List (MobBC Γ)) (hsk : ∀ b vs, MobBC.sk b vs ∉ bcs)
    (wy : Y → ℝ) (x : Fld (Ω × Y) (Γ × Y) d') (turn : Y → (Fin d → ℝ) →ₗ[ℝ] (Fin d' → ℝ))
    (hturn : ∀ y a b, dot (turn y a) (turn y b) = dot a b) (W Wt : Fld Ω Γ d → Prop) (W' Wt' : Fld (Ω × Y) (Γ × Y) d' → Prop)
    (hW : ∀ v, W v ↔ ∃ V, W' V ∧ weight P.mesh * V.around wy turn = v)
    (hWt : ∀ v, Wt v ↔ ∃ V, Wt' V ∧ weight P.mesh * V.around wy turn = v) :
    let O := bodyOver P.mesh wy x turn hturn
    EquationsHold W' Wt' (O.problem { P with mesh := P.mesh.radial }) (bcs.map O.bc) ↔ EquationsHold W Wt P bcs := by
  intro O
  have hb : ∀ f, bcs.map (MobBC.test f) = bcs := by
    intro f
    refine (List.map_congr_left fun b hb => ?_).trans (List.map_id _)
    cases b with
    | flux f ss => rfl
    | sk b vs => exact absurd hb (hsk b vs)
  have hb' : ∀ f, (bcs.map O.bc).map (MobBC.test f) = bcs.map O.bc := by
    intro f
    refine (List.map_congr_left fun b hb => ?_).trans (List.map_id _)
    obtain ⟨b, hb0, rfl⟩ := List.mem_map.1 hb
    cases b with
    | flux f ss => rfl
    | sk b vs => exact absurd hb0 (hsk b vs)
  have hres := C109_residual P htype hr hrS bcs hsk wy x turn hturn
  unfold EquationsHold
  simp only [hb, hb']
  have hlen : (O.problem { P with mesh := P.mesh.radial }).traps.length = P.traps.length := by simp [Over.problem]
  rw [hlen]
  constructor
  · intro h v hv vt hvt hwt f
    obtain ⟨V, hV, rfl⟩ := (hW v).1 hv
    obtain ⟨Vt, hVt, rfl⟩ : ∃ Vt : List (Fld (Ω × Y) (Γ × Y) d'), (∀ w ∈ Vt, Wt' w) ∧ Vt.map (fun w => weight P.mesh * w.around wy turn) = vt := by
      clear hvt
      induction vt with
      | nil => exact ⟨[], by simp, rfl⟩
      | cons a l ih =>
        obtain ⟨Vt, h1, rfl⟩ := ih fun w hw => hwt w (List.mem_cons_of_mem _ hw)
        obtain ⟨A, hA, rfl⟩ := (hWt a).1 (hwt a List.mem_cons_self)
        exact ⟨A :: Vt, by simpa [hA] using h1, rfl⟩
    rw [List.length_map] at hvt
    exact (hres V Vt 0).1 (h V hV Vt hvt hVt f)
  · intro h V hV Vt hVt hwt f
    refine (hres V Vt 0).2 (h _ ((hW _).2 ⟨V, hV, rfl⟩) _ (by rw [List.length_map]; exact hVt) ?_ f)
    intro w hw
    obtain ⟨A, hA, rfl⟩ := List.mem_map.1 hw
    exact (hWt _).2 ⟨A, hwt A hA, rfl⟩

/-- **C109 (a), temperature.** -/
theorem C109_heat (m : Mesh Ω Γ d) (htype : m.type = .cylindrical ∨ m.type = .spherical) (hr : ∀ p, m.r.val p ≠ 0)
    (hrS : ∀ q, m.r.tr q ≠ 0) (mats : List Mat) (T : Temp Ω Γ d) (dt : Option ℝ) (sources : List ((Ω → ℝ) × List ℕ))
    (bcs : List (Flux Γ × List ℕ)) (wy : Y → ℝ) (x : Fld (Ω × Y) (Γ × Y) d') (turn : Y → (Fin d → ℝ) →ₗ[ℝ] (Fin d' → ℝ))
    (hturn : ∀ y a b, dot (turn y a) (turn y b) = dot a b) (V : Fld (Ω × Y) (Γ × Y) d') :
    let O := bodyOver m wy x turn hturn
    (m.body wy x).assemble (heatForm (m.body wy x) mats (O.temp T) dt (sources.map fun s => (fun p => s.1 p.1, s.2))
        (bcs.map fun b => (O.flux b.1, b.2)) V)
      = m.assemble (heatForm m mats T dt sources bcs (weight m * V.around wy turn)) := by
  intro O
  rw [radial_heat m htype hr hrS]
  exact C107_heat m.radial (m.body wy x) O (bcs.flatMap (·.2)) mats T dt sources bcs (fun b hb s hs => List.mem_flatMap.2 ⟨b, hb, hs⟩) V _
    (body_gathers m wy x turn hturn _ V)

omit [DecidableEq Ω] [DecidableEq Γ] in
theorem body_dxOn [DecidableEq Ω] (m : Mesh Ω Γ d) (wy : Y → ℝ) (x : Fld (Ω × Y) (Γ × Y) d') (v : ℕ) (g : Ω × Y → ℝ) (f : Ω → ℝ)
    (h : ∀ p, g p = f p.1) :
    (m.body wy x).integrate (.dxOn [v] g) = m.integrate (.dxOn [v] fun p => f p * (weight m).val p) * ∑ y, wy y := by
  simp only [Mesh.integrate, Fintype.sum_prod_type, h]
  rw [Finset.sum_mul]
  refine Finset.sum_congr rfl fun p _ => ?_
  rw [Finset.mul_sum]
  refine Finset.sum_congr rfl fun y _ => ?_
  show (if m.vm p ∈ [v] then m.w p * (weight m).val p * wy y * f p else 0) = (if m.vm p ∈ [v] then m.w p * (f p * (weight m).val p) else 0) * wy y
  split
  · ring
  · ring

omit [DecidableEq Ω] [DecidableEq Γ] in
theorem body_ds (m : Mesh Ω Γ d) (wy : Y → ℝ) (x : Fld (Ω × Y) (Γ × Y) d') (s : ℕ) (g : Γ × Y → ℝ) (f : Γ → ℝ)
    (h : ∀ q, g q = f q.1) :
    (m.body wy x).integrate (.ds s g) = m.integrate (.ds s fun q => f q * (weight m).tr q) * ∑ y, wy y := by
  simp only [Mesh.integrate, Fintype.sum_prod_type, h]
  rw [Finset.sum_mul]
  refine Finset.sum_congr rfl fun p _ => ?_
  rw [Finset.mul_sum]
  refine Finset.sum_congr rfl fun y _ => ?_
  show (if m.sm p = s then m.ws p * (weight m).tr p * wy y * f p else 0) = (if m.sm p = s then m.ws p * (f p * (weight m).tr p) else 0) * wy y
  split
  · ring
  · ring

omit [DecidableEq Ω] [DecidableEq Γ] in
/-- **C109 (b).** `TotalVolumeCylindrical`, `TotalSurfaceCylindrical` (`...Spherical`) are the totals over the body, if the angles of
the quantity are those of the body. -/
theorem C109_totals (wy : Y → ℝ) (turn : Y → (Fin d → ℝ) →ₗ[ℝ] (Fin d' → ℝ)) (e : PostEnv Ω Γ d) (e' : PostEnv (Ω × Y) (Γ × Y) d')
    (he : e.Turned wy turn e') (f : PostFun Ω Γ d) (f' : PostFun (Ω × Y) (Γ × Y) d') (hf : f.Turned turn f') (g : Geom)
    (hg : g.Matches e.mesh.type) (hwy : ∑ y, wy y = g.totalFactor) (i : ℕ) :
    evalTotalVolume e' .cartesian i f' = evalTotalVolume e g i f ∧ evalTotalSurface e' .cartesian i f' = evalTotalSurface e g i f := by
  classical
  rw [evalTotalVolume, evalTotalSurface, he.mesh, body_dxOn _ _ _ _ _ f.val hf.val, body_ds _ _ _ _ _ f.tr hf.tr, hwy]
  cases g with
  | cartesian => exact hg.elim
  | cylindrical az =>
    have ht : e.mesh.type = .cylindrical := by
      revert hg
      cases e.mesh.type <;> simp [Geom.Matches]
    simp only [weight, ht]
    exact ⟨rfl, rfl⟩
  | spherical az pol =>
    have ht : e.mesh.type = .spherical := by
      revert hg
      cases e.mesh.type <;> simp [Geom.Matches]
    simp only [weight, ht, evalTotalVolume, evalTotalSurface, Fld.mul_val, Fld.mul_tr, sq]
    exact ⟨trivial, trivial⟩

omit [DecidableEq Ω] [DecidableEq Γ] in
/-- **C109 (b).** `SurfaceFluxCylindrical` (`SurfaceFluxSpherical`) is the flux through the surface of the body. -/
theorem C109_flux (wy : Y → ℝ) (turn : Y → (Fin d → ℝ) →ₗ[ℝ] (Fin d' → ℝ)) (hturn : ∀ y a b, dot (turn y a) (turn y b) = dot a b)
    (e : PostEnv Ω Γ d) (e' : PostEnv (Ω × Y) (Γ × Y) d')
    (he : e.Turned wy turn e') (f : PostFun Ω Γ d) (f' : PostFun (Ω × Y) (Γ × Y) d') (hf : f.Turned turn f') (g : Geom)
    (hg : g.Matches e.mesh.type) (hwy : ∑ y, wy y = g.fluxFactor) (field : Field) (s : ℕ) :
    evalSurfaceFlux e' .cartesian field s f' = evalSurfaceFlux e g field s f := by
  have hw : ∀ q, (weight e.mesh).tr q = g.weightS e.mesh q := by
    intro q
    revert hg
    cases g <;> cases ht : e.mesh.type <;> simp [Geom.Matches, weight, ht, Geom.weightS, sq, Fld.mul_tr]
  have hprop : e'.prop field = match e.prop field with
      | .error err => .error err
      | .ok none => .ok none
      | .ok (some k) => .ok (some fun q => k q.1) := by
    unfold PostEnv.prop
    have hD : e'.D = fun q => e.D q.1 := funext he.D
    rw [he.cond, hD]
    split
    · rfl
    · split
      · cases e.cond <;> rfl
      · rfl
  unfold evalSurfaceFlux
  rw [hprop]
  cases e.prop field with
  | error err => rfl
  | ok k =>
    cases k with
    | none => rfl
    | some k =>
      dsimp only
      rw [he.mesh, he.soret, he.Q]
      rw [body_ds e.mesh wy e'.mesh.r s _ (fun q => k q * dot (f.gradS q) (e.n q))
        (fun q => by rw [hf.grad, he.n, hturn]; simp [Geom.weightS]), hwy]
      have e1 : (fun q => k q * dot (f.gradS q) (e.n q) * (weight e.mesh).tr q) = fun q => k q * g.weightS e.mesh q * dot (f.gradS q) (e.n q) := by
        funext q
        rw [hw]
        ring
      rw [e1]
      split
      · cases e.Q with
        | none => rfl
        | some Q =>
          dsimp only [Option.map_some]
          rw [body_ds e.mesh wy e'.mesh.r s _ (fun q => k q * f.tr q * Q q / (kB * e.T.tr q ^ 2) * dot (e.T.gradS q) (e.n q))
            (fun q => by rw [hf.tr, he.T.tr, he.T.grad, he.n, hturn]; simp [Geom.weightS]), hwy]
          have e2 : (fun q => k q * f.tr q * Q q / (kB * e.T.tr q ^ 2) * dot (e.T.gradS q) (e.n q) * (weight e.mesh).tr q)
              = fun q => k q * g.weightS e.mesh q * f.tr q * Q q / (kB * e.T.tr q ^ 2) * dot (e.T.gradS q) (e.n q) := by
            funext q
            rw [hw]
            ring
          rw [e2, show Geom.cartesian.fluxFactor = 1 from rfl, mul_one, add_mul]
      · rw [show Geom.cartesian.fluxFactor = 1 from rfl, mul_one]

omit [DecidableEq Ω] [DecidableEq Γ] in
/-- **C109 (b).** `AverageVolumeCylindrical` (`...Spherical`) is the average over the body. -/
theorem C109_average (wy : Y → ℝ) (turn : Y → (Fin d → ℝ) →ₗ[ℝ] (Fin d' → ℝ)) (e : PostEnv Ω Γ d) (e' : PostEnv (Ω × Y) (Γ × Y) d')
    (he : e.Turned wy turn e') (f : PostFun Ω Γ d) (f' : PostFun (Ω × Y) (Γ × Y) d') (hf : f.Turned turn f') (s : Suffix)
    (hs : s = .cylindrical ∧ e.mesh.type = .cylindrical ∨ s = .spherical ∧ e.mesh.type = .spherical) (hwy : ∑ y, wy y ≠ 0) (i : ℕ) :
    evalAverageVolume e' .cartesian i f' = evalAverageVolume e s i f ∧
    (s = .cylindrical → evalAverageSurface e' .cartesian i f' = evalAverageSurface e s i f) := by
  classical
  have hdiv : ∀ a b c : ℝ, c ≠ 0 → pyDiv (a * c) (b * c) = pyDiv a b := by
    intro a b c hc
    unfold pyDiv
    by_cases hb : b = 0
    · simp [hb]
    · rw [if_neg hb, if_neg (mul_ne_zero hb hc), mul_div_mul_right _ _ hc]
  rw [evalAverageVolume, he.mesh, body_dxOn _ _ _ _ _ f.val hf.val, body_dxOn _ _ _ _ _ (fun _ => 1) fun _ => rfl, hdiv _ _ _ hwy]
  constructor
  · rcases hs with ⟨rfl, ht⟩ | ⟨rfl, ht⟩
    · simp only [weight, ht]
      rfl
    · simp only [weight, ht, Fld.mul_val, evalAverageVolume, sq]
  · rintro rfl
    have ht : e.mesh.type = .cylindrical := by
      rcases hs with ⟨_, ht⟩ | ⟨h, _⟩
      · exact ht
      · cases h
    show pyDiv (e'.mesh.integrate _) (e'.mesh.integrate _) = _
    rw [he.mesh, body_ds _ _ _ _ _ f.tr hf.tr, body_ds _ _ _ _ _ (fun _ => 1) fun _ => rfl, hdiv _ _ _ hwy]
    simp only [weight, ht]
    rfl

end

namespace Case

/-- A step of a tube with a trap and a source, from 4 to 5 mobile atoms and from 0 to 1 trapped atom. -/
theorem tube_solved (type : Coord) (v w : Fld (Fin 2) (Fin 2) 1) : Residual (probOf type 2) [] v [w] 0 := by
  refine ⟨_, rfl, ?_⟩
  cases type <;> simp [probOf, meshOf, mat, trap, mobileForm, Mesh.assemble, Mesh.integrate, Form.neg,
    diffusionForm, subdomainForm, Fld.const, dot, sourceForm, fluxesForm, Src.at, Mobile.conc, trapSourceForm] <;> ring

/-- A quarter of turn between two positions. -/
noncomputable def quarter (y : Fin 4) : (Fin 1 → ℝ) →ₗ[ℝ] (Fin 2 → ℝ) := onCircle (y.val * (Real.pi / 2))

theorem quarter_dot (y : Fin 4) (a b : Fin 1 → ℝ) : dot (quarter y a) (quarter y b) = dot a b := onCircle_dot _ a b

theorem r_val (type : Coord) (p : Fin 2) : (meshOf type).r.val p ≠ 0 := by
  fin_cases p <;> simp [meshOf]

theorem r_tr (type : Coord) (q : Fin 2) : (meshOf type).r.tr q ≠ 0 := by
  fin_cases q <;> simp [meshOf]

/-- C109 (a): the tube in the plane, for all test functions. -/
example (x V W : Fld (Fin 2 × Fin 4) (Fin 2 × Fin 4) 2) :
    let O := bodyOver (meshOf .cylindrical) (fun _ : Fin 4 => Real.pi / 2) x quarter quarter_dot
    Residual (O.problem { probOf .cylindrical 2 with mesh := (meshOf .cylindrical).radial }) [] V [W] 0 :=
  (C109_residual (probOf .cylindrical 2) (.inl rfl) (r_val _) (r_tr _) [] (by simp) (fun _ => Real.pi / 2) x quarter quarter_dot V [W] 0).2
    (tube_solved _ _ _)

/-- The six points of a ball on the axes, as positions around its centre. -/
noncomputable def axes : Fin 6 → (Fin 1 → ℝ) →ₗ[ℝ] (Fin 3 → ℝ) :=
  ![onSphere 0 0, onSphere 0 Real.pi, onSphere 0 (Real.pi / 2), onSphere (Real.pi / 2) (Real.pi / 2), onSphere Real.pi (Real.pi / 2),
    onSphere (3 * Real.pi / 2) (Real.pi / 2)]

theorem axes_dot (y : Fin 6) (a b : Fin 1 → ℝ) : dot (axes y a) (axes y b) = dot a b := by
  fin_cases y <;> exact onSphere_dot _ _ a b

/-- C109 (a): a ball. -/
example (x : Fld (Fin 2 × Fin 6) (Fin 2 × Fin 6) 3) :
    let O := bodyOver (meshOf .spherical) (fun _ : Fin 6 => 4 * Real.pi / 6) x axes axes_dot
    EquationsHold (fun _ => True) (fun _ => True) (O.problem { probOf .spherical 2 with mesh := (meshOf .spherical).radial }) [] := by
  refine (C109_equations (probOf .spherical 2) (.inr rfl) (r_val _) (r_tr _) [] (by simp) (fun _ => 4 * Real.pi / 6) x axes axes_dot
    (fun v => ∃ V : Fld (Fin 2 × Fin 6) (Fin 2 × Fin 6) 3, True ∧ weight (meshOf .spherical) * V.around (fun _ => 4 * Real.pi / 6) axes = v)
    (fun v => ∃ V : Fld (Fin 2 × Fin 6) (Fin 2 × Fin 6) 3, True ∧ weight (meshOf .spherical) * V.around (fun _ => 4 * Real.pi / 6) axes = v) _ _ (fun _ => Iff.rfl) fun _ => Iff.rfl).2 ?_
  intro v _ vt hvt _ f
  match vt, hvt with
  | [w], _ => exact tube_solved _ v w

/-- C109 (a), temperature: a heated cylinder which exchanges heat with a fluid. -/
example (x V : Fld (Fin 2 × Fin 4) (Fin 2 × Fin 4) 2) (T : Temp (Fin 2) (Fin 2) 1) :
    let O := bodyOver (meshOf .cylindrical) (fun _ : Fin 4 => Real.pi / 2) x quarter quarter_dot
    ((meshOf .cylindrical).body (fun _ : Fin 4 => Real.pi / 2) x).assemble
      (heatForm ((meshOf .cylindrical).body (fun _ : Fin 4 => Real.pi / 2) x) [mat] (O.temp T) (some 1) [(fun _ => 7, [1, 2])] [(O.flux (.convective (fun _ => 2) fun _ => 300), [2])] V)
    = (meshOf .cylindrical).assemble (heatForm (meshOf .cylindrical) [mat] T (some 1) [(fun _ => 7, [1, 2])]
        [(.convective (fun _ => 2) fun _ => 300, [2])] (weight (meshOf .cylindrical) * V.around (fun _ => Real.pi / 2) quarter)) :=
  C109_heat (meshOf .cylindrical) (.inl rfl) (r_val _) (r_tr _) [mat] T (some 1) [(fun _ => 7, [1, 2])]
    [(.convective (fun _ => 2) fun _ => 300, [2])] (fun _ => Real.pi / 2) x quarter quarter_dot V

/-- C107, temperature: the radial section of the cylinder itself. -/
example (x V : Fld (Fin 2 × Fin 4) (Fin 2 × Fin 4) 2) (T : Temp (Fin 2) (Fin 2) 1) :
    let O := bodyOver (meshOf .cylindrical) (fun _ : Fin 4 => Real.pi / 2) x quarter quarter_dot
    ((meshOf .cylindrical).body (fun _ : Fin 4 => Real.pi / 2) x).assemble
      (heatForm ((meshOf .cylindrical).body (fun _ : Fin 4 => Real.pi / 2) x) [mat] (O.temp T) none [] [(O.flux (.value fun _ => 3), [1])] V)
    = (meshOf .cylindrical).radial.assemble (heatForm (meshOf .cylindrical).radial [mat] T none [] [(.value fun _ => 3, [1])]
        (V.around (fun _ => Real.pi / 2) quarter)) :=
  C107_heat _ _ (bodyOver (meshOf .cylindrical) (fun _ : Fin 4 => Real.pi / 2) x quarter quarter_dot) [1] [mat] T none []
    [(.value fun _ => 3, [1])] (by simp) V _ (body_gathers _ _ x quarter quarter_dot [1] V)

/-- Derived quantities of the tube. -/
noncomputable def tubeFun : PostFun (Fin 2) (Fin 2) 1 := ⟨fun p => p.val + 3, fun q => q.val + 3, fun _ _ => 1, [], fun _ => 0, true⟩
noncomputable def planeFun : PostFun (Fin 2 × Fin 4) (Fin 2 × Fin 4) 2 :=
  ⟨fun p => p.1.val + 3, fun q => q.1.val + 3, fun q => quarter q.2 fun _ => 1, [], fun _ => 0, true⟩

noncomputable def tubeEnv : PostEnv (Fin 2) (Fin 2) 1 where
  mesh := meshOf .cylindrical
  n q _ := if q = 0 then -1 else 1
  D _ := 2
  cond := some fun _ => 5
  Q := none
  T := tubeFun
  soret := false
  solute := tubeFun
  traps := []
  ids := []
  adsorbed := []

noncomputable def planeEnv : PostEnv (Fin 2 × Fin 4) (Fin 2 × Fin 4) 2 where
  mesh := (meshOf .cylindrical).body (fun _ => Real.pi / 2) (Fld.const 0)
  n q := quarter q.2 (tubeEnv.n q.1)
  D _ := 2
  cond := some fun _ => 5
  Q := none
  T := planeFun
  soret := false
  solute := planeFun
  traps := []
  ids := []
  adsorbed := []

theorem tubeFun_turned : tubeFun.Turned quarter planeFun := ⟨fun _ => rfl, fun _ => rfl, fun _ => rfl⟩

theorem tubeEnv_turned : tubeEnv.Turned (fun _ => Real.pi / 2) quarter planeEnv :=
  ⟨rfl, fun _ => rfl, fun _ => rfl, rfl, rfl, tubeFun_turned, rfl⟩

theorem quarters : ∑ _y : Fin 4, Real.pi / 2 = Geom.totalFactor (.cylindrical (0, 2 * Real.pi)) := by
  simp [Geom.totalFactor]
  ring

/-- C109 (b): the hydrogen in the inner part of the tube, its mean concentration, the flux through the outer surface. -/
example : evalTotalVolume planeEnv .cartesian 1 planeFun = evalTotalVolume tubeEnv (.cylindrical (0, 2 * Real.pi)) 1 tubeFun ∧
    evalTotalVolume tubeEnv (.cylindrical (0, 2 * Real.pi)) 1 tubeFun = 3 * Real.pi := by
  refine ⟨(C109_totals _ quarter tubeEnv planeEnv tubeEnv_turned tubeFun planeFun tubeFun_turned (.cylindrical (0, 2 * Real.pi)) trivial quarters 1).1, ?_⟩
  simp [evalTotalVolume, tubeEnv, tubeFun, meshOf, Mesh.integrate, Geom.totalFactor]
  ring

example : evalSurfaceFlux planeEnv .cartesian (.int 0) 2 planeFun = evalSurfaceFlux tubeEnv (.cylindrical (0, 2 * Real.pi)) (.int 0) 2 tubeFun :=
  C109_flux _ quarter quarter_dot tubeEnv planeEnv tubeEnv_turned tubeFun planeFun tubeFun_turned (.cylindrical (0, 2 * Real.pi)) trivial
    quarters (.int 0) 2

example : evalAverageVolume planeEnv .cartesian 2 planeFun = evalAverageVolume tubeEnv .cylindrical 2 tubeFun :=
  (C109_average _ quarter tubeEnv planeEnv tubeEnv_turned tubeFun planeFun tubeFun_turned .cylindrical (.inl ⟨rfl, rfl⟩)
    (by rw [quarters]; simp [Geom.totalFactor, Real.pi_ne_zero]) 2).1

end Case

end Festim.Props
