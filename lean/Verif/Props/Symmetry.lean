import Verif.Proofs.Over

/-!
# C107: half of a symmetric domain, a section of a long one

A user simulates half of a symmetric domain, or a section of one which does not depend on a direction, and takes the result for
the whole.  The equations of FESTIM allow it, with traps, several materials, the chemical potential, Soret effect, any
coordinates and any flux conditions.
-/

open scoped BigOperators

set_option linter.unusedSectionVars false

namespace Festim.Props

open Festim.Weak

section
variable {Ω Γ Ω' Γ' : Type} [Fintype Ω] [Fintype Γ] [Fintype Ω'] [Fintype Γ'] [DecidableEq Ω] [DecidableEq Γ] {d d' : ℕ}

/-- **C107.** A problem and the same problem on a domain which lies over its own: the residual above, for any test functions, is the
residual below for the test functions gathered. -/
theorem C107_over (P : Problem Ω Γ d) (m' : Mesh Ω' Γ' d') (O : Over P.mesh m') (ss : List ℕ) (k : ℕ → ℝ) (bcs : List (MobBC Γ))
    (hb : ∀ b ∈ bcs, ∀ s ∈ b.ids, s ∈ ss) (hk : ∀ b vs, MobBC.sk b vs ∈ bcs → ∀ s ∈ b.surfaces, O.Copies k s.id)
    (v' : Fld Ω' Γ' d') (v : Fld Ω Γ d) (h : O.Gathers ss v' v) (vt' : List (Fld Ω' Γ' d')) (vt : List (Fld Ω Γ d))
    (ht : List.Forall₂ (O.Gathers []) vt' vt) (x : ℝ) :
    Residual (O.problem P) (bcs.map O.bc) v' vt' x ↔ Residual P (bcs.map (MobBC.times k)) v vt x := by
  unfold Residual
  rcases over_form P O h ht k bcs hb hk with ⟨e, h1, h2⟩ | ⟨F, F', h1, h2, h3⟩
  · rw [h1, h2]
    constructor <;> · rintro ⟨F, hF, _⟩; cases hF
  · rw [h1, h2]
    constructor
    · rintro ⟨G, hG, hx⟩
      cases hG
      exact ⟨F, rfl, h3 ▸ hx⟩
    · rintro ⟨G, hG, hx⟩
      cases hG
      exact ⟨F', rfl, h3.trans hx⟩

/-- **C107.** The same for the equation of the temperature. -/
theorem C107_heat (m : Mesh Ω Γ d) (m' : Mesh Ω' Γ' d') (O : Over m m') (ss : List ℕ) (mats : List Mat) (T : Temp Ω Γ d) (dt : Option ℝ)
    (sources : List ((Ω → ℝ) × List ℕ)) (bcs : List (Flux Γ × List ℕ)) (hb : ∀ b ∈ bcs, ∀ s ∈ b.2, s ∈ ss) (v' : Fld Ω' Γ' d')
    (v : Fld Ω Γ d) (h : O.Gathers ss v' v) :
    m'.assemble (heatForm m' mats (O.temp T) dt (sources.map fun s => (fun p => s.1 (O.pt p), s.2)) (bcs.map fun b => (O.flux b.1, b.2)) v')
      = m.assemble (heatForm m mats T dt sources bcs v) :=
  over_heat h mats T dt sources bcs hb

/-- **C107, directions.** Turned or reflected as a whole, a problem in cartesian coordinates has the same residuals. -/
theorem C107_turned (P : Problem Ω Γ d) (hc : P.mesh.type = .cartesian) (r : Fld Ω Γ d) (rot : (Fin d → ℝ) →ₗ[ℝ] (Fin d → ℝ))
    (hrot : ∀ a b, dot (rot a) (rot b) = dot a b) (bcs : List (MobBC Γ)) (v : Fld Ω Γ d) (vt : List (Fld Ω Γ d)) (x : ℝ) :
    let turn : Fld Ω Γ d → Fld Ω Γ d := fun u => ⟨u.val, fun p => rot (u.grad p), u.tr⟩
    Residual { P with
        mesh := { P.mesh with r := r }
        mv := { P.mv with sol := turn P.mv.sol, prev := turn P.mv.prev, S := turn P.mv.S }
        T := ⟨turn P.T.T, turn P.T.Tn⟩
        traps := P.traps.map fun t => { t with sol := turn t.sol, prev := turn t.prev } }
      bcs (turn v) (vt.map turn) x ↔ Residual P bcs v vt x := by
  intro turn
  let O : Over P.mesh { P.mesh with r := r } :=
    { pt := id, ptS := id, dir := fun _ => rot, dir_dot := fun _ => hrot, vm := fun _ => rfl, sm := fun _ => rfl,
      vmS := fun _ => rfl, type := rfl, r_val := fun h => absurd hc h, r_grad := fun h => absurd hc h }
  have hg : ∀ (ss : List ℕ) (u : Fld Ω Γ d), O.Gathers ss (turn u) u := by
    intro ss u
    refine ⟨fun p => ?_, fun p a => ?_, fun q _ => ?_⟩
    · simp [O, turn]
    · simp only [O, turn, id, Finset.sum_ite_eq', Finset.mem_univ, if_true, hrot]
    · simp [O, turn]
  have hs : ∀ l : List (Src Ω), l.map O.src = l := by
    intro l
    refine (List.map_congr_left fun s _ => ?_).trans (List.map_id l)
    obtain ⟨val, vols⟩ := s
    cases val <;> rfl
  have hbc : bcs.map O.bc = bcs := by
    refine (List.map_congr_left fun b _ => ?_).trans (List.map_id bcs)
    cases b with
    | sk b vs => rfl
    | flux f l => cases f <;> rfl
  have := C107_over P _ O (bcs.flatMap MobBC.ids) (fun _ => 1) bcs (fun b hb s hs => List.mem_flatMap.2 ⟨b, hb, hs⟩)
    (fun b vs _ s _ q _ => by simp [O]) (turn v) v (hg _ v) (vt.map turn) vt (by
      induction vt with
      | nil => exact .nil
      | cons w l ih => exact .cons (hg _ w) ih) x
  rw [hbc, show Residual P (bcs.map (MobBC.times fun _ => 1)) v vt x ↔ Residual P bcs v vt x by
    unfold Residual; rw [form_times_one]] at this
  refine Iff.trans (Eq.to_iff ?_) this
  congr 1
  show Problem.mk _ _ _ _ _ _ _ _ = Problem.mk _ _ _ _ _ _ _ _
  congr 1
  · exact (hs _).symm
  · refine List.map_congr_left fun t _ => ?_
    show Trap.mk _ _ _ _ _ _ _ _ _ = Trap.mk _ _ _ _ _ _ _ _ _
    congr 1
    · exact (List.map_id _).symm
    · exact (hs _).symm

/-- From residuals to equations: above and below, when the test functions above gather to those below. -/
theorem equations_over (P : Problem Ω Γ d) (m' : Mesh Ω' Γ' d') (O : Over P.mesh m') (ss : List ℕ) (k : ℕ → ℝ) (hk0 : ∀ s, k s ≠ 0)
    (bcs : List (MobBC Γ)) (hb : ∀ b ∈ bcs, ∀ s ∈ b.ids, s ∈ ss)
    (hk : ∀ b vs, MobBC.sk b vs ∈ bcs → ∀ s ∈ b.surfaces, O.Copies k s.id) (W Wt : Fld Ω Γ d → Prop) (W' Wt' : Fld Ω' Γ' d' → Prop)
    (h1 : ∀ v', W' v' → ∃ v, W v ∧ O.Gathers ss v' v) (h2 : ∀ v, W v → ∃ v', W' v' ∧ O.Gathers ss v' v)
    (h3 : ∀ v', Wt' v' → ∃ v, Wt v ∧ O.Gathers [] v' v) (h4 : ∀ v, Wt v → ∃ v', Wt' v' ∧ O.Gathers [] v' v) :
    EquationsHold W' Wt' (O.problem P) (bcs.map O.bc) ↔ EquationsHold W Wt P bcs := by
  have hids : ∀ f, ∀ b ∈ bcs.map (MobBC.test f), ∀ s ∈ b.ids, s ∈ ss := by
    intro f b hb' s hs
    obtain ⟨b, hb0, rfl⟩ := List.mem_map.1 hb'
    rw [ids_test] at hs
    exact hb b hb0 s hs
  have hcop : ∀ f b vs, MobBC.sk b vs ∈ bcs.map (MobBC.test f) → ∀ s ∈ b.surfaces, O.Copies k s.id := by
    intro f b vs hb' s hs
    obtain ⟨b0, hb0, h0⟩ := List.mem_map.1 hb'
    cases b0 with
    | flux g l => cases h0
    | sk b1 vs1 => cases h0; exact hk b vs1 hb0 s hs
  have hmapa : ∀ f, (bcs.map O.bc).map (MobBC.test f) = (bcs.map (MobBC.test f)).map O.bc := by
    intro f
    rw [List.map_map, List.map_map]
    exact List.map_congr_left fun b _ => bc_test O f b
  have hmapb : ∀ f, (bcs.map (MobBC.test f)).map (MobBC.times k) = bcs.map (MobBC.test fun s => k s * f s) := by
    intro f
    rw [List.map_map]
    exact List.map_congr_left fun b _ => times_test k f b
  constructor
  · intro h v hv vt hl hvt f
    obtain ⟨v', hv', hg⟩ := h2 v hv
    obtain ⟨vt', hvt', hgt⟩ : ∃ vt', (∀ w ∈ vt', Wt' w) ∧ List.Forall₂ (O.Gathers []) vt' vt := by
      clear hl
      induction vt with
      | nil => exact ⟨[], by simp, .nil⟩
      | cons w l ih =>
        obtain ⟨l', h5, h6⟩ := ih fun w hw => hvt w (List.mem_cons_of_mem _ hw)
        obtain ⟨w', h7, h8⟩ := h4 w (hvt w List.mem_cons_self)
        exact ⟨w' :: l', by simpa using ⟨h7, h5⟩, .cons h8 h6⟩
    have := h v' hv' vt' (by rw [hgt.length_eq, hl]; simp [Over.problem]) hvt' fun s => (k s)⁻¹ * f s
    rw [hmapa, C107_over P m' O ss k _ (hids _) (hcop _) v' v hg vt' vt hgt, hmapb] at this
    have e : (fun s => k s * ((k s)⁻¹ * f s)) = f := by
      funext s
      rw [← mul_assoc, mul_inv_cancel₀ (hk0 s), one_mul]
    rwa [e] at this
  · intro h v' hv' vt' hl hvt' f
    obtain ⟨v, hv, hg⟩ := h1 v' hv'
    obtain ⟨vt, hvt, hgt⟩ : ∃ vt, (∀ w ∈ vt, Wt w) ∧ List.Forall₂ (O.Gathers []) vt' vt := by
      clear hl
      induction vt' with
      | nil => exact ⟨[], by simp, .nil⟩
      | cons w l ih =>
        obtain ⟨l', h5, h6⟩ := ih fun w hw => hvt' w (List.mem_cons_of_mem _ hw)
        obtain ⟨w', h7, h8⟩ := h3 w (hvt' w List.mem_cons_self)
        exact ⟨w' :: l', by simpa using ⟨h7, h5⟩, .cons h8 h6⟩
    rw [hmapa, C107_over P m' O ss k _ (hids _) (hcop _) v' v hg vt' vt hgt, hmapb]
    exact h v hv vt (by rw [← hgt.length_eq, hl]; simp [Over.problem]) hvt _

theorem mirror_gathers (m : Mesh Ω Γ d) (plane : Γ → Prop) [DecidablePred plane]
    (r : Fld (Ω ⊕ Ω) ({q // ¬plane q} ⊕ {q // ¬plane q}) d)
    (ref : (Fin d → ℝ) →ₗ[ℝ] (Fin d → ℝ)) (href : ∀ a b, dot (ref a) (ref b) = dot a b)
    (hr : m.type ≠ .cartesian → r = Fld.join ref plane m.r m.r) (ss : List ℕ) (hss : ∀ q, m.sm q ∈ ss → ¬plane q)
    (v w : Fld Ω Γ d) : (mirrorOver m plane r ref href hr).Gathers ss (Fld.join ref plane v w) (v + w) := by
  have hsub : ∀ (q : Γ), ¬plane q → ∀ g : Γ → ℝ, (∑ x : {q // ¬plane q}, if x.1 = q then g x.1 else 0) = g q := by
    intro q hq g
    rw [Finset.sum_eq_single ⟨q, hq⟩]
    · simp
    · intro b _ hb
      rw [if_neg fun h => hb (Subtype.ext h)]
    · simp
  refine ⟨fun p => ?_, fun p a => ?_, fun q hq => ?_⟩
  · rw [Fintype.sum_sum_type]
    show m.w p * (v.val p + w.val p) =
      (∑ x, if x = p then m.w x * v.val x else 0) + ∑ x, if x = p then m.w x * w.val x else 0
    rw [Finset.sum_ite_eq', Finset.sum_ite_eq', if_pos (Finset.mem_univ _), if_pos (Finset.mem_univ _), mul_add]
  · rw [Fintype.sum_sum_type]
    show m.w p * dot a (fun i => v.grad p i + w.grad p i) =
      (∑ x, if x = p then m.w x * dot a (v.grad x) else 0) + ∑ x, if x = p then m.w x * dot (ref a) (ref (w.grad x)) else 0
    rw [Finset.sum_ite_eq', Finset.sum_ite_eq', if_pos (Finset.mem_univ _), if_pos (Finset.mem_univ _), href, ← mul_add]
    congr 1
    simp only [dot, ← Finset.sum_add_distrib]
    exact Finset.sum_congr rfl fun i _ => mul_add _ _ _
  · rw [Fintype.sum_sum_type]
    show m.ws q * (v.tr q + w.tr q) = (∑ x : {q // ¬plane q}, if x.1 = q then m.ws x.1 * v.tr x.1 else 0) +
      ∑ x : {q // ¬plane q}, if x.1 = q then m.ws x.1 * w.tr x.1 else 0
    rw [hsub q (hss q hq) fun q => m.ws q * v.tr q, hsub q (hss q hq) fun q => m.ws q * w.tr q, mul_add]

/-- **C107, symmetric domains.** No condition being given on the plane of symmetry, a state of half of the domain satisfies the
equations there exactly when the state completed by symmetry satisfies the equations on the whole domain.  `W'` are the
test functions on the whole domain: they give test functions `W` of the half when added to their images, and all of them. -/
theorem C107_half (P : Problem Ω Γ d) (plane : Γ → Prop) [DecidablePred plane]
    (r : Fld (Ω ⊕ Ω) ({q // ¬plane q} ⊕ {q // ¬plane q}) d)
    (ref : (Fin d → ℝ) →ₗ[ℝ] (Fin d → ℝ)) (href : ∀ a b, dot (ref a) (ref b) = dot a b)
    (hr : P.mesh.type ≠ .cartesian → r = Fld.join ref plane P.mesh.r P.mesh.r) (bcs : List (MobBC Γ))
    (hplane : ∀ b ∈ bcs, ∀ s ∈ b.ids, ∀ q, P.mesh.sm q = s → ¬plane q) (W Wt : Fld Ω Γ d → Prop)
    (W' Wt' : Fld (Ω ⊕ Ω) ({q // ¬plane q} ⊕ {q // ¬plane q}) d → Prop)
    (h1 : ∀ v', W' v' → ∃ v w, v' = Fld.join ref plane v w ∧ W (v + w))
    (h2 : ∀ u, W u → ∃ v w, u = v + w ∧ W' (Fld.join ref plane v w))
    (h3 : ∀ v', Wt' v' → ∃ v w, v' = Fld.join ref plane v w ∧ Wt (v + w))
    (h4 : ∀ u, Wt u → ∃ v w, u = v + w ∧ Wt' (Fld.join ref plane v w)) :
    let O := mirrorOver P.mesh plane r ref href hr
    EquationsHold W' Wt' (O.problem P) (bcs.map O.bc) ↔ EquationsHold W Wt P bcs := by
  intro O
  have hss : ∀ q, P.mesh.sm q ∈ bcs.flatMap MobBC.ids → ¬plane q := by
    intro q hq
    obtain ⟨b, hb, hs⟩ := List.mem_flatMap.1 hq
    exact hplane b hb _ hs q rfl
  refine equations_over P _ O (bcs.flatMap MobBC.ids) (fun _ => 2) (fun _ => two_ne_zero) bcs
    (fun b hb s hs => List.mem_flatMap.2 ⟨b, hb, hs⟩) ?_ W Wt W' Wt' ?_ ?_ ?_ ?_
  · intro b vs hb s hs q hq
    have hp : ¬plane q := hplane _ hb s.id (List.mem_map_of_mem hs) q hq
    rw [Fintype.sum_sum_type]
    show (∑ x : {q // ¬plane q}, if x.1 = q then P.mesh.ws x.1 else 0) +
      (∑ x : {q // ¬plane q}, if x.1 = q then P.mesh.ws x.1 else 0) = 2 * P.mesh.ws q
    have : (∑ x : {q // ¬plane q}, if x.1 = q then P.mesh.ws x.1 else 0) = P.mesh.ws q := by
      rw [Finset.sum_eq_single ⟨q, hp⟩]
      · simp
      · intro b _ hb
        rw [if_neg fun h => hb (Subtype.ext h)]
      · simp
    rw [this]; ring
  · intro v' hv'
    obtain ⟨v, w, rfl, h⟩ := h1 v' hv'
    exact ⟨_, h, mirror_gathers P.mesh plane r ref href hr _ hss v w⟩
  · intro u hu
    obtain ⟨v, w, rfl, h⟩ := h2 u hu
    exact ⟨_, h, mirror_gathers P.mesh plane r ref href hr _ hss v w⟩
  · intro v' hv'
    obtain ⟨v, w, rfl, h⟩ := h3 v' hv'
    exact ⟨_, h, mirror_gathers P.mesh plane r ref href hr _ (by simp) v w⟩
  · intro u hu
    obtain ⟨v, w, rfl, h⟩ := h4 u hu
    exact ⟨_, h, mirror_gathers P.mesh plane r ref href hr _ (by simp) v w⟩

theorem prism_gathers {Y : Type} [Fintype Y] (m : Mesh Ω Γ d) (e : ℕ) (wy : Y → ℝ) (r : Fld (Ω × Y) (Γ × Y) (d + e))
    (hr : m.type ≠ .cartesian → (∀ p, r.val p = m.r.val p.1) ∧ ∀ p, r.grad p = baseDir d e (m.r.grad p.1)) (ss : List ℕ)
    (v : Fld (Ω × Y) (Γ × Y) (d + e)) : (prismOver m e wy r hr).Gathers ss v (v.overHeights e wy) := by
  have hsum : ∀ {α : Type} [Fintype α] [DecidableEq α] (p : α) (g : α → Y → ℝ),
      (∑ x : α × Y, if x.1 = p then g x.1 x.2 else 0) = ∑ y, g p y := by
    intro α _ _ p g
    rw [Fintype.sum_prod_type, Finset.sum_comm]
    simp
  refine ⟨fun p => ?_, fun p a => ?_, fun q _ => ?_⟩
  · show _ = ∑ x : Ω × Y, if x.1 = p then m.w x.1 * wy x.2 * v.val (x.1, x.2) else 0
    rw [hsum p fun p y => m.w p * wy y * v.val (p, y)]
    simp only [Fld.overHeights, Finset.mul_sum, mul_assoc]
  · show _ = ∑ x : Ω × Y, if x.1 = p then m.w x.1 * wy x.2 * dot (baseDir d e a) (v.grad (x.1, x.2)) else 0
    rw [hsum p fun p y => m.w p * wy y * dot (baseDir d e a) (v.grad (p, y))]
    have : ∀ y, dot (baseDir d e a) (v.grad (p, y)) = ∑ i, a i * v.grad (p, y) (Fin.castAdd e i) := by
      intro y
      unfold dot
      rw [Fin.sum_univ_add]
      simp [baseDir]
    simp only [this]
    simp only [Fld.overHeights, dot, Finset.mul_sum]
    rw [Finset.sum_comm]
    exact Finset.sum_congr rfl fun y _ => Finset.sum_congr rfl fun i _ => by ring
  · show _ = ∑ x : Γ × Y, if x.1 = q then m.ws x.1 * wy x.2 * v.tr (x.1, x.2) else 0
    rw [hsum q fun p y => m.ws p * wy y * v.tr (p, y)]
    simp only [Fld.overHeights, Finset.mul_sum, mul_assoc]

/-- **C107, sections.** A state of a section satisfies the equations there exactly when the state which does not depend on the
height satisfies them on the prism, no condition being given on its bases.  The test functions `W'` of the prism give
those of the section when averaged over the heights, and all of them. -/
theorem C107_section {Y : Type} [Fintype Y] (P : Problem Ω Γ d) (e : ℕ) (wy : Y → ℝ) (hwy : (∑ y, wy y) ≠ 0)
    (r : Fld (Ω × Y) (Γ × Y) (d + e))
    (hr : P.mesh.type ≠ .cartesian → (∀ p, r.val p = P.mesh.r.val p.1) ∧ ∀ p, r.grad p = baseDir d e (P.mesh.r.grad p.1))
    (bcs : List (MobBC Γ)) (W Wt : Fld Ω Γ d → Prop) (W' Wt' : Fld (Ω × Y) (Γ × Y) (d + e) → Prop)
    (h1 : ∀ v', W' v' → W (v'.overHeights e wy)) (h2 : ∀ v, W v → ∃ v', W' v' ∧ v'.overHeights e wy = v)
    (h3 : ∀ v', Wt' v' → Wt (v'.overHeights e wy)) (h4 : ∀ v, Wt v → ∃ v', Wt' v' ∧ v'.overHeights e wy = v) :
    let O := prismOver P.mesh e wy r hr
    EquationsHold W' Wt' (O.problem P) (bcs.map O.bc) ↔ EquationsHold W Wt P bcs := by
  intro O
  refine equations_over P _ O (bcs.flatMap MobBC.ids) (fun _ => ∑ y, wy y) (fun _ => hwy) bcs
    (fun b hb s hs => List.mem_flatMap.2 ⟨b, hb, hs⟩) ?_ W Wt W' Wt' ?_ ?_ ?_ ?_
  · intro b vs _ s _ q _
    show (∑ x : Γ × Y, if x.1 = q then P.mesh.ws x.1 * wy x.2 else 0) = _
    rw [Fintype.sum_prod_type, Finset.sum_comm]
    simp only [Finset.sum_ite_eq', Finset.mem_univ, if_true, ← Finset.mul_sum]
    ring
  · exact fun v' hv' => ⟨_, h1 v' hv', prism_gathers P.mesh e wy r hr _ v'⟩
  · intro v hv
    obtain ⟨v', h, rfl⟩ := h2 v hv
    exact ⟨v', h, prism_gathers P.mesh e wy r hr _ v'⟩
  · exact fun v' hv' => ⟨_, h3 v' hv', prism_gathers P.mesh e wy r hr _ v'⟩
  · intro v hv
    obtain ⟨v', h, rfl⟩ := h4 v hv
    exact ⟨v', h, prism_gathers P.mesh e wy r hr _ v'⟩

end

end Festim.Props
