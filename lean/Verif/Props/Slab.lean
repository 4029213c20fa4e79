import Verif.Props.Symmetry
import Verif.Props.Invariance
import Verif.Spec.Slab

/-!
# C107: half of a symmetric slab

The one-dimensional meshes of FESTIM with the piecewise affine functions.
-/

open scoped BigOperators

namespace Festim.Props

open Festim.Weak

section
variable {Ω : Type} [Fintype Ω] [DecidableEq Ω] {L : Line Ω} {s : ℕ} {hs : L.left ≠ s} {r : Fld Ω Bool 1} {r' : Fld (Ω ⊕ Ω) Bool 1}

theorem p1_congr (L : Line Ω) {u v : ℕ → ℝ} (h : ∀ i ≤ L.N, u i = v i) : L.p1 u = L.p1 v := by
  have hc := L.cell_lt
  unfold Line.p1
  congr 1
  · funext p
    rw [h _ (hc p).le, h _ (hc p)]
  · funext p i
    rw [h _ (hc p).le, h _ (hc p)]
  · funext q
    rw [h _ le_rfl, h _ (Nat.zero_le _)]

/-- The state of the half completed by symmetry is the piecewise affine function with the nodal values completed by symmetry. -/
theorem slab_fld (u : ℕ → ℝ) : (slabOver L s hs r r').fld (L.p1 u) = (L.whole s hs).p1 (L.unfold u) := by
  have hc := L.cell_lt
  unfold Line.p1 Over.fld
  congr 1
  · funext p
    rcases p with p | p
    · show (1 - L.lam p) * u (L.cell p) + L.lam p * u (L.cell p + 1) =
        (1 - L.lam p) * L.unfold u (L.cell p) + L.lam p * L.unfold u (L.cell p + 1)
      unfold Line.unfold
      rw [if_pos (hc p).le, if_pos (Nat.succ_le_of_lt (hc p))]
    · show (1 - L.lam p) * u (L.cell p) + L.lam p * u (L.cell p + 1) =
        (1 - (1 - L.lam p)) * L.unfold u (2 * L.N - 1 - L.cell p) + (1 - L.lam p) * L.unfold u (2 * L.N - 1 - L.cell p + 1)
      have h1 : L.unfold u (2 * L.N - 1 - L.cell p) = u (L.cell p + 1) := by
        have := hc p
        unfold Line.unfold
        split
        · congr 1; omega
        · congr 1; omega
      have h2 : L.unfold u (2 * L.N - 1 - L.cell p + 1) = u (L.cell p) := by
        have := hc p
        unfold Line.unfold
        split
        · omega
        · congr 1; omega
      rw [h1, h2]; ring
  · funext p i
    rcases p with p | p
    · show (u (L.cell p + 1) - u (L.cell p)) / L.h (L.cell p) =
        (L.unfold u (L.cell p + 1) - L.unfold u (L.cell p)) / (if L.cell p < L.N then L.h (L.cell p) else _)
      unfold Line.unfold
      rw [if_pos (hc p).le, if_pos (Nat.succ_le_of_lt (hc p)), if_pos (hc p)]
    · show -((u (L.cell p + 1) - u (L.cell p)) / L.h (L.cell p)) =
        (L.unfold u (2 * L.N - 1 - L.cell p + 1) - L.unfold u (2 * L.N - 1 - L.cell p)) /
          (if 2 * L.N - 1 - L.cell p < L.N then L.h (2 * L.N - 1 - L.cell p) else L.h (2 * L.N - 1 - (2 * L.N - 1 - L.cell p)))
      have := hc p
      have h1 : L.unfold u (2 * L.N - 1 - L.cell p) = u (L.cell p + 1) := by
        unfold Line.unfold
        split
        · congr 1; omega
        · congr 1; omega
      have h2 : L.unfold u (2 * L.N - 1 - L.cell p + 1) = u (L.cell p) := by
        unfold Line.unfold
        split
        · omega
        · congr 1; omega
      rw [h1, h2, if_neg (by omega), show 2 * L.N - 1 - (2 * L.N - 1 - L.cell p) = L.cell p by omega]
      ring
  · funext q
    have := L.N_pos
    cases q
    · show u 0 = L.unfold u 0
      simp [Line.unfold]
    · show u 0 = L.unfold u (2 * L.N)
      unfold Line.unfold
      rw [if_neg (by omega), Nat.sub_self]

theorem slab_gathers (x : ℕ → ℝ) :
    (slabOver L s hs r r').Gathers [L.left] ((L.whole s hs).p1 x) (L.p1 fun i => x i + x (2 * L.N - i)) := by
  have hc := L.cell_lt
  refine ⟨fun p => ?_, fun p a => ?_, fun q hq => ?_⟩
  · rw [Fintype.sum_sum_type]
    show L.w p * ((1 - L.lam p) * (x (L.cell p) + x (2 * L.N - L.cell p)) +
        L.lam p * (x (L.cell p + 1) + x (2 * L.N - (L.cell p + 1)))) =
      (∑ y, if y = p then L.w y * ((1 - L.lam y) * x (L.cell y) + L.lam y * x (L.cell y + 1)) else 0) +
      ∑ y, if y = p then L.w y * ((1 - (1 - L.lam y)) * x (2 * L.N - 1 - L.cell y) +
        (1 - L.lam y) * x (2 * L.N - 1 - L.cell y + 1)) else 0
    rw [Finset.sum_ite_eq', Finset.sum_ite_eq', if_pos (Finset.mem_univ _), if_pos (Finset.mem_univ _)]
    have := hc p
    rw [show 2 * L.N - 1 - L.cell p + 1 = 2 * L.N - L.cell p by omega,
      show 2 * L.N - (L.cell p + 1) = 2 * L.N - 1 - L.cell p by omega]
    ring
  · rw [Fintype.sum_sum_type]
    have := hc p
    have e1 : ∀ y, dot a (((L.whole s hs).p1 x).grad (Sum.inl y)) = a 0 * ((x (L.cell y + 1) - x (L.cell y)) / L.h (L.cell y)) := by
      intro y
      show ∑ i, a i * ((x (L.cell y + 1) - x (L.cell y)) / (if L.cell y < L.N then L.h (L.cell y) else _)) = _
      rw [if_pos (hc y), Fin.sum_univ_one]
    have e2 : ∀ y, dot (-a) (((L.whole s hs).p1 x).grad (Sum.inr y)) =
        a 0 * ((x (2 * L.N - 1 - L.cell y) - x (2 * L.N - L.cell y)) / L.h (L.cell y)) := by
      intro y
      show ∑ i, -a i * ((x (2 * L.N - 1 - L.cell y + 1) - x (2 * L.N - 1 - L.cell y)) /
        (if 2 * L.N - 1 - L.cell y < L.N then L.h (2 * L.N - 1 - L.cell y) else L.h (2 * L.N - 1 - (2 * L.N - 1 - L.cell y)))) = _
      have := hc y
      rw [if_neg (by omega), Fin.sum_univ_one, show 2 * L.N - 1 - (2 * L.N - 1 - L.cell y) = L.cell y by omega,
        show 2 * L.N - 1 - L.cell y + 1 = 2 * L.N - L.cell y by omega]
      ring
    show L.w p * (∑ i, a i * ((x (L.cell p + 1) + x (2 * L.N - (L.cell p + 1)) - (x (L.cell p) + x (2 * L.N - L.cell p))) /
        L.h (L.cell p))) =
      (∑ y, if y = p then L.w y * dot a (((L.whole s hs).p1 x).grad (Sum.inl y)) else 0) +
      ∑ y, if y = p then L.w y * dot (-a) (((L.whole s hs).p1 x).grad (Sum.inr y)) else 0
    rw [Finset.sum_ite_eq', Finset.sum_ite_eq', if_pos (Finset.mem_univ _), if_pos (Finset.mem_univ _), e1, e2,
      Fin.sum_univ_one, show 2 * L.N - (L.cell p + 1) = 2 * L.N - 1 - L.cell p by omega]
    ring
  · have h0 : q = false := by
      cases q
      · rfl
      · exact absurd (List.mem_singleton.1 hq).symm L.ends
    subst h0
    show (1 : ℝ) * (x 0 + x (2 * L.N - 0)) = ∑ q' : Bool, if false = false then 1 * (if q' then x (2 * L.N) else x 0) else 0
    simp
    ring

theorem slab_gathers' (u : ℕ → ℝ) :
    (slabOver L s hs r r').Gathers [L.left] ((L.whole s hs).p1 fun i => L.unfold u i / 2) (L.p1 u) := by
  have h := slab_gathers (L := L) (s := s) (hs := hs) (r := r) (r' := r') fun i => L.unfold u i / 2
  have e : L.p1 (fun i => L.unfold u i / 2 + L.unfold u (2 * L.N - i) / 2) = L.p1 u := by
    refine p1_congr L fun i hi => ?_
    have : L.unfold u (2 * L.N - i) = u i := by
      unfold Line.unfold
      split
      · congr 1; omega
      · congr 1; omega
    rw [this]
    unfold Line.unfold
    rw [if_pos hi]
    ring
  rwa [e] at h

/-- **C107, slabs.** A symmetric slab and its half, in one dimension, with the piecewise affine functions of FESTIM: materials, traps,
sources and temperature symmetric, the same fluxes or imposed concentrations at both ends, nothing in the middle of the half.  A state
of the half satisfies its equations exactly when its symmetric completion satisfies those of the slab. -/
theorem C107_slab (P : Problem Ω Bool 1) (L : Line Ω) (r : Fld Ω Bool 1) (hm : P.mesh = L.mesh r) (s : ℕ) (hs : L.left ≠ s)
    (r' : Fld (Ω ⊕ Ω) Bool 1) (fs : List (Flux Bool)) (imposed : Bool) :
    let O := slabOver L s hs r r'
    EquationsHold ((L.whole s hs).wholeTests imposed) ((L.whole s hs).wholeTests false)
        { mesh := (L.whole s hs).mesh r', mats := P.mats, mv := O.mobile P.mv, T := O.temp P.T, dt := P.dt, soret := P.soret,
          sources := P.sources.map O.src, traps := P.traps.map O.trap }
        (fs.map fun f => .flux (O.flux f) [L.left, s]) ↔
      EquationsHold (L.tests imposed) (L.tests false) P (fs.map fun f => .flux f [L.left]) := by
  intro O
  obtain ⟨mesh, mats, mv, T, dt, soret, sources, traps⟩ := P
  dsimp only at hm
  subst hm
  set P : Problem Ω Bool 1 := ⟨L.mesh r, mats, mv, T, dt, soret, sources, traps⟩ with hP
  have hk := L.N_pos
  have main := equations_over P _ O [L.left] (fun _ => 1) (fun _ => one_ne_zero) (fs.map fun f => .flux f [L.left])
    (by
      intro b hb x hx
      obtain ⟨f, _, rfl⟩ := List.mem_map.1 hb
      exact hx)
    (by
      intro b vs hb
      obtain ⟨f, _, h⟩ := List.mem_map.1 hb
      cases h)
    (L.tests imposed) (L.tests false) ((L.whole s hs).wholeTests imposed) ((L.whole s hs).wholeTests false)
    (by
      rintro _ ⟨x, hx, rfl⟩
      refine ⟨_, ⟨fun i => x i + x (2 * L.N - i), fun hi => ?_, rfl⟩, slab_gathers x⟩
      have h2 : x (2 * L.N) = 0 := (hx hi).2
      simp only [Nat.sub_zero, (hx hi).1, h2, add_zero])
    (by
      rintro _ ⟨u, hu, rfl⟩
      refine ⟨_, ⟨fun i => L.unfold u i / 2, fun hi => ?_, rfl⟩, slab_gathers' u⟩
      constructor
      · simp [Line.unfold, hu hi]
      · show L.unfold u (2 * L.N) / 2 = 0
        unfold Line.unfold
        rw [if_neg (by omega), Nat.sub_self, hu hi, zero_div])
    (by
      rintro _ ⟨x, _, rfl⟩
      exact ⟨_, ⟨_, by simp, rfl⟩, (slab_gathers x).mono (by simp)⟩)
    (by
      rintro _ ⟨u, _, rfl⟩
      exact ⟨_, ⟨_, by simp, rfl⟩, (slab_gathers' u).mono (by simp)⟩)
  rw [← main]
  let R : Relabelling := ⟨fun i => [i], fun i => if i = L.left then [L.left, s] else []⟩
  have hmarks : R.Marks (O.problem P).mesh ((L.whole s hs).mesh r') := by
    refine ⟨rfl, rfl, rfl, rfl, fun i => List.nodup_singleton i, fun i => ?_, fun p i => ?_, fun q i => ?_, fun q i => ?_⟩
    · show (if i = L.left then [L.left, s] else []).Nodup
      split
      · simpa using hs
      · exact List.nodup_nil
    · exact List.mem_singleton
    · exact List.mem_singleton
    · show (if q then s else L.left) ∈ (if i = L.left then [L.left, s] else []) ↔ L.left = i
      by_cases h : i = L.left
      · subst h; cases q <;> simp
      · rw [if_neg h]; simp [eq_comm, h]
  have hmat : ∀ a : Mat, R.mat a = a := by
    intro a
    show ({ a with ids := a.ids.flatMap fun i => [i] } : Mat) = a
    rw [List.flatMap_singleton']
  have hsrc : ∀ a : Src (Ω ⊕ Ω), R.src a = a := by
    intro a
    show ({ a with volumes := a.volumes.flatMap fun i => [i] } : Src (Ω ⊕ Ω)) = a
    rw [List.flatMap_singleton']
  have hmats : ∀ l : List Mat, l.map R.mat = l := fun l => (List.map_congr_left fun a _ => hmat a).trans (List.map_id l)
  have hsrcs : ∀ l : List (Src (Ω ⊕ Ω)), l.map R.src = l := fun l => (List.map_congr_left fun a _ => hsrc a).trans (List.map_id l)
  have htraps : ∀ l : List (Trap (Ω ⊕ Ω) Bool 1), l.map R.trap = l := by
    intro l
    refine (List.map_congr_left fun t _ => ?_).trans (List.map_id l)
    show ({ t with materials := t.materials.map R.mat, sources := t.sources.map R.src } : Trap (Ω ⊕ Ω) Bool 1) = t
    rw [hmats, hsrcs]
  have hprob : R.problem (O.problem P) ((L.whole s hs).mesh r') =
      { mesh := (L.whole s hs).mesh r', mats := P.mats, mv := O.mobile P.mv, T := O.temp P.T, dt := P.dt, soret := P.soret,
        sources := P.sources.map O.src, traps := P.traps.map O.trap } := by
    show Problem.mk _ _ _ _ _ _ _ _ = Problem.mk _ _ _ _ _ _ _ _
    congr 1
    · exact hmats _
    · exact hsrcs _
    · exact htraps _
  rw [← hprob]
  unfold EquationsHold
  have hbcs : ∀ f : ℕ → ℝ, ((fs.map fun f => (MobBC.flux (O.flux f) [L.left, s] : MobBC Bool)).map (MobBC.test f)) =
      (((fs.map fun f => (MobBC.flux f [L.left] : MobBC Bool)).map O.bc).map (MobBC.test f)).map R.bc := by
    intro f
    simp only [List.map_map]
    refine List.map_congr_left fun g _ => ?_
    show MobBC.flux _ _ = MobBC.flux _ (([L.left] : List ℕ).flatMap R.surf)
    congr 1
    show [L.left, s] = (if L.left = L.left then [L.left, s] else []) ++ []
    rw [if_pos rfl, List.append_nil]
  have hlen : (R.problem (O.problem P) ((L.whole s hs).mesh r')).traps.length = (O.problem P).traps.length := List.length_map _
  constructor <;> intro h v hv vt hl hvt f
  · have := h v hv vt (hl.trans hlen.symm) hvt f
    rw [hbcs] at this
    refine ((C106_numbering R (O.problem P) _ hmarks _ v vt ?_).2 0).2 this
    intro b vs hb
    simp only [List.mem_map] at hb
    obtain ⟨_, ⟨_, ⟨g, _, rfl⟩, rfl⟩, h⟩ := hb
    cases h
  · rw [hbcs]
    refine ((C106_numbering R (O.problem P) _ hmarks _ v vt ?_).2 0).1 (h v hv vt (hl.trans hlen) hvt f)
    intro b vs hb
    simp only [List.mem_map] at hb
    obtain ⟨_, ⟨_, ⟨g, _, rfl⟩, rfl⟩, h⟩ := hb
    cases h

end

namespace Case

/-- The left half, one cell, of a slab of thickness 2 with a source 2: `c = 0` at the end, 1 in the middle. -/
noncomputable def halfLine : Line Unit where
  N := 1
  h _ := 1
  cell _ := 0
  lam _ := 1 / 2
  w _ := 1
  vm _ := 1
  left := 1
  right := 2
  vmL := 1
  vmR := 1
  N_pos := one_pos
  h_pos _ _ := one_pos
  cell_lt _ := one_pos
  exact := by
    intro i hi
    obtain rfl : i = 0 := by omega
    simp
  ends := by decide

noncomputable def halfSlab : Problem Unit Bool 1 :=
  { mesh := halfLine.mesh (Fld.const 0), mats := [{ uid := 1, ids := [1], D_0 := 1, E_D := 0 }],
    mv := { theta := false, sol := halfLine.p1 fun i => i, prev := Fld.const 0 }, T := ⟨Fld.const 300, Fld.const 300⟩, dt := none,
    soret := false, sources := [⟨.given fun _ => 2, [1]⟩], traps := [] }

theorem half_solved : EquationsHold (halfLine.tests true) (halfLine.tests false) halfSlab [] := by
  rintro _ ⟨x, hx, rfl⟩ vt hl _ f
  obtain rfl : vt = [] := List.length_eq_zero_iff.1 hl
  refine ⟨_, rfl, ?_⟩
  have := hx rfl
  simp [halfSlab, halfLine, Line.mesh, Line.p1, mobileForm, Mesh.assemble, Mesh.integrate, Form.neg, diffusionForm, subdomainForm,
    Fld.const, dot, sourceForm, fluxesForm, Src.at, Mobile.conc, this, arrhenius, Fld.exp]

/-- The whole slab, whose other end is surface 3, is solved by 0, 1, 0. -/
example :
    let O := slabOver halfLine 3 (by decide) (Fld.const 0) (Fld.const 0)
    EquationsHold ((halfLine.whole 3 (by decide)).wholeTests true) ((halfLine.whole 3 (by decide)).wholeTests false)
      { mesh := (halfLine.whole 3 (by decide)).mesh (Fld.const 0), mats := halfSlab.mats, mv := O.mobile halfSlab.mv,
        T := O.temp halfSlab.T, dt := none, soret := false, sources := halfSlab.sources.map O.src, traps := [] } [] :=
  (C107_slab halfSlab halfLine (Fld.const 0) rfl 3 (by decide) (Fld.const 0) [] true).2 half_solved

example : (slabOver halfLine 3 (by decide) (Fld.const 0) (Fld.const 0)).fld halfSlab.mv.sol =
      (halfLine.whole 3 (by decide)).p1 (halfLine.unfold fun i => i) ∧
    halfLine.unfold (fun i => i) 0 = 0 ∧ halfLine.unfold (fun i => i) 1 = 1 ∧ halfLine.unfold (fun i => i) 2 = 0 := by
  refine ⟨slab_fld _, ?_, ?_, ?_⟩ <;> simp [Line.unfold, halfLine]

/-- The mirror of a line. -/
def minus : (Fin 1 → ℝ) →ₗ[ℝ] (Fin 1 → ℝ) := -LinearMap.id

theorem minus_dot (a b : Fin 1 → ℝ) : dot (minus a) (minus b) = dot a b := by simp [dot, minus]

theorem add_none (u : Fld Unit Bool 1) : u + Fld.const 0 = u := by
  ext
  · exact add_zero _
  · exact add_zero _
  · exact add_zero _

/-- C107, mirrors: the right end is on the mirror. -/
example (r) : EquationsHold (fun v' => ∃ v w, v' = Fld.join minus (· = true) v w ∧ halfLine.tests true (v + w))
    (fun v' => ∃ v w, v' = Fld.join minus (· = true) v w ∧ halfLine.tests false (v + w))
    ((mirrorOver halfSlab.mesh (· = true) r minus minus_dot (fun h => absurd rfl h)).problem halfSlab) [] := by
  refine (C107_half halfSlab (· = true) r minus minus_dot (fun h => absurd rfl h) [] (by simp) (halfLine.tests true)
    (halfLine.tests false) _ _ (fun _ h => h) ?_ (fun _ h => h) ?_).2 half_solved
  · exact fun u hu => ⟨u, Fld.const 0, (add_none u).symm, u, Fld.const 0, rfl, (add_none u).symm ▸ hu⟩
  · exact fun u hu => ⟨u, Fld.const 0, (add_none u).symm, u, Fld.const 0, rfl, (add_none u).symm ▸ hu⟩

/-- C107, sections: a plate in two dimensions, two heights with weights 2 and 3. -/
example (r) : EquationsHold (fun v' => halfLine.tests true (v'.overHeights 1 ![2, 3])) (fun v' => halfLine.tests false (v'.overHeights 1 ![2, 3]))
    ((prismOver halfSlab.mesh 1 ![2, 3] r (fun h => absurd rfl h)).problem halfSlab) [] := by
  have lift : ∀ v : Fld Unit Bool 1, ∃ v' : Fld (Unit × Fin 2) (Bool × Fin 2) (1 + 1), v'.overHeights 1 ![2, 3] = v := by
    intro v
    refine ⟨⟨fun p => v.val p.1 / 5, fun p _ => v.grad p.1 0 / 5, fun q => v.tr q.1 / 5⟩, ?_⟩
    ext
    · simp [Fld.overHeights]; ring
    · rename_i i
      fin_cases i
      simp [Fld.overHeights]; ring
    · simp [Fld.overHeights]; ring
  refine (C107_section halfSlab 1 ![2, 3] (by norm_num) r (fun h => absurd rfl h) [] (halfLine.tests true) (halfLine.tests false) _ _
    (fun _ h => h) ?_ (fun _ h => h) ?_).2 half_solved
  · intro v hv
    obtain ⟨v', rfl⟩ := lift v
    exact ⟨v', hv, rfl⟩
  · intro v hv
    obtain ⟨v', rfl⟩ := lift v
    exact ⟨v', hv, rfl⟩

/-- C107, directions: the step of `Invariance` seen in a mirror. -/
example : Residual { probOf .cartesian 5 with
      mesh := { meshOf .cartesian with r := Fld.const 0 }
      mv := { (probOf .cartesian 5).mv with
        sol := ⟨(probOf .cartesian 5).mv.sol.val, fun p => minus ((probOf .cartesian 5).mv.sol.grad p), (probOf .cartesian 5).mv.sol.tr⟩
        prev := ⟨(probOf .cartesian 5).mv.prev.val, fun p => minus ((probOf .cartesian 5).mv.prev.grad p), (probOf .cartesian 5).mv.prev.tr⟩
        S := ⟨(probOf .cartesian 5).mv.S.val, fun p => minus ((probOf .cartesian 5).mv.S.grad p), (probOf .cartesian 5).mv.S.tr⟩ }
      T := ⟨⟨(probOf .cartesian 5).T.T.val, fun p => minus ((probOf .cartesian 5).T.T.grad p), (probOf .cartesian 5).T.T.tr⟩,
        ⟨(probOf .cartesian 5).T.Tn.val, fun p => minus ((probOf .cartesian 5).T.Tn.grad p), (probOf .cartesian 5).T.Tn.tr⟩⟩
      traps := (probOf .cartesian 5).traps.map fun t => { t with
        sol := ⟨t.sol.val, fun p => minus (t.sol.grad p), t.sol.tr⟩, prev := ⟨t.prev.val, fun p => minus (t.prev.grad p), t.prev.tr⟩ } }
    [.sk sk [1]] ⟨fun _ => 1, fun p => minus ((Fld.const 1 : Fld (Fin 2) (Fin 2) 1).grad p), fun _ => 1⟩
    [⟨fun _ => 1, fun p => minus ((Fld.const 1 : Fld (Fin 2) (Fin 2) 1).grad p), fun _ => 1⟩] 0 :=
  (C107_turned (probOf .cartesian 5) rfl (Fld.const 0) minus minus_dot [.sk sk [1]] (Fld.const 1) [Fld.const 1] 0).2 sk_solved

/-- C107, in general: the same step on a domain and its image, with SurfaceKinetics on both ends. -/
example : Residual ((mirrorOver (meshOf .cartesian) (fun _ => False) (Fld.const 0) minus minus_dot (fun h => absurd rfl h)).problem (probOf .cartesian 5))
    [.sk ((mirrorOver (meshOf .cartesian) (fun _ => False) (Fld.const 0) minus minus_dot (fun h => absurd rfl h)).sk sk) [1 / 2]]
    (Fld.join minus (fun _ => False) (Fld.const (1 / 3)) (Fld.const (2 / 3))) [Fld.join minus (fun _ => False) (Fld.const 1) (Fld.const 0)] 0 := by
  have e : ∀ a b c : ℝ, a + b = c → (Fld.const a + Fld.const b : Fld (Fin 2) (Fin 2) 1) = Fld.const c := by
    intro a b c h
    ext
    · exact h
    · exact add_zero 0
    · exact h
  have g1 := mirror_gathers (meshOf .cartesian) (fun _ => False) (Fld.const 0) minus minus_dot (fun h => absurd rfl h) [1]
    (fun _ _ h => h) (Fld.const (1 / 3)) (Fld.const (2 / 3))
  have g2 := mirror_gathers (meshOf .cartesian) (fun _ => False) (Fld.const 0) minus minus_dot (fun h => absurd rfl h) []
    (fun _ _ h => h) (Fld.const 1) (Fld.const 0)
  rw [e _ _ 1 (by norm_num)] at g1 g2
  refine (C107_over (probOf .cartesian 5) _ (mirrorOver (meshOf .cartesian) (fun _ => False) (Fld.const 0) minus minus_dot
    (fun h => absurd rfl h)) [1] (fun _ => 2) [.sk sk [1 / 2]] ?_ ?_ _ _ g1 _ _ (.cons g2 .nil) 0).2 ?_
  · simp [MobBC.ids, sk]
  · intro b vs _ s _ q _
    rw [Fintype.sum_sum_type]
    have : (∑ x : {q : Fin 2 // ¬False}, if x.1 = q then (meshOf .cartesian).ws x.1 else 0) = (meshOf .cartesian).ws q := by
      rw [Finset.sum_eq_single ⟨q, not_false⟩]
      · simp
      · intro b _ hb
        rw [if_neg fun h => hb (Subtype.ext h)]
      · simp
    show (∑ x : {q : Fin 2 // ¬False}, if x.1 = q then (meshOf .cartesian).ws x.1 else 0) +
      (∑ x : {q : Fin 2 // ¬False}, if x.1 = q then (meshOf .cartesian).ws x.1 else 0) = 2 * (meshOf .cartesian).ws q
    rw [this]
    ring
  · have := sk_solved
    simpa [MobBC.times, sk] using this

end Case

end Festim.Props
