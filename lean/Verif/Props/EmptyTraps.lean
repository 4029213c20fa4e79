import Verif.Proofs.Alternate
import Verif.Props.SteadyTraps

/-!
# C111: a trap defined everywhere, with a density which vanishes in a part of the domain
-/

open scoped BigOperators

set_option linter.unusedSectionVars false
set_option linter.unusedSimpArgs false

namespace Festim.Props

open Festim.Weak

section
variable {Ω : Type} [Fintype Ω] {L : Line Ω}

/-- A trap defined in all the materials, without sites from the cell `m` on; concentrations there are not negative. -/
structure NoSites (L : Line Ω) (P : Problem Ω Bool 1) (mat : Ω → Mat) (t : Trap Ω Bool 1) (m : ℕ) : Prop where
  everywhere : ∀ p, mat p ∈ t.materials
  once : (t.materials.flatMap (·.ids)).Nodup
  sites : ∀ p, m ≤ L.cell p → ∀ (j : ℕ) (a : Mat) (K : Kinetics Ω), t.materials[j]? = some a → P.mesh.vm p ∈ a.ids →
    t.params j = .ok K → K.n p = 0 ∧ 0 ≤ K.k ∧ 0 < K.p
  mobile : ∀ p, m ≤ L.cell p → 0 ≤ P.c mat p

/-- **C111 (g).** A trap defined in all the materials of a line with a density which vanishes from a node on (list of
densities, or density given as a function): the mobile concentration is not affected by (a), but with continuous elements
the trapped concentration still changes sign at each node where there are no sites; in the steady state, and in a
transient step from an empty trap. -/
theorem C111_empty (hL : L.Exact2) {P : Problem Ω Bool 1} {r : Fld Ω Bool 1} (hmesh : P.mesh = L.mesh r)
    {mat : Ω → Mat} (h : TrapsPlaced P mat) {t : Trap Ω Bool 1} (ht : t ∈ P.traps) (hsrc : t.sources = []) {m : ℕ}
    (hn : NoSites L P mat t m)
    (hdt : P.dt = none ∨ ∃ k, 0 < k ∧ P.dt = some k ∧ ∀ p, m ≤ L.cell p → t.prev.val p = 0)
    {τ : ℕ → ℝ} (hs : t.sol = L.p1 τ) (hT : TrapHolds L.CG P t) :
    ∀ j, m ≤ j → j < L.N → ∃ ρ : ℝ, 0 < ρ ∧ τ (j + 1) = -ρ * τ j := by
  obtain ⟨D, hD⟩ := trapLoop_density P.mesh P.mv P.T t t.materials 0
  have hwr : Writable P t := ((trapForm_iff P t (L.p1 (hat 0)) 0).1 (hT _ ⟨_, rfl⟩)).1
  -- the kinetics at a point without sites
  have hpt : ∀ p, m ≤ L.cell p → ∃ ω : ℝ, 0 < ω ∧ P.mesh.w p * D p = P.mesh.w p * (ω * t.sol.val p) := by
    intro p hp
    obtain ⟨F, hF⟩ := hwr (ind p)
    obtain ⟨j, hj⟩ := List.mem_iff_getElem?.1 (hn.everywhere p)
    obtain ⟨K, hK, _, e⟩ := trapLoop_at P.mesh P.mv P.T t p t.materials 0 F hF hn.once j (mat p) hj (h.cover.has p)
    rw [zero_add] at hK
    obtain ⟨h0, h1, h2⟩ := hn.sites p hp j _ K hj (h.cover.has p) hK
    have hc := hn.mobile p hp
    unfold Problem.c at hc
    refine ⟨arr K.k K.Ek (P.T.T.val p) * physConc P.mv.theta (mat p) (P.T.T.val p) (P.mv.sol.val p)
      + arr K.p K.Ep (P.T.T.val p), ?_, ?_⟩
    · have a1 : 0 ≤ arr K.k K.Ek (P.T.T.val p) := by unfold arr; positivity
      have a2 : 0 < arr K.p K.Ep (P.T.T.val p) := by unfold arr; positivity
      have := mul_nonneg a1 hc
      linarith
    · have e' := hD (ind p) F hF
      have : ∑ x, P.mesh.w x * D x * (ind p : Fld Ω Bool 1).val x = P.mesh.w p * D p := by
        rw [Finset.sum_eq_single p]
        · simp [ind_self]
        · intro x _ hx; simp [ind_ne hx]
        · intro hp; exact absurd (Finset.mem_univ p) hp
      rw [this] at e'
      rw [← e', e, h0]
      ring
  choose! ω hω hDω using hpt
  set s : ℝ := match P.dt with | some k => 1 / k | none => 0 with hsdef
  have hs0 : 0 ≤ s := by
    rcases hdt with e | ⟨k, hk, e, _⟩
    · simp [hsdef, e]
    · simp only [hsdef, e]
      positivity
  refine alternates_weighted hL τ (fun p => ω p + s) m (fun p hp => by have := hω p hp; linarith) ?_
  intro j hj hjN
  obtain ⟨hw, e⟩ := (trapForm_iff P t (L.p1 (hat j)) 0).1 (hT _ ⟨_, rfl⟩)
  obtain ⟨F, hF⟩ := hw (L.p1 (hat j))
  rw [kin_eq hF, hD _ F hF] at e
  have hv0 : ∀ p, L.cell p < m → (L.p1 (hat j)).val p = 0 := by
    intro p hp
    have a1 : L.cell p ≠ j := by omega
    have a2 : L.cell p + 1 ≠ j := by omega
    simp [Line.p1, hat, a1, a2]
  have hrest : trapRest P.mesh P.mats P.dt t (L.p1 (hat j)) = ∑ p, P.mesh.w p * (s * t.sol.val p * (L.p1 (hat j)).val p) := by
    rcases hdt with hd | ⟨k, hk, hd, hprev⟩
    · rw [trapRest_steady h hd ht hsrc]
      simp only [hsdef, hd, zero_mul, mul_zero, Finset.sum_const_zero]
      apply Finset.sum_eq_zero
      intro p _
      rw [if_pos (hn.everywhere p)]
    · unfold trapRest
      simp only [hsdef, hd, hsrc, List.map_nil, List.sum_nil, sub_zero, volume]
      refine Finset.sum_congr rfl fun p _ => ?_
      by_cases hp : L.cell p < m
      · rw [hv0 p hp]; ring
      · rw [hprev p (by omega)]; ring
  rw [hrest, ← Finset.sum_add_distrib] at e
  rw [← e]
  refine Finset.sum_congr rfl fun p _ => ?_
  have hwp : L.w p = P.mesh.w p := by rw [hmesh]; rfl
  by_cases hp : L.cell p < m
  · rw [hv0 p hp]; ring
  · rw [hDω p (by omega), hwp, hs]
    ring

end

/-! ### Two layers, four sites per unit length in the first one and none in the second -/

namespace PartCase

noncomputable def trap2 (sol : Fld (Fin 2 × Fin 3) Bool 1) : Trap (Fin 2 × Fin 3) Bool 1 where
  k_0 := .list [1, 1]
  E_k := .list [0, 0]
  p_0 := .list [1, 1]
  E_p := .list [0, 0]
  density := [fun _ => 4, fun _ => 0]
  materials := [A, B]
  sol := sol
  prev := Fld.const 0

noncomputable def τ2 (i : ℕ) : ℝ := if i = 0 then 3484 / 1099 else if i = 1 then 1520 / 1099 else -720 / 1099

noncomputable def PE := P (L.p1 u2) none (trap2 (L.p1 τ2))

theorem placed2 : TrapsPlaced PE mat where
  cover := (placed (L.p1 u2) none (Fld.const 0) (Fld.const 0)).cover
  among := by simp [PE, P, trap2]
  told := by simp [PE, P, A, B]

theorem holds2 : TrapHolds L.CG PE (trap2 (L.p1 τ2)) := by
  rintro w ⟨y, rfl⟩
  refine ⟨_, rfl, ?_⟩
  simp [PE, P, Line.mesh, Mesh.assemble, Mesh.integrate, trap2, Fld.const, A, B, Line.p1, u2, τ2, L, BoundCase.simpson,
        Fin.sum_univ_two, Fin.sum_univ_three, Fintype.sum_prod_type, Mobile.conc, trapSourceForm, Finset.sum_filter]
  ring

example : ∃ ρ : ℝ, 0 < ρ ∧ τ2 2 = -ρ * τ2 1 := by
  refine C111_empty (P := PE) (mat := mat) (t := trap2 (L.p1 τ2)) exact2 rfl placed2 List.mem_cons_self rfl (m := 1)
    ⟨?_, ?_, ?_, ?_⟩ (Or.inl rfl) rfl holds2 1 le_rfl (by simp [L, BoundCase.simpson])
  · intro p
    by_cases h : p.1 = 0 <;> simp [mat, trap2, h]
  · simp [trap2, A, B]
  · rintro ⟨p, p'⟩ hp j a K hj hv hK
    fin_cases p
    · simp [L, BoundCase.simpson] at hp
    · match j with
      | 0 =>
        obtain rfl : A = a := by simpa [trap2] using hj
        simp [PE, P, L, Line.mesh, A] at hv
      | 1 =>
        have hK' : (Trap.params (trap2 (L.p1 τ2)) 1) = .ok ⟨1, 0, 1, 0, fun _ => 0⟩ := rfl
        rw [hK'] at hK
        cases hK
        simp
      | j + 2 => simp [trap2] at hj
  · rintro ⟨p, p'⟩ _
    fin_cases p <;> fin_cases p' <;> norm_num [PE, P, Problem.c, physConc, Line.p1, u2, L, BoundCase.simpson]

end PartCase

end Festim.Props
