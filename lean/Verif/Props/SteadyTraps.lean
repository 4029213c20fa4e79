import Verif.Proofs.SteadyTraps
import Verif.Props.Permeation

/-!
# C111: traps in a part of the domain, and the steady state
-/

open scoped BigOperators

set_option linter.unusedSectionVars false
set_option linter.unusedSimpArgs false

namespace Festim.Props

open Festim.Weak

section
variable {Ω Γ : Type} [Fintype Ω] [Fintype Γ] {d : ℕ} {W Wt : Fld Ω Γ d → Prop} {P : Problem Ω Γ d} {bcs : List (MobBC Γ)}
  {mat : Ω → Mat}

/-- **C111 (a).** In a steady simulation where the test functions can be cut off outside the materials of each trap
(discontinuous elements, or traps defined everywhere), the equations hold if and only if those without any trap hold and
each trap satisfies its own: the mobile concentration knows nothing of the traps. -/
theorem C111_free (h : TrapsPlaced P mat) (hdt : P.dt = none) (hsrc : ∀ t ∈ P.traps, t.sources = [])
    (hcut : ∀ t ∈ P.traps, Cuts W Wt mat t) (v0 z : Fld Ω Γ d) (hv0 : W v0) (hz : Wt z) (hz0 : ∀ p, z.val p = 0) :
    EquationsHold W Wt P bcs ↔ EquationsHold W Wt P.free bcs ∧ ∀ t ∈ P.traps, TrapHolds Wt P t := by
  rw [equationsHold_iff W Wt P bcs v0 z hv0 hz hz0, equationsHold_iff W Wt P.free bcs v0 z hv0 hz hz0]
  have hin : ∀ t ∈ P.traps, ∀ a ∈ t.materials, ∀ p, P.mesh.vm p ∈ a.ids → mat p ∈ t.materials := by
    intro t ht a ha p hp
    rwa [same_mat h.cover.nodup (h.cover.mem p) (h.among t ht a ha) (h.cover.has p) hp]
  have hk : (∀ t ∈ P.traps, TrapHolds Wt P t) → ∀ v, W v → (P.traps.map fun t => kin P t v).sum = 0 := by
    intro hT v hv
    apply List.sum_eq_zero
    intro x hx
    obtain ⟨t, ht, rfl⟩ := List.mem_map.1 hx
    obtain ⟨w, hw, hw'⟩ := hcut t ht v hv
    obtain ⟨hwr, e⟩ := (trapForm_iff P t w 0).1 (hT t ht w hw)
    rw [trapRest_steady h hdt ht (hsrc t ht)] at e
    have e0 : trappedOutside P.mesh mat t w.val = 0 := by
      unfold trappedOutside
      apply Finset.sum_eq_zero
      intro p _
      split_ifs with hp
      · rfl
      · rw [(hw' p).2 hp, mul_zero, mul_zero]
    rw [e0, add_zero] at e
    rw [kin_agree hwr v w fun a ha p hp => ((hw' p).1 (hin t ht a ha p hp)).symm]
    exact e
  constructor
  · rintro ⟨_, hT, hm⟩
    refine ⟨⟨by simp [Problem.free], by simp [Problem.free], ?_⟩, hT⟩
    intro v hv f
    have := hm v hv f
    rw [hk hT v hv] at this
    exact this
  · rintro ⟨⟨_, _, hm⟩, hT⟩
    refine ⟨?_, hT, ?_⟩
    · intro t ht
      obtain ⟨w, hw, _⟩ := hcut t ht v0 hv0
      exact ((trapForm_iff P t w 0).1 (hT t ht w hw)).1
    · intro v hv f
      rw [hk hT v hv]
      exact hm v hv f

/-- **C111 (b).** With continuous elements there is in addition a sink: what is trapped, in the solution, outside the
materials of the traps.  The unit of time of this sink is the one of the simulation. -/
theorem C111_sink (h : TrapsPlaced P mat) (hdt : P.dt = none) (hsrc : ∀ t ∈ P.traps, t.sources = [])
    (matS : Γ → Mat) (hsol : Solubility P mat matS)
    (hr : (P.mesh.type = .cylindrical ∨ P.mesh.type = .spherical) → ∀ p, P.mesh.r.val p ≠ 0)
    (hno : ∀ b vs, MobBC.sk b vs ∉ bcs) (hsub : ∀ v, W v → Wt v) (he : EquationsHold W Wt P bcs) (v : Fld Ω Γ d) (hv : W v) :
    volume P.mesh (fun p => dot (gradFlux P.soret P.mv.theta (mat p) (P.T.T.val p) (P.mv.sol.val p)
              (P.T.T.grad p) (P.mv.sol.grad p)) (coordGrad P.mesh v p))
        + (P.traps.map fun t => trappedOutside P.mesh mat t v.val).sum
      = supply P bcs mat matS v := by
  have hbcs : bcs.map (MobBC.test fun _ => 0) = bcs := by
    rw [List.map_congr_left (g := id), List.map_id]
    intro b hb
    cases b with
    | flux f ss => rfl
    | sk b vs => exact absurd hb (hno b vs)
  obtain ⟨F, hF, h0⟩ := he v hv (P.traps.map fun _ => v) (by simp) (by
    intro w hw
    obtain ⟨_, _, rfl⟩ := List.mem_map.1 hw
    exact hsub v hv) fun _ => 0
  rw [hbcs] at hF
  rw [steady_weak_sink P bcs mat matS v F hdt h.cover hsol hr hno hF] at h0
  have e : (P.traps.map fun t => trapSink P t v).sum = (P.traps.map fun t => trappedOutside P.mesh mat t v.val).sum := by
    congr 1
    apply List.map_congr_left
    intro t ht
    rw [← trapRest_steady h hdt ht (hsrc t ht)]
    unfold trapRest trapSink
    rw [hdt, hsrc t ht]
    simp
  rw [e] at h0
  linarith

end

section
variable {Ω : Type} [Fintype Ω] {L : Line Ω}

/-- Mass of the cells from `m` on. -/
def fromCell (m i : ℕ) : ℝ := if i < m then 0 else 1

/-- A piecewise affine function orthogonal, in the cells from `m` on, to the nodes after `m`: its nodal values change sign at
each node, and decrease at least by half. -/
theorem alternates (hL : L.Exact2) (δ : ℕ → ℝ) (m : ℕ)
    (h : ∀ j, m < j → j ≤ L.N → ∑ p, L.w p * (fromCell m (L.cell p) * (L.p1 δ).val p * (L.p1 (hat j)).val p) = 0) :
    ∀ k j, j + k + 1 = L.N → m ≤ j → ∃ ρ : ℝ, 0 < ρ ∧ ρ ≤ 1 / 2 ∧ δ (j + 1) = -ρ * δ j := by
  have row : ∀ j, m < j → j ≤ L.N → (if j < L.N then L.h j * (2 * δ j + δ (j + 1)) else 0)
      + L.h (j - 1) * (δ (j - 1) + 2 * δ j) = 0 := by
    intro j hmj hj
    have e := node_row L hL (fromCell m) (fun _ => 0) (fun _ => 0) δ 1 j hj
    simp only [zero_mul, add_zero, div_one] at e
    rw [h j hmj hj] at e
    have h1 : ¬ j < m := by omega
    have h2 : ¬ j - 1 < m := by omega
    simp only [nodeRow, fromCell, h1, h2, if_false, cellInt, mul_zero, Finset.sum_const_zero, zero_div, zero_mul, add_zero,
      show 0 < j by omega, if_true, one_mul, mul_one] at e
    by_cases hjN : j < L.N
    · rw [if_pos hjN] at e ⊢
      linarith
    · rw [if_neg hjN] at e ⊢
      linarith
  intro k
  induction k with
  | zero =>
    intro j hj hm
    refine ⟨1 / 2, by norm_num, le_rfl, ?_⟩
    have e := row (j + 1) (by omega) (by omega)
    rw [if_neg (by omega), zero_add, Nat.add_sub_cancel] at e
    have hp := (L.h_pos j (by omega)).ne'
    have := (mul_eq_zero.1 e).resolve_left hp
    linarith
  | succ k ih =>
    intro j hj hm
    obtain ⟨ρ, h0, h1, e1⟩ := ih (j + 1) (by omega) (by omega)
    have e := row (j + 1) (by omega) (by omega)
    rw [if_pos (by omega), Nat.add_sub_cancel, e1] at e
    have ha := L.h_pos j (by omega)
    have hb := L.h_pos (j + 1) (by omega)
    have hd : 0 < 2 * L.h j + (2 - ρ) * L.h (j + 1) := by
      have : 0 < (2 - ρ) * L.h (j + 1) := mul_pos (by linarith) hb
      linarith
    refine ⟨L.h j / (2 * L.h j + (2 - ρ) * L.h (j + 1)), div_pos ha hd, ?_, ?_⟩
    · rw [div_le_div_iff₀ hd (by norm_num)]
      have : 0 < (2 - ρ) * L.h (j + 1) := mul_pos (by linarith) hb
      linarith
    · rw [neg_mul, div_mul_eq_mul_div, ← neg_div, eq_div_iff hd.ne']
      linarith

/-- The integral of such a function, over the cells from `m` on, comes from node `m` only. -/
theorem outside_total (hL : L.Exact2) (δ : ℕ → ℝ) (m : ℕ) (hm : m < L.N)
    (h : ∀ j, m < j → j ≤ L.N → ∑ p, L.w p * (fromCell m (L.cell p) * (L.p1 δ).val p * (L.p1 (hat j)).val p) = 0) :
    (∑ p, L.w p * (fromCell m (L.cell p) * (L.p1 δ).val p) = L.h m * (2 * δ m + δ (m + 1)) / 6) ∧
    ∑ p, L.w p * (fromCell m (L.cell p) * (L.p1 δ).val p * (L.p1 (hat m)).val p) = L.h m * (2 * δ m + δ (m + 1)) / 6 := by
  have hnode : ∀ j, j ≤ L.N → ∑ p, L.w p * (fromCell m (L.cell p) * (L.p1 δ).val p * (L.p1 (hat j)).val p)
      = if j = m then L.h m * (2 * δ m + δ (m + 1)) / 6 else 0 := by
    intro j hj
    rcases lt_trichotomy j m with hlt | heq | hgt
    · have e := node_row L hL (fromCell m) (fun _ => 0) (fun _ => 0) δ 1 j hj
      simp only [zero_mul, add_zero, div_one] at e
      rw [e, if_neg hlt.ne]
      have h1 : j - 1 < m := by omega
      simp [nodeRow, fromCell, hlt, h1, cellInt]
    · subst heq
      have e := node_row L hL (fromCell j) (fun _ => 0) (fun _ => 0) δ 1 j hj
      simp only [zero_mul, add_zero, div_one] at e
      rw [e, if_pos rfl]
      by_cases h0 : 0 < j
      · have h1 : j - 1 < j := by omega
        simp [nodeRow, fromCell, cellInt, hm, h1]
        ring
      · simp [nodeRow, fromCell, cellInt, hm, h0]
        ring
    · rw [h j hgt hj, if_neg hgt.ne']
  refine ⟨?_, by rw [hnode m hm.le, if_pos rfl]⟩
  have hone : ∀ p, ∑ j ∈ Finset.range (L.N + 1), (L.p1 (hat j)).val p = 1 := by
    intro p
    have hc := L.cell_lt p
    simp only [Line.p1, hat]
    rw [Finset.sum_add_distrib, ← Finset.mul_sum, ← Finset.mul_sum, Finset.sum_ite_eq, Finset.sum_ite_eq,
      if_pos (Finset.mem_range.2 (by omega)), if_pos (Finset.mem_range.2 (by omega))]
    ring
  calc ∑ p, L.w p * (fromCell m (L.cell p) * (L.p1 δ).val p)
      = ∑ p, ∑ j ∈ Finset.range (L.N + 1), L.w p * (fromCell m (L.cell p) * (L.p1 δ).val p * (L.p1 (hat j)).val p) := by
        refine Finset.sum_congr rfl fun p _ => ?_
        rw [← Finset.mul_sum, ← Finset.mul_sum, hone p, mul_one]
    _ = ∑ j ∈ Finset.range (L.N + 1), if j = m then L.h m * (2 * δ m + δ (m + 1)) / 6 else 0 := by
        rw [Finset.sum_comm]
        exact Finset.sum_congr rfl fun j hj => hnode j (by have := Finset.mem_range.1 hj; omega)
    _ = L.h m * (2 * δ m + δ (m + 1)) / 6 := by
        rw [Finset.sum_ite_eq', if_pos (Finset.mem_range.2 (by omega))]

theorem outside_line {P : Problem Ω Bool 1} {r : Fld Ω Bool 1} (hm : P.mesh = L.mesh r) {mat : Ω → Mat} {t : Trap Ω Bool 1}
    {m : ℕ} (hf : FirstCells L mat m t) {τ : ℕ → ℝ} (hs : t.sol = L.p1 τ) (v : Ω → ℝ) :
    trappedOutside P.mesh mat t v = ∑ p, L.w p * (fromCell m (L.cell p) * (L.p1 τ).val p * v p) := by
  unfold trappedOutside
  rw [hm, hs]
  refine Finset.sum_congr rfl fun p _ => ?_
  by_cases hp : L.cell p < m
  · simp [(hf p).2 hp, fromCell, hp]
  · have : mat p ∉ t.materials := fun h => hp ((hf p).1 h)
    simp [this, fromCell, hp, Line.mesh]

/-- A function which vanishes in the first cells tests nothing but the rest of the trap equation. -/
theorem outside_tested {P : Problem Ω Bool 1} {mat : Ω → Mat} (h : TrapsPlaced P mat) {t : Trap Ω Bool 1}
    (ht : t ∈ P.traps) {m : ℕ} (hf : FirstCells L mat m t) (hT : TrapHolds L.CG P t) (j : ℕ) (hj : m < j) :
    trapRest P.mesh P.mats P.dt t (L.p1 (hat j)) = 0 := by
  obtain ⟨F, hF, h0⟩ := hT (L.p1 (hat j)) ⟨_, rfl⟩
  obtain ⟨K, hK, e⟩ := trapForm_ok P.mesh P.mats P.mv P.T P.dt t _ F hF
  rw [h0, trapLoop_outside P.mesh P.mv P.T t _ _ _ K hK] at e
  · linarith
  · intro a ha p hp
    have hin : mat p ∈ t.materials := by
      rwa [same_mat h.cover.nodup (h.cover.mem p) (h.among t ht a ha) (h.cover.has p) hp]
    have hc := (hf p).1 hin
    have h1 : L.cell p ≠ j := by omega
    have h2 : L.cell p + 1 ≠ j := by omega
    simp [Line.p1, hat, h1, h2]

/-- **C111 (c).** A trap with continuous elements in the first `m` cells of a line, in the steady state: the trapped
concentration does not vanish in the other cells but changes sign at each of their nodes, and its integral over
them is between a quarter and a third of the size of the first of these cells times the concentration at the interface. -/
theorem C111_outside (hL : L.Exact2) {P : Problem Ω Bool 1} {r : Fld Ω Bool 1} (hmesh : P.mesh = L.mesh r)
    {mat : Ω → Mat} (h : TrapsPlaced P mat) (hdt : P.dt = none) {t : Trap Ω Bool 1} (ht : t ∈ P.traps)
    (hsrc : t.sources = []) {m : ℕ} (hm : m < L.N) (hf : FirstCells L mat m t) {τ : ℕ → ℝ} (hs : t.sol = L.p1 τ)
    (hT : TrapHolds L.CG P t) :
    (∀ j, m ≤ j → j < L.N → ∃ ρ : ℝ, 0 < ρ ∧ ρ ≤ 1 / 2 ∧ τ (j + 1) = -ρ * τ j) ∧
    (∃ β : ℝ, 1 / 4 ≤ β ∧ β < 1 / 3 ∧ trappedOutside P.mesh mat t (fun _ => 1) = β * (L.h m * τ m) ∧
      ∀ j ≤ L.N, trappedOutside P.mesh mat t (L.p1 (hat j)).val = if j = m then β * (L.h m * τ m) else 0) := by
  have hz : ∀ j, m < j → j ≤ L.N →
      ∑ p, L.w p * (fromCell m (L.cell p) * (L.p1 τ).val p * (L.p1 (hat j)).val p) = 0 := by
    intro j hj _
    rw [← outside_line hmesh hf hs, ← trapRest_steady h hdt ht hsrc]
    exact outside_tested h ht hf hT j hj
  have ha : ∀ j, m ≤ j → j < L.N → ∃ ρ : ℝ, 0 < ρ ∧ ρ ≤ 1 / 2 ∧ τ (j + 1) = -ρ * τ j := fun j h1 h2 =>
    alternates hL τ m hz (L.N - 1 - j) j (by omega) h1
  refine ⟨ha, ?_⟩
  obtain ⟨ρ, h0, h1, e⟩ := ha m le_rfl hm
  obtain ⟨e1, e2⟩ := outside_total hL τ m hm hz
  have e3 : L.h m * (2 * τ m + τ (m + 1)) / 6 = (2 - ρ) / 6 * (L.h m * τ m) := by rw [e]; ring
  refine ⟨(2 - ρ) / 6, by linarith, by linarith, ?_, ?_⟩
  · rw [outside_line hmesh hf hs, ← e3, ← e1]
    simp only [mul_one]
  · intro j hj
    rw [outside_line hmesh hf hs]
    rcases lt_trichotomy j m with hlt | heq | hgt
    · rw [if_neg hlt.ne]
      apply Finset.sum_eq_zero
      intro p _
      by_cases hp : L.cell p < m
      · simp [fromCell, hp]
      · have a1 : L.cell p ≠ j := by omega
        have a2 : L.cell p + 1 ≠ j := by omega
        simp [Line.p1, hat, a1, a2]
    · subst heq
      rw [if_pos rfl, e2, e3]
    · rw [if_neg hgt.ne', hz j hgt hj]

/-- **C111 (d).** A transient step with such a trap also changes the trapped concentration outside its materials, with
alternating signs: starting from an empty trap, it becomes negative in the first cell of the other material if it is
positive at the interface. -/
theorem C111_transient (hL : L.Exact2) {P : Problem Ω Bool 1} {r : Fld Ω Bool 1} (hmesh : P.mesh = L.mesh r)
    {mat : Ω → Mat} (h : TrapsPlaced P mat) {dt : ℝ} (hdt : P.dt = some dt) (hpos : dt ≠ 0) {t : Trap Ω Bool 1}
    (ht : t ∈ P.traps) (hsrc : t.sources = []) {m : ℕ} (hf : FirstCells L mat m t) {τ σ : ℕ → ℝ} (hs : t.sol = L.p1 τ)
    (hprev : t.prev = L.p1 σ) (hσ : ∀ j, m ≤ j → σ j = 0) (hT : TrapHolds L.CG P t) :
    ∀ j, m ≤ j → j < L.N → ∃ ρ : ℝ, 0 < ρ ∧ ρ ≤ 1 / 2 ∧ τ (j + 1) = -ρ * τ j := by
  intro j h1 h2
  refine alternates hL τ m ?_ (L.N - 1 - j) j (by omega) h1
  intro i hi _
  have e := outside_tested h ht hf hT i hi
  unfold trapRest at e
  rw [hdt, hsrc] at e
  simp only [List.map_nil, List.sum_nil, sub_zero, volume, hmesh, hs, hprev] at e
  have : ∑ p, L.w p * (fromCell m (L.cell p) * (L.p1 τ).val p * (L.p1 (hat i)).val p)
      = dt * ∑ p, (L.mesh r).w p * (((L.p1 τ).val p - (L.p1 σ).val p) / dt * (L.p1 (hat i)).val p) := by
    rw [Finset.mul_sum]
    refine Finset.sum_congr rfl fun p _ => ?_
    by_cases hp : L.cell p < m
    · have a1 : L.cell p ≠ i := by omega
      have a2 : L.cell p + 1 ≠ i := by omega
      simp [Line.p1, hat, a1, a2]
    · have b1 := hσ (L.cell p) (by omega)
      have b2 := hσ (L.cell p + 1) (by omega)
      simp only [fromCell, hp, if_false, one_mul, Line.mesh]
      simp only [Line.p1, b1, b2]
      field_simp
      ring
  rw [this, e, mul_zero]

/-- A steady simulation on a line, continuous elements for the mobile concentration and for the traps, which all live in the
first `m` cells. -/
structure PartlyTrapped (L : Line Ω) (P : Problem Ω Bool 1) (bcs : List (MobBC Bool)) (mat : Ω → Mat) (matS : Bool → Mat)
    (u : ℕ → ℝ) (dir : Bool → Prop) (m : ℕ) (τ : Trap Ω Bool 1 → ℕ → ℝ) : Prop extends SteadyData L P bcs mat matS u where
  placed : TrapsPlaced P mat
  first : 0 < m ∧ m < L.N
  traps : ∀ t ∈ P.traps, FirstCells L mat m t ∧ t.sol = L.p1 (τ t)
  holds : EquationsHold (L.CG0 dir) L.CG P bcs

variable {P : Problem Ω Bool 1} {bcs : List (MobBC Bool)} {mat : Ω → Mat} {matS : Bool → Mat} {u : ℕ → ℝ} {dir : Bool → Prop}
  {m : ℕ} {τ : Trap Ω Bool 1 → ℕ → ℝ}

theorem p1_zero (L : Line Ω) : (∀ p, (L.p1 fun _ => 0).val p = 0) ∧ ∀ q, (L.p1 fun _ => 0).tr q = 0 :=
  ⟨fun p => by simp [Line.p1], fun q => by simp [Line.p1]⟩

theorem PartlyTrapped.trap (hP : PartlyTrapped L P bcs mat matS u dir m τ) (t : Trap Ω Bool 1) (ht : t ∈ P.traps) :
    TrapHolds L.CG P t :=
  ((equationsHold_iff (L.CG0 dir) L.CG P bcs (L.p1 fun _ => 0) (L.p1 fun _ => 0)
    ⟨_, rfl, fun q _ => (p1_zero L).2 q⟩ ⟨_, rfl⟩ (p1_zero L).1).1 hP.holds).2.1 t ht

/-- **C111 (e).** Then hydrogen disappears at the interface: the flux is the same through all the cells of the first part,
the same through all those of the second, but differs between both by the traps' concentrations at the interface times
between a quarter and a third of the size of the cell after it. -/
theorem C111_loss (hL : L.Exact2) (hP : PartlyTrapped L P bcs mat matS u dir m τ) :
    ∃ (β : Trap Ω Bool 1 → ℝ) (J J' : ℝ), (∀ t ∈ P.traps, 1 / 4 ≤ β t ∧ β t < 1 / 3) ∧
      (∀ i < m, cellFlux L (conductivity P mat) u i = J) ∧
      (∀ i < L.N, m ≤ i → cellFlux L (conductivity P mat) u i = J') ∧
      J' - J = (P.traps.map fun t => β t * (L.h m * τ t m)).sum := by
  classical
  obtain ⟨r, hmesh⟩ := hP.mesh
  obtain ⟨hm0, hmN⟩ := hP.first
  have hT : ∀ t, t ∈ P.traps → ∃ β : ℝ, 1 / 4 ≤ β ∧ β < 1 / 3 ∧
      ∀ j ≤ L.N, trappedOutside P.mesh mat t (L.p1 (hat j)).val = if j = m then β * (L.h m * τ t m) else 0 := by
    intro t ht
    obtain ⟨hf, hs⟩ := hP.traps t ht
    obtain ⟨_, β, h1, h2, _, h3⟩ := C111_outside hL hmesh hP.placed hP.steady ht (hP.sources.2 t ht) hmN hf hs (hP.trap t ht)
    exact ⟨β, h1, h2, h3⟩
  choose! β hβ1 hβ2 hβ3 using hT
  have node : ∀ j, 0 < j → j < L.N → cellFlux L (conductivity P mat) u (j - 1) - cellFlux L (conductivity P mat) u j
      + (if j = m then (P.traps.map fun t => β t * (L.h m * τ t m)).sum else 0) = 0 := by
    intro j hj0 hjN
    have hend : ∀ q, (L.p1 (hat j)).tr q = 0 := by
      intro q
      have h1 : (0 : ℕ) ≠ j := by omega
      have h2 : L.N ≠ j := by omega
      cases q <;> simp [Line.p1, hat, h1, h2]
    have e := C111_sink (W := L.CG0 dir) (Wt := L.CG) hP.placed hP.steady hP.sources.2 matS hP.solubility
      (by simp [hmesh, Line.mesh]) hP.noSK (by rintro v ⟨x, rfl, _⟩; exact ⟨x, rfl⟩) hP.holds (L.p1 (hat j))
      ⟨_, rfl, fun q _ => hend q⟩
    have e1 := hP.weak (hat j)
    have hn0 : hat j 0 = 0 := by simp [hat]; omega
    have hnN : hat j L.N = 0 := by simp [hat]; omega
    rw [hat_sum _ _ _ hjN.le, hn0, hnN] at e1
    simp only [hj0, hjN, if_true, zero_mul, add_zero, sub_zero] at e1
    have e2 : (P.traps.map fun t => trappedOutside P.mesh mat t (L.p1 (hat j)).val).sum
        = if j = m then (P.traps.map fun t => β t * (L.h m * τ t m)).sum else 0 := by
      rw [List.map_congr_left fun t ht => hβ3 t ht j hjN.le]
      split_ifs
      · rfl
      · simp
    rw [e2] at e
    linarith
  refine ⟨β, cellFlux L (conductivity P mat) u 0, cellFlux L (conductivity P mat) u m, fun t ht => ⟨hβ1 t ht, hβ2 t ht⟩, ?_, ?_, ?_⟩
  · intro i
    induction i with
    | zero => intro _; rfl
    | succ i ih =>
      intro hi
      have := node (i + 1) (by omega) (by omega)
      rw [if_neg (by omega), Nat.add_sub_cancel] at this
      linarith [ih (by omega)]
  · intro i hi hmi
    induction i, hmi using Nat.le_induction with
    | base => rfl
    | succ i hmi ih =>
      have := node (i + 1) (by omega) hi
      rw [if_neg (by omega), Nat.add_sub_cancel] at this
      linarith [ih (by omega)]
  · have h1 : ∀ i < m, cellFlux L (conductivity P mat) u i = cellFlux L (conductivity P mat) u 0 := by
      intro i
      induction i with
      | zero => intro _; rfl
      | succ i ih =>
        intro hi
        have := node (i + 1) (by omega) (by omega)
        rw [if_neg (by omega), Nat.add_sub_cancel] at this
        linarith [ih (by omega)]
    have := node m hm0 hmN
    rw [if_pos rfl, h1 (m - 1) (by omega)] at this
    linarith

/-- **C111 (f).** So the values reported by `SurfaceFlux` on both sides do not add up to zero, although the simulation is
steady and without sources: something remains as soon as the traps have hydrogen at the interface. -/
theorem C111_reported (hL : L.Exact2) (hP : PartlyTrapped L P bcs mat matS u dir m τ) (e : PostEnv Ω Bool 1) (proj : Bool)
    (he : e.mesh = P.mesh) (hn : e.n = Line.normal) (hes : e.soret = false) (hp : PropertiesOf e P.mats matS)
    (hg : ∀ q, e.solute.gradS q 0
      = (if P.mv.theta then arr (matS q).S_0 (matS q).E_S (e.T.tr q) else 1) * L.endSlope u q)
    (hT : ∀ q p, L.cell p = L.endCell q → mat p = matS q ∧ P.T.T.val p = e.T.tr q) :
    ∃ (β : Trap Ω Bool 1 → ℝ) (x y : ℝ), (∀ t ∈ P.traps, 1 / 4 ≤ β t ∧ β t < 1 / 3) ∧
      (hydrogenFlux L.right).value e proj = .ok x ∧ (hydrogenFlux L.left).value e proj = .ok y ∧
      x + y = (P.traps.map fun t => β t * (L.h m * τ t m)).sum := by
  obtain ⟨β, J, J', hβ, h1, h2, h3⟩ := C111_loss hL hP
  obtain ⟨hm0, hmN⟩ := hP.first
  obtain ⟨a, b⟩ := line_reported hP.toLineData e proj he hn hes hp hg hT
  refine ⟨β, _, _, hβ, a, b, ?_⟩
  rw [h1 0 hm0, h2 (L.N - 1) (by omega) (by omega), ← h3]
  ring

end

/-! ### Two layers, a trap in the first one -/

namespace PartCase

noncomputable def L : Line (Fin 2 × Fin 3) :=
  { BoundCase.simpson 1 one_pos with vm := fun p => p.1.val + 1, vmR := 2 }

theorem exact2 : L.Exact2 where
  w_nonneg := (BoundCase.simpson_exact2 1 one_pos).w_nonneg
  lam_nonneg := (BoundCase.simpson_exact2 1 one_pos).lam_nonneg
  lam_le := (BoundCase.simpson_exact2 1 one_pos).lam_le
  one := (BoundCase.simpson_exact2 1 one_pos).one
  two := (BoundCase.simpson_exact2 1 one_pos).two

noncomputable def A : Mat := { uid := 0, ids := [1], D_0 := 1, E_D := 0 }
noncomputable def B : Mat := { uid := 1, ids := [2], D_0 := 2, E_D := 0 }
noncomputable def mat (p : Fin 2 × Fin 3) : Mat := if p.1 = 0 then A else B
noncomputable def matS (q : Bool) : Mat := if q then B else A

/-- `k = p = 1`, `n = 4`. -/
noncomputable def trap (sol prev : Fld (Fin 2 × Fin 3) Bool 1) : Trap (Fin 2 × Fin 3) Bool 1 where
  k_0 := .num 1
  E_k := .num 0
  p_0 := .num 1
  E_p := .num 0
  density := [fun _ => 4]
  materials := [A]
  sol := sol
  prev := prev

noncomputable def P (sol : Fld (Fin 2 × Fin 3) Bool 1) (dt : Option ℝ) (t : Trap (Fin 2 × Fin 3) Bool 1) :
    Problem (Fin 2 × Fin 3) Bool 1 where
  mesh := L.mesh (Fld.const 1)
  mats := [A, B]
  mv := { theta := false, sol := sol, prev := Fld.const 0 }
  T := ⟨Fld.const 300, Fld.const 300⟩
  dt := dt
  soret := false
  sources := []
  traps := [t]

theorem AneB : A ≠ B := fun h => by
  have := congrArg Mat.uid h
  simp [A, B] at this

theorem placed (sol : Fld (Fin 2 × Fin 3) Bool 1) (dt : Option ℝ) (x y : Fld (Fin 2 × Fin 3) Bool 1) :
    TrapsPlaced (P sol dt (trap x y)) mat where
  cover := ⟨by intro p; by_cases h : p.1 = 0 <;> simp [mat, P, h],
    by
      rintro ⟨p, p'⟩
      fin_cases p <;> simp [mat, P, L, Line.mesh, A, B], by simp [P, A, B]⟩
  among := by simp [P, trap]
  told := by simp [P, A, B]

theorem first (x y : Fld (Fin 2 × Fin 3) Bool 1) : FirstCells L mat 1 (trap x y) := by
  rintro ⟨p, p'⟩
  have h := AneB.symm
  fin_cases p <;> simp [trap, mat, L, BoundCase.simpson, h]

/-- The steady state with continuous elements: mobile and trapped concentrations at the nodes. -/
noncomputable def u (i : ℕ) : ℝ := if i = 0 then 1 / 2 else if i = 1 then 2 else 3
noncomputable def τ (i : ℕ) : ℝ := if i = 2 then -1 else 2

noncomputable def PS := P (L.p1 u) none (trap (L.p1 τ) (Fld.const 0))

theorem steady : PartlyTrapped L PS [] mat matS u (fun _ => True) 1 fun _ => τ where
  mesh := ⟨_, rfl⟩
  steady := rfl
  sol := rfl
  cover := (placed _ _ _ _).cover
  solubility := ⟨by simp [PS, P], by simp [PS, P], by simp [PS, P], by simp [PS, P]⟩
  law := by simp [PS, P]
  uniform := by simp [PS, P]
  sources := ⟨rfl, by simp [PS, P, trap]⟩
  noSK := by simp
  placed := placed _ _ _ _
  first := ⟨one_pos, by simp [L, BoundCase.simpson]⟩
  traps := by
    intro t ht
    obtain rfl : t = trap (L.p1 τ) (Fld.const 0) := by simpa [PS, P] using ht
    exact ⟨first _ _, rfl⟩
  holds := by
    rintro v ⟨x, rfl, hx⟩ vt hl hvt f
    have h0 : x 0 = 0 := by simpa [Line.p1] using hx false trivial
    have h2 : x 2 = 0 := by simpa [Line.p1, L, BoundCase.simpson] using hx true trivial
    match vt, hl, hvt with
    | [w], _, hvt =>
      obtain ⟨y, rfl⟩ := hvt w (by simp)
      refine ⟨_, rfl, ?_⟩
      simp [PS, P, Line.mesh, Mesh.assemble, Mesh.integrate, Form.neg, trap,
        subdomainForm, Fld.const, dot, sourceForm, fluxesForm, A, B, Line.p1, u, τ, L, BoundCase.simpson,
        Fin.sum_univ_two, Fin.sum_univ_three, Fintype.sum_prod_type, h0, h2, Mobile.conc, trapSourceForm, Finset.sum_filter]
      ring
    | [], hl, _ => simp [PS, P] at hl
    | _ :: _ :: _, hl, _ => simp [PS, P] at hl

/-- `1/2` is missing between the flux `3/2` in the first layer and `2` in the second. -/
example : ∃ (β : Trap (Fin 2 × Fin 3) Bool 1 → ℝ) (J J' : ℝ), (∀ t ∈ PS.traps, 1 / 4 ≤ β t ∧ β t < 1 / 3) ∧
      (∀ i < 1, cellFlux L (conductivity PS mat) u i = J) ∧
      (∀ i < L.N, 1 ≤ i → cellFlux L (conductivity PS mat) u i = J') ∧
      J' - J = (PS.traps.map fun t => β t * (L.h 1 * τ 1)).sum :=
  C111_loss exact2 steady

example : cellFlux L (conductivity PS mat) u 0 = 3 / 2 ∧ cellFlux L (conductivity PS mat) u 1 = 2 := by
  have h21 : ¬ (2 : Fin 3) = 1 := by decide
  constructor <;>
    norm_num [cellFlux, cellInt, L, BoundCase.simpson, conductivity, PS, P, mat, A, B, arr, u, Finset.sum_filter, Fintype.sum_prod_type,
      Fin.sum_univ_two, Fin.sum_univ_three, h21]

example : ∃ ρ : ℝ, 0 < ρ ∧ ρ ≤ 1 / 2 ∧ τ 2 = -ρ * τ 1 :=
  (C111_outside (P := PS) (t := trap (L.p1 τ) (Fld.const 0)) (τ := τ) exact2 rfl (placed _ _ _ _) rfl List.mem_cons_self rfl
    (by simp [L, BoundCase.simpson]) (first _ _) rfl (steady.trap _ List.mem_cons_self)).1 1 le_rfl (by simp [L, BoundCase.simpson])

example (v : Fld (Fin 2 × Fin 3) Bool 1) (hv : L.CG0 (fun _ => True) v) :
    volume PS.mesh (fun p => dot (gradFlux PS.soret PS.mv.theta (mat p) (PS.T.T.val p) (PS.mv.sol.val p)
              (PS.T.T.grad p) (PS.mv.sol.grad p)) (coordGrad PS.mesh v p))
        + (PS.traps.map fun t => trappedOutside PS.mesh mat t v.val).sum
      = supply PS [] mat matS v :=
  C111_sink (placed _ _ _ _) rfl steady.sources.2 matS steady.solubility (by simp [PS, P, Line.mesh]) (by simp)
    (by rintro v ⟨x, rfl, _⟩; exact ⟨x, rfl⟩) steady.holds v hv

noncomputable def fun1 (u : ℕ → ℝ) : PostFun (Fin 2 × Fin 3) Bool 1 where
  val := (L.p1 u).val
  tr := (L.p1 u).tr
  gradS q _ := L.endSlope u q
  cells := [(1, [u 0, u 1]), (2, [u 1, u 2])]
  pt _ := 0
  isFun := true

noncomputable def env : PostEnv (Fin 2 × Fin 3) Bool 1 where
  mesh := PS.mesh
  n := Line.normal
  D q := if q then 2 else 1
  cond := none
  Q := none
  T := fun1 fun _ => 300
  soret := false
  solute := fun1 u
  traps := []
  ids := []
  adsorbed := []

/-- What is reported. -/
example : ∃ (β : Trap (Fin 2 × Fin 3) Bool 1 → ℝ) (x y : ℝ), (∀ t ∈ PS.traps, 1 / 4 ≤ β t ∧ β t < 1 / 3) ∧
      (hydrogenFlux L.right).value env false = .ok x ∧ (hydrogenFlux L.left).value env false = .ok y ∧
      x + y = (PS.traps.map fun t => β t * (L.h 1 * τ 1)).sum :=
  C111_reported exact2 steady env false rfl rfl rfl
    ⟨by intro q; cases q <;> simp [env, PS, P, L, Line.mesh, findMat, A, B, matS, BoundCase.simpson],
      by intro q; cases q <;> simp [env, PS, P, L, Line.mesh, arrheniusCoeff, findMat, A, B, matS, BoundCase.simpson],
      by simp [env], by simp [env]⟩
    (by intro q; simp [env, PS, P, fun1])
    (by
      rintro q ⟨p, p'⟩ h
      cases q <;> fin_cases p <;> simp_all [L, Line.endCell, mat, matS, PS, P, env, Fld.const, BoundCase.simpson, fun1, Line.p1])

/-- The first step, of length 1, of a simulation with an empty trap: trapped concentrations 2, 2 and -1 at the nodes. -/
noncomputable def u1 (i : ℕ) : ℝ := if i = 0 then 3 / 2 else 3
noncomputable def PT := P (L.p1 u1) (some 1) (trap (L.p1 τ) (L.p1 fun _ => 0))

theorem step : TrapHolds L.CG PT (trap (L.p1 τ) (L.p1 fun _ => 0)) := by
  rintro w ⟨y, rfl⟩
  refine ⟨_, rfl, ?_⟩
  simp [PT, P, Line.mesh, Mesh.assemble, Mesh.integrate, trap, Fld.const, A, B, Line.p1, u1, τ, L, BoundCase.simpson,
        Fin.sum_univ_two, Fin.sum_univ_three, Fintype.sum_prod_type, Mobile.conc, trapSourceForm, Finset.sum_filter]
  ring

example : ∃ ρ : ℝ, 0 < ρ ∧ ρ ≤ 1 / 2 ∧ τ 2 = -ρ * τ 1 :=
  C111_transient (P := PT) (t := trap (L.p1 τ) (L.p1 fun _ => 0)) (τ := τ) exact2 rfl (placed _ _ _ _) rfl one_ne_zero
    List.mem_cons_self rfl (first _ _) rfl rfl (fun _ _ => rfl) step 1 le_rfl (by simp [L, BoundCase.simpson])

/-- With elements free at each point, the concentration is the one without trap, the trap is at equilibrium. -/
noncomputable def u2 (i : ℕ) : ℝ := if i = 0 then 1 else if i = 1 then 3 else 4
noncomputable def eqm : Fld (Fin 2 × Fin 3) Bool 1 where
  val p := if p.1 = 0 then 4 * (L.p1 u2).val p / ((L.p1 u2).val p + 1) else 0
  grad _ _ := 0
  tr _ := 0
noncomputable def PD := P (L.p1 u2) none (trap eqm (Fld.const 0))

theorem free : EquationsHold (L.CG0 fun _ => True) (fun _ => True) PD.free [] := by
  rintro v ⟨x, rfl, hx⟩ vt hl hvt f
  have h0 : x 0 = 0 := by simpa [Line.p1] using hx false trivial
  have h2 : x 2 = 0 := by simpa [Line.p1, L, BoundCase.simpson] using hx true trivial
  match vt, hl with
  | [], _ =>
    refine ⟨_, rfl, ?_⟩
    simp [PD, P, Problem.free, Line.mesh, Mesh.assemble, Mesh.integrate, Form.neg,
        subdomainForm, Fld.const, dot, sourceForm, fluxesForm, A, B, Line.p1, u2, L, BoundCase.simpson,
        Fin.sum_univ_two, Fin.sum_univ_three, Fintype.sum_prod_type, h0, h2, Mobile.conc, Finset.sum_filter]
    ring
  | _ :: _, hl => simp [PD, P, Problem.free] at hl

theorem atEquilibrium : TrapHolds (fun _ => True) PD (trap eqm (Fld.const 0)) := by
  rintro w -
  refine ⟨_, rfl, ?_⟩
  simp [PD, P, Line.mesh, Mesh.assemble, Mesh.integrate, trap, Fld.const, A, B, Line.p1, u2, eqm, L, BoundCase.simpson,
        Fin.sum_univ_two, Fin.sum_univ_three, Fintype.sum_prod_type, Mobile.conc, trapSourceForm, Finset.sum_filter]
  ring

example : EquationsHold (L.CG0 fun _ => True) (fun _ => True) PD [] := by
  refine (C111_free (placed _ _ _ _) rfl (by simp [PD, P, trap]) ?_ (L.p1 fun _ => 0) (L.p1 fun _ => 0)
    ⟨_, rfl, fun q _ => (p1_zero L).2 q⟩ trivial (p1_zero L).1).2 ⟨free, ?_⟩
  · classical
    intro t _ v _
    refine ⟨⟨fun p => if mat p ∈ t.materials then v.val p else 0, v.grad, v.tr⟩, trivial, fun p => ⟨?_, ?_⟩⟩ <;>
      intro h <;> simp [h]
  · intro t ht
    obtain rfl : t = trap eqm (Fld.const 0) := by simpa [PD, P] using ht
    exact atEquilibrium

end PartCase

end Festim.Props
