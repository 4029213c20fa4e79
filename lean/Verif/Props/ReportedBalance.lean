import Verif.Spec.ReportedBalance
import Verif.Props.Permeation

/-!
# C112: the balance of hydrogen from reported fluxes and inventories
-/

open scoped BigOperators

set_option linter.unusedSectionVars false
set_option linter.unusedSimpArgs false

namespace Festim.Weak

open Festim.Props

section
variable {Ω : Type} [Fintype Ω]

/-- A step of length `k` of a transient simulation on a line, converged.  `dir q`: a concentration is imposed at the
end `q`; the residual vanishes for the test functions which vanish at such ends. -/
structure TransientLine (L : Line Ω) (P : Problem Ω Bool 1) (bcs : List (MobBC Bool)) (mat : Ω → Mat)
    (matS : Bool → Mat) (u : ℕ → ℝ) (dir : Bool → Prop) (k : ℝ) : Prop extends LineData L P bcs mat matS u where
  transient : P.dt = some k
  pos : 0 < k
  solves : ∀ v : ℕ → ℝ, (∀ q, dir q → (L.p1 v).tr q = 0) →
    ∃ F, P.form bcs (L.p1 v) (P.traps.map fun _ => L.p1 v) = .ok F ∧ P.mesh.assemble F = 0

/-- The derived quantities are evaluated on the solution of this step: the gradient at an end is the slope in the cell
there (times the solubility with the chemical potential), material and temperature are uniform in these cells. -/
structure LineReport (L : Line Ω) (P : Problem Ω Bool 1) (mat : Ω → Mat) (matS : Bool → Mat) (u : ℕ → ℝ)
    (e : PostEnv Ω Bool 1) : Prop where
  mesh : e.mesh = P.mesh
  normal : e.n = Line.normal
  soret : e.soret = false
  properties : PropertiesOf e P.mats matS
  grad : ∀ q, e.solute.gradS q 0
    = (if P.mv.theta then arr (matS q).S_0 (matS q).E_S (e.T.tr q) else 1) * L.endSlope u q
  ends : ∀ q p, L.cell p = L.endCell q → mat p = matS q ∧ P.T.T.val p = e.T.tr q

/-- What enters per unit time according to the outputs: the values `x` reported by `SurfaceFlux` where the concentration
is imposed, and the fluxes imposed at the other ends. -/
noncomputable def entering (P : Problem Ω Bool 1) (bcs : List (MobBC Bool)) (matS : Bool → Mat) (dir : Bool → Prop)
    (x : Bool → ℝ) : ℝ :=
  open Classical in ∑ q, if dir q then x q else inflowAt P bcs matS q

variable {L : Line Ω} {P : Problem Ω Bool 1} {bcs : List (MobBC Bool)} {mat : Ω → Mat}
  {matS : Bool → Mat} {u : ℕ → ℝ} {dir : Bool → Prop} {k : ℝ}

theorem TransientLine.balance (hP : TransientLine L P bcs mat matS u dir k) (v : ℕ → ℝ)
    (hv : ∀ q, dir q → (L.p1 v).tr q = 0) :
    held P mat (L.p1 v).val = heldBefore P mat (L.p1 v).val
      + k * (v 0 * inflowAt P bcs matS false + v L.N * inflowAt P bcs matS true + produced P mat (L.p1 v).val
        - ∑ i ∈ Finset.range L.N, cellFlux L (conductivity P mat) u i * (v (i + 1) - v i)) := by
  obtain ⟨F, hF, h0⟩ := hP.solves v hv
  obtain ⟨r, hm⟩ := hP.mesh
  have hmt : P.mesh.type = .cartesian := by rw [hm]; rfl
  rw [C41_weak_form P bcs mat matS k (L.p1 v) F hP.transient hP.cover hP.solubility (by simp [hmt])
    (fun b vs hb => absurd hb (hP.noSK b vs)) (Or.inr hP.noSK) hF, hP.fluxTerm v] at h0
  have e1 : stock P bcs mat matS (L.p1 v) = held P mat (L.p1 v).val := by
    unfold stock held
    rw [bcStock_zero _ _ _ _ _ hP.noSK, add_zero]
  have e2 : stockPrev P bcs mat matS (L.p1 v) = heldBefore P mat (L.p1 v).val := by
    unfold stockPrev heldBefore
    rw [bcStock_zero _ _ _ _ _ hP.noSK, add_zero]
  have e3 : supply P bcs mat matS (L.p1 v) = produced P mat (L.p1 v).val
      + (v 0 * inflowAt P bcs matS false + v L.N * inflowAt P bcs matS true) := by
    rw [← hP.inflow v]
    rfl
  rw [e1, e2, e3] at h0
  have hk := hP.pos.ne'
  field_simp at h0
  linarith

theorem held_lin (P : Problem Ω Bool 1) (mat : Ω → Mat) (a b : ℝ) (w f g : Ω → ℝ) :
    held P mat (fun p => w p - a * f p - b * g p) = held P mat w - a * held P mat f - b * held P mat g := by
  unfold held volume
  rw [Finset.mul_sum, Finset.mul_sum, ← Finset.sum_sub_distrib, ← Finset.sum_sub_distrib]
  exact Finset.sum_congr rfl fun p _ => by ring

theorem heldBefore_lin (P : Problem Ω Bool 1) (mat : Ω → Mat) (a b : ℝ) (w f g : Ω → ℝ) :
    heldBefore P mat (fun p => w p - a * f p - b * g p)
      = heldBefore P mat w - a * heldBefore P mat f - b * heldBefore P mat g := by
  unfold heldBefore volume
  rw [Finset.mul_sum, Finset.mul_sum, ← Finset.sum_sub_distrib, ← Finset.sum_sub_distrib]
  exact Finset.sum_congr rfl fun p _ => by ring

theorem sum_lin {α : Type} (l : List α) (a b : ℝ) (x y z w : α → ℝ) (h : ∀ t ∈ l, x t = y t - a * z t - b * w t) :
    (l.map x).sum = (l.map y).sum - a * (l.map z).sum - b * (l.map w).sum := by
  induction l with
  | nil => simp
  | cons t l ih =>
    simp only [List.map_cons, List.sum_cons]
    rw [h t List.mem_cons_self, ih fun t ht => h t (List.mem_cons_of_mem _ ht)]
    ring

theorem produced_lin (P : Problem Ω Bool 1) (mat : Ω → Mat) (a b : ℝ) (w f g : Ω → ℝ) :
    produced P mat (fun p => w p - a * f p - b * g p)
      = produced P mat w - a * produced P mat f - b * produced P mat g := by
  have fin : ∀ (s : Finset Ω) (r : Ω → ℝ), ∑ p ∈ s, P.mesh.w p * (r p * (w p - a * f p - b * g p))
      = ∑ p ∈ s, P.mesh.w p * (r p * w p) - a * ∑ p ∈ s, P.mesh.w p * (r p * f p)
        - b * ∑ p ∈ s, P.mesh.w p * (r p * g p) := by
    intro s r
    rw [Finset.mul_sum, Finset.mul_sum, ← Finset.sum_sub_distrib, ← Finset.sum_sub_distrib]
    exact Finset.sum_congr rfl fun p _ => by ring
  have e1 : (P.sources.map fun s => (s.volumes.map fun vol =>
      volumeOf P.mesh vol fun p => srcRate s (P.c mat p) p * (w p - a * f p - b * g p)).sum).sum
      = (P.sources.map fun s => (s.volumes.map fun vol =>
      volumeOf P.mesh vol fun p => srcRate s (P.c mat p) p * w p).sum).sum
      - a * (P.sources.map fun s => (s.volumes.map fun vol =>
      volumeOf P.mesh vol fun p => srcRate s (P.c mat p) p * f p).sum).sum
      - b * (P.sources.map fun s => (s.volumes.map fun vol =>
      volumeOf P.mesh vol fun p => srcRate s (P.c mat p) p * g p).sum).sum :=
    sum_lin _ a b _ _ _ _ fun s _ => sum_lin _ a b _ _ _ _ fun vol _ => fin _ _
  have e2 : (P.traps.map fun t => (t.sources.map fun s =>
      volumeIn P.mesh s.volumes fun p => srcRate s (t.sol.val p) p * (w p - a * f p - b * g p)).sum).sum
      = (P.traps.map fun t => (t.sources.map fun s =>
      volumeIn P.mesh s.volumes fun p => srcRate s (t.sol.val p) p * w p).sum).sum
      - a * (P.traps.map fun t => (t.sources.map fun s =>
      volumeIn P.mesh s.volumes fun p => srcRate s (t.sol.val p) p * f p).sum).sum
      - b * (P.traps.map fun t => (t.sources.map fun s =>
      volumeIn P.mesh s.volumes fun p => srcRate s (t.sol.val p) p * g p).sum).sum :=
    sum_lin _ a b _ _ _ _ fun t _ => sum_lin _ a b _ _ _ _ fun s _ => fin _ _
  unfold produced
  beta_reduce
  rw [e1, e2]
  ring

theorem atEnd_of_ne (q : Bool) (p : Ω) (h : L.cell p ≠ L.endCell q) : L.atEnd q p = 0 := by
  have hlt := L.cell_lt p
  have hN := L.N_pos
  cases q
  · have h' : L.cell p ≠ 0 := by simpa [Line.endCell] using h
    simp [Line.atEnd, Line.p1, hat, Line.endNode, h']
  · have h' : L.cell p ≠ L.N - 1 := by simpa [Line.endCell] using h
    have h1 : L.cell p ≠ L.N := by omega
    have h2 : L.cell p + 1 ≠ L.N := by omega
    simp [Line.atEnd, Line.p1, hat, Line.endNode, h1, h2]

theorem atEnd_of_eq (q : Bool) (p : Ω) (h : L.cell p = L.endCell q) :
    L.atEnd q p = if q then L.lam p else 1 - L.lam p := by
  have hlt := L.cell_lt p
  have hN := L.N_pos
  cases q
  · have h' : L.cell p = 0 := by simpa [Line.endCell] using h
    simp [Line.atEnd, Line.p1, hat, Line.endNode, h']
  · have h' : L.cell p = L.N - 1 := by simpa [Line.endCell] using h
    have h1 : L.cell p ≠ L.N := by omega
    have h2 : L.cell p + 1 = L.N := by omega
    simp [Line.atEnd, Line.p1, hat, Line.endNode, h1, h2]

/-- At most half of the cell. -/
theorem atEnd_bound (hL : L.Exact2) (q : Bool) (r : Fld Ω Bool 1) (c : Ω → ℝ) (M : ℝ)
    (hc : ∀ p, L.cell p = L.endCell q → |c p| ≤ M) :
    |volume (L.mesh r) fun p => c p * L.atEnd q p| ≤ L.h (L.endCell q) / 2 * M := by
  have hN := L.N_pos
  have hlt : L.endCell q < L.N := by cases q <;> simp [Line.endCell] <;> omega
  have e : (volume (L.mesh r) fun p => c p * L.atEnd q p)
      = ∑ p ∈ Finset.univ.filter (fun p => L.cell p = L.endCell q), L.w p * (c p * if q then L.lam p else 1 - L.lam p) := by
    unfold volume
    rw [Finset.sum_filter]
    refine Finset.sum_congr rfl fun p _ => ?_
    beta_reduce
    split_ifs with h1 h2 h2
    · rw [atEnd_of_eq q p h1, if_pos h2]; rfl
    · rw [atEnd_of_eq q p h1, if_neg h2]; rfl
    · rw [atEnd_of_ne q p h1, mul_zero, mul_zero]
  have half : ∑ p ∈ Finset.univ.filter (fun p => L.cell p = L.endCell q), L.w p * (if q then L.lam p else 1 - L.lam p)
      = L.h (L.endCell q) / 2 := by
    cases q
    · have h1 := hL.one _ hlt
      have h2 := L.exact _ hlt
      simp only [Bool.false_eq_true, if_false, mul_sub, mul_one, Finset.sum_sub_distrib, h1, h2]
      ring
    · simpa using hL.one _ hlt
  rw [e, ← half, Finset.sum_mul]
  refine (Finset.abs_sum_le_sum_abs _ _).trans (Finset.sum_le_sum fun p hp => ?_)
  have hw := hL.w_nonneg p
  have hl : 0 ≤ if q then L.lam p else 1 - L.lam p := by
    have h0 := hL.lam_nonneg p
    have h1 := hL.lam_le p
    split_ifs <;> linarith
  rw [abs_mul, abs_mul, abs_of_nonneg hw, abs_of_nonneg hl, mul_assoc]
  have := hc p (Finset.mem_filter.1 hp).2
  exact mul_le_mul_of_nonneg_left (by rw [mul_comm]; exact mul_le_mul_of_nonneg_left this hl) hw

theorem follows_held {Q : Problem Ω Bool 1} {bcs' : List (MobBC Bool)} (h : Follows P Q bcs bcs') (v : Ω → ℝ) :
    heldBefore Q mat v = held P mat v := by
  have := follows_stock P Q [] [] mat (fun _ => { uid := 0, ids := [], D_0 := 0, E_D := 0 }) ⟨v, fun _ _ => 0, fun _ => 0⟩ { h with bcs := .nil }
  simpa [stock, stockPrev, held, heldBefore] using this

end

end Festim.Weak

namespace Festim.Props

open Festim.Weak

section
variable {Ω : Type} [Fintype Ω] {L : Line Ω} {P : Problem Ω Bool 1} {bcs : List (MobBC Bool)} {mat : Ω → Mat}
  {matS : Bool → Mat} {u : ℕ → ℝ} {dir : Bool → Prop} {k : ℝ}

/-- **C112 (a).** One converged step: the hydrogen present changes by the stepsize times what enters according to the
outputs and what the sources produce, up to what is stored at the ends where a concentration is imposed: the change (less
what is produced) counted with the function which decreases from 1 to 0 in the cell there. -/
theorem C112_step (hP : TransientLine L P bcs mat matS u dir k) (e : PostEnv Ω Bool 1) (proj : Bool)
    (he : LineReport L P mat matS u e) :
    ∃ x : Bool → ℝ, (hydrogenFlux L.right).value e proj = .ok (x true) ∧
      (hydrogenFlux L.left).value e proj = .ok (x false) ∧
      held P mat (fun _ => 1) = heldBefore P mat (fun _ => 1)
        + k * (entering P bcs matS dir x + produced P mat fun _ => 1)
        + overEnds dir fun q => held P mat (L.atEnd q) - heldBefore P mat (L.atEnd q) - k * produced P mat (L.atEnd q) := by
  classical
  obtain ⟨h1, h2⟩ := line_reported hP.toLineData e proj he.mesh he.normal he.soret he.properties he.grad he.ends
  refine ⟨fun q => if q then cellFlux L (conductivity P mat) u (L.N - 1) else -cellFlux L (conductivity P mat) u 0,
    by simpa using h1, by simpa using h2, ?_⟩
  have hN := L.N_pos
  have hN0 : L.N ≠ 0 := by omega
  have h0N : 0 ≠ L.N := by omega
  set a : ℝ := if dir false then 1 else 0 with ha
  set b : ℝ := if dir true then 1 else 0 with hb
  set v : ℕ → ℝ := fun i => 1 - a * hat 0 i - b * hat L.N i with hv
  have hv0 : v 0 = 1 - a := by simp [hv, hat, h0N]
  have hvN : v L.N = 1 - b := by simp [hv, hat, hN0]
  have hval : (L.p1 v).val = fun p => 1 - a * L.atEnd false p - b * L.atEnd true p := by
    funext p
    simp only [Line.p1, hv, Line.atEnd, Line.endNode]
    simp
    ring
  have hsum : (∑ i ∈ Finset.range L.N, cellFlux L (conductivity P mat) u i * (v (i + 1) - v i))
      = a * cellFlux L (conductivity P mat) u 0 - b * cellFlux L (conductivity P mat) u (L.N - 1) := by
    have e0 := hat_sum (cellFlux L (conductivity P mat) u) L.N 0 (Nat.zero_le _)
    have eN := hat_sum (cellFlux L (conductivity P mat) u) L.N L.N le_rfl
    simp only [lt_irrefl, if_false, hN, if_true] at e0 eN
    have : (∑ i ∈ Finset.range L.N, cellFlux L (conductivity P mat) u i * (v (i + 1) - v i))
        = -(a * ∑ i ∈ Finset.range L.N, cellFlux L (conductivity P mat) u i * (hat 0 (i + 1) - hat 0 i))
          - b * ∑ i ∈ Finset.range L.N, cellFlux L (conductivity P mat) u i * (hat L.N (i + 1) - hat L.N i) := by
      rw [Finset.mul_sum, Finset.mul_sum, ← Finset.sum_neg_distrib, ← Finset.sum_sub_distrib]
      exact Finset.sum_congr rfl fun i _ => by simp only [hv]; ring
    rw [this, e0, eN]
    ring
  have main := hP.balance v (by
    intro q hq
    cases q
    · simp [Line.p1, hv0, ha, hq]
    · simp [Line.p1, hvN, hb, hq])
  rw [hv0, hvN, hval, hsum, held_lin _ _ _ _ fun _ => 1, heldBefore_lin _ _ _ _ fun _ => 1,
    produced_lin _ _ _ _ fun _ => 1] at main
  have ex : entering P bcs matS dir (fun q => if q then cellFlux L (conductivity P mat) u (L.N - 1)
      else -cellFlux L (conductivity P mat) u 0)
      = (1 - a) * inflowAt P bcs matS false + (1 - b) * inflowAt P bcs matS true
        - (a * cellFlux L (conductivity P mat) u 0 - b * cellFlux L (conductivity P mat) u (L.N - 1)) := by
    unfold entering
    rw [Fintype.sum_bool, ha, hb]
    by_cases h1 : dir true <;> by_cases h2 : dir false <;> simp [h1, h2] <;> ring
  have eo : ∀ z : Bool → ℝ, overEnds dir z = a * z false + b * z true := by
    intro z
    unfold overEnds
    rw [Fintype.sum_bool, ha, hb]
    by_cases h1 : dir true <;> by_cases h2 : dir false <;> simp [h1, h2] <;> ring
  rw [ex, eo]
  linarith

/-- **C112 (b).** Over a run the terms of the ends do not add up: only the last state and the initial one matter, apart from
what the sources produce in the cells at these ends. -/
theorem C112_run (P : ℕ → Problem Ω Bool 1) (bcs : ℕ → List (MobBC Bool)) (u : ℕ → ℕ → ℝ) (k : ℕ → ℝ)
    (e : ℕ → PostEnv Ω Bool 1) (proj : ℕ → Bool) (n : ℕ)
    (hP : ∀ i ≤ n, TransientLine L (P i) (bcs i) mat matS (u i) dir (k i))
    (he : ∀ i ≤ n, LineReport L (P i) mat matS (u i) (e i))
    (hfol : ∀ i < n, Follows (P i) (P (i + 1)) (bcs i) (bcs (i + 1))) :
    ∃ x : ℕ → Bool → ℝ, (∀ i ≤ n, (hydrogenFlux L.right).value (e i) (proj i) = .ok (x i true) ∧
      (hydrogenFlux L.left).value (e i) (proj i) = .ok (x i false)) ∧
      held (P n) mat (fun _ => 1) = heldBefore (P 0) mat (fun _ => 1)
        + ∑ i ∈ Finset.range (n + 1), k i * (entering (P i) (bcs i) matS dir (x i) + produced (P i) mat fun _ => 1)
        + overEnds dir fun q => held (P n) mat (L.atEnd q) - heldBefore (P 0) mat (L.atEnd q)
          - ∑ i ∈ Finset.range (n + 1), k i * produced (P i) mat (L.atEnd q) := by
  have h := fun i hi => C112_step (hP i hi) (e i) (proj i) (he i hi)
  choose! x h1 h2 h3 using h
  refine ⟨x, fun i hi => ⟨h1 i hi, h2 i hi⟩, ?_⟩
  clear h1 h2 he
  have hov : ∀ y z : Bool → ℝ, overEnds dir (fun q => y q + z q) = overEnds dir y + overEnds dir z := by
    intro y z
    unfold overEnds
    rw [← Finset.sum_add_distrib]
    exact Finset.sum_congr rfl fun q _ => by split_ifs <;> simp
  suffices h : ∀ m ≤ n, held (P m) mat (fun _ => 1) = heldBefore (P 0) mat (fun _ => 1)
        + ∑ i ∈ Finset.range (m + 1), k i * (entering (P i) (bcs i) matS dir (x i) + produced (P i) mat fun _ => 1)
        + overEnds dir fun q => held (P m) mat (L.atEnd q) - heldBefore (P 0) mat (L.atEnd q)
          - ∑ i ∈ Finset.range (m + 1), k i * produced (P i) mat (L.atEnd q) from h n le_rfl
  intro m
  induction m with
  | zero => intro hm; simpa using h3 0 hm
  | succ m ih =>
    intro hm
    have e1 := h3 (m + 1) hm
    have e2 := ih (by omega)
    have hf := hfol m (by omega)
    simp only [follows_held hf] at e1
    rw [e1, e2, Finset.sum_range_succ _ (m + 1)]
    have : (fun q => held (P (m + 1)) mat (L.atEnd q) - heldBefore (P 0) mat (L.atEnd q)
          - ∑ i ∈ Finset.range (m + 1 + 1), k i * produced (P i) mat (L.atEnd q))
        = fun q => (held (P m) mat (L.atEnd q) - heldBefore (P 0) mat (L.atEnd q)
          - ∑ i ∈ Finset.range (m + 1), k i * produced (P i) mat (L.atEnd q))
          + (held (P (m + 1)) mat (L.atEnd q) - held (P m) mat (L.atEnd q) - k (m + 1) * produced (P (m + 1)) mat (L.atEnd q)) := by
      funext q
      rw [Finset.sum_range_succ _ (m + 1)]
      ring
    rw [this, hov]
    ring

/-- **C112 (c).** So without sources the balance made of reported values closes at any time of a run, however long, up to
the size of the cells at the ends where a concentration is imposed, times the concentration there. -/
theorem C112_bound (hL : L.Exact2) (P : ℕ → Problem Ω Bool 1) (bcs : ℕ → List (MobBC Bool)) (u : ℕ → ℕ → ℝ) (k : ℕ → ℝ)
    (e : ℕ → PostEnv Ω Bool 1) (proj : ℕ → Bool) (n : ℕ)
    (hP : ∀ i ≤ n, TransientLine L (P i) (bcs i) mat matS (u i) dir (k i))
    (he : ∀ i ≤ n, LineReport L (P i) mat matS (u i) (e i))
    (hfol : ∀ i < n, Follows (P i) (P (i + 1)) (bcs i) (bcs (i + 1)))
    (hsrc : ∀ i ≤ n, (P i).sources = [] ∧ ∀ t ∈ (P i).traps, t.sources = []) (M : ℝ)
    (h0 : ∀ q p, L.cell p = L.endCell q → |(P 0).cPrev mat p + ((P 0).traps.map fun t => t.prev.val p).sum| ≤ M)
    (hn : ∀ q p, L.cell p = L.endCell q → |(P n).c mat p + ((P n).traps.map fun t => t.sol.val p).sum| ≤ M) :
    ∃ x : ℕ → Bool → ℝ, (∀ i ≤ n, (hydrogenFlux L.right).value (e i) (proj i) = .ok (x i true) ∧
      (hydrogenFlux L.left).value (e i) (proj i) = .ok (x i false)) ∧
      |held (P n) mat (fun _ => 1) - heldBefore (P 0) mat (fun _ => 1)
        - ∑ i ∈ Finset.range (n + 1), k i * entering (P i) (bcs i) matS dir (x i)|
        ≤ overEnds dir fun q => L.h (L.endCell q) * M := by
  obtain ⟨x, hx, h⟩ := C112_run P bcs u k e proj n hP he hfol
  refine ⟨x, hx, ?_⟩
  have hprod : ∀ i ≤ n, ∀ v, produced (P i) mat v = 0 := by
    intro i hi v
    obtain ⟨h1, h2⟩ := hsrc i hi
    unfold produced
    rw [h1]
    simp only [List.map_nil, List.sum_nil, zero_add]
    apply List.sum_eq_zero
    intro y hy
    obtain ⟨t, ht, rfl⟩ := List.mem_map.1 hy
    simp [h2 t ht]
  have e1 : ∑ i ∈ Finset.range (n + 1), k i * (entering (P i) (bcs i) matS dir (x i) + produced (P i) mat fun _ => 1)
      = ∑ i ∈ Finset.range (n + 1), k i * entering (P i) (bcs i) matS dir (x i) :=
    Finset.sum_congr rfl fun i hi => by rw [hprod i (by have := Finset.mem_range.1 hi; omega), add_zero]
  have e2 : ∀ q, ∑ i ∈ Finset.range (n + 1), k i * produced (P i) mat (L.atEnd q) = 0 := fun q =>
    Finset.sum_eq_zero fun i hi => by rw [hprod i (by have := Finset.mem_range.1 hi; omega), mul_zero]
  rw [e1] at h
  simp only [e2, sub_zero] at h
  rw [h]
  have e3 : ∀ a b c : ℝ, a + b + c - a - b = c := fun a b c => by ring
  rw [e3]
  unfold overEnds
  refine (Finset.abs_sum_le_sum_abs _ _).trans (Finset.sum_le_sum fun q _ => ?_)
  split_ifs with hq
  · obtain ⟨r, hr⟩ := (hP n le_rfl).mesh
    obtain ⟨r', hr'⟩ := (hP 0 (Nat.zero_le _)).mesh
    have b1 : |held (P n) mat (L.atEnd q)| ≤ L.h (L.endCell q) / 2 * M := by
      unfold held
      rw [hr]
      exact atEnd_bound hL q r _ M (hn q)
    have b2 : |heldBefore (P 0) mat (L.atEnd q)| ≤ L.h (L.endCell q) / 2 * M := by
      unfold heldBefore
      rw [hr']
      exact atEnd_bound hL q r' _ M (h0 q)
    refine (abs_sub _ _).trans ?_
    linarith
  · simp

end

/-! ### A plate charged from the left -/

namespace EndCase

noncomputable def L : Line (Fin 2 × Fin 3) := BoundCase.simpson 1 one_pos
noncomputable def M : Mat := { uid := 0, ids := [1], D_0 := 1, E_D := 0 }

/-- Nodal values, initially and after one and two steps of length 1: concentrations 1 and 0 are imposed. -/
noncomputable def U (i j : ℕ) : ℝ :=
  if i = 0 then 0 else if j = 0 then 1 else if j = 1 then (if i = 1 then 5 / 16 else 29 / 64) else 0

noncomputable def P (i : ℕ) : Problem (Fin 2 × Fin 3) Bool 1 where
  mesh := L.mesh (Fld.const 1)
  mats := [M]
  mv := { theta := false, sol := L.p1 (U (i + 1)), prev := L.p1 (U i) }
  T := ⟨Fld.const 300, Fld.const 300⟩
  dt := some 1
  soret := false
  sources := []
  traps := []

theorem solved (i : ℕ) (hi : i ≤ 1) :
    TransientLine L (P i) [] (fun _ => M) (fun _ => M) (U (i + 1)) (fun _ => True) 1 where
  mesh := ⟨_, rfl⟩
  sol := rfl
  cover := ⟨by simp [P], by simp [P, L, Line.mesh, BoundCase.simpson, M], by simp [P, M]⟩
  solubility := ⟨by simp [P], by simp [P], by simp [P], by simp [P]⟩
  law := by simp [P]
  uniform := by simp [P]
  noSK := by simp
  transient := rfl
  pos := one_pos
  solves := by
    intro x hx
    have h0 : x 0 = 0 := by simpa [Line.p1] using hx false trivial
    have h2 : x 2 = 0 := by simpa [Line.p1, L, BoundCase.simpson] using hx true trivial
    refine ⟨_, rfl, ?_⟩
    interval_cases i <;>
      simp [P, Line.mesh, Mesh.assemble, Mesh.integrate, Form.neg,
        subdomainForm, Fld.const, dot, sourceForm, fluxesForm, M, Line.p1, U, L, BoundCase.simpson,
        Fin.sum_univ_two, Fin.sum_univ_three, Fintype.sum_prod_type, h0, h2, Mobile.conc, Finset.sum_filter] <;>
      ring

noncomputable def fun1 (u : ℕ → ℝ) : PostFun (Fin 2 × Fin 3) Bool 1 where
  val := (L.p1 u).val
  tr := (L.p1 u).tr
  gradS q _ := L.endSlope u q
  cells := [(1, [u 0, u 1, u 2])]
  pt _ := 0
  isFun := true

noncomputable def env (i : ℕ) : PostEnv (Fin 2 × Fin 3) Bool 1 where
  mesh := (P i).mesh
  n := Line.normal
  D _ := 1
  cond := none
  Q := none
  T := fun1 fun _ => 300
  soret := false
  solute := fun1 (U (i + 1))
  traps := []
  ids := []
  adsorbed := []

theorem report (i : ℕ) : LineReport L (P i) (fun _ => M) (fun _ => M) (U (i + 1)) (env i) where
  mesh := rfl
  normal := rfl
  soret := rfl
  properties := ⟨by intro q; cases q <;> simp [P, L, Line.mesh, env, findMat, M, BoundCase.simpson],
    by intro q; cases q <;> simp [P, L, Line.mesh, env, arrheniusCoeff, findMat, M, BoundCase.simpson],
    by simp [env], by simp [env]⟩
  grad := by intro q; simp [env, P, fun1]
  ends := by
    intro q p _
    cases q <;> simp [P, env, Fld.const, fun1, Line.p1]

theorem follows : Follows (P 0) (P 1) [] [] :=
  ⟨rfl, rfl, rfl, rfl, .nil, .nil⟩

/-- After the first step `13/16` are in the plate, but `11/16 - 5/16` entered according to the reported fluxes. -/
example : held (P 0) (fun _ => M) (fun _ => 1) = 13 / 16 ∧ heldBefore (P 0) (fun _ => M) (fun _ => 1) = 0 ∧
    (hydrogenFlux L.left).value (env 0) false = .ok (11 / 16) ∧
    (hydrogenFlux L.right).value (env 0) false = .ok (-5 / 16) := by
  obtain ⟨h1, h2⟩ := line_reported (solved 0 (by omega)).toLineData (env 0) false (report 0).mesh (report 0).normal
    (report 0).soret (report 0).properties (report 0).grad (report 0).ends
  have h21 : ¬ (2 : Fin 3) = 1 := by decide
  refine ⟨?_, ?_, ?_, ?_⟩
  · norm_num [held, volume, P, L, Line.mesh, BoundCase.simpson, Problem.c, physConc, Line.p1, U, Fintype.sum_prod_type,
      Fin.sum_univ_two, Fin.sum_univ_three, h21]
  · norm_num [heldBefore, volume, P, L, Line.mesh, BoundCase.simpson, Problem.cPrev, physConc, Line.p1, U, Fintype.sum_prod_type,
      Fin.sum_univ_two, Fin.sum_univ_three, h21]
  · rw [h2]
    norm_num [cellFlux, cellInt, L, BoundCase.simpson, conductivity, P, M, arr, U, Finset.sum_filter, Fintype.sum_prod_type,
      Fin.sum_univ_two, Fin.sum_univ_three, h21]
  · rw [h1]
    norm_num [cellFlux, cellInt, L, BoundCase.simpson, conductivity, P, M, arr, U, Finset.sum_filter, Fintype.sum_prod_type,
      Fin.sum_univ_two, Fin.sum_univ_three, h21]
    decide

example : ∃ x : Bool → ℝ, (hydrogenFlux L.right).value (env 0) false = .ok (x true) ∧
      (hydrogenFlux L.left).value (env 0) false = .ok (x false) ∧
      held (P 0) (fun _ => M) (fun _ => 1) = heldBefore (P 0) (fun _ => M) (fun _ => 1)
        + 1 * (entering (P 0) [] (fun _ => M) (fun _ => True) x + produced (P 0) (fun _ => M) fun _ => 1)
        + overEnds (fun _ => True) fun q => held (P 0) (fun _ => M) (L.atEnd q) - heldBefore (P 0) (fun _ => M) (L.atEnd q)
          - 1 * produced (P 0) (fun _ => M) (L.atEnd q) :=
  C112_step (solved 0 (by omega)) (env 0) false (report 0)

/-- After two steps the balance is still closed up to the size of the cells. -/
example : ∃ x : ℕ → Bool → ℝ, (∀ i ≤ 1, (hydrogenFlux L.right).value (env i) false = .ok (x i true) ∧
      (hydrogenFlux L.left).value (env i) false = .ok (x i false)) ∧
      |held (P 1) (fun _ => M) (fun _ => 1) - heldBefore (P 0) (fun _ => M) (fun _ => 1)
        - ∑ i ∈ Finset.range (1 + 1), 1 * entering (P i) [] (fun _ => M) (fun _ => True) (x i)|
        ≤ overEnds (fun _ => True) fun q => L.h (L.endCell q) * 1 :=
  C112_bound (BoundCase.simpson_exact2 1 one_pos) P (fun _ => []) (fun i => U (i + 1)) (fun _ => 1) env (fun _ => false) 1
    solved (fun i _ => report i) (by
      intro i hi
      obtain rfl : i = 0 := by omega
      exact follows) (by simp [P]) 1
    (by
      rintro q ⟨p, p'⟩ _
      simp [P, Problem.cPrev, physConc, Line.p1, U])
    (by
      rintro q ⟨p, p'⟩ _
      fin_cases p <;> fin_cases p' <;>
        norm_num [P, Problem.c, physConc, Line.p1, U, L, BoundCase.simpson, abs_le])

example : ∃ x : ℕ → Bool → ℝ, (∀ i ≤ 1, (hydrogenFlux L.right).value (env i) false = .ok (x i true) ∧
      (hydrogenFlux L.left).value (env i) false = .ok (x i false)) ∧
      held (P 1) (fun _ => M) (fun _ => 1) = heldBefore (P 0) (fun _ => M) (fun _ => 1)
        + ∑ i ∈ Finset.range (1 + 1), 1 * (entering (P i) [] (fun _ => M) (fun _ => True) (x i)
          + produced (P i) (fun _ => M) fun _ => 1)
        + overEnds (fun _ => True) fun q => held (P 1) (fun _ => M) (L.atEnd q) - heldBefore (P 0) (fun _ => M) (L.atEnd q)
          - ∑ i ∈ Finset.range (1 + 1), 1 * produced (P i) (fun _ => M) (L.atEnd q) :=
  C112_run P (fun _ => []) (fun i => U (i + 1)) (fun _ => 1) env (fun _ => false) 1 solved (fun i _ => report i) (by
    intro i hi
    obtain rfl : i = 0 := by omega
    exact follows)

end EndCase

end Festim.Props
