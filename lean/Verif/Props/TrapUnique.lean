import Verif.Props.OutgasAnyDim
import Verif.Props.TrapAccuracy
import Mathlib.Algebra.Order.Chebyshev

/-!
# C126, C127: simulations with traps in any dimension

They depend continuously on the initial state and have one physical result (C126); their distance to any other fields is bounded by
how much these fail to satisfy the equations (C127).
-/

open scoped BigOperators

set_option linter.unusedSectionVars false
set_option linter.unusedSimpArgs false

namespace Festim.Weak

open Festim.Props

section
variable {Ω Γ : Type} [Fintype Ω] [Fintype Γ] {d m : ℕ}

/-- A transient step with traps: without its traps the problem is one of diffusion in cartesian coordinates (any dimension,
materials, temperature, sources and flux conditions); the traps `tr` have the rates `A`, `B` and the densities `n`. -/
structure CoupledStep (P : Problem Ω Γ d) (bcs : List (MobBC Γ)) (mat : Ω → Mat) (tr : Fin m → Trap Ω Γ d)
    (A B n : Fin m → Ω → ℝ) (k : ℝ) : Prop where
  bare : Diffusive P.bare bcs mat
  dt : P.dt = some k
  pos : 0 < k
  traps : P.traps = List.ofFn tr
  apart : ∀ j, ((tr j).materials.flatMap (·.ids)).Nodup
  decay : ∀ j, ∀ s ∈ (tr j).sources, ∀ lam, s.value = .decay lam → 0 ≤ lam
  rates : ∀ j p, TrapRate P.mesh P.T (tr j) p (A j p) (B j p) (n j p)

/-- Net rate of trapping. -/
noncomputable def netRate (P : Problem Ω Γ d) (tr : Fin m → Trap Ω Γ d) (A B n : Fin m → Ω → ℝ) (j : Fin m) (p : Ω) : ℝ :=
  trapping (A j p) (B j p) (n j p) (P.mv.sol.val p) ((tr j).sol.val p)

/-- What the sources of a trap give, tested with `v`. -/
noncomputable def trapGain (me : Mesh Ω Γ d) (trap : Trap Ω Γ d) (v : Fld Ω Γ d) : ℝ :=
  (trap.sources.map fun s => volumeIn me s.volumes fun p => s.at trap.sol.val p * v.val p).sum

variable {P P' : Problem Ω Γ d} {bcs : List (MobBC Γ)} {mat : Ω → Mat} {tr tr' : Fin m → Trap Ω Γ d}
  {A B n : Fin m → Ω → ℝ} {k : ℝ}

/-- The residual of the step. -/
theorem CoupledStep.residual (h : CoupledStep P bcs mat tr A B n k) (v : Fld Ω Γ d) (vt : Fin m → Fld Ω Γ d) (F : Form Ω Γ)
    (hF : P.form bcs v (List.ofFn vt) = .ok F) :
    P.mesh.assemble F = defect P.bare bcs mat (fun p => (P.mv.sol.val p - P.mv.prev.val p) / k
        + ∑ j, netRate P tr A B n j p) P.mv.sol v
      + ∑ j, (volume P.mesh (fun p => (((tr j).sol.val p - (tr j).prev.val p) / k - netRate P tr A B n j p) * (vt j).val p)
        - trapGain P.mesh (tr j) (vt j)) := by
  obtain ⟨F0, M, G, hF0, hM, hG, e⟩ := form_split P _ _ _ F hF
  have e0 : P.mesh.assemble F0 = _ := h.bare.residual k h.dt v F0 hF0
  rw [h.traps, zip_ofFn', h.dt] at hG
  obtain ⟨hok, eG⟩ := trapsForm_sum P.mesh P.mats P.mv P.T (some k) _ G hG
  have hj : ∀ j, ∃ F', trapForm P.mats P.mv P.T (some k) (tr j) (vt j) = .ok F' := fun j =>
    hok (tr j, vt j) (List.mem_ofFn.2 ⟨j, rfl⟩)
  have hth : P.mv.theta = false := h.bare.theta
  have hconc : ∀ (j : Fin m) (p : Ω), ∀ a ∈ (tr j).materials, P.mesh.vm p ∈ a.ids →
      physConc P.mv.theta a (P.T.T.val p) (P.mv.sol.val p) = P.mv.sol.val p := by
    intro j p a _ _
    simp [physConc, hth]
  have e1 : P.mesh.assemble G
      = ∑ j, (volume P.mesh (fun p => (((tr j).sol.val p - (tr j).prev.val p) / k - netRate P tr A B n j p) * (vt j).val p)
        - trapGain P.mesh (tr j) (vt j)) := by
    rw [eG, List.map_ofFn, List.sum_ofFn]
    refine Finset.sum_congr rfl fun j _ => ?_
    obtain ⟨F', hF'⟩ := hj j
    simp only [Function.comp, hF']
    obtain ⟨K, hK, eK⟩ := trapForm_ok P.mesh P.mats P.mv P.T (some k) (tr j) (vt j) F' hF'
    rw [eK, trapLoop_value P.mesh P.mv P.T (tr j) (vt j) K hK (h.apart j) _ _ _ _ (h.rates j) (hconc j)]
    simp only [trapRest, trapGain, sub_mul]
    rw [volume_sub]
    simp only [volume, netRate]
    ring
  have e2 : P.mesh.assemble M = -volume P.mesh fun p => (∑ j, netRate P tr A B n j p) * v.val p := by
    have hloop : ∀ j, ∃ G, trapLoop P.mv P.T (tr j) v 0 (tr j).materials = .ok G := by
      intro j
      obtain ⟨F', hF'⟩ := hj j
      obtain ⟨K', hK', -⟩ := trapForm_ok P.mesh P.mats P.mv P.T _ (tr j) (vt j) F' hF'
      exact trapLoop_any _ _ _ _ _ _ _ _ hK'
    have key : ∀ (l : List (Fin m)) (M : Form Ω Γ), mobileTraps P.mv P.T v (l.map tr) = .ok M →
        P.mesh.assemble M = -∑ p, P.mesh.w p * ((l.map fun j => netRate P tr A B n j p).sum * v.val p) := by
      intro l
      induction l with
      | nil =>
        intro M hM
        cases hM
        simp [assemble_nil]
      | cons j l ih =>
        intro M hM
        obtain ⟨G, hG⟩ := hloop j
        simp only [List.map_cons, mobileTraps, bind, Except.bind, trapLoop_mobile _ _ _ _ _ _ _ hG] at hM
        cases hl : mobileTraps P.mv P.T v (l.map tr) with
        | error e => rw [hl] at hM; cases hM
        | ok M' =>
          rw [hl] at hM
          simp only [Except.ok.injEq] at hM
          subst hM
          rw [assemble_append, ih M' hl, trapLoop_value P.mesh P.mv P.T (tr j) _ G hG (h.apart j) _ _ _ _ (h.rates j) (hconc j),
            ← neg_add, ← Finset.sum_add_distrib]
          congr 1
          refine Finset.sum_congr rfl fun p _ => ?_
          rw [List.map_cons, List.sum_cons]
          unfold netRate
          ring
    have hM' : mobileTraps P.mv P.T v ((List.finRange m).map tr) = .ok M := by
      rw [← List.ofFn_eq_map, ← h.traps]
      exact hM
    rw [key _ M hM']
    congr 1
  have e3 : defect P.bare bcs mat (fun p => (P.mv.sol.val p - P.mv.prev.val p) / k + ∑ j, netRate P tr A B n j p) P.mv.sol v
      = defect P.bare bcs mat (fun p => (P.mv.sol.val p - P.mv.prev.val p) / k) P.mv.sol v
        + volume P.mesh fun p => (∑ j, netRate P tr A B n j p) * v.val p := by
    simp only [defect, add_mul]
    rw [volume_add]
    simp only [Problem.bare]
    ring
  rw [e, e1, e2, e0, e3]
  simp only [Problem.bare]
  ring

/-- The same step apart from the concentrations, present and previous, mobile and trapped. -/
structure SameCoupled (P P' : Problem Ω Γ d) (tr tr' : Fin m → Trap Ω Γ d) : Prop where
  problem : P' = { P with mv := P'.mv, traps := P'.traps }
  traps : ∀ j, tr' j = { tr j with sol := (tr' j).sol, prev := (tr' j).prev }

/-- The residual vanishes for all the test functions: `V` for the solute, `W j` for the trap `j`. -/
def CoupledSolved (P : Problem Ω Γ d) (bcs : List (MobBC Γ)) (V : Set (Fld Ω Γ d)) (W : Fin m → Set (Fld Ω Γ d)) : Prop :=
  ∀ v ∈ V, ∀ vt : Fin m → Fld Ω Γ d, (∀ j, vt j ∈ W j) → ∃ F, P.form bcs v (List.ofFn vt) = .ok F ∧ P.mesh.assemble F = 0

/-- Distance, squared, of two states: mobile and trapped concentrations. -/
noncomputable def gap (me : Mesh Ω Γ d) (c c' : Ω → ℝ) (t t' : Fin m → Ω → ℝ) : ℝ :=
  volume me (fun p => (c p - c' p) ^ 2) + ∑ j, volume me fun p => (t j p - t' j p) ^ 2

theorem gap_eq (me : Mesh Ω Γ d) (c c' : Ω → ℝ) (t t' : Fin m → Ω → ℝ) :
    gap me c c' t t' = ∑ p, me.w p * ((c p - c' p) ^ 2 + ∑ j, (t j p - t' j p) ^ 2) := by
  unfold gap volume
  rw [Finset.sum_comm, ← Finset.sum_add_distrib]
  refine Finset.sum_congr rfl fun p _ => ?_
  rw [mul_add, Finset.mul_sum]

/-- Exchange between the solute and a trap. -/
theorem exchange_ge {a b : ℝ} (ha : 0 ≤ a) (hb : 0 ≤ b) (x y : ℝ) :
    -(b / 4 * x ^ 2) - a / 4 * y ^ 2 ≤ (a * x - b * y) * (x - y) := by
  nlinarith [mul_nonneg ha (sq_nonneg (x - y / 2)), mul_nonneg hb (sq_nonneg (y - x / 2))]

/-- Exchange between the solute and all the traps. -/
theorem exchange_sum {κ k : ℝ} (hk : 0 < k) (a b : Fin m → ℝ) (ha : ∀ j, 0 ≤ a j) (hb : ∀ j, 0 ≤ b j)
    (hA : ∀ j, k * a j ≤ 4 * κ) (hB : k * ∑ j, b j ≤ 4 * κ) (x : ℝ) (y : Fin m → ℝ) :
    -(κ * (x ^ 2 + ∑ j, y j ^ 2)) ≤ k * ∑ j, (a j * x - b j * y j) * (x - y j) := by
  have h1 : ∑ j, (-(k * b j / 4 * x ^ 2) - κ * y j ^ 2) ≤ k * ∑ j, (a j * x - b j * y j) * (x - y j) := by
    rw [Finset.mul_sum]
    refine Finset.sum_le_sum fun j _ => ?_
    have := mul_le_mul_of_nonneg_left (exchange_ge (ha j) (hb j) x (y j)) hk.le
    have h3 := mul_le_mul_of_nonneg_right (hA j) (sq_nonneg (y j))
    nlinarith
  have h2 : ∑ j, (-(k * b j / 4 * x ^ 2) - κ * y j ^ 2) = -((k * ∑ j, b j) / 4 * x ^ 2) - κ * ∑ j, y j ^ 2 := by
    rw [Finset.sum_sub_distrib, ← Finset.mul_sum, Finset.sum_neg_distrib, ← Finset.sum_mul, ← Finset.sum_div, ← Finset.mul_sum]
  have h3 : (k * ∑ j, b j) / 4 * x ^ 2 ≤ κ * x ^ 2 := mul_le_mul_of_nonneg_right (by linarith) (sq_nonneg x)
  linarith

/-- One step, at a point. -/
theorem point_ge {κ k : ℝ} (hκ : κ < 1) (hk : 0 < k) (a b : Fin m → ℝ) (ha : ∀ j, 0 ≤ a j) (hb : ∀ j, 0 ≤ b j)
    (hA : ∀ j, k * a j ≤ 4 * κ) (hB : k * ∑ j, b j ≤ 4 * κ) (x xn : ℝ) (y yn : Fin m → ℝ) :
    (1 - κ) / 2 * (x ^ 2 + ∑ j, y j ^ 2) - (xn ^ 2 + ∑ j, yn j ^ 2) / (2 * (1 - κ))
      ≤ (x - xn) * x + ∑ j, (y j - yn j) * y j + k * ∑ j, (a j * x - b j * y j) * (x - y j) := by
  have hs : 0 < 1 - κ := by linarith
  have am : ∀ s t : ℝ, t * s ≤ (1 - κ) / 2 * s ^ 2 + t ^ 2 / (2 * (1 - κ)) := by
    intro s t
    have : (1 - κ) / 2 * s ^ 2 + t ^ 2 / (2 * (1 - κ)) - t * s = ((1 - κ) * s - t) ^ 2 / (2 * (1 - κ)) := by
      field_simp
      ring
    have h2 : 0 ≤ ((1 - κ) * s - t) ^ 2 / (2 * (1 - κ)) := by positivity
    linarith
  have h1 := exchange_sum hk a b ha hb hA hB x y
  have h4 : ∑ j, (((1 - κ) / 2 + κ) * y j ^ 2 - yn j ^ 2 / (2 * (1 - κ))) ≤ ∑ j, (y j - yn j) * y j := by
    refine Finset.sum_le_sum fun j _ => ?_
    nlinarith [am (y j) (yn j)]
  rw [Finset.sum_sub_distrib, ← Finset.mul_sum, ← Finset.sum_div] at h4
  have h5 := am x xn
  rw [add_div]
  nlinarith

theorem trapGain_diff {t t' : Trap Ω Γ d} {me : Mesh Ω Γ d} (hw : ∀ p, 0 ≤ me.w p)
    (ht : t' = { t with sol := t'.sol, prev := t'.prev })
    (hd : ∀ s ∈ t.sources, ∀ lam, s.value = .decay lam → 0 ≤ lam) :
    trapGain me t (t.sol - t'.sol) - trapGain me t' (t.sol - t'.sol) ≤ 0 := by
  have hs : t'.sources = t.sources := by rw [ht]
  unfold trapGain
  rw [hs]
  apply sum_sub_nonpos
  intro s hs
  unfold volumeIn
  rw [← Finset.sum_sub_distrib]
  apply Finset.sum_nonpos
  intro p _
  rw [← mul_sub, ← sub_mul]
  apply mul_nonpos_of_nonneg_of_nonpos (hw p)
  cases hsv : s.value with
  | given f => simp [Src.at, hsv]
  | decay lam =>
    have := hd s hs lam hsv
    simp only [Src.at, hsv, Fld.sub_val]
    nlinarith [mul_nonneg this (sq_nonneg (t.sol.val p - t'.sol.val p))]

end

end Festim.Weak

namespace Festim.Props

open Festim.Weak

section
variable {Ω Γ : Type} [Fintype Ω] [Fintype Γ] {d m : ℕ} {P P' : Problem Ω Γ d} {bcs : List (MobBC Γ)} {mat : Ω → Mat}
  {tr tr' : Fin m → Trap Ω Γ d} {A B n : Fin m → Ω → ℝ} {k : ℝ} {V : Set (Fld Ω Γ d)} {W : Fin m → Set (Fld Ω Γ d)}

/-- The residuals of two sets of fields for the same step, tested with their differences. -/
theorem coupled_core (h : CoupledStep P bcs mat tr A B n k) (h' : CoupledStep P' bcs mat tr' A B n k) (hs : SameCoupled P P' tr tr')
    (F F' : Form Ω Γ) (hF : P.form bcs (P.mv.sol - P'.mv.sol) (List.ofFn fun j => (tr j).sol - (tr' j).sol) = .ok F)
    (hF' : P'.form bcs (P.mv.sol - P'.mv.sol) (List.ofFn fun j => (tr j).sol - (tr' j).sol) = .ok F')
    (hmono : ∀ f ss, MobBC.flux f ss ∈ bcs → ∀ q, f.Monotone (P.T.T.tr q) (P.mv.sol.tr q) (P'.mv.sol.tr q) q) :
    ∑ p, P.mesh.w p * (((P.mv.sol.val p - P'.mv.sol.val p) - (P.mv.prev.val p - P'.mv.prev.val p)) * (P.mv.sol.val p - P'.mv.sol.val p)
      + ∑ j, (((tr j).sol.val p - (tr' j).sol.val p) - ((tr j).prev.val p - (tr' j).prev.val p)) * ((tr j).sol.val p - (tr' j).sol.val p)
      + k * ∑ j, (A j p * (n j p - (tr j).sol.val p) * (P.mv.sol.val p - P'.mv.sol.val p)
        - (A j p * P'.mv.sol.val p + B j p) * ((tr j).sol.val p - (tr' j).sol.val p))
        * (P.mv.sol.val p - P'.mv.sol.val p - ((tr j).sol.val p - (tr' j).sol.val p)))
      + k * dirichletEnergy P mat (P.mv.sol - P'.mv.sol) ≤ k * (P.mesh.assemble F - P.mesh.assemble F') := by
  have hk := h.pos
  have hw : ∀ p, 0 ≤ P.mesh.w p := h.bare.weights
  have hm : P'.mesh = P.mesh := by rw [hs.problem]
  have e := h.residual _ _ F hF
  have e' := h'.residual _ _ F' hF'
  have hd : SameData P.bare P'.bare := by
    show P'.bare = { P.bare with mv := P'.bare.mv }
    rw [hs.problem]
    rfl
  rw [hd.defect, hm] at e'
  have m1 := h.bare.monotone (fun p => (P.mv.sol.val p - P.mv.prev.val p) / k + ∑ j, netRate P tr A B n j p)
    (fun p => (P'.mv.sol.val p - P'.mv.prev.val p) / k + ∑ j, netRate P' tr' A B n j p) P.mv.sol P'.mv.sol hmono
  have m2 : dirichletEnergy P mat (P.mv.sol - P'.mv.sol) = dirichletEnergy P.bare mat (P.mv.sol - P'.mv.sol) := rfl
  have m3 : ∑ j, (trapGain P.mesh (tr j) ((tr j).sol - (tr' j).sol) - trapGain P.mesh (tr' j) ((tr j).sol - (tr' j).sol)) ≤ 0 :=
    Finset.sum_nonpos fun j _ => trapGain_diff hw (hs.traps j) (h.decay j)
  simp only [Finset.sum_sub_distrib] at e e' m3
  rw [m2]
  have e1 : ∑ p, P.mesh.w p * (((P.mv.sol.val p - P'.mv.sol.val p) - (P.mv.prev.val p - P'.mv.prev.val p)) * (P.mv.sol.val p - P'.mv.sol.val p)
    + ∑ j, (((tr j).sol.val p - (tr' j).sol.val p) - ((tr j).prev.val p - (tr' j).prev.val p)) * ((tr j).sol.val p - (tr' j).sol.val p)
    + k * ∑ j, (A j p * (n j p - (tr j).sol.val p) * (P.mv.sol.val p - P'.mv.sol.val p)
      - (A j p * P'.mv.sol.val p + B j p) * ((tr j).sol.val p - (tr' j).sol.val p))
      * (P.mv.sol.val p - P'.mv.sol.val p - ((tr j).sol.val p - (tr' j).sol.val p)))
    = k * (volume P.bare.mesh (fun p => ((P.mv.sol.val p - P.mv.prev.val p) / k + ∑ j, netRate P tr A B n j p
        - ((P'.mv.sol.val p - P'.mv.prev.val p) / k + ∑ j, netRate P' tr' A B n j p)) * (P.mv.sol.val p - P'.mv.sol.val p))
      + (∑ j, volume P.mesh (fun p => (((tr j).sol.val p - (tr j).prev.val p) / k - netRate P tr A B n j p)
          * ((tr j).sol - (tr' j).sol).val p)
        - ∑ j, volume P.mesh (fun p => (((tr' j).sol.val p - (tr' j).prev.val p) / k - netRate P' tr' A B n j p)
          * ((tr j).sol - (tr' j).sol).val p))) := by
    unfold volume
    rw [Finset.sum_comm (s := Finset.univ (α := Fin m)), Finset.sum_comm (s := Finset.univ (α := Fin m)),
      ← Finset.sum_sub_distrib, ← Finset.sum_add_distrib, Finset.mul_sum]
    refine Finset.sum_congr rfl fun p _ => ?_
    have f1 : ∀ j, netRate P tr A B n j p = netRate P' tr' A B n j p + (A j p * (n j p - (tr j).sol.val p) * (P.mv.sol.val p - P'.mv.sol.val p)
      - (A j p * P'.mv.sol.val p + B j p) * ((tr j).sol.val p - (tr' j).sol.val p)) := by
      intro j
      have := trapping_sub (A j p) (B j p) (n j p) (P.mv.sol.val p) ((tr j).sol.val p) (P'.mv.sol.val p) ((tr' j).sol.val p)
      unfold netRate
      linarith
    simp only [f1, Finset.sum_add_distrib]
    rw [← Finset.sum_sub_distrib]
    simp only [Problem.bare, Fld.sub_val]
    set X := P.mv.sol.val p - P'.mv.sol.val p with hX
    have f2 : ∀ (D : Fin m → ℝ), ∑ j, D j * (X - ((tr j).sol.val p - (tr' j).sol.val p))
        = (∑ j, D j) * X - ∑ j, D j * ((tr j).sol.val p - (tr' j).sol.val p) := by
      intro D
      rw [Finset.sum_mul, ← Finset.sum_sub_distrib]
      exact Finset.sum_congr rfl fun j _ => by ring
    rw [f2]
    set D : Fin m → ℝ := fun j => A j p * (n j p - (tr j).sol.val p) * X
      - (A j p * P'.mv.sol.val p + B j p) * ((tr j).sol.val p - (tr' j).sol.val p) with hD
    have f3 : ∑ j, (P.mesh.w p * ((((tr j).sol.val p - (tr j).prev.val p) / k - (netRate P' tr' A B n j p + D j))
          * ((tr j).sol.val p - (tr' j).sol.val p))
        - P.mesh.w p * ((((tr' j).sol.val p - (tr' j).prev.val p) / k - netRate P' tr' A B n j p)
          * ((tr j).sol.val p - (tr' j).sol.val p)))
        = P.mesh.w p * ((∑ j, (((tr j).sol.val p - (tr' j).sol.val p) - ((tr j).prev.val p - (tr' j).prev.val p)) * ((tr j).sol.val p - (tr' j).sol.val p)) / k
          - ∑ j, D j * ((tr j).sol.val p - (tr' j).sol.val p)) := by
      rw [Finset.sum_div, ← Finset.sum_sub_distrib, Finset.mul_sum]
      refine Finset.sum_congr rfl fun j _ => ?_
      field_simp
      ring
    show P.mesh.w p * (_ + _ + k * ((∑ j, D j) * X - ∑ j, D j * ((tr j).sol.val p - (tr' j).sol.val p)))
      = k * (P.mesh.w p * (((P.mv.sol.val p - P.mv.prev.val p) / k + (∑ j, netRate P' tr' A B n j p + ∑ j, D j)
        - ((P'.mv.sol.val p - P'.mv.prev.val p) / k + ∑ j, netRate P' tr' A B n j p)) * X) + ∑ j, (P.mesh.w p * ((((tr j).sol.val p - (tr j).prev.val p) / k - (netRate P' tr' A B n j p + D j))
          * ((tr j).sol.val p - (tr' j).sol.val p))
        - P.mesh.w p * ((((tr' j).sol.val p - (tr' j).prev.val p) / k - netRate P' tr' A B n j p)
          * ((tr j).sol.val p - (tr' j).sol.val p))))
    rw [f3]
    clear_value D
    generalize ∑ j, D j * ((tr j).sol.val p - (tr' j).sol.val p) = s1
    generalize ∑ j, D j = s2
    generalize ∑ j, netRate P' tr' A B n j p = s3
    generalize ∑ j, (((tr j).sol.val p - (tr' j).sol.val p) - ((tr j).prev.val p - (tr' j).prev.val p))
      * ((tr j).sol.val p - (tr' j).sol.val p) = s4
    rw [hX]
    field_simp
    ring
  rw [e1, ← mul_add]
  refine mul_le_mul_of_nonneg_left ?_ hk.le
  linarith

/-- **C126 (a).** Continuous dependence on the previous state: of two solutions of a step with the same data, one with no trap
filled beyond its density and the other one with no negative rate of loss from a trap, if the step is such that `k A (n - ct)` and
`k Σ (A c + B)` do not exceed `4 κ` with `κ < 1`, the distance (`gap` is its square) grows at most by the factor `1 / (1 - κ)`. -/
theorem C126_step (h : CoupledStep P bcs mat tr A B n k) (h' : CoupledStep P' bcs mat tr' A B n k) (hs : SameCoupled P P' tr tr')
    (hu : CoupledSolved P bcs V W) (hu' : CoupledSolved P' bcs V W) (hV : P.mv.sol - P'.mv.sol ∈ V)
    (hW : ∀ j, (tr j).sol - (tr' j).sol ∈ W j)
    (hmono : ∀ f ss, MobBC.flux f ss ∈ bcs → ∀ q, f.Monotone (P.T.T.tr q) (P.mv.sol.tr q) (P'.mv.sol.tr q) q)
    {κ : ℝ} (hκ : κ < 1)
    (ha : ∀ j p, 0 ≤ A j p * (n j p - (tr j).sol.val p) ∧ k * (A j p * (n j p - (tr j).sol.val p)) ≤ 4 * κ)
    (hb : ∀ j p, 0 ≤ A j p * P'.mv.sol.val p + B j p)
    (hb' : ∀ p, k * ∑ j, (A j p * P'.mv.sol.val p + B j p) ≤ 4 * κ) :
    gap P.mesh P.mv.sol.val P'.mv.sol.val (fun j => (tr j).sol.val) (fun j => (tr' j).sol.val)
      ≤ gap P.mesh P.mv.prev.val P'.mv.prev.val (fun j => (tr j).prev.val) (fun j => (tr' j).prev.val) / (1 - κ) ^ 2 := by
  have hk := h.pos
  have hs1 : 0 < 1 - κ := by linarith
  have hw : ∀ p, 0 ≤ P.mesh.w p := h.bare.weights
  have hm : P'.mesh = P.mesh := by rw [hs.problem]
  obtain ⟨F, hF, e⟩ := hu _ hV _ hW
  obtain ⟨F', hF', e'⟩ := hu' _ hV _ hW
  rw [hm] at e'
  have m4 := coupled_core h h' hs F F' hF hF' hmono
  have m2 : 0 ≤ dirichletEnergy P mat (P.mv.sol - P'.mv.sol) := h.bare.energy_nonneg (P.mv.sol - P'.mv.sol)
  rw [e, e', sub_self, mul_zero] at m4
  replace m4 := (le_add_of_nonneg_right (mul_nonneg hk.le m2)).trans m4
  have m5 : ∑ p, P.mesh.w p * ((1 - κ) / 2 * ((P.mv.sol.val p - P'.mv.sol.val p) ^ 2 + ∑ j, ((tr j).sol.val p - (tr' j).sol.val p) ^ 2)
      - ((P.mv.prev.val p - P'.mv.prev.val p) ^ 2 + ∑ j, ((tr j).prev.val p - (tr' j).prev.val p) ^ 2) / (2 * (1 - κ))) ≤ 0 := by
    refine le_trans (Finset.sum_le_sum fun p _ => mul_le_mul_of_nonneg_left ?_ (hw p)) m4
    exact point_ge hκ hk (fun j => A j p * (n j p - (tr j).sol.val p)) (fun j => A j p * P'.mv.sol.val p + B j p)
      (fun j => (ha j p).1) (fun j => hb j p) (fun j => (ha j p).2) (hb' p) _ _ (fun j => (tr j).sol.val p - (tr' j).sol.val p)
      (fun j => (tr j).prev.val p - (tr' j).prev.val p)
  rw [gap_eq, gap_eq]
  have m6 : ∑ p, P.mesh.w p * ((1 - κ) / 2 * ((P.mv.sol.val p - P'.mv.sol.val p) ^ 2 + ∑ j, ((tr j).sol.val p - (tr' j).sol.val p) ^ 2)
      - ((P.mv.prev.val p - P'.mv.prev.val p) ^ 2 + ∑ j, ((tr j).prev.val p - (tr' j).prev.val p) ^ 2) / (2 * (1 - κ)))
      = (1 - κ) / 2 * ∑ p, P.mesh.w p * ((P.mv.sol.val p - P'.mv.sol.val p) ^ 2 + ∑ j, ((tr j).sol.val p - (tr' j).sol.val p) ^ 2)
        - (∑ p, P.mesh.w p * ((P.mv.prev.val p - P'.mv.prev.val p) ^ 2 + ∑ j, ((tr j).prev.val p - (tr' j).prev.val p) ^ 2)) / (2 * (1 - κ)) := by
    rw [Finset.mul_sum, Finset.sum_div, ← Finset.sum_sub_distrib]
    exact Finset.sum_congr rfl fun p _ => by ring
  rw [m6] at m5
  generalize ∑ p, P.mesh.w p * ((P.mv.sol.val p - P'.mv.sol.val p) ^ 2 + ∑ j, ((tr j).sol.val p - (tr' j).sol.val p) ^ 2) = S at m5 ⊢
  generalize ∑ p, P.mesh.w p * ((P.mv.prev.val p - P'.mv.prev.val p) ^ 2 + ∑ j, ((tr j).prev.val p - (tr' j).prev.val p) ^ 2) = R at m5 ⊢
  rw [le_div_iff₀ (by positivity)]
  have : (1 - κ) / 2 * S ≤ R / (2 * (1 - κ)) := by linarith
  rw [le_div_iff₀ (by positivity)] at this
  nlinarith

/-- Fields which play the role of the successive states in the problems of a simulation with traps: step `i`, of length `h i`, goes
from the mobile and trapped concentrations `c i`, `t i` (at the points) to `c (i + 1)`, `t (i + 1)`. -/
structure CoupledFields (me : Mesh Ω Γ d) (Ps : ℕ → Problem Ω Γ d) (bcs : ℕ → List (MobBC Γ)) (mat : ℕ → Ω → Mat)
    (tr : ℕ → Fin m → Trap Ω Γ d) (A B n : ℕ → Fin m → Ω → ℝ) (h : ℕ → ℝ) (c : ℕ → Ω → ℝ) (t : ℕ → Fin m → Ω → ℝ) : Prop where
  step : ∀ i, CoupledStep (Ps i) (bcs i) (mat i) (tr i) (A i) (B i) (n i) (h i)
  mesh : ∀ i, (Ps i).mesh = me
  before : ∀ i, (Ps i).mv.prev.val = c i
  now : ∀ i, (Ps i).mv.sol.val = c (i + 1)
  trapBefore : ∀ i j, (tr i j).prev.val = t i j
  trapNow : ∀ i j, (tr i j).sol.val = t (i + 1) j

/-- A simulation with traps: the residual of each step vanishes for all the test functions. -/
structure CoupledRun (me : Mesh Ω Γ d) (V : Set (Fld Ω Γ d)) (W : Fin m → Set (Fld Ω Γ d)) (Ps : ℕ → Problem Ω Γ d)
    (bcs : ℕ → List (MobBC Γ)) (mat : ℕ → Ω → Mat) (tr : ℕ → Fin m → Trap Ω Γ d) (A B n : ℕ → Fin m → Ω → ℝ) (h : ℕ → ℝ)
    (c : ℕ → Ω → ℝ) (t : ℕ → Fin m → Ω → ℝ) : Prop extends CoupledFields me Ps bcs mat tr A B n h c t where
  solved : ∀ i, CoupledSolved (Ps i) (bcs i) V W

/-- The concentrations are physical: not negative, the traps not filled beyond their densities, no more than `M i` of solute. -/
structure Physical (n : ℕ → Fin m → Ω → ℝ) (M : ℕ → ℝ) (c : ℕ → Ω → ℝ) (t : ℕ → Fin m → Ω → ℝ) : Prop where
  mobile : ∀ i p, 0 ≤ c (i + 1) p ∧ c (i + 1) p ≤ M i
  trapped : ∀ i j p, 0 ≤ t (i + 1) j p ∧ t (i + 1) j p ≤ n i j p

/-- The steps are shorter than four times the times of trapping and detrapping. -/
structure ShortSteps (A B n : ℕ → Fin m → Ω → ℝ) (h M κ : ℕ → ℝ) : Prop where
  lt : ∀ i, κ i < 1
  rates : ∀ i j p, 0 ≤ A i j p ∧ 0 ≤ B i j p
  trap : ∀ i j p, h i * (A i j p * n i j p) ≤ 4 * κ i
  leave : ∀ i p, h i * ∑ j, (A i j p * M i + B i j p) ≤ 4 * κ i

variable {me : Mesh Ω Γ d} {Ps Ps' : ℕ → Problem Ω Γ d} {bcss : ℕ → List (MobBC Γ)} {mats : ℕ → Ω → Mat}
  {trs trs' : ℕ → Fin m → Trap Ω Γ d} {As Bs ns : ℕ → Fin m → Ω → ℝ} {h M κ : ℕ → ℝ} {c c' : ℕ → Ω → ℝ}
  {t t' : ℕ → Fin m → Ω → ℝ}

/-- **C126 (b).** Two physical simulations with the same data and different initial states: their distance is at most the initial
one times `∏ 1 / (1 - κ i)`. -/
theorem C126_run (H : CoupledRun me V W Ps bcss mats trs As Bs ns h c t) (H' : CoupledRun me V W Ps' bcss mats trs' As Bs ns h c' t')
    (hs : ∀ i, SameCoupled (Ps i) (Ps' i) (trs i) (trs' i)) (hV : ∀ i, (Ps i).mv.sol - (Ps' i).mv.sol ∈ V)
    (hW : ∀ i j, (trs i j).sol - (trs' i j).sol ∈ W j)
    (hmono : ∀ i f ss, MobBC.flux f ss ∈ bcss i → ∀ q,
      f.Monotone ((Ps i).T.T.tr q) ((Ps i).mv.sol.tr q) ((Ps' i).mv.sol.tr q) q)
    (hp : Physical ns M c t) (hp' : Physical ns M c' t') (hk : ShortSteps As Bs ns h M κ) (N : ℕ) :
    gap me (c N) (c' N) (t N) (t' N) ≤ gap me (c 0) (c' 0) (t 0) (t' 0) * ∏ i ∈ Finset.range N, (1 / (1 - κ i)) ^ 2 := by
  induction N with
  | zero => simp
  | succ N ih =>
    have hpos := (H.step N).pos
    have := C126_step (H.step N) (H'.step N) (hs N) (H.solved N) (H'.solved N) (hV N) (hW N) (hmono N) (hk.lt N)
      (by
        intro j p
        rw [H.trapNow]
        obtain ⟨h1, h2⟩ := hp.trapped N j p
        have hA := (hk.rates N j p).1
        refine ⟨mul_nonneg hA (by linarith), le_trans (mul_le_mul_of_nonneg_left ?_ hpos.le) (hk.trap N j p)⟩
        exact mul_le_mul_of_nonneg_left (by linarith) hA)
      (by
        intro j p
        rw [H'.now]
        have := mul_nonneg (hk.rates N j p).1 (hp'.mobile N p).1
        linarith [(hk.rates N j p).2])
      (by
        intro p
        rw [H'.now]
        refine le_trans (mul_le_mul_of_nonneg_left (Finset.sum_le_sum fun j _ => ?_) hpos.le) (hk.leave N p)
        have := mul_le_mul_of_nonneg_left (hp'.mobile N p).2 (hk.rates N j p).1
        linarith)
    simp only [H.mesh, H.now, H.before, H'.now, H'.before, H.trapNow, H.trapBefore, H'.trapNow, H'.trapBefore] at this
    refine this.trans ?_
    rw [Finset.prod_range_succ, div_eq_mul_inv, ← mul_assoc, one_div, inv_pow]
    have hs1 := hk.lt N
    refine mul_le_mul_of_nonneg_right ih ?_
    positivity

/-- **C126 (c).** So with such steps the physical result of a simulation with traps is unique. -/
theorem C126_unique (H : CoupledRun me V W Ps bcss mats trs As Bs ns h c t)
    (H' : CoupledRun me V W Ps' bcss mats trs' As Bs ns h c' t')
    (hs : ∀ i, SameCoupled (Ps i) (Ps' i) (trs i) (trs' i)) (hV : ∀ i, (Ps i).mv.sol - (Ps' i).mv.sol ∈ V)
    (hW : ∀ i j, (trs i j).sol - (trs' i j).sol ∈ W j)
    (hmono : ∀ i f ss, MobBC.flux f ss ∈ bcss i → ∀ q,
      f.Monotone ((Ps i).T.T.tr q) ((Ps i).mv.sol.tr q) ((Ps' i).mv.sol.tr q) q)
    (hp : Physical ns M c t) (hp' : Physical ns M c' t') (hk : ShortSteps As Bs ns h M κ)
    (hc : ∀ p, c 0 p = c' 0 p) (ht : ∀ j p, t 0 j p = t' 0 j p) (N : ℕ) (p : Ω) (hwp : 0 < me.w p) :
    c N p = c' N p ∧ ∀ j, t N j p = t' N j p := by
  have hw : ∀ p, 0 ≤ me.w p := by
    intro p
    have : 0 ≤ (Ps 0).mesh.w p := (H.step 0).bare.weights p
    rwa [H.mesh 0] at this
  have h1 := C126_run H H' hs hV hW hmono hp hp' hk N
  have h0 : gap me (c 0) (c' 0) (t 0) (t' 0) = 0 := by simp [gap, volume, hc, ht]
  rw [h0, zero_mul, gap_eq] at h1
  have hnn : ∀ p, 0 ≤ (c N p - c' N p) ^ 2 + ∑ j, (t N j p - t' N j p) ^ 2 := fun p =>
    add_nonneg (sq_nonneg _) (Finset.sum_nonneg fun j _ => sq_nonneg _)
  have h2 := (Finset.sum_eq_zero_iff_of_nonneg fun p _ => mul_nonneg (hw p) (hnn p)).1
    (le_antisymm h1 (Finset.sum_nonneg fun p _ => mul_nonneg (hw p) (hnn p))) p (Finset.mem_univ p)
  have h3 := (mul_eq_zero.1 h2).resolve_left hwp.ne'
  have h4 : 0 ≤ ∑ j, (t N j p - t' N j p) ^ 2 := Finset.sum_nonneg fun j _ => sq_nonneg _
  have h5 : (c N p - c' N p) ^ 2 = 0 := le_antisymm (by linarith) (sq_nonneg _)
  have h6 : ∑ j, (t N j p - t' N j p) ^ 2 = 0 := by linarith
  refine ⟨sub_eq_zero.1 (pow_eq_zero_iff two_ne_zero |>.1 h5), fun j => ?_⟩
  exact sub_eq_zero.1 (pow_eq_zero_iff two_ne_zero |>.1
    ((Finset.sum_eq_zero_iff_of_nonneg fun j _ => sq_nonneg _).1 h6 j (Finset.mem_univ j)))

/-- Size of the test functions. -/
noncomputable def testSize (me : Mesh Ω Γ d) (v : Fld Ω Γ d) (vt : Fin m → Fld Ω Γ d) : ℝ :=
  √(volume me (fun p => v.val p ^ 2) + ∑ j, volume me fun p => (vt j).val p ^ 2)

/-- The residual is small for all the test functions: at most `ε` times their size plus `η` times `√ ∫ D |∇v|²`. -/
def CoupledSmall (P : Problem Ω Γ d) (bcs : List (MobBC Γ)) (mat : Ω → Mat) (V : Set (Fld Ω Γ d)) (W : Fin m → Set (Fld Ω Γ d))
    (ε η : ℝ) : Prop :=
  ∀ v ∈ V, ∀ vt : Fin m → Fld Ω Γ d, (∀ j, vt j ∈ W j) → ∃ F, P.form bcs v (List.ofFn vt) = .ok F ∧
    |P.mesh.assemble F| ≤ ε * testSize P.mesh v vt + η * √(dirichletEnergy P mat v)

theorem gap_nonneg (me : Mesh Ω Γ d) (hw : ∀ p, 0 ≤ me.w p) (c c' : Ω → ℝ) (t t' : Fin m → Ω → ℝ) : 0 ≤ gap me c c' t t' := by
  rw [gap_eq]
  exact Finset.sum_nonneg fun p _ => mul_nonneg (hw p) (add_nonneg (sq_nonneg _) (Finset.sum_nonneg fun j _ => sq_nonneg _))

theorem point_cauchy (x xn : ℝ) (y yn : Fin m → ℝ) :
    xn * x + ∑ j, yn j * y j ≤ √(xn ^ 2 + ∑ j, yn j ^ 2) * √(x ^ 2 + ∑ j, y j ^ 2) := by
  have h := Real.sum_mul_le_sqrt_mul_sqrt Finset.univ (fun o : Option (Fin m) => o.elim xn yn) (fun o => o.elim x y)
  simpa only [Fintype.sum_option, Option.elim_none, Option.elim_some] using h

/-- Cauchy-Schwarz for states. -/
theorem gap_cauchy (me : Mesh Ω Γ d) (hw : ∀ p, 0 ≤ me.w p) (x xn : Ω → ℝ) (y yn : Fin m → Ω → ℝ) :
    ∑ p, me.w p * (xn p * x p + ∑ j, yn j p * y j p)
      ≤ √(∑ p, me.w p * (xn p ^ 2 + ∑ j, yn j p ^ 2)) * √(∑ p, me.w p * (x p ^ 2 + ∑ j, y j p ^ 2)) := by
  have nn : ∀ (a : Ω → ℝ) (b : Fin m → Ω → ℝ) p, 0 ≤ a p ^ 2 + ∑ j, b j p ^ 2 := fun a b p =>
    add_nonneg (sq_nonneg _) (Finset.sum_nonneg fun j _ => sq_nonneg _)
  have h1 : ∑ p, me.w p * (xn p * x p + ∑ j, yn j p * y j p)
      ≤ volume me fun p => √(xn p ^ 2 + ∑ j, yn j p ^ 2) * √(x p ^ 2 + ∑ j, y j p ^ 2) :=
    Finset.sum_le_sum fun p _ => mul_le_mul_of_nonneg_left (point_cauchy _ _ (fun j => y j p) fun j => yn j p) (hw p)
  have h2 := (abs_le.1 (volume_mul_le me hw (fun p => √(xn p ^ 2 + ∑ j, yn j p ^ 2)) fun p => √(x p ^ 2 + ∑ j, y j p ^ 2))).2
  refine h1.trans (h2.trans (le_of_eq ?_))
  unfold l2 volume
  simp only [Real.sq_sqrt (nn _ _ _)]

/-- **C127 (a).** One step of a simulation with traps, solved up to `ρ`, compared with any other fields for which the residual of the
step is small. -/
theorem C127_step (h : CoupledStep P bcs mat tr A B n k) (h' : CoupledStep P' bcs mat tr' A B n k) (hs : SameCoupled P P' tr tr')
    {ρ ε η : ℝ} (hu : CoupledSmall P bcs mat V W ρ 0) (hu' : CoupledSmall P' bcs mat V W ε η) (hV : P.mv.sol - P'.mv.sol ∈ V)
    (hW : ∀ j, (tr j).sol - (tr' j).sol ∈ W j)
    (hmono : ∀ f ss, MobBC.flux f ss ∈ bcs → ∀ q, f.Monotone (P.T.T.tr q) (P.mv.sol.tr q) (P'.mv.sol.tr q) q)
    {κ : ℝ}
    (ha : ∀ j p, 0 ≤ A j p * (n j p - (tr j).sol.val p) ∧ k * (A j p * (n j p - (tr j).sol.val p)) ≤ 4 * κ)
    (hb : ∀ j p, 0 ≤ A j p * P'.mv.sol.val p + B j p)
    (hb' : ∀ p, k * ∑ j, (A j p * P'.mv.sol.val p + B j p) ≤ 4 * κ) :
    (1 - κ) * gap P.mesh P.mv.sol.val P'.mv.sol.val (fun j => (tr j).sol.val) (fun j => (tr' j).sol.val)
      ≤ √(gap P.mesh P.mv.sol.val P'.mv.sol.val (fun j => (tr j).sol.val) fun j => (tr' j).sol.val)
        * (√(gap P.mesh P.mv.prev.val P'.mv.prev.val (fun j => (tr j).prev.val) fun j => (tr' j).prev.val) + k * (ε + ρ))
        + k * η ^ 2 / 4 := by
  have hk := h.pos
  have hw : ∀ p, 0 ≤ P.mesh.w p := h.bare.weights
  have hm : P'.mesh = P.mesh := by rw [hs.problem]
  obtain ⟨F, hF, e⟩ := hu _ hV _ hW
  obtain ⟨F', hF', e'⟩ := hu' _ hV _ hW
  have m4 := coupled_core h h' hs F F' hF hF' hmono
  have hD : dirichletEnergy P' mat (P.mv.sol - P'.mv.sol) = dirichletEnergy P mat (P.mv.sol - P'.mv.sol) := by
    rw [hs.problem]
    rfl
  have hsize : testSize P.mesh (P.mv.sol - P'.mv.sol) (fun j => (tr j).sol - (tr' j).sol)
      = √(gap P.mesh P.mv.sol.val P'.mv.sol.val (fun j => (tr j).sol.val) fun j => (tr' j).sol.val) := rfl
  rw [hsize, zero_mul, add_zero] at e
  rw [hm, hD, hsize] at e'
  have m2 : 0 ≤ dirichletEnergy P mat (P.mv.sol - P'.mv.sol) := h.bare.energy_nonneg (P.mv.sol - P'.mv.sol)
  set G := √(dirichletEnergy P mat (P.mv.sol - P'.mv.sol)) with hG
  have hG2 : dirichletEnergy P mat (P.mv.sol - P'.mv.sol) = G ^ 2 := (Real.sq_sqrt m2).symm
  rw [hG2] at m4
  have m5 := gap_cauchy P.mesh hw (fun p => P.mv.sol.val p - P'.mv.sol.val p) (fun p => P.mv.prev.val p - P'.mv.prev.val p)
    (fun j p => (tr j).sol.val p - (tr' j).sol.val p) (fun j p => (tr j).prev.val p - (tr' j).prev.val p)
  have g1 := gap_eq P.mesh P.mv.sol.val P'.mv.sol.val (fun j => (tr j).sol.val) fun j => (tr' j).sol.val
  have g2 := gap_eq P.mesh P.mv.prev.val P'.mv.prev.val (fun j => (tr j).prev.val) fun j => (tr' j).prev.val
  rw [← g1, ← g2] at m5
  have m6 : (1 - κ) * gap P.mesh P.mv.sol.val P'.mv.sol.val (fun j => (tr j).sol.val) (fun j => (tr' j).sol.val)
      - ∑ p, P.mesh.w p * ((P.mv.prev.val p - P'.mv.prev.val p) * (P.mv.sol.val p - P'.mv.sol.val p)
        + ∑ j, ((tr j).prev.val p - (tr' j).prev.val p) * ((tr j).sol.val p - (tr' j).sol.val p))
      ≤ ∑ p, P.mesh.w p * (((P.mv.sol.val p - P'.mv.sol.val p) - (P.mv.prev.val p - P'.mv.prev.val p)) * (P.mv.sol.val p - P'.mv.sol.val p)
      + ∑ j, (((tr j).sol.val p - (tr' j).sol.val p) - ((tr j).prev.val p - (tr' j).prev.val p)) * ((tr j).sol.val p - (tr' j).sol.val p)
      + k * ∑ j, (A j p * (n j p - (tr j).sol.val p) * (P.mv.sol.val p - P'.mv.sol.val p)
        - (A j p * P'.mv.sol.val p + B j p) * ((tr j).sol.val p - (tr' j).sol.val p))
        * (P.mv.sol.val p - P'.mv.sol.val p - ((tr j).sol.val p - (tr' j).sol.val p))) := by
    rw [g1, Finset.mul_sum, ← Finset.sum_sub_distrib]
    refine Finset.sum_le_sum fun p _ => ?_
    have := mul_le_mul_of_nonneg_left (exchange_sum hk (fun j => A j p * (n j p - (tr j).sol.val p)) (fun j => A j p * P'.mv.sol.val p + B j p)
      (fun j => (ha j p).1) (fun j => hb j p) (fun j => (ha j p).2) (hb' p) (P.mv.sol.val p - P'.mv.sol.val p)
      fun j => (tr j).sol.val p - (tr' j).sol.val p) (hw p)
    simp only [sub_mul (_ - _) (_ - _) (_ - _), Finset.sum_sub_distrib, ← sq] at this ⊢
    linarith
  have r1 := (abs_le.1 e).2
  have r2 := (abs_le.1 e').1
  set E := √(gap P.mesh P.mv.sol.val P'.mv.sol.val (fun j => (tr j).sol.val) fun j => (tr' j).sol.val)
  set E0 := √(gap P.mesh P.mv.prev.val P'.mv.prev.val (fun j => (tr j).prev.val) fun j => (tr' j).prev.val)
  have r3 : k * (P.mesh.assemble F - P.mesh.assemble F') ≤ k * ((ε + ρ) * E + η * G) :=
    mul_le_mul_of_nonneg_left (by linarith) hk.le
  have r4 : k * (η * G - G ^ 2) ≤ k * (η ^ 2 / 4) := mul_le_mul_of_nonneg_left (by nlinarith [sq_nonneg (η - 2 * G)]) hk.le
  nlinarith

theorem growth {x : ℝ} (h0 : 0 ≤ x) (h1 : x ≤ 1 / 2) : 1 ≤ (1 - x) * Real.exp (2 * x) := by
  have := Real.add_one_le_exp (2 * x)
  have h2 := mul_le_mul_of_nonneg_left this (by linarith : 0 ≤ 1 - x)
  nlinarith

/-- A recursive inequality: `(1 - κ) y² ≤ y (x + a) + b/4` at each step. -/
theorem growth_bound (E a b κ : ℕ → ℝ) (hE : ∀ i, 0 ≤ E i) (ha : ∀ i, 0 ≤ a i) (hb : ∀ i, 0 ≤ b i)
    (hκ : ∀ i, 0 ≤ κ i ∧ κ i ≤ 1 / 2) (h : ∀ i, (1 - κ i) * E (i + 1) ^ 2 ≤ E (i + 1) * (E i + a i) + b i / 4) (N : ℕ) :
    E N ≤ Real.exp (2 * ∑ i ∈ Finset.range N, κ i)
      * (∑ i ∈ Finset.range N, a i + √(E 0 ^ 2 + (∑ i ∈ Finset.range N, b i) / 2)) := by
  set p : ℕ → ℝ := fun N => ∏ i ∈ Finset.range N, (1 - κ i) with hp
  have p0 : ∀ N, 0 < p N ∧ p N ≤ 1 := fun N =>
    ⟨Finset.prod_pos fun i _ => by linarith [(hκ i).2],
      Finset.prod_le_one (fun i _ => by linarith [(hκ i).2]) fun i _ => by linarith [(hκ i).1]⟩
  have hx := step_bound (fun i => p i * E i) a b (fun i => mul_nonneg (p0 i).1.le (hE i)) ha (by
    intro i
    have e : p (i + 1) = p i * (1 - κ i) := Finset.prod_range_succ _ _
    obtain ⟨q0, q1⟩ := p0 i
    obtain ⟨k0, k1⟩ := hκ i
    have s0 : 0 < 1 - κ i := by linarith
    rw [e]
    have h1 := mul_le_mul_of_nonneg_left (h i) (by positivity : 0 ≤ p i ^ 2 * (1 - κ i))
    have h2 : p i * (1 - κ i) * E (i + 1) * (p i * a i) ≤ p i * (1 - κ i) * E (i + 1) * a i :=
      mul_le_mul_of_nonneg_left (mul_le_of_le_one_left (ha i) q1) (by have := hE (i + 1); positivity)
    have h3 : p i ^ 2 * (1 - κ i) * (b i / 4) ≤ b i / 4 := by
      refine mul_le_of_le_one_left (by have := hb i; positivity) ?_
      exact mul_le_one₀ (pow_le_one₀ q0.le q1) s0.le (by linarith)
    calc (p i * (1 - κ i) * E (i + 1)) ^ 2 = p i ^ 2 * (1 - κ i) * ((1 - κ i) * E (i + 1) ^ 2) := by ring
      _ ≤ p i ^ 2 * (1 - κ i) * (E (i + 1) * (E i + a i) + b i / 4) := h1
      _ = p i * (1 - κ i) * E (i + 1) * (p i * E i) + p i * (1 - κ i) * E (i + 1) * (p i * a i)
          + p i ^ 2 * (1 - κ i) * (b i / 4) := by ring
      _ ≤ p i * (1 - κ i) * E (i + 1) * (p i * E i + a i) + b i / 4 := by linarith) hb N
  have hg : ∀ N, 1 ≤ p N * Real.exp (2 * ∑ i ∈ Finset.range N, κ i) := by
    intro N
    induction N with
    | zero => simp [hp]
    | succ N ih =>
      have e : p (N + 1) = p N * (1 - κ N) := Finset.prod_range_succ _ _
      rw [e, Finset.sum_range_succ, mul_add, Real.exp_add]
      have h1 := growth (hκ N).1 (hκ N).2
      have := one_le_mul_of_one_le_of_one_le ih h1
      linarith
  have e0 : p 0 = 1 := by simp [hp]
  simp only [e0, one_mul] at hx
  calc E N ≤ (p N * Real.exp (2 * ∑ i ∈ Finset.range N, κ i)) * E N := le_mul_of_one_le_left (hE N) (hg N)
    _ = Real.exp (2 * ∑ i ∈ Finset.range N, κ i) * (p N * E N) := by ring
    _ ≤ _ := mul_le_mul_of_nonneg_left hx (Real.exp_nonneg _)

/-- **C127 (b).** A simulation with traps in any dimension, each step solved up to `ρ i`, compared with any other fields: if these have
the same Dirichlet values and make the residual of each step at most `ε i` times the size of the test functions plus `η i` times
`√ ∫ D |∇v|²`, the L² distance of mobile and trapped concentrations is at most the initial one increased by the sum of the residuals,
times `exp (Λ time / 2)`, where `Λ` bounds the rates of trapping and of detrapping and no step exceeds `2 / Λ`. -/
theorem C127_run (H : CoupledFields me Ps bcss mats trs As Bs ns h c t) (H' : CoupledFields me Ps' bcss mats trs' As Bs ns h c' t')
    (hs : ∀ i, SameCoupled (Ps i) (Ps' i) (trs i) (trs' i)) {ρ ε η : ℕ → ℝ} (hρ : ∀ i, 0 ≤ ρ i) (hε : ∀ i, 0 ≤ ε i)
    (hu : ∀ i, CoupledSmall (Ps i) (bcss i) (mats i) V W (ρ i) 0)
    (hu' : ∀ i, CoupledSmall (Ps' i) (bcss i) (mats i) V W (ε i) (η i))
    (hV : ∀ i, (Ps i).mv.sol - (Ps' i).mv.sol ∈ V) (hW : ∀ i j, (trs i j).sol - (trs' i j).sol ∈ W j)
    (hmono : ∀ i f ss, MobBC.flux f ss ∈ bcss i → ∀ q,
      f.Monotone ((Ps i).T.T.tr q) ((Ps i).mv.sol.tr q) ((Ps' i).mv.sol.tr q) q)
    (hc' : ∀ i p, 0 ≤ c' (i + 1) p ∧ c' (i + 1) p ≤ M i) (ht : ∀ i j p, 0 ≤ t (i + 1) j p ∧ t (i + 1) j p ≤ ns i j p)
    (hr : ∀ i j p, 0 ≤ As i j p ∧ 0 ≤ Bs i j p) {Λ : ℝ} (hΛ : 0 ≤ Λ) (htrap : ∀ i j p, As i j p * ns i j p ≤ Λ)
    (hleave : ∀ i p, ∑ j, (As i j p * M i + Bs i j p) ≤ Λ) (hstep : ∀ i, h i * Λ ≤ 2) (N : ℕ) :
    √(gap me (c N) (c' N) (t N) (t' N)) ≤ Real.exp (Λ / 2 * ∑ i ∈ Finset.range N, h i)
      * (∑ i ∈ Finset.range N, h i * (ε i + ρ i)
        + √(gap me (c 0) (c' 0) (t 0) (t' 0) + (∑ i ∈ Finset.range N, h i * η i ^ 2) / 2)) := by
  have hw : ∀ p, 0 ≤ me.w p := by
    intro p
    have : 0 ≤ (Ps 0).mesh.w p := (H.step 0).bare.weights p
    rwa [H.mesh 0] at this
  have hpos : ∀ i, 0 < h i := fun i => (H.step i).pos
  have hg : ∀ i, 0 ≤ gap me (c i) (c' i) (t i) (t' i) := fun i => gap_nonneg me hw _ _ _ _
  have main := growth_bound (fun i => √(gap me (c i) (c' i) (t i) (t' i))) (fun i => h i * (ε i + ρ i)) (fun i => h i * η i ^ 2)
    (fun i => h i * Λ / 4) (fun i => Real.sqrt_nonneg _)
    (fun i => mul_nonneg (hpos i).le (add_nonneg (hε i) (hρ i))) (fun i => mul_nonneg (hpos i).le (sq_nonneg _))
    (fun i => ⟨by have := hpos i; positivity, by linarith [hstep i]⟩) (by
      intro i
      have := C127_step (H.step i) (H'.step i) (hs i) (hu i) (hu' i) (hV i) (hW i) (hmono i) (κ := h i * Λ / 4)
        (by
          intro j p
          rw [H.trapNow]
          obtain ⟨h1, h2⟩ := ht i j p
          have hA := (hr i j p).1
          refine ⟨mul_nonneg hA (by linarith), ?_⟩
          have := mul_le_mul_of_nonneg_left ((mul_le_mul_of_nonneg_left (by linarith : ns i j p - t (i + 1) j p ≤ ns i j p) hA).trans
            (htrap i j p)) (hpos i).le
          linarith)
        (by
          intro j p
          rw [H'.now]
          have := mul_nonneg (hr i j p).1 (hc' i p).1
          linarith [(hr i j p).2])
        (by
          intro p
          rw [H'.now]
          have := mul_le_mul_of_nonneg_left ((Finset.sum_le_sum fun j _ => by
            have := mul_le_mul_of_nonneg_left (hc' i p).2 (hr i j p).1
            show As i j p * c' (i + 1) p + Bs i j p ≤ As i j p * M i + Bs i j p
            linarith).trans (hleave i p)) (hpos i).le
          linarith)
      simp only [H.mesh, H.now, H.before, H'.now, H'.before, H.trapNow, H.trapBefore, H'.trapNow, H'.trapBefore] at this
      rw [Real.sq_sqrt (hg _)]
      exact this) N
  rw [Real.sq_sqrt (hg 0)] at main
  have e : 2 * ∑ i ∈ Finset.range N, h i * Λ / 4 = Λ / 2 * ∑ i ∈ Finset.range N, h i := by
    rw [← Finset.sum_div, ← Finset.sum_mul]
    ring
  rwa [e] at main

/-- Size of a state: mobile and trapped concentrations. -/
noncomputable def stateSize (me : Mesh Ω Γ d) (f : Ω → ℝ) (g : Fin m → Ω → ℝ) : ℝ :=
  √(∑ p, me.w p * (f p ^ 2 + ∑ j, g j p ^ 2))

theorem stateSize_gap (me : Mesh Ω Γ d) (c c' : Ω → ℝ) (t t' : Fin m → Ω → ℝ) :
    √(gap me c c' t t') = stateSize me (fun p => c p - c' p) fun j p => t j p - t' j p := by
  rw [gap_eq]
  rfl

theorem stateSize_test (me : Mesh Ω Γ d) (v : Fld Ω Γ d) (vt : Fin m → Fld Ω Γ d) :
    testSize me v vt = stateSize me v.val fun j => (vt j).val := by
  have := gap_eq me v.val (fun _ => 0) (fun j => (vt j).val) fun _ _ => 0
  simp only [gap, sub_zero] at this
  unfold testSize stateSize
  rw [this]

theorem stateSize_mul (me : Mesh Ω Γ d) (hw : ∀ p, 0 ≤ me.w p) (f f' : Ω → ℝ) (g g' : Fin m → Ω → ℝ) :
    |∑ p, me.w p * (f p * f' p + ∑ j, g j p * g' j p)| ≤ stateSize me f g * stateSize me f' g' := by
  refine abs_le.2 ⟨?_, gap_cauchy me hw f' f g' g⟩
  have := gap_cauchy me hw f' (fun p => -f p) g' fun j p => -g j p
  simp only [neg_mul, Finset.sum_neg_distrib, ← neg_add, mul_neg, neg_sq] at this
  unfold stateSize
  linarith

theorem stateSize_sq (me : Mesh Ω Γ d) (hw : ∀ p, 0 ≤ me.w p) (f : Ω → ℝ) (g : Fin m → Ω → ℝ) :
    stateSize me f g ^ 2 = ∑ p, me.w p * (f p ^ 2 + ∑ j, g j p ^ 2) :=
  Real.sq_sqrt (Finset.sum_nonneg fun p _ => mul_nonneg (hw p) (add_nonneg (sq_nonneg _) (Finset.sum_nonneg fun j _ => sq_nonneg _)))

theorem stateSize_nonneg (me : Mesh Ω Γ d) (f : Ω → ℝ) (g : Fin m → Ω → ℝ) : 0 ≤ stateSize me f g := Real.sqrt_nonneg _

theorem stateSize_add (me : Mesh Ω Γ d) (hw : ∀ p, 0 ≤ me.w p) (f f' : Ω → ℝ) (g g' : Fin m → Ω → ℝ) :
    stateSize me (fun p => f p + f' p) (fun j p => g j p + g' j p) ≤ stateSize me f g + stateSize me f' g' := by
  apply abs_le_of_sq_le_sq' _ (add_nonneg (stateSize_nonneg me f g) (stateSize_nonneg me f' g')) |>.2
  have h := (abs_le.1 (stateSize_mul me hw f f' g g')).2
  have e : stateSize me (fun p => f p + f' p) (fun j p => g j p + g' j p) ^ 2
      = stateSize me f g ^ 2 + 2 * (∑ p, me.w p * (f p * f' p + ∑ j, g j p * g' j p)) + stateSize me f' g' ^ 2 := by
    rw [stateSize_sq me hw, stateSize_sq me hw, stateSize_sq me hw, Finset.mul_sum, ← Finset.sum_add_distrib, ← Finset.sum_add_distrib]
    refine Finset.sum_congr rfl fun p _ => ?_
    have : ∑ j, (g j p + g' j p) ^ 2 = ∑ j, g j p ^ 2 + 2 * ∑ j, g j p * g' j p + ∑ j, g' j p ^ 2 := by
      rw [Finset.mul_sum, ← Finset.sum_add_distrib, ← Finset.sum_add_distrib]
      exact Finset.sum_congr rfl fun j _ => by ring
    rw [this]
    ring
  rw [e]
  nlinarith

theorem stateSize_smul (me : Mesh Ω Γ d) (r : ℝ) (hr : 0 ≤ r) (f : Ω → ℝ) (g : Fin m → Ω → ℝ) :
    stateSize me (fun p => r * f p) (fun j p => r * g j p) = r * stateSize me f g := by
  have : ∑ p, me.w p * ((r * f p) ^ 2 + ∑ j, (r * g j p) ^ 2) = r ^ 2 * ∑ p, me.w p * (f p ^ 2 + ∑ j, g j p ^ 2) := by
    rw [Finset.mul_sum]
    refine Finset.sum_congr rfl fun p _ => ?_
    simp only [mul_pow]
    rw [← Finset.mul_sum]
    ring
  unfold stateSize
  rw [this, Real.sqrt_mul (sq_nonneg r), Real.sqrt_sq hr]

/-- How much the exchange with the traps changes with the state. -/
theorem exchange_size (me : Mesh Ω Γ d) (hw : ∀ p, 0 ≤ me.w p) {Λ : ℝ} (hΛ : 0 ≤ Λ) (a b y : Fin m → Ω → ℝ) (x : Ω → ℝ)
    (ha : ∀ j p, 0 ≤ a j p ∧ a j p ≤ Λ) (hb : ∀ j p, 0 ≤ b j p ∧ b j p ≤ Λ) :
    stateSize me (fun p => ∑ j, (b j p * y j p - a j p * x p)) (fun j p => -(b j p * y j p - a j p * x p))
      ≤ 2 * (m + 1) * Λ * stateSize me x y := by
  apply abs_le_of_sq_le_sq' _ (by have := stateSize_nonneg me x y; positivity) |>.2
  rw [mul_pow, stateSize_sq me hw, stateSize_sq me hw, Finset.mul_sum]
  refine Finset.sum_le_sum fun p _ => ?_
  rw [mul_left_comm]
  refine mul_le_mul_of_nonneg_left ?_ (hw p)
  set D : Fin m → ℝ := fun j => b j p * y j p - a j p * x p with hD
  have h1 : (∑ j, D j) ^ 2 ≤ m * ∑ j, D j ^ 2 := by
    have := sq_sum_le_card_mul_sum_sq (s := Finset.univ) (f := D)
    simpa using this
  have h2 : ∀ j, D j ^ 2 ≤ 2 * Λ ^ 2 * (x p ^ 2 + y j p ^ 2) := by
    intro j
    obtain ⟨a0, a1⟩ := ha j p
    obtain ⟨b0, b1⟩ := hb j p
    have s1 : (b j p) ^ 2 ≤ Λ ^ 2 := pow_le_pow_left₀ b0 b1 2
    have s2 : (a j p) ^ 2 ≤ Λ ^ 2 := pow_le_pow_left₀ a0 a1 2
    have s3 := mul_le_mul_of_nonneg_right s1 (sq_nonneg (y j p))
    have s4 := mul_le_mul_of_nonneg_right s2 (sq_nonneg (x p))
    simp only [hD]
    nlinarith [sq_nonneg (b j p * y j p + a j p * x p)]
  have h3 : ∑ j, D j ^ 2 ≤ 2 * Λ ^ 2 * (m * x p ^ 2 + ∑ j, y j p ^ 2) := by
    refine (Finset.sum_le_sum fun j _ => h2 j).trans (le_of_eq ?_)
    rw [← Finset.mul_sum, Finset.sum_add_distrib]
    simp
  have hY : 0 ≤ ∑ j, y j p ^ 2 := Finset.sum_nonneg fun j _ => sq_nonneg _
  have hm : (0 : ℝ) ≤ m := Nat.cast_nonneg m
  have h4 : m * x p ^ 2 + ∑ j, y j p ^ 2 ≤ (m + 1) * (x p ^ 2 + ∑ j, y j p ^ 2) := by nlinarith [sq_nonneg (x p)]
  have h5 : ∑ j, (-D j) ^ 2 = ∑ j, D j ^ 2 := by simp
  show (∑ j, D j) ^ 2 + ∑ j, (-D j) ^ 2 ≤ (2 * (m + 1) * Λ) ^ 2 * (x p ^ 2 + ∑ j, y j p ^ 2)
  rw [h5]
  calc (∑ j, D j) ^ 2 + ∑ j, D j ^ 2 ≤ (m + 1) * ∑ j, D j ^ 2 := by linarith
    _ ≤ (m + 1) * (2 * Λ ^ 2 * ((m + 1) * (x p ^ 2 + ∑ j, y j p ^ 2))) :=
      mul_le_mul_of_nonneg_left (h3.trans (mul_le_mul_of_nonneg_left h4 (by positivity))) (by positivity)
    _ ≤ (2 * (m + 1) * Λ) ^ 2 * (x p ^ 2 + ∑ j, y j p ^ 2) := by
      have : 0 ≤ (m + 1) ^ 2 * Λ ^ 2 * (x p ^ 2 + ∑ j, y j p ^ 2) := by positivity
      nlinarith

/-- **C127 (c).** Accuracy.  Let `u i`, `z i` satisfy the weak equations of diffusion and trapping at the times of the steps, with the
time derivatives `u' i`, `z' i`; let `R i` (the solutions in `Ps'`, with values `c'`) be elliptic projections of `u i`, and `t'` fields
of the elements of the traps.  If these are within `δ` of the exact solution, the error of the projection changes at a rate at most
`κ`, and the backward differences are those of functions with second time derivative at most `Mt`, then the L² error of the simulation
is at most `δ`, plus `exp (Λ time / 2)` times: the distance of the initial state and the projection, plus the time multiplied by
`κ + Mt Δt / 2 + 2 (m + 1) Λ δ + ρ₀`. -/
theorem C127_accuracy (H : CoupledFields me Ps bcss mats trs As Bs ns h c t)
    (H' : CoupledFields me Ps' bcss mats trs' As Bs ns h c' t') (hs : ∀ i, SameCoupled (Ps i) (Ps' i) (trs i) (trs' i))
    {ρ : ℕ → ℝ} {ρ₀ : ℝ} (hρ : ∀ i, 0 ≤ ρ i ∧ ρ i ≤ ρ₀) (hu : ∀ i, CoupledSmall (Ps i) (bcss i) (mats i) V W (ρ i) 0)
    (hok : ∀ i v, ∀ vt : Fin m → Fld Ω Γ d, ∃ F, (Ps' i).form (bcss i) v (List.ofFn vt) = .ok F)
    (hV : ∀ i, (Ps i).mv.sol - (Ps' i).mv.sol ∈ V) (hW : ∀ i j, (trs i j).sol - (trs' i j).sol ∈ W j)
    (hmono : ∀ i f ss, MobBC.flux f ss ∈ bcss i → ∀ q,
      f.Monotone ((Ps i).T.T.tr q) ((Ps i).mv.sol.tr q) ((Ps' i).mv.sol.tr q) q)
    (hc' : ∀ i p, 0 ≤ c' (i + 1) p ∧ c' (i + 1) p ≤ M i) (ht : ∀ i j p, 0 ≤ t (i + 1) j p ∧ t (i + 1) j p ≤ ns i j p)
    (hr : ∀ i j p, 0 ≤ As i j p ∧ 0 ≤ Bs i j p) {Λ : ℝ} (hΛ : 0 ≤ Λ) (htrap : ∀ i j p, As i j p * ns i j p ≤ Λ)
    (hleave : ∀ i p, ∑ j, (As i j p * M i + Bs i j p) ≤ Λ) (hstep : ∀ i, h i * Λ ≤ 2)
    (hgiven : ∀ i j, ∀ s ∈ (trs i j).sources, ∃ f, s.value = .given f)
    (u : ℕ → Fld Ω Γ d) (u' : ℕ → Ω → ℝ) (z z' : ℕ → Fin m → Ω → ℝ) (hz : ∀ i j p, 0 ≤ z (i + 1) j p ∧ z (i + 1) j p ≤ ns i j p)
    (hexact : ∀ i, ∀ v ∈ V, defect (Ps i).bare (bcss i) (mats i) (fun p => u' (i + 1) p
      + ∑ j, trapping (As i j p) (Bs i j p) (ns i j p) ((u (i + 1)).val p) (z (i + 1) j p)) (u (i + 1)) v = 0)
    (hfill : ∀ i j, ∀ vt ∈ W j, volume me (fun p => (z' (i + 1) j p
      - trapping (As i j p) (Bs i j p) (ns i j p) ((u (i + 1)).val p) (z (i + 1) j p)) * vt.val p) = trapGain me (trs i j) vt)
    (hR : ∀ i, ∀ v ∈ V, defect (Ps i).bare (bcss i) (mats i) (fun _ => 0) (Ps' i).mv.sol v
      = defect (Ps i).bare (bcss i) (mats i) (fun _ => 0) (u (i + 1)) v)
    {δ κ Mt Δ : ℝ} (hκ0 : 0 ≤ κ) (hMt : 0 ≤ Mt) (hΔ : ∀ i, h i ≤ Δ)
    (hδ : ∀ i, stateSize me (fun p => c' i p - (u i).val p) (fun j p => t' i j p - z i j p) ≤ δ)
    (hκ : ∀ i, stateSize me (fun p => (c' (i + 1) p - (u (i + 1)).val p) - (c' i p - (u i).val p))
      (fun j p => (t' (i + 1) j p - z (i + 1) j p) - (t' i j p - z i j p)) ≤ κ * h i)
    (hdiff : ∀ i, stateSize me (fun p => (u (i + 1)).val p - (u i).val p - h i * u' (i + 1) p)
      (fun j p => z (i + 1) j p - z i j p - h i * z' (i + 1) j p) ≤ Mt * h i ^ 2 / 2) (N : ℕ) :
    stateSize me (fun p => c N p - (u N).val p) (fun j p => t N j p - z N j p)
      ≤ δ + Real.exp (Λ / 2 * ∑ i ∈ Finset.range N, h i)
        * (stateSize me (fun p => c 0 p - c' 0 p) (fun j p => t 0 j p - t' 0 j p)
          + (∑ i ∈ Finset.range N, h i) * (κ + Mt * Δ / 2 + 2 * (m + 1) * Λ * δ + ρ₀)) := by
  have hw : ∀ p, 0 ≤ me.w p := by
    intro p
    have : 0 ≤ (Ps 0).mesh.w p := (H.step 0).bare.weights p
    rwa [H.mesh 0] at this
  have hpos : ∀ i, 0 < h i := fun i => (H.step i).pos
  have hδ0 : 0 ≤ δ := (stateSize_nonneg _ _ _).trans (hδ 0)
  have hΔ0 : 0 ≤ Δ := (hpos 0).le.trans (hΔ 0)
  have hε0 : 0 ≤ κ + Mt * Δ / 2 + 2 * (m + 1) * Λ * δ := by positivity
  have hsmall : ∀ i, CoupledSmall (Ps' i) (bcss i) (mats i) V W (κ + Mt * Δ / 2 + 2 * (m + 1) * Λ * δ) 0 := by
    intro i v hv vt hvt
    obtain ⟨F, hF⟩ := hok i v vt
    refine ⟨F, hF, ?_⟩
    have hh := hpos i
    have e := (H'.step i).residual v vt F hF
    have hd : SameData (Ps i).bare (Ps' i).bare := by
      show (Ps' i).bare = { (Ps i).bare with mv := (Ps' i).bare.mv }
      rw [(hs i).problem]
      rfl
    rw [hd.defect, H'.mesh i] at e
    rw [H'.mesh i, e, zero_mul, add_zero, stateSize_test]
    -- the residual of the comparison fields
    set X : Ω → ℝ := fun p => c' (i + 1) p - (u (i + 1)).val p with hX
    set Y : Fin m → Ω → ℝ := fun j p => t' (i + 1) j p - z (i + 1) j p with hY
    set a : Fin m → Ω → ℝ := fun j p => As i j p * (ns i j p - z (i + 1) j p) with ha
    set b : Fin m → Ω → ℝ := fun j p => As i j p * c' (i + 1) p + Bs i j p with hb
    have hnet : ∀ j p, netRate (Ps' i) (trs' i) (As i) (Bs i) (ns i) j p
        = trapping (As i j p) (Bs i j p) (ns i j p) ((u (i + 1)).val p) (z (i + 1) j p) - (b j p * Y j p - a j p * X p) := by
      intro j p
      have := trapping_sub (As i j p) (Bs i j p) (ns i j p) ((u (i + 1)).val p) (z (i + 1) j p) (c' (i + 1) p) (t' (i + 1) j p)
      unfold netRate
      rw [H'.now, H'.trapNow]
      simp only [ha, hb, hX, hY]
      linarith
    have hgain : ∀ j, trapGain me (trs' i j) (vt j) = trapGain me (trs i j) (vt j) := by
      intro j
      have hsrc : (trs' i j).sources = (trs i j).sources := by rw [(hs i).traps j]
      unfold trapGain
      rw [hsrc]
      congr 1
      refine List.map_congr_left fun s hsm => ?_
      obtain ⟨f, hf⟩ := hgiven i j s hsm
      simp only [Src.at, hf]
    set f1 : Ω → ℝ := fun p => (c' (i + 1) p - c' i p) / h i - u' (i + 1) p with hf1
    set g1 : Fin m → Ω → ℝ := fun j p => (t' (i + 1) j p - t' i j p) / h i - z' (i + 1) j p with hg1
    have e1 : defect (Ps i).bare (bcss i) (mats i) (fun p => ((Ps' i).mv.sol.val p - (Ps' i).mv.prev.val p) / h i
          + ∑ j, netRate (Ps' i) (trs' i) (As i) (Bs i) (ns i) j p) (Ps' i).mv.sol v
        = volume me fun p => (f1 p - ∑ j, (b j p * Y j p - a j p * X p)) * v.val p := by
      have q1 := hR i v hv
      have q2 := hexact i v hv
      have hm : (Ps i).bare.mesh = me := H.mesh i
      unfold defect at q1 q2 ⊢
      rw [hm] at q1 q2 ⊢
      have q0 : (volume me fun p => (0 : ℝ) * v.val p) = 0 := by simp [volume]
      have q3 : (volume me fun p => (f1 p - ∑ j, (b j p * Y j p - a j p * X p)) * v.val p)
          = (volume me fun p => (((Ps' i).mv.sol.val p - (Ps' i).mv.prev.val p) / h i
              + ∑ j, netRate (Ps' i) (trs' i) (As i) (Bs i) (ns i) j p) * v.val p)
            - volume me fun p => (u' (i + 1) p
              + ∑ j, trapping (As i j p) (Bs i j p) (ns i j p) ((u (i + 1)).val p) (z (i + 1) j p)) * v.val p := by
        rw [← volume_sub]
        congr 1
        funext p
        simp only [hnet, Finset.sum_sub_distrib, H'.now, H'.before, hf1]
        ring
      rw [q3]
      linarith
    have e2 : ∀ j, volume me (fun p => (((trs' i j).sol.val p - (trs' i j).prev.val p) / h i
          - netRate (Ps' i) (trs' i) (As i) (Bs i) (ns i) j p) * (vt j).val p) - trapGain me (trs' i j) (vt j)
        = volume me fun p => (g1 j p + (b j p * Y j p - a j p * X p)) * (vt j).val p := by
      intro j
      rw [hgain j, ← hfill i j (vt j) (hvt j), ← volume_sub]
      congr 1
      funext p
      rw [hnet, H'.trapNow, H'.trapBefore]
      simp only [hg1]
      ring
    rw [e1, Finset.sum_congr rfl fun j _ => e2 j]
    have e3 : (volume me fun p => (f1 p - ∑ j, (b j p * Y j p - a j p * X p)) * v.val p)
        + ∑ j, (volume me fun p => (g1 j p + (b j p * Y j p - a j p * X p)) * (vt j).val p)
        = ∑ p, me.w p * ((f1 p + -∑ j, (b j p * Y j p - a j p * X p)) * v.val p
          + ∑ j, (g1 j p + - -(b j p * Y j p - a j p * X p)) * (vt j).val p) := by
      unfold volume
      rw [Finset.sum_comm, ← Finset.sum_add_distrib]
      refine Finset.sum_congr rfl fun p _ => ?_
      simp only [neg_neg, sub_eq_add_neg, mul_add, Finset.mul_sum]
    rw [e3]
    refine (stateSize_mul me hw (fun p => f1 p + -∑ j, (b j p * Y j p - a j p * X p)) v.val
      (fun j p => g1 j p + - -(b j p * Y j p - a j p * X p)) fun j => (vt j).val).trans
      (mul_le_mul_of_nonneg_right ?_ (stateSize_nonneg _ _ _))
    have s1 := stateSize_add me hw f1 (fun p => -∑ j, (b j p * Y j p - a j p * X p)) g1 fun j p => - -(b j p * Y j p - a j p * X p)
    have s2 : stateSize me (fun p => -∑ j, (b j p * Y j p - a j p * X p)) (fun j p => - -(b j p * Y j p - a j p * X p))
        = stateSize me (fun p => ∑ j, (b j p * Y j p - a j p * X p)) (fun j p => -(b j p * Y j p - a j p * X p)) := by
      unfold stateSize
      simp only [neg_sq]
    have s3 := exchange_size me hw hΛ a b Y X
      (fun j p => by
        obtain ⟨z0, z1⟩ := hz i j p
        have hA := (hr i j p).1
        exact ⟨mul_nonneg hA (by linarith), (mul_le_mul_of_nonneg_left (by linarith) hA).trans (htrap i j p)⟩)
      (fun j p => by
        have nn : ∀ j, 0 ≤ As i j p * M i + Bs i j p := fun j => by
          have := mul_nonneg (hr i j p).1 ((hc' i p).1.trans (hc' i p).2)
          linarith [(hr i j p).2]
        refine ⟨?_, ?_⟩
        · have := mul_nonneg (hr i j p).1 (hc' i p).1
          simp only [hb]
          linarith [(hr i j p).2]
        · refine le_trans ?_ ((Finset.single_le_sum (fun j _ => nn j) (Finset.mem_univ j)).trans (hleave i p))
          have := mul_le_mul_of_nonneg_left (hc' i p).2 (hr i j p).1
          simp only [hb]
          linarith)
    have s4 : stateSize me f1 g1 ≤ κ + Mt * Δ / 2 := by
      have q1 : f1 = fun p => (h i)⁻¹ * (((c' (i + 1) p - (u (i + 1)).val p) - (c' i p - (u i).val p))
          + ((u (i + 1)).val p - (u i).val p - h i * u' (i + 1) p)) := by
        funext p
        simp only [hf1]
        field_simp
        ring
      have q2 : g1 = fun j p => (h i)⁻¹ * (((t' (i + 1) j p - z (i + 1) j p) - (t' i j p - z i j p))
          + (z (i + 1) j p - z i j p - h i * z' (i + 1) j p)) := by
        funext j p
        simp only [hg1]
        field_simp
        ring
      rw [q1, q2, stateSize_smul me _ (inv_nonneg.2 hh.le)
        (fun p => ((c' (i + 1) p - (u (i + 1)).val p) - (c' i p - (u i).val p)) + ((u (i + 1)).val p - (u i).val p - h i * u' (i + 1) p))
        fun j p => ((t' (i + 1) j p - z (i + 1) j p) - (t' i j p - z i j p)) + (z (i + 1) j p - z i j p - h i * z' (i + 1) j p)]
      have q3 := stateSize_add me hw (fun p => (c' (i + 1) p - (u (i + 1)).val p) - (c' i p - (u i).val p))
        (fun p => (u (i + 1)).val p - (u i).val p - h i * u' (i + 1) p)
        (fun j p => (t' (i + 1) j p - z (i + 1) j p) - (t' i j p - z i j p)) fun j p => z (i + 1) j p - z i j p - h i * z' (i + 1) j p
      have q4 := mul_le_mul_of_nonneg_left (q3.trans (add_le_add (hκ i) (hdiff i))) (inv_nonneg.2 hh.le)
      have q5 : (h i)⁻¹ * (κ * h i + Mt * h i ^ 2 / 2) = κ + Mt * h i / 2 := by field_simp
      have q6 := mul_le_mul_of_nonneg_left (hΔ i) hMt
      linarith
    have s5 := mul_le_mul_of_nonneg_left (hδ (i + 1)) (by positivity : 0 ≤ 2 * ((m : ℝ) + 1) * Λ)
    have s6 : stateSize me X Y = stateSize me (fun p => c' (i + 1) p - (u (i + 1)).val p) fun j p => t' (i + 1) j p - z (i + 1) j p := rfl
    rw [s2] at s1
    rw [s6] at s3
    linarith
  have main := C127_run H H' hs (fun i => (hρ i).1) (fun _ => hε0) hu hsmall hV hW hmono hc' ht hr hΛ htrap hleave hstep N
  simp only [ne_eq, OfNat.ofNat_ne_zero, not_false_eq_true, zero_pow, mul_zero, Finset.sum_const_zero, zero_div, add_zero] at main
  rw [stateSize_gap, stateSize_gap] at main
  have b1 : ∑ i ∈ Finset.range N, h i * (κ + Mt * Δ / 2 + 2 * (m + 1) * Λ * δ + ρ i)
      ≤ (∑ i ∈ Finset.range N, h i) * (κ + Mt * Δ / 2 + 2 * (m + 1) * Λ * δ + ρ₀) := by
    rw [Finset.sum_mul]
    exact Finset.sum_le_sum fun i _ => mul_le_mul_of_nonneg_left (by linarith [(hρ i).2]) (hpos i).le
  have b2 := main.trans (mul_le_mul_of_nonneg_left (add_le_add b1 le_rfl) (Real.exp_nonneg _))
  have b3 := stateSize_add me hw (fun p => c N p - c' N p) (fun p => c' N p - (u N).val p) (fun j p => t N j p - t' N j p)
    fun j p => t' N j p - z N j p
  simp only [sub_add_sub_cancel] at b3
  linarith [hδ N]

end

/-! ### A case in two dimensions -/

/-- A trap with unit density and rates. -/
noncomputable def unitTrap (t tn : ℝ) : Trap (Fin 4) Empty 2 where
  k_0 := .num 1
  E_k := .num 0
  p_0 := .num 1
  E_p := .num 0
  density := [fun _ => 1]
  materials := [patchMat]
  sol := Fld.const t
  prev := Fld.const tn

/-- Uniform concentrations, a step of length 1. -/
noncomputable def unitProblem (c cn t tn : ℝ) : Problem (Fin 4) Empty 2 where
  mesh := patchMesh
  mats := [patchMat]
  mv := ⟨false, Fld.const c, Fld.const cn, Fld.const 1⟩
  T := ⟨Fld.const 500, Fld.const 500⟩
  dt := some 1
  soret := false
  sources := []
  traps := [unitTrap t tn]

theorem unit_step (c cn t tn : ℝ) : CoupledStep (m := 1) (unitProblem c cn t tn) [] (fun _ => patchMat) (fun _ => unitTrap t tn)
    (fun _ _ => 1) (fun _ _ => 1) (fun _ _ => 1) 1 where
  bare :=
    { cover := ⟨fun p => by simp [unitProblem, Problem.bare], fun p => by simp [unitProblem, Problem.bare, patchMesh, patchMat],
        by simp [unitProblem, Problem.bare, patchMat]⟩
      cartesian := rfl
      theta := rfl
      soret := rfl
      traps := rfl
      weights := fun p => by simp [unitProblem, Problem.bare, patchMesh]
      weightsS := fun q => q.elim
      D_nonneg := fun x hx => by
        simp only [unitProblem, Problem.bare, List.mem_singleton] at hx
        subst hx
        simp [patchMat]
      decay := fun s hs => by simp [unitProblem, Problem.bare] at hs
      fluxes := fun b hb => by simp at hb }
  dt := rfl
  pos := one_pos
  traps := by simp [unitProblem]
  apart j := by simp [unitTrap, patchMat]
  decay j s hs := by simp [unitTrap] at hs
  rates j p := Or.inl ⟨0, patchMat, 1, 0, 1, 0, fun _ => 1, rfl, by simp [unitProblem, patchMesh, patchMat],
    Or.inr ⟨rfl, rfl, rfl, rfl, rfl⟩, by simp [arr], by simp [arr], rfl⟩

/-- Solutions of the step, for all test functions. -/
theorem unit_solved (c cn t tn : ℝ) (h1 : t - tn = c * (1 - t) - t) (h2 : c + t = cn + tn) :
    CoupledSolved (m := 1) (unitProblem c cn t tn) [] Set.univ fun _ => Set.univ := by
  intro v _ vt _
  have hok : ∃ F, (unitProblem c cn t tn).form [] v (List.ofFn vt) = .ok F := by
    rw [List.ofFn_succ, List.ofFn_zero]
    exact ⟨_, rfl⟩
  obtain ⟨F, hF⟩ := hok
  refine ⟨F, hF, ?_⟩
  rw [(unit_step c cn t tn).residual v vt F hF]
  have e1 : ∀ p : Fin 4, netRate (m := 1) (unitProblem c cn t tn) (fun _ => unitTrap t tn) (fun _ _ => 1) (fun _ _ => 1)
      (fun _ _ => 1) 0 p = t - tn := by
    intro p
    simp only [netRate, trapping, unitProblem, unitTrap, Fld.const]
    linarith
  have e2 : (c - cn) + (t - tn) = 0 := by linarith
  simp only [Fin.sum_univ_one, e1, defect, trapGain]
  simp [unitProblem, unitTrap, Problem.bare, Fld.const, volume, e2, dot]

/-- **C126 (d).** Without the restriction to physical values it is not: from a state with mobile concentration 1/4 and trapped
concentration 3/4 (density 1) the residual of the step vanishes for two different results. -/
theorem C126_second : ∃ (P P' : Problem (Fin 4) Empty 2) (tr tr' : Fin 1 → Trap (Fin 4) Empty 2) (A B n : Fin 1 → Fin 4 → ℝ),
    CoupledStep P [] (fun _ => patchMat) tr A B n 1 ∧ CoupledStep P' [] (fun _ => patchMat) tr' A B n 1 ∧ SameCoupled P P' tr tr' ∧
    CoupledSolved (m := 1) P [] Set.univ (fun _ => Set.univ) ∧ CoupledSolved (m := 1) P' [] Set.univ (fun _ => Set.univ) ∧
    (∀ p, P.mv.prev.val p = 1 / 4 ∧ P'.mv.prev.val p = 1 / 4 ∧ (tr 0).prev.val p = 3 / 4 ∧ (tr' 0).prev.val p = 3 / 4) ∧
    (∀ p, P.mv.sol.val p = 1 / 2 ∧ (tr 0).sol.val p = 1 / 2) ∧ ∀ p, P'.mv.sol.val p = -5 / 2 ∧ (tr' 0).sol.val p = 7 / 2 :=
  ⟨unitProblem (1 / 2) (1 / 4) (1 / 2) (3 / 4), unitProblem (-5 / 2) (1 / 4) (7 / 2) (3 / 4), fun _ => unitTrap (1 / 2) (3 / 4),
    fun _ => unitTrap (7 / 2) (3 / 4), _, _, _, unit_step _ _ _ _, unit_step _ _ _ _, ⟨rfl, fun _ => rfl⟩,
    unit_solved _ _ _ _ (by norm_num) (by norm_num), unit_solved _ _ _ _ (by norm_num) (by norm_num),
    fun _ => ⟨rfl, rfl, rfl, rfl⟩, fun _ => ⟨rfl, rfl⟩, fun _ => ⟨rfl, rfl⟩⟩

/-- Non-vacuity of `C126_step`: that physical solution and the equilibrium. -/
example : gap (m := 1) patchMesh (fun _ => 1 / 2) (fun _ => 1) (fun _ _ => 1 / 2) (fun _ _ => 1 / 2)
    ≤ gap (m := 1) patchMesh (fun _ => 1 / 4) (fun _ => 1) (fun _ _ => 3 / 4) (fun _ _ => 1 / 2) / (1 - 1 / 2) ^ 2 :=
  C126_step (unit_step (1 / 2) (1 / 4) (1 / 2) (3 / 4)) (unit_step 1 1 (1 / 2) (1 / 2)) ⟨rfl, fun _ => rfl⟩
    (unit_solved _ _ _ _ (by norm_num) (by norm_num)) (unit_solved _ _ _ _ (by norm_num) (by norm_num)) (Set.mem_univ _)
    (fun _ => Set.mem_univ _) (fun _ _ hf => by simp at hf) (by norm_num)
    (fun j p => by simp only [unitTrap, Fld.const]; norm_num) (fun j p => by simp only [unitProblem, Fld.const]; norm_num)
    (fun p => by simp only [unitProblem, Fld.const, Fin.sum_univ_one]; norm_num)

theorem unit_run (c t : ℝ) (h : c * (1 - t) = t) : CoupledRun (m := 1) patchMesh Set.univ (fun _ => Set.univ)
    (fun _ => unitProblem c c t t) (fun _ => []) (fun _ _ => patchMat) (fun _ _ => unitTrap t t) (fun _ _ _ => 1) (fun _ _ _ => 1)
    (fun _ _ _ => 1) (fun _ => 1) (fun _ _ => c) (fun _ _ _ => t) where
  step _ := unit_step _ _ _ _
  mesh _ := rfl
  solved _ := unit_solved _ _ _ _ (by linarith) rfl
  before _ := rfl
  now _ := rfl
  trapBefore _ _ := rfl
  trapNow _ _ := rfl

/-- Non-vacuity of `C126_run` and `C126_unique`: two equilibria. -/
example (N : ℕ) : gap (m := 1) patchMesh (fun _ => 1) (fun _ => 1 / 3) (fun _ _ => 1 / 2) (fun _ _ => 1 / 4)
    ≤ gap (m := 1) patchMesh (fun _ => 1) (fun _ => 1 / 3) (fun _ _ => 1 / 2) (fun _ _ => 1 / 4)
      * ∏ _i ∈ Finset.range N, (1 / (1 - 1 / 2)) ^ 2 :=
  C126_run (M := fun _ => 1) (κ := fun _ => 1 / 2) (unit_run 1 (1 / 2) (by norm_num)) (unit_run (1 / 3) (1 / 4) (by norm_num))
    (fun _ => ⟨rfl, fun _ => rfl⟩) (fun _ => Set.mem_univ _) (fun _ _ => Set.mem_univ _) (fun _ _ _ hf => by simp at hf)
    ⟨fun _ _ => by norm_num, fun _ _ _ => by norm_num⟩ ⟨fun _ _ => by norm_num, fun _ _ _ => by norm_num⟩
    ⟨fun _ => by norm_num, fun _ _ _ => by norm_num, fun _ _ _ => by norm_num, fun _ _ => by norm_num [Fin.sum_univ_one]⟩ N

/-- The residual of the step for any uniform concentrations. -/
theorem unit_residual (c cn t tn : ℝ) (v : Fld (Fin 4) Empty 2) (vt : Fin 1 → Fld (Fin 4) Empty 2) :
    ∃ F, (unitProblem c cn t tn).form [] v (List.ofFn vt) = .ok F ∧ patchMesh.assemble F
      = (volume patchMesh fun p => (c - cn + (c * (1 - t) - t)) * v.val p)
        + volume patchMesh fun p => (t - tn - (c * (1 - t) - t)) * (vt 0).val p := by
  have hok : ∃ F, (unitProblem c cn t tn).form [] v (List.ofFn vt) = .ok F := by
    rw [List.ofFn_succ, List.ofFn_zero]
    exact ⟨_, rfl⟩
  obtain ⟨F, hF⟩ := hok
  refine ⟨F, hF, ?_⟩
  have e := (unit_step c cn t tn).residual v vt F hF
  have e1 : ∀ p : Fin 4, netRate (m := 1) (unitProblem c cn t tn) (fun _ => unitTrap t tn) (fun _ _ => 1) (fun _ _ => 1)
      (fun _ _ => 1) 0 p = c * (1 - t) - t := by
    intro p
    simp only [netRate, trapping, unitProblem, unitTrap, Fld.const]
    ring
  have e2 : (unitProblem c cn t tn).mesh = patchMesh := rfl
  rw [e2] at e
  rw [e]
  simp only [Fin.sum_univ_one, e1, defect, trapGain]
  simp [unitProblem, unitTrap, Problem.bare, Fld.const, dot, volume]

theorem unit_small (c cn t tn ε η : ℝ) (hε : 2 * (|c - cn + (c * (1 - t) - t)| + |t - tn - (c * (1 - t) - t)|) ≤ ε) (hη : 0 ≤ η) :
    CoupledSmall (m := 1) (unitProblem c cn t tn) [] (fun _ => patchMat) Set.univ (fun _ => Set.univ) ε η := by
  intro v _ vt _
  obtain ⟨F, hF, e⟩ := unit_residual c cn t tn v vt
  refine ⟨F, hF, ?_⟩
  have hw : ∀ p, 0 ≤ patchMesh.w p := fun p => zero_le_one
  have key : ∀ (a : ℝ) (f : Fin 4 → ℝ) (S : ℝ), l2 patchMesh f ≤ S → |volume patchMesh fun p => a * f p| ≤ 2 * |a| * S := by
    intro a f S hS
    have h1 := volume_mul_le patchMesh hw (fun _ => a) f
    have h2 : l2 patchMesh (fun _ => a) = 2 * |a| := by
      have : volume patchMesh (fun _ => a ^ 2) = (2 * |a|) ^ 2 := by
        simp only [volume, patchMesh, one_mul, Finset.sum_const, Finset.card_univ, Fintype.card_fin, nsmul_eq_mul, mul_pow, sq_abs]
        norm_num
      unfold l2
      rw [this, Real.sqrt_sq (by positivity)]
    rw [h2] at h1
    exact h1.trans (mul_le_mul_of_nonneg_left hS (by positivity))
  have v1 : 0 ≤ volume patchMesh (fun p => v.val p ^ 2) := volume_nonneg _ _ fun p => mul_nonneg (hw p) (sq_nonneg _)
  have v2 : 0 ≤ volume patchMesh (fun p => (vt 0).val p ^ 2) := volume_nonneg _ _ fun p => mul_nonneg (hw p) (sq_nonneg _)
  have hS : testSize patchMesh v vt = √(volume patchMesh (fun p => v.val p ^ 2) + volume patchMesh fun p => (vt 0).val p ^ 2) := by
    simp only [testSize, Fin.sum_univ_one]
  have s1 : l2 patchMesh v.val ≤ testSize patchMesh v vt := by
    rw [hS]
    exact Real.sqrt_le_sqrt (by linarith)
  have s2 : l2 patchMesh (vt 0).val ≤ testSize patchMesh v vt := by
    rw [hS]
    exact Real.sqrt_le_sqrt (by linarith)
  have s0 : 0 ≤ testSize patchMesh v vt := Real.sqrt_nonneg _
  show |patchMesh.assemble F| ≤ ε * testSize patchMesh v vt + _
  rw [e]
  have k1 := key (c - cn + (c * (1 - t) - t)) v.val _ s1
  have k2 := key (t - tn - (c * (1 - t) - t)) (vt 0).val _ s2
  have k3 := mul_le_mul_of_nonneg_right hε s0
  have k4 := mul_nonneg hη (Real.sqrt_nonneg (dirichletEnergy (unitProblem c cn t tn) (fun _ => patchMat) v))
  refine (abs_add_le _ _).trans ?_
  linarith

/-- Fields which relax to an equilibrium, but not as the equations would have it. -/
noncomputable def relax (i : ℕ) : ℝ := 1 / 2 + (1 / 2) ^ i / 4

/-- Non-vacuity of `C127_run`: an equilibrium, which is a solution, and these fields. -/
example (N : ℕ) : √(gap (m := 1) patchMesh (fun _ => 1 / 3) (fun _ => 1) (fun _ _ => 1 / 4) (fun _ _ => relax N))
    ≤ Real.exp (2 / 2 * ∑ _i ∈ Finset.range N, 1) * (∑ i ∈ Finset.range N, 1 * (2 * (1 / 2) ^ i + 0)
      + √(gap (m := 1) patchMesh (fun _ => 1 / 3) (fun _ => 1) (fun _ _ => 1 / 4) (fun _ _ => relax 0)
        + (∑ _i ∈ Finset.range N, 1 * 0 ^ 2) / 2)) :=
  C127_run (V := Set.univ) (W := fun _ => Set.univ) (M := fun _ => 1) (h := fun _ => 1) (ρ := fun _ => 0) (ε := fun i => 2 * (1 / 2) ^ i)
    (η := fun _ => 0) (c := fun _ _ => 1 / 3) (t := fun _ _ _ => 1 / 4) (c' := fun _ _ => 1) (t' := fun i _ _ => relax i)
    (Ps' := fun i => unitProblem 1 1 (relax (i + 1)) (relax i)) (trs' := fun i _ => unitTrap (relax (i + 1)) (relax i))
    (unit_run (1 / 3) (1 / 4) (by norm_num)).toCoupledFields
    ⟨fun _ => unit_step _ _ _ _, fun _ => rfl, fun _ => rfl, fun _ => rfl, fun _ _ => rfl, fun _ _ => rfl⟩
    (fun _ => ⟨rfl, fun _ => rfl⟩) (fun _ => le_rfl) (fun i => by positivity)
    (fun i => unit_small _ _ _ _ _ _ (by norm_num) le_rfl)
    (fun i => unit_small _ _ _ _ _ _ (by
      have hq : (0 : ℝ) < (1 / 2) ^ i := by positivity
      have e1 : (1 : ℝ) - 1 + (1 * (1 - relax (i + 1)) - relax (i + 1)) = -((1 / 2) ^ i / 4) := by
        unfold relax
        rw [pow_succ]
        ring
      have e2 : relax (i + 1) - relax i - (1 * (1 - relax (i + 1)) - relax (i + 1)) = (1 / 2) ^ i / 8 := by
        unfold relax
        rw [pow_succ]
        ring
      rw [e1, e2, abs_neg, abs_of_pos (by positivity), abs_of_pos (by positivity)]
      linarith) le_rfl)
    (fun _ => Set.mem_univ _) (fun _ _ => Set.mem_univ _) (fun _ _ _ hf => by simp at hf)
    (fun _ _ => by norm_num) (fun _ _ _ => by norm_num) (fun _ _ _ => by norm_num) (Λ := 2) (by norm_num) (fun _ _ _ => by norm_num)
    (fun _ _ => by norm_num [Fin.sum_univ_one]) (fun _ => by norm_num) N

/-- Non-vacuity of `C127_accuracy`: a simulation which stays at one equilibrium, and the exact solution which stays at another one. -/
example (N : ℕ) : stateSize (m := 1) patchMesh (fun _ => 1 / 3 - 1) (fun _ _ => 1 / 4 - 1 / 2)
    ≤ 0 + Real.exp (2 / 2 * ∑ _i ∈ Finset.range N, 1) * (stateSize (m := 1) patchMesh (fun _ => 1 / 3 - 1) (fun _ _ => 1 / 4 - 1 / 2)
      + (∑ _i ∈ Finset.range N, 1) * (0 + 0 * 1 / 2 + 2 * ((1 : ℕ) + 1) * 2 * 0 + 0)) :=
  C127_accuracy (V := Set.univ) (W := fun _ => Set.univ) (M := fun _ => 1) (h := fun _ => 1) (ρ := fun _ => 0)
    (c := fun _ _ => 1 / 3) (t := fun _ _ _ => 1 / 4) (c' := fun _ _ => 1) (t' := fun _ _ _ => 1 / 2)
    (unit_run (1 / 3) (1 / 4) (by norm_num)).toCoupledFields (unit_run 1 (1 / 2) (by norm_num)).toCoupledFields
    (fun _ => ⟨rfl, fun _ => rfl⟩) (fun _ => ⟨le_rfl, le_rfl⟩) (fun i => unit_small _ _ _ _ _ _ (by norm_num) le_rfl)
    (fun i v vt => (unit_residual _ _ _ _ v vt).imp fun _ h => h.1)
    (fun _ => Set.mem_univ _) (fun _ _ => Set.mem_univ _) (fun _ _ _ hf => by simp at hf)
    (fun _ _ => by norm_num) (fun _ _ _ => by norm_num) (fun _ _ _ => by norm_num) (Λ := 2) (by norm_num) (fun _ _ _ => by norm_num)
    (fun _ _ => by norm_num [Fin.sum_univ_one]) (fun _ => by norm_num) (fun i j s hs => by simp [unitTrap] at hs)
    (fun _ => Fld.const 1) (fun _ _ => 0) (fun _ _ _ => 1 / 2) (fun _ _ _ => 0) (fun _ _ _ => by norm_num)
    (fun i v _ => by
      simp only [defect, trapping]
      simp [unitProblem, Problem.bare, Fld.const, dot, volume]
      norm_num)
    (fun i j vt _ => by
      simp only [trapGain, trapping]
      simp [unitTrap, Fld.const, volume]
      norm_num)
    (fun _ _ _ => rfl) le_rfl le_rfl (fun _ => le_rfl)
    (fun i => by simp [stateSize, Fld.const]) (fun i => by simp [stateSize, Fld.const]) (fun i => by simp [stateSize, Fld.const]) N

end Festim.Props
