import Verif.Props.Outgassing
import Verif.Props.TrapAccuracy

/-!
# C124: outgassing with traps
-/

open scoped BigOperators Topology

set_option linter.unusedSectionVars false
set_option linter.unusedSimpArgs false

namespace Festim.Weak

open Festim.Props

section
variable {Ω : Type} [Fintype Ω] {m : ℕ}

/-- A step of an outgassing with traps: no sources, no other boundary condition than recombination.  `A`, `B`, `n`: rates of
trapping and detrapping and density of each trap at the points. -/
structure DegasData (L : Line Ω) (P : Problem Ω Bool 1) (mat : Ω → Mat) (matS : Bool → Mat) (tr : Fin m → Trap Ω Bool 1)
    (A B n : Fin m → Ω → ℝ) (rs : List Recomb) (k : ℝ) (un u : ℕ → ℝ) (ctn ct : Fin m → Ω → ℝ) : Prop where
  line : LinearLine L P.bare [] mat matS fun _ => False
  theta : P.mv.theta = false
  sources : P.sources = []
  dt : P.dt = some k
  before : P.mv.prev = L.p1 un
  now : P.mv.sol = L.p1 u
  traps : P.traps = List.ofFn tr
  apart : ∀ j, ((tr j).materials.flatMap (·.ids)).Nodup
  noSource : ∀ j, (tr j).sources = []
  rates : ∀ j p, TrapRate P.mesh P.T (tr j) p (A j p) (B j p) (n j p)
  trapBefore : ∀ j, (tr j).prev.val = ctn j
  trapNow : ∀ j, (tr j).sol.val = ct j
  recomb : Recombines rs

/-- A converged step: the residual vanishes for all test functions, those of the traps being piecewise affine, continuous or not. -/
structure Degas (L : Line Ω) (P : Problem Ω Bool 1) (mat : Ω → Mat) (matS : Bool → Mat) (tr : Fin m → Trap Ω Bool 1)
    (A B n : Fin m → Ω → ℝ) (rs : List Recomb) (k : ℝ) (un u : ℕ → ℝ) (ctn ct : Fin m → Ω → ℝ) : Prop
    extends DegasData L P mat matS tr A B n rs k un u ctn ct where
  solves : ∃ V, (V = L.cgSpace ∨ V = L.dgSpace) ∧ CoupledSolves L P (rs.map Recomb.bc) (fun _ => False) (fun _ => 0) V m

variable {L : Line Ω} {P : Problem Ω Bool 1} {mat : Ω → Mat} {matS : Bool → Mat} {tr : Fin m → Trap Ω Bool 1}
  {A B n : Fin m → Ω → ℝ} {rs : List Recomb} {k : ℝ} {un u : ℕ → ℝ} {ctn ct : Fin m → Ω → ℝ}

/-- Net rate of trapping. -/
noncomputable def netTrap (L : Line Ω) (A B n : Fin m → Ω → ℝ) (u : ℕ → ℝ) (ct : Fin m → Ω → ℝ) (j : Fin m) (p : Ω) : ℝ :=
  trapping (A j p) (B j p) (n j p) ((L.p1 u).val p) (ct j p)

theorem DegasData.mass (h : DegasData L P mat matS tr A B n rs k un u ctn ct) (p : Ω) : P.mesh.w p = L.w p := by
  obtain ⟨r, hr⟩ := h.line.mesh
  have : P.mesh = L.mesh r := hr
  rw [this]
  rfl

theorem DegasData.pos (h : DegasData L P mat matS tr A B n rs k un u ctn ct) : 0 < k := h.line.step k h.dt

/-- The residual of the step. -/
theorem DegasData.residual (h : DegasData L P mat matS tr A B n rs k un u ctn ct) (v : ℕ → ℝ) (vt : Fin m → Fld Ω Bool 1)
    (F : Form Ω Bool) (hF : P.form (rs.map Recomb.bc) (L.p1 v) (List.ofFn vt) = .ok F) :
    k * P.mesh.assemble F = ∑ p, L.w p * (((L.p1 u).val p - (L.p1 un).val p) * (L.p1 v).val p)
      + k * ∑ p, L.w p * (diffAt P mat p * ((L.p1 u).grad p 0 * (L.p1 v).grad p 0))
      + k * ∑ q, recombined L P.T.T.tr rs q ((L.p1 u).tr q) * (L.p1 v).tr q
      + k * ∑ p, L.w p * ((∑ j, netTrap L A B n u ct j p) * (L.p1 v).val p)
      + ∑ j, ∑ p, L.w p * ((ct j p - ctn j p - k * netTrap L A B n u ct j p) * (vt j).val p) := by
  obtain ⟨F0, M, G, hF0, hM, hG, e⟩ := form_split P _ _ _ F hF
  have hk := h.pos
  obtain ⟨r, hm⟩ := h.line.mesh
  have hP0 : P.bare = (P.bare.withPrev (L.p1 un)).withSol (L.p1 u) := by
    simp only [Problem.bare, Problem.withPrev, Problem.withSol, ← h.before, ← h.now]
  have e0 : k * P.mesh.assemble F0 = ∑ p, L.w p * (((L.p1 u).val p - (L.p1 un).val p) * (L.p1 v).val p)
      + k * ∑ p, L.w p * (diffAt P mat p * ((L.p1 u).grad p 0 * (L.p1 v).grad p 0))
      + k * ∑ q, recombined L P.T.T.tr rs q ((L.p1 u).tr q) * (L.p1 v).tr q := by
    have hl := LinearLine.withPrev h.line (L.p1 un)
    obtain ⟨F₀, h₀⟩ := hl.formOk u v
    have hr := hl.residual u v F₀ h₀
    rw [← hP0] at h₀
    obtain ⟨F', hF', e'⟩ := recomb_form (P := P.bare) (rd := r) hm rfl h.theta rs (L.p1 v) F₀ h₀
    rw [List.append_nil] at hF'
    obtain rfl : F0 = F' := by
      rw [hF0] at hF'
      injection hF'
    have e'' : P.mesh.assemble F0 = P.mesh.assemble F₀ + ∑ q, recombined L P.T.T.tr rs q ((L.p1 u).tr q) * (L.p1 v).tr q := by
      have : P.bare.mv.sol = L.p1 u := h.now
      rw [this] at e'
      exact e'
    have hr' : P.mesh.assemble F₀ = _ := hr
    rw [e'', hr']
    have hdt : (P.bare.withPrev (L.p1 un)).dt = some k := h.dt
    have hth : (P.bare.withPrev (L.p1 un)).mv.theta = false := h.theta
    have hsrc : (P.bare.withPrev (L.p1 un)).sources = [] := h.sources
    have e1 : ∀ p, reactionOf (P.bare.withPrev (L.p1 un)) mat p = 1 / k := fun p => by
      simp [reactionOf, hdt, decayAt, hsrc, unitConc, hth]
    have e2 : ∀ p, loadOf (P.bare.withPrev (L.p1 un)) mat p = (L.p1 un).val p / k := fun p => by
      simp [loadOf, hdt, givenAt, hsrc, Problem.cPrev, physConc, hth]
      rfl
    have e3 : ∀ p, conductivity (P.bare.withPrev (L.p1 un)) mat p = diffAt P mat p := fun p => by
      simp only [conductivity, diffAt, hth]
      simp [Problem.withPrev, Problem.bare]
    have e4 : ∀ q, exchangeOf (P.bare.withPrev (L.p1 un)) [] matS q = 0 := fun q => by simp [exchangeOf, exchangeAt]
    have e5 : ∀ q, fluxAt (P.bare.withPrev (L.p1 un)) [] q = 0 := fun q => by simp [fluxAt]
    simp only [bil, lin, e1, e2, e3, e4, e5, zero_mul, Finset.sum_const_zero, add_zero]
    have f1 : ∑ p, L.w p * (((L.p1 u).val p - (L.p1 un).val p) * (L.p1 v).val p)
        = k * (∑ p, L.w p * (1 / k * ((L.p1 u).val p * (L.p1 v).val p)) - ∑ p, L.w p * ((L.p1 un).val p / k * (L.p1 v).val p)) := by
      rw [← Finset.sum_sub_distrib, Finset.mul_sum]
      refine Finset.sum_congr rfl fun p _ => ?_
      field_simp
    simp only [mul_add, Finset.sum_add_distrib]
    rw [f1]
    ring
  rw [h.traps, zip_ofFn', h.dt] at hG
  obtain ⟨hok, eG⟩ := trapsForm_sum P.mesh P.mats P.mv P.T (some k) _ G hG
  have hj : ∀ j, ∃ F', trapForm P.mats P.mv P.T (some k) (tr j) (vt j) = .ok F' := fun j =>
    hok (tr j, vt j) (List.mem_ofFn.2 ⟨j, rfl⟩)
  have hconc : ∀ (j : Fin m) (p : Ω), ∀ a ∈ (tr j).materials, P.mesh.vm p ∈ a.ids →
      physConc P.mv.theta a (P.T.T.val p) (P.mv.sol.val p) = (L.p1 u).val p := by
    intro j p a _ _
    simp [physConc, h.theta, h.now]
  have e1 : k * P.mesh.assemble G
      = ∑ j, ∑ p, L.w p * ((ct j p - ctn j p - k * netTrap L A B n u ct j p) * (vt j).val p) := by
    rw [eG, List.map_ofFn, List.sum_ofFn, Finset.mul_sum]
    refine Finset.sum_congr rfl fun j _ => ?_
    obtain ⟨F', hF'⟩ := hj j
    simp only [Function.comp, hF']
    rw [trapForm_value P.mesh P.mats P.mv P.T _ (tr j) (vt j) F' hF' (h.apart j) (h.noSource j) _ _ _ _ (h.rates j) (hconc j),
      Finset.mul_sum]
    refine Finset.sum_congr rfl fun p _ => ?_
    rw [h.mass p, h.trapNow, h.trapBefore]
    unfold netTrap
    field_simp
  have e2 : P.mesh.assemble M = -∑ p, L.w p * ((∑ j, netTrap L A B n u ct j p) * (L.p1 v).val p) := by
    have hloop : ∀ j, ∃ G, trapLoop P.mv P.T (tr j) (L.p1 v) 0 (tr j).materials = .ok G := by
      intro j
      obtain ⟨F', hF'⟩ := hj j
      obtain ⟨K', hK', -⟩ := trapForm_ok P.mesh P.mats P.mv P.T _ (tr j) (vt j) F' hF'
      exact trapLoop_any _ _ _ _ _ _ _ _ hK'
    have key : ∀ (l : List (Fin m)) (M : Form Ω Bool), mobileTraps P.mv P.T (L.p1 v) (l.map tr) = .ok M →
        P.mesh.assemble M = -∑ p, L.w p * ((l.map fun j => netTrap L A B n u ct j p).sum * (L.p1 v).val p) := by
      intro l
      induction l with
      | nil =>
        intro M hM
        cases hM
        simp [assemble_nil]
      | cons j l ih =>
        intro M hM
        obtain ⟨G, hG⟩ := hloop j
        simp only [List.map_cons, mobileTraps, bind, Except.bind, trapLoop_mobile _ _ _ _ _ _ _ hG] at hM
        cases hl : mobileTraps P.mv P.T (L.p1 v) (l.map tr) with
        | error e => rw [hl] at hM; cases hM
        | ok M' =>
          rw [hl] at hM
          simp only [Except.ok.injEq] at hM
          subst hM
          rw [assemble_append, ih M' hl, trapLoop_value P.mesh P.mv P.T (tr j) _ G hG (h.apart j) _ _ _ _ (h.rates j) (hconc j),
            ← neg_add, ← Finset.sum_add_distrib]
          congr 1
          refine Finset.sum_congr rfl fun p _ => ?_
          rw [List.map_cons, List.sum_cons, h.mass p, h.trapNow]
          unfold netTrap
          ring
    have hM' : mobileTraps P.mv P.T (L.p1 v) ((List.finRange m).map tr) = .ok M := by
      rw [← List.ofFn_eq_map, ← h.traps]
      exact hM
    rw [key _ M hM']
    congr 1
  rw [e, mul_add, mul_sub, e0, e1, e2]
  ring

theorem Degas.zero (h : Degas L P mat matS tr A B n rs k un u ctn ct) (v w : ℕ → ℝ) :
    ∑ p, L.w p * (((L.p1 u).val p - (L.p1 un).val p) * (L.p1 v).val p)
      + k * ∑ p, L.w p * (diffAt P mat p * ((L.p1 u).grad p 0 * (L.p1 v).grad p 0))
      + k * ∑ q, recombined L P.T.T.tr rs q ((L.p1 u).tr q) * (L.p1 v).tr q
      + k * ∑ p, L.w p * ((∑ j, netTrap L A B n u ct j p) * (L.p1 v).val p)
      + ∑ j, ∑ p, L.w p * ((ct j p - ctn j p - k * netTrap L A B n u ct j p) * (L.p1 w).val p) = 0 := by
  obtain ⟨V, hV, hs⟩ := h.solves
  have hmem : (L.p1 w).val ∈ V := by
    rcases hV with rfl | rfl
    · exact ⟨w, fun _ => rfl⟩
    · exact ⟨w, fun i => w (i + 1), fun _ => rfl⟩
  obtain ⟨F, hF, hz⟩ := hs.zero v (by simp) (fun _ => L.p1 w) fun _ => hmem
  rw [← h.residual v (fun _ => L.p1 w) F hF, hz, mul_zero]

/-- Mobile and trapped hydrogen together: trapping does not appear. -/
theorem Degas.together (h : Degas L P mat matS tr A B n rs k un u ctn ct) (v : ℕ → ℝ) :
    ∑ p, L.w p * (((L.p1 u).val p + ∑ j, ct j p) * (L.p1 v).val p)
      - ∑ p, L.w p * (((L.p1 un).val p + ∑ j, ctn j p) * (L.p1 v).val p)
      + k * ∑ p, L.w p * (diffAt P mat p * ((L.p1 u).grad p 0 * (L.p1 v).grad p 0))
      + k * ∑ q, recombined L P.T.T.tr rs q ((L.p1 u).tr q) * (L.p1 v).tr q = 0 := by
  have e := h.zero v v
  rw [Finset.sum_comm] at e
  have e1 : ∑ p, L.w p * (((L.p1 u).val p + ∑ j, ct j p) * (L.p1 v).val p)
      - ∑ p, L.w p * (((L.p1 un).val p + ∑ j, ctn j p) * (L.p1 v).val p)
      = ∑ p, L.w p * (((L.p1 u).val p - (L.p1 un).val p) * (L.p1 v).val p)
        + k * ∑ p, L.w p * ((∑ j, netTrap L A B n u ct j p) * (L.p1 v).val p)
        + ∑ p, ∑ j, L.w p * ((ct j p - ctn j p - k * netTrap L A B n u ct j p) * (L.p1 v).val p) := by
    rw [Finset.mul_sum, ← Finset.sum_sub_distrib, ← Finset.sum_add_distrib, ← Finset.sum_add_distrib]
    refine Finset.sum_congr rfl fun p _ => ?_
    rw [← Finset.mul_sum, ← Finset.sum_mul]
    simp only [Finset.sum_sub_distrib, ← Finset.mul_sum]
    ring
  rw [e1]
  linarith

/-- The traps together. -/
theorem Degas.trapped (h : Degas L P mat matS tr A B n rs k un u ctn ct) :
    ∑ j, ∑ p, L.w p * ct j p = ∑ j, ∑ p, L.w p * ctn j p + k * ∑ j, ∑ p, L.w p * netTrap L A B n u ct j p := by
  have e := h.zero (fun _ => 0) fun _ => 1
  have e1 : ∀ p, (L.p1 fun _ => 1).val p = 1 := fun p => by simp [Line.p1]
  have z1 : ∀ p, (L.p1 fun _ => 0).val p = 0 := fun p => by simp [Line.p1]
  have z2 : ∀ p, (L.p1 fun _ => 0).grad p 0 = 0 := fun p => by simp [Line.p1]
  have z3 : ∀ q, (L.p1 fun _ => 0).tr q = 0 := fun q => by cases q <;> simp [Line.p1]
  simp only [e1, z1, z2, z3, mul_zero, Finset.sum_const_zero, zero_add, mul_one, mul_sub, Finset.sum_sub_distrib] at e
  rw [Finset.mul_sum]
  have e2 : ∀ j, k * ∑ p, L.w p * netTrap L A B n u ct j p = ∑ p, L.w p * (k * netTrap L A B n u ct j p) := fun j => by
    rw [Finset.mul_sum]
    exact Finset.sum_congr rfl fun p _ => by ring
  simp only [e2]
  linarith

/-- The test function which makes the sum of the concentrations appear: it vanishes at the end `q`. -/
noncomputable def ramp (L : Line Ω) (K : ℕ → ℝ) (q : Bool) (i : ℕ) : ℝ :=
  if q then ∑ l ∈ Finset.Ico i L.N, L.h l * (l + 1) / K l else ∑ l ∈ Finset.range i, L.h l * (L.N - l) / K l

theorem ramp_nonneg (K : ℕ → ℝ) (hK : ∀ i < L.N, 0 < K i) (q : Bool) (i : ℕ) (hi : i ≤ L.N) : 0 ≤ ramp L K q i := by
  unfold ramp
  split
  · refine Finset.sum_nonneg fun l hl => ?_
    have hl := (Finset.mem_Ico.1 hl).2
    have := L.h_pos l hl
    have := hK l hl
    positivity
  · refine Finset.sum_nonneg fun l hl => ?_
    have hl : l < L.N := (Finset.mem_range.1 hl).trans_le hi
    have h1 := L.h_pos l hl
    have h2 := hK l hl
    have h3 : (0 : ℝ) ≤ L.N - l := sub_nonneg.2 (by exact_mod_cast hl.le)
    positivity

theorem ramp_sum (K : ℕ → ℝ) (hK : ∀ i < L.N, 0 < K i) (q : Bool) (c : ℕ → ℝ) :
    ∑ i ∈ Finset.range L.N, K i * ((c (i + 1) - c i) * (ramp L K q (i + 1) - ramp L K q i)) / L.h i
      = ∑ i ∈ Finset.range (L.N + 1), c i - (L.N + 1) * (L.p1 c).tr q := by
  cases q with
  | true =>
    have e : ∀ i ∈ Finset.range L.N, K i * ((c (i + 1) - c i) * (ramp L K true (i + 1) - ramp L K true i)) / L.h i
        = -((i + 1 : ℝ) * (c (i + 1) - c i)) := by
      intro i hi
      have hi := Finset.mem_range.1 hi
      have h1 := (L.h_pos i hi).ne'
      have h2 := (hK i hi).ne'
      have : ramp L K true i = L.h i * (i + 1) / K i + ramp L K true (i + 1) := by
        simp only [ramp, if_true]
        rw [Finset.sum_eq_sum_Ico_succ_bot hi]
      rw [this]
      field_simp
      ring
    rw [Finset.sum_congr rfl e]
    have key : ∀ N : ℕ, ∑ i ∈ Finset.range N, -((i + 1 : ℝ) * (c (i + 1) - c i))
        = ∑ i ∈ Finset.range (N + 1), c i - (N + 1) * c N := by
      intro N
      induction N with
      | zero => simp
      | succ N ih =>
        rw [Finset.sum_range_succ, ih, Finset.sum_range_succ _ (N + 1)]
        push_cast
        ring
    rw [key]
    simp [Line.p1]
  | false =>
    have e : ∀ i ∈ Finset.range L.N, K i * ((c (i + 1) - c i) * (ramp L K false (i + 1) - ramp L K false i)) / L.h i
        = (L.N - i : ℝ) * (c (i + 1) - c i) := by
      intro i hi
      have hi := Finset.mem_range.1 hi
      have h1 := (L.h_pos i hi).ne'
      have h2 := (hK i hi).ne'
      have : ramp L K false (i + 1) = ramp L K false i + L.h i * (L.N - i) / K i := by
        simp only [ramp, Bool.false_eq_true, if_false]
        rw [Finset.sum_range_succ]
      rw [this]
      field_simp
      ring
    rw [Finset.sum_congr rfl e]
    have key : ∀ N : ℕ, ∀ x : ℝ, ∑ i ∈ Finset.range N, (x - i : ℝ) * (c (i + 1) - c i)
        = ∑ i ∈ Finset.range (N + 1), c i - (x + 1) * c 0 + (x - N) * c N := by
      intro N x
      induction N with
      | zero => simp; ring
      | succ N ih =>
        rw [Finset.sum_range_succ, ih, Finset.sum_range_succ _ (N + 1)]
        push_cast
        ring
    rw [key]
    simp [Line.p1]

/-- Mean over a cell. -/
noncomputable def cellDiff (L : Line Ω) (D : Ω → ℝ) (i : ℕ) : ℝ :=
  (∑ p ∈ Finset.univ.filter (fun p => L.cell p = i), L.w p * D p) / L.h i

theorem sum_cells (f : Ω → ℝ) : ∑ p, f p = ∑ i ∈ Finset.range L.N, ∑ p ∈ Finset.univ.filter (fun p => L.cell p = i), f p := by
  rw [Finset.sum_fiberwise_of_maps_to fun p _ => Finset.mem_range.2 (L.cell_lt p)]

theorem grad_cellDiff (D : Ω → ℝ) (u v : ℕ → ℝ) : ∑ p, L.w p * (D p * ((L.p1 u).grad p 0 * (L.p1 v).grad p 0))
    = ∑ i ∈ Finset.range L.N, cellDiff L D i * ((u (i + 1) - u i) * (v (i + 1) - v i)) / L.h i := by
  rw [sum_cells (L := L)]
  refine Finset.sum_congr rfl fun i hi => ?_
  have hh := (L.h_pos i (Finset.mem_range.1 hi)).ne'
  have e : ∀ p ∈ Finset.univ.filter (fun p => L.cell p = i), L.w p * (D p * ((L.p1 u).grad p 0 * (L.p1 v).grad p 0))
      = L.w p * D p * ((u (i + 1) - u i) / L.h i * ((v (i + 1) - v i) / L.h i)) := by
    intro p hp
    rw [← (Finset.mem_filter.1 hp).2]
    simp only [Line.p1]
    ring
  rw [Finset.sum_congr rfl e, ← Finset.sum_mul]
  unfold cellDiff
  field_simp

theorem cellDiff_pos (hw : ∀ p, 0 ≤ L.w p) {D : Ω → ℝ} (hD : ∀ p, 0 < D p) (i : ℕ) (hi : i < L.N) : 0 < cellDiff L D i := by
  have hh := L.h_pos i hi
  refine div_pos ?_ hh
  have hn : ∀ p ∈ Finset.univ.filter (fun p => L.cell p = i), 0 ≤ L.w p * D p := fun p _ => mul_nonneg (hw p) (hD p).le
  refine lt_of_le_of_ne (Finset.sum_nonneg hn) fun h0 => ?_
  have hz := (Finset.sum_eq_zero_iff_of_nonneg hn).1 h0.symm
  have hs := L.exact i hi
  rw [Finset.sum_eq_zero] at hs
  · exact hh.ne hs
  · intro p hp
    exact (mul_eq_zero.1 (hz p hp)).resolve_right (hD p).ne'

end

end Festim.Weak

namespace Festim.Props

open Festim.Weak Filter

section
variable {Ω : Type} [Fintype Ω] {m : ℕ}

/-- An outgassing with traps in which nothing is negative. -/
structure Degassing (L : Line Ω) (P : ℕ → Problem Ω Bool 1) (mat : ℕ → Ω → Mat) (matS : ℕ → Bool → Mat)
    (tr : ℕ → Fin m → Trap Ω Bool 1) (A B n : ℕ → Fin m → Ω → ℝ) (rs : ℕ → List Recomb) (k : ℕ → ℝ) (U : ℕ → ℕ → ℝ)
    (C : ℕ → Fin m → Ω → ℝ) : Prop where
  quad : L.Exact2
  step : ∀ i, Degas L (P i) (mat i) (matS i) (tr i) (A i) (B i) (n i) (rs i) (k i) (U i) (U (i + 1)) (C i) (C (i + 1))
  mobile : ∀ i, ∀ j ≤ L.N, 0 ≤ U i j
  trapped : ∀ i j p, 0 ≤ C i j p

/-- Hydrogen in the domain, mobile and trapped. -/
noncomputable def inside (L : Line Ω) (u : ℕ → ℝ) (ct : Fin m → Ω → ℝ) : ℝ := content L u + ∑ j, ∑ p, L.w p * ct j p

variable {L : Line Ω} {P : ℕ → Problem Ω Bool 1} {mat : ℕ → Ω → Mat} {matS : ℕ → Bool → Mat} {tr : ℕ → Fin m → Trap Ω Bool 1}
  {A B n : ℕ → Fin m → Ω → ℝ} {rs : ℕ → List Recomb} {k : ℕ → ℝ} {U : ℕ → ℕ → ℝ} {C : ℕ → Fin m → Ω → ℝ}

theorem Degassing.ends (h : Degassing L P mat matS tr A B n rs k U C) (i : ℕ) (q : Bool) : 0 ≤ (L.p1 (U i)).tr q := by
  cases q
  · simpa [Line.p1] using h.mobile i 0 (Nat.zero_le _)
  · simpa [Line.p1] using h.mobile i L.N le_rfl

theorem Degassing.val_le (h : Degassing L P mat matS tr A B n rs k U C) (i : ℕ) (p : Ω) :
    0 ≤ (L.p1 (U i)).val p ∧ (L.p1 (U i)).val p ≤ ∑ j ∈ Finset.range (L.N + 1), U i j := by
  have hc := L.cell_lt p
  have h1 := h.mobile i (L.cell p) hc.le
  have h2 := h.mobile i (L.cell p + 1) hc
  have l0 := h.quad.lam_nonneg p
  have l1 := h.quad.lam_le p
  have hn : ∀ j ∈ Finset.range (L.N + 1), 0 ≤ U i j := fun j hj => h.mobile i j (Nat.lt_succ_iff.1 (Finset.mem_range.1 hj))
  have s1 := Finset.single_le_sum hn (Finset.mem_range.2 (Nat.lt_succ_of_lt hc))
  have s2 := Finset.single_le_sum hn (Finset.mem_range.2 (Nat.succ_lt_succ hc))
  simp only [Line.p1]
  constructor
  · have := mul_nonneg (sub_nonneg.2 l1) h1
    have := mul_nonneg l0 h2
    linarith
  · have := mul_le_mul_of_nonneg_left s1 (sub_nonneg.2 l1)
    have := mul_le_mul_of_nonneg_left s2 l0
    linarith

/-- **C124 (a).** What has recombined is what the domain has lost, mobile and trapped hydrogen together, and the domain never gains
any. -/
theorem C124_balance (h : Degassing L P mat matS tr A B n rs k U C) (i : ℕ) :
    ∑ l ∈ Finset.range i, desorbed L P rs k U l = inside L (U 0) (C 0) - inside L (U i) (C i) ∧
    inside L (U (i + 1)) (C (i + 1)) ≤ inside L (U i) (C i) := by
  have e : ∀ i, desorbed L P rs k U i = inside L (U i) (C i) - inside L (U (i + 1)) (C (i + 1)) := by
    intro i
    have e := (h.step i).together fun _ => 1
    have e1 : ∀ p, (L.p1 fun _ => 1).val p = 1 := fun p => by simp [Line.p1]
    have e2 : ∀ p, (L.p1 fun _ => 1).grad p 0 = 0 := fun p => by simp [Line.p1]
    have e3 : ∀ q, (L.p1 fun _ => 1).tr q = 1 := fun q => by cases q <;> simp [Line.p1]
    simp only [e1, e2, e3, mul_one, mul_zero, Finset.sum_const_zero, add_zero, mul_add, Finset.sum_add_distrib, Finset.mul_sum] at e
    rw [Finset.sum_comm (f := fun p j => L.w p * C (i + 1) j p), Finset.sum_comm (f := fun p j => L.w p * C i j p)] at e
    unfold desorbed inside content
    rw [Finset.mul_sum]
    linarith
  constructor
  · rw [Finset.sum_congr rfl fun l _ => e l, Finset.sum_range_sub' (fun l => inside L (U l) (C l))]
  · have : 0 ≤ desorbed L P rs k U i := mul_nonneg (h.step i).pos.le
      (Finset.sum_nonneg fun q _ => recombined_nonneg (h.step i).recomb q (h.ends (i + 1) q))
    linarith [e i]

theorem inside_nonneg (h : Degassing L P mat matS tr A B n rs k U C) (i : ℕ) : 0 ≤ inside L (U i) (C i) := by
  have hw := h.quad.w_nonneg
  refine add_nonneg (Finset.sum_nonneg fun p _ => mul_nonneg (hw p) (h.val_le i p).1) ?_
  exact Finset.sum_nonneg fun j _ => Finset.sum_nonneg fun p _ => mul_nonneg (hw p) (h.trapped i j p)

theorem rpow_split {c ε o : ℝ} (hc : 0 ≤ c) (hε : 0 < ε) (ho : 1 ≤ o) : c ≤ ε + c ^ o / ε ^ (o - 1) := by
  have hp := Real.rpow_pos_of_pos hε (o - 1)
  rcases le_or_gt c ε with h | h
  · have := div_nonneg (Real.rpow_nonneg hc o) hp.le
    linarith
  · have hc' := hε.trans h
    have h1 : c ^ o = c * c ^ (o - 1) := by
      rw [← Real.rpow_one_add' hc (by linarith)]
      congr 1
      ring
    have h2 : c * ε ^ (o - 1) ≤ c ^ o := by
      rw [h1]
      exact mul_le_mul_of_nonneg_left (Real.rpow_le_rpow hε.le h.le (by linarith)) hc
    have : c ≤ c ^ o / ε ^ (o - 1) := (le_div_iff₀ hp).2 h2
    linarith

/-- The hypotheses on the history: diffusivities are those of some instant times a factor which stays between positive values, rates
of detrapping stay above a positive value where there is something trapped, rates of trapping stay bounded, and at one end `q` one of the
conditions has order `o` and a coefficient above a positive value. -/
structure Ramp (L : Line Ω) (P : ℕ → Problem Ω Bool 1) (mat : ℕ → Ω → Mat) (A B n : ℕ → Fin m → Ω → ℝ) (rs : ℕ → List Recomb)
    (C : ℕ → Fin m → Ω → ℝ) (D : Ω → ℝ) (a : ℕ → ℝ) (a₀ a₁ b G κ o : ℝ) (q : Bool) : Prop where
  D_pos : ∀ p, 0 < D p
  diff : ∀ i p, diffAt (P i) (mat i) p = a i * D p
  a_pos : 0 < a₀
  a_ge : ∀ i, a₀ ≤ a i
  a_le : ∀ i, a i ≤ a₁
  b_pos : 0 < b
  detrap : ∀ i j p, b * C (i + 1) j p ≤ B i j p * C (i + 1) j p
  trap : ∀ i j p, 0 ≤ A i j p ∧ A i j p * n i j p ≤ G
  G_nonneg : 0 ≤ G
  κ_pos : 0 < κ
  order : 1 ≤ o
  recomb : ∀ i, ∃ r ∈ rs i, r.order = o ∧ (if q then L.right else L.left) ∈ r.surfaces ∧
    κ ≤ arr (r.Kr_0 q) (r.E_Kr q) ((P i).T.T.tr q)

/-- The hydrogen present initially weighted by the test function `ramp`. -/
noncomputable def moment (L : Line Ω) (D : Ω → ℝ) (q : Bool) (u : ℕ → ℝ) (ct : Fin m → Ω → ℝ) : ℝ :=
  ∑ p, L.w p * (((L.p1 u).val p + ∑ j, ct j p) * (L.p1 (ramp L (cellDiff L D) q)).val p)

/-- Length of the domain. -/
noncomputable def extent (L : Line Ω) : ℝ := ∑ p, L.w p

/-- **C124 (b).** An explicit bound of what remains after a time `t`, for any `ε > 0`: a constant over `t` plus a constant times
`ε`. -/
theorem C124_bound (h : Degassing L P mat matS tr A B n rs k U C) {D : Ω → ℝ} {a : ℕ → ℝ} {a₀ a₁ b G κ o : ℝ} {q : Bool}
    (hr : Ramp L P mat A B n rs C D a a₀ a₁ b G κ o q) {ε : ℝ} (hε : 0 < ε) (N : ℕ) :
    inside L (U N) (C N) * ∑ i ∈ Finset.range N, k i
      ≤ (∑ j, ∑ p, L.w p * C 0 j p) / b + (1 + m * G / b) * extent L / a₀ * (moment L D q (U 0) (C 0)
        + a₁ * (L.N + 1) * (ε * ∑ i ∈ Finset.range N, k i + inside L (U 0) (C 0) / (κ * ε ^ (o - 1)))) := by
  have hw := h.quad.w_nonneg
  have hk : ∀ i, 0 < k i := fun i => (h.step i).pos
  have ha1 : 0 ≤ a₁ := hr.a_pos.le.trans ((hr.a_ge 0).trans (hr.a_le 0))
  have hext : 0 ≤ extent L := Finset.sum_nonneg fun p _ => hw p
  set S : ℕ → ℝ := fun i => ∑ j ∈ Finset.range (L.N + 1), U (i + 1) j with hS
  set c : ℕ → ℝ := fun i => (L.p1 (U (i + 1))).tr q with hc
  set Θ : ℕ → ℝ := fun i => ∑ j, ∑ p, L.w p * C i j p with hΘ
  have hS0 : ∀ i, 0 ≤ S i := fun i => Finset.sum_nonneg fun j hj => h.mobile _ j (Nat.lt_succ_iff.1 (Finset.mem_range.1 hj))
  have hc0 : ∀ i, 0 ≤ c i := fun i => h.ends (i + 1) q
  have hΘ0 : ∀ i, 0 ≤ Θ i := fun i =>
    Finset.sum_nonneg fun j _ => Finset.sum_nonneg fun p _ => mul_nonneg (hw p) (h.trapped i j p)
  -- the end
  have hp := Real.rpow_pos_of_pos hε (o - 1)
  have end1 : ∀ i, k i * c i ≤ ε * k i + desorbed L P rs k U i / (κ * ε ^ (o - 1)) := by
    intro i
    obtain ⟨r, hm, ho, hs, hκ⟩ := hr.recomb i
    have h1 := recombined_ge (h.step i).recomb q (hc0 i) hm hs hκ
    rw [ho] at h1
    have h2 : recombined L (P i).T.T.tr (rs i) q (c i) ≤ ∑ q, recombined L (P i).T.T.tr (rs i) q ((L.p1 (U (i + 1))).tr q) :=
      Finset.single_le_sum (f := fun q => recombined L (P i).T.T.tr (rs i) q ((L.p1 (U (i + 1))).tr q))
        (fun q _ => recombined_nonneg (h.step i).recomb q (h.ends (i + 1) q)) (Finset.mem_univ q)
    have h3 := rpow_split (hc0 i) hε hr.order
    have h4 : c i ^ o / ε ^ (o - 1)
        ≤ (∑ q, recombined L (P i).T.T.tr (rs i) q ((L.p1 (U (i + 1))).tr q)) / (κ * ε ^ (o - 1)) := by
      rw [div_le_div_iff₀ hp (mul_pos hr.κ_pos hp)]
      have := mul_le_mul_of_nonneg_right (h1.trans h2) hp.le
      linarith
    have h5 := mul_le_mul_of_nonneg_left (h3.trans (add_le_add_right h4 _)) (hk i).le
    unfold desorbed
    rw [mul_div_assoc]
    linarith
  have end2 : ∑ i ∈ Finset.range N, k i * c i
      ≤ ε * ∑ i ∈ Finset.range N, k i + inside L (U 0) (C 0) / (κ * ε ^ (o - 1)) := by
    refine (Finset.sum_le_sum fun i _ => end1 i).trans ?_
    rw [Finset.sum_add_distrib, ← Finset.mul_sum, ← Finset.sum_div, (C124_balance h N).1]
    have := inside_nonneg h N
    have hpos := mul_pos hr.κ_pos hp
    refine add_le_add_right ((div_le_div_iff_of_pos_right hpos).2 ?_) _
    linarith
  -- the sum of the concentrations
  have hK : ∀ i < L.N, 0 < cellDiff L D i := fun i hi => cellDiff_pos hw hr.D_pos i hi
  have mom1 : ∀ i, k i * a i * (S i - (L.N + 1) * c i)
      ≤ moment L D q (U i) (C i) - moment L D q (U (i + 1)) (C (i + 1)) := by
    intro i
    have e := (h.step i).together (ramp L (cellDiff L D) q)
    have e1 : ∑ p, L.w p * (diffAt (P i) (mat i) p * ((L.p1 (U (i + 1))).grad p 0 * (L.p1 (ramp L (cellDiff L D) q)).grad p 0))
        = a i * (S i - (L.N + 1) * c i) := by
      rw [← ramp_sum _ hK, ← grad_cellDiff, Finset.mul_sum]
      refine Finset.sum_congr rfl fun p _ => ?_
      rw [hr.diff]
      ring
    have e2 : 0 ≤ ∑ q', recombined L (P i).T.T.tr (rs i) q' ((L.p1 (U (i + 1))).tr q') * (L.p1 (ramp L (cellDiff L D) q)).tr q' := by
      refine Finset.sum_nonneg fun q' _ => mul_nonneg (recombined_nonneg (h.step i).recomb q' (h.ends (i + 1) q')) ?_
      cases q'
      · simpa [Line.p1] using ramp_nonneg _ hK q 0 (Nat.zero_le _)
      · simpa [Line.p1] using ramp_nonneg _ hK q L.N le_rfl
    rw [e1] at e
    have e3 := mul_nonneg (hk i).le e2
    unfold moment
    linarith
  have momN : ∀ i, 0 ≤ moment L D q (U i) (C i) := by
    intro i
    refine Finset.sum_nonneg fun p _ => mul_nonneg (hw p) (mul_nonneg (add_nonneg (h.val_le i p).1
      (Finset.sum_nonneg fun j _ => h.trapped i j p)) ?_)
    have r1 := ramp_nonneg (L := L) _ hK q (L.cell p) (L.cell_lt p).le
    have r2 := ramp_nonneg (L := L) _ hK q (L.cell p + 1) (L.cell_lt p)
    have := mul_nonneg (sub_nonneg.2 (h.quad.lam_le p)) r1
    have := mul_nonneg (h.quad.lam_nonneg p) r2
    simp only [Line.p1]
    linarith
  have mom2 : ∑ i ∈ Finset.range N, k i * a i * (S i - (L.N + 1) * c i) ≤ moment L D q (U 0) (C 0) := by
    refine (Finset.sum_le_sum fun i _ => mom1 i).trans ?_
    rw [Finset.sum_range_sub' (fun i => moment L D q (U i) (C i))]
    linarith [momN N]
  have sumS : a₀ * ∑ i ∈ Finset.range N, k i * S i
      ≤ moment L D q (U 0) (C 0) + a₁ * (L.N + 1) * ∑ i ∈ Finset.range N, k i * c i := by
    have h1 : a₀ * ∑ i ∈ Finset.range N, k i * S i - a₁ * (L.N + 1) * ∑ i ∈ Finset.range N, k i * c i
        ≤ ∑ i ∈ Finset.range N, k i * a i * (S i - (L.N + 1) * c i) := by
      rw [Finset.mul_sum, Finset.mul_sum, ← Finset.sum_sub_distrib]
      refine Finset.sum_le_sum fun i _ => ?_
      have g1 := mul_le_mul_of_nonneg_right (hr.a_ge i) (mul_nonneg (hk i).le (hS0 i))
      have hN : (0 : ℝ) ≤ L.N + 1 := by positivity
      have g2 := mul_le_mul_of_nonneg_right (hr.a_le i) (mul_nonneg hN (mul_nonneg (hk i).le (hc0 i)))
      linarith
    linarith
  -- the traps
  have trap1 : ∀ i, b * (k i * Θ (i + 1)) ≤ Θ i - Θ (i + 1) + m * G * extent L * (k i * S i) := by
    intro i
    have e := (h.step i).trapped
    have e1 : ∑ j, ∑ p, L.w p * netTrap L (A i) (B i) (n i) (U (i + 1)) (C (i + 1)) j p
        ≤ m * (G * extent L * S i) - b * Θ (i + 1) := by
      have e2 : ∀ j, ∑ p, L.w p * netTrap L (A i) (B i) (n i) (U (i + 1)) (C (i + 1)) j p
          ≤ G * extent L * S i - b * ∑ p, L.w p * C (i + 1) j p := by
        intro j
        unfold extent
        rw [mul_right_comm, Finset.mul_sum (f := L.w), Finset.mul_sum (f := fun p => L.w p * C (i + 1) j p), ← Finset.sum_sub_distrib]
        refine Finset.sum_le_sum fun p _ => ?_
        obtain ⟨A0, AG⟩ := hr.trap i j p
        obtain ⟨v0, v1⟩ := h.val_le (i + 1) p
        have d := hr.detrap i j p
        have t0 := h.trapped (i + 1) j p
        have g1 : A i j p * (L.p1 (U (i + 1))).val p * (n i j p - C (i + 1) j p) ≤ G * S i := by
          have x1 := mul_nonneg (mul_nonneg A0 v0) t0
          have x2 := mul_le_mul_of_nonneg_right AG v0
          have x3 := mul_le_mul_of_nonneg_left v1 hr.G_nonneg
          simp only [hS]
          linarith
        unfold netTrap trapping
        have := mul_le_mul_of_nonneg_left (sub_le_sub g1 d) (hw p)
        linarith
      refine (Finset.sum_le_sum fun j _ => e2 j).trans ?_
      rw [Finset.sum_sub_distrib, Finset.sum_const, Finset.card_univ, Fintype.card_fin, ← Finset.mul_sum, nsmul_eq_mul]
    have e3 := mul_le_mul_of_nonneg_left e1 (hk i).le
    have e4 : Θ (i + 1) = Θ i + k i * ∑ j, ∑ p, L.w p * netTrap L (A i) (B i) (n i) (U (i + 1)) (C (i + 1)) j p := e
    linarith
  have trap2 : b * ∑ i ∈ Finset.range N, k i * Θ (i + 1) ≤ Θ 0 + m * G * extent L * ∑ i ∈ Finset.range N, k i * S i := by
    rw [Finset.mul_sum, Finset.mul_sum]
    refine (Finset.sum_le_sum fun i _ => trap1 i).trans ?_
    rw [Finset.sum_add_distrib, Finset.sum_range_sub']
    linarith [hΘ0 N]
  -- what remains
  have mono : ∀ i ≤ N, inside L (U N) (C N) ≤ inside L (U i) (C i) :=
    fun i hi => antitone_nat_of_succ_le (f := fun i => inside L (U i) (C i)) (fun i => (C124_balance h i).2) hi
  have tot : inside L (U N) (C N) * ∑ i ∈ Finset.range N, k i
      ≤ extent L * ∑ i ∈ Finset.range N, k i * S i + ∑ i ∈ Finset.range N, k i * Θ (i + 1) := by
    rw [Finset.mul_sum, Finset.mul_sum, ← Finset.sum_add_distrib]
    refine Finset.sum_le_sum fun i hi => ?_
    have h1 := mono (i + 1) (Finset.mem_range.1 hi)
    have h2 : content L (U (i + 1)) ≤ extent L * S i := by
      unfold content extent
      rw [Finset.sum_mul]
      exact Finset.sum_le_sum fun p _ => mul_le_mul_of_nonneg_left (h.val_le (i + 1) p).2 (hw p)
    have h3 : inside L (U N) (C N) ≤ extent L * S i + Θ (i + 1) := by
      unfold inside at h1 ⊢
      exact h1.trans (add_le_add_left h2 _)
    have := mul_le_mul_of_nonneg_right h3 (hk i).le
    linarith
  have trap3 : ∑ i ∈ Finset.range N, k i * Θ (i + 1) ≤ Θ 0 / b + m * G / b * (extent L * ∑ i ∈ Finset.range N, k i * S i) := by
    have : Θ 0 / b + m * G / b * (extent L * ∑ i ∈ Finset.range N, k i * S i)
        = (Θ 0 + m * G * extent L * ∑ i ∈ Finset.range N, k i * S i) / b := by ring
    rw [this, le_div_iff₀ hr.b_pos]
    linarith
  have hcoef : 0 ≤ 1 + m * G / b := by
    have := hr.G_nonneg
    have := hr.b_pos
    positivity
  have sumS' : ∑ i ∈ Finset.range N, k i * S i ≤ (moment L D q (U 0) (C 0)
      + a₁ * (L.N + 1) * (ε * ∑ i ∈ Finset.range N, k i + inside L (U 0) (C 0) / (κ * ε ^ (o - 1)))) / a₀ := by
    rw [le_div_iff₀ hr.a_pos]
    have hN : (0 : ℝ) ≤ a₁ * (L.N + 1) := by positivity
    have := mul_le_mul_of_nonneg_left end2 hN
    linarith
  have fin1 := mul_le_mul_of_nonneg_left sumS' (mul_nonneg hcoef hext)
  calc inside L (U N) (C N) * ∑ i ∈ Finset.range N, k i
      ≤ Θ 0 / b + (1 + m * G / b) * extent L * ∑ i ∈ Finset.range N, k i * S i := by linarith
    _ ≤ Θ 0 / b + (1 + m * G / b) * extent L * ((moment L D q (U 0) (C 0)
      + a₁ * (L.N + 1) * (ε * ∑ i ∈ Finset.range N, k i + inside L (U 0) (C 0) / (κ * ε ^ (o - 1)))) / a₀) := by linarith
    _ = _ := by ring

/-- **C124 (c).** All the hydrogen leaves, also the trapped one, if the simulated time is not bounded: concentrations and trapped
inventories tend to zero and the desorbed amount to the initial inventory, mobile and trapped. -/
theorem C124_complete (h : Degassing L P mat matS tr A B n rs k U C) {D : Ω → ℝ} {a : ℕ → ℝ} {a₀ a₁ b G κ o : ℝ} {q : Bool}
    (hr : Ramp L P mat A B n rs C D a a₀ a₁ b G κ o q) (ht : Tendsto (fun N => ∑ i ∈ Finset.range N, k i) atTop atTop) :
    Tendsto (fun N => ∑ i ∈ Finset.range N, desorbed L P rs k U i) atTop (𝓝 (inside L (U 0) (C 0))) ∧
    (∀ j ≤ L.N, Tendsto (fun N => U N j) atTop (𝓝 0)) ∧ ∀ j, Tendsto (fun N => ∑ p, L.w p * C N j p) atTop (𝓝 0) := by
  have hw := h.quad.w_nonneg
  have hI : Tendsto (fun N => inside L (U N) (C N)) atTop (𝓝 0) := by
    set X : ℝ := (1 + m * G / b) * extent L / a₀ with hX
    have hX0 : 0 ≤ X := by
      have := hr.G_nonneg
      have := hr.b_pos
      have := hr.a_pos
      have : 0 ≤ extent L := Finset.sum_nonneg fun p _ => hw p
      positivity
    have ha1 : 0 ≤ a₁ := hr.a_pos.le.trans ((hr.a_ge 0).trans (hr.a_le 0))
    rw [Metric.tendsto_atTop]
    intro δ hδ
    set Y : ℝ := X * (a₁ * (L.N + 1)) with hY
    have hY0 : 0 ≤ Y := by positivity
    set ε : ℝ := δ / (2 * (Y + 1)) with hε
    have hε0 : 0 < ε := by positivity
    set Z : ℝ := (∑ j, ∑ p, L.w p * C 0 j p) / b + X * moment L D q (U 0) (C 0)
      + Y * (inside L (U 0) (C 0) / (κ * ε ^ (o - 1))) with hZ
    obtain ⟨N₀, hN₀⟩ := (tendsto_atTop_atTop.1 ht) (2 * |Z| / δ + 1)
    refine ⟨N₀, fun N hN => ?_⟩
    have ht := hN₀ N hN
    set t : ℝ := ∑ i ∈ Finset.range N, k i with htdef
    have ht0 : 0 < t := lt_of_lt_of_le (by positivity) ht
    have hb := C124_bound h hr hε0 N
    have hb' : inside L (U N) (C N) * t ≤ Z + Y * ε * t := by
      rw [hZ, hY]
      rw [← hX, ← htdef] at hb
      linarith
    have hYε : Y * ε ≤ δ / 2 := by
      rw [hε, mul_div_assoc', div_le_div_iff₀ (by positivity) two_pos]
      nlinarith
    have hZt : Z < δ / 2 * t := by
      have h1 : 2 * |Z| / δ < t := by linarith
      rw [div_lt_iff₀ hδ] at h1
      linarith [le_abs_self Z]
    rw [Real.dist_eq, sub_zero, abs_of_nonneg (inside_nonneg h N)]
    have : inside L (U N) (C N) * t < δ * t := by
      have := mul_le_mul_of_nonneg_right hYε ht0.le
      linarith
    exact lt_of_mul_lt_mul_right this ht0.le
  have hcont : ∀ N, 0 ≤ content L (U N) := fun N => Finset.sum_nonneg fun p _ => mul_nonneg (hw p) (h.val_le N p).1
  have htr : ∀ N j, 0 ≤ ∑ p, L.w p * C N j p := fun N j => Finset.sum_nonneg fun p _ => mul_nonneg (hw p) (h.trapped N j p)
  refine ⟨?_, ?_, ?_⟩
  · have : Tendsto (fun N => inside L (U 0) (C 0) - inside L (U N) (C N)) atTop (𝓝 (inside L (U 0) (C 0) - 0)) :=
      tendsto_const_nhds.sub hI
    rw [sub_zero] at this
    exact this.congr fun N => ((C124_balance h N).1).symm
  · intro j hj
    -- a cell which has the node
    obtain ⟨i, hi, hij⟩ : ∃ i < L.N, j = i ∨ j = i + 1 := by
      rcases hj.lt_or_eq with h1 | h1
      · exact ⟨j, h1, Or.inl rfl⟩
      · have := L.N_pos
        exact ⟨L.N - 1, by omega, Or.inr (by omega)⟩
    have hh := L.h_pos i hi
    have hle : ∀ N, U N j ≤ 2 / L.h i * inside L (U N) (C N) := by
      intro N
      have c1 : ∑ p ∈ Finset.univ.filter (fun p => L.cell p = i), L.w p * (L.p1 (U N)).val p ≤ content L (U N) :=
        Finset.sum_le_sum_of_subset_of_nonneg (Finset.filter_subset _ _) fun p _ _ => mul_nonneg (hw p) (h.val_le N p).1
      have c2 : ∑ p ∈ Finset.univ.filter (fun p => L.cell p = i), L.w p * (L.p1 (U N)).val p
          = L.h i / 2 * (U N i + U N (i + 1)) := by
        have e : ∀ p ∈ Finset.univ.filter (fun p => L.cell p = i), L.w p * (L.p1 (U N)).val p
            = (L.w p * U N i) + (L.w p * L.lam p) * (U N (i + 1) - U N i) := by
          intro p hp
          rw [← (Finset.mem_filter.1 hp).2]
          simp only [Line.p1]
          ring
        rw [Finset.sum_congr rfl e, Finset.sum_add_distrib, ← Finset.sum_mul, ← Finset.sum_mul, L.exact i hi, h.quad.one i hi]
        ring
      have c3 : content L (U N) ≤ inside L (U N) (C N) := le_add_of_nonneg_right (Finset.sum_nonneg fun j _ => htr N j)
      have u1 := h.mobile N i hi.le
      have u2 := h.mobile N (i + 1) hi
      have c4 : U N j ≤ U N i + U N (i + 1) := by
        rcases hij with rfl | rfl <;> linarith
      rw [c2] at c1
      have c5 : U N i + U N (i + 1) = 2 / L.h i * (L.h i / 2 * (U N i + U N (i + 1))) := by
        field_simp
      rw [c5] at c4
      exact c4.trans (mul_le_mul_of_nonneg_left (c1.trans c3) (by positivity))
    have hlim := hI.const_mul (2 / L.h i)
    rw [mul_zero] at hlim
    exact squeeze_zero (fun N => h.mobile N j hj) hle hlim
  · intro j
    refine squeeze_zero (fun N => htr N j) (fun N => ?_) hI
    have := Finset.single_le_sum (f := fun j => ∑ p, L.w p * C N j p) (fun j _ => htr N j) (Finset.mem_univ j)
    exact this.trans (le_add_of_nonneg_left (hcont N))

end

namespace KinCase

/-- A trap with unit rates and density, everywhere in the plate. -/
noncomputable def hold (yn y : ℝ) (_ : Fin 1) : Trap (Fin 3) Bool 1 where
  k_0 := .num 1
  E_k := .num 0
  p_0 := .num 1
  E_p := .num 0
  density := [fun _ => 1]
  materials := [M]
  sol := Fld.const y
  prev := Fld.const yn

noncomputable def PT (xn x yn y : ℝ) : Problem (Fin 3) Bool 1 :=
  { P (some 1) (fun _ => x) (fun _ => xn) with traps := List.ofFn (hold yn y) }

theorem degas_data (xn x yn y : ℝ) : DegasData L (PT xn x yn y) (fun _ => M) (fun _ => M) (hold yn y) (fun _ _ => 1) (fun _ _ => 1)
    (fun _ _ => 1) pairs 1 (fun _ => xn) (fun _ => x) (fun _ _ => yn) (fun _ _ => y) where
  line := line _ _
  theta := rfl
  sources := rfl
  dt := rfl
  before := rfl
  now := rfl
  traps := rfl
  apart := by intro j; simp [hold, M]
  noSource := fun _ => rfl
  rates := by
    intro j p
    left
    exact ⟨0, M, 1, 0, 1, 0, _, rfl, by simp [PT, P, L, Line.mesh, M], Or.inr ⟨rfl, rfl, rfl, rfl, rfl⟩,
        by simp [arr], by simp [arr], rfl⟩
  trapBefore := fun _ => rfl
  trapNow := fun _ => rfl
  recomb := pairs_rates

theorem degas_step {xn x yn y : ℝ} (h1 : x + y + 2 * x ^ 2 = xn + yn) (h2 : y = yn + (x * (1 - y) - y)) :
    Degas L (PT xn x yn y) (fun _ => M) (fun _ => M) (hold yn y) (fun _ _ => 1) (fun _ _ => 1)
    (fun _ _ => 1) pairs 1 (fun _ => xn) (fun _ => x) (fun _ _ => yn) (fun _ _ => y) where
  toDegasData := degas_data xn x yn y
  solves := by
    refine ⟨_, Or.inr rfl, ⟨by simp, fun v _ vt _ => ?_⟩⟩
    obtain ⟨F, hF⟩ : ∃ F, (PT xn x yn y).form (pairs.map Recomb.bc) (L.p1 v) (List.ofFn vt) = .ok F := ⟨_, rfl⟩
    refine ⟨F, hF, ?_⟩
    have e := (degas_data xn x yn y).residual v vt F hF
    rw [one_mul] at e
    rw [e]
    have r : ∀ q c, recombined L (PT xn x yn y).T.T.tr pairs q c = c ^ 2 := recombined_pairs
    have h21 : ¬ (2 : Fin 3) = 1 := by decide
    have e0 : y - yn - 1 * netTrap L (fun _ _ => 1) (fun _ _ => 1) (fun _ _ => 1) (fun _ => x) (fun _ _ => y) (0 : Fin 1) (0 : Fin 3) = 0 := by
      simp [netTrap, trapping, Line.p1]
      linarith
    have e1 : ∀ (j : Fin 1) (p : Fin 3), netTrap L (fun _ _ => 1) (fun _ _ => 1) (fun _ _ => 1) (fun _ => x) (fun _ _ => y) j p = y - yn := by
      intro j p
      simp [netTrap, trapping, Line.p1]
      linarith
    simp only [r, e1]
    simp [Line.p1, L, Fin.sum_univ_three, h21]
    linear_combination (v 0 + v 1) / 2 * h1

/-- Each step has a solution which is not negative. -/
theorem degas_exists {xn yn : ℝ} (hx : 0 ≤ xn) (hy : 0 ≤ yn) :
    ∃ z : ℝ × ℝ, 0 ≤ z.1 ∧ 0 ≤ z.2 ∧ z.1 + z.2 + 2 * z.1 ^ 2 = xn + yn ∧ z.2 = yn + (z.1 * (1 - z.2) - z.2) := by
  set f : ℝ → ℝ := fun x => x + (yn + x) / (2 + x) + 2 * x ^ 2 with hf
  have hc : ContinuousOn f (Set.Icc 0 (xn + yn)) := by
    refine ContinuousOn.add (ContinuousOn.add continuousOn_id (ContinuousOn.div (by fun_prop) (by fun_prop) ?_)) (by fun_prop)
    intro x hx
    have := hx.1
    positivity
  have hs := intermediate_value_Icc (add_nonneg hx hy) hc
  obtain ⟨x, ⟨hx0, _⟩, he⟩ := hs (show xn + yn ∈ Set.Icc (f 0) (f (xn + yn)) from ⟨by simp [hf]; linarith, by
    have h0 := add_nonneg hx hy
    have : 0 ≤ (yn + (xn + yn)) / (2 + (xn + yn)) := by positivity
    have := sq_nonneg (xn + yn)
    simp only [hf]
    linarith⟩)
  refine ⟨(x, (yn + x) / (2 + x)), hx0, by positivity, he, ?_⟩
  have : (2 + x) ≠ 0 := by positivity
  field_simp
  ring

/-- The plate at the successive instants, all its hydrogen being trapped at first. -/
noncomputable def states : ℕ → {z : ℝ × ℝ // 0 ≤ z.1 ∧ 0 ≤ z.2}
  | 0 => ⟨(0, 1), le_rfl, zero_le_one⟩
  | n + 1 => ⟨(degas_exists (states n).2.1 (states n).2.2).choose,
      (degas_exists (states n).2.1 (states n).2.2).choose_spec.1, (degas_exists (states n).2.1 (states n).2.2).choose_spec.2.1⟩

noncomputable def mob (n : ℕ) : ℝ := (states n).1.1
noncomputable def held1 (n : ℕ) : ℝ := (states n).1.2

theorem degassing : Degassing L (fun i => PT (mob i) (mob (i + 1)) (held1 i) (held1 (i + 1))) (fun _ _ => M) (fun _ _ => M)
    (fun i => hold (held1 i) (held1 (i + 1))) (fun _ _ _ => 1) (fun _ _ _ => 1) (fun _ _ _ => 1) (fun _ => pairs) (fun _ => 1)
    (fun i _ => mob i) (fun i _ _ => held1 i) where
  quad := exact2
  step i := by
    have := (degas_exists (states i).2.1 (states i).2.2).choose_spec
    exact degas_step this.2.2.1 this.2.2.2
  mobile i _ _ := (states i).2.1
  trapped i _ _ := (states i).2.2

/-- A plate in which all the hydrogen is trapped at first loses all of it. -/
example : Tendsto mob atTop (𝓝 0) ∧ Tendsto held1 atTop (𝓝 0) ∧
    Tendsto (fun N => ∑ i ∈ Finset.range N, desorbed L (fun i => PT (mob i) (mob (i + 1)) (held1 i) (held1 (i + 1))) (fun _ => pairs)
      (fun _ => 1) (fun i _ => mob i) i) atTop (𝓝 1) := by
  obtain ⟨c1, c2, c3⟩ := C124_complete degassing (D := fun _ => 1) (a := fun _ => 1) (a₀ := 1) (a₁ := 1) (b := 1) (G := 1) (κ := 1)
    (o := 2) (q := false)
    { D_pos := fun _ => one_pos, diff := fun i p => by simp [diffAt, arr, M], a_pos := one_pos, a_ge := fun _ => le_rfl,
      a_le := fun _ => le_rfl, b_pos := one_pos, detrap := fun _ _ _ => le_rfl, trap := fun _ _ _ => by norm_num,
      G_nonneg := zero_le_one, κ_pos := one_pos, order := by norm_num,
      recomb := fun n => ⟨_, List.mem_singleton.2 rfl, rfl, by simp [L], by simp [arr]⟩ }
    (by simpa using tendsto_natCast_atTop_atTop)
  have h21 : ¬ (2 : Fin 3) = 1 := by decide
  have w1 : ∑ p, L.w p = 1 := by
    norm_num [L, Fin.sum_univ_three, h21]
  refine ⟨c2 0 (Nat.zero_le _), ?_, ?_⟩
  · refine (c3 0).congr fun n => ?_
    rw [← Finset.sum_mul, w1, one_mul]
  · have e : inside L (fun _ => mob 0) (fun (_ : Fin 1) _ => held1 0) = 1 := by
      have e1 : mob 0 = 0 := rfl
      have e2 : held1 0 = 1 := rfl
      rw [e1, e2]
      simp [inside, content, Line.p1, w1]
    rwa [e] at c1

end KinCase

end Festim.Props
