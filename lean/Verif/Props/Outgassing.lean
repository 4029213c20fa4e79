import Verif.Props.Recombination

/-!
# C121: outgassing through recombination
-/

open scoped BigOperators Topology
open Filter

set_option linter.unusedSectionVars false
set_option linter.unusedSimpArgs false

namespace Festim.Props

open Festim.Weak

section
variable {Ω : Type} [Fintype Ω] {L : Line Ω} {P : Problem Ω Bool 1} {mat : Ω → Mat} {matS : Bool → Mat} {u un : ℕ → ℝ} {k : ℝ}
  {rs : List Recomb} {val : Bool → ℝ}

/-- The equation of a step with recombination only. -/
theorem outgas_equation (hP : LinearLine L P [] mat matS fun _ => False) (hth : P.mv.theta = false) (hsrc : P.sources = [])
    (hdt : P.dt = some k) (hprev : P.mv.prev = L.p1 un) (hu : LineSolves L P (rs.map Recomb.bc ++ []) (fun _ => False) val u)
    (v : ℕ → ℝ) :
    ∑ p, L.w p * (((L.p1 u).val p - (L.p1 un).val p) * (L.p1 v).val p)
      + k * ∑ p, L.w p * (diffAt P mat p * ((L.p1 u).grad p 0 * (L.p1 v).grad p 0))
      + k * ∑ q, recombined L P.T.T.tr rs q ((L.p1 u).tr q) * (L.p1 v).tr q = 0 := by
  have e := recomb_equation hP hth hu v (by simp)
  have hk := hP.step k hdt
  have e1 : ∀ p, reactionOf P mat p = 1 / k := fun p => by simp [reactionOf, hdt, decayAt, hsrc, unitConc, hth]
  have e2 : ∀ p, loadOf P mat p = (L.p1 un).val p / k := fun p => by
    simp [loadOf, hdt, givenAt, hsrc, Problem.cPrev, physConc, hth, hprev]
  have e3 : ∀ p, conductivity P mat p = diffAt P mat p := fun p => by simp [conductivity, diffAt, hth]
  have e4 : ∀ q, exchangeOf P [] matS q = 0 := fun q => by simp [exchangeOf, exchangeAt]
  have e5 : ∀ q, fluxAt P [] q = 0 := fun q => by simp [fluxAt]
  simp only [bil, lin, e1, e2, e3, e4, e5, zero_mul, Finset.sum_const_zero, add_zero] at e
  have f1 : ∑ p, L.w p * (((L.p1 u).val p - (L.p1 un).val p) * (L.p1 v).val p)
      = k * (∑ p, L.w p * (1 / k * ((L.p1 u).val p * (L.p1 v).val p)) - ∑ p, L.w p * ((L.p1 un).val p / k * (L.p1 v).val p)) := by
    rw [← Finset.sum_sub_distrib, Finset.mul_sum]
    refine Finset.sum_congr rfl fun p _ => ?_
    field_simp
  simp only [mul_add, Finset.sum_add_distrib] at e
  rw [f1]
  linear_combination k * e

/-- Hydrogen in the domain. -/
noncomputable def content (L : Line Ω) (u : ℕ → ℝ) : ℝ := ∑ p, L.w p * (L.p1 u).val p

theorem outgas_step (hP : LinearLine L P [] mat matS fun _ => False) (hth : P.mv.theta = false) (hsrc : P.sources = [])
    (hdt : P.dt = some k) (hprev : P.mv.prev = L.p1 un) (hu : LineSolves L P (rs.map Recomb.bc ++ []) (fun _ => False) val u) :
    k * ∑ q, recombined L P.T.T.tr rs q ((L.p1 u).tr q) = content L un - content L u := by
  have e := outgas_equation hP hth hsrc hdt hprev hu fun _ => 1
  have e1 : ∀ p, (L.p1 fun _ => 1).val p = 1 := fun p => by simp [Line.p1]
  have e2 : ∀ p, (L.p1 fun _ => 1).grad p 0 = 0 := fun p => by simp [Line.p1]
  have e3 : ∀ q, (L.p1 fun _ => 1).tr q = 1 := fun q => by cases q <;> simp [Line.p1]
  simp only [e1, e2, e3, mul_one, mul_zero, Finset.sum_const_zero, add_zero, mul_sub, Finset.sum_sub_distrib] at e
  unfold content
  linarith

theorem outgas_energy (hP : LinearLine L P [] mat matS fun _ => False) (hth : P.mv.theta = false) (hsrc : P.sources = [])
    (hdt : P.dt = some k) (hprev : P.mv.prev = L.p1 un) (hu : LineSolves L P (rs.map Recomb.bc ++ []) (fun _ => False) val u) :
    2 * k * (∑ p, L.w p * (diffAt P mat p * (L.p1 u).grad p 0 ^ 2)
      + ∑ q, recombined L P.T.T.tr rs q ((L.p1 u).tr q) * (L.p1 u).tr q)
      ≤ ∑ p, L.w p * (L.p1 un).val p ^ 2 - ∑ p, L.w p * (L.p1 u).val p ^ 2 := by
  have e := outgas_equation hP hth hsrc hdt hprev hu u
  have f : 0 ≤ ∑ p, L.w p * ((L.p1 u).val p - (L.p1 un).val p) ^ 2 :=
    Finset.sum_nonneg fun p _ => mul_nonneg (hP.weights p) (sq_nonneg _)
  have g : ∑ p, L.w p * (L.p1 un).val p ^ 2 - ∑ p, L.w p * (L.p1 u).val p ^ 2
      = ∑ p, L.w p * ((L.p1 u).val p - (L.p1 un).val p) ^ 2
        - 2 * ∑ p, L.w p * (((L.p1 u).val p - (L.p1 un).val p) * (L.p1 u).val p) := by
    rw [Finset.mul_sum, ← Finset.sum_sub_distrib, ← Finset.sum_sub_distrib]
    exact Finset.sum_congr rfl fun p _ => by ring
  simp only [← sq] at e
  rw [g]
  linarith

theorem cell_jump (hw : ∀ p, 0 ≤ L.w p) {d : ℝ} (hd : 0 < d) (hD : ∀ p, d ≤ diffAt P mat p) (i : ℕ) (hi : i < L.N) :
    (u (i + 1) - u i) ^ 2 ≤ L.h i / d * ∑ p, L.w p * (diffAt P mat p * (L.p1 u).grad p 0 ^ 2) := by
  have hh := L.h_pos i hi
  have e : d * ((u (i + 1) - u i) ^ 2 / L.h i) ≤ ∑ p, L.w p * (diffAt P mat p * (L.p1 u).grad p 0 ^ 2) := by
    calc d * ((u (i + 1) - u i) ^ 2 / L.h i)
        = ∑ p ∈ Finset.univ.filter (fun p => L.cell p = i), L.w p * (d * ((u (i + 1) - u i) / L.h i) ^ 2) := by
          rw [← Finset.sum_mul, L.exact i hi]
          field_simp
      _ = ∑ p ∈ Finset.univ.filter (fun p => L.cell p = i), L.w p * (d * (L.p1 u).grad p 0 ^ 2) := by
          refine Finset.sum_congr rfl fun p hp => ?_
          rw [← (Finset.mem_filter.1 hp).2]
          simp [Line.p1]
      _ ≤ ∑ p, L.w p * (d * (L.p1 u).grad p 0 ^ 2) :=
          Finset.sum_le_sum_of_subset_of_nonneg (Finset.filter_subset _ _) fun p _ _ =>
            mul_nonneg (hw p) (mul_nonneg hd.le (sq_nonneg _))
      _ ≤ _ := Finset.sum_le_sum fun p _ =>
          mul_le_mul_of_nonneg_left (mul_le_mul_of_nonneg_right (hD p) (sq_nonneg _)) (hw p)
  rw [div_mul_eq_mul_div, le_div_iff₀ hd]
  calc (u (i + 1) - u i) ^ 2 * d = L.h i * (d * ((u (i + 1) - u i) ^ 2 / L.h i)) := by field_simp
    _ ≤ _ := mul_le_mul_of_nonneg_left e hh.le

theorem recombined_nonneg (hr : Recombines rs) {T : Bool → ℝ} (q : Bool) {c : ℝ} (hc : 0 ≤ c) : 0 ≤ recombined L T rs q c := by
  have := recombined_mono (L := L) (T := T) hr q le_rfl hc
  rwa [recombined_zero hr] at this

theorem recombined_ge (hr : Recombines rs) {T : Bool → ℝ} (q : Bool) {c κ : ℝ} (hc : 0 ≤ c) {r : Recomb} (hm : r ∈ rs)
    (hs : (if q then L.right else L.left) ∈ r.surfaces) (hκ : κ ≤ arr (r.Kr_0 q) (r.E_Kr q) (T q)) :
    κ * c ^ r.order ≤ recombined L T rs q c := by
  have ht : ∀ r' ∈ rs, ∀ i : ℕ, 0 ≤ if i = (if q then L.right else L.left) then arr (r'.Kr_0 q) (r'.E_Kr q) (T q) * c ^ r'.order else 0 := by
    intro r' hr' i
    split
    all_goals split
    all_goals first
      | exact le_rfl
      | exact mul_nonneg (mul_nonneg ((hr r' hr').1 q) (Real.exp_pos _).le) (Real.rpow_nonneg hc _)
  unfold recombined
  refine le_trans ?_ (List.single_le_sum (fun x hx => ?_) _ (List.mem_map.2 ⟨r, hm, rfl⟩))
  · refine le_trans ?_ (List.single_le_sum (fun x hx => ?_) _ (List.mem_map.2 ⟨_, hs, rfl⟩))
    · rw [if_pos rfl]
      exact mul_le_mul_of_nonneg_right hκ (Real.rpow_nonneg hc _)
    · obtain ⟨i, _, rfl⟩ := List.mem_map.1 hx
      exact ht r hm i
  · obtain ⟨r', hr', rfl⟩ := List.mem_map.1 hx
    refine List.sum_nonneg fun x hx => ?_
    obtain ⟨i, _, rfl⟩ := List.mem_map.1 hx
    exact ht r' hr' i

end

section
variable {Ω : Type} [Fintype Ω] {L : Line Ω} (P : ℕ → Problem Ω Bool 1) (mat : ℕ → Ω → Mat) (matS : ℕ → Bool → Mat)
  (rs : ℕ → List Recomb) (k : ℕ → ℝ) (U : ℕ → ℕ → ℝ)

/-- The steps of an outgassing: no sources, no other boundary condition than recombination. -/
structure Outgassing (L : Line Ω) (P : ℕ → Problem Ω Bool 1) (mat : ℕ → Ω → Mat) (matS : ℕ → Bool → Mat)
    (rs : ℕ → List Recomb) (k : ℕ → ℝ) (U : ℕ → ℕ → ℝ) : Prop where
  line : ∀ n, LinearLine L (P n) [] (mat n) (matS n) fun _ => False
  theta : ∀ n, (P n).mv.theta = false
  sources : ∀ n, (P n).sources = []
  dt : ∀ n, (P n).dt = some (k n)
  rates : ∀ n, Recombines (rs n)
  solves : ∀ n, LineSolves L ((P n).withPrev (L.p1 (U n))) ((rs n).map Recomb.bc ++ []) (fun _ => False) (fun _ => 0) (U (n + 1))
  ends : ∀ n q, 0 ≤ (L.p1 (U n)).tr q

/-- What recombines during a step. -/
noncomputable def desorbed (L : Line Ω) (P : ℕ → Problem Ω Bool 1) (rs : ℕ → List Recomb) (k : ℕ → ℝ) (U : ℕ → ℕ → ℝ) (n : ℕ) : ℝ :=
  k n * ∑ q, recombined L (P n).T.T.tr (rs n) q ((L.p1 (U (n + 1))).tr q)

variable {P mat matS rs k U}

/-- **C121 (a).** What has recombined is what the domain has lost, and the domain never gains any. -/
theorem C121_balance (h : Outgassing L P mat matS rs k U) (n : ℕ) :
    ∑ i ∈ Finset.range n, desorbed L P rs k U i = content L (U 0) - content L (U n) ∧ content L (U (n + 1)) ≤ content L (U n) := by
  have e : ∀ n, desorbed L P rs k U n = content L (U n) - content L (U (n + 1)) := fun n =>
    outgas_step (P := (P n).withPrev (L.p1 (U n))) (LinearLine.withPrev (h.line n) _) (h.theta n) (h.sources n) (h.dt n) rfl (h.solves n)
  constructor
  · rw [Finset.sum_congr rfl fun i _ => e i, Finset.sum_range_sub']
  · have : 0 ≤ desorbed L P rs k U n := mul_nonneg ((h.line n).step _ (h.dt n)).le
      (Finset.sum_nonneg fun q _ => recombined_nonneg (h.rates n) q (h.ends (n + 1) q))
    linarith [e n]

/-- **C121 (b).** With stepsizes, diffusivities and one recombination coefficient bounded from below, all the hydrogen leaves. -/
theorem C121_complete (h : Outgassing L P mat matS rs k U) {hmin d κ o : ℝ} (h0 : 0 < hmin) (hk : ∀ n, hmin ≤ k n) (hd : 0 < d)
    (hD : ∀ n p, d ≤ diffAt (P n) (mat n) p) (hκ : 0 < κ) (q : Bool)
    (hK : ∀ n, ∃ r ∈ rs n, r.order = o ∧ (if q then L.right else L.left) ∈ r.surfaces ∧
      κ ≤ arr (r.Kr_0 q) (r.E_Kr q) ((P n).T.T.tr q)) :
    (∀ j ≤ L.N, Tendsto (fun n => U n j) atTop (𝓝 0)) ∧
      Tendsto (fun n => ∑ i ∈ Finset.range n, desorbed L P rs k U i) atTop (𝓝 (content L (U 0))) := by
  set A : ℕ → ℝ := fun n => ∑ p, L.w p * (diffAt (P n) (mat n) p * (L.p1 (U (n + 1))).grad p 0 ^ 2) with hA
  set G : ℕ → ℝ := fun n => A n + ∑ q, recombined L (P n).T.T.tr (rs n) q ((L.p1 (U (n + 1))).tr q) * (L.p1 (U (n + 1))).tr q with hG
  set E : ℕ → ℝ := fun n => ∑ p, L.w p * (L.p1 (U n)).val p ^ 2 with hE
  have hen : ∀ n, 2 * k n * G n ≤ E n - E (n + 1) := fun n =>
    outgas_energy (P := (P n).withPrev (L.p1 (U n))) (LinearLine.withPrev (h.line n) _) (h.theta n) (h.sources n) (h.dt n) rfl (h.solves n)
  have hR0 : ∀ n q, 0 ≤ recombined L (P n).T.T.tr (rs n) q ((L.p1 (U (n + 1))).tr q) * (L.p1 (U (n + 1))).tr q := fun n q =>
    mul_nonneg (recombined_nonneg (h.rates n) q (h.ends (n + 1) q)) (h.ends (n + 1) q)
  have hw := (h.line 0).weights
  have hA0 : ∀ n, 0 ≤ A n := fun n => Finset.sum_nonneg fun p _ =>
    mul_nonneg (hw p) (mul_nonneg (hd.le.trans (hD n p)) (sq_nonneg _))
  have hAG : ∀ n, A n ≤ G n := fun n => le_add_of_nonneg_right (Finset.sum_nonneg fun q _ => hR0 n q)
  have hG0 : ∀ n, 0 ≤ G n := fun n => (hA0 n).trans (hAG n)
  have hE0 : ∀ n, 0 ≤ E n := fun n => Finset.sum_nonneg fun p _ => mul_nonneg (hw p) (sq_nonneg _)
  have hsum : ∀ n, ∑ i ∈ Finset.range n, G i ≤ E 0 / (2 * hmin) := by
    intro n
    rw [le_div_iff₀ (by linarith)]
    have : ∑ i ∈ Finset.range n, G i * (2 * hmin) ≤ ∑ i ∈ Finset.range n, (E i - E (i + 1)) :=
      Finset.sum_le_sum fun i _ => by nlinarith [hen i, hk i, hG0 i]
    rw [Finset.sum_range_sub', ← Finset.sum_mul] at this
    linarith [hE0 n]
  have hGt : Tendsto G atTop (𝓝 0) := (summable_of_sum_range_le hG0 hsum).tendsto_atTop_zero
  have hAt : Tendsto A atTop (𝓝 0) := squeeze_zero hA0 hAG hGt
  -- the end
  obtain ⟨r0, hr0, ho0, _⟩ := hK 0
  have ho : 1 ≤ o := ho0 ▸ (h.rates 0 r0 hr0).2
  have hend : Tendsto (fun n => (L.p1 (U (n + 1))).tr q) atTop (𝓝 0) := by
    have hpow : Tendsto (fun n => (L.p1 (U (n + 1))).tr q ^ (o + 1)) atTop (𝓝 0) := by
      have hz : Tendsto (fun n => G n / κ) atTop (𝓝 0) := by simpa using hGt.div_const κ
      refine squeeze_zero (fun n => Real.rpow_nonneg (h.ends (n + 1) q) _) (fun n => ?_) hz
      rw [le_div_iff₀ hκ]
      obtain ⟨r, hr, hor, hs, hκr⟩ := hK n
      have hc := h.ends (n + 1) q
      have e1 := recombined_ge (h.rates n) q hc hr hs hκr
      rw [hor] at e1
      have e2 : recombined L (P n).T.T.tr (rs n) q ((L.p1 (U (n + 1))).tr q) * (L.p1 (U (n + 1))).tr q ≤ G n :=
        (Finset.single_le_sum (f := fun q => recombined L (P n).T.T.tr (rs n) q ((L.p1 (U (n + 1))).tr q) * (L.p1 (U (n + 1))).tr q)
          (fun q _ => hR0 n q) (Finset.mem_univ q)).trans (le_add_of_nonneg_left (hA0 n))
      rw [Real.rpow_add_one' hc (by linarith)]
      have e3 := mul_le_mul_of_nonneg_right e1 hc
      linarith
    have := hpow.rpow_const (p := 1 / (o + 1)) (Or.inr (by positivity))
    rw [Real.zero_rpow (by positivity)] at this
    refine this.congr fun n => ?_
    rw [← Real.rpow_mul (h.ends (n + 1) q), mul_one_div_cancel (by linarith), Real.rpow_one]
  -- the jumps
  have hjump : ∀ i < L.N, Tendsto (fun n => U (n + 1) (i + 1) - U (n + 1) i) atTop (𝓝 0) := by
    intro i hi
    have hsq : Tendsto (fun n => (U (n + 1) (i + 1) - U (n + 1) i) ^ 2) atTop (𝓝 0) := by
      have hz : Tendsto (fun n => L.h i / d * A n) atTop (𝓝 0) := by simpa using hAt.const_mul (L.h i / d)
      exact squeeze_zero (fun n => sq_nonneg _) (fun n => cell_jump hw hd (hD n) i hi) hz
    have := hsq.sqrt
    rw [Real.sqrt_zero] at this
    simp only [Real.sqrt_sq_eq_abs] at this
    exact (tendsto_zero_iff_abs_tendsto_zero _).2 this
  have hdiff : ∀ j ≤ L.N, Tendsto (fun n => U (n + 1) j - U (n + 1) 0) atTop (𝓝 0) := by
    intro j
    induction j with
    | zero => intro _; simp
    | succ j ih =>
      intro hj
      have := (hjump j (by omega)).add (ih (by omega))
      simpa using this
  have hleft : Tendsto (fun n => U (n + 1) 0) atTop (𝓝 0) := by
    cases q
    · simpa [Line.p1] using hend
    · have := hend.sub (hdiff L.N le_rfl)
      simpa [Line.p1] using this
  have hall : ∀ j ≤ L.N, Tendsto (fun n => U n j) atTop (𝓝 0) := by
    intro j hj
    rw [← tendsto_add_atTop_iff_nat 1]
    have := (hdiff j hj).add hleft
    simpa using this
  refine ⟨hall, ?_⟩
  have hcont : Tendsto (fun n => content L (U n)) atTop (𝓝 0) := by
    have : Tendsto (fun n => ∑ p, L.w p * ((1 - L.lam p) * U n (L.cell p) + L.lam p * U n (L.cell p + 1))) atTop
        (𝓝 (∑ p, L.w p * ((1 - L.lam p) * 0 + L.lam p * 0))) :=
      tendsto_finsetSum _ fun p _ => ((((hall _ (L.cell_lt p).le).const_mul _).add ((hall _ (L.cell_lt p)).const_mul _)).const_mul _)
    simpa [content, Line.p1] using this
  have := hcont.const_sub (content L (U 0))
  rw [sub_zero] at this
  exact this.congr fun n => (C121_balance h n).1.symm

end

namespace KinCase

/-- A plate which is full at first and loses its hydrogen through both sides: steps of 1 s. -/
example : ∃ U : ℕ → ℕ → ℝ, U 0 = (fun _ => 1) ∧
    Outgassing L (fun _ => P (some 1) (fun _ => 0) fun _ => 1) (fun _ _ => M) (fun _ _ => M) (fun _ => pairs) (fun _ => 1) U ∧
    (∀ j ≤ L.N, Tendsto (fun n => U n j) atTop (𝓝 0)) ∧
    Tendsto (fun n => ∑ i ∈ Finset.range n, desorbed L (fun _ => P (some 1) (fun _ => 0) fun _ => 1) (fun _ => pairs) (fun _ => 1) U i)
      atTop (𝓝 1) := by
  obtain ⟨U, hU, hs, h0⟩ := (C120_run (L := L) (fun _ => P (some 1) (fun _ => 0) fun _ => 1) (fun _ => []) (fun _ _ => M) (fun _ _ => M)
    (fun _ _ => False) (fun _ _ => 0) (fun _ => pairs) (fun _ => 1) exact2 (fun _ => line _ _) (fun _ => rfl) (fun _ => rfl)
    (fun _ => pairs_rates) (fun _ u _ => ⟨by simp [P, Problem.withSol], by simp, by simp⟩) (fun _ => rfl) (fun _ => short _ _)
    (fun _ => 1) (fun _ _ => zero_le_one)).1
  have ho : Outgassing L (fun _ => P (some 1) (fun _ => 0) fun _ => 1) (fun _ _ => M) (fun _ _ => M) (fun _ => pairs) (fun _ => 1) U :=
    ⟨fun _ => line _ _, fun _ => rfl, fun _ => rfl, fun _ => rfl, fun _ => pairs_rates, hs, fun n q => by
      cases q
      · simpa [Line.p1] using h0 n 0 (Nat.zero_le _)
      · simpa [Line.p1] using h0 n L.N le_rfl⟩
  obtain ⟨c1, c2⟩ := C121_complete ho (hmin := 1) (d := 1) (κ := 1) (o := 2) one_pos (fun _ => le_rfl) one_pos
    (fun n p => by simp [diffAt, arr, M]) one_pos false
    (fun n => ⟨_, List.mem_singleton.2 rfl, rfl, by simp [L], by simp [arr]⟩)
  refine ⟨U, hU, ho, c1, ?_⟩
  have e : content L (U 0) = 1 := by
    have h21 : ¬ (2 : Fin 3) = 1 := by decide
    rw [hU]
    norm_num [content, Line.p1, L, Fin.sum_univ_three, h21]
  rwa [e] at c2

end KinCase

end Festim.Props
