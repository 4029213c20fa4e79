import Verif.Proofs.Lines
import Verif.Props.Permeation

/-!
# C90: every step of a linear problem has exactly one solution
-/

open scoped BigOperators

set_option linter.unusedSectionVars false

namespace Festim.Weak

section
variable {Ω : Type} [Fintype Ω]

/-- The problem with another current solution. -/
def Problem.withSol {Γ : Type} {d : ℕ} (P : Problem Ω Γ d) (f : Fld Ω Γ d) : Problem Ω Γ d :=
  { P with mv := { P.mv with sol := f } }

/-- The problem with another previous solution. -/
def Problem.withPrev {Γ : Type} {d : ℕ} (P : Problem Ω Γ d) (f : Fld Ω Γ d) : Problem Ω Γ d :=
  { P with mv := { P.mv with prev := f } }

/-- The nodal values `u` solve the problem: they have the values `val` at the ends with a Dirichlet condition, and
the residual vanishes for all the test functions which vanish there. -/
def LineSolves (L : Line Ω) (P : Problem Ω Bool 1) (bcs : List (MobBC Bool)) (dir : Bool → Prop)
    (val : Bool → ℝ) (u : ℕ → ℝ) : Prop :=
  (∀ q, dir q → (L.p1 u).tr q = val q) ∧
  ∀ v : ℕ → ℝ, (∀ q, dir q → (L.p1 v).tr q = 0) →
    ∃ F, (P.withSol (L.p1 u)).form bcs (L.p1 v) [] = .ok F ∧ P.mesh.assemble F = 0

/-- Flux conditions which depend on the concentration in an affine way. -/
def AffineFlux : MobBC Bool → Prop
  | .flux (.value _) _ => True
  | .flux (.dissoc _ _ _) _ => True
  | .flux (.mass h _) _ => ∀ q, 0 ≤ h q
  | _ => False

/-- A linear problem on a line: no traps; conservation of the chemical potential with Sieverts materials only; imposed
fluxes, dissociation and mass fluxes; given sources and radioactive decay; steady or transient.  In steady state the
level of the concentration must be fixed by a Dirichlet condition or a mass flux. -/
structure LinearLine (L : Line Ω) (P : Problem Ω Bool 1) (bcs : List (MobBC Bool)) (mat : Ω → Mat)
    (matS : Bool → Mat) (dir : Bool → Prop) : Prop where
  mesh : ∃ r, P.mesh = L.mesh r
  weights : ∀ p, 0 ≤ L.w p
  cover : Covers P.mesh P.mats mat
  solubility : Solubility P mat matS
  law : P.mv.theta = true → ∀ a ∈ P.mats, a.law = .sievert
  uniform : P.soret = true ∨ P.mv.theta = true → ∀ p, P.T.T.grad p 0 = 0
  D_pos : ∀ a ∈ P.mats, 0 < a.D_0
  S_pos : P.mv.theta = true → ∀ a ∈ P.mats, 0 < a.S_0
  step : ∀ h, P.dt = some h → 0 < h
  traps : P.traps = []
  decay : ∀ s ∈ P.sources, ∀ lam, s.value = .decay lam → 0 ≤ lam
  fluxes : ∀ b ∈ bcs, AffineFlux b
  fixed : P.dt ≠ none ∨ ∃ q, dir q ∨
    ∃ h c ss, MobBC.flux (.mass h c) ss ∈ bcs ∧ P.mesh.sm q ∈ ss ∧ 0 < h q

/-- Concentration per unit of the unknown. -/
noncomputable def unitConc (theta : Bool) (mat : Mat) (T : ℝ) : ℝ :=
  if theta then arr mat.S_0 mat.E_S T else 1

theorem physConc_linear (theta : Bool) (mat : Mat) (T u : ℝ) (h : theta = true → mat.law = .sievert) :
    physConc theta mat T u = unitConc theta mat T * u := by
  cases theta with
  | false => simp [physConc, unitConc]
  | true => simp [physConc, unitConc, h rfl]

theorem list_combine {β : Type} (l : List β) (f a b : β → ℝ) (k m : ℝ)
    (h : ∀ x ∈ l, f x = k * a x + m * b x) :
    (l.map f).sum = k * (l.map a).sum + m * (l.map b).sum := by
  induction l with
  | nil => simp
  | cons x l ih =>
    simp only [List.map_cons, List.sum_cons]
    rw [h x (by simp), ih fun y hy => h y (by simp [hy])]
    ring

theorem list_sum_comm {β ι : Type} [Fintype ι] (l : List β) (f : β → ι → ℝ) :
    (l.map fun x => ∑ p, f x p).sum = ∑ p, (l.map fun x => f x p).sum := by
  induction l with
  | nil => simp
  | cons x l ih => simp [ih, Finset.sum_add_distrib]

/-- Decay constant of a source. -/
def Src.lam (s : Src Ω) : ℝ := match s.value with | .decay lam => lam | .given _ => 0

/-- Value of a given source. -/
def Src.rate (s : Src Ω) (p : Ω) : ℝ := match s.value with | .decay _ => 0 | .given f => f p

/-- Decay constants at a point, each as often as the volume is listed. -/
def decayAt (P : Problem Ω Bool 1) (p : Ω) : ℝ :=
  (P.sources.map fun s => (s.volumes.map fun vol => if P.mesh.vm p = vol then s.lam else 0).sum).sum

/-- Given sources at a point. -/
def givenAt (P : Problem Ω Bool 1) (p : Ω) : ℝ :=
  (P.sources.map fun s => (s.volumes.map fun vol => if P.mesh.vm p = vol then s.rate p else 0).sum).sum

theorem sources_linear (P : Problem Ω Bool 1) (c v : Ω → ℝ) :
    (P.sources.map fun s => (s.volumes.map fun vol =>
      volumeOf P.mesh vol fun p => srcRate s (c p) p * v p).sum).sum
      = ∑ p, P.mesh.w p * ((givenAt P p - decayAt P p * c p) * v p) := by
  have e1 : ∀ s : Src Ω, ∀ vol, (volumeOf P.mesh vol fun p => srcRate s (c p) p * v p)
      = ∑ p, if P.mesh.vm p = vol then P.mesh.w p * (srcRate s (c p) p * v p) else 0 := by
    intro s vol
    unfold volumeOf
    rw [Finset.sum_filter]
  simp only [e1, list_sum_comm]
  refine Finset.sum_congr rfl fun p _ => ?_
  unfold givenAt decayAt
  rw [list_combine P.sources _
    (fun s => (s.volumes.map fun vol => if P.mesh.vm p = vol then s.rate p else 0).sum)
    (fun s => (s.volumes.map fun vol => if P.mesh.vm p = vol then s.lam else 0).sum)
    (P.mesh.w p * v p) (-(P.mesh.w p * c p * v p))]
  · ring
  intro s _
  apply list_combine
  intro vol _
  by_cases hv : P.mesh.vm p = vol
  · simp only [hv, if_true, srcRate, Src.rate, Src.lam]
    cases s.value <;> simp only <;> ring
  · simp [hv]

/-- Exchange coefficient of a flux condition at an end, as often as the surface is listed. -/
def bcExchange (P : Problem Ω Bool 1) (q : Bool) : MobBC Bool → ℝ
  | .flux (.mass h _) ss => (ss.map fun s => if P.mesh.sm q = s then h q else 0).sum
  | _ => 0

/-- Flux at an end for zero concentration. -/
noncomputable def bcGiven (P : Problem Ω Bool 1) (q : Bool) : MobBC Bool → ℝ
  | .flux f ss => (ss.map fun s => if P.mesh.sm q = s then inward f (P.T.T.tr q) 0 q else 0).sum
  | _ => 0

/-- Sums over the conditions. -/
def exchangeAt (P : Problem Ω Bool 1) (bcs : List (MobBC Bool)) (q : Bool) : ℝ :=
  (bcs.map (bcExchange P q)).sum

noncomputable def fluxAt (P : Problem Ω Bool 1) (bcs : List (MobBC Bool)) (q : Bool) : ℝ :=
  (bcs.map (bcGiven P q)).sum

theorem fluxes_linear (L : Line Ω) (P : Problem Ω Bool 1) (bcs : List (MobBC Bool)) (r : Fld Ω Bool 1)
    (hm : P.mesh = L.mesh r) (ha : ∀ b ∈ bcs, AffineFlux b) (c v : Bool → ℝ) :
    (bcs.map (bcInflow P.mesh P.T.T.tr c v)).sum
      = ∑ q, (fluxAt P bcs q - exchangeAt P bcs q * c q) * v q := by
  have hws : ∀ q, P.mesh.ws q = 1 := by intro q; rw [hm]; rfl
  have e1 : ∀ b ∈ bcs, bcInflow P.mesh P.T.T.tr c v b
      = ∑ q, (v q * bcGiven P q b + -(c q * v q) * bcExchange P q b) := by
    intro b hb
    have hb' := ha b hb
    cases b with
    | sk b vs => exact absurd hb' (by simp [AffineFlux])
    | flux f ss =>
      have e2 : bcInflow P.mesh P.T.T.tr c v (.flux f ss)
          = ∑ q, (ss.map fun s => if P.mesh.sm q = s then
              inward f (P.T.T.tr q) (c q) q * v q else 0).sum := by
        rw [← list_sum_comm]
        simp only [bcInflow]
        congr 1
        apply List.map_congr_left
        intro s _
        unfold surface
        rw [Finset.sum_filter]
        refine Finset.sum_congr rfl fun q _ => ?_
        rw [hws, one_mul]
      rw [e2]
      refine Finset.sum_congr rfl fun q _ => ?_
      cases f with
      | mass h ce =>
        apply list_combine
        intro s _
        by_cases hs : P.mesh.sm q = s <;> simp [hs, inward]
        ring
      | value g =>
        simp only [bcGiven, bcExchange, mul_zero, add_zero]
        rw [← List.sum_map_mul_left]
        congr 1
        apply List.map_congr_left
        intro s _
        by_cases hs : P.mesh.sm q = s <;> simp [hs, inward]
        ring
      | dissoc Kd E pr =>
        simp only [bcGiven, bcExchange, mul_zero, add_zero]
        rw [← List.sum_map_mul_left]
        congr 1
        apply List.map_congr_left
        intro s _
        by_cases hs : P.mesh.sm q = s <;> simp [hs, inward]
        ring
      | recomb Kr E n => exact absurd hb' (by simp [AffineFlux])
      | convective h Te => exact absurd hb' (by simp [AffineFlux])
      | custom g => exact absurd hb' (by simp [AffineFlux])
  rw [List.map_congr_left e1, list_sum_comm]
  refine Finset.sum_congr rfl fun q _ => ?_
  unfold fluxAt exchangeAt
  rw [list_combine bcs _ (bcGiven P q) (bcExchange P q) (v q) (-(c q * v q)) fun _ _ => rfl]
  ring

variable {L : Line Ω} {P : Problem Ω Bool 1} {bcs : List (MobBC Bool)} {mat : Ω → Mat}
  {matS : Bool → Mat} {dir : Bool → Prop}

/-- Reaction coefficient: capacity over the stepsize, and decay. -/
noncomputable def reactionOf (P : Problem Ω Bool 1) (mat : Ω → Mat) (p : Ω) : ℝ :=
  ((match P.dt with | some h => 1 / h | none => 0) + decayAt P p)
    * unitConc P.mv.theta (mat p) (P.T.T.val p)

noncomputable def exchangeOf (P : Problem Ω Bool 1) (bcs : List (MobBC Bool)) (matS : Bool → Mat)
    (q : Bool) : ℝ :=
  exchangeAt P bcs q * unitConc P.mv.theta (matS q) (P.T.T.tr q)

noncomputable def loadOf (P : Problem Ω Bool 1) (mat : Ω → Mat) (p : Ω) : ℝ :=
  (match P.dt with | some h => P.cPrev mat p / h | none => 0) + givenAt P p

theorem LinearLine.formOk (hP : LinearLine L P bcs mat matS dir) (u v : ℕ → ℝ) :
    ∃ F, (P.withSol (L.p1 u)).form bcs (L.p1 v) [] = .ok F := by
  unfold Problem.form mobileForm diffusionForm Problem.withSol
  simp only [hP.traps]
  exact ⟨_, rfl⟩

theorem LinearLine.noSK (hP : LinearLine L P bcs mat matS dir) : ∀ b vs, MobBC.sk b vs ∉ bcs :=
  fun b vs h => hP.fluxes _ h

theorem LinearLine.matS_law (hP : LinearLine L P bcs mat matS dir) (q : Bool) :
    P.mv.theta = true → (matS q).law = .sievert :=
  fun h => hP.law h _ (hP.solubility.memS h q)

/-- The residual, as a bilinear form minus a linear one. -/
theorem LinearLine.residual (hP : LinearLine L P bcs mat matS dir) (u v : ℕ → ℝ) (F : Form Ω Bool)
    (hF : (P.withSol (L.p1 u)).form bcs (L.p1 v) [] = .ok F) :
    P.mesh.assemble F
      = bil L (reactionOf P mat) (conductivity P mat) (exchangeOf P bcs matS) u v
        - lin L (loadOf P mat) (fluxAt P bcs) v := by
  obtain ⟨r, hm⟩ := hP.mesh
  have hmt : P.mesh.type = .cartesian := by rw [hm]; rfl
  have hsol : Solubility (P.withSol (L.p1 u)) mat matS :=
    ⟨hP.solubility.vol, hP.solubility.memS, hP.solubility.hasS, hP.solubility.surf⟩
  have hflux : ∀ p, dot (gradFlux P.soret P.mv.theta (mat p) (P.T.T.val p) ((L.p1 u).val p)
      (P.T.T.grad p) ((L.p1 u).grad p)) (coordGrad P.mesh (L.p1 v) p)
      = conductivity P mat p * ((L.p1 u).grad p 0 * (L.p1 v).grad p 0) := by
    intro p
    have hlaw := fun h => hP.law h _ (hP.cover.mem p)
    have hu := hP.uniform
    unfold dot
    rw [Fin.sum_univ_one]
    unfold gradFlux conductivity
    simp only [coordGrad, hmt]
    cases hth : P.mv.theta with
    | false =>
      cases hs : P.soret with
      | false => simp [physGrad]; ring
      | true => simp [physGrad, hu (Or.inl hs) p]; ring
    | true =>
      have hl := hlaw hth
      have h0 := hu (Or.inr hth) p
      simp only [physGrad, hl, h0, mul_zero, add_zero, if_true, ite_self]
      ring
  have hc : ∀ p, (P.withSol (L.p1 u)).c mat p
      = unitConc P.mv.theta (mat p) (P.T.T.val p) * (L.p1 u).val p := fun p =>
    physConc_linear _ _ _ _ fun h => hP.law h _ (hP.cover.mem p)
  have hcS : ∀ q, (P.withSol (L.p1 u)).cS matS q
      = unitConc P.mv.theta (matS q) (P.T.T.tr q) * (L.p1 u).tr q := fun q =>
    physConc_linear _ _ _ _ (hP.matS_law q)
  have hsup : supply (P.withSol (L.p1 u)) bcs mat matS (L.p1 v)
      = (∑ p, L.w p * ((givenAt P p - decayAt P p
            * (unitConc P.mv.theta (mat p) (P.T.T.val p) * (L.p1 u).val p)) * (L.p1 v).val p))
        + ∑ q, (fluxAt P bcs q - exchangeAt P bcs q
            * (unitConc P.mv.theta (matS q) (P.T.T.tr q) * (L.p1 u).tr q)) * (L.p1 v).tr q := by
    unfold supply
    have h1 : (P.withSol (L.p1 u)).traps = [] := hP.traps
    rw [h1]
    simp only [List.map_nil, List.sum_nil, add_zero]
    congr 1
    · rw [sources_linear (P.withSol (L.p1 u)) _ (L.p1 v).val]
      refine Finset.sum_congr rfl fun p _ => ?_
      rw [hc p]
      have : (P.withSol (L.p1 u)).mesh.w p = L.w p := by
        show P.mesh.w p = _
        rw [hm]
        rfl
      rw [this]
      rfl
    · rw [fluxes_linear L (P.withSol (L.p1 u)) bcs r hm hP.fluxes]
      refine Finset.sum_congr rfl fun q _ => ?_
      rw [hcS q]
      rfl
  have hwm : ∀ p, P.mesh.w p = L.w p := by intro p; rw [hm]; rfl
  have hbil : bil L (reactionOf P mat) (conductivity P mat) (exchangeOf P bcs matS) u v
        - lin L (loadOf P mat) (fluxAt P bcs) v
      = (match P.dt with
          | some h => volume P.mesh (fun p => ((P.withSol (L.p1 u)).c mat p - P.cPrev mat p) / h
              * (L.p1 v).val p)
          | none => 0)
        + volume P.mesh (fun p => conductivity P mat p * ((L.p1 u).grad p 0 * (L.p1 v).grad p 0))
        - supply (P.withSol (L.p1 u)) bcs mat matS (L.p1 v) := by
    rw [hsup]
    have e0 : (match P.dt with
          | some h => volume P.mesh (fun p => ((P.withSol (L.p1 u)).c mat p - P.cPrev mat p) / h
              * (L.p1 v).val p)
          | none => 0) = ∑ p, L.w p * (((match P.dt with | some h => 1 / h | none => 0)
              * (unitConc P.mv.theta (mat p) (P.T.T.val p) * (L.p1 u).val p)
              - (match P.dt with | some h => P.cPrev mat p / h | none => 0)) * (L.p1 v).val p) := by
      cases P.dt with
      | none => simp
      | some h =>
        unfold volume
        refine Finset.sum_congr rfl fun p _ => ?_
        simp only [hwm, hc]
        ring
    rw [e0]
    unfold bil lin volume
    simp only [hwm]
    rw [← Finset.sum_add_distrib, add_sub_add_comm, ← Finset.sum_sub_distrib, ← Finset.sum_sub_distrib,
      ← sub_sub, ← Finset.sum_sub_distrib, sub_eq_add_neg (Finset.sum _ _) (Finset.sum _ _),
      ← Finset.sum_neg_distrib]
    congr 1
    · refine Finset.sum_congr rfl fun p _ => ?_
      unfold reactionOf loadOf
      ring
    · refine Finset.sum_congr rfl fun q _ => ?_
      unfold exchangeOf
      ring
  rw [hbil]
  cases hdt : P.dt with
  | none =>
    have e := steady_weak_form (P.withSol (L.p1 u)) bcs mat matS (L.p1 v) F hdt hP.cover hsol
      (by rw [show (P.withSol (L.p1 u)).mesh.type = .cartesian from hmt]; simp) hP.traps hP.noSK hF
    rw [show P.mesh = (P.withSol (L.p1 u)).mesh from rfl, e, zero_add]
    congr 2
    funext p
    exact hflux p
  | some h =>
    have e := Festim.Props.C41_weak_form (P.withSol (L.p1 u)) bcs mat matS h (L.p1 v) F hdt hP.cover hsol
      (by rw [show (P.withSol (L.p1 u)).mesh.type = .cartesian from hmt]; simp)
      (fun b vs hb => absurd hb (hP.noSK b vs)) (Or.inr hP.noSK)
      (by rw [show (P.withSol (L.p1 u)).traps = [] from hP.traps]; exact hF)
    rw [show P.mesh = (P.withSol (L.p1 u)).mesh from rfl, e]
    have ht : (P.withSol (L.p1 u)).traps = [] := hP.traps
    simp only [stock, stockPrev, bcStock_zero _ _ _ _ _ hP.noSK, ht, List.map_nil, List.sum_nil, add_zero]
    congr 2
    · rw [← volume_sub, div_eq_inv_mul, ← volume_smul]
      congr 1
      funext p
      rw [show (P.withSol (L.p1 u)).cPrev mat p = P.cPrev mat p from rfl]
      ring
    · congr 1
      funext p
      exact hflux p

theorem unitConc_pos {theta : Bool} {a : Mat} {T : ℝ} (h : theta = true → 0 < a.S_0) :
    0 < unitConc theta a T := by
  unfold unitConc
  split
  · rename_i ht
    exact arr_pos (h ht)
  · exact one_pos

theorem decayAt_nonneg (P : Problem Ω Bool 1)
    (hd : ∀ s ∈ P.sources, ∀ lam, s.value = .decay lam → 0 ≤ lam) (p : Ω) : 0 ≤ decayAt P p := by
  unfold decayAt
  apply List.sum_nonneg
  intro x hx
  obtain ⟨s, hs, rfl⟩ := List.mem_map.1 hx
  apply List.sum_nonneg
  intro y hy
  obtain ⟨vol, _, rfl⟩ := List.mem_map.1 hy
  split
  · unfold Src.lam
    cases hv : s.value with
    | given f => exact le_rfl
    | decay lam => exact hd s hs lam hv
  · exact le_rfl

theorem exchange_term_nonneg (P : Problem Ω Bool 1) {b : MobBC Bool} (hb : AffineFlux b) (q : Bool) :
    0 ≤ bcExchange P q b := by
  unfold bcExchange
  split
  · rename_i h c ss
    apply List.sum_nonneg
    intro y hy
    obtain ⟨s, _, rfl⟩ := List.mem_map.1 hy
    split
    · exact hb q
    · exact le_rfl
  · exact le_rfl

theorem exchangeAt_nonneg (P : Problem Ω Bool 1) (bcs : List (MobBC Bool)) (ha : ∀ b ∈ bcs, AffineFlux b)
    (q : Bool) : 0 ≤ exchangeAt P bcs q := by
  unfold exchangeAt
  apply List.sum_nonneg
  intro x hx
  obtain ⟨b, hb, rfl⟩ := List.mem_map.1 hx
  exact exchange_term_nonneg P (ha b hb) q

theorem exchangeAt_pos (P : Problem Ω Bool 1) (bcs : List (MobBC Bool)) (ha : ∀ b ∈ bcs, AffineFlux b)
    (q : Bool) (h c : Bool → ℝ) (ss : List ℕ) (hmem : MobBC.flux (.mass h c) ss ∈ bcs)
    (hs : P.mesh.sm q ∈ ss) (hpos : 0 < h q) : 0 < exchangeAt P bcs q := by
  unfold exchangeAt
  have h1 : 0 < (ss.map fun s => if P.mesh.sm q = s then h q else 0).sum := by
    refine lt_of_lt_of_le hpos (List.single_le_sum ?_ _ (List.mem_map.2 ⟨_, hs, by simp⟩))
    intro y hy
    obtain ⟨s, _, rfl⟩ := List.mem_map.1 hy
    split
    · exact hpos.le
    · exact le_rfl
  refine lt_of_lt_of_le h1 (List.single_le_sum ?_ _ (List.mem_map.2 ⟨_, hmem, rfl⟩))
  intro x hx
  obtain ⟨b, hb, rfl⟩ := List.mem_map.1 hx
  exact exchange_term_nonneg P (ha b hb) q

theorem conductivity_pos (hP : LinearLine L P bcs mat matS dir) (p : Ω) : 0 < conductivity P mat p := by
  unfold conductivity
  refine mul_pos (arr_pos (hP.D_pos _ (hP.cover.mem p))) ?_
  exact unitConc_pos (fun h => hP.S_pos h _ (hP.cover.mem p))

theorem LinearLine.coercive (hP : LinearLine L P bcs mat matS dir) :
    Coercive L (reactionOf P mat) (conductivity P mat) (exchangeOf P bcs matS) dir := by
  have hu : ∀ p, 0 < unitConc P.mv.theta (mat p) (P.T.T.val p) := fun p =>
    unitConc_pos fun h => hP.S_pos h _ (hP.cover.mem p)
  have hS : ∀ q, 0 < unitConc P.mv.theta (matS q) (P.T.T.tr q) := fun q =>
    unitConc_pos fun h => hP.S_pos h _ (hP.solubility.memS h q)
  have hd := decayAt_nonneg P hP.decay
  refine ⟨hP.weights, ?_, conductivity_pos hP, ?_, ?_⟩
  · intro p
    unfold reactionOf
    refine mul_nonneg (add_nonneg ?_ (hd p)) (hu p).le
    cases hdt : P.dt with
    | none => exact le_rfl
    | some h => exact (one_div_pos.2 (hP.step h hdt)).le
  · intro q
    exact mul_nonneg (exchangeAt_nonneg P bcs hP.fluxes q) (hS q).le
  · rcases hP.fixed with h1 | ⟨q, h1 | ⟨h, c, ss, h1, h2, h3⟩⟩
    · left
      intro p
      unfold reactionOf
      refine mul_pos (add_pos_of_pos_of_nonneg ?_ (hd p)) (hu p)
      cases hdt : P.dt with
      | none => exact absurd hdt h1
      | some h => exact one_div_pos.2 (hP.step h hdt)
    · exact Or.inr ⟨q, Or.inl h1⟩
    · exact Or.inr ⟨q, Or.inr (mul_pos (exchangeAt_pos P bcs hP.fluxes q h c ss h1 h2 h3) (hS q))⟩

/-! ### Heat -/

/-- Imposed heat fluxes and convective fluxes. -/
def AffineHeat : Flux Bool → Prop
  | .value _ => True
  | .convective h _ => ∀ q, 0 ≤ h q
  | _ => False

/-- A heat problem on a line with properties which do not depend on the temperature. -/
structure LinearHeat (L : Line Ω) (r : Fld Ω Bool 1) (mats : List Mat) (mat : Ω → Mat) (dt : Option ℝ)
    (bcs : List (Flux Bool × List ℕ)) (cap cond : Ω → ℝ) (dir : Bool → Prop) : Prop where
  weights : ∀ p, 0 ≤ L.w p
  cover : Covers (L.mesh r) mats mat
  capacity : ∀ p T, (mat p).vcap T = cap p
  conduct : ∀ p T, (mat p).cond T = cond p
  cap_pos : ∀ p, 0 < cap p
  cond_pos : ∀ p, 0 < cond p
  step : ∀ h, dt = some h → 0 < h
  fluxes : ∀ b ∈ bcs, AffineHeat b.1
  fixed : dt ≠ none ∨ ∃ q, dir q ∨
    ∃ h Te ss, ((Flux.convective h Te, ss) : Flux Bool × List ℕ) ∈ bcs ∧ (L.mesh r).sm q ∈ ss ∧ 0 < h q

/-- The temperatures `u` at the nodes solve the heat problem. -/
def HeatSolves (L : Line Ω) (r : Fld Ω Bool 1) (mats : List Mat) (dt : Option ℝ)
    (sources : List ((Ω → ℝ) × List ℕ)) (bcs : List (Flux Bool × List ℕ)) (Tn : Fld Ω Bool 1)
    (dir : Bool → Prop) (val : Bool → ℝ) (u : ℕ → ℝ) : Prop :=
  (∀ q, dir q → (L.p1 u).tr q = val q) ∧
  ∀ v : ℕ → ℝ, (∀ q, dir q → (L.p1 v).tr q = 0) →
    (L.mesh r).assemble (heatForm (L.mesh r) mats ⟨L.p1 u, Tn⟩ dt sources bcs (L.p1 v)) = 0

noncomputable def heatBcExchange (L : Line Ω) (r : Fld Ω Bool 1) (q : Bool) (b : Flux Bool × List ℕ) : ℝ :=
  match b with
  | (.convective h _, ss) => (ss.map fun s => if (L.mesh r).sm q = s then h q else 0).sum
  | _ => 0

noncomputable def heatBcGiven (L : Line Ω) (r : Fld Ω Bool 1) (q : Bool) (b : Flux Bool × List ℕ) : ℝ :=
  (b.2.map fun s => if (L.mesh r).sm q = s then inward b.1 0 0 q else 0).sum

def heatGivenAt (L : Line Ω) (sources : List ((Ω → ℝ) × List ℕ)) (p : Ω) : ℝ :=
  (sources.map fun s => (s.2.map fun vol => if L.vm p = vol then s.1 p else 0).sum).sum

theorem heatSupply_linear (L : Line Ω) (r : Fld Ω Bool 1) (sources : List ((Ω → ℝ) × List ℕ))
    (bcs : List (Flux Bool × List ℕ)) (ha : ∀ b ∈ bcs, AffineHeat b.1) (T : Bool → ℝ) (v : Fld Ω Bool 1) :
    heatSupply (L.mesh r) sources bcs T v
      = (∑ p, L.w p * (heatGivenAt L sources p * v.val p))
        + ∑ q, ((bcs.map (heatBcGiven L r q)).sum - (bcs.map (heatBcExchange L r q)).sum * T q) * v.tr q := by
  unfold heatSupply
  congr 1
  · have e1 : ∀ (s : (Ω → ℝ) × List ℕ) vol, (volumeOf (L.mesh r) vol fun p => s.1 p * v.val p)
        = ∑ p, L.w p * v.val p * if L.vm p = vol then s.1 p else 0 := by
      intro s vol
      unfold volumeOf
      rw [Finset.sum_filter]
      refine Finset.sum_congr rfl fun p _ => ?_
      change (if L.vm p = vol then L.w p * (s.1 p * v.val p) else 0) = _
      split <;> ring
    simp only [e1, list_sum_comm, List.sum_map_mul_left]
    refine Finset.sum_congr rfl fun p _ => ?_
    unfold heatGivenAt
    ring
  · have hbc : ∀ b ∈ bcs, (b.2.map fun s => surface (L.mesh r) s fun q =>
        inward b.1 (T q) 0 q * v.tr q).sum
        = ∑ q, (v.tr q * heatBcGiven L r q b + -(T q * v.tr q) * heatBcExchange L r q b) := by
      intro b hb
      have hb' := ha b hb
      obtain ⟨f, ss⟩ := b
      have e2 : (ss.map fun s => surface (L.mesh r) s fun q => inward f (T q) 0 q * v.tr q).sum
          = ∑ q, (ss.map fun s => if (L.mesh r).sm q = s then inward f (T q) 0 q * v.tr q else 0).sum := by
        rw [← list_sum_comm]
        congr 1
        apply List.map_congr_left
        intro s _
        unfold surface
        rw [Finset.sum_filter]
        refine Finset.sum_congr rfl fun q _ => ?_
        rw [show (L.mesh r).ws q = 1 from rfl, one_mul]
      rw [e2]
      refine Finset.sum_congr rfl fun q _ => ?_
      cases f with
      | convective h Te =>
        apply list_combine
        intro s _
        by_cases hs : (L.mesh r).sm q = s <;> simp [hs, inward]
        ring
      | value g =>
        simp only [heatBcGiven, heatBcExchange, mul_zero, add_zero]
        rw [← List.sum_map_mul_left]
        congr 1
        apply List.map_congr_left
        intro s _
        by_cases hs : (L.mesh r).sm q = s <;> simp [hs, inward]
        ring
      | dissoc Kd E pr => exact absurd hb' (by simp [AffineHeat])
      | recomb Kr E n => exact absurd hb' (by simp [AffineHeat])
      | mass h ce => exact absurd hb' (by simp [AffineHeat])
      | custom g => exact absurd hb' (by simp [AffineHeat])
    rw [List.map_congr_left hbc, list_sum_comm]
    refine Finset.sum_congr rfl fun q _ => ?_
    rw [list_combine bcs _ (heatBcGiven L r q) (heatBcExchange L r q) (v.tr q) (-(T q * v.tr q))
      fun _ _ => rfl]
    ring

/-- Coefficients of the heat problem. -/
noncomputable def heatReaction (dt : Option ℝ) (cap : Ω → ℝ) (p : Ω) : ℝ :=
  match dt with | some h => cap p / h | none => 0

noncomputable def heatLoad (L : Line Ω) (dt : Option ℝ) (sources : List ((Ω → ℝ) × List ℕ)) (cap : Ω → ℝ)
    (Tn : Fld Ω Bool 1) (p : Ω) : ℝ :=
  heatReaction dt cap p * Tn.val p + heatGivenAt L sources p

theorem heat_mass (L : Line Ω) (r : Fld Ω Bool 1) (mat : Ω → Mat) (cap : Ω → ℝ)
    (hc : ∀ p T, (mat p).vcap T = cap p) (dt : Option ℝ) (T Tn v : Ω → ℝ) :
    (match dt with
      | some h => volume (L.mesh r) (fun p => (mat p).vcap (T p) * (T p - Tn p) / h * v p)
      | none => 0)
      = ∑ p, L.w p * (heatReaction dt cap p * (T p - Tn p) * v p) := by
  cases dt with
  | none => simp [heatReaction]
  | some h =>
    unfold volume
    refine Finset.sum_congr rfl fun p _ => ?_
    simp only [Line.mesh, hc, heatReaction]
    ring

theorem LinearHeat.residual {r : Fld Ω Bool 1} {mats : List Mat} {dt : Option ℝ}
    {bcs : List (Flux Bool × List ℕ)} {cap cond : Ω → ℝ}
    (hP : LinearHeat L r mats mat dt bcs cap cond dir) (sources : List ((Ω → ℝ) × List ℕ))
    (Tn : Fld Ω Bool 1) (u v : ℕ → ℝ) :
    (L.mesh r).assemble (heatForm (L.mesh r) mats ⟨L.p1 u, Tn⟩ dt sources bcs (L.p1 v))
      = bil L (heatReaction dt cap) cond (fun q => (bcs.map (heatBcExchange L r q)).sum) u v
        - lin L (heatLoad L dt sources cap Tn) (fun q => (bcs.map (heatBcGiven L r q)).sum) v := by
  rw [Festim.Props.C58_weak_form (L.mesh r) mats _ dt sources bcs mat _ hP.cover (by simp [Line.mesh]),
    heatSupply_linear L r sources bcs hP.fluxes]
  have e1 : volume (L.mesh r) (fun p => dot (fun i => (mat p).cond ((L.p1 u).val p) * (L.p1 u).grad p i)
      (coordGrad (L.mesh r) (L.p1 v) p))
      = ∑ p, L.w p * (cond p * ((L.p1 u).grad p 0 * (L.p1 v).grad p 0)) := by
    unfold volume
    refine Finset.sum_congr rfl fun p _ => ?_
    unfold dot
    beta_reduce
    rw [Fin.sum_univ_one]
    simp only [hP.conduct, coordGrad, Line.mesh]
    ring
  simp only at e1 ⊢
  have e0 := heat_mass L r mat cap hP.capacity dt (L.p1 u).val Tn.val (L.p1 v).val
  refine (congrArg₂ (fun a b => a + b - _) e0 e1).trans ?_
  unfold bil lin
  rw [← Finset.sum_add_distrib, add_sub_add_comm, ← Finset.sum_sub_distrib, ← Finset.sum_sub_distrib,
    ← sub_sub, ← Finset.sum_sub_distrib, sub_eq_add_neg (Finset.sum _ _) (Finset.sum _ _),
    ← Finset.sum_neg_distrib]
  congr 1
  · refine Finset.sum_congr rfl fun p _ => ?_
    unfold heatLoad
    ring
  · refine Finset.sum_congr rfl fun q _ => ?_
    ring

theorem heatBcExchange_nonneg (L : Line Ω) (r : Fld Ω Bool 1) (q : Bool) {b : Flux Bool × List ℕ}
    (hb : AffineHeat b.1) : 0 ≤ heatBcExchange L r q b := by
  unfold heatBcExchange
  split
  · apply List.sum_nonneg
    intro y hy
    obtain ⟨s, _, rfl⟩ := List.mem_map.1 hy
    split
    · exact hb q
    · exact le_rfl
  · exact le_rfl

theorem LinearHeat.coercive {r : Fld Ω Bool 1} {mats : List Mat} {dt : Option ℝ}
    {bcs : List (Flux Bool × List ℕ)} {cap cond : Ω → ℝ}
    (hP : LinearHeat L r mats mat dt bcs cap cond dir) :
    Coercive L (heatReaction dt cap) cond (fun q => (bcs.map (heatBcExchange L r q)).sum) dir := by
  have hb : ∀ q, ∀ x ∈ bcs.map (heatBcExchange L r q), 0 ≤ x := by
    intro q x hx
    obtain ⟨b, hb, rfl⟩ := List.mem_map.1 hx
    exact heatBcExchange_nonneg L r q (hP.fluxes b hb)
  refine ⟨hP.weights, ?_, hP.cond_pos, fun q => List.sum_nonneg (hb q), ?_⟩
  · intro p
    unfold heatReaction
    cases hdt : dt with
    | none => exact le_rfl
    | some h => exact (div_pos (hP.cap_pos p) (hP.step h hdt)).le
  · rcases hP.fixed with h1 | ⟨q, h1 | ⟨h, Te, ss, h1, h2, h3⟩⟩
    · left
      intro p
      unfold heatReaction
      cases hdt : dt with
      | none => exact absurd hdt h1
      | some h => exact div_pos (hP.cap_pos p) (hP.step h hdt)
    · exact Or.inr ⟨q, Or.inl h1⟩
    · refine Or.inr ⟨q, Or.inr ?_⟩
      refine lt_of_lt_of_le ?_ (List.single_le_sum (hb q) _ (List.mem_map.2 ⟨_, h1, rfl⟩))
      simp only [heatBcExchange]
      refine lt_of_lt_of_le h3 (List.single_le_sum ?_ _ (List.mem_map.2 ⟨_, h2, by simp⟩))
      intro y hy
      obtain ⟨s, _, rfl⟩ := List.mem_map.1 hy
      split
      · exact h3.le
      · exact le_rfl

end

end Festim.Weak

namespace Festim.Props

open Festim.Weak

section
variable {Ω : Type} [Fintype Ω] {L : Line Ω} {P : Problem Ω Bool 1} {bcs : List (MobBC Bool)} {mat : Ω → Mat}
  {matS : Bool → Mat} {dir : Bool → Prop}

/-- **C90 (a).** A linear problem has a solution, whatever the values imposed at the ends. -/
theorem C90_exists (hP : LinearLine L P bcs mat matS dir) (val : Bool → ℝ) :
    ∃ u, LineSolves L P bcs dir val u := by
  obtain ⟨u, h1, h2⟩ := bil_solve L hP.coercive (loadOf P mat) (fluxAt P bcs) val
  refine ⟨u, h1, fun v hv => ?_⟩
  obtain ⟨F, hF⟩ := hP.formOk u v
  exact ⟨F, hF, by rw [hP.residual u v F hF, h2 v hv, sub_self]⟩

/-- **C90 (b).** It has no other one: two solutions agree at all nodes. -/
theorem C90_unique (hP : LinearLine L P bcs mat matS dir) (val : Bool → ℝ) (u u' : ℕ → ℝ)
    (h : LineSolves L P bcs dir val u) (h' : LineSolves L P bcs dir val u') :
    ∀ i ≤ L.N, u i = u' i := by
  have key : ∀ u, LineSolves L P bcs dir val u → ∀ v : ℕ → ℝ, (∀ q, dir q → (L.p1 v).tr q = 0) →
      bil L (reactionOf P mat) (conductivity P mat) (exchangeOf P bcs matS) u v
        = lin L (loadOf P mat) (fluxAt P bcs) v := by
    intro u hu v hv
    obtain ⟨F, hF, h0⟩ := hu.2 v hv
    rw [hP.residual u v F hF] at h0
    linarith
  exact bil_unique L hP.coercive _ _ (fun q hq => by rw [h.1 q hq, h'.1 q hq]) (key u h) (key u' h')

theorem LinearLine.withPrev (hP : LinearLine L P bcs mat matS dir) (f : Fld Ω Bool 1) :
    LinearLine L (P.withPrev f) bcs mat matS dir where
  mesh := hP.mesh
  weights := hP.weights
  cover := hP.cover
  solubility := ⟨hP.solubility.vol, hP.solubility.memS, hP.solubility.hasS, hP.solubility.surf⟩
  law := hP.law
  uniform := hP.uniform
  D_pos := hP.D_pos
  S_pos := hP.S_pos
  step := hP.step
  traps := hP.traps
  decay := hP.decay
  fluxes := hP.fluxes
  fixed := hP.fixed

/-- **C90 (c).** A whole simulation: for any initial values and any data of the steps (stepsizes, temperatures,
sources, boundary conditions, all of them possibly different in each step) there is exactly one sequence of fields in
which each one solves its step with the one before as previous solution. -/
theorem C90_run (Ps : ℕ → Problem Ω Bool 1) (bcs : ℕ → List (MobBC Bool)) (mat : ℕ → Ω → Mat)
    (matS : ℕ → Bool → Mat) (dir : ℕ → Bool → Prop) (val : ℕ → Bool → ℝ)
    (hP : ∀ k, LinearLine L (Ps k) (bcs k) (mat k) (matS k) (dir k)) (u0 : ℕ → ℝ) :
    (∃ U : ℕ → ℕ → ℝ, U 0 = u0 ∧
      ∀ k, LineSolves L ((Ps k).withPrev (L.p1 (U k))) (bcs k) (dir k) (val k) (U (k + 1))) ∧
    ∀ U V : ℕ → ℕ → ℝ, U 0 = u0 → V 0 = u0 →
      (∀ k, LineSolves L ((Ps k).withPrev (L.p1 (U k))) (bcs k) (dir k) (val k) (U (k + 1))) →
      (∀ k, LineSolves L ((Ps k).withPrev (L.p1 (V k))) (bcs k) (dir k) (val k) (V (k + 1))) →
      ∀ k, ∀ i ≤ L.N, U k i = V k i := by
  refine ⟨?_, ?_⟩
  · choose next hnext using fun (k : ℕ) (u : ℕ → ℝ) =>
      C90_exists (LinearLine.withPrev (hP k) (L.p1 u)) (val k)
    exact ⟨fun k => Nat.rec u0 (fun k u => next k u) k, rfl, fun k => hnext k _⟩
  · intro U V hU hV h h' k
    induction k with
    | zero => intro i _; rw [hU, hV]
    | succ k ih =>
      have e : L.p1 (U k) = L.p1 (V k) := p1_congr L ih
      have h1 := h k
      rw [e] at h1
      exact C90_unique (LinearLine.withPrev (hP k) (L.p1 (V k))) (val k) _ _ h1 (h' k)

/-- **C90 (d).** A heat problem with properties independent of the temperature, imposed and convective fluxes has
exactly one solution, transient or (with a Dirichlet or convective condition) steady. -/
theorem C90_heat {r : Fld Ω Bool 1} {mats : List Mat} {dt : Option ℝ} {bcs : List (Flux Bool × List ℕ)}
    {cap cond : Ω → ℝ} (hP : LinearHeat L r mats mat dt bcs cap cond dir)
    (sources : List ((Ω → ℝ) × List ℕ)) (Tn : Fld Ω Bool 1) (val : Bool → ℝ) :
    (∃ u, HeatSolves L r mats dt sources bcs Tn dir val u) ∧
    ∀ u u', HeatSolves L r mats dt sources bcs Tn dir val u →
      HeatSolves L r mats dt sources bcs Tn dir val u' → ∀ i ≤ L.N, u i = u' i := by
  refine ⟨?_, ?_⟩
  · obtain ⟨u, h1, h2⟩ := bil_solve L hP.coercive (heatLoad L dt sources cap Tn)
      (fun q => (bcs.map (heatBcGiven L r q)).sum) val
    exact ⟨u, h1, fun v hv => by rw [hP.residual, h2 v hv, sub_self]⟩
  · intro u u' h h'
    refine bil_unique L hP.coercive (heatLoad L dt sources cap Tn)
      (fun q => (bcs.map (heatBcGiven L r q)).sum) (fun q hq => by rw [h.1 q hq, h'.1 q hq]) ?_ ?_
    · intro v hv
      have := h.2 v hv
      rw [hP.residual] at this
      linarith
    · intro v hv
      have := h'.2 v hv
      rw [hP.residual] at this
      linarith

end

/-! ### The two layers of `LineCase` with a mass flux on the right, a source and decay -/

namespace LineCase

noncomputable def linP (dt : Option ℝ) : Problem (Fin 2) Bool 1 :=
  { P with dt := dt, sources := [⟨.given fun _ => 3, [1]⟩, ⟨.decay 2, [1, 2]⟩] }

theorem linear_case (dt : Option ℝ) (hdt : ∀ h, dt = some h → 0 < h) :
    LinearLine L (linP dt) [.flux (.mass (fun _ => 2) fun _ => 1) [2], .flux (.value fun _ => 5) [1]]
      mat (fun q => if q then B else A) fun _ => False where
  mesh := ⟨_, rfl⟩
  weights := by simp [L]
  cover := ⟨by intro p; fin_cases p <;> simp [mat, linP, P],
    by intro p; fin_cases p <;> simp [mat, linP, P, L, Line.mesh, A, B], by simp [linP, P, A, B]⟩
  solubility := ⟨by simp [linP, P], by simp [linP, P], by simp [linP, P], by simp [linP, P]⟩
  law := by simp [linP, P]
  uniform := by simp [linP, P]
  D_pos := by simp [linP, P, A, B]
  S_pos := by simp [linP, P]
  step := hdt
  traps := rfl
  decay := by
    intro s hs lam hl
    simp only [linP, List.mem_cons, List.not_mem_nil, or_false] at hs
    rcases hs with rfl | rfl
    · simp at hl
    · simp only [SrcValue.decay.injEq] at hl
      rw [← hl]
      norm_num
  fluxes := by simp [AffineFlux]
  fixed := Or.inr ⟨true, Or.inr ⟨fun _ => 2, fun _ => 1, [2], by simp, by simp [linP, P, L, Line.mesh], by norm_num⟩⟩

example (val : Bool → ℝ) : ∃ u, LineSolves L (linP none)
    [.flux (.mass (fun _ => 2) fun _ => 1) [2], .flux (.value fun _ => 5) [1]] (fun _ => False) val u :=
  C90_exists (linear_case none (by simp)) val

example (val : Bool → ℝ) : ∃ u, LineSolves L (linP (some 1))
    [.flux (.mass (fun _ => 2) fun _ => 1) [2], .flux (.value fun _ => 5) [1]] (fun _ => False) val u :=
  C90_exists (linear_case (some 1) (by simp)) val

theorem heat_case : LinearHeat L (Fld.const 1) [hA, hB] hmat none [(.convective (fun _ => 1) fun _ => 20, [2])]
    (fun _ => 1) (fun p => if p = 0 then 1 else 2) (fun _ => False) where
  weights := by simp [L]
  cover := ⟨by intro p; fin_cases p <;> simp [hmat],
      by intro p; fin_cases p <;> simp [hmat, L, Line.mesh, hA, hB], by simp [hA, hB]⟩
  capacity := by intro p T; fin_cases p <;> simp [hmat, hA, hB, Mat.vcap]
  conduct := by intro p T; fin_cases p <;> simp [hmat, hA, hB]
  cap_pos := by simp
  cond_pos := by intro p; fin_cases p <;> simp
  step := by simp
  fluxes := by simp [AffineHeat]
  fixed := Or.inr ⟨true, Or.inr ⟨fun _ => 1, fun _ => 20, [2], by simp, by simp [L, Line.mesh], by norm_num⟩⟩

example : ∃ u, HeatSolves L (Fld.const 1) [hA, hB] none [(fun _ => 7, [1])]
    [(.convective (fun _ => 1) fun _ => 20, [2])] (Fld.const 0) (fun _ => False) (fun _ => 0) u :=
  (C90_heat heat_case _ _ _).1

end LineCase

end Festim.Props
