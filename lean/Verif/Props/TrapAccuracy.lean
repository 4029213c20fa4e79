import Verif.Proofs.TrapAccuracy
import Verif.Props.Accuracy
import Verif.Props.TrapElements

/-!
# C102: with traps, the results converge to the solution of the equations of diffusion and trapping

In 1D with any number of traps, continuous (`"CG"`) or discontinuous (`"DG"`) elements for the trapped concentrations.  The
computed values are compared with functions of which only ordinary derivatives are mentioned (Spec/Accuracy.lean,
Spec/Trapping.lean).
-/

open scoped BigOperators

namespace Festim.Weak

section
variable {Ω Γ : Type} [Fintype Ω] [Fintype Γ] {d : ℕ}

theorem trapLoop_any (mv : Mobile Ω Γ d) (T : Temp Ω Γ d) (trap : Trap Ω Γ d) (v v' : Fld Ω Γ d) (ms : List Mat) :
    ∀ i K, trapLoop mv T trap v i ms = .ok K → ∃ K', trapLoop mv T trap v' i ms = .ok K' := by
  induction ms with
  | nil => intro i K _; exact ⟨_, rfl⟩
  | cons b ms ih =>
    intro i K hK
    simp only [trapLoop, bind, Except.bind] at hK ⊢
    cases hp : trap.params i with
    | error e => rw [hp] at hK; cases hK
    | ok P =>
      rw [hp] at hK
      simp only at hK ⊢
      split_ifs at hK ⊢ with hth
      cases hl : trapLoop mv T trap v (i + 1) ms with
      | error e => rw [hl] at hK; cases hK
      | ok G =>
        obtain ⟨G', hG'⟩ := ih (i + 1) G hl
        rw [hG']
        exact ⟨_, rfl⟩

/-- The kinetics of a trap, tested with any function. -/
theorem trapLoop_value (m : Mesh Ω Γ d) (mv : Mobile Ω Γ d) (T : Temp Ω Γ d) (trap : Trap Ω Γ d) (v : Fld Ω Γ d)
    (F : Form Ω Γ) (hF : trapLoop mv T trap v 0 trap.materials = .ok F)
    (hnd : (trap.materials.flatMap (·.ids)).Nodup) (A B n c : Ω → ℝ)
    (hr : ∀ p, TrapRate m T trap p (A p) (B p) (n p))
    (hc : ∀ p, ∀ a ∈ trap.materials, m.vm p ∈ a.ids → physConc mv.theta a (T.T.val p) (mv.sol.val p) = c p) :
    m.assemble F = -∑ p, m.w p * (trapping (A p) (B p) (n p) (c p) (trap.sol.val p) * v.val p) := by
  obtain ⟨G, hG, e⟩ := trapLoop_lin m mv T trap v _ _ F hF
  rw [e, ← Finset.sum_neg_distrib]
  refine Finset.sum_congr rfl fun p _ => ?_
  rcases hr p with ⟨i, a, k, Ek, ν, Ep, nn, hi, ha, hrates, hA, hB, hn⟩ | ⟨hout, hA, hB⟩
  · obtain ⟨K', hK', -, e'⟩ := trapLoop_at m mv T trap p trap.materials 0 (G p) (hG p) hnd i a hi ha
    rw [zero_add] at hK'
    obtain ⟨h1, h2, h3, h4, h5⟩ := rates_unique (params_rates trap i K' hK') hrates
    rw [e', h1, h2, h3, h4, h5, hc p a (List.mem_of_getElem? hi) ha, hA, hB, hn]
    unfold trapping
    ring
  · rw [trapLoop_outside m mv T trap (ind p) _ _ (G p) (hG p), hA, hB]
    · simp [trapping]
    · intro a ha x hx
      by_cases hxp : x = p
      · subst hxp
        exact absurd hx (hout a ha)
      · exact ind_ne hxp

/-- The trap equation, tested with any function. -/
theorem trapForm_value (m : Mesh Ω Γ d) (mats : List Mat) (mv : Mobile Ω Γ d) (T : Temp Ω Γ d) (k : ℝ) (trap : Trap Ω Γ d)
    (v : Fld Ω Γ d) (F : Form Ω Γ) (hF : trapForm mats mv T (some k) trap v = .ok F)
    (hnd : (trap.materials.flatMap (·.ids)).Nodup) (hsrc : trap.sources = []) (A B n c : Ω → ℝ)
    (hr : ∀ p, TrapRate m T trap p (A p) (B p) (n p))
    (hc : ∀ p, ∀ a ∈ trap.materials, m.vm p ∈ a.ids → physConc mv.theta a (T.T.val p) (mv.sol.val p) = c p) :
    m.assemble F = ∑ p, m.w p * (((trap.sol.val p - trap.prev.val p) / k
      - trapping (A p) (B p) (n p) (c p) (trap.sol.val p)) * v.val p) := by
  obtain ⟨K, hK, e⟩ := trapForm_ok m mats mv T (some k) trap v F hF
  rw [e, trapLoop_value m mv T trap v K hK hnd A B n c hr hc]
  simp only [trapRest, hsrc, List.map_nil, List.sum_nil, sub_zero, volume]
  rw [← Finset.sum_neg_distrib, ← Finset.sum_add_distrib]
  refine Finset.sum_congr rfl fun p _ => ?_
  ring

/-- The equations of all the traps. -/
theorem trapsForm_sum (m : Mesh Ω Γ d) (mats : List Mat) (mv : Mobile Ω Γ d) (T : Temp Ω Γ d) (dt : Option ℝ) :
    ∀ (l : List (Trap Ω Γ d × Fld Ω Γ d)) (F : Form Ω Γ), trapsForm mats mv T dt l = .ok F →
      (∀ x ∈ l, ∃ F', trapForm mats mv T dt x.1 x.2 = .ok F') ∧
      m.assemble F = (l.map fun x => match trapForm mats mv T dt x.1 x.2 with
        | .ok F' => m.assemble F' | .error _ => 0).sum := by
  intro l
  induction l with
  | nil =>
    intro F h
    cases h
    exact ⟨by simp, by simp [assemble_nil]⟩
  | cons x l ih =>
    intro F h
    simp only [trapsForm, bind, Except.bind] at h
    cases hx : trapForm mats mv T dt x.1 x.2 with
    | error e => rw [hx] at h; cases h
    | ok F1 =>
      rw [hx] at h
      simp only at h
      cases hl : trapsForm mats mv T dt l with
      | error e => rw [hl] at h; cases h
      | ok F2 =>
        rw [hl] at h
        simp only [Except.ok.injEq] at h
        subst h
        obtain ⟨h1, h2⟩ := ih F2 hl
        refine ⟨?_, ?_⟩
        · intro y hy
          rcases List.mem_cons.1 hy with rfl | hy
          · exact ⟨_, hx⟩
          · exact h1 y hy
        · rw [assemble_append, h2, List.map_cons, List.sum_cons, hx]

/-- The problem without its traps. -/
def Problem.bare (P : Problem Ω Γ d) : Problem Ω Γ d := { P with traps := [] }

/-- The whole form: what it is without traps, minus the trapping terms, plus the equations of the traps. -/
theorem form_split (P : Problem Ω Γ d) (bcs : List (MobBC Γ)) (v : Fld Ω Γ d) (vt : List (Fld Ω Γ d)) (F : Form Ω Γ)
    (h : P.form bcs v vt = .ok F) :
    ∃ F0 K G, P.bare.form bcs v [] = .ok F0 ∧ mobileTraps P.mv P.T v P.traps = .ok K ∧
      trapsForm P.mats P.mv P.T P.dt (P.traps.zip vt) = .ok G ∧
      P.mesh.assemble F = P.mesh.assemble F0 - P.mesh.assemble K + P.mesh.assemble G := by
  simp only [Problem.form, mobileForm, diffusionForm, bind, Except.bind] at h
  cases hm : mobileTraps P.mv P.T v P.traps with
  | error e => rw [hm] at h; cases h
  | ok K =>
    rw [hm] at h
    simp only at h
    cases ht : trapsForm P.mats P.mv P.T P.dt (P.traps.zip vt) with
    | error e => rw [ht] at h; cases h
    | ok G =>
      rw [ht] at h
      simp only [Except.ok.injEq] at h
      subst h
      refine ⟨_, K, G, rfl, rfl, rfl, ?_⟩
      simp only [Problem.bare, mobileTraps, List.zip_nil_left, assemble_append, assemble_neg, assemble_nil,
        add_zero]
      ring

end

end Festim.Weak

namespace Festim.Props

open Run Spec Newton Solve Closed Weak

section
variable {Ω : Type} [Fintype Ω] {L : Line Ω} {x0 final : ℝ} {cap : ℕ → ℝ} {K lam : ℝ → ℕ → ℝ}
  {f : ℝ → ℕ → ℝ → ℝ} {w : ℝ → ℝ → ℝ} {slope curv : ℝ → ℕ → ℝ → ℝ} {rate : ℝ → ℝ → ℝ} {Mt Mtx Ml Mx : ℝ} {m : ℕ}
  {A B n z zrate : Fin m → ℝ → ℕ → ℝ → ℝ} {V : Set (Ω → ℝ)}

/-- The problem given to the solver for the step from `s` to `t`.  Without its traps the problem is that of
`StepData`; the traps `tr` have the rates `A`, `B` and the densities `n`.  `un`, `ctn` are the nodal values and the trapped
concentrations at the time `s`, `u` and `ct` those computed for the time `t`. -/
structure TrapData (L : Line Ω) (x0 : ℝ) (cap : ℕ → ℝ) (K lam : ℝ → ℕ → ℝ) (A B n : Fin m → ℝ → ℕ → ℝ → ℝ)
    (f : ℝ → ℕ → ℝ → ℝ) (w : ℝ → ℝ → ℝ) (slope : ℝ → ℕ → ℝ → ℝ) (ε s t : ℝ) (P : Problem Ω Bool 1)
    (bcs : List (MobBC Bool)) (mat : Ω → Mat) (matS : Bool → Mat) (dir : Bool → Prop) (val : Bool → ℝ)
    (tr : Fin m → Trap Ω Bool 1) (un u : ℕ → ℝ) (ctn ct : Fin m → Ω → ℝ) : Prop where
  linear : LinearLine L P.bare bcs mat matS dir
  data : StepData L x0 cap K lam f w slope ε s t P.bare bcs mat matS dir val
  before : P.mv.prev = L.p1 un
  now : P.mv.sol = L.p1 u
  traps : P.traps = List.ofFn tr
  mats : ∀ j, ∀ a ∈ (tr j).materials, a ∈ P.mats
  apart : ∀ j, ((tr j).materials.flatMap (·.ids)).Nodup
  noSource : ∀ j, (tr j).sources = []
  rates : ∀ j p, TrapRate P.mesh P.T (tr j) p (A j t (L.cell p) (L.pos x0 p)) (B j t (L.cell p) (L.pos x0 p))
    (n j t (L.cell p) (L.pos x0 p))
  trapBefore : ∀ j, (tr j).prev.val = ctn j
  trapNow : ∀ j, (tr j).sol.val = ct j

/-- The problem is solved, with the elements `V` for the traps. -/
structure TrapStep (L : Line Ω) (x0 : ℝ) (cap : ℕ → ℝ) (K lam : ℝ → ℕ → ℝ) (A B n : Fin m → ℝ → ℕ → ℝ → ℝ)
    (f : ℝ → ℕ → ℝ → ℝ) (w : ℝ → ℝ → ℝ) (slope : ℝ → ℕ → ℝ → ℝ) (V : Set (Ω → ℝ)) (ε s t : ℝ) (P : Problem Ω Bool 1)
    (bcs : List (MobBC Bool)) (mat : Ω → Mat) (matS : Bool → Mat) (dir : Bool → Prop) (val : Bool → ℝ)
    (tr : Fin m → Trap Ω Bool 1) (un u : ℕ → ℝ) (ctn ct : Fin m → Ω → ℝ) : Prop
    extends TrapData L x0 cap K lam A B n f w slope ε s t P bcs mat matS dir val tr un u ctn ct where
  space : ∀ j, ct j ∈ V
  solves : CoupledSolves L P bcs dir val V m

theorem zip_ofFn' {α β : Type} : ∀ {m : ℕ} (a : Fin m → α) (b : Fin m → β),
    (List.ofFn a).zip (List.ofFn b) = List.ofFn fun j => (a j, b j) := by
  intro m
  induction m with
  | zero => intro a b; simp
  | succ m ih => intro a b; rw [List.ofFn_succ, List.ofFn_succ, List.ofFn_succ, List.zip_cons_cons, ih]

variable {ε s t : ℝ} {P : Problem Ω Bool 1} {bcs : List (MobBC Bool)} {mat : Ω → Mat} {matS : Bool → Mat}
  {dir : Bool → Prop} {val : Bool → ℝ} {tr : Fin m → Trap Ω Bool 1} {un u : ℕ → ℝ} {ctn ct : Fin m → Ω → ℝ}

/-- The rate of the trap `j` at the points, with the computed concentrations. -/
noncomputable def stepRate (L : Line Ω) (x0 : ℝ) (cap : ℕ → ℝ) (A B n : Fin m → ℝ → ℕ → ℝ → ℝ) (t : ℝ) (u : ℕ → ℝ)
    (ct : Fin m → Ω → ℝ) (j : Fin m) (p : Ω) : ℝ :=
  trapping (A j t (L.cell p) (L.pos x0 p)) (B j t (L.cell p) (L.pos x0 p)) (n j t (L.cell p) (L.pos x0 p))
    (cap (L.cell p) * (L.p1 u).val p) (ct j p)

theorem TrapData.mass (h : TrapData L x0 cap K lam A B n f w slope ε s t P bcs mat matS dir val tr un u ctn ct) (p : Ω) :
    P.mesh.w p = L.w p := by
  obtain ⟨r, hr⟩ := h.linear.mesh
  have : P.mesh = L.mesh r := hr
  rw [this]
  rfl

theorem TrapData.conc (h : TrapData L x0 cap K lam A B n f w slope ε s t P bcs mat matS dir val tr un u ctn ct)
    (j : Fin m) (p : Ω) (a : Mat) (ha : a ∈ (tr j).materials) (hp : P.mesh.vm p ∈ a.ids) :
    physConc P.mv.theta a (P.T.T.val p) (P.mv.sol.val p) = cap (L.cell p) * (L.p1 u).val p := by
  have h1 : a = mat p := same_mat h.linear.cover.nodup (h.mats j a ha) (h.linear.cover.mem p) hp (h.linear.cover.has p)
  subst h1
  rw [physConc_linear P.mv.theta (mat p) _ _ fun hh => h.linear.law hh _ (h.linear.cover.mem p), h.now]
  congr 1
  exact h.data.content p

/-- The residual of the coupled problem. -/
theorem TrapData.residual (h : TrapData L x0 cap K lam A B n f w slope ε s t P bcs mat matS dir val tr un u ctn ct)
    (v : ℕ → ℝ) (vt : Fin m → Fld Ω Bool 1) (F : Form Ω Bool) (hF : P.form bcs (L.p1 v) (List.ofFn vt) = .ok F) :
    P.mesh.assemble F =
    bil L (fun p => (1 / (t - s) + lam t (L.cell p)) * cap (L.cell p)) (fun p => K t (L.cell p))
        (exchangeOf P.bare bcs matS) u v
      - lin L (fun p => cap (L.cell p) * (L.p1 un).val p / (t - s)
          + (givenAt P.bare p - ∑ j, stepRate L x0 cap A B n t u ct j p)) (fluxAt P.bare bcs) v
      + ∑ j, ∑ p, L.w p * (((ct j p - ctn j p) / (t - s) - stepRate L x0 cap A B n t u ct j p) * (vt j).val p) := by
  obtain ⟨F0, M, G, hF0, hM, hG, e⟩ := form_split P bcs _ _ F hF
  have hP0 : P.bare = (P.bare.withPrev (L.p1 un)).withSol (L.p1 u) := by
    simp only [Problem.bare, Problem.withPrev, Problem.withSol, ← h.before, ← h.now]
  have hdt : P.dt = some (t - s) := h.data.dt
  -- the mobile equation without traps
  have e0 : P.mesh.assemble F0
      = bil L (fun p => (1 / (t - s) + lam t (L.cell p)) * cap (L.cell p)) (fun p => K t (L.cell p))
        (exchangeOf P.bare bcs matS) u v
      - lin L (fun p => cap (L.cell p) * (L.p1 un).val p / (t - s) + givenAt P.bare p) (fluxAt P.bare bcs) v := by
    have hF0' := hF0
    rw [hP0] at hF0'
    have hr := (LinearLine.withPrev h.linear (L.p1 un)).residual u v F0 hF0'
    have e1 : reactionOf (P.bare.withPrev (L.p1 un)) mat = fun p => (1 / (t - s) + lam t (L.cell p)) * cap (L.cell p) := by
      funext p
      have h1 := h.data.content p
      have h2 := h.data.decay p
      simp only [reactionOf, Problem.withPrev, h.data.dt, h1]
      rw [← h2]
      rfl
    have e2 : conductivity (P.bare.withPrev (L.p1 un)) mat = fun p => K t (L.cell p) := funext h.data.conduct
    have e4 : loadOf (P.bare.withPrev (L.p1 un)) mat
        = fun p => cap (L.cell p) * (L.p1 un).val p / (t - s) + givenAt P.bare p := by
      funext p
      have hb : (P.bare.withPrev (L.p1 un)).cPrev mat p = cap (L.cell p) * (L.p1 un).val p := by
        rw [← h.data.before p]
        exact physConc_linear _ _ _ _ fun hh => h.linear.law hh _ (h.linear.cover.mem p)
      have hdt' : (P.bare.withPrev (L.p1 un)).dt = some (t - s) := h.data.dt
      simp only [loadOf, hdt', hb]
      rfl
    rw [e1, e2, e4] at hr
    exact hr
  -- the equations of the traps
  rw [h.traps, zip_ofFn', hdt] at hG
  obtain ⟨hok, eG⟩ := trapsForm_sum P.mesh P.mats P.mv P.T (some (t - s)) _ G hG
  have hj : ∀ j, ∃ F', trapForm P.mats P.mv P.T (some (t - s)) (tr j) (vt j) = .ok F' := fun j =>
    hok (tr j, vt j) (List.mem_ofFn.2 ⟨j, rfl⟩)
  have e1 : P.mesh.assemble G
      = ∑ j, ∑ p, L.w p * (((ct j p - ctn j p) / (t - s) - stepRate L x0 cap A B n t u ct j p) * (vt j).val p) := by
    rw [eG, List.map_ofFn, List.sum_ofFn]
    refine Finset.sum_congr rfl fun j _ => ?_
    obtain ⟨F', hF'⟩ := hj j
    simp only [Function.comp, hF']
    rw [trapForm_value P.mesh P.mats P.mv P.T _ (tr j) (vt j) F' hF' (h.apart j) (h.noSource j) _ _ _ _ (h.rates j)
      fun p a ha hp => h.conc j p a ha hp]
    refine Finset.sum_congr rfl fun p _ => ?_
    rw [h.mass p, h.trapNow, h.trapBefore]
    rfl
  -- the trapping in the mobile equation
  have e2 : P.mesh.assemble M = -∑ p, L.w p * ((∑ j, stepRate L x0 cap A B n t u ct j p) * (L.p1 v).val p) := by
    have hloop : ∀ j, ∃ G, trapLoop P.mv P.T (tr j) (L.p1 v) 0 (tr j).materials = .ok G := by
      intro j
      obtain ⟨F', hF'⟩ := hj j
      obtain ⟨K', hK', -⟩ := trapForm_ok P.mesh P.mats P.mv P.T _ (tr j) (vt j) F' hF'
      exact trapLoop_any _ _ _ _ _ _ _ _ hK'
    -- the rates as a function of the trap
    have key : ∀ (l : List (Fin m)) (M : Form Ω Bool), mobileTraps P.mv P.T (L.p1 v) (l.map tr) = .ok M →
        P.mesh.assemble M = -∑ p, L.w p * ((l.map fun j => stepRate L x0 cap A B n t u ct j p).sum * (L.p1 v).val p) := by
      intro l
      induction l with
      | nil =>
        intro M hM
        cases hM
        simp [assemble_nil]
      | cons j l ih =>
        intro M hM
        obtain ⟨G, hG⟩ := hloop j
        simp only [List.map_cons, mobileTraps, bind, Except.bind, trapLoop_mobile _ _ _ _ _ _ _ hG] at hM
        cases hl : mobileTraps P.mv P.T (L.p1 v) (l.map tr) with
        | error e => rw [hl] at hM; cases hM
        | ok M' =>
          rw [hl] at hM
          simp only [Except.ok.injEq] at hM
          subst hM
          rw [assemble_append, ih M' hl, trapLoop_value P.mesh P.mv P.T (tr j) _ G hG (h.apart j) _ _ _ _ (h.rates j)
            fun p a ha hp => h.conc j p a ha hp, ← neg_add, ← Finset.sum_add_distrib]
          congr 1
          refine Finset.sum_congr rfl fun p _ => ?_
          rw [List.map_cons, List.sum_cons, h.mass p, h.trapNow]
          unfold stepRate
          ring
    have hM' : mobileTraps P.mv P.T (L.p1 v) ((List.finRange m).map tr) = .ok M := by
      rw [← List.ofFn_eq_map, ← h.traps]
      exact hM
    rw [key _ M hM']
    congr 1
  rw [e, e0, e1, e2]
  have e3 : lin L (fun p => cap (L.cell p) * (L.p1 un).val p / (t - s)
          + (givenAt P.bare p - ∑ j, stepRate L x0 cap A B n t u ct j p)) (fluxAt P.bare bcs) v
      = lin L (fun p => cap (L.cell p) * (L.p1 un).val p / (t - s) + givenAt P.bare p) (fluxAt P.bare bcs) v
        - ∑ p, L.w p * ((∑ j, stepRate L x0 cap A B n t u ct j p) * (L.p1 v).val p) := by
    unfold lin
    rw [add_sub_right_comm, ← Finset.sum_sub_distrib]
    congr 1
    refine Finset.sum_congr rfl fun p _ => ?_
    ring
  rw [e3]
  ring

theorem elements_zero (hV : Elements L x0 final z V) : (fun _ => (0 : ℝ)) ∈ V := by
  rcases hV with rfl | ⟨rfl, -⟩
  · exact ⟨fun _ => 0, fun _ => 0, by simp⟩
  · exact ⟨fun _ => 0, by simp [Line.p1]⟩

theorem elements_interp (hV : Elements L x0 final z V) (j : Fin m) (ht : t ∈ Set.Icc 0 final) {η : Ω → ℝ} (hη : η ∈ V) :
    (fun p => η p - L.interp x0 (z j t) p) ∈ V := by
  rcases hV with rfl | ⟨rfl, hz⟩
  · obtain ⟨a, b, hab⟩ := hη
    refine ⟨fun i => a i - z j t i (L.node x0 i), fun i => b i - z j t i (L.node x0 (i + 1)), fun p => ?_⟩
    dsimp only
    rw [hab]
    unfold Line.interp
    ring
  · obtain ⟨a, ha⟩ := hη
    refine ⟨fun i => a i - (if i < L.N then z j t i (L.node x0 i) else z j t (i - 1) (L.node x0 i)), fun p => ?_⟩
    dsimp only
    rw [ha]
    have h1 := L.cell_lt p
    simp only [Line.p1, Line.interp, h1, if_true]
    have h2 : (if L.cell p + 1 < L.N then z j t (L.cell p + 1) (L.node x0 (L.cell p + 1))
        else z j t (L.cell p + 1 - 1) (L.node x0 (L.cell p + 1))) = z j t (L.cell p) (L.node x0 (L.cell p + 1)) := by
      split_ifs with hc
      · exact (hz j t ht _ hc).symm
      · rfl
    rw [h2]
    ring

/-- The interpolated trapped concentrations satisfy the equation up to the error of the discretisation. -/
theorem interp_rate (hL : L.Exact2) {Mzt Mz Mzr H : ℝ} (hs : 0 ≤ s) (hst : s < t) (ht : t ≤ final)
    (hH : ∀ i < L.N, L.h i ≤ H) {j : Fin m} (hz : Fills L x0 final cap (A j) (B j) (n j) w (z j) (zrate j))
    (hZ : FillsBy L x0 final (z j) (zrate j) Mzt Mz Mzr) (p : Ω) :
    |(L.interp x0 (z j t) p - L.interp x0 (z j s) p) / (t - s)
      - trapping (A j t (L.cell p) (L.pos x0 p)) (B j t (L.cell p) (L.pos x0 p)) (n j t (L.cell p) (L.pos x0 p))
        (cap (L.cell p) * w t (L.pos x0 p)) (z j t (L.cell p) (L.pos x0 p))|
      ≤ Mzt / 2 * (t - s) + Mzr * H ^ 2 / 8 := by
  have hi := L.cell_lt p
  have htm : t ∈ Set.Icc 0 final := ⟨hs.trans hst.le, ht⟩
  have hb : ∀ x ∈ L.span x0 (L.cell p), |(z j t (L.cell p) x - z j s (L.cell p) x) / (t - s) - zrate j t (L.cell p) x|
      ≤ Mzt / 2 * (t - s) := fun x hx =>
    backward (φ := fun r => z j r (L.cell p) x) (φ' := fun r => zrate j r (L.cell p) x) hs hst ht
      (fun r hr => hz.hasRate r hr _ hi x hx) fun r hr r' hr' => hZ.time _ hi x hx r hr r' hr'
  have h1 := hb _ (L.node_left_mem x0 _ hi)
  have h2 := hb _ (L.node_right_mem x0 _ hi)
  have h3 := nodal_interp L hL (zrate j t (L.cell p)) Mzr H p (hZ.bendRate t htm _ hi) (hH _ hi)
  rw [hz.equation t htm _ hi _ (L.pos_mem hL x0 p)] at h3
  have h0 := hL.lam_nonneg p
  have h0' := hL.lam_le p
  unfold Line.interp
  rw [abs_le] at h1 h2 h3 ⊢
  have k1 := mul_le_mul_of_nonneg_left h1.1 (sub_nonneg.2 h0')
  have k2 := mul_le_mul_of_nonneg_left h1.2 (sub_nonneg.2 h0')
  have k3 := mul_le_mul_of_nonneg_left h2.1 h0
  have k4 := mul_le_mul_of_nonneg_left h2.2 h0
  have e : ((1 - L.lam p) * z j t (L.cell p) (L.node x0 (L.cell p)) + L.lam p * z j t (L.cell p) (L.node x0 (L.cell p + 1))
      - ((1 - L.lam p) * z j s (L.cell p) (L.node x0 (L.cell p)) + L.lam p * z j s (L.cell p) (L.node x0 (L.cell p + 1))))
        / (t - s)
      = (1 - L.lam p) * ((z j t (L.cell p) (L.node x0 (L.cell p)) - z j s (L.cell p) (L.node x0 (L.cell p))) / (t - s))
        + L.lam p * ((z j t (L.cell p) (L.node x0 (L.cell p + 1)) - z j s (L.cell p) (L.node x0 (L.cell p + 1))) / (t - s)) := by
    ring
  rw [e]
  constructor <;> linarith [h3.1, h3.2]

/-- **C102.** One step with traps, as the code sets it up, from any state.  `total` measures the error on the mobile and the
trapped concentrations together. -/
theorem C102_step (hL : L.Exact2) {c0 : ℝ} (hc0 : 0 < c0) (hcap : ∀ i < L.N, c0 ≤ cap i)
    (hw : Diffuses L x0 final cap K lam (fun t i x => f t i x
      - ∑ j, trapping (A j t i x) (B j t i x) (n j t i x) (cap i * w t x) (z j t i x)) w slope curv rate)
    (hM : SmoothBy L x0 final cap K lam w curv rate Mt Mtx Ml Mx) {Mw Mzt Mz Mzr : ℝ}
    (hMw : ∀ t ∈ Set.Icc 0 final, ∀ i < L.N, Bend (w t) (L.span x0 i) Mw)
    (hz : ∀ j, Fills L x0 final cap (A j) (B j) (n j) w (z j) (zrate j))
    (hMz : ∀ j, FillsBy L x0 final (z j) (zrate j) Mzt Mz Mzr) (hV : Elements L x0 final z V) {H : ℝ} (hs : 0 ≤ s)
    (hst : s < t) (ht : t ≤ final) (hH : ∀ i < L.N, L.h i ≤ H)
    (h : TrapStep L x0 cap K lam A B n f w slope V ε s t P bcs mat matS dir val tr un u ctn ct) {a b : ℝ} (ha0 : 0 ≤ a)
    (hb0 : 0 ≤ b) (hMz0 : 0 ≤ Mz) (hMzt0 : 0 ≤ Mzt) (hMzr0 : 0 ≤ Mzr)
    (ha : ∀ j p, |A j t (L.cell p) (L.pos x0 p) * cap (L.cell p) * (n j t (L.cell p) (L.pos x0 p) - ct j p)| ≤ a)
    (hb : ∀ j p, |A j t (L.cell p) (L.pos x0 p) * (cap (L.cell p) * w t (L.pos x0 p)) + B j t (L.cell p) (L.pos x0 p)| ≤ b) :
    L.total cap (u - L.nodal x0 (w t)) (ct - fun j => L.interp x0 (z j t)) * (1 - (t - s) * (2 * (a + b) * (m / c0 + 1)))
      ≤ L.total cap (un - L.nodal x0 (w s)) (ctn - fun j => L.interp x0 (z j s))
        + (t - s) * (L.size cap * (Mt / 2 * (t - s) + H ^ 2 / 8 * (Mtx + Ml + 3 * Mx) + ε)
          + m * ((a * (Mw * H ^ 2 / 8) + b * (Mz * H ^ 2 / 8)) * (L.size cap + L.size fun _ => 1)
            + (Mzt / 2 * (t - s) + Mzr * H ^ 2 / 8) * L.size fun _ => 1)) := by
  have htm : t ∈ Set.Icc 0 final := ⟨hs.trans hst.le, ht⟩
  have hk : 0 < t - s := sub_pos.2 hst
  have hMw0 : 0 ≤ Mw := by
    have h1 := hMw t htm 0 L.N_pos
    rw [L.span_eq] at h1
    exact h1.const_nonneg (L.h_pos 0 L.N_pos)
  refine coupled_step hL hc0 hcap hw hM hs hst ht hH (given := givenAt P.bare) h.data.source (g := fluxAt P.bare bcs)
    (β := exchangeOf P.bare bcs matS) (dir := dir) h.data.flux (fun i hi => ?_) (fun i hi => ?_) (fun q => ?_)
    (rh := stepRate L x0 cap A B n t u ct) (fun j p => rfl) ?_ (fun q hq => ?_) (fun j => ?_) ha0 hb0 (by positivity)
    (by positivity) (by positivity) (fun p => ?_) (fun j p => ?_) (fun j p => ?_) ha hb
  · obtain ⟨_, -, -, h, -⟩ := cap_pos h.data h.linear i hi
    exact h.le
  · obtain ⟨_, -, -, -, h⟩ := cap_pos h.data h.linear i hi
    exact h
  · exact mul_nonneg (exchangeAt_nonneg P.bare bcs h.linear.fluxes q)
      (unitConc_pos fun hh => h.linear.S_pos hh _ (h.linear.solubility.memS hh q)).le
  · intro v hv
    obtain ⟨F, hF, hF0⟩ := h.solves.zero v hv (fun _ => Fld.const 0) (fun j => elements_zero hV)
    have := h.residual v (fun _ => Fld.const 0) F hF
    rw [hF0] at this
    simp only [Fld.const, mul_zero, Finset.sum_const_zero, add_zero] at this
    exact sub_eq_zero.1 this.symm
  · have := h.solves.fixed q hq
    rw [h.now] at this
    rw [this, h.data.fixed q hq]
  · obtain ⟨F, hF, hF0⟩ := h.solves.zero (fun _ => 0) (fun q _ => by cases q <;> simp [Line.p1])
      (fun j' => if j' = j then { Fld.const 0 with val := fun p => ct j p - L.interp x0 (z j t) p } else Fld.const 0)
      (fun j' => by
        by_cases hj : j' = j
        · simp only [hj, if_true]
          exact elements_interp hV j htm (h.space j)
        · simp only [hj, if_false]
          exact elements_zero hV)
    have := (h.residual _ _ F hF).symm
    rw [hF0] at this
    have e1 : ∀ (r k : Ω → ℝ) (β : Bool → ℝ), bil L r k β u (fun _ => 0) = 0 := by
      intro r k β
      simp [bil, Line.p1]
    have e2 : ∀ (l : Ω → ℝ) (g : Bool → ℝ), lin L l g (fun _ => 0) = 0 := by
      intro l g
      simp [lin, Line.p1]
    rw [e1, e2, sub_zero, zero_add, Finset.sum_eq_single j] at this
    · simpa using this
    · intro j' _ hj
      simp [hj, Fld.const]
    · simp
  · have := nodal_interp L hL (w t) Mw H p (hMw t htm _ (L.cell_lt p)) (hH _ (L.cell_lt p))
    rw [abs_sub_comm] at this
    exact this
  · have := nodal_interp L hL (z j t (L.cell p)) Mz H p ((hMz j).bend t htm _ (L.cell_lt p)) (hH _ (L.cell_lt p))
    rw [abs_sub_comm] at this
    exact this
  · exact interp_rate hL hs hst ht hH (hz j) (hMz j) p

/-- A run of `N` steps at the times `τ`: `U i` are the nodal values and `C i` the trapped concentrations at `τ i`.  `a` bounds
how fast the computed empty traps catch the solute and `b` how fast the exact solution fills and empties the traps. -/
structure TrapRun (L : Line Ω) (x0 final : ℝ) (cap : ℕ → ℝ) (K lam : ℝ → ℕ → ℝ) (A B n : Fin m → ℝ → ℕ → ℝ → ℝ)
    (f : ℝ → ℕ → ℝ → ℝ) (w : ℝ → ℝ → ℝ) (slope : ℝ → ℕ → ℝ → ℝ) (V : Set (Ω → ℝ)) (ε a b : ℝ) (N : ℕ) (τ : ℕ → ℝ)
    (P : ℕ → Problem Ω Bool 1) (bcs : ℕ → List (MobBC Bool)) (mat : ℕ → Ω → Mat) (matS : ℕ → Bool → Mat)
    (dir : ℕ → Bool → Prop) (val : ℕ → Bool → ℝ) (tr : ℕ → Fin m → Trap Ω Bool 1) (U : ℕ → ℕ → ℝ)
    (C : ℕ → Fin m → Ω → ℝ) : Prop where
  start : 0 ≤ τ 0
  later : ∀ i < N, τ i < τ (i + 1)
  finish : τ N ≤ final
  step : ∀ i < N, TrapStep L x0 cap K lam A B n f w slope V ε (τ i) (τ (i + 1)) (P i) (bcs i) (mat i) (matS i) (dir i)
    (val i) (tr i) (U i) (U (i + 1)) (C i) (C (i + 1))
  empty : ∀ i < N, ∀ j p, |A j (τ (i + 1)) (L.cell p) (L.pos x0 p) * cap (L.cell p)
    * (n j (τ (i + 1)) (L.cell p) (L.pos x0 p) - C (i + 1) j p)| ≤ a
  fast : ∀ i < N, ∀ j p, |A j (τ (i + 1)) (L.cell p) (L.pos x0 p) * (cap (L.cell p) * w (τ (i + 1)) (L.pos x0 p))
    + B j (τ (i + 1)) (L.cell p) (L.pos x0 p)| ≤ b

section
variable {a b : ℝ} {N : ℕ} {τ : ℕ → ℝ} {P : ℕ → Problem Ω Bool 1} {bcs : ℕ → List (MobBC Bool)} {mat : ℕ → Ω → Mat}
  {matS : ℕ → Bool → Mat} {dir : ℕ → Bool → Prop} {val : ℕ → Bool → ℝ} {tr : ℕ → Fin m → Trap Ω Bool 1} {U : ℕ → ℕ → ℝ}
  {C : ℕ → Fin m → Ω → ℝ}

theorem TrapRun.mono (h : TrapRun L x0 final cap K lam A B n f w slope V ε a b N τ P bcs mat matS dir val tr U C) :
    ∀ j i, i + j ≤ N → τ i ≤ τ (i + j) := by
  intro j
  induction j with
  | zero => intro i _; exact le_rfl
  | succ j ih => intro i hi; exact (ih i (by omega)).trans (h.later (i + j) (by omega)).le

theorem TrapRun.times (h : TrapRun L x0 final cap K lam A B n f w slope V ε a b N τ P bcs mat matS dir val tr U C) :
    ∀ i ≤ N, 0 ≤ τ i ∧ τ i ≤ final ∧ τ 0 ≤ τ i := by
  intro i hi
  have h1 : τ 0 ≤ τ i := by simpa using h.mono i 0 (by omega)
  refine ⟨h.start.trans h1, le_trans ?_ h.finish, h1⟩
  have := h.mono (N - i) i (by omega)
  rwa [Nat.add_sub_cancel' hi] at this

/-- **C102.** A whole simulation with traps: the errors on the mobile and the trapped concentrations, together, are of the
first order in the stepsize and of the second in the mesh size, when the stepsizes are small compared to the time of
trapping. -/
theorem C102_accuracy (hL : L.Exact2) {c0 : ℝ} (hc0 : 0 < c0) (hcap : ∀ i < L.N, c0 ≤ cap i)
    (hw : Diffuses L x0 final cap K lam (fun t i x => f t i x
      - ∑ j, trapping (A j t i x) (B j t i x) (n j t i x) (cap i * w t x) (z j t i x)) w slope curv rate)
    (hM : SmoothBy L x0 final cap K lam w curv rate Mt Mtx Ml Mx) {Mw Mzt Mz Mzr : ℝ}
    (hMw : ∀ t ∈ Set.Icc 0 final, ∀ i < L.N, Bend (w t) (L.span x0 i) Mw)
    (hz : ∀ j, Fills L x0 final cap (A j) (B j) (n j) w (z j) (zrate j))
    (hMz : ∀ j, FillsBy L x0 final (z j) (zrate j) Mzt Mz Mzr) (hV : Elements L x0 final z V) {H k : ℝ}
    (hH : ∀ i < L.N, L.h i ≤ H)
    (h : TrapRun L x0 final cap K lam A B n f w slope V ε a b N τ P bcs mat matS dir val tr U C) (ha0 : 0 ≤ a)
    (hb0 : 0 ≤ b) (hMz0 : 0 ≤ Mz) (hMzt0 : 0 ≤ Mzt) (hMzr0 : 0 ≤ Mzr) (hk : ∀ i < N, τ (i + 1) - τ i ≤ k)
    (hkΛ : k * (2 * (a + b) * (m / c0 + 1)) ≤ 1 / 2) :
    ∀ i ≤ N, L.total cap (U i - L.nodal x0 (w (τ i))) (C i - fun j => L.interp x0 (z j (τ i)))
      ≤ Real.exp (2 * (2 * (a + b) * (m / c0 + 1)) * (τ i - τ 0))
        * (L.total cap (U 0 - L.nodal x0 (w (τ 0))) (C 0 - fun j => L.interp x0 (z j (τ 0)))
          + (τ i - τ 0) * (L.size cap * (Mt / 2 * k + H ^ 2 / 8 * (Mtx + Ml + 3 * Mx) + ε)
            + m * ((a * (Mw * H ^ 2 / 8) + b * (Mz * H ^ 2 / 8)) * (L.size cap + L.size fun _ => 1)
              + (Mzt / 2 * k + Mzr * H ^ 2 / 8) * L.size fun _ => 1))) := by
  rcases Nat.eq_zero_or_pos N with hN | hN
  · subst hN
    intro i hi
    obtain rfl : i = 0 := by omega
    simp
  have hm0 : (0 : ℝ) ≤ m := Nat.cast_nonneg m
  have hs0 : 0 ≤ L.size cap := Real.sqrt_nonneg _
  have hs1 : 0 ≤ L.size fun _ => 1 := Real.sqrt_nonneg _
  have hΛ0 : 0 ≤ 2 * (a + b) * ((m : ℝ) / c0 + 1) := by positivity
  have hk0 : 0 ≤ k := (sub_pos.2 (h.later 0 hN)).le.trans (hk 0 hN)
  obtain ⟨m1, m2, m3, m4⟩ := smooth_nonneg hM (h.times 0 hN.le).1 (h.later 0 hN) (h.times 1 hN).2.1
  have hε : 0 ≤ ε := by
    obtain ⟨p0, -⟩ := line_point L
    exact (abs_nonneg _).trans ((h.step 0 hN).data.source p0)
  have hMw0 : 0 ≤ Mw := by
    have h1 := hMw (τ 0) ⟨(h.times 0 hN.le).1, (h.times 0 hN.le).2.1⟩ 0 L.N_pos
    rw [L.span_eq] at h1
    exact h1.const_nonneg (L.h_pos 0 L.N_pos)
  refine gronwall (G := fun i => L.total cap (U i - L.nodal x0 (w (τ i))) (C i - fun j => L.interp x0 (z j (τ i)))) hΛ0
    (by positivity) (fun i _ => Real.sqrt_nonneg _) (fun i hi => (h.later i hi).le)
    (fun i hi => (mul_le_mul_of_nonneg_right (hk i hi) hΛ0).trans hkΛ) fun i hi => ?_
  have h1 := C102_step hL hc0 hcap hw hM hMw hz hMz hV (h.times i hi.le).1 (h.later i hi) (h.times (i + 1) hi).2.1 hH
    (h.step i hi) ha0 hb0 hMz0 hMzt0 hMzr0 (h.empty i hi) (h.fast i hi)
  refine h1.trans (add_le_add le_rfl (mul_le_mul_of_nonneg_left ?_ (sub_pos.2 (h.later i hi)).le))
  have e1 := mul_le_mul_of_nonneg_left (hk i hi) m1
  have e2 := mul_le_mul_of_nonneg_left (hk i hi) hMzt0
  refine add_le_add (mul_le_mul_of_nonneg_left (by linarith) hs0) (mul_le_mul_of_nonneg_left ?_ hm0)
  exact add_le_add le_rfl (mul_le_mul_of_nonneg_right (by linarith) hs1)

/-- **C102.** Exactness: when the exact concentrations are affine in time and in each cell, and the initial ones are given
exactly, the results are exact. -/
theorem C102_exact (hL : L.Exact2) {c0 : ℝ} (hc0 : 0 < c0) (hcap : ∀ i < L.N, c0 ≤ cap i)
    (hw : Diffuses L x0 final cap K lam (fun t i x => f t i x
      - ∑ j, trapping (A j t i x) (B j t i x) (n j t i x) (cap i * w t x) (z j t i x)) w slope curv rate)
    (hM : SmoothBy L x0 final cap K lam w curv rate 0 0 0 0)
    (hMw : ∀ t ∈ Set.Icc 0 final, ∀ i < L.N, Bend (w t) (L.span x0 i) 0)
    (hz : ∀ j, Fills L x0 final cap (A j) (B j) (n j) w (z j) (zrate j))
    (hMz : ∀ j, FillsBy L x0 final (z j) (zrate j) 0 0 0) (hV : Elements L x0 final z V) {k : ℝ}
    (h : TrapRun L x0 final cap K lam A B n f w slope V 0 a b N τ P bcs mat matS dir val tr U C) (ha0 : 0 ≤ a)
    (hb0 : 0 ≤ b) (hk : ∀ i < N, τ (i + 1) - τ i ≤ k) (hkΛ : k * (2 * (a + b) * (m / c0 + 1)) ≤ 1 / 2)
    (h0 : ∀ i ≤ L.N, U 0 i = w (τ 0) (L.node x0 i)) (h0' : ∀ j p, C 0 j p = z j (τ 0) (L.cell p) (L.pos x0 p)) :
    ∀ i ≤ N, (∀ l ≤ L.N, U i l = w (τ i) (L.node x0 l)) ∧
      ∀ j p, L.w p ≠ 0 → C i j p = z j (τ i) (L.cell p) (L.pos x0 p) := by
  intro i hi
  obtain ⟨H, hH⟩ : ∃ H, ∀ i < L.N, L.h i ≤ H :=
    ⟨∑ i ∈ Finset.range L.N, L.h i, fun i hi => Finset.single_le_sum (f := L.h)
      (fun j hj => (L.h_pos j (Finset.mem_range.1 hj)).le) (Finset.mem_range.2 hi)⟩
  have hz0 : ∀ i ≤ N, ∀ j p, L.interp x0 (z j (τ i)) p = z j (τ i) (L.cell p) (L.pos x0 p) := by
    intro i hi j p
    have h1 := nodal_interp L hL (z j (τ i) (L.cell p)) 0 H p
      ((hMz j).bend (τ i) ⟨(h.times i hi).1, (h.times i hi).2.1⟩ _ (L.cell_lt p)) (hH _ (L.cell_lt p))
    rw [zero_mul, zero_div] at h1
    exact (sub_eq_zero.1 (abs_eq_zero.1 (le_antisymm h1 (abs_nonneg _)))).symm
  have h1 := C102_accuracy hL hc0 hcap hw hM hMw hz hMz hV hH h ha0 hb0 le_rfl le_rfl le_rfl hk hkΛ i hi
  have h2 : L.total cap (U 0 - L.nodal x0 (w (τ 0))) (C 0 - fun j => L.interp x0 (z j (τ 0))) = 0 := by
    unfold Line.total
    rw [Real.sqrt_eq_zero']
    refine le_of_eq (add_eq_zero_iff_of_nonneg (sq_nonneg _) (Finset.sum_nonneg fun _ _ => sq_nonneg _) |>.2 ⟨?_, ?_⟩)
    · have : L.energy cap (U 0 - L.nodal x0 (w (τ 0))) = 0 := by
        unfold Line.energy
        rw [Real.sqrt_eq_zero']
        refine (Finset.sum_eq_zero fun p _ => ?_).le
        have hi := L.cell_lt p
        simp [Line.p1, Line.nodal, h0 _ hi.le, h0 _ hi]
      rw [this]
      ring
    · refine Finset.sum_eq_zero fun j _ => ?_
      have : L.norm2 ((C 0 - fun j => L.interp x0 (z j (τ 0))) j) = 0 := by
        unfold Line.norm2
        rw [Real.sqrt_eq_zero']
        refine (Finset.sum_eq_zero fun p _ => ?_).le
        simp [hz0 0 (Nat.zero_le _), h0']
      rw [this]
      ring
  rw [h2] at h1
  have h3 : L.total cap (U i - L.nodal x0 (w (τ i))) (C i - fun j => L.interp x0 (z j (τ i))) ≤ 0 := h1.trans (by simp)
  have hcap0 : ∀ i < L.N, 0 < cap i := fun i hi => hc0.trans_le (hcap i hi)
  refine ⟨fun l hl => ?_, fun j p hp => ?_⟩
  · have := energy_zero hL hcap0 ((total_energy _ _).trans h3) l hl
    simpa [Line.nodal, sub_eq_zero] using this
  · have h4 := (total_norm2 _ (C i - fun j => L.interp x0 (z j (τ i))) j).trans h3
    have h5 : L.norm2 ((C i - fun j => L.interp x0 (z j (τ i))) j) ^ 2 = 0 := by
      rw [le_antisymm h4 (Real.sqrt_nonneg _)]
      ring
    rw [norm2_sq hL] at h5
    have h6 := (Finset.sum_eq_zero_iff_of_nonneg fun p _ => mul_nonneg (hL.w_nonneg p) (sq_nonneg _)).1 h5 p
      (Finset.mem_univ p)
    have h7 := (mul_eq_zero.1 h6).resolve_left hp
    rw [pow_eq_zero_iff two_ne_zero] at h7
    rw [← hz0 i hi j p]
    simpa [sub_eq_zero] using h7

end

theorem bound_chain {G X E G0 d σ η D Q δ : ℝ} (h1 : G ≤ X * (G0 + d * σ)) (hX : 0 ≤ X) (hE : X ≤ E) (h0 : G0 ≤ η)
    (hd : 0 ≤ d) (hD : d ≤ D) (hσ : σ ≤ Q * η) (hQ : 0 ≤ Q * η) (hδ : η * (E * (1 + D * Q)) ≤ δ) (hη : 0 ≤ η) : G ≤ δ := by
  have e2 : d * σ ≤ D * (Q * η) := (mul_le_mul_of_nonneg_left hσ hd).trans (mul_le_mul_of_nonneg_right hD hQ)
  have e3 : 0 ≤ η + D * (Q * η) := add_nonneg hη (mul_nonneg (hd.trans hD) hQ)
  have e4 := mul_le_mul_of_nonneg_left (add_le_add h0 e2) hX
  have e5 := mul_le_mul_of_nonneg_right hE e3
  linarith

theorem bound_sum {η ε σ0 σ1 S S1 m Mt R a b Mw Mz Mzt Mzr : ℝ} (hη0 : 0 ≤ η) (hη4 : η ^ 2 ≤ η) (hε : ε ≤ η) (hs0 : 0 ≤ σ0)
    (hs1 : 0 ≤ σ1) (hsize : σ0 ≤ S) (hsize1 : σ1 ≤ S1) (hm0 : 0 ≤ m) (hMt : 0 ≤ Mt) (hR : 0 ≤ R) (ha0 : 0 ≤ a) (hb0 : 0 ≤ b)
    (hMw : 0 ≤ Mw) (hMz : 0 ≤ Mz) (hMzt : 0 ≤ Mzt) (hMzr : 0 ≤ Mzr) :
    σ0 * (Mt / 2 * η + η ^ 2 / 8 * R + ε)
        + m * ((a * (Mw * η ^ 2 / 8) + b * (Mz * η ^ 2 / 8)) * (σ0 + σ1) + (Mzt / 2 * η + Mzr * η ^ 2 / 8) * σ1)
      ≤ (S * (Mt / 2 + R / 8 + 1) + m * ((a * (Mw / 8) + b * (Mz / 8)) * (S + S1) + (Mzt / 2 + Mzr / 8) * S1)) * η := by
  have hS : 0 ≤ S := hs0.trans hsize
  have hS1 : 0 ≤ S1 := hs1.trans hsize1
  have hlin : ∀ {x : ℝ}, 0 ≤ x → x * η ^ 2 / 8 ≤ x / 8 * η := by
    intro x hx
    have := mul_le_mul_of_nonneg_left hη4 hx
    linarith
  have e1 : Mt / 2 * η + η ^ 2 / 8 * R + ε ≤ (Mt / 2 + R / 8 + 1) * η := by
    have := hlin hR
    linarith
  have e2 : a * (Mw * η ^ 2 / 8) + b * (Mz * η ^ 2 / 8) ≤ (a * (Mw / 8) + b * (Mz / 8)) * η := by
    have := mul_le_mul_of_nonneg_left (hlin hMw) ha0
    have := mul_le_mul_of_nonneg_left (hlin hMz) hb0
    linarith
  have e3 : Mzt / 2 * η + Mzr * η ^ 2 / 8 ≤ (Mzt / 2 + Mzr / 8) * η := by
    have := hlin hMzr
    linarith
  have k1 : σ0 * (Mt / 2 * η + η ^ 2 / 8 * R + ε) ≤ S * ((Mt / 2 + R / 8 + 1) * η) :=
    (mul_le_mul_of_nonneg_left e1 hs0).trans (mul_le_mul_of_nonneg_right hsize (by positivity))
  have k2 : (a * (Mw * η ^ 2 / 8) + b * (Mz * η ^ 2 / 8)) * (σ0 + σ1) ≤ (a * (Mw / 8) + b * (Mz / 8)) * η * (S + S1) :=
    mul_le_mul e2 (add_le_add hsize hsize1) (by positivity) (by positivity)
  have k3 : (Mzt / 2 * η + Mzr * η ^ 2 / 8) * σ1 ≤ (Mzt / 2 + Mzr / 8) * η * S1 :=
    mul_le_mul e3 hsize1 hs1 (by positivity)
  have k4 := mul_le_mul_of_nonneg_left (add_le_add k2 k3) hm0
  refine (add_le_add k1 k4).trans (le_of_eq ?_)
  ring

/-- **C102.** Convergence: for a domain of length at most `ℓ`, contents at least `c0`, `m` traps, a final time, and
bounds on the rates and the smoothness, the errors at all the times are below any `δ` as soon as the cells, the
stepsizes, and the errors on the sources and the initial conditions are small enough; how small does not depend on the mesh,
nor on anything else. -/
theorem C102_converges (m : ℕ) (ℓ c0 final Mt Mtx Ml Mx Mw Mzt Mz Mzr a b δ : ℝ) (hc0 : 0 < c0) (hδ : 0 < δ) (ha0 : 0 ≤ a)
    (hb0 : 0 ≤ b) : ∃ η > 0,
    ∀ {Ω : Type} [Fintype Ω] (L : Line Ω) (x0 : ℝ) (cap : ℕ → ℝ) (K lam : ℝ → ℕ → ℝ)
      (A B n z zrate : Fin m → ℝ → ℕ → ℝ → ℝ) (f : ℝ → ℕ → ℝ → ℝ) (w : ℝ → ℝ → ℝ) (slope curv : ℝ → ℕ → ℝ → ℝ)
      (rate : ℝ → ℝ → ℝ) (V : Set (Ω → ℝ)) (ε : ℝ) (N : ℕ) (τ : ℕ → ℝ)
      (P : ℕ → Problem Ω Bool 1) (bcs : ℕ → List (MobBC Bool)) (mat : ℕ → Ω → Mat) (matS : ℕ → Bool → Mat)
      (dir : ℕ → Bool → Prop) (val : ℕ → Bool → ℝ) (tr : ℕ → Fin m → Trap Ω Bool 1) (U : ℕ → ℕ → ℝ)
      (C : ℕ → Fin m → Ω → ℝ), L.Exact2 →
      ∑ i ∈ Finset.range L.N, L.h i ≤ ℓ → (∀ i < L.N, c0 ≤ cap i) →
      Diffuses L x0 final cap K lam (fun t i x => f t i x
        - ∑ j, trapping (A j t i x) (B j t i x) (n j t i x) (cap i * w t x) (z j t i x)) w slope curv rate →
      SmoothBy L x0 final cap K lam w curv rate Mt Mtx Ml Mx →
      (∀ t ∈ Set.Icc 0 final, ∀ i < L.N, Bend (w t) (L.span x0 i) Mw) →
      (∀ j, Fills L x0 final cap (A j) (B j) (n j) w (z j) (zrate j)) →
      (∀ j, FillsBy L x0 final (z j) (zrate j) Mzt Mz Mzr) → Elements L x0 final z V →
      TrapRun L x0 final cap K lam A B n f w slope V ε a b N τ P bcs mat matS dir val tr U C →
      (∀ i < L.N, L.h i ≤ η) → (∀ i < N, τ (i + 1) - τ i ≤ η) → ε ≤ η →
      L.total cap (U 0 - L.nodal x0 (w (τ 0))) (C 0 - fun j => L.interp x0 (z j (τ 0))) ≤ η →
      ∀ i ≤ N, L.total cap (U i - L.nodal x0 (w (τ i))) (C i - fun j => L.interp x0 (z j (τ i))) ≤ δ := by
  set Λ : ℝ := 2 * (a + b) * (m / c0 + 1) with hΛ
  have hΛ0 : 0 ≤ Λ := by positivity
  set S : ℝ := √(ℓ / c0) with hS
  set S1 : ℝ := √ℓ with hS1
  set Q : ℝ := S * (|Mt| / 2 + (|Mtx| + |Ml| + 3 * |Mx|) / 8 + 1)
    + m * ((a * (|Mw| / 8) + b * (|Mz| / 8)) * (S + S1) + (|Mzt| / 2 + |Mzr| / 8) * S1) with hQ
  have hQ0 : 0 ≤ Q := by positivity
  set E : ℝ := Real.exp (2 * Λ * |final|) with hE
  have hE0 : 0 < E := Real.exp_pos _
  refine ⟨min (min 1 (1 / (2 * (Λ + 1)))) (δ / (E * (1 + |final| * Q))), by positivity, ?_⟩
  intro Ω _ L x0 cap K lam A B n z zrate f w slope curv rate V ε N τ P bcs mat matS dir val tr U C hL hℓ hc hw hM hMw hz
    hMz hV h hH hk hε h0 i hi
  set η := min (min 1 (1 / (2 * (Λ + 1)))) (δ / (E * (1 + |final| * Q))) with hη
  have hη0 : 0 < η := by positivity
  have hη1 : η ≤ 1 := (min_le_left _ _).trans (min_le_left _ _)
  have hη2 : η ≤ 1 / (2 * (Λ + 1)) := (min_le_left _ _).trans (min_le_right _ _)
  have hη3 : η * (E * (1 + |final| * Q)) ≤ δ := by
    have h1 : η ≤ δ / (E * (1 + |final| * Q)) := min_le_right _ _
    rwa [le_div_iff₀ (by positivity)] at h1
  have hkΛ : η * Λ ≤ 1 / 2 := by
    rw [le_div_iff₀ (by positivity)] at hη2
    linarith
  -- the constants may be replaced by larger ones
  have mono : ∀ {M M' : ℝ}, M ≤ M' → ∀ {φ : ℝ → ℝ} {s : Set ℝ}, Bend φ s M → Bend φ s M' := by
    rintro M M' hMM φ s ⟨φ', h1, h2⟩
    exact ⟨φ', h1, fun x hx y hy => (h2 x hx y hy).trans (mul_le_mul_of_nonneg_right hMM (abs_nonneg _))⟩
  have hMz' : ∀ j, FillsBy L x0 final (z j) (zrate j) |Mzt| |Mz| |Mzr| := fun j =>
    ⟨fun i hi x hx s hs t ht => ((hMz j).time i hi x hx s hs t ht).trans
      (mul_le_mul_of_nonneg_right (le_abs_self _) (abs_nonneg _)),
      fun t ht i hi => mono (le_abs_self _) ((hMz j).bend t ht i hi),
      fun t ht i hi => mono (le_abs_self _) ((hMz j).bendRate t ht i hi)⟩
  have hM' : SmoothBy L x0 final cap K lam w curv rate |Mt| |Mtx| |Ml| |Mx| :=
    ⟨fun i hi x hx s hs t ht => (hM.time i hi x hx s hs t ht).trans
      (mul_le_mul_of_nonneg_right (le_abs_self _) (abs_nonneg _)),
      fun t ht i hi => mono (le_abs_self _) (hM.bendRate t ht i hi),
      fun t ht i hi => mono (le_abs_self _) (hM.bendDecay t ht i hi),
      fun t ht i hi => mono (le_abs_self _) (hM.bendCurv t ht i hi)⟩
  have h1 := C102_accuracy hL hc0 hc hw hM' (fun t ht i hi => mono (le_abs_self Mw) (hMw t ht i hi)) hz hMz' hV hH h ha0 hb0
    (abs_nonneg Mz) (abs_nonneg Mzt) (abs_nonneg Mzr) hk hkΛ i hi
  have hsize : L.size cap ≤ S := by
    refine Real.sqrt_le_sqrt (le_trans ?_ (div_le_div_of_nonneg_right hℓ hc0.le))
    rw [Finset.sum_div]
    exact Finset.sum_le_sum fun i hi => div_le_div_of_nonneg_left (L.h_pos i (Finset.mem_range.1 hi)).le hc0
      (hc i (Finset.mem_range.1 hi))
  have hsize1 : (L.size fun _ => 1) ≤ S1 := by
    refine Real.sqrt_le_sqrt (le_trans (le_of_eq ?_) hℓ)
    simp
  have hs0 : 0 ≤ L.size cap := Real.sqrt_nonneg _
  have hs1 : 0 ≤ L.size fun _ => 1 := Real.sqrt_nonneg _
  obtain ⟨t1, t2, t3⟩ := h.times i hi
  have hτ0 : 0 ≤ τ i - τ 0 := sub_nonneg.2 t3
  have hτ : τ i - τ 0 ≤ |final| := by
    have h2 := h.start
    have h3 := le_abs_self final
    linarith
  have hη4 : η ^ 2 ≤ η := by nlinarith
  have hm0 : (0 : ℝ) ≤ m := Nat.cast_nonneg m
  set σ := L.size cap * (|Mt| / 2 * η + η ^ 2 / 8 * (|Mtx| + |Ml| + 3 * |Mx|) + ε)
            + m * ((a * (|Mw| * η ^ 2 / 8) + b * (|Mz| * η ^ 2 / 8)) * (L.size cap + L.size fun _ => 1)
              + (|Mzt| / 2 * η + |Mzr| * η ^ 2 / 8) * L.size fun _ => 1) with hσ
  have hσ1 : σ ≤ Q * η := bound_sum hη0.le hη4 hε hs0 hs1 hsize hsize1 hm0 (abs_nonneg Mt) (by positivity) ha0 hb0
    (abs_nonneg Mw) (abs_nonneg Mz) (abs_nonneg Mzt) (abs_nonneg Mzr)
  have e1 : Real.exp (2 * Λ * (τ i - τ 0)) ≤ E :=
    Real.exp_le_exp.2 (mul_le_mul_of_nonneg_left hτ (mul_nonneg zero_le_two hΛ0))
  exact bound_chain h1 (Real.exp_pos _).le e1 h0 hτ0 hτ hσ1 (mul_nonneg hQ0 hη0.le) hη3 hη0.le

end

/-! ### Two layers with a trap

`∂c/∂t = ∂/∂x (D ∂c/∂x) + 1 - ∂ct/∂t` and `∂ct/∂t = c (n - ct)` on the two layers of `AccCase`, with the density
`n = t + 1/c`: `c = 1 + 2x` in the first layer and `2 + x` in the second, and `ct = t`. -/

namespace TrapAccCase

open AccCase (L exact2 bcs slope K mat)

noncomputable def w (_ x : ℝ) : ℝ := AccCase.w 1 x
noncomputable def n (_ : Fin 1) (t : ℝ) (_ : ℕ) (x : ℝ) : ℝ := t + 1 / AccCase.w 1 x

noncomputable def tr (s t : ℝ) (_ : Fin 1) : Trap (Fin 2 × Fin 3) Bool 1 where
  k_0 := .num 1
  E_k := .num 0
  p_0 := .num 0
  E_p := .num 0
  density := [fun p => n 0 t 0 (L.pos 0 p)]
  materials := [AccCase.A, AccCase.B]
  sol := Fld.const t
  prev := Fld.const s

noncomputable def P (s t : ℝ) : Problem (Fin 2 × Fin 3) Bool 1 :=
  { AccCase.P (t - s) with
    mv := { theta := false, sol := L.p1 (L.nodal 0 (w t)), prev := L.p1 (L.nodal 0 (w s)) }
    traps := List.ofFn (tr s t) }

theorem linear (s t : ℝ) (h : s < t) :
    LinearLine L (P s t).bare bcs mat (fun q => if q then AccCase.B else AccCase.A) (· = false) := by
  have := AccCase.linear (t - s) (sub_pos.2 h)
  exact ⟨this.mesh, this.weights, this.cover, ⟨by simp [P, Problem.bare], by simp [P, Problem.bare],
    by simp [P, Problem.bare], by simp [P, Problem.bare]⟩, by simp [P, Problem.bare], by simp [P, Problem.bare, AccCase.P],
    this.D_pos, by simp [P, Problem.bare], this.step, rfl, this.decay, this.fluxes, this.fixed⟩

theorem data (s t : ℝ) : StepData L 0 (fun _ => 1) K (fun _ _ => 0) (fun _ _ _ => 1) w slope 0 s t (P s t).bare bcs mat
    (fun q => if q then AccCase.B else AccCase.A) (· = false) (fun _ => 1) := by
  have := AccCase.data s t
  exact ⟨rfl, by intro p; simp [unitConc, P, Problem.bare], by intro p; simp [unitConc, P, Problem.bare],
    fun p => by rw [← this.conduct p]; simp [conductivity, P, Problem.bare, AccCase.P],
    fun p => by rw [← this.decay p]; rfl, fun p => this.source p,
    by rintro q rfl; simp [w, AccCase.w, Line.node, Line.endNo],
    by
      intro q hq
      have : q = true := by simpa using hq
      subst this
      simp [EndFlux, Line.normal, Line.endCell, K, AccCase.slope, Weak.fluxAt, exchangeAt, bcs, bcGiven, bcExchange, P, Problem.bare,
        AccCase.P, L, Line.mesh, BoundCase.simpson, inward]⟩

theorem w_pos (x : ℝ) (hx : 0 ≤ x) : 0 < AccCase.w 1 x := by
  unfold AccCase.w
  split_ifs <;> linarith

theorem setup (s t : ℝ) (h : s < t) : TrapData L 0 (fun _ => 1) K (fun _ _ => 0) (fun _ _ _ _ => 1) (fun _ _ _ _ => 0) n
    (fun _ _ _ => 1) w slope 0 s t (P s t) bcs mat (fun q => if q then AccCase.B else AccCase.A) (· = false) (fun _ => 1)
    (tr s t) (L.nodal 0 (w s)) (L.nodal 0 (w t)) (fun _ _ => s) (fun _ _ => t) where
  linear := linear s t h
  data := data s t
  before := rfl
  now := rfl
  traps := rfl
  mats := fun _ _ h => h
  apart := by intro j; simp [tr, AccCase.A, AccCase.B]
  noSource := fun _ => rfl
  rates := by
    rintro j ⟨p, p'⟩
    left
    fin_cases p
    · exact ⟨0, AccCase.A, 1, 0, 0, 0, _, rfl, by simp [P, AccCase.P, L, Line.mesh, AccCase.A], Or.inr ⟨rfl, rfl, rfl, rfl, rfl⟩,
        by simp [arr], by simp [arr], rfl⟩
    · exact ⟨1, AccCase.B, 1, 0, 0, 0, _, rfl, by simp [P, AccCase.P, L, Line.mesh, AccCase.B], Or.inr ⟨rfl, rfl, rfl, rfl, rfl⟩,
        by simp [arr], by simp [arr], rfl⟩
  trapBefore := fun _ => rfl
  trapNow := fun _ => rfl

theorem nodes : L.node 0 0 = 0 ∧ L.node 0 1 = 1 ∧ L.node 0 2 = 2 := by
  refine ⟨by simp [Line.node], ?_, ?_⟩ <;> simp [Line.node, L, BoundCase.simpson]

theorem value (t : ℝ) (p : Fin 2 × Fin 3) : (L.p1 (L.nodal 0 (w t))).val p = AccCase.w 1 (L.pos 0 p) := by
  obtain ⟨h0, h1, h2⟩ := nodes
  obtain ⟨p, p'⟩ := p
  have hp' : (p'.val : ℝ) / 2 ≤ 1 ∧ 0 ≤ (p'.val : ℝ) / 2 := by
    fin_cases p' <;> norm_num
  fin_cases p
  · have e : L.pos 0 (0, p') = p'.val / 2 := by simp [Line.pos, L, BoundCase.simpson, Line.node]
    rw [show ((⟨0, by norm_num⟩ : Fin 2), p') = ((0 : Fin 2), p') from rfl, e]
    show (1 - (p'.val : ℝ) / 2) * AccCase.w 1 (L.node 0 0) + (p'.val : ℝ) / 2 * AccCase.w 1 (L.node 0 1) = _
    rw [h0, h1, ((AccCase.w_eq 1).1 _ ⟨hp'.2, hp'.1⟩), ((AccCase.w_eq 1).1 0 ⟨le_rfl, zero_le_one⟩),
      ((AccCase.w_eq 1).1 1 ⟨zero_le_one, le_rfl⟩)]
    ring
  · have e : L.pos 0 (1, p') = 1 + p'.val / 2 := by simp [Line.pos, L, BoundCase.simpson, Line.node]
    rw [show ((⟨1, by norm_num⟩ : Fin 2), p') = ((1 : Fin 2), p') from rfl, e]
    show (1 - (p'.val : ℝ) / 2) * AccCase.w 1 (L.node 0 1) + (p'.val : ℝ) / 2 * AccCase.w 1 (L.node 0 2) = _
    rw [h1, h2, ((AccCase.w_eq 1).2 (1 + (p'.val : ℝ) / 2) ⟨by linarith [hp'.2], by linarith [hp'.1]⟩),
      ((AccCase.w_eq 1).2 1 ⟨le_rfl, one_le_two⟩), ((AccCase.w_eq 1).2 2 ⟨one_le_two, le_rfl⟩)]
    ring

theorem pos_nonneg (p : Fin 2 × Fin 3) : 0 ≤ L.pos 0 p := by
  obtain ⟨p, p'⟩ := p
  simp only [Line.pos, Line.node, L, BoundCase.simpson, Finset.sum_const, Finset.card_range]
  positivity

/-- The computed rate is 1 everywhere. -/
theorem rate_one (t : ℝ) (j : Fin 1) (p : Fin 2 × Fin 3) :
    stepRate L 0 (fun _ => 1) (fun _ _ _ _ => 1) (fun _ _ _ _ => 0) n t (L.nodal 0 (w t)) (fun _ _ => t) j p = 1 := by
  have := (w_pos _ (pos_nonneg p)).ne'
  unfold stepRate trapping n
  rw [value]
  field_simp
  ring

theorem step (s t : ℝ) (h : s < t) (V : Set (Fin 2 × Fin 3 → ℝ)) (hV : (fun _ => t) ∈ V) :
    TrapStep L 0 (fun _ => 1) K (fun _ _ => 0) (fun _ _ _ _ => 1) (fun _ _ _ _ => 0) n
    (fun _ _ _ => 1) w slope V 0 s t (P s t) bcs mat (fun q => if q then AccCase.B else AccCase.A) (· = false) (fun _ => 1)
    (tr s t) (L.nodal 0 (w s)) (L.nodal 0 (w t)) (fun _ _ => s) (fun _ _ => t) where
  toTrapData := setup s t h
  space := fun _ => hV
  solves := by
    refine ⟨?_, fun v hv vt _ => ?_⟩
    · rintro q rfl
      show L.nodal 0 (w t) 0 = 1
      simp [Line.nodal, nodes.1, w, AccCase.w]
    · obtain ⟨F, hF⟩ : ∃ F, (P s t).form bcs (L.p1 v) (List.ofFn vt) = .ok F := ⟨_, rfl⟩
      refine ⟨F, hF, ?_⟩
      rw [(setup s t h).residual v vt F hF]
      have hk : t - s ≠ 0 := (sub_pos.2 h).ne'
      have hv0 : v 0 = 0 := hv false rfl
      simp only [rate_one]
      have e1 : (t - s) / (t - s) - 1 = 0 := by rw [div_self hk, sub_self]
      have e2 : ∀ p, givenAt (P s t).bare p = 1 := by
        rintro ⟨p, p'⟩
        fin_cases p <;> simp [givenAt, P, AccCase.P, Problem.bare, Src.rate, L, Line.mesh]
      have e3 : ∀ q, exchangeOf (P s t).bare bcs (fun q => if q then AccCase.B else AccCase.A) q = 0 := by
        intro q
        simp [exchangeOf, exchangeAt, bcs, bcExchange]
      have e4 : ∀ q, fluxAt (P s t).bare bcs q = if q then 2 else 0 := by
        intro q
        cases q <;> simp [Weak.fluxAt, bcs, bcGiven, P, Problem.bare, AccCase.P, L, Line.mesh, BoundCase.simpson, inward]
      simp only [e1, zero_mul, mul_zero, Finset.sum_const_zero, add_zero]
      unfold bil lin
      simp only [e2, e3, e4, Fintype.sum_bool, Fintype.sum_prod_type, Fin.sum_univ_two, Fin.sum_univ_three]
      obtain ⟨h0, h1, h2⟩ := nodes
      have w0 : L.nodal 0 (w t) 0 = 1 := by simp [Line.nodal, h0, w, AccCase.w]
      have w1 : L.nodal 0 (w t) 1 = 3 := by norm_num [Line.nodal, h1, w, AccCase.w]
      have w2 : L.nodal 0 (w t) 2 = 4 := by norm_num [Line.nodal, h2, w, AccCase.w]
      rw [show L.nodal 0 (w s) = L.nodal 0 (w t) from rfl]
      generalize L.nodal 0 (w t) = u at w0 w1 w2
      simp [L, BoundCase.simpson, Line.p1, K, w0, w1, w2, hv0]
      field_simp
      ring

theorem diffuses (final : ℝ) : Diffuses L 0 final (fun _ => 1) K (fun _ _ => 0) (fun t i x => 1
      - ∑ j : Fin 1, trapping 1 0 (n j t i x) (1 * w t x) t) w slope (fun _ _ _ => 0) (fun _ _ => 0) where
  hasSlope := by
    intro t ht i hi x hx
    exact (AccCase.diffuses 1).hasSlope 1 ⟨zero_le_one, le_rfl⟩ i hi x hx
  hasCurv := by
    intro t _ i _ x _
    exact hasDerivWithinAt_const _ _ _
  hasRate := by
    intro t _ i _ x _
    exact hasDerivWithinAt_const _ _ _
  equation := by
    intro t _ i hi x hx
    have hx0 : 0 ≤ x := by
      rw [AccCase.lineN] at hi
      interval_cases i
      · rw [AccCase.span0] at hx; exact hx.1
      · rw [AccCase.span1] at hx; linarith [hx.1]
    have := (w_pos x hx0).ne'
    simp only [Finset.univ_unique, Finset.sum_singleton, trapping, n, w]
    field_simp
    ring
  flux := by
    intro t _ i hi
    rw [AccCase.lineN] at hi
    obtain rfl : i = 0 := by omega
    simp [K, AccCase.slope]

theorem fills (final : ℝ) (j : Fin 1) : Fills L 0 final (fun _ => 1) (fun _ _ _ => 1) (fun _ _ _ => 0) (n j) w (fun t _ _ => t)
    (fun _ _ _ => 1) where
  hasRate := fun t _ _ _ _ _ => hasDerivWithinAt_id t _
  equation := by
    intro t ht i hi x hx
    have h := (diffuses final).equation t ht i hi x hx
    simp only [mul_zero, zero_mul, zero_add, sub_zero, Finset.univ_unique, Finset.sum_singleton] at h
    rw [Subsingleton.elim j default]
    linarith

theorem run (V : Set (Fin 2 × Fin 3 → ℝ)) (hV : ∀ t, (fun _ => t) ∈ V) (N : ℕ) :
    TrapRun L 0 N (fun _ => 1) K (fun _ _ => 0) (fun _ _ _ _ => 1) (fun _ _ _ _ => 0) n (fun _ _ _ => 1) w slope V 0 1 4 N
      (fun i => i / 40) (fun i => P (i / 40) ((i + 1 : ℕ) / 40)) (fun _ => bcs) (fun _ => mat)
      (fun _ q => if q then AccCase.B else AccCase.A) (fun _ => (· = false)) (fun _ _ => 1)
      (fun i => tr (i / 40) ((i + 1 : ℕ) / 40)) (fun i => L.nodal 0 (w (i / 40))) (fun i _ _ => i / 40) where
  start := by simp
  later := by intro i _; push_cast; linarith
  finish := by
    have : (0 : ℝ) ≤ N := Nat.cast_nonneg N
    linarith
  step := by
    intro i _
    exact step _ _ (by push_cast; linarith) V (hV _)
  empty := by
    intro i _ j p
    have h1 : 1 ≤ AccCase.w 1 (L.pos 0 p) := by
      have := pos_nonneg p
      unfold AccCase.w
      split_ifs <;> linarith
    simp only [n, one_mul, add_sub_cancel_left]
    rw [abs_of_nonneg (by positivity)]
    exact (div_le_one (by linarith)).2 h1
  fast := by
    intro i _ j p
    have h2 : L.pos 0 p ≤ 2 := by
      have := L.pos_mem exact2 0 p
      obtain ⟨p, p'⟩ := p
      fin_cases p
      · have h3 : L.pos 0 (0, p') ∈ L.span 0 0 := this
        rw [AccCase.span0] at h3
        show L.pos 0 (0, p') ≤ 2
        linarith [h3.2]
      · have h3 : L.pos 0 (1, p') ∈ L.span 0 1 := this
        rw [AccCase.span1] at h3
        exact h3.2
    have h1 := pos_nonneg p
    simp only [w, one_mul, add_zero]
    rw [abs_le]
    unfold AccCase.w
    split_ifs <;> constructor <;> linarith

/-- Both kinds of elements. -/
theorem elements : ∀ V ∈ [L.dgSpace, L.cgSpace], (∀ t, (fun _ => t) ∈ V) ∧
    ∀ final, Elements L 0 final (fun (_ : Fin 1) t _ _ => t) V := by
  intro V hV
  rcases List.mem_pair.1 hV with rfl | rfl
  · exact ⟨fun t => ⟨fun _ => t, fun _ => t, fun p => by ring⟩, fun _ => Or.inl rfl⟩
  · exact ⟨fun t => ⟨fun _ => t, fun p => by simp only [Line.p1]; ring⟩, fun _ => Or.inr ⟨rfl, fun _ _ _ _ _ => rfl⟩⟩

/-- All the hypotheses hold, and any other run with these problems and these bounds has the same values. -/
example (N : ℕ) (U : ℕ → ℕ → ℝ) (C : ℕ → Fin 1 → Fin 2 × Fin 3 → ℝ) (V : Set (Fin 2 × Fin 3 → ℝ))
    (hV : V ∈ [L.dgSpace, L.cgSpace]) (Q : ℕ → Problem (Fin 2 × Fin 3) Bool 1)
    (tr' : ℕ → Fin 1 → Trap (Fin 2 × Fin 3) Bool 1)
    (h : TrapRun L 0 N (fun _ => 1) K (fun _ _ => 0) (fun _ _ _ _ => 1) (fun _ _ _ _ => 0) n (fun _ _ _ => 1) w slope V 0 1 4 N
      (fun i => i / 40) Q (fun _ => bcs) (fun _ => mat) (fun _ q => if q then AccCase.B else AccCase.A)
      (fun _ => (· = false)) (fun _ _ => 1) tr' U C)
    (h0 : ∀ i ≤ 2, U 0 i = w 0 (L.node 0 i)) (h0' : ∀ j p, C 0 j p = 0) :
    ∀ i ≤ N, (U i 0 = 1 ∧ U i 1 = 3 ∧ U i 2 = 4) ∧ ∀ p, C i 0 p = i / 40 := by
  intro i hi
  obtain ⟨h1, h2⟩ := C102_exact (zrate := fun _ _ _ _ => 1) (k := 1 / 40) exact2 one_pos (fun _ _ => le_rfl) (diffuses N)
    ⟨by simp, fun _ _ _ _ => AccCase.bend_const _ _, fun _ _ _ _ => by simpa using AccCase.bend_const 0 _,
      fun t _ i _ => AccCase.bend_const (K t i * 0) _⟩
    (fun t _ i hi => ⟨slope 1 i, (AccCase.diffuses 1).hasSlope 1 ⟨zero_le_one, le_rfl⟩ i hi, by simp [AccCase.slope]⟩)
    (fills N) (fun j => ⟨by simp, fun _ _ _ _ => AccCase.bend_const _ _, fun _ _ _ _ => AccCase.bend_const _ _⟩)
    ((elements V hV).2 N) h zero_le_one (by norm_num) (fun i _ => by push_cast; linarith) (by norm_num)
    (fun i hi => h0 i hi) (fun j p => by simpa using h0' j p) i hi
  obtain ⟨n0, n1, n2⟩ := nodes
  refine ⟨⟨?_, ?_, ?_⟩, fun p => h2 0 p ?_⟩
  · rw [h1 0 (by norm_num [AccCase.lineN]), n0]; simp [w, AccCase.w]
  · rw [h1 1 (by norm_num [AccCase.lineN]), n1]; norm_num [w, AccCase.w]
  · rw [h1 2 (by norm_num [AccCase.lineN]), n2]; norm_num [w, AccCase.w]
  · obtain ⟨p, p'⟩ := p
    show (if p' = 1 then (2 * 1 / 3 : ℝ) else 1 / 6) ≠ 0
    split_ifs <;> norm_num

/-- There is one. -/
example (N : ℕ) (V : Set (Fin 2 × Fin 3 → ℝ)) (hV : V ∈ [L.dgSpace, L.cgSpace]) : ∃ Q tr' U C,
    TrapRun L 0 N (fun _ => 1) K (fun _ _ => 0) (fun _ _ _ _ => 1) (fun _ _ _ _ => 0) n (fun _ _ _ => 1) w slope V 0 1 4 N
      (fun i => i / 40) Q (fun _ => bcs) (fun _ => mat) (fun _ q => if q then AccCase.B else AccCase.A)
      (fun _ => (· = false)) (fun _ _ => 1) tr' U C :=
  ⟨_, _, _, _, run V (elements V hV).1 N⟩

end TrapAccCase

end Festim.Props
