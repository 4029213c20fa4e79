import Verif.Props.Diffusion
import Mathlib.Tactic.FinCases

/-!
# C59: radioactive decay
-/

open scoped BigOperators

set_option linter.unusedSectionVars false
set_option linter.unusedSimpArgs false

namespace Festim.Weak

section
variable {Ω Γ : Type} {d : ℕ}

/-- A `RadioactiveDecay` on all the fields: the same source is added to the solute and to every trap
(see C34). -/
def Problem.addDecay (P : Problem Ω Γ d) (lam : ℝ) (vols : List ℕ) : Problem Ω Γ d :=
  { P with
    sources := P.sources ++ [⟨.decay lam, vols⟩]
    traps := P.traps.map fun t => { t with sources := t.sources ++ [⟨.decay lam, vols⟩] } }

end

section
variable {Ω Γ : Type} [Fintype Ω] [Fintype Γ] {d : ℕ}

theorem mobileTrapLoop_addDecay (mv : Mobile Ω Γ d) (T : Temp Ω Γ d) (t : Trap Ω Γ d)
    (s : List (Src Ω)) (v : Fld Ω Γ d) (i : ℕ) (ms : List Mat) :
    mobileTrapLoop mv T { t with sources := s } v i ms = mobileTrapLoop mv T t v i ms := by
  induction ms generalizing i with
  | nil => rfl
  | cons a ms ih =>
    simp only [mobileTrapLoop, ih]
    rfl

theorem trapLoop_addDecay (mv : Mobile Ω Γ d) (T : Temp Ω Γ d) (t : Trap Ω Γ d)
    (s : List (Src Ω)) (v : Fld Ω Γ d) (i : ℕ) (ms : List Mat) :
    trapLoop mv T { t with sources := s } v i ms = trapLoop mv T t v i ms := by
  induction ms generalizing i with
  | nil => rfl
  | cons a ms ih =>
    simp only [trapLoop, ih]
    rfl

theorem mobileTraps_addDecay (mv : Mobile Ω Γ d) (T : Temp Ω Γ d) (v : Fld Ω Γ d)
    (g : Trap Ω Γ d → List (Src Ω)) (l : List (Trap Ω Γ d)) :
    mobileTraps mv T v (l.map fun t => { t with sources := g t }) = mobileTraps mv T v l := by
  induction l with
  | nil => rfl
  | cons t l ih => simp only [List.map_cons, mobileTraps, mobileTrapLoop_addDecay, ih]

/-- Integral of a decay rate over a list of volumes. -/
theorem decay_volumes (m : Mesh Ω Γ d) (vols : List ℕ) (lam : ℝ) (c v : Ω → ℝ) :
    (vols.map fun vol => volumeOf m vol fun p => -(-lam * c p) * v p).sum
      = lam * (vols.map fun vol => volumeOf m vol fun p => c p * v p).sum := by
  rw [← List.sum_map_mul_left]
  congr 1
  apply List.map_congr_left
  intro vol _
  rw [← volumeOf_smul]
  congr 1
  funext p
  ring

theorem trapForm_addDecay (m : Mesh Ω Γ d) (mats : List Mat) (mv : Mobile Ω Γ d) (T : Temp Ω Γ d)
    (dt : Option ℝ) (t : Trap Ω Γ d) (lam : ℝ) (vols : List ℕ) (v : Fld Ω Γ d) (F : Form Ω Γ)
    (h : trapForm mats mv T dt t v = .ok F) :
    ∃ F', trapForm mats mv T dt { t with sources := t.sources ++ [⟨.decay lam, vols⟩] } v = .ok F' ∧
      m.assemble F' = m.assemble F + lam * volumeIn m vols fun p => t.sol.val p * v.val p := by
  simp only [trapForm, trappingForm, bind, Except.bind, trapLoop_addDecay] at h ⊢
  cases hl : trapLoop mv T t v 0 t.materials with
  | error e => rw [hl] at h; cases h
  | ok K =>
    rw [hl] at h
    simp only [Except.ok.injEq] at h
    subst h
    refine ⟨_, rfl, ?_⟩
    simp only [assemble_append, trapSourceForm, List.map_append, List.map_cons, List.map_nil,
      assemble_cons, assemble_nil, integrate_dxOn, Src.at, add_zero]
    rw [← volumeIn_smul]
    have : (fun p => -(-lam * t.sol.val p) * v.val p) = fun p => lam * (t.sol.val p * v.val p) := by
      funext p; ring
    rw [this]
    ring

theorem trapsForm_addDecay (m : Mesh Ω Γ d) (mats : List Mat) (mv : Mobile Ω Γ d) (T : Temp Ω Γ d)
    (dt : Option ℝ) (lam : ℝ) (vols : List ℕ) (l : List (Trap Ω Γ d)) (vt : List (Fld Ω Γ d))
    (F : Form Ω Γ) (h : trapsForm mats mv T dt (l.zip vt) = .ok F) :
    ∃ F', trapsForm mats mv T dt
        ((l.map fun t => { t with sources := t.sources ++ [⟨.decay lam, vols⟩] }).zip vt) = .ok F' ∧
      m.assemble F' = m.assemble F
        + lam * ((l.zip vt).map fun x => volumeIn m vols fun p => x.1.sol.val p * x.2.val p).sum := by
  induction l generalizing vt F with
  | nil => exact ⟨F, h, by simp⟩
  | cons t l ih =>
    cases vt with
    | nil => exact ⟨F, h, by simp⟩
    | cons v vt =>
      simp only [List.zip_cons_cons, List.map_cons, trapsForm, bind, Except.bind] at h ⊢
      cases ht : trapForm mats mv T dt t v with
      | error e => rw [ht] at h; cases h
      | ok F1 =>
        rw [ht] at h
        simp only at h
        cases hr : trapsForm mats mv T dt (l.zip vt) with
        | error e => rw [hr] at h; cases h
        | ok F2 =>
          rw [hr] at h
          simp only [Except.ok.injEq] at h
          subst h
          obtain ⟨G1, hG1, e1⟩ := trapForm_addDecay m mats mv T dt t lam vols v F1 ht
          obtain ⟨G2, hG2, e2⟩ := ih vt F2 hr
          refine ⟨G1 ++ G2, ?_, ?_⟩
          · rw [hG1]
            simp only
            rw [hG2]
          · rw [assemble_append, assemble_append, e1, e2, List.sum_cons]
            ring

/-- Sum over distinct volumes which contain all the points. -/
theorem volumes_cover (m : Mesh Ω Γ d) (vols : List ℕ) (hnd : vols.Nodup)
    (hall : ∀ p, m.vm p ∈ vols) (g : Ω → ℝ) :
    (vols.map fun vol => volumeOf m vol g).sum = volume m g := by
  have key : ∀ l : List ℕ, l.Nodup → (l.map fun vol => volumeOf m vol g).sum
      = ∑ p, if m.vm p ∈ l then m.w p * g p else 0 := by
    intro l hl
    induction l with
    | nil => simp
    | cons i l ih =>
      rw [List.map_cons, List.sum_cons, ih (List.nodup_cons.1 hl).2, volumeOf, Finset.sum_filter,
        ← Finset.sum_add_distrib]
      refine Finset.sum_congr rfl fun p _ => ?_
      by_cases hp : m.vm p = i
      · simp [hp, (List.nodup_cons.1 hl).1]
      · simp [hp]
  rw [key vols hnd]
  exact Finset.sum_congr rfl fun p _ => by simp [hall p]

theorem volumeIn_all (m : Mesh Ω Γ d) (vols : List ℕ) (hall : ∀ p, m.vm p ∈ vols) (g : Ω → ℝ) :
    volumeIn m vols g = volume m g := by
  unfold volumeIn volume
  rw [Finset.filter_true_of_mem fun p _ => hall p]

/-- The only sources are a decay of everything in volumes which cover the mesh. -/
structure DecayOnly (P : Problem Ω Γ d) (lam : ℝ) (vols : List ℕ) : Prop where
  sources : P.sources = [⟨.decay lam, vols⟩]
  traps : ∀ t ∈ P.traps, t.sources = [⟨.decay lam, vols⟩]
  nodup : vols.Nodup
  all : ∀ p, P.mesh.vm p ∈ vols

/-- Inventory of the bulk. -/
noncomputable def bulkStock (P : Problem Ω Γ d) (mat : Ω → Mat) (v : Fld Ω Γ d) : ℝ :=
  volume P.mesh fun p => (P.c mat p + (P.traps.map fun t => t.sol.val p).sum) * v.val p

theorem decay_supply (P : Problem Ω Γ d) (bcs : List (MobBC Γ)) (mat : Ω → Mat) (matS : Γ → Mat)
    (lam : ℝ) (vols : List ℕ) (v : Fld Ω Γ d) (hd : DecayOnly P lam vols) :
    supply P bcs mat matS v = -(lam * bulkStock P mat v)
      + (bcs.map (bcInflow P.mesh P.T.T.tr (P.cS matS) v.tr)).sum := by
  unfold supply bulkStock
  congr 1
  have h1 : (P.sources.map fun s => (s.volumes.map fun vol =>
      volumeOf P.mesh vol fun p => srcRate s (P.c mat p) p * v.val p).sum).sum
      = volume P.mesh fun p => -lam * (P.c mat p * v.val p) := by
    rw [hd.sources]
    simp only [List.map_cons, List.map_nil, List.sum_cons, List.sum_nil, add_zero, srcRate]
    rw [volumes_cover P.mesh vols hd.nodup hd.all]
    congr 1
    funext p
    ring
  have h2 : (P.traps.map fun t => (t.sources.map fun s =>
      volumeIn P.mesh s.volumes fun p => srcRate s (t.sol.val p) p * v.val p).sum).sum
      = (P.traps.map fun t => volume P.mesh fun p => -lam * t.sol.val p * v.val p).sum := by
    congr 1
    apply List.map_congr_left
    intro t ht
    rw [hd.traps t ht]
    simp only [List.map_cons, List.map_nil, List.sum_cons, List.sum_nil, add_zero, srcRate]
    rw [volumeIn_all P.mesh vols hd.all]
    congr 1
    funext p
    ring
  rw [h1, h2, sum_volume, ← volume_add, neg_mul_eq_neg_mul, ← volume_smul]
  congr 1
  funext p
  have h3 : (P.traps.map fun t => -lam * t.sol.val p * v.val p).sum
      = -lam * v.val p * (P.traps.map fun t => t.sol.val p).sum := by
    rw [← List.sum_map_mul_left]
    congr 1
    apply List.map_congr_left
    intro t _
    ring
  rw [h3]
  ring

end

end Festim.Weak

namespace Festim.Props

open Festim.Weak

section
variable {Ω Γ : Type} [Fintype Ω] [Fintype Γ] {d : ℕ}

/-- **C59.** Adding a `RadioactiveDecay` on all the fields adds to the equation of every concentration
`λ ∫ c v` over the volumes of the source, with independent test functions, and nothing else: the
rest of the equations, the couplings included, is unchanged.  For the solute a volume counts as many
times as it is listed. -/
theorem C59_rate (P : Problem Ω Γ d) (bcs : List (MobBC Γ)) (lam : ℝ) (vols : List ℕ)
    (mat : Ω → Mat) (matS : Γ → Mat) (hcov : Covers P.mesh P.mats mat) (hsol : Solubility P mat matS)
    (v : Fld Ω Γ d) (vt : List (Fld Ω Γ d)) (F : Form Ω Γ) (hF : P.form bcs v vt = .ok F) :
    ∃ F', (P.addDecay lam vols).form bcs v vt = .ok F' ∧
      P.mesh.assemble F' = P.mesh.assemble F
        + lam * (vols.map fun vol => volumeOf P.mesh vol fun p => P.c mat p * v.val p).sum
        + lam * ((P.traps.zip vt).map fun x =>
            volumeIn P.mesh vols fun p => x.1.sol.val p * x.2.val p).sum := by
  simp only [Problem.form, mobileForm, diffusionForm, bind, Except.bind, Problem.addDecay,
    mobileTraps_addDecay] at hF ⊢
  cases hm : mobileTraps P.mv P.T v P.traps with
  | error e => rw [hm] at hF; cases hF
  | ok K =>
    rw [hm] at hF
    simp only at hF ⊢
    cases ht : trapsForm P.mats P.mv P.T P.dt (P.traps.zip vt) with
    | error e => rw [ht] at hF; cases hF
    | ok G =>
      rw [ht] at hF
      simp only [Except.ok.injEq] at hF
      subst hF
      obtain ⟨G', hG', e⟩ := trapsForm_addDecay P.mesh P.mats P.mv P.T P.dt lam vols P.traps vt G ht
      rw [hG']
      refine ⟨_, rfl, ?_⟩
      simp only [assemble_append, e, sourceForm, List.flatMap_append, List.flatMap_cons,
        List.flatMap_nil, List.append_nil]
      have h1 : P.mesh.assemble (vols.map fun vol => .dxOn [vol] fun p =>
            -(⟨.decay lam, vols⟩ : Src Ω).at (P.mv.mobileConc P.mesh P.mats) p * v.val p)
          = lam * (vols.map fun vol => volumeOf P.mesh vol fun p => P.c mat p * v.val p).sum := by
        rw [assemble_map, ← decay_volumes]
        congr 1
        apply List.map_congr_left
        intro vol _
        rw [integrate_dxOn1]
        congr 1
        funext p
        simp only [Src.at]
        rw [mobileConc_eq P hcov hsol]
        rfl
      rw [h1]
      ring

/-- **C59.** Decay of everything, nothing exchanged with the outside: a converged step divides the
inventory by exactly `1 + λ dt`. -/
theorem C59_step (P : Problem Ω Γ d) (bcs : List (MobBC Γ)) (mat : Ω → Mat) (matS : Γ → Mat)
    (lam h : ℝ) (vols : List ℕ) (F : Form Ω Γ) (hh : h ≠ 0) (hpos : 1 + lam * h ≠ 0)
    (hdt : P.dt = some h) (hcov : Covers P.mesh P.mats mat) (hsol : Solubility P mat matS)
    (hr : (P.mesh.type = .cylindrical ∨ P.mesh.type = .spherical) → ∀ p, P.mesh.r.val p ≠ 0)
    (hd : DecayOnly P lam vols)
    (hclosed : ∀ b ∈ bcs, ∃ f surfs, b = .flux f surfs ∧
      ∀ q, inward f (P.T.T.tr q) (P.cS matS q) q = 0)
    (hF : P.form bcs (weight P.mesh) (P.traps.map fun _ => weight P.mesh) = .ok F)
    (hzero : P.mesh.assemble F = 0) :
    stock P bcs mat matS (weight P.mesh)
      = stockPrev P bcs mat matS (weight P.mesh) / (1 + lam * h) := by
  have hno : ∀ b vs, MobBC.sk b vs ∉ bcs := by
    intro b vs hm
    obtain ⟨f, s, e, _⟩ := hclosed _ hm
    cases e
  have e := (C42_balance P bcs mat matS h F hh hdt hcov hsol hr
    (fun b vs hm => absurd hm (hno b vs)) (Or.inr hno) hF).1 hzero
  have hz : ∀ (new : Bool) (c v : Γ → ℝ), (bcs.map (bcStock P.mesh new c v)).sum = 0 := by
    intro new c v
    apply List.sum_eq_zero
    intro x hx
    obtain ⟨b, hb, rfl⟩ := List.mem_map.1 hx
    obtain ⟨f, surfs, rfl, _⟩ := hclosed b hb
    rfl
  have hin : (bcs.map (bcInflow P.mesh P.T.T.tr (P.cS matS) (weight P.mesh).tr)).sum = 0 := by
    apply List.sum_eq_zero
    intro x hx
    obtain ⟨b, hb, rfl⟩ := List.mem_map.1 hx
    obtain ⟨f, surfs, rfl, hf⟩ := hclosed b hb
    simp [bcInflow, hf, surface]
  rw [decay_supply P bcs mat matS lam vols _ hd, hin, add_zero] at e
  have hb : bulkStock P mat (weight P.mesh) = stock P bcs mat matS (weight P.mesh) := by
    unfold bulkStock stock
    rw [hz, add_zero]
  rw [hb] at e
  rw [eq_div_iff hpos]
  linarith

/-- **C59.** Over a run, the inventory is the initial one divided by the product of the
`1 + λ dt`, whatever the stepsizes. -/
theorem C59_run (P : ℕ → Problem Ω Γ d) (bcs : ℕ → List (MobBC Γ)) (F : ℕ → Form Ω Γ) (h : ℕ → ℝ)
    (mat : Ω → Mat) (matS : Γ → Mat) (lam : ℝ) (vols : List ℕ) (n : ℕ) (hlam : 0 ≤ lam)
    (hfol : ∀ k < n, Follows (P k) (P (k + 1)) (bcs k) (bcs (k + 1)))
    (hh : ∀ k ≤ n, 0 < h k)
    (hdt : ∀ k ≤ n, (P k).dt = some (h k)) (hcov : ∀ k ≤ n, Covers (P k).mesh (P k).mats mat)
    (hsol : ∀ k ≤ n, Solubility (P k) mat matS)
    (hr : ∀ k ≤ n, ((P k).mesh.type = .cylindrical ∨ (P k).mesh.type = .spherical) →
      ∀ p, (P k).mesh.r.val p ≠ 0)
    (hd : ∀ k ≤ n, DecayOnly (P k) lam vols)
    (hclosed : ∀ k ≤ n, ∀ b ∈ bcs k, ∃ f surfs, b = .flux f surfs ∧
      ∀ q, inward f ((P k).T.T.tr q) ((P k).cS matS q) q = 0)
    (hF : ∀ k ≤ n, (P k).form (bcs k) (weight (P k).mesh)
      ((P k).traps.map fun _ => weight (P k).mesh) = .ok (F k))
    (hzero : ∀ k ≤ n, (P k).mesh.assemble (F k) = 0) :
    stock (P n) (bcs n) mat matS (weight (P n).mesh)
      = stockPrev (P 0) (bcs 0) mat matS (weight (P 0).mesh)
        / ∏ k ∈ Finset.range (n + 1), (1 + lam * h k) := by
  have step : ∀ k ≤ n, stock (P k) (bcs k) mat matS (weight (P k).mesh)
      = stockPrev (P k) (bcs k) mat matS (weight (P k).mesh) / (1 + lam * h k) := fun k hk =>
    C59_step (P k) (bcs k) mat matS lam (h k) vols (F k) (hh k hk).ne'
      (by have := mul_nonneg hlam (hh k hk).le; linarith) (hdt k hk) (hcov k hk) (hsol k hk)
      (hr k hk) (hd k hk) (hclosed k hk) (hF k hk) (hzero k hk)
  have main : ∀ k ≤ n, stock (P k) (bcs k) mat matS (weight (P k).mesh)
      = stockPrev (P 0) (bcs 0) mat matS (weight (P 0).mesh)
        / ∏ j ∈ Finset.range (k + 1), (1 + lam * h j) := by
    intro k
    induction k with
    | zero => intro hk; simpa using step 0 hk
    | succ k ih =>
      intro hk
      have hf := hfol k (by omega)
      rw [step (k + 1) hk, follows_stock (P k) (P (k + 1)) (bcs k) (bcs (k + 1)) mat matS _ hf,
        Finset.prod_range_succ, hf.mesh, ih (by omega), div_div]
  exact main n le_rfl

/-- **C59, limit.** Hydrogen adsorbed on surfaces with `SurfaceKinetics`, and that of the subsurface
layer, does not decay: without exchange with the outside the inventory, surfaces included, loses only
`λ dt` times the bulk part. -/
theorem C59_adsorbed_does_not_decay (P : Problem Ω Γ d) (bcs : List (MobBC Γ)) (mat : Ω → Mat)
    (matS : Γ → Mat) (lam h : ℝ) (vols : List ℕ) (F : Form Ω Γ) (hh : h ≠ 0)
    (hdt : P.dt = some h) (hcov : Covers P.mesh P.mats mat) (htheta : P.mv.theta = false)
    (hr : (P.mesh.type = .cylindrical ∨ P.mesh.type = .spherical) → ∀ p, P.mesh.r.val p ≠ 0)
    (hd : DecayOnly P lam vols) (htest : SKTests P.mesh (weight P.mesh).tr bcs)
    (hclosed : ∀ b ∈ bcs, ∃ sk vs, b = .sk sk vs ∧ ∀ q T cs c, sk.J_vs q T cs c = 0)
    (hF : P.form bcs (weight P.mesh) (P.traps.map fun _ => weight P.mesh) = .ok F)
    (hzero : P.mesh.assemble F = 0) :
    stock P bcs mat matS (weight P.mesh)
      = stockPrev P bcs mat matS (weight P.mesh) - h * (lam * bulkStock P mat (weight P.mesh)) := by
  have hsol : Solubility P mat matS :=
    ⟨by simp [htheta], by simp [htheta], by simp [htheta], by simp [htheta]⟩
  have e := (C42_balance P bcs mat matS h F hh hdt hcov hsol hr htest (Or.inl htheta) hF).1 hzero
  have hin : (bcs.map (bcInflow P.mesh P.T.T.tr (P.cS matS) (weight P.mesh).tr)).sum = 0 := by
    apply List.sum_eq_zero
    intro x hx
    obtain ⟨b, hb, rfl⟩ := List.mem_map.1 hx
    obtain ⟨sk, vs, rfl, hf⟩ := hclosed b hb
    simp [bcInflow, hf, surface]
  rw [decay_supply P bcs mat matS lam vols _ hd, hin, add_zero] at e
  linarith

/-! ### Example: two volumes, one trap, `λ = 2`, `dt = 1/2`: all the concentrations are halved

The trap is in equilibrium with the solute at the end of the step: `1 * 5 * (2 - 1) = 5 * 1`. -/

namespace DecayCase

noncomputable def mesh : Mesh (Fin 2) (Fin 2) 1 where
  w := fun _ => 1 / 2
  vm := fun p => p.val + 1
  ws := fun _ => 1
  sm := fun q => q.val + 1
  vmS := fun q => q.val + 1
  r := ⟨fun p => p.val + 1, fun _ _ => 1, fun q => q.val + 1⟩
  type := .cartesian

def mat : Mat := { uid := 0, ids := [1, 2], D_0 := 1, E_D := 0 }

def trap : Trap (Fin 2) (Fin 2) 1 where
  k_0 := .num 1
  E_k := .num 0
  p_0 := .num 5
  E_p := .num 0
  density := [fun _ => 2]
  materials := [mat]
  sol := Fld.const 1
  prev := Fld.const 2
  sources := [⟨.decay 2, [1, 2]⟩]

noncomputable def prob : Problem (Fin 2) (Fin 2) 1 where
  mesh := mesh
  mats := [mat]
  mv := { theta := false, sol := Fld.const 5, prev := Fld.const 10 }
  T := ⟨Fld.const 300, Fld.const 300⟩
  dt := some (1 / 2)
  soret := false
  sources := [⟨.decay 2, [1, 2]⟩]
  traps := [trap]

theorem card0 : (Finset.univ.filter fun x : Fin 2 => x = 0).card = 1 := by decide

theorem card1 : (Finset.univ.filter fun x : Fin 2 => x.val = 1).card = 1 := by decide

example : DecayOnly prob 2 [1, 2] where
  sources := rfl
  traps := by intro t ht; simp [prob] at ht; subst ht; rfl
  nodup := by decide
  all := by intro p; fin_cases p <;> simp [prob, mesh]

/-- Zero residual for independent test functions of the solute and of the trap. -/
example (a b : ℝ) : ∃ F, prob.form [] (Fld.const a) [Fld.const b] = .ok F ∧
    prob.mesh.assemble F = 0 := by
  refine ⟨_, rfl, ?_⟩
  simp [prob, mesh, mat, trap, mobileForm, Mesh.assemble, Mesh.integrate, Form.neg,
    subdomainForm, Mobile.conc, sourceForm, fluxesForm, Src.at, Mobile.mobileConc, Fld.const, dot,
    trapSourceForm, Fin.sum_univ_two]
  ring

example : stock prob [] (fun _ => mat) (fun _ => mat) (weight prob.mesh) = 6 ∧
    stockPrev prob [] (fun _ => mat) (fun _ => mat) (weight prob.mesh) = 12 := by
  constructor <;>
  simp [stock, stockPrev, prob, mesh, trap, volume, Problem.c, Problem.cPrev, physConc, weight,
    Fld.const, Fin.sum_univ_two] <;> norm_num

end DecayCase

end

end Festim.Props
