import Verif.Spec.SurfaceKinetics
import Verif.Props.Bounds
import Verif.Props.ReportedBalance

/-!
# C118: surfaces with kinetics in one dimension

Bounds of the adsorbed and mobile concentrations, steady states, Sieverts' law.
-/

open scoped BigOperators

set_option linter.unusedSectionVars false
set_option linter.unusedSimpArgs false

namespace Festim.Weak

open Festim.Props

section
variable {Ω : Type} [Fintype Ω]

/-- The conditions of a simulation with the test functions `w` of the adsorbed concentrations. -/
def withTests (ks : List (SK Bool)) (w : SK Bool → SKSurf → ℝ) : List (MobBC Bool) :=
  ks.map fun b => .sk b (b.surfaces.map (w b))

/-- A simulation on a line with the surface kinetics `ks` and other conditions `bcs`: piecewise affine unknown with nodal
values `u`, no traps, no chemical potential, no Soret effect.  `dir q`: the end `q` has a Dirichlet condition.  The
residual vanishes for all test functions of the adsorbed concentrations and all those of the mobile one which vanish at such
ends. -/
structure WithKinetics (L : Line Ω) (P : Problem Ω Bool 1) (ks : List (SK Bool)) (bcs : List (MobBC Bool))
    (mat : Ω → Mat) (u : ℕ → ℝ) (dir : Bool → Prop) : Prop where
  quad : L.Exact2
  mesh : ∃ r, P.mesh = L.mesh r
  traps : P.traps = []
  theta : P.mv.theta = false
  soret : P.soret = false
  sol : P.mv.sol = L.p1 u
  cover : Covers P.mesh P.mats mat
  noSK : ∀ b vs, MobBC.sk b vs ∉ bcs
  solves : ∀ (v : ℕ → ℝ) (w : SK Bool → SKSurf → ℝ), (∀ q, dir q → (L.p1 v).tr q = 0) →
    ∀ F, P.form (withTests ks w ++ bcs) (L.p1 v) [] = .ok F → P.mesh.assemble F = 0

/-- Rate of change of the adsorbed concentration. -/
noncomputable def adsChange (dt : Option ℝ) (s : SKSurf) : ℝ :=
  match dt with
  | some h => (s.sol - s.prev) / h
  | none => 0

/-- Rate of change of the layer below the surface. -/
noncomputable def layerChange (dt : Option ℝ) (b : SK Bool) (c cn : ℝ) : ℝ :=
  match dt with
  | some h => b.lambda_IS * (c - cn) / h
  | none => 0

variable {L : Line Ω} {P : Problem Ω Bool 1} {ks : List (SK Bool)} {bcs : List (MobBC Bool)} {mat : Ω → Mat}
  {u un : ℕ → ℝ} {dir : Bool → Prop}

theorem zip_map_flatMap {α β γ : Type} (l : List α) (f : α → β) (g : α × β → List γ) :
    (l.zip (l.map f)).flatMap g = l.flatMap fun a => g (a, f a) := by
  induction l with
  | nil => rfl
  | cons a l ih => simp [ih]

/-- The part of the equation due to the surface kinetics. -/
theorem kinetics_form (hth : P.mv.theta = false) (w : SK Bool → SKSurf → ℝ) (v : Fld Ω Bool 1) :
    P.mesh.assemble (fluxesForm P.mesh P.mats P.mv P.T P.dt (withTests ks w) v)
      = (ks.map fun b => (b.surfaces.map fun s =>
          surface P.mesh s.id (fun q => adsChange P.dt s - (b.J_vs q (P.T.T.tr q) s.sol (P.mv.sol.tr q)
            + release b q (P.T.T.tr q) s.sol (P.mv.sol.tr q))) * w b s
          + surface P.mesh s.id fun q => (layerChange P.dt b (P.mv.sol.tr q) (P.mv.prev.tr q)
            + release b q (P.T.T.tr q) s.sol (P.mv.sol.tr q)) * v.tr q).sum).sum := by
  unfold fluxesForm withTests
  rw [List.flatMap_map, assemble_flatMap]
  congr 1
  apply List.map_congr_left
  intro b _
  simp only [MobBC.form, SK.form, zip_map_flatMap]
  rw [assemble_flatMap]
  congr 1
  apply List.map_congr_left
  intro s _
  have hc : P.mv.mobileConcS P.mesh P.mats = P.mv.sol.tr := by
    funext q
    simp [Mobile.mobileConcS, hth]
  rw [hc]
  unfold SK.surfForm
  cases hdt : P.dt with
  | none =>
    simp only [List.nil_append, assemble_cons, assemble_nil, integrate_ds, add_zero, surface, Finset.sum_mul, release,
      SK.Jbs, SK.Jsb, adsChange, layerChange]
    congr 1 <;> exact Finset.sum_congr rfl fun q _ => by ring
  | some h =>
    simp only [List.cons_append, List.nil_append, assemble_cons, assemble_nil, integrate_ds, add_zero, surface,
      Finset.sum_mul, release, SK.Jbs, SK.Jsb, adsChange, layerChange]
    rw [← Finset.sum_add_distrib, ← Finset.sum_add_distrib, ← Finset.sum_add_distrib, ← Finset.sum_add_distrib]
    exact Finset.sum_congr rfl fun q _ => by ring

/-- The equation is that without surface kinetics and the part above. -/
theorem kinetics_split (ht : P.traps = []) (w : SK Bool → SKSurf → ℝ) (v : Fld Ω Bool 1) (F₀ : Form Ω Bool)
    (h₀ : P.form bcs v [] = .ok F₀) :
    ∃ F, P.form (withTests ks w ++ bcs) v [] = .ok F ∧ P.mesh.assemble F = P.mesh.assemble F₀
      + P.mesh.assemble (fluxesForm P.mesh P.mats P.mv P.T P.dt (withTests ks w) v) := by
  unfold Problem.form mobileForm diffusionForm at h₀ ⊢
  rw [ht] at h₀ ⊢
  refine ⟨_, rfl, ?_⟩
  injection h₀ with h₀
  rw [← h₀]
  simp only [fluxesForm, List.flatMap_append, assemble_append]
  ring

theorem end_surface {r : Fld Ω Bool 1} (hm : P.mesh = L.mesh r) (q : Bool) (g : Bool → ℝ) :
    surface P.mesh (if q then L.right else L.left) g = g q := by
  have h1 := L.ends
  have h2 := L.ends.symm
  unfold surface
  rw [hm, Finset.sum_filter, Fintype.sum_bool]
  cases q <;> simp [Line.mesh, h1, h2]

/-- The balance of the adsorbed hydrogen. -/
theorem adsorbed_balance (hK : WithKinetics L P ks bcs mat u dir) {b : SK Bool} {s : SKSurf} {q : Bool}
    (ha : Attached L ks b s q) :
    adsChange P.dt s = b.J_vs q (P.T.T.tr q) s.sol ((L.p1 u).tr q)
      + release b q (P.T.T.tr q) s.sol ((L.p1 u).tr q) := by
  obtain ⟨r, hm⟩ := hK.mesh
  obtain ⟨hb, hs, hid⟩ := ha
  set R : SK Bool → SKSurf → ℝ := fun b s => surface P.mesh s.id fun q => adsChange P.dt s
    - (b.J_vs q (P.T.T.tr q) s.sol (P.mv.sol.tr q) + release b q (P.T.T.tr q) s.sol (P.mv.sol.tr q)) with hR
  have hz : ∀ i, (fun _ : ℕ => (0 : ℝ)) i = 0 := fun _ => rfl
  have htr : ∀ q, (L.p1 fun _ => 0).tr q = 0 := by intro q; cases q <;> simp [Line.p1]
  obtain ⟨F₀, h₀⟩ := form_ok_notraps P bcs (L.p1 fun _ => 0) hK.traps
  have hzero : ∀ w, P.mesh.assemble (fluxesForm P.mesh P.mats P.mv P.T P.dt (withTests ks w) (L.p1 fun _ => 0))
      = -P.mesh.assemble F₀ := by
    intro w
    obtain ⟨F, hF, hA⟩ := kinetics_split (ks := ks) hK.traps w _ F₀ h₀
    rw [hK.solves _ w (fun q _ => htr q) F hF] at hA
    linarith
  have e1 := (hzero R).trans (hzero fun _ _ => 0).symm
  rw [kinetics_form hK.theta, kinetics_form hK.theta] at e1
  simp only [htr, mul_zero, zero_add] at e1
  have hs0 : ∀ i, surface P.mesh i (fun _ => (0 : ℝ)) = 0 := fun i => by simp [surface]
  simp only [hs0, add_zero, List.map_const', List.sum_replicate, smul_zero] at e1
  have e2 : (ks.map fun b => (b.surfaces.map fun s => R b s * R b s).sum).sum = 0 := e1
  have n1 : ∀ b : SK Bool, 0 ≤ (b.surfaces.map fun s => R b s * R b s).sum := fun b =>
    List.sum_nonneg fun x hx => by
      obtain ⟨s, _, rfl⟩ := List.mem_map.1 hx
      exact mul_self_nonneg _
  have e3 : (b.surfaces.map fun s => R b s * R b s).sum = 0 := by
    refine le_antisymm ?_ (n1 b)
    rw [← e2]
    exact List.single_le_sum (fun x hx => by
      obtain ⟨b', _, rfl⟩ := List.mem_map.1 hx
      exact n1 b') _ (List.mem_map.2 ⟨b, hb, rfl⟩)
  have e4 : R b s * R b s ≤ 0 := by
    rw [← e3]
    exact List.single_le_sum (fun x hx => by
      obtain ⟨s', _, rfl⟩ := List.mem_map.1 hx
      exact mul_self_nonneg _) _ (List.mem_map.2 ⟨s, hs, rfl⟩)
  have e5 : R b s = 0 := mul_self_eq_zero.1 (le_antisymm e4 (mul_self_nonneg _))
  simp only [hR, hid] at e5
  rw [end_surface hm] at e5
  rw [hK.sol] at e5
  linarith

/-- What the surface kinetics take from the node `j`. -/
noncomputable def taken (P : Problem Ω Bool 1) (ks : List (SK Bool)) (v : Bool → ℝ) : ℝ :=
  (ks.map fun b => (b.surfaces.map fun s => surface P.mesh s.id fun q =>
    (layerChange P.dt b (P.mv.sol.tr q) (P.mv.prev.tr q)
      + release b q (P.T.T.tr q) s.sol (P.mv.sol.tr q)) * v q).sum).sum

theorem kinetics_equation (hK : WithKinetics L P ks bcs mat u dir) (v : ℕ → ℝ) (hv : ∀ q, dir q → (L.p1 v).tr q = 0)
    (F₀ : Form Ω Bool) (h₀ : P.form bcs (L.p1 v) [] = .ok F₀) :
    P.mesh.assemble F₀ + taken P ks (L.p1 v).tr = 0 := by
  obtain ⟨F, hF, hA⟩ := kinetics_split (ks := ks) hK.traps (fun _ _ => 0) _ F₀ h₀
  rw [hK.solves v _ hv F hF, kinetics_form hK.theta] at hA
  simp only [mul_zero, zero_add] at hA
  exact hA.symm

theorem taken_sign {r : Fld Ω Bool 1} (hm : P.mesh = L.mesh r) (hu : P.mv.sol = L.p1 u) (hp : P.mv.prev = L.p1 un)
    (σ : ℝ) (j : ℕ) (h : ∀ b s q, Attached L ks b s q → (L.p1 u).tr q = u j → (L.p1 un).tr q = un j →
      σ * (layerChange P.dt b (u j) (un j) + release b q (P.T.T.tr q) s.sol (u j)) ≤ 0) :
    σ * taken P ks (L.p1 (hat j)).tr ≤ 0 := by
  have key := list_sum_sign (-σ) ks (fun b => (b.surfaces.map fun s => surface P.mesh s.id fun q =>
    (layerChange P.dt b (P.mv.sol.tr q) (P.mv.prev.tr q)
      + release b q (P.T.T.tr q) s.sol (P.mv.sol.tr q)) * (L.p1 (hat j)).tr q).sum) fun b hb =>
    list_sum_sign (-σ) b.surfaces _ fun s hs => ?_
  · have : σ * taken P ks (L.p1 (hat j)).tr = -(-σ * taken P ks (L.p1 (hat j)).tr) := by ring
    rw [this]
    exact neg_nonpos.2 key
  · unfold surface
    rw [Finset.mul_sum]
    refine Finset.sum_nonneg fun q hq => ?_
    have hid : s.id = if q then L.right else L.left := by
      have := (Finset.mem_filter.1 hq).2
      rw [hm] at this
      exact this.symm
    rcases hat_tr L j u q with h0 | ⟨h1, h2⟩
    · simp [h0]
    · have h3 : (L.p1 un).tr q = un j := by
        rcases hat_tr L j un q with h0 | ⟨_, h2⟩
        · rw [h1] at h0; exact absurd h0 one_ne_zero
        · exact h2
      have := h b s q ⟨hb, hs, hid⟩ h2 h3
      dsimp only
      rw [hm, hu, hp, h1, h2, h3]
      simp only [Line.mesh, one_mul, mul_one]
      linarith

end

end Festim.Weak

namespace Festim.Props

open Festim.Weak

section
variable {Ω : Type} [Fintype Ω] {L : Line Ω} {P : Problem Ω Bool 1} {ks : List (SK Bool)} {bcs : List (MobBC Bool)}
  {mat : Ω → Mat} {u un : ℕ → ℝ} {dir : Bool → Prop} {h M : ℝ}

theorem kinetics_node (hK : WithKinetics L P ks bcs mat u dir) (hdt : P.dt = some h) (hprev : P.mv.prev = L.p1 un)
    (σ m : ℝ) (hpush : Pushes L P bcs u dir σ m) (j : ℕ) (hj : j ≤ L.N) (hlt : σ * u j < σ * m)
    (hs : ∀ b s q, Attached L ks b s q → (L.p1 u).tr q = u j → (L.p1 un).tr q = un j →
      σ * (layerChange P.dt b (u j) (un j) + release b q (P.T.T.tr q) s.sol (u j)) ≤ 0) :
    0 ≤ σ * nodeRow L 1 (diffAt P mat) u (fun i => u i - un i) h j := by
  obtain ⟨r, hm⟩ := hK.mesh
  obtain ⟨F, hF⟩ := form_ok_notraps P bcs (L.p1 (hat j)) hK.traps
  have h0 := kinetics_equation hK (hat j) (fun q hq => by
    rcases hat_tr L j u q with h | ⟨_, h⟩
    · exact h
    · have := hpush.dirichlet q hq
      rw [h] at this
      linarith) F hF
  rw [transient_node L hK.quad r P bcs mat u un h hm hdt hK.traps hK.theta hK.soret hK.sol hprev hK.cover hK.noSK j hj
    F hF] at h0
  obtain ⟨matS, h0⟩ : ∃ matS, nodeRow L 1 (diffAt P mat) u (fun i => u i - un i) h j
      - supply P bcs mat matS (L.p1 (hat j)) + taken P ks (L.p1 (hat j)).tr = 0 := ⟨_, h0⟩
  have h1 := supply_sign L hK.quad r P bcs mat matS u σ hm hK.traps hK.theta hK.sol hK.noSK j
    hpush.src (fun f ss hb q hq he => by
      have := hpush.bc f ss hb q hq (he ▸ hlt)
      rwa [he] at this)
  have h2 := taken_sign (ks := ks) hm hK.sol hprev σ j hs
  have h3 : nodeRow L 1 (diffAt P mat) u (fun i => u i - un i) h j
      = supply P bcs mat matS (L.p1 (hat j)) - taken P ks (L.p1 (hat j)).tr := by
    linarith
  rw [h3, mul_sub]
  linarith

/-- **C118 (a).** One step, with cells short compared with the distance diffused during it: as long as the adsorbed
concentrations are physical (not negative, not above `n_surf`) the mobile concentration is physical everywhere (not negative,
not above `n_IS`), whatever the rates and the adsorption flux. -/
theorem C118_concentration (hK : WithKinetics L P ks bcs mat u dir) (hdt : P.dt = some h) (hh : 0 < h)
    (hprev : P.mv.prev = L.p1 un) (hun : ∀ j ≤ L.N, 0 ≤ un j ∧ un j ≤ M) (hr : Rates ks M)
    (hlow : Pushes L P bcs u dir 1 0) (hup : Pushes L P bcs u dir (-1) M)
    (hstep : ∀ p, L.h (L.cell p) ^ 2 ≤ 6 * diffAt P mat p * h)
    (hs : ∀ b s q, Attached L ks b s q → 0 ≤ s.sol ∧ s.sol ≤ b.n_surf) : ∀ j ≤ L.N, 0 ≤ u j ∧ u j ≤ M := by
  have cond := cell_condition L hK.quad 1 (diffAt P mat) h hh fun p => by
    rw [Pi.one_apply, one_mul]; linarith [hstep p]
  have lo := min_principle L 1 (diffAt P mat) u un h 0 hh (fun _ _ => one_pos) cond (fun j hj => (hun j hj).1)
    fun j hj hlt => by
      have := kinetics_node hK hdt hprev 1 0 hlow j hj (by simpa using hlt) fun b s q ha h1 h2 => by
        obtain ⟨s0, s1⟩ := hs b s q ha
        have hb := ha.1
        have hn := hr.surf b hb
        have a1 : layerChange P.dt b (u j) (un j) ≤ 0 := by
          rw [hdt]
          simp only [layerChange]
          exact div_nonpos_of_nonpos_of_nonneg (mul_nonpos_of_nonneg_of_nonpos (hr.layer b hb)
            (by linarith [(hun j hj).1])) hh.le
        have a2 : b.k_bs q (P.T.T.tr q) s.sol (u j) * u j * (1 - s.sol / b.n_surf) ≤ 0 :=
          mul_nonpos_of_nonpos_of_nonneg (mul_nonpos_of_nonneg_of_nonpos (hr.bs b hb _ _ _ _) hlt.le)
            (sub_nonneg.2 ((div_le_one hn).2 s1))
        have a3 : 0 ≤ b.k_sb q (P.T.T.tr q) s.sol (u j) * s.sol * (1 - u j / b.n_IS) := by
          rw [hr.inside b hb]
          exact mul_nonneg (mul_nonneg (hr.sb b hb _ _ _ _) s0)
            (sub_nonneg.2 ((div_nonpos_of_nonpos_of_nonneg hlt.le hr.positive.le).trans zero_le_one))
        unfold release
        linarith
      rwa [one_mul] at this
  have hi := max_principle L 1 (diffAt P mat) u un h M hh (fun _ _ => one_pos) cond (fun j hj => (hun j hj).2)
    fun j hj hlt => by
      have := kinetics_node hK hdt hprev (-1) M hup j hj (by linarith) fun b s q ha h1 h2 => by
        obtain ⟨s0, s1⟩ := hs b s q ha
        have hb := ha.1
        have hn := hr.surf b hb
        have a1 : 0 ≤ layerChange P.dt b (u j) (un j) := by
          rw [hdt]
          simp only [layerChange]
          exact div_nonneg (mul_nonneg (hr.layer b hb) (by linarith [(hun j hj).2])) hh.le
        have a2 : 0 ≤ b.k_bs q (P.T.T.tr q) s.sol (u j) * u j * (1 - s.sol / b.n_surf) :=
          mul_nonneg (mul_nonneg (hr.bs b hb _ _ _ _) (hr.positive.le.trans hlt.le))
            (sub_nonneg.2 ((div_le_one hn).2 s1))
        have a3 : b.k_sb q (P.T.T.tr q) s.sol (u j) * s.sol * (1 - u j / b.n_IS) ≤ 0 := by
          rw [hr.inside b hb]
          exact mul_nonpos_of_nonneg_of_nonpos (mul_nonneg (hr.sb b hb _ _ _ _) s0)
            (sub_nonpos.2 ((one_le_div hr.positive).2 hlt.le))
        unfold release
        linarith
      linarith
  exact fun j hj => ⟨lo j hj, hi j hj⟩

/-- **C118 (b).** Conversely, where the mobile concentration below a surface is physical the adsorbed one is, if it was at the
previous step. -/
theorem C118_coverage (hK : WithKinetics L P ks bcs mat u dir) (hdt : P.dt = some h) (hh : 0 < h) (hr : Rates ks M)
    (hJ : Adsorbs ks) {b : SK Bool} {s : SKSurf} {q : Bool} (ha : Attached L ks b s q)
    (hprev : 0 ≤ s.prev ∧ s.prev ≤ b.n_surf) (hc : 0 ≤ (L.p1 u).tr q ∧ (L.p1 u).tr q ≤ M) :
    0 ≤ s.sol ∧ s.sol ≤ b.n_surf := by
  have e := adsorbed_balance hK ha
  have hb := ha.1
  have hn := hr.surf b hb
  have h1 : 0 ≤ 1 - (L.p1 u).tr q / b.n_IS := by
    rw [hr.inside b hb]
    exact sub_nonneg.2 ((div_le_one hr.positive).2 hc.2)
  rw [hdt] at e
  simp only [adsChange, release] at e
  have k1 := hr.bs b hb q (P.T.T.tr q) s.sol ((L.p1 u).tr q)
  have k2 := hr.sb b hb q (P.T.T.tr q) s.sol ((L.p1 u).tr q)
  obtain ⟨j1, j2⟩ := hJ b hb q (P.T.T.tr q) s.sol ((L.p1 u).tr q)
  constructor
  · by_contra hlt
    push Not at hlt
    have a1 : (s.sol - s.prev) / h < 0 := div_neg_of_neg_of_pos (by linarith) hh
    have a2 := mul_nonneg (mul_nonneg k1 hc.1)
      (sub_nonneg.2 ((div_nonpos_of_nonpos_of_nonneg hlt.le hn.le).trans zero_le_one))
    have a3 := mul_nonpos_of_nonpos_of_nonneg (mul_nonpos_of_nonneg_of_nonpos k2 hlt.le) h1
    linarith [j1 hlt]
  · by_contra hlt
    push Not at hlt
    have a1 : 0 < (s.sol - s.prev) / h := div_pos (by linarith) hh
    have a2 := mul_nonpos_of_nonneg_of_nonpos (mul_nonneg k1 hc.1) (sub_nonpos.2 ((one_le_div hn).2 hlt.le))
    have a3 := mul_nonneg (mul_nonneg k2 (hn.le.trans hlt.le)) h1
    linarith [j2 hlt]

/-- **C118 (c).** After a step from a physical state, either everything is physical, or at some surface the adsorbed and the
mobile concentration are unphysical together, on opposite sides: more adsorbed than there are sites with a negative mobile
concentration, or the reverse. -/
theorem C118_alternatives (hK : WithKinetics L P ks bcs mat u dir) (hdt : P.dt = some h) (hh : 0 < h)
    (hprev : P.mv.prev = L.p1 un) (hun : ∀ j ≤ L.N, 0 ≤ un j ∧ un j ≤ M) (hr : Rates ks M) (hJ : Adsorbs ks)
    (hlow : Pushes L P bcs u dir 1 0) (hup : Pushes L P bcs u dir (-1) M)
    (hstep : ∀ p, L.h (L.cell p) ^ 2 ≤ 6 * diffAt P mat p * h)
    (hs : ∀ b s q, Attached L ks b s q → 0 ≤ s.prev ∧ s.prev ≤ b.n_surf) :
    ((∀ j ≤ L.N, 0 ≤ u j ∧ u j ≤ M) ∧ ∀ b s q, Attached L ks b s q → 0 ≤ s.sol ∧ s.sol ≤ b.n_surf) ∨
      ∃ b s q, Attached L ks b s q ∧
        ((b.n_surf < s.sol ∧ (L.p1 u).tr q < 0) ∨ (s.sol < 0 ∧ M < (L.p1 u).tr q)) := by
  by_cases hbad : ∃ b s q, Attached L ks b s q ∧
      ((b.n_surf < s.sol ∧ (L.p1 u).tr q < 0) ∨ (s.sol < 0 ∧ M < (L.p1 u).tr q))
  · exact Or.inr hbad
  left
  push Not at hbad
  have cond := cell_condition L hK.quad 1 (diffAt P mat) h hh fun p => by
    rw [Pi.one_apply, one_mul]; linarith [hstep p]
  have lo := min_principle L 1 (diffAt P mat) u un h 0 hh (fun _ _ => one_pos) cond (fun j hj => (hun j hj).1)
    fun j hj hlt => by
      have := kinetics_node hK hdt hprev 1 0 hlow j hj (by simpa using hlt) fun b s q ha h1 h2 => by
        have hb := ha.1
        have hn := hr.surf b hb
        have s1 : s.sol ≤ b.n_surf := by
          by_contra hc
          push Not at hc
          exact absurd ((hbad b s q ha).1 hc) (not_le.2 (h1 ▸ hlt))
        have a1 : layerChange P.dt b (u j) (un j) ≤ 0 := by
          rw [hdt]
          simp only [layerChange]
          exact div_nonpos_of_nonpos_of_nonneg (mul_nonpos_of_nonneg_of_nonpos (hr.layer b hb)
            (by linarith [(hun j hj).1])) hh.le
        have a2 : release b q (P.T.T.tr q) s.sol (u j) ≤ 0 := by
          rcases le_or_gt 0 s.sol with s0 | s0
          · have a2 : b.k_bs q (P.T.T.tr q) s.sol (u j) * u j * (1 - s.sol / b.n_surf) ≤ 0 :=
              mul_nonpos_of_nonpos_of_nonneg (mul_nonpos_of_nonneg_of_nonpos (hr.bs b hb _ _ _ _) hlt.le)
                (sub_nonneg.2 ((div_le_one hn).2 s1))
            have a3 : 0 ≤ b.k_sb q (P.T.T.tr q) s.sol (u j) * s.sol * (1 - u j / b.n_IS) := by
              rw [hr.inside b hb]
              exact mul_nonneg (mul_nonneg (hr.sb b hb _ _ _ _) s0)
                (sub_nonneg.2 ((div_nonpos_of_nonpos_of_nonneg hlt.le hr.positive.le).trans zero_le_one))
            unfold release
            linarith
          · have e := adsorbed_balance hK ha
            rw [hdt, h1] at e
            have a1 : (s.sol - s.prev) / h < 0 := div_neg_of_neg_of_pos (by linarith [(hs b s q ha).1]) hh
            have := (hJ b hb q (P.T.T.tr q) s.sol (u j)).1 s0
            simp only [adsChange] at e
            linarith
        linarith
      rwa [one_mul] at this
  have hi := max_principle L 1 (diffAt P mat) u un h M hh (fun _ _ => one_pos) cond (fun j hj => (hun j hj).2)
    fun j hj hlt => by
      have := kinetics_node hK hdt hprev (-1) M hup j hj (by linarith) fun b s q ha h1 h2 => by
        have hb := ha.1
        have hn := hr.surf b hb
        have s0 : 0 ≤ s.sol := by
          by_contra hc
          push Not at hc
          exact absurd ((hbad b s q ha).2 hc) (not_le.2 (h1 ▸ hlt))
        have a1 : 0 ≤ layerChange P.dt b (u j) (un j) := by
          rw [hdt]
          simp only [layerChange]
          exact div_nonneg (mul_nonneg (hr.layer b hb) (by linarith [(hun j hj).2])) hh.le
        have a2 : 0 ≤ release b q (P.T.T.tr q) s.sol (u j) := by
          rcases le_or_gt s.sol b.n_surf with s1 | s1
          · have a2 : 0 ≤ b.k_bs q (P.T.T.tr q) s.sol (u j) * u j * (1 - s.sol / b.n_surf) :=
              mul_nonneg (mul_nonneg (hr.bs b hb _ _ _ _) (hr.positive.le.trans hlt.le))
                (sub_nonneg.2 ((div_le_one hn).2 s1))
            have a3 : b.k_sb q (P.T.T.tr q) s.sol (u j) * s.sol * (1 - u j / b.n_IS) ≤ 0 := by
              rw [hr.inside b hb]
              exact mul_nonpos_of_nonneg_of_nonpos (mul_nonneg (hr.sb b hb _ _ _ _) s0)
                (sub_nonpos.2 ((one_le_div hr.positive).2 hlt.le))
            unfold release
            linarith
          · have e := adsorbed_balance hK ha
            rw [hdt, h1] at e
            have a1 : 0 < (s.sol - s.prev) / h := div_pos (by linarith [(hs b s q ha).2]) hh
            have := (hJ b hb q (P.T.T.tr q) s.sol (u j)).2 s1
            simp only [adsChange] at e
            linarith
        linarith
      linarith
  have hu : ∀ j ≤ L.N, 0 ≤ u j ∧ u j ≤ M := fun j hj => ⟨lo j hj, hi j hj⟩
  exact ⟨hu, fun b s q ha => C118_coverage hK hdt hh hr hJ ha (hs b s q ha)
    ((p1_between L hK.quad u 0 M hu).2 q)⟩

/-- **C118 (a), run.** Over a whole run: the mobile concentration is physical as long as the adsorbed ones are. -/
theorem C118_run (P : ℕ → Problem Ω Bool 1) (ks : ℕ → List (SK Bool)) (bcs : ℕ → List (MobBC Bool)) (U : ℕ → ℕ → ℝ)
    (dir : ℕ → Bool → Prop) (h : ℕ → ℝ) (hK : ∀ n, WithKinetics L (P n) (ks n) (bcs n) mat (U (n + 1)) (dir n))
    (hdt : ∀ n, (P n).dt = some (h n)) (hh : ∀ n, 0 < h n) (hprev : ∀ n, (P n).mv.prev = L.p1 (U n))
    (h0 : ∀ j ≤ L.N, 0 ≤ U 0 j ∧ U 0 j ≤ M) (hr : ∀ n, Rates (ks n) M)
    (hlow : ∀ n, Pushes L (P n) (bcs n) (U (n + 1)) (dir n) 1 0)
    (hup : ∀ n, Pushes L (P n) (bcs n) (U (n + 1)) (dir n) (-1) M)
    (hstep : ∀ n p, L.h (L.cell p) ^ 2 ≤ 6 * diffAt (P n) mat p * h n) (n : ℕ)
    (hs : ∀ i < n, ∀ b s q, Attached L (ks i) b s q → 0 ≤ s.sol ∧ s.sol ≤ b.n_surf) :
    ∀ j ≤ L.N, 0 ≤ U n j ∧ U n j ≤ M := by
  induction n with
  | zero => exact h0
  | succ n ih =>
    exact C118_concentration (hK n) (hdt n) (hh n) (hprev n) (ih fun i hi => hs i (by omega)) (hr n) (hlow n) (hup n)
      (hstep n) (hs n (by omega))

end

section
variable {Ω : Type} [Fintype Ω] {L : Line Ω} {P : Problem Ω Bool 1} {ks : List (SK Bool)}
  {mat : Ω → Mat} {matS : Bool → Mat} {u : ℕ → ℝ} {dir : Bool → Prop} {M : ℝ}

/-- What the adsorption fluxes bring to the end `q`. -/
noncomputable def adsorption (L : Line Ω) (P : Problem Ω Bool 1) (ks : List (SK Bool)) (u : ℕ → ℝ) (q : Bool) : ℝ :=
  (ks.map fun b => (b.surfaces.map fun s => if s.id = (if q then L.right else L.left) then
    b.J_vs q (P.T.T.tr q) s.sol ((L.p1 u).tr q) else 0).sum).sum

theorem taken_end (hK : WithKinetics L P ks [] mat u dir) (hdt : P.dt = none) (v : Bool → ℝ) :
    taken P ks v = -(adsorption L P ks u false * v false) - adsorption L P ks u true * v true := by
  obtain ⟨r, hm⟩ := hK.mesh
  have key : taken P ks v = (ks.map fun b => -v false * (b.surfaces.map fun s => if s.id = L.left then
      b.J_vs false (P.T.T.tr false) s.sol ((L.p1 u).tr false) else 0).sum
      + -v true * (b.surfaces.map fun s => if s.id = L.right then
      b.J_vs true (P.T.T.tr true) s.sol ((L.p1 u).tr true) else 0).sum).sum := by
    unfold taken
    congr 1
    apply List.map_congr_left
    intro b hb
    rw [← List.sum_map_mul_left, ← List.sum_map_mul_left, ← List.sum_map_add]
    congr 1
    apply List.map_congr_left
    intro s hs
    have h1 : ∀ q, (s.id = if q then L.right else L.left) →
        release b q (P.T.T.tr q) s.sol ((L.p1 u).tr q) = -b.J_vs q (P.T.T.tr q) s.sol ((L.p1 u).tr q) := by
      intro q hq
      have := adsorbed_balance hK ⟨hb, hs, hq⟩
      rw [hdt] at this
      simp only [adsChange] at this
      linarith
    have hl := h1 false
    have hr := h1 true
    simp only [Bool.false_eq_true, if_false, if_true] at hl hr
    unfold surface
    rw [Finset.sum_filter, Fintype.sum_bool, hm, hK.sol, hdt]
    simp only [Line.mesh, layerChange, zero_add, one_mul, Bool.false_eq_true, if_false, if_true]
    have hne := L.ends
    by_cases e1 : s.id = L.left
    · have e2 : ¬ s.id = L.right := fun e => hne (e1.symm.trans e)
      have e3 : ¬ L.right = s.id := fun e => e2 e.symm
      rw [if_neg e3, if_pos e1.symm, if_pos e1, if_neg e2, hl e1]
      ring
    · have e3 : ¬ L.left = s.id := fun e => e1 e.symm
      rw [if_neg e3, if_neg e1]
      by_cases e2 : s.id = L.right
      · rw [if_pos e2, if_pos e2.symm, hr e2]
        ring
      · rw [if_neg e2, if_neg fun e => e2 e.symm]
        ring
  rw [key, List.sum_map_add, List.sum_map_mul_left, List.sum_map_mul_left]
  unfold adsorption
  simp only [Bool.false_eq_true, if_false, if_true]
  ring

/-- The equations of the nodes of a steady state without sources. -/
theorem steady_rows (hK : WithKinetics L P ks [] mat u dir) (hdt : P.dt = none) (hsrc : P.sources = []) (j : ℕ)
    (hj : j ≤ L.N) (hfree : ∀ q, dir q → (L.p1 (hat j)).tr q = 0) :
    (if j < L.N then cellFlux L (diffAt P mat) u j else 0)
      - (if 0 < j then cellFlux L (diffAt P mat) u (j - 1) else 0)
      = -(adsorption L P ks u false * (L.p1 (hat j)).tr false) - adsorption L P ks u true * (L.p1 (hat j)).tr true := by
  obtain ⟨r, hm⟩ := hK.mesh
  obtain ⟨F, hF⟩ := form_ok_notraps P [] (L.p1 (hat j)) hK.traps
  have h0 := kinetics_equation hK (hat j) hfree F hF
  rw [steady_node L hK.quad r P [] mat u hm hdt hK.traps hK.theta hK.soret hK.sol hK.cover hK.noSK j hj F hF,
    taken_end hK hdt] at h0
  have hz : ∀ matS, supply P [] mat matS (L.p1 (hat j)) = 0 := by
    intro matS
    simp [supply, hsrc, hK.traps]
  rw [hz] at h0
  unfold nodeRow at h0
  simp only [Pi.zero_apply, zero_mul, zero_div, zero_add, mul_zero, add_zero] at h0
  have e : ∀ i, cellFlux L (diffAt P mat) u i
      = cellInt L (fun p => arr (mat p).D_0 (mat p).E_D (P.T.T.val p)) i / L.h i ^ 2 * (u (i + 1) - u i) := by
    intro i
    unfold cellFlux diffAt
    rw [div_mul_div_comm, div_mul_eq_mul_div]
    congr 1
    ring
  rw [e, e]
  rcases Nat.eq_zero_or_pos j with rfl | hj0
  · simp only [lt_irrefl, if_false, L.N_pos, if_true] at h0 ⊢
    linarith
  · rw [if_pos hj0] at h0 ⊢
    rw [Nat.sub_add_cancel hj0]
    split_ifs at h0 ⊢ <;> linarith

theorem steady_flux (hK : WithKinetics L P ks [] mat u dir) (hdt : P.dt = none) (hsrc : P.sources = []) (i : ℕ)
    (hi : i < L.N) : cellFlux L (diffAt P mat) u i = cellFlux L (diffAt P mat) u 0 := by
  induction i with
  | zero => rfl
  | succ i ih =>
    have htr : ∀ q, (L.p1 (hat (i + 1))).tr q = 0 := by
      intro q
      have : ¬ L.N = i + 1 := by omega
      cases q <;> simp [Line.p1, hat, this]
    have := steady_rows hK hdt hsrc (i + 1) (by omega) fun q _ => htr q
    rw [if_pos hi, if_pos (Nat.succ_pos i), htr, htr, Nat.add_sub_cancel] at this
    rw [← ih (by omega)]
    linarith

/-- The flux in the first and in the last cell. -/
theorem steady_ends (hK : WithKinetics L P ks [] mat u dir) (hdt : P.dt = none) (hsrc : P.sources = []) (q : Bool)
    (hq : ¬ dir q) : cellFlux L (diffAt P mat) u (L.endCell q) * Line.normal q 0 = adsorption L P ks u q := by
  have hN := L.N_pos
  have h0N : ¬ (0 = L.N) := by omega
  have hN0 : ¬ (L.N = 0) := by omega
  cases q with
  | false =>
    have := steady_rows hK hdt hsrc 0 (by omega) fun q hd => by
      cases q
      · exact absurd hd hq
      · simp [Line.p1, hat, hN0]
    simp only [hN, if_true, lt_irrefl, if_false] at this
    simp [Line.p1, hat, hN0] at this
    simp [Line.endCell, Line.normal]
    linarith
  | true =>
    have := steady_rows hK hdt hsrc L.N le_rfl fun q hd => by
      cases q
      · simp [Line.p1, hat, h0N]
      · exact absurd hd hq
    simp only [hN, if_true, lt_irrefl, if_false] at this
    simp [Line.p1, hat, h0N] at this
    simp [Line.endCell, Line.normal]
    linarith

/-- **C118 (d).** Steady state without sources: the reported `SurfaceFlux` at a surface with kinetics is its net adsorption
flux. -/
theorem C118_reported (hK : WithKinetics L P ks [] mat u dir) (hdt : P.dt = none) (hsrc : P.sources = [])
    (e : PostEnv Ω Bool 1) (proj : Bool) (he : LineReport L P mat matS u e) (q : Bool) (hq : ¬ dir q) :
    (hydrogenFlux (if q then L.right else L.left)).value e proj = .ok (adsorption L P ks u q) := by
  have hd : LineData L P [] mat matS u :=
    ⟨hK.mesh, hK.sol, hK.cover, ⟨by simp [hK.theta], by simp [hK.theta], by simp [hK.theta], by simp [hK.theta]⟩,
      by simp [hK.theta], by simp [hK.theta, hK.soret], by simp⟩
  obtain ⟨h1, h2⟩ := line_reported hd e proj he.mesh he.normal he.soret he.properties he.grad he.ends
  have hc : conductivity P mat = diffAt P mat := by
    funext p
    simp [conductivity, diffAt, hK.theta]
  have := steady_ends hK hdt hsrc q hq
  cases q with
  | false =>
    simp only [Bool.false_eq_true, if_false]
    rw [h2, ← this, hc]
    simp [Line.endCell, Line.normal]
  | true =>
    simp only [if_true]
    rw [h1, ← this, hc]
    simp [Line.endCell, Line.normal]

/-- **C118 (e).** With kinetics at one end only, nothing passing the other and no sources, a steady state is an
equilibrium: the mobile concentration is uniform, nothing is adsorbed or desorbed, and as much goes to the surface as comes
from it. -/
theorem C118_equilibrium {b : SK Bool} {s : SKSurf} {q : Bool} (hK : WithKinetics L P [b] [] mat u fun _ => False)
    (hs : b.surfaces = [s]) (hid : s.id = if q then L.right else L.left) (hdt : P.dt = none) (hsrc : P.sources = [])
    (hD : ∀ p, 0 < diffAt P mat p) :
    (∀ j ≤ L.N, u j = (L.p1 u).tr q) ∧ b.J_vs q (P.T.T.tr q) s.sol ((L.p1 u).tr q) = 0 ∧
      release b q (P.T.T.tr q) s.sol ((L.p1 u).tr q) = 0 := by
  have hN := L.N_pos
  have hne := L.ends
  have other : adsorption L P [b] u (!q) = 0 := by
    have hne' := hne.symm
    cases q <;> simp [adsorption, hs, hid, hne, hne']
  have here : adsorption L P [b] u q = b.J_vs q (P.T.T.tr q) s.sol ((L.p1 u).tr q) := by
    simp [adsorption, hs, hid]
  have ho := steady_ends hK hdt hsrc (!q) (by simp)
  have hq := steady_ends hK hdt hsrc q (by simp)
  have hlt : ∀ q, L.endCell q < L.N := fun q => by cases q <;> simp [Line.endCell] <;> omega
  rw [steady_flux hK hdt hsrc _ (hlt _)] at ho hq
  rw [other] at ho
  have z : cellFlux L (diffAt P mat) u 0 = 0 := by
    rcases mul_eq_zero.1 ho with h | h
    · exact h
    · exfalso
      cases q <;> simp [Line.normal] at h
  rw [z, zero_mul] at hq
  have hJ : b.J_vs q (P.T.T.tr q) s.sol ((L.p1 u).tr q) = 0 := by rw [← here]; exact hq.symm
  have step : ∀ i < L.N, u (i + 1) = u i := by
    intro i hi
    have h1 := steady_flux hK hdt hsrc i hi
    rw [z] at h1
    unfold cellFlux at h1
    have hh := (L.h_pos i hi).ne'
    rcases mul_eq_zero.1 h1 with h | h
    · exact absurd h (div_ne_zero (cellInt_pos L hK.quad _ hD i hi).ne' hh)
    · rcases div_eq_zero_iff.1 h with h | h
      · linarith
      · exact absurd h hh
  have const : ∀ j ≤ L.N, u j = u 0 := by
    intro j
    induction j with
    | zero => intro _; rfl
    | succ j ih => intro hj; rw [step j (by omega), ih (by omega)]
  refine ⟨fun j hj => ?_, hJ, ?_⟩
  · rw [const j hj]
    cases q
    · simp [Line.p1]
    · simp [Line.p1, const L.N le_rfl]
  · have := adsorbed_balance hK (b := b) (s := s) (q := q) ⟨by simp, by simp [hs], hid⟩
    rw [hdt, hJ] at this
    simp only [adsChange] at this
    linarith

/-- **C118 (f).** Exposure to a gas at pressure `p` with dissociation and recombination (`k_d p (1 - s/n_surf)² - k_r s²`):
in equilibrium the concentration follows Sieverts' law with the solubility `k_sb / k_bs √(k_d / k_r)`, corrected for the
occupancy of the interstitial sites, whatever the number of adsorption sites. -/
theorem C118_sieverts {b : SK Bool} {s : SKSurf} {q : Bool} (hK : WithKinetics L P [b] [] mat u fun _ => False)
    (hs : b.surfaces = [s]) (hid : s.id = if q then L.right else L.left) (hdt : P.dt = none) (hsrc : P.sources = [])
    (hD : ∀ p, 0 < diffAt P mat p) (ksb kbs kd kr p : ℝ) (h1 : 0 < ksb) (h2 : 0 < kbs) (h3 : 0 < kd) (h4 : 0 < kr)
    (hp : 0 ≤ p) (hsb : b.k_sb = fun _ _ _ _ => ksb) (hbs : b.k_bs = fun _ _ _ _ => kbs)
    (hJ : b.J_vs = fun _ _ s _ => kd * p * (1 - s / b.n_surf) ^ 2 - kr * s ^ 2)
    (hn : 0 < b.n_surf) (hM : 0 < b.n_IS) (h0 : 0 ≤ s.sol) (hfull : s.sol ≤ b.n_surf) :
    let S := ksb / kbs * √(kd / kr)
    ∀ j ≤ L.N, u j = S * √p / (1 + S * √p / b.n_IS) := by
  intro S j hj
  obtain ⟨e1, e2, e3⟩ := C118_equilibrium hK hs hid hdt hsrc hD
  rw [e1 j hj]
  set c := (L.p1 u).tr q
  set x := s.sol
  set f := 1 - x / b.n_surf with hf
  have f0 : 0 ≤ f := sub_nonneg.2 ((div_le_one hn).2 hfull)
  rw [hJ] at e2
  simp only at e2
  set a := √(kd / kr) * √p with ha
  have ha0 : 0 ≤ a := by positivity
  have ha2 : a ^ 2 = kd / kr * p := by
    rw [ha, mul_pow, Real.sq_sqrt (by positivity), Real.sq_sqrt hp]
  have hx : x = a * f := by
    have : x ^ 2 = (a * f) ^ 2 := by
      rw [mul_pow, ha2]
      field_simp
      linarith
    exact (sq_eq_sq₀ h0 (mul_nonneg ha0 f0)).1 this
  have fpos : 0 < f := by
    refine lt_of_le_of_ne f0 fun e => ?_
    rw [← e, mul_zero] at hx
    rw [hf, hx, zero_div, sub_zero] at e
    exact zero_ne_one e
  unfold release at e3
  rw [hsb, hbs] at e3
  simp only at e3
  rw [← hf, hx] at e3
  have e4 : (kbs * c - ksb * a * (1 - c / b.n_IS)) * f = 0 := by linarith
  have e5 : kbs * c - ksb * a * (1 - c / b.n_IS) = 0 := (mul_eq_zero.1 e4).resolve_right fpos.ne'
  have hS : S * √p = ksb / kbs * a := by simp only [S, ha]; ring
  rw [hS]
  have hpos : 0 < 1 + ksb / kbs * a / b.n_IS := by positivity
  rw [eq_div_iff hpos.ne']
  field_simp
  field_simp at e5
  linarith

end

/-! ### One cell with kinetics on both surfaces -/

namespace KinCase

noncomputable def L : Line (Fin 3) where
  N := 1
  h _ := 1
  cell _ := 0
  lam p := p.val / 2
  w p := if p = 1 then 2 / 3 else 1 / 6
  vm _ := 1
  left := 1
  right := 2
  vmL := 1
  vmR := 1
  N_pos := by norm_num
  h_pos _ _ := one_pos
  cell_lt _ := by norm_num
  exact := by
    intro i hi
    have h21 : ¬ (2 : Fin 3) = 1 := by decide
    obtain rfl : i = 0 := by omega
    norm_num [Finset.sum_filter, Fin.sum_univ_three, h21]
  ends := by norm_num

theorem exact2 : L.Exact2 where
  w_nonneg p := by simp only [L]; split_ifs <;> norm_num
  lam_nonneg p := by fin_cases p <;> norm_num [L]
  lam_le p := by fin_cases p <;> norm_num [L]
  one := by
    intro i hi
    have h21 : ¬ (2 : Fin 3) = 1 := by decide
    obtain rfl : i = 0 := by simp only [L] at hi; omega
    norm_num [L, Finset.sum_filter, Fin.sum_univ_three, h21]
  two := by
    intro i hi
    have h21 : ¬ (2 : Fin 3) = 1 := by decide
    obtain rfl : i = 0 := by simp only [L] at hi; omega
    norm_num [L, Finset.sum_filter, Fin.sum_univ_three, h21]

noncomputable def M : Mat := { uid := 0, ids := [1], D_0 := 1, E_D := 0 }

/-- One step of length 1, or a steady state. -/
noncomputable def P (dt : Option ℝ) (u un : ℕ → ℝ) : Problem (Fin 3) Bool 1 where
  mesh := L.mesh (Fld.const 1)
  mats := [M]
  mv := { theta := false, sol := L.p1 u, prev := L.p1 un }
  T := ⟨Fld.const 300, Fld.const 300⟩
  dt := dt
  soret := false
  sources := []
  traps := []

noncomputable def cellMass (dt : Option ℝ) (u un v : ℕ → ℝ) : ℝ :=
  match dt with
  | some h => ((2 * (u 0 - un 0) + (u 1 - un 1)) * v 0 + ((u 0 - un 0) + 2 * (u 1 - un 1)) * v 1) / (6 * h)
  | none => 0

theorem cells : L.N = 1 := rfl

theorem cell_form (dt : Option ℝ) (u un v : ℕ → ℝ) (F : Form (Fin 3) Bool) (hF : (P dt u un).form [] (L.p1 v) [] = .ok F) :
    (P dt u un).mesh.assemble F = cellMass dt u un v + (u 0 - u 1) * (v 0 - v 1) := by
  have h21 : ¬ (2 : Fin 3) = 1 := by decide
  unfold Problem.form mobileForm diffusionForm at hF
  simp only [P, List.zip_nil_left] at hF
  injection hF with hF
  rw [← hF]
  cases dt <;>
    simp [P, L, Line.mesh, Mesh.assemble, Mesh.integrate, Form.neg, subdomainForm, Fld.const, dot, sourceForm, fluxesForm,
      M, Line.p1, Fin.sum_univ_three, Mobile.conc, h21, trapsForm, cellMass]
  · ring
  · simp only [div_eq_mul_inv, mul_inv]
    ring

theorem cell_solves (dt : Option ℝ) (u un : ℕ → ℝ) (ks : List (SK Bool))
    (h : ∀ (v : ℕ → ℝ) (w : SK Bool → SKSurf → ℝ), cellMass dt u un v + (u 0 - u 1) * (v 0 - v 1)
      + (ks.map fun b => (b.surfaces.map fun s =>
          surface (L.mesh (Fld.const 1)) s.id (fun q => adsChange dt s - (b.J_vs q 300 s.sol ((L.p1 u).tr q)
            + release b q 300 s.sol ((L.p1 u).tr q))) * w b s
          + surface (L.mesh (Fld.const 1)) s.id fun q => (layerChange dt b ((L.p1 u).tr q) ((L.p1 un).tr q)
            + release b q 300 s.sol ((L.p1 u).tr q)) * (L.p1 v).tr q).sum).sum = 0) :
    WithKinetics L (P dt u un) ks [] (fun _ => M) u fun _ => False where
  quad := exact2
  mesh := ⟨_, rfl⟩
  traps := rfl
  theta := rfl
  soret := rfl
  sol := rfl
  cover := ⟨by simp [P], by simp [P, L, Line.mesh, M], by simp [P, M]⟩
  noSK := by simp
  solves := by
    intro v w _ F hF
    obtain ⟨F₀, h₀⟩ := form_ok_notraps (P dt u un) [] (L.p1 v) rfl
    obtain ⟨F', hF', hA⟩ := kinetics_split (ks := ks) rfl w _ F₀ h₀
    obtain rfl : F = F' := by
      rw [hF'] at hF
      injection hF with hF
      exact hF.symm
    rw [hA, kinetics_form rfl, cell_form dt u un v F₀ h₀]
    exact h v w

theorem at_left (g : Bool → ℝ) : surface (L.mesh (Fld.const 1)) 1 g = g false := by
  simp [surface, Finset.sum_filter, Line.mesh, L]

theorem at_right (g : Bool → ℝ) : surface (L.mesh (Fld.const 1)) 2 g = g true := by
  simp [surface, Finset.sum_filter, Line.mesh, L]

theorem quiet (dt : Option ℝ) (u un : ℕ → ℝ) (σ m : ℝ) : Pushes L (P dt u un) [] u (fun _ => False) σ m :=
  ⟨by simp [P], by simp, by simp⟩

theorem short (u un : ℕ → ℝ) (p : Fin 3) : L.h (L.cell p) ^ 2 ≤ 6 * diffAt (P (some 1) u un) (fun _ => M) p * 1 := by
  norm_num [diffAt, L, M, arr]

/-- No exchange with the vacuum; `s` is adsorbed on both surfaces. -/
noncomputable def closed (s : ℝ) : SK Bool where
  k_sb _ _ _ _ := 1
  k_bs _ _ _ _ := 3
  J_vs _ _ _ _ := 0
  lambda_IS := 1 / 2
  n_surf := 4
  n_IS := 4
  surfaces := [⟨1, s, 15 / 8⟩, ⟨2, s, 15 / 8⟩]

theorem closed_solves (c s : ℝ) (h1 : c - 1 / 8 + (3 * c * (1 - s / 4) - s * (1 - c / 4)) = 0)
    (h2 : s - 15 / 8 = 3 * c * (1 - s / 4) - s * (1 - c / 4)) :
    WithKinetics L (P (some 1) (fun _ => c) fun _ => 1 / 8) [closed s] [] (fun _ => M) (fun _ => c) fun _ => False := by
  refine cell_solves _ _ _ _ fun v w => ?_
  simp only [List.map_cons, List.map_nil]
  generalize w (closed s) = w'
  simp [closed, at_left, at_right, release, adsChange, layerChange, Line.p1, cells, cellMass]
  linear_combination (v 0 + v 1) * h1 + (w' ⟨1, s, 15 / 8⟩ + w' ⟨2, s, 15 / 8⟩) * h2

theorem closed_rates (s : ℝ) : Rates [closed s] 4 :=
  ⟨by simp [closed], by simp [closed], by norm_num, by simp [closed], by simp [closed], by simp [closed]⟩

theorem closed_adsorbs (s : ℝ) : Adsorbs [closed s] := by
  intro b hb
  rw [List.mem_singleton] at hb
  subst hb
  simp [closed]

theorem closed_attached {t : ℝ} {b : SK Bool} {s : SKSurf} {q : Bool} (ha : Attached L [closed t] b s q) :
    b = closed t ∧ s.sol = t ∧ s.prev = 15 / 8 := by
  obtain ⟨h1, h2, _⟩ := ha
  rw [List.mem_singleton] at h1
  subst h1
  simp only [closed, List.mem_cons, List.not_mem_nil, or_false] at h2
  refine ⟨rfl, ?_⟩
  rcases h2 with rfl | rfl <;> simp

/-- The physical solution. -/
example : ∀ j ≤ L.N, 0 ≤ (fun _ => 1 / 2 : ℕ → ℝ) j ∧ (fun _ => 1 / 2 : ℕ → ℝ) j ≤ 4 :=
  C118_concentration (un := fun _ => 1 / 8) (closed_solves (1 / 2) (3 / 2) (by norm_num) (by norm_num)) rfl one_pos rfl (by norm_num)
    (closed_rates _) (quiet _ _ _ _ _) (quiet _ _ _ _ _) (short _ _) fun b s q ha => by
      obtain ⟨rfl, h, _⟩ := closed_attached ha
      rw [h]
      norm_num [closed]

example : (0 : ℝ) ≤ 3 / 2 ∧ (3 / 2 : ℝ) ≤ 4 :=
  C118_coverage (b := closed (3 / 2)) (s := ⟨1, 3 / 2, 15 / 8⟩) (q := false) (closed_solves (1 / 2) (3 / 2) (by norm_num) (by norm_num)) rfl
    one_pos (closed_rates _) (closed_adsorbs _) ⟨by simp, by simp [closed], by simp [L]⟩ (by norm_num [closed])
    (by norm_num [Line.p1])

/-- A plate in equilibrium with its surfaces. -/
noncomputable def open₁ (n : ℕ) : SK Bool where
  k_sb _ _ _ _ := 1
  k_bs _ _ _ _ := 1
  J_vs _ _ s _ := 1 * 1 * (1 - s / 1) ^ 2 - 1 * s ^ 2
  lambda_IS := n
  n_surf := 1
  n_IS := 2
  surfaces := [⟨1, 1 / 2, 1 / 2⟩]

theorem open_solves (dt : Option ℝ) (n : ℕ) :
    WithKinetics L (P dt (fun _ => 2 / 3) fun _ => 2 / 3) [open₁ n] [] (fun _ => M) (fun _ => 2 / 3) fun _ => False := by
  refine cell_solves _ _ _ _ fun v w => ?_
  simp only [List.map_cons, List.map_nil]
  generalize w (open₁ n) = w'
  cases dt <;> simp [open₁, at_left, at_right, release, adsChange, layerChange, Line.p1, cells, cellMass] <;> ring

example (n : ℕ) : ∀ j ≤ L.N, 0 ≤ (fun _ _ => 2 / 3 : ℕ → ℕ → ℝ) n j ∧ (fun _ _ => 2 / 3 : ℕ → ℕ → ℝ) n j ≤ 2 :=
  C118_run (M := 2) (fun _ => P (some 1) (fun _ => 2 / 3) fun _ => 2 / 3) (fun n => [open₁ n]) (fun _ => [])
    (fun _ _ => 2 / 3) (fun _ _ => False)
    (fun _ => 1) (fun n => open_solves (some 1) n) (fun _ => rfl) (fun _ => one_pos) (fun _ => rfl) (by norm_num)
    (fun n => ⟨by simp [open₁], by simp [open₁], by norm_num, by simp [open₁], by simp [open₁], by simp [open₁]⟩)
    (fun _ => quiet _ _ _ _ _) (fun _ => quiet _ _ _ _ _) (fun _ => short _ _) n fun i _ b s q ha => by
      obtain ⟨h1, h2, _⟩ := ha
      rw [List.mem_singleton] at h1
      subst h1
      simp only [open₁, List.mem_singleton] at h2
      subst h2
      norm_num [open₁]

/-- Sieverts' law: solubility 1 and pressure 1, two interstitial sites: 1 / (1 + 1/2). -/
example : ∀ j ≤ L.N, (2 / 3 : ℝ) = 1 / 1 * √(1 / 1) * √1 / (1 + 1 / 1 * √(1 / 1) * √1 / 2) :=
  C118_sieverts (b := open₁ 0) (s := ⟨1, 1 / 2, 1 / 2⟩) (q := false) (open_solves none 0) rfl (by simp [L]) rfl rfl
    (by norm_num [diffAt, P, M, arr]) 1 1 1 1 1 one_pos one_pos one_pos one_pos zero_le_one rfl rfl rfl
    (by simp [open₁]) (by simp [open₁]) (by norm_num) (by norm_num [open₁])

/-- Adsorption of `J` on the surface `id`, where `s` is adsorbed. -/
noncomputable def side (id : ℕ) (s J : ℝ) : SK Bool where
  k_sb _ _ _ _ := 1
  k_bs _ _ _ _ := 1
  J_vs _ _ _ _ := J
  lambda_IS := 0
  n_surf := 4
  n_IS := 4
  surfaces := [⟨id, s, 0⟩]

noncomputable def slope (j : ℕ) : ℝ := if j = 0 then 2 else 1

theorem through : WithKinetics L (P none slope slope) [side 1 3 1, side 2 0 (-1)] [] (fun _ => M) slope
    fun _ => False := by
  refine cell_solves _ _ _ _ fun v w => ?_
  simp only [List.map_cons, List.map_nil]
  generalize w (side 1 3 1) = w₁
  generalize w (side 2 0 (-1)) = w₂
  simp [side, at_left, at_right, release, adsChange, layerChange, Line.p1, cells, cellMass, slope]
  ring

noncomputable def env : PostEnv (Fin 3) Bool 1 where
  mesh := L.mesh (Fld.const 1)
  n := Line.normal
  D _ := 1
  cond := none
  Q := none
  T := ⟨fun _ => 300, fun _ => 300, fun _ _ => 0, [], fun _ => 0, true⟩
  soret := false
  solute := ⟨(L.p1 slope).val, (L.p1 slope).tr, fun q _ => L.endSlope slope q, [], fun _ => 0, true⟩
  traps := []
  ids := []
  adsorbed := []

/-- One unit adsorbed on the left and desorbed on the right: the reported fluxes. -/
example : (hydrogenFlux 1).value env false = .ok 1 ∧ (hydrogenFlux 2).value env false = .ok (-1) := by
  have hr : LineReport L (P none slope slope) (fun _ => M) (fun _ => M) slope env :=
    ⟨rfl, rfl, rfl, ⟨by intro q; cases q <;> simp [P, L, Line.mesh, env, findMat, M],
      by intro q; cases q <;> simp [P, L, Line.mesh, env, arrheniusCoeff, findMat, M], by simp [env], by simp [env]⟩,
      by intro q; simp [env, P], by intro q p _; simp [P, env, Fld.const]⟩
  refine ⟨(C118_reported through rfl rfl env false hr false (by simp)).trans ?_,
    (C118_reported through rfl rfl env false hr true (by simp)).trans ?_⟩ <;>
    simp [adsorption, side, L]

end KinCase

open KinCase in
/-- **C118 (g).** The unphysical alternative of (c) exists: a step whose equations have two solutions, one physical (mobile
1/2 everywhere, 3/2 adsorbed) and one with a negative mobile concentration (-17/2) and more adsorbed (21/2) than there are
sites (4). -/
theorem C118_two_solutions : ∃ (L : Line (Fin 3)) (P : (ℕ → ℝ) → Problem (Fin 3) Bool 1) (b : ℝ → SK Bool) (un : ℕ → ℝ)
    (mat : Fin 3 → Mat), (∀ u, (P u).mv.sol = L.p1 u ∧ (P u).dt = some 1 ∧ (P u).mv.prev = L.p1 un ∧
        (∀ p, L.h (L.cell p) ^ 2 ≤ 6 * diffAt (P u) mat p * 1) ∧ (P u).sources = []) ∧
      (∀ j, 0 ≤ un j ∧ un j ≤ 4) ∧ (∀ s, Rates [b s] 4 ∧ Adsorbs [b s] ∧ (b s).n_surf = 4 ∧
        (b s).surfaces = [⟨1, s, 15 / 8⟩, ⟨2, s, 15 / 8⟩]) ∧
      WithKinetics L (P fun _ => 1 / 2) [b (3 / 2)] [] mat (fun _ => 1 / 2) (fun _ => False) ∧
      WithKinetics L (P fun _ => -17 / 2) [b (21 / 2)] [] mat (fun _ => -17 / 2) (fun _ => False) :=
  ⟨L, fun u => P (some 1) u fun _ => 1 / 8, closed, fun _ => 1 / 8, fun _ => M,
    fun u => ⟨rfl, rfl, rfl, short _ _, rfl⟩, by norm_num, fun s => ⟨closed_rates s, closed_adsorbs s, rfl, rfl⟩,
    closed_solves _ _ (by norm_num) (by norm_num), closed_solves _ _ (by norm_num) (by norm_num)⟩

open KinCase in
example : ((∀ j ≤ L.N, 0 ≤ (fun _ => -17 / 2 : ℕ → ℝ) j ∧ (fun _ => -17 / 2 : ℕ → ℝ) j ≤ 4) ∧
      ∀ b s q, Attached L [closed (21 / 2)] b s q → 0 ≤ s.sol ∧ s.sol ≤ b.n_surf) ∨
    ∃ b s q, Attached L [closed (21 / 2)] b s q ∧ ((b.n_surf < s.sol ∧ (L.p1 fun _ => -17 / 2).tr q < 0) ∨
      (s.sol < 0 ∧ 4 < (L.p1 fun _ => -17 / 2).tr q)) :=
  C118_alternatives (un := fun _ => 1 / 8) (closed_solves (-17 / 2) (21 / 2) (by norm_num) (by norm_num)) rfl one_pos rfl (by norm_num)
    (closed_rates _) (closed_adsorbs _) (quiet _ _ _ _ _) (quiet _ _ _ _ _) (short _ _) fun b s q ha => by
      obtain ⟨rfl, _, h⟩ := closed_attached ha
      rw [h]
      norm_num [closed]

end Festim.Props
