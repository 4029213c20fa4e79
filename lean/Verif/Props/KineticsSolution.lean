import Verif.Props.SurfaceKinetics
import Verif.Props.Superposition
import Verif.Proofs.MonotoneEnds

/-!
# C119: the physical solution of a step with surface kinetics
-/

open scoped BigOperators

set_option linter.unusedSectionVars false
set_option linter.unusedSimpArgs false

namespace Festim.Weak

open Festim.Props

section
variable {Ω : Type} [Fintype Ω] {L : Line Ω} {P : Problem Ω Bool 1} {ks ks' : List (SK Bool)} {bcs : List (MobBC Bool)}
  {mat : Ω → Mat} {u un : ℕ → ℝ} {dir : Bool → Prop} {h M : ℝ}

/-- Hydrogen which goes from the material to the surfaces at the end `q`, or into the layers below them. -/
noncomputable def outflow (L : Line Ω) (dt : Option ℝ) (T c cn : Bool → ℝ) (ks : List (SK Bool)) (q : Bool) : ℝ :=
  (ks.map fun b => (b.surfaces.map fun s => if s.id = (if q then L.right else L.left) then
    layerChange dt b (c q) (cn q) + release b q (T q) s.sol (c q) else 0).sum).sum

theorem taken_outflow {r : Fld Ω Bool 1} (hm : P.mesh = L.mesh r) (v : Bool → ℝ) :
    taken P ks v = ∑ q, outflow L P.dt P.T.T.tr P.mv.sol.tr P.mv.prev.tr ks q * v q := by
  unfold taken outflow
  have e : ∀ (i : ℕ) (g : Bool → ℝ), surface P.mesh i g = ∑ q, if i = (if q then L.right else L.left) then g q else 0 := by
    intro i g
    unfold surface
    rw [hm, Finset.sum_filter]
    refine Finset.sum_congr rfl fun q _ => ?_
    cases q <;> simp [Line.mesh, eq_comm]
  simp only [e]
  simp only [list_sum_comm]
  refine Finset.sum_congr rfl fun q _ => ?_
  rw [← List.sum_map_mul_right]
  congr 1
  apply List.map_congr_left
  intro b _
  rw [← List.sum_map_mul_right]
  congr 1
  apply List.map_congr_left
  intro s _
  rw [ite_mul, zero_mul]

theorem value_ends {r : Fld Ω Bool 1} (hm : P.mesh = L.mesh r) (ht : P.traps = []) (g : Bool → ℝ) (v : Fld Ω Bool 1)
    (F F₀ : Form Ω Bool) (hF : P.form (.flux (.value g) [L.left, L.right] :: bcs) v [] = .ok F)
    (h₀ : P.form bcs v [] = .ok F₀) : P.mesh.assemble F = P.mesh.assemble F₀ - ∑ q, g q * v.tr q := by
  unfold Problem.form mobileForm diffusionForm at h₀ hF
  rw [ht] at h₀ hF
  injection h₀ with h₀
  injection hF with hF
  rw [← hF, ← h₀]
  simp only [fluxesForm, List.flatMap_cons, assemble_append]
  have e : P.mesh.assemble (MobBC.form P.mesh P.mats P.mv P.T P.dt v (.flux (.value g) [L.left, L.right]))
      = -∑ q, g q * v.tr q := by
    have e1 : L.left ≠ L.right := L.ends
    have e2 : L.right ≠ L.left := L.ends.symm
    rw [Fintype.sum_bool]
    simp [MobBC.form, Flux.form, hm, Mesh.assemble, Mesh.integrate, Line.mesh, Finset.sum_filter, e1, e2]
    ring
  rw [e]
  ring

/-- The same simulation with the flux given by the surface kinetics. -/
theorem kinetics_onLine (hK : WithKinetics L P ks bcs mat u dir) :
    OnLine L P (.flux (.value fun q => -outflow L P.dt P.T.T.tr P.mv.sol.tr P.mv.prev.tr ks q) [L.left, L.right] :: bcs)
      mat u dir where
  quad := hK.quad
  mesh := hK.mesh
  traps := hK.traps
  theta := hK.theta
  soret := hK.soret
  sol := hK.sol
  cover := hK.cover
  noSK b vs hb := by
    rcases List.mem_cons.1 hb with hb | hb
    · cases hb
    · exact hK.noSK b vs hb
  solves v hv F hF := by
    obtain ⟨r, hm⟩ := hK.mesh
    obtain ⟨F₀, h₀⟩ := form_ok_notraps P bcs (L.p1 v) hK.traps
    have h1 := kinetics_equation hK v hv F₀ h₀
    rw [taken_outflow hm] at h1
    rw [value_ends hm hK.traps _ _ F F₀ hF h₀]
    simp only [neg_mul, Finset.sum_neg_distrib, sub_neg_eq_add]
    exact h1

theorem forall₂_sum_le {α : Type} {R : α → α → Prop} {l l' : List α} (h : List.Forall₂ R l l') (f f' : α → ℝ)
    (H : ∀ a ∈ l, ∀ a' ∈ l', R a a' → f' a' ≤ f a) : (l'.map f').sum ≤ (l.map f).sum := by
  induction h with
  | nil => simp
  | @cons a a' l l' h _ ih =>
    rw [List.map_cons, List.map_cons, List.sum_cons, List.sum_cons]
    exact add_le_add (H a (List.mem_cons_self ..) a' (List.mem_cons_self ..) h)
      (ih fun b hb b' hb' => H b (List.mem_cons_of_mem _ hb) b' (List.mem_cons_of_mem _ hb'))

/-- More in the solid or less on the surface: more is released. -/
theorem release_mono {b : SK Bool} (hp : PlainRates b) {q : Bool} {T s s' c c' : ℝ} (hn : 0 < b.n_surf) (hM : 0 < b.n_IS)
    (h1 : ∀ s c, 0 ≤ b.k_sb q T s c) (h2 : ∀ s c, 0 ≤ b.k_bs q T s c) (hc0 : 0 ≤ c') (hc : c' ≤ c) (hcM : c ≤ b.n_IS)
    (hs0 : 0 ≤ s) (hs : s ≤ s') (hsn : s' ≤ b.n_surf) : release b q T s' c' ≤ release b q T s c := by
  unfold release
  rw [hp.bs q T s' c' s c, hp.sb q T s' c' s c]
  have a1 : b.k_bs q T s c * c' * (1 - s' / b.n_surf) ≤ b.k_bs q T s c * c * (1 - s / b.n_surf) := by
    refine mul_le_mul (mul_le_mul_of_nonneg_left hc (h2 s c)) ?_ (sub_nonneg.2 ((div_le_one hn).2 hsn))
      (mul_nonneg (h2 s c) (hc0.trans hc))
    have := div_le_div_of_nonneg_right hs hn.le
    linarith
  have a2 : b.k_sb q T s c * s * (1 - c / b.n_IS) ≤ b.k_sb q T s c * s' * (1 - c' / b.n_IS) := by
    refine mul_le_mul (mul_le_mul_of_nonneg_left hs (h1 s c)) ?_ (sub_nonneg.2 ((div_le_one hM).2 hcM))
      (mul_nonneg (h1 s c) (hs0.trans hs))
    have := div_le_div_of_nonneg_right hc hM.le
    linarith
  linarith

/-- Two states of a surface: where the second one has less below it, it releases less. -/
theorem release_le {b b' : SK Bool} (hf : Feeds b b') (hp : PlainRates b) {q : Bool} {T s s' p p' c c' : ℝ} (hh : 0 < h)
    (hn : 0 < b.n_surf) (hM : 0 < b.n_IS) (h1 : ∀ s c, 0 ≤ b.k_sb q T s c) (h2 : ∀ s c, 0 ≤ b.k_bs q T s c)
    (e : (s - p) / h = b.J_vs q T s c + release b q T s c)
    (e' : (s' - p') / h = b'.J_vs q T s' c' + release b' q T s' c') (hpp : p ≤ p') (hc0 : 0 ≤ c') (hc : c' ≤ c)
    (hcM : c ≤ b.n_IS) (hs : 0 ≤ s ∧ s ≤ b.n_surf) (hs' : 0 ≤ s' ∧ s' ≤ b.n_surf) :
    release b' q T s' c' ≤ release b q T s c := by
  have er : ∀ s c, release b' q T s c = release b q T s c := fun s c => by
    unfold release
    rw [hf.sb, hf.bs, hf.surf, hf.inside]
  rcases le_or_gt s s' with hss | hss
  · rw [er]
    exact release_mono hp hn hM h1 h2 hc0 hc hcM hs.1 hss hs'.2
  · have a1 : (s' - p') / h ≤ (s - p) / h := div_le_div_of_nonneg_right (by linarith) hh.le
    have a2 := hp.vs q T s' s c' c hs'.1 hss.le hs.2
    have a3 := hf.vs q T s' c'
    linarith

/-- Where the second state has more below the surface, it has more on it. -/
theorem adsorbed_le {b b' : SK Bool} (hf : Feeds b b') (hp : PlainRates b) {q : Bool} {T s s' p p' c c' : ℝ} (hh : 0 < h)
    (hn : 0 < b.n_surf) (hM : 0 < b.n_IS) (h1 : ∀ s c, 0 ≤ b.k_sb q T s c) (h2 : ∀ s c, 0 ≤ b.k_bs q T s c)
    (e : (s - p) / h = b.J_vs q T s c + release b q T s c)
    (e' : (s' - p') / h = b'.J_vs q T s' c' + release b' q T s' c') (hpp : p ≤ p') (hc0 : 0 ≤ c) (hc : c ≤ c')
    (hcM : c' ≤ b.n_IS) (hs : 0 ≤ s ∧ s ≤ b.n_surf) (hs' : 0 ≤ s' ∧ s' ≤ b.n_surf) : s ≤ s' := by
  have er : ∀ s c, release b' q T s c = release b q T s c := fun s c => by
    unfold release
    rw [hf.sb, hf.bs, hf.surf, hf.inside]
  by_contra hss
  push Not at hss
  have a0 := release_mono hp hn hM h1 h2 hc0 hc hcM hs'.1 hss.le hs.2
  have a1 : (s' - p') / h < (s - p) / h := div_lt_div_of_pos_right (by linarith) hh
  have a2 := hp.vs q T s' s c' c hs'.1 hss.le hs.2
  have a3 := hf.vs q T s' c'
  rw [er] at e'
  linarith

/-- The adsorbed hydrogen is balanced. -/
def SurfBalanced (L : Line Ω) (dt : Option ℝ) (T c : Bool → ℝ) (ks : List (SK Bool)) : Prop :=
  ∀ b s q, Attached L ks b s q → adsChange dt s = b.J_vs q (T q) s.sol (c q) + release b q (T q) s.sol (c q)

theorem outflow_le {T c c' cn cn' : Bool → ℝ} (hf : List.Forall₂ Feeds ks ks') (hr : Rates ks M)
    (hp : ∀ b ∈ ks, PlainRates b) (hh : 0 < h) (hB : SurfBalanced L (some h) T c ks) (hB' : SurfBalanced L (some h) T c' ks')
    (hP : Physical L ks) (hP' : Physical L ks') (q : Bool) (hc0 : 0 ≤ c' q) (hc : c' q ≤ c q) (hcM : c q ≤ M)
    (hcn : cn q ≤ cn' q) : outflow L (some h) T c' cn' ks' q ≤ outflow L (some h) T c cn ks q := by
  unfold outflow
  refine forall₂_sum_le hf _ _ fun b hb b' hb' hbb => ?_
  refine forall₂_sum_le hbb.surfaces _ _ fun s hs s' hs' hss => ?_
  rw [hss.1]
  by_cases hid : s.id = if q then L.right else L.left
  · rw [if_pos hid, if_pos hid]
    have ha : Attached L ks b s q := ⟨hb, hs, hid⟩
    have ha' : Attached L ks' b' s' q := ⟨hb', hs', hss.1.trans hid⟩
    have hI := hr.inside b hb
    have a1 := release_le hbb (hp b hb) hh (hr.surf b hb) (hI ▸ hr.positive) (hr.sb b hb q (T q)) (hr.bs b hb q (T q))
      (hB b s q ha) (hB' b' s' q ha') hss.2 hc0 hc (hI ▸ hcM) (hP b s q ha) (hbb.surf ▸ hP' b' s' q ha')
    have a2 : layerChange (some h) b' (c' q) (cn' q) ≤ layerChange (some h) b (c q) (cn q) := by
      simp only [layerChange, hbb.layer]
      exact div_le_div_of_nonneg_right (mul_le_mul_of_nonneg_left (by linarith) (hr.layer b hb)) hh.le
    linarith
  · rw [if_neg hid, if_neg hid]

theorem forall₂_mem {α : Type} {R S : α → α → Prop} {l l' : List α} (h : List.Forall₂ R l l')
    (H : ∀ a ∈ l, ∀ a' ∈ l', R a a' → S a a') : List.Forall₂ S l l' := by
  induction h with
  | nil => exact .nil
  | @cons a a' l l' h _ ih =>
    exact .cons (H a (List.mem_cons_self ..) a' (List.mem_cons_self ..) h)
      (ih fun b hb b' hb' => H b (List.mem_cons_of_mem _ hb) b' (List.mem_cons_of_mem _ hb'))

theorem adsorbed_order {T c c' : Bool → ℝ} (hf : List.Forall₂ Feeds ks ks') (hr : Rates ks M)
    (hp : ∀ b ∈ ks, PlainRates b) (hh : 0 < h) (hB : SurfBalanced L (some h) T c ks) (hB' : SurfBalanced L (some h) T c' ks')
    (hP : Physical L ks) (hP' : Physical L ks') (hc0 : ∀ q, 0 ≤ c q) (hc : ∀ q, c q ≤ c' q) (hcM : ∀ q, c' q ≤ M) :
    Adsorbed L (· ≤ ·) ks ks' := by
  refine forall₂_mem hf fun b hb b' hb' hbb => forall₂_mem hbb.surfaces fun s hs s' hs' hss hid => ?_
  have key : ∀ q : Bool, s.id = (if q then L.right else L.left) → s.sol ≤ s'.sol := by
    intro q hid
    have ha : Attached L ks b s q := ⟨hb, hs, hid⟩
    have ha' : Attached L ks' b' s' q := ⟨hb', hs', hss.1.trans hid⟩
    have hI := hr.inside b hb
    exact adsorbed_le hbb (hp b hb) hh (hr.surf b hb) (hI ▸ hr.positive) (hr.sb b hb q (T q)) (hr.bs b hb q (T q))
      (hB b s q ha) (hB' b' s' q ha') hss.2 (hc0 q) (hc q) (hI ▸ hcM q) (hP b s q ha) (hbb.surf ▸ hP' b' s' q ha')
  rcases hid with hid | hid
  · exact key false (by simpa using hid)
  · exact key true (by simpa using hid)

theorem Restated.feeds {b b' : SK Bool} (h : Restated b b') : Feeds b b' where
  sb := by rw [h.1]
  bs := by rw [h.1]
  vs q T s c := by rw [h.1]
  layer := by rw [h.1]
  surf := by rw [h.1]
  inside := by rw [h.1]
  surfaces := h.2.imp fun s s' e => by rw [e]; exact ⟨rfl, le_rfl⟩

theorem Restated.symm {b b' : SK Bool} (h : Restated b b') : Restated b' b := by
  refine ⟨?_, List.Forall₂.flip (h.2.imp fun s s' e => ?_)⟩
  · rw [h.1]
  · show s = { s' with sol := s.sol }
    rw [e]

theorem forall₂_and {α : Type} {R S : α → α → Prop} {l l' : List α} (h : List.Forall₂ R l l') (h' : List.Forall₂ S l l') :
    List.Forall₂ (fun a a' => R a a' ∧ S a a') l l' := by
  induction h with
  | nil => exact .nil
  | cons h _ ih =>
    cases h' with
    | cons h1 h2 => exact .cons ⟨h, h1⟩ (ih h2)

theorem adsorbed_eq (hsame : List.Forall₂ Restated ks ks') (h1 : Adsorbed L (· ≤ ·) ks ks') (h2 : Adsorbed L (· ≤ ·) ks' ks) :
    Adsorbed L (· = ·) ks ks' := by
  refine (forall₂_and hsame (forall₂_and h1 (List.Forall₂.flip h2))).imp fun b b' hb => ?_
  obtain ⟨⟨_, e⟩, o1, o2⟩ := hb
  refine (forall₂_and e (forall₂_and o1 (List.Forall₂.flip o2))).imp fun s s' hs hid => ?_
  obtain ⟨e, a1, a2⟩ := hs
  have : s'.id = s.id := by rw [e]
  exact le_antisymm (a1 hid) (a2 (by rw [this]; exact hid))

theorem SurfBalanced.of (hK : WithKinetics L P ks bcs mat u dir) : SurfBalanced L P.dt P.T.T.tr (L.p1 u).tr ks :=
  fun _ _ _ ha => adsorbed_balance hK ha

theorem surface_ends {r : Fld Ω Bool 1} (hm : P.mesh = L.mesh r) (i : ℕ) (g : Bool → ℝ) :
    surface P.mesh i g = ∑ q, if i = (if q then L.right else L.left) then g q else 0 := by
  unfold surface
  rw [hm, Finset.sum_filter]
  refine Finset.sum_congr rfl fun q _ => ?_
  cases q <;> simp [Line.mesh, eq_comm]

/-- Converse of the equations above. -/
theorem kinetics_of (hq : L.Exact2) (hm : ∃ r, P.mesh = L.mesh r) (ht : P.traps = []) (hth : P.mv.theta = false)
    (hso : P.soret = false) (hu : P.mv.sol = L.p1 u) (hcov : Covers P.mesh P.mats mat)
    (hno : ∀ b vs, MobBC.sk b vs ∉ bcs) (hB : SurfBalanced L P.dt P.T.T.tr (L.p1 u).tr ks)
    (heq : ∀ v : ℕ → ℝ, (∀ q, dir q → (L.p1 v).tr q = 0) → ∀ F₀, P.form bcs (L.p1 v) [] = .ok F₀ →
      P.mesh.assemble F₀ + taken P ks (L.p1 v).tr = 0) : WithKinetics L P ks bcs mat u dir where
  quad := hq
  mesh := hm
  traps := ht
  theta := hth
  soret := hso
  sol := hu
  cover := hcov
  noSK := hno
  solves v w hv F hF := by
    obtain ⟨r, hm⟩ := hm
    obtain ⟨F₀, h₀⟩ := form_ok_notraps P bcs (L.p1 v) ht
    obtain ⟨F', hF', hA⟩ := kinetics_split (ks := ks) ht w _ F₀ h₀
    obtain rfl : F = F' := by
      rw [hF'] at hF
      injection hF with hF
      exact hF.symm
    rw [hA, kinetics_form hth, ← heq v hv F₀ h₀]
    congr 1
    unfold taken
    congr 1
    apply List.map_congr_left
    intro b hb
    congr 1
    apply List.map_congr_left
    intro s hs
    rw [add_eq_right, surface_ends hm, Finset.sum_eq_zero, zero_mul]
    intro q _
    by_cases hid : s.id = if q then L.right else L.left
    · rw [if_pos hid, hu, hB b s q ⟨hb, hs, hid⟩, sub_self]
    · rw [if_neg hid]

theorem Gentle.zero : Gentle 0 fun _ => 0 := fun _ _ _ => by simp

theorem Gentle.le {k k' : ℝ} {R : ℝ → ℝ} (h : Gentle k R) (hk : k ≤ k') : Gentle k' R := fun x y hxy =>
  ⟨(h x y hxy).1, (h x y hxy).2.trans (by
    have := mul_le_mul_of_nonneg_right hk (sub_nonneg.2 hxy)
    linarith)⟩

theorem Gentle.add {k k' : ℝ} {R R' : ℝ → ℝ} (h : Gentle k R) (h' : Gentle k' R') :
    Gentle (k + k') fun x => R x + R' x := fun x y hxy =>
  ⟨add_le_add (h x y hxy).1 (h' x y hxy).1, by
    have h1 := (h x y hxy).2
    have h2 := (h' x y hxy).2
    rw [add_mul]
    linarith⟩

theorem Gentle.list {α : Type} (l : List α) (f : α → ℝ → ℝ) (h : ∀ a ∈ l, ∃ k, 0 ≤ k ∧ Gentle k (f a)) :
    ∃ k, 0 ≤ k ∧ Gentle k fun x => (l.map fun a => f a x).sum := by
  induction l with
  | nil => exact ⟨0, le_rfl, by simpa using Gentle.zero⟩
  | cons a l ih =>
    obtain ⟨k, hk, h1⟩ := h a (List.mem_cons_self ..)
    obtain ⟨k', hk', h2⟩ := ih fun b hb => h b (List.mem_cons_of_mem _ hb)
    refine ⟨k + k', add_nonneg hk hk', ?_⟩
    simpa using h1.add h2

/-- The interval of the physical concentrations. -/
noncomputable def clamp (M x : ℝ) : ℝ := max 0 (min x M)

theorem clamp_mem (hM : 0 ≤ M) (x : ℝ) : 0 ≤ clamp M x ∧ clamp M x ≤ M :=
  ⟨le_max_left _ _, max_le hM (min_le_right _ _)⟩

theorem clamp_mono {x y : ℝ} (h : x ≤ y) : clamp M x ≤ clamp M y := max_le_max le_rfl (min_le_min_right _ h)

theorem clamp_sub {x y : ℝ} (h : x ≤ y) : clamp M y - clamp M x ≤ y - x := by
  unfold clamp
  rcases le_total y M with h1 | h1 <;> rcases le_total x M with h2 | h2 <;>
    simp only [min_eq_left, min_eq_right, h1, h2] <;>
    rcases max_cases 0 y with ⟨h3, h3'⟩ | ⟨h3, h3'⟩ <;> rcases max_cases 0 x with ⟨h4, h4'⟩ | ⟨h4, h4'⟩ <;>
    rcases max_cases 0 M with ⟨h5, h5'⟩ | ⟨h5, h5'⟩ <;> simp only [h3, h4, h5] <;> linarith

theorem clamp_self {x : ℝ} (h : 0 ≤ x ∧ x ≤ M) : clamp M x = x := by
  unfold clamp
  rw [min_eq_left h.2, max_eq_right h.1]

theorem Gentle.clamp {k : ℝ} {R : ℝ → ℝ} (hk : 0 ≤ k) (hM : 0 ≤ M)
    (h : ∀ x y, 0 ≤ x → x ≤ y → y ≤ M → R x ≤ R y ∧ R y ≤ R x + k * (y - x)) : Gentle k fun x => R (clamp M x) := by
  intro x y hxy
  obtain ⟨h1, h2⟩ := h _ _ (clamp_mem hM x).1 (clamp_mono hxy) (clamp_mem hM y).2
  exact ⟨h1, h2.trans (add_le_add_right (mul_le_mul_of_nonneg_left (clamp_sub hxy) hk) _)⟩

theorem Feeds.refl (b : SK Bool) : Feeds b b :=
  ⟨rfl, rfl, fun _ _ _ _ => le_rfl, rfl, rfl, rfl, List.forall₂_same.2 fun _ _ => ⟨rfl, le_rfl⟩⟩

/-- For a given mobile concentration the adsorbed one exists. -/
theorem adsorbed_exists {b : SK Bool} (hp : PlainRates b) {q : Bool} {T p c : ℝ} (hh : 0 < h) (hn : 0 < b.n_surf)
    (hM : 0 < b.n_IS) (h1 : ∀ s c, 0 ≤ b.k_sb q T s c) (h2 : ∀ s c, 0 ≤ b.k_bs q T s c)
    (hc : ContinuousOn (fun s => b.J_vs q T s c) (Set.Icc 0 b.n_surf)) (hJ0 : 0 ≤ b.J_vs q T 0 c)
    (hJn : b.J_vs q T b.n_surf c ≤ 0) (hp0 : 0 ≤ p ∧ p ≤ b.n_surf) (hc0 : 0 ≤ c ∧ c ≤ b.n_IS) :
    ∃ s, (0 ≤ s ∧ s ≤ b.n_surf) ∧ (s - p) / h = b.J_vs q T s c + release b q T s c := by
  have er : ∀ s, release b q T s c
      = b.k_bs q T 0 0 * c * (1 - s / b.n_surf) - b.k_sb q T 0 0 * s * (1 - c / b.n_IS) := fun s => by
    unfold release
    rw [hp.bs q T s c 0 0, hp.sb q T s c 0 0]
  have hcont : ContinuousOn (fun s => (s - p) / h - b.J_vs q T s c - release b q T s c) (Set.Icc 0 b.n_surf) := by
    simp only [er]
    refine ContinuousOn.sub (ContinuousOn.sub (Continuous.continuousOn (by fun_prop)) hc) (Continuous.continuousOn (by fun_prop))
  have hz := intermediate_value_Icc hn.le hcont
  have k1 := h1 0 0
  have k2 := h2 0 0
  have h0 : (0 : ℝ) ∈ Set.Icc ((0 - p) / h - b.J_vs q T 0 c - release b q T 0 c)
      ((b.n_surf - p) / h - b.J_vs q T b.n_surf c - release b q T b.n_surf c) := by
    rw [er, er]
    have a1 : (0 - p) / h ≤ 0 := div_nonpos_of_nonpos_of_nonneg (by linarith [hp0.1]) hh.le
    have a2 : 0 ≤ (b.n_surf - p) / h := div_nonneg (by linarith [hp0.2]) hh.le
    have a3 := mul_nonneg k2 hc0.1
    have a4 : 0 ≤ b.k_sb q T 0 0 * b.n_surf * (1 - c / b.n_IS) :=
      mul_nonneg (mul_nonneg k1 hn.le) (sub_nonneg.2 ((div_le_one hM).2 hc0.2))
    constructor
    · simp only [zero_div, sub_zero, mul_one, mul_zero, zero_mul]
      linarith
    · rw [div_self hn.ne', sub_self, mul_zero]
      linarith
  obtain ⟨s, hs, e⟩ := hz h0
  exact ⟨s, hs, by dsimp only at e; linarith⟩

end

end Festim.Weak

namespace Festim.Props

open Festim.Weak

section
variable {Ω : Type} [Fintype Ω] {L : Line Ω} {P : Problem Ω Bool 1} {ks ks' : List (SK Bool)} {bcs : List (MobBC Bool)}
  {mat : Ω → Mat} {matS : Bool → Mat} {u w un wn : ℕ → ℝ} {dir : Bool → Prop} {h M : ℝ}

/-- **C119 (a).** A step has at most one physical solution, whatever the mesh and the stepsize: two of them have the same
mobile concentration at all nodes and the same adsorbed concentrations. -/
theorem C119_unique (hP : LinearLine L P bcs mat matS dir) (hdt : P.dt = some h) (hh : 0 < h)
    (h1 : WithKinetics L (P.withSol (L.p1 u)) ks bcs mat u dir) (h2 : WithKinetics L (P.withSol (L.p1 w)) ks' bcs mat w dir)
    (hsame : List.Forall₂ Restated ks ks') (hd : ∀ q, dir q → (L.p1 u).tr q = (L.p1 w).tr q) (hr : Rates ks M)
    (hp : ∀ b ∈ ks, PlainRates b) (hs : Physical L ks) (hs' : Physical L ks')
    (hu : ∀ q, 0 ≤ (L.p1 u).tr q ∧ (L.p1 u).tr q ≤ M) (hw : ∀ q, 0 ≤ (L.p1 w).tr q ∧ (L.p1 w).tr q ≤ M) :
    (∀ j ≤ L.N, u j = w j) ∧ Adsorbed L (· = ·) ks ks' := by
  obtain ⟨r, hm⟩ := hP.mesh
  have hdt1 : (P.withSol (L.p1 u)).dt = some h := hdt
  have hdt2 : (P.withSol (L.p1 w)).dt = some h := hdt
  have b1 : SurfBalanced L (some h) P.T.T.tr (L.p1 u).tr ks := by
    have := SurfBalanced.of h1
    rwa [hdt1] at this
  have b2 : SurfBalanced L (some h) P.T.T.tr (L.p1 w).tr ks' := by
    have := SurfBalanced.of h2
    rwa [hdt2] at this
  have hf : List.Forall₂ Feeds ks ks' := hsame.imp fun _ _ h => h.feeds
  have hf' : List.Forall₂ Feeds ks' ks := List.Forall₂.flip (hsame.imp fun _ _ h => h.symm.feeds)
  have hr' : Rates ks' M := by
    have key : ∀ b' ∈ ks', ∃ b ∈ ks, Feeds b b' := fun b' hb' => by
      clear * - hf hb'
      induction hf with
      | nil => simp at hb'
      | @cons a a' l l' h _ ih =>
        rcases List.mem_cons.1 hb' with rfl | hb'
        · exact ⟨a, List.mem_cons_self .., h⟩
        · obtain ⟨b, hb, hbb⟩ := ih hb'
          exact ⟨b, List.mem_cons_of_mem _ hb, hbb⟩
    refine ⟨?_, ?_, hr.positive, ?_, ?_, ?_⟩ <;> intro b' hb' <;> obtain ⟨b, hb, hbb⟩ := key b' hb'
    · rw [hbb.surf]; exact hr.surf b hb
    · rw [hbb.inside]; exact hr.inside b hb
    · rw [hbb.layer]; exact hr.layer b hb
    · rw [hbb.sb]; exact hr.sb b hb
    · rw [hbb.bs]; exact hr.bs b hb
  have hp' : ∀ b ∈ ks', PlainRates b := by
    intro b' hb'
    have : ∃ b ∈ ks, Restated b b' := by
      clear * - hsame hb'
      induction hsame with
      | nil => simp at hb'
      | @cons a a' l l' h _ ih =>
        rcases List.mem_cons.1 hb' with rfl | hb'
        · exact ⟨a, List.mem_cons_self .., h⟩
        · obtain ⟨b, hb, hbb⟩ := ih hb'
          exact ⟨b, List.mem_cons_of_mem _ hb, hbb⟩
    obtain ⟨b, hb, e, _⟩ := this
    have := hp b hb
    rw [e]
    exact ⟨this.sb, this.bs, this.vs⟩
  set v : ℕ → ℝ := u - w with hv
  have hvtr : ∀ q, (L.p1 v).tr q = (L.p1 u).tr q - (L.p1 w).tr q := by
    intro q
    cases q <;> simp [Line.p1, hv]
  have hv0 : ∀ q, dir q → (L.p1 v).tr q = 0 := fun q hq => by rw [hvtr, hd q hq, sub_self]
  obtain ⟨F, hF⟩ := hP.formOk u v
  obtain ⟨G, hG⟩ := hP.formOk w v
  have e1 := kinetics_equation h1 v hv0 F hF
  have e2 := kinetics_equation h2 v hv0 G hG
  rw [taken_outflow (P := P.withSol (L.p1 u)) (r := r) hm] at e1
  rw [taken_outflow (P := P.withSol (L.p1 w)) (r := r) hm] at e2
  have e3 : P.mesh.assemble F + _ = 0 := e1
  have e4 : P.mesh.assemble G + _ = 0 := e2
  rw [hP.residual u v F hF] at e3
  rw [hP.residual w v G hG] at e4
  rw [hdt1] at e3
  rw [hdt2] at e4
  have hmono : 0 ≤ ∑ q, (outflow L (some h) P.T.T.tr (L.p1 u).tr P.mv.prev.tr ks q
      - outflow L (some h) P.T.T.tr (L.p1 w).tr P.mv.prev.tr ks' q) * (L.p1 v).tr q := by
    refine Finset.sum_nonneg fun q _ => ?_
    rw [hvtr]
    rcases le_total ((L.p1 w).tr q) ((L.p1 u).tr q) with hc | hc
    · exact mul_nonneg (sub_nonneg.2 (outflow_le hf hr hp hh b1 b2 hs hs' q (hw q).1 hc (hu q).2 le_rfl)) (sub_nonneg.2 hc)
    · exact mul_nonneg_of_nonpos_of_nonpos
        (sub_nonpos.2 (outflow_le hf' hr' hp' hh b2 b1 hs' hs q (hu q).1 hc (hw q).2 le_rfl)) (sub_nonpos.2 hc)
  have e5 : bil L (reactionOf P mat) (conductivity P mat) (exchangeOf P bcs matS) v v
      + ∑ q, (outflow L (some h) P.T.T.tr (L.p1 u).tr P.mv.prev.tr ks q
      - outflow L (some h) P.T.T.tr (L.p1 w).tr P.mv.prev.tr ks' q) * (L.p1 v).tr q = 0 := by
    have : bil L (reactionOf P mat) (conductivity P mat) (exchangeOf P bcs matS) v v
        = bil L (reactionOf P mat) (conductivity P mat) (exchangeOf P bcs matS) u v
        - bil L (reactionOf P mat) (conductivity P mat) (exchangeOf P bcs matS) w v := by rw [hv, bil_sub]
    rw [this]
    simp only [sub_mul, Finset.sum_sub_distrib]
    simp only [Problem.withSol] at e3 e4
    linarith
  have hz := bil_definite L hP.coercive v hv0 (le_antisymm (by linarith) (hP.coercive.parts v).2.2.2)
  have huw : ∀ j ≤ L.N, u j = w j := fun j hj => sub_eq_zero.1 (hz j hj)
  refine ⟨huw, ?_⟩
  have htr : ∀ q, (L.p1 u).tr q = (L.p1 w).tr q := fun q => by rw [p1_congr L huw]
  have o1 := adsorbed_order hf hr hp hh b1 b2 hs hs' (fun q => (hu q).1) (fun q => (htr q).le) fun q => (hw q).2
  have o2 := adsorbed_order hf' hr' hp' hh b2 b1 hs' hs (fun q => (hw q).1) (fun q => (htr q).ge) fun q => (hu q).2
  exact adsorbed_eq hsame o1 o2

/-- **C119 (b).** Comparison, with cells short compared with the distance diffused during a step: of two physical solutions
of steps which differ by their sources, adsorption fluxes, imposed and previous concentrations, the one which has nowhere less of
these has nowhere less hydrogen, in the material and on the surfaces. -/
theorem C119_comparison (ss : List (((Ω → ℝ) × (Ω → ℝ)) × List ℕ))
    (h1 : WithKinetics L (P.withData (L.p1 u) (L.p1 un) (ss.map fun s => ⟨.given s.1.1, s.2⟩)) ks [] mat u dir)
    (h2 : WithKinetics L (P.withData (L.p1 w) (L.p1 wn) (ss.map fun s => ⟨.given s.1.2, s.2⟩)) ks' [] mat w dir)
    (hdt : P.dt = some h) (hh : 0 < h) (hss : ∀ s ∈ ss, ∀ p, s.1.1 p ≤ s.1.2 p) (hfed : List.Forall₂ Feeds ks ks')
    (hd : ∀ q, dir q → (L.p1 u).tr q ≤ (L.p1 w).tr q) (hn : ∀ j ≤ L.N, un j ≤ wn j)
    (hstep : ∀ p, L.h (L.cell p) ^ 2 ≤ 6 * diffAt P mat p * h) (hr : Rates ks M) (hp : ∀ b ∈ ks, PlainRates b)
    (hs : Physical L ks) (hs' : Physical L ks') (hu : ∀ q, 0 ≤ (L.p1 u).tr q ∧ (L.p1 u).tr q ≤ M)
    (hw : ∀ q, 0 ≤ (L.p1 w).tr q ∧ (L.p1 w).tr q ≤ M) : (∀ j ≤ L.N, u j ≤ w j) ∧ Adsorbed L (· ≤ ·) ks ks' := by
  have b1 : SurfBalanced L (some h) P.T.T.tr (L.p1 u).tr ks := by
    have := SurfBalanced.of h1
    rwa [show (P.withData (L.p1 u) (L.p1 un) (ss.map fun s => ⟨.given s.1.1, s.2⟩)).dt = some h from hdt] at this
  have b2 : SurfBalanced L (some h) P.T.T.tr (L.p1 w).tr ks' := by
    have := SurfBalanced.of h2
    rwa [show (P.withData (L.p1 w) (L.p1 wn) (ss.map fun s => ⟨.given s.1.2, s.2⟩)).dt = some h from hdt] at this
  have huw := C108_comparison L P mat dir u w un wn ss
    [((.value fun q => -outflow L P.dt P.T.T.tr (L.p1 u).tr (L.p1 un).tr ks q,
      .value fun q => -outflow L P.dt P.T.T.tr (L.p1 w).tr (L.p1 wn).tr ks' q), [L.left, L.right])]
    (kinetics_onLine h1) (kinetics_onLine h2) hss (fun f hf q hlt => by
      rw [List.mem_singleton] at hf
      subst hf
      show -outflow L P.dt P.T.T.tr (L.p1 u).tr (L.p1 un).tr ks q ≤ -outflow L P.dt P.T.T.tr (L.p1 w).tr (L.p1 wn).tr ks' q
      rw [hdt]
      refine neg_le_neg (outflow_le hfed hr hp hh b1 b2 hs hs' q (hw q).1 hlt.le (hu q).2 ?_)
      cases q
      · simpa [Line.p1] using hn 0 (Nat.zero_le _)
      · simpa [Line.p1] using hn L.N le_rfl) hd (Or.inl ⟨h, hdt, hh, hn, hstep⟩)
  refine ⟨huw, adsorbed_order hfed hr hp hh b1 b2 hs hs' (fun q => (hu q).1) (fun q => ?_) fun q => (hw q).2⟩
  cases q
  · simpa [Line.p1] using huw 0 (Nat.zero_le _)
  · simpa [Line.p1] using huw L.N le_rfl

/-- **C119 (c).** With cells short compared with the distance diffused during the step, a step from a physical state has a
physical solution. -/
theorem C119_exists (hP : LinearLine L P bcs mat matS dir) (hL : L.Exact2) (hth : P.mv.theta = false) (hso : P.soret = false)
    (hdt : P.dt = some h) (hh : 0 < h) (hprev : P.mv.prev = L.p1 un) (hun : ∀ j ≤ L.N, 0 ≤ un j ∧ un j ≤ M) (val : Bool → ℝ)
    (hpush : ∀ u, (∀ q, dir q → (L.p1 u).tr q = val q) → Pushes L (P.withSol (L.p1 u)) bcs u dir 1 0 ∧
      Pushes L (P.withSol (L.p1 u)) bcs u dir (-1) M)
    (hstep : ∀ p, L.h (L.cell p) ^ 2 ≤ 6 * diffAt P mat p * h) (hr : Rates ks M) (hp : ∀ b ∈ ks, PlainRates b)
    (hcont : ∀ b ∈ ks, ∀ q T c, ContinuousOn (fun s => b.J_vs q T s c) (Set.Icc 0 b.n_surf))
    (hJ : ∀ b ∈ ks, ∀ q T c, 0 ≤ b.J_vs q T 0 c ∧ b.J_vs q T b.n_surf c ≤ 0)
    (hsp : ∀ b ∈ ks, ∀ s ∈ b.surfaces, 0 ≤ s.prev ∧ s.prev ≤ b.n_surf) :
    ∃ u ks', List.Forall₂ Restated ks ks' ∧ WithKinetics L (P.withSol (L.p1 u)) ks' bcs mat u dir ∧
      (∀ q, dir q → (L.p1 u).tr q = val q) ∧ (∀ j ≤ L.N, 0 ≤ u j ∧ u j ≤ M) ∧ Physical L ks' := by
  have hM := hr.positive
  obtain ⟨r, hm⟩ := hP.mesh
  have hads : ∀ (b : SK Bool) (s : SKSurf) (q : Bool) (x : ℝ), ∃ y, b ∈ ks → s ∈ b.surfaces → 0 ≤ x ∧ x ≤ M →
      (0 ≤ y ∧ y ≤ b.n_surf) ∧ (y - s.prev) / h = b.J_vs q (P.T.T.tr q) y x + release b q (P.T.T.tr q) y x := by
    intro b s q x
    by_cases hc : b ∈ ks ∧ s ∈ b.surfaces ∧ 0 ≤ x ∧ x ≤ M
    · obtain ⟨hb, hs, hx⟩ := hc
      have hI := hr.inside b hb
      obtain ⟨y, hy⟩ := adsorbed_exists (hp b hb) hh (hr.surf b hb) (hI ▸ hM) (hr.sb b hb q (P.T.T.tr q))
        (hr.bs b hb q (P.T.T.tr q)) (hcont b hb q (P.T.T.tr q) x) (hJ b hb _ _ _).1 (hJ b hb _ _ _).2 (hsp b hb s hs)
        (hI.symm ▸ hx)
      exact ⟨y, fun _ _ _ => hy⟩
    · exact ⟨0, fun h1 h2 h3 => absurd ⟨h1, h2, h3⟩ hc⟩
  choose ads hads using hads
  -- what each surface takes
  set term : SK Bool → SKSurf → Bool → ℝ → ℝ := fun b s q x => layerChange (some h) b x (P.mv.prev.tr q)
    + release b q (P.T.T.tr q) (ads b s q x) x with hterm
  set R : Bool → ℝ → ℝ := fun q x => (ks.map fun b => (b.surfaces.map fun s =>
    if s.id = (if q then L.right else L.left) then term b s q (clamp M x) else 0).sum).sum with hR
  have hgentle : ∀ q, ∃ k, 0 ≤ k ∧ Gentle k (R q) := by
    intro q
    refine Gentle.list ks _ fun b hb => Gentle.list b.surfaces _ fun s hs => ?_
    by_cases hid : s.id = if q then L.right else L.left
    · simp only [if_pos hid]
      have hI := hr.inside b hb
      have hn := hr.surf b hb
      have k1 := hr.sb b hb q (P.T.T.tr q)
      have k2 := hr.bs b hb q (P.T.T.tr q)
      set T := P.T.T.tr q
      have hl : 0 ≤ b.lambda_IS / h := div_nonneg (hr.layer b hb) hh.le
      have hk1 : 0 ≤ b.k_sb q T 0 0 * b.n_surf / M := div_nonneg (mul_nonneg (k1 0 0) hn.le) hM.le
      refine ⟨b.lambda_IS / h + (b.k_bs q T 0 0 + b.k_sb q T 0 0 * b.n_surf / M), by
        have := k2 0 0
        positivity, Gentle.clamp (by have := k2 0 0; positivity) hM.le fun x y hx hxy hy => ?_⟩
      obtain ⟨sx, ex⟩ := hads b s q x hb hs ⟨hx, hxy.trans hy⟩
      obtain ⟨sy, ey⟩ := hads b s q y hb hs ⟨hx.trans hxy, hy⟩
      have o1 := release_le (Feeds.refl b) (hp b hb) hh hn (hI ▸ hM) k1 k2 ey ex le_rfl hx hxy (hI.symm ▸ hy) sy sx
      have o2 := adsorbed_le (Feeds.refl b) (hp b hb) hh hn (hI ▸ hM) k1 k2 ex ey le_rfl hx hxy (hI.symm ▸ hy) sx sy
      have o3 := release_mono (hp b hb) hn (hI ▸ hM) k1 k2 (hx.trans hxy) le_rfl (hI.symm ▸ hy) sx.1 o2 sy.2
      have el : ∀ z, layerChange (some h) b z (P.mv.prev.tr q) = b.lambda_IS / h * (z - P.mv.prev.tr q) := fun z => by
        simp only [layerChange]
        ring
      have o4 : release b q T (ads b s q x) y - release b q T (ads b s q x) x
          ≤ (b.k_bs q T 0 0 + b.k_sb q T 0 0 * b.n_surf / M) * (y - x) := by
        unfold release
        rw [(hp b hb).bs q T _ y 0 0, (hp b hb).bs q T _ x 0 0, (hp b hb).sb q T _ y 0 0, (hp b hb).sb q T _ x 0 0, hI]
        have a1 : b.k_bs q T 0 0 * (1 - ads b s q x / b.n_surf) ≤ b.k_bs q T 0 0 :=
          mul_le_of_le_one_right (k2 0 0) (by have := div_nonneg sx.1 hn.le; linarith)
        have a2 : b.k_sb q T 0 0 * ads b s q x / M ≤ b.k_sb q T 0 0 * b.n_surf / M :=
          div_le_div_of_nonneg_right (mul_le_mul_of_nonneg_left sx.2 (k1 0 0)) hM.le
        have a3 := mul_le_mul_of_nonneg_right (add_le_add a1 a2) (sub_nonneg.2 hxy)
        refine le_trans (le_of_eq ?_) a3
        field_simp
        ring
      simp only [hterm, el]
      have hm1 := mul_le_mul_of_nonneg_left hxy hl
      constructor
      · linarith
      · rw [add_mul (b.lambda_IS / h)]
        linarith
    · simp only [if_neg hid]
      exact ⟨0, le_rfl, Gentle.zero⟩
  choose k hk0 hk using hgentle
  obtain ⟨u, hval, hsol⟩ := bil_solve_monotone (fun p => ⟨hL.lam_nonneg p, hL.lam_le p⟩) hP.coercive (loadOf P mat)
    (fluxAt P bcs) val R (1 + k true + k false) (by linarith [hk0 true, hk0 false]) fun q => by
      cases q
      · exact (hk false).le (by linarith [hk0 true])
      · exact (hk true).le (by linarith [hk0 false])
  -- the solution is physical
  have hon : OnLine L (P.withSol (L.p1 u)) (.flux (.value fun q => -R q ((L.p1 u).tr q)) [L.left, L.right] :: bcs) mat u dir := by
    refine ⟨hL, ⟨r, hm⟩, hP.traps, hth, hso, rfl, hP.cover, ?_, ?_⟩
    · intro b vs hb
      rcases List.mem_cons.1 hb with hb | hb
      · cases hb
      · exact hP.noSK b vs hb
    · intro v hv F hF
      obtain ⟨F₀, h₀⟩ := hP.formOk u v
      have e := hsol v hv
      have e0 := hP.residual u v F₀ h₀
      have e1 : (P.withSol (L.p1 u)).mesh.assemble F₀ + ∑ q, R q ((L.p1 u).tr q) * (L.p1 v).tr q = 0 := by
        show P.mesh.assemble F₀ + _ = 0
        rw [e0]
        linarith
      rw [value_ends (show (P.withSol (L.p1 u)).mesh = L.mesh r from hm) hP.traps _ _ F F₀ hF h₀]
      simp only [neg_mul, Finset.sum_neg_distrib, sub_neg_eq_add]
      exact e1
  obtain ⟨push1, push2⟩ := hpush u hval
  have hsm : ∀ q, P.mesh.sm q = if q then L.right else L.left := fun q => by rw [hm]; rfl
  have hcn : ∀ q, 0 ≤ P.mv.prev.tr q ∧ P.mv.prev.tr q ≤ M := by
    rw [hprev]
    exact (p1_between L hL un 0 M hun).2
  have hlow : ∀ q, (L.p1 u).tr q < 0 → R q ((L.p1 u).tr q) ≤ 0 := by
    intro q hlt
    have hc : clamp M ((L.p1 u).tr q) = 0 := by
      unfold clamp
      rw [min_eq_left (hlt.le.trans hM.le), max_eq_left hlt.le]
    simp only [hR, hc]
    refine sum_nonpos' _ fun x hx => ?_
    obtain ⟨b, hb, rfl⟩ := List.mem_map.1 hx
    refine sum_nonpos' _ fun x hx => ?_
    obtain ⟨s, hs, rfl⟩ := List.mem_map.1 hx
    split_ifs
    all_goals first | exact le_rfl | skip
    all_goals
      obtain ⟨s0, _⟩ := hads b s q 0 hb hs ⟨le_rfl, hM.le⟩
      have a1 : layerChange (some h) b 0 (P.mv.prev.tr q) ≤ 0 := by
        simp only [layerChange]
        exact div_nonpos_of_nonpos_of_nonneg (mul_nonpos_of_nonneg_of_nonpos (hr.layer b hb) (by linarith [(hcn q).1])) hh.le
      have a2 : release b q (P.T.T.tr q) (ads b s q 0) 0 ≤ 0 := by
        unfold release
        have := mul_nonneg (hr.sb b hb q (P.T.T.tr q) (ads b s q 0) 0) s0.1
        simp only [mul_zero, zero_mul, zero_div, sub_zero, mul_one, zero_sub]
        linarith
      simp only [hterm]
      linarith
  have hhigh : ∀ q, M < (L.p1 u).tr q → 0 ≤ R q ((L.p1 u).tr q) := by
    intro q hlt
    have hc : clamp M ((L.p1 u).tr q) = M := by
      unfold clamp
      rw [min_eq_right hlt.le, max_eq_right hM.le]
    simp only [hR, hc]
    refine List.sum_nonneg fun x hx => ?_
    obtain ⟨b, hb, rfl⟩ := List.mem_map.1 hx
    refine List.sum_nonneg fun x hx => ?_
    obtain ⟨s, hs, rfl⟩ := List.mem_map.1 hx
    split_ifs
    all_goals first | exact le_rfl | skip
    all_goals
      obtain ⟨s0, _⟩ := hads b s q M hb hs ⟨hM.le, le_rfl⟩
      have a1 : 0 ≤ layerChange (some h) b M (P.mv.prev.tr q) := by
        simp only [layerChange]
        exact div_nonneg (mul_nonneg (hr.layer b hb) (by linarith [(hcn q).2])) hh.le
      have a2 : 0 ≤ release b q (P.T.T.tr q) (ads b s q M) M := by
        unfold release
        rw [hr.inside b hb, div_self hM.ne', sub_self, mul_zero, sub_zero]
        exact mul_nonneg (mul_nonneg (hr.bs b hb _ _ _ _) hM.le) (sub_nonneg.2 ((div_le_one (hr.surf b hb)).2 s0.2))
      simp only [hterm]
      linarith
  have lo := C75_lower_bound L _ _ mat u un dir h 0 hon hdt hh hprev (fun j hj => (hun j hj).1)
    ⟨push1.src, fun f ss hf q hq hlt => by
      rcases List.mem_cons.1 hf with hf | hf
      · cases hf
        have := hlow q (by simpa using hlt)
        show 0 ≤ 1 * -R q ((L.p1 u).tr q)
        linarith
      · exact push1.bc f ss hf q hq hlt, push1.dirichlet⟩ hstep
  have hi := C75_upper_bound L _ _ mat u un dir h M hon hdt hh hprev (fun j hj => (hun j hj).2)
    ⟨push2.src, fun f ss hf q hq hlt => by
      rcases List.mem_cons.1 hf with hf | hf
      · cases hf
        have := hhigh q (by linarith)
        show 0 ≤ -1 * -R q ((L.p1 u).tr q)
        linarith
      · exact push2.bc f ss hf q hq hlt, push2.dirichlet⟩ hstep
  have hu : ∀ j ≤ L.N, 0 ≤ u j ∧ u j ≤ M := fun j hj => ⟨lo j hj, hi j hj⟩
  have htr := (p1_between L hL u 0 M hu).2
  -- the conditions with the adsorbed concentrations
  set at' : SKSurf → Bool := fun s => decide (s.id = L.right) with hat'
  have hat : ∀ (s : SKSurf) (q : Bool), s.id = (if q then L.right else L.left) → at' s = q := by
    intro s q hid
    simp only [hat', hid]
    cases q
    · simpa using L.ends
    · simp
  set ns : SK Bool → SKSurf → SKSurf := fun b s => { s with sol := ads b s (at' s) ((L.p1 u).tr (at' s)) } with hns
  set nb : SK Bool → SK Bool := fun b => { b with surfaces := b.surfaces.map (ns b) } with hnb
  have hatt : ∀ b' s' q, Attached L (ks.map nb) b' s' q → ∃ b ∈ ks, ∃ s ∈ b.surfaces, b' = nb b ∧ s' = ns b s ∧
      s.id = (if q then L.right else L.left) ∧ at' s = q := by
    rintro b' s' q ⟨h1, h2, h3⟩
    obtain ⟨b, hb, rfl⟩ := List.mem_map.1 h1
    obtain ⟨s, hs, rfl⟩ := List.mem_map.1 h2
    exact ⟨b, hb, s, hs, rfl, rfl, h3, hat s q h3⟩
  refine ⟨u, ks.map nb, ?_, ?_, hval, hu, ?_⟩
  · rw [List.forall₂_map_right_iff]
    refine List.forall₂_same.2 fun b _ => ⟨rfl, ?_⟩
    show List.Forall₂ _ b.surfaces (b.surfaces.map (ns b))
    rw [List.forall₂_map_right_iff]
    exact List.forall₂_same.2 fun s _ => rfl
  · refine kinetics_of hL ⟨r, hm⟩ hP.traps hth hso rfl hP.cover hP.noSK ?_ fun v hv F₀ h₀ => ?_
    · intro b' s' q ha
      obtain ⟨b, hb, s, hs, rfl, rfl, hid, hq⟩ := hatt b' s' q ha
      have := (hads b s q ((L.p1 u).tr q) hb hs (htr q)).2
      show adsChange P.dt _ = _
      rw [hdt]
      simp only [hns, hq, adsChange]
      exact this
    · rw [taken_outflow (P := P.withSol (L.p1 u)) (r := r) hm]
      have e := hsol v hv
      have e0 := hP.residual u v F₀ h₀
      have e2 : ∀ q, outflow L (P.withSol (L.p1 u)).dt (P.withSol (L.p1 u)).T.T.tr (P.withSol (L.p1 u)).mv.sol.tr
          (P.withSol (L.p1 u)).mv.prev.tr (ks.map nb) q = R q ((L.p1 u).tr q) := by
        intro q
        show outflow L P.dt P.T.T.tr (L.p1 u).tr P.mv.prev.tr (ks.map nb) q = _
        unfold outflow
        simp only [hR, hdt, clamp_self (htr q), List.map_map]
        congr 1
        apply List.map_congr_left
        intro b _
        show ((b.surfaces.map (ns b)).map _).sum = _
        rw [List.map_map]
        congr 1
        apply List.map_congr_left
        intro s _
        by_cases hid : s.id = if q then L.right else L.left
        · rw [if_pos hid]
          show (if s.id = _ then _ else _) = _
          rw [if_pos hid]
          simp only [hterm, hns, hat s q hid]
          rfl
        · rw [if_neg hid]
          show (if s.id = _ then _ else _) = _
          rw [if_neg hid]
      simp only [e2]
      show P.mesh.assemble F₀ + _ = 0
      rw [e0]
      linarith
  · intro b' s' q ha
    obtain ⟨b, hb, s, hs, rfl, rfl, hid, hq⟩ := hatt b' s' q ha
    have := (hads b s q ((L.p1 u).tr q) hb hs (htr q)).1
    simp only [hns, hq]
    exact this

end

namespace KinCase

theorem line (un : ℕ → ℝ) (u : ℕ → ℝ) : LinearLine L (P (some 1) u un) [] (fun _ => M) (fun _ => M) fun _ => False where
  mesh := ⟨_, rfl⟩
  weights := exact2.w_nonneg
  cover := ⟨by simp [P], by simp [P, L, Line.mesh, M], by simp [P, M]⟩
  solubility := ⟨by simp [P], by simp [P], by simp [P], by simp [P]⟩
  law := by simp [P]
  uniform := by simp [P]
  D_pos := by simp [P, M]
  S_pos := by simp [P]
  step := by
    intro h hh
    simp only [P, Option.some.injEq] at hh
    rw [← hh]
    exact one_pos
  traps := rfl
  decay := by simp [P]
  fluxes := by simp
  fixed := Or.inl (by simp [P])

theorem closed_plain (s : ℝ) : ∀ b ∈ [closed s], PlainRates b := by
  intro b hb
  rw [List.mem_singleton] at hb
  subst hb
  exact ⟨fun _ _ _ _ _ _ => rfl, fun _ _ _ _ _ _ => rfl, fun _ _ _ _ _ _ _ _ _ => le_rfl⟩

theorem closed_physical {s : ℝ} (h : 0 ≤ s ∧ s ≤ 4) : Physical L [closed s] := by
  intro b t q ha
  obtain ⟨rfl, e, _⟩ := closed_attached ha
  rw [e]
  exact h

/-- The step of `C118_two_solutions` has one physical solution only. -/
example (w : ℕ → ℝ) (t : ℝ) (hw : WithKinetics L (P (some 1) w fun _ => 1 / 8) [closed t] [] (fun _ => M) w fun _ => False)
    (h0 : 0 ≤ w 0 ∧ w 0 ≤ 4) (h1 : 0 ≤ w 1 ∧ w 1 ≤ 4) (ht : 0 ≤ t ∧ t ≤ 4) : w 0 = 1 / 2 ∧ w 1 = 1 / 2 ∧ t = 3 / 2 := by
  obtain ⟨e1, e2⟩ := C119_unique (P := P (some 1) w fun _ => 1 / 8) (u := fun _ => 1 / 2) (w := w) (ks := [closed (3 / 2)])
    (ks' := [closed t]) (M := 4) (line _ _) rfl one_pos (closed_solves (1 / 2) (3 / 2) (by norm_num) (by norm_num)) hw
    (by simp [Restated, closed]) (by simp) (closed_rates _) (closed_plain _) (closed_physical (by norm_num)) (closed_physical ht)
    (by intro q; cases q <;> norm_num [Line.p1])
    (by
      intro q
      cases q
      · simpa [Line.p1] using h0
      · simpa [Line.p1, cells] using h1)
  refine ⟨(e1 0 (by simp [cells])).symm, (e1 1 (by simp [cells])).symm, ?_⟩
  have := e2
  simp only [Adsorbed, closed, List.forall₂_cons, List.forall₂_nil_left_iff, and_true] at this
  exact (this.1 (Or.inl rfl)).symm

/-- There is one. -/
example : ∃ u ks', List.Forall₂ Restated [closed 0] ks' ∧
    WithKinetics L ((P (some 1) (fun _ => 0) fun _ => 1 / 8).withSol (L.p1 u)) ks' [] (fun _ => M) u (fun _ => False) ∧
      (∀ q, False → (L.p1 u).tr q = (fun _ => 0 : Bool → ℝ) q) ∧ (∀ j ≤ L.N, 0 ≤ u j ∧ u j ≤ 4) ∧ Physical L ks' :=
  C119_exists (un := fun _ => 1 / 8) (line _ _) exact2 rfl rfl rfl one_pos rfl (by norm_num) _
    (fun u _ => ⟨⟨by simp [P, Problem.withSol], by simp, by simp⟩, ⟨by simp [P, Problem.withSol], by simp, by simp⟩⟩)
    (short _ _) (closed_rates _) (closed_plain _) (by simp [closed, continuousOn_const]) (by simp [closed])
    (by
      intro b hb s hs
      rw [List.mem_singleton] at hb
      subst hb
      simp only [closed, List.mem_cons, List.not_mem_nil, or_false] at hs
      rcases hs with rfl | rfl <;> norm_num [closed])

/-- A state in equilibrium, with more hydrogen than the step above. -/
noncomputable def full : SK Bool where
  k_sb _ _ _ _ := 1
  k_bs _ _ _ _ := 3
  J_vs _ _ _ _ := 0
  lambda_IS := 1 / 2
  n_surf := 4
  n_IS := 4
  surfaces := [⟨1, 2, 2⟩, ⟨2, 2, 2⟩]

theorem full_solves : WithKinetics L (P (some 1) (fun _ => 1) fun _ => 1) [full] [] (fun _ => M) (fun _ => 1) fun _ => False := by
  refine cell_solves _ _ _ _ fun v w => ?_
  simp only [List.map_cons, List.map_nil]
  generalize w full = w'
  simp [full, at_left, at_right, release, adsChange, layerChange, Line.p1, cells, cellMass]
  ring_nf

example : (∀ j ≤ L.N, (fun _ => 1 / 2 : ℕ → ℝ) j ≤ (fun _ => 1 : ℕ → ℝ) j) ∧ Adsorbed L (· ≤ ·) [closed (3 / 2)] [full] :=
  C119_comparison (P := P (some 1) (fun _ => 0) fun _ => 0) (un := fun _ => 1 / 8) (wn := fun _ => 1) (M := 4) []
    (closed_solves (1 / 2) (3 / 2) (by norm_num) (by norm_num)) full_solves rfl one_pos (by simp)
    (.cons ⟨rfl, rfl, fun _ _ _ _ => le_rfl, rfl, rfl, rfl, by norm_num [closed, full]⟩ .nil) (by simp) (by norm_num)
    (short _ _) (closed_rates _) (closed_plain _) (closed_physical (by norm_num))
    (by
      intro b s q ha
      obtain ⟨h1, h2, _⟩ := ha
      rw [List.mem_singleton] at h1
      subst h1
      simp only [full, List.mem_cons, List.not_mem_nil, or_false] at h2
      rcases h2 with rfl | rfl <;> norm_num [full])
    (by intro q; cases q <;> norm_num [Line.p1]) (by intro q; cases q <;> norm_num [Line.p1])

end KinCase

end Festim.Props
