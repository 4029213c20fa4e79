import Verif.Proofs.Superposition
import Verif.Props.Bounds
import Verif.Props.Existence

/-!
# C108: superposition and comparison

Without traps, and with fluxes proportional to the concentration, the response of a simulation is linear in its data; on a line a
simulation which is given more hydrogen has more of it everywhere.
-/

open scoped BigOperators

namespace Festim.Props

open Festim.Weak

section
variable {Ω Γ : Type} [Fintype Ω] [Fintype Γ] {d : ℕ}

/-- **C108 (a).** Superposition: any mesh and coordinates, steady or not, Soret effect or not, Sieverts materials if the chemical
potential is conserved. -/
theorem C108_superposition (P : Problem Ω Γ d) (hs : P.mv.theta = true → ∀ m ∈ P.mats, m.law = .sievert)
    (u w un wn : Fld Ω Γ d) (ss : List (Src Ω × Src Ω)) (hss : ∀ s ∈ ss, s.1.Like s.2)
    (fs : List ((Flux Γ × Flux Γ) × List ℕ)) (hfs : ∀ f ∈ fs, f.1.1.Like f.1.2) (a b : ℝ) (v : Fld Ω Γ d) (r r' : ℝ)
    (h : Residual (P.withData u un (ss.map (·.1))) (fs.map fun f => .flux f.1.1 f.2) v [] r)
    (h' : Residual (P.withData w wn (ss.map (·.2))) (fs.map fun f => .flux f.1.2 f.2) v [] r') :
    Residual (P.withData (.mix a u b w) (.mix a un b wn) (ss.map fun s => s.1.comb a b s.2))
      (fs.map fun f => .flux (f.1.1.comb a b f.1.2) f.2) v [] (a * r + b * r') := by
  rw [residual_notraps _ rfl] at h h' ⊢
  have e1 := (bulk_comb P hs a b u w un wn (ss.map (·.1)) (ss.map (·.2)) (ss.map fun s => s.1.comb a b s.2) v).assemble P.mesh
  have e2 := (source_comb P hs a b u w un wn ss hss v).assemble P.mesh
  have e3 := (fluxes_comb P a b fs (fun x => x.1.comb a b x.2) { P.mv with sol := u, prev := un } { P.mv with sol := w, prev := wn }
    { P.mv with sol := .mix a u b w, prev := .mix a un b wn }
    (fun x hx q => flux_comb _ _ (hfs x hx) a b _ _ _ _ (mobileConcS_comb P hs a b u w un wn) q) v).assemble P.mesh
  rw [h, h']
  show _ = P.mesh.assemble _ + P.mesh.assemble (sourceForm P.mesh P.mats _ _ v) + P.mesh.assemble (fluxesForm P.mesh P.mats _ _ _ _ v)
  rw [e1]
  refine Eq.trans ?_ (congrArg₂ (· + ·) (congrArg (_ + ·) e2.symm) e3.symm)
  show a * (P.mesh.assemble _ + P.mesh.assemble _ + P.mesh.assemble _) + b * (P.mesh.assemble _ + P.mesh.assemble _ + P.mesh.assemble _) = _
  simp only [Problem.withData]
  ring

/-- **C108 (d).** The same for the heat equation when the properties do not depend on the temperature. -/
theorem C108_heat (m : Mesh Ω Γ d) (mats : List Mat)
    (hc : ∀ x ∈ mats, ∀ s t, x.cond s = x.cond t ∧ x.rho s = x.rho t ∧ x.cp s = x.cp t) (T T' Tn Tn' : Fld Ω Γ d) (dt : Option ℝ)
    (ss : List (((Ω → ℝ) × (Ω → ℝ)) × List ℕ)) (fs : List ((Flux Γ × Flux Γ) × List ℕ)) (hfs : ∀ f ∈ fs, f.1.1.HeatLike f.1.2)
    (a b : ℝ) (v : Fld Ω Γ d) :
    m.assemble (heatForm m mats ⟨.mix a T b T', .mix a Tn b Tn'⟩ dt (ss.map fun s => (fun p => a * s.1.1 p + b * s.1.2 p, s.2))
        (fs.map fun f => (f.1.1.comb a b f.1.2, f.2)) v)
      = a * m.assemble (heatForm m mats ⟨T, Tn⟩ dt (ss.map fun s => (s.1.1, s.2)) (fs.map fun f => (f.1.1, f.2)) v)
        + b * m.assemble (heatForm m mats ⟨T', Tn'⟩ dt (ss.map fun s => (s.1.2, s.2)) (fs.map fun f => (f.1.2, f.2)) v) :=
  (heat_comb m mats hc a b T T' Tn Tn' dt ss fs hfs v).assemble m

/-- **C108 (e).** Reciprocity, in cartesian coordinates: the response to a source `f`, from rest and with homogeneous conditions, weighted
by another source `g`, is the response to `g` weighted by `f`. -/
theorem C108_reciprocity (P : Problem Ω Γ d) (hc : P.mesh.type = .cartesian) (ht : P.mv.theta = false) (hs : P.soret = false)
    (u w : Fld Ω Γ d) (f g : Ω → ℝ) (V V' : List ℕ) (hV : V.Nodup) (hV' : V'.Nodup) (k : List ((Γ → ℝ) × List ℕ))
    (hu : Residual (P.withData u (Fld.const 0) [⟨.given f, V⟩]) (k.map fun x => .flux (.mass x.1 fun _ => 0) x.2) w [] 0)
    (hw : Residual (P.withData w (Fld.const 0) [⟨.given g, V'⟩]) (k.map fun x => .flux (.mass x.1 fun _ => 0) x.2) u [] 0) :
    volumeIn P.mesh V (fun p => f p * w.val p) = volumeIn P.mesh V' (fun p => g p * u.val p) := by
  rw [residual_notraps _ rfl] at hu hw
  have e1 := bulk_swap P hc ht hs u w [⟨.given f, V⟩] [⟨.given g, V'⟩]
  have hfl : ∀ (x y : Fld Ω Γ d), fluxesForm P.mesh P.mats { P.mv with sol := x, prev := Fld.const 0 } P.T P.dt
      (k.map fun x => .flux (.mass x.1 fun _ => 0) x.2) y
      = k.flatMap fun z => z.2.map fun s => Term.ds s fun q => z.1 q * (x.tr q * y.tr q) := by
    intro x y
    unfold fluxesForm
    rw [List.flatMap_map]
    congr 1
    funext z
    show z.2.map _ = z.2.map _
    congr 1
    funext s
    refine congrArg (Term.ds s) (funext fun q => ?_)
    simp only [Flux.form, Mobile.mobileConcS, ht, Bool.false_eq_true, if_false]
    ring
  have e2 : ∀ z : Γ → ℝ, ∀ q, z q * (u.tr q * w.tr q) = z q * (w.tr q * u.tr q) := fun z q => by ring
  have hsrc : ∀ (x y : Fld Ω Γ d) (f : Ω → ℝ) (V : List ℕ), V.Nodup →
      P.mesh.assemble (sourceForm P.mesh P.mats { P.mv with sol := x, prev := Fld.const 0 } [⟨.given f, V⟩] y)
      = -volumeIn P.mesh V (fun p => f p * y.val p) := by
    intro x y f V hV
    unfold sourceForm
    rw [List.flatMap_cons, List.flatMap_nil, List.append_nil, assemble_map]
    dsimp only [Src.at]
    clear * - hV
    induction V with
    | nil => simp [volumeIn]
    | cons i V ih =>
      rw [List.map_cons, List.sum_cons, ih (List.nodup_cons.1 hV).2]
      simp only [Mesh.integrate, volumeIn, Finset.sum_filter, ← Finset.sum_neg_distrib, ← Finset.sum_add_distrib]
      refine Finset.sum_congr rfl fun p _ => ?_
      by_cases h : P.mesh.vm p = i
      · have : P.mesh.vm p ∉ V := h ▸ (List.nodup_cons.1 hV).1
        simp [h]
        rw [← h]
        simp [this]
      · simp [h]
  have hu' : (0 : ℝ) = P.mesh.assemble (bulkForm (P.withData u (Fld.const 0) [⟨.given f, V⟩]) w)
    + P.mesh.assemble (sourceForm P.mesh P.mats { P.mv with sol := u, prev := Fld.const 0 } [⟨.given f, V⟩] w)
    + P.mesh.assemble (fluxesForm P.mesh P.mats { P.mv with sol := u, prev := Fld.const 0 } P.T P.dt
      (k.map fun x => .flux (.mass x.1 fun _ => 0) x.2) w) := hu
  have hw' : (0 : ℝ) = P.mesh.assemble (bulkForm (P.withData w (Fld.const 0) [⟨.given g, V'⟩]) u)
    + P.mesh.assemble (sourceForm P.mesh P.mats { P.mv with sol := w, prev := Fld.const 0 } [⟨.given g, V'⟩] u)
    + P.mesh.assemble (fluxesForm P.mesh P.mats { P.mv with sol := w, prev := Fld.const 0 } P.T P.dt
      (k.map fun x => .flux (.mass x.1 fun _ => 0) x.2) u) := hw
  rw [e1, hfl, hsrc _ _ _ _ hV] at hu'
  rw [hfl, hsrc _ _ _ _ hV'] at hw'
  simp only [e2] at hu'
  linarith

end

section
variable {Ω : Type} [Fintype Ω]

omit [Fintype Ω] in
theorem comb_p1 [Fintype Ω] (L : Line Ω) (a b : ℝ) (x y : ℕ → ℝ) :
    Fld.mix a (L.p1 x) b (L.p1 y) = L.p1 fun i => a * x i + b * y i := by
  ext
  · show a * ((1 - _) * _ + _ * _) + b * ((1 - _) * _ + _ * _) = (1 - _) * _ + _ * _
    ring
  · show a * ((_ - _) / _) + b * ((_ - _) / _) = (_ - _) / _
    ring
  · rename_i q
    show a * (if q then _ else _) + b * (if q then _ else _) = if q then _ else _
    split <;> rfl

omit [Fintype Ω] in
theorem p1_eq [Fintype Ω] (L : Line Ω) {u v : ℕ → ℝ} (h : ∀ i ≤ L.N, u i = v i) : L.p1 u = L.p1 v := by
  have hc := L.cell_lt
  unfold Line.p1
  congr 1
  · funext p
    rw [h _ (hc p).le, h _ (hc p)]
  · funext p i
    rw [h _ (hc p).le, h _ (hc p)]
  · funext q
    rw [h _ le_rfl, h _ (Nat.zero_le _)]

/-- **C108 (b).** Whole simulations on a line: the results of a simulation whose initial values, imposed values, sources and fluxes are at
all times combinations of those of two others are the combinations of their results. -/
theorem C108_run (L : Line Ω) (P : ℕ → Problem Ω Bool 1) (mat : ℕ → Ω → Mat) (matS : ℕ → Bool → Mat) (dir : ℕ → Bool → Prop)
    (ss : ℕ → List (Src Ω × Src Ω)) (hss : ∀ k, ∀ s ∈ ss k, s.1.Like s.2) (fs : ℕ → List ((Flux Bool × Flux Bool) × List ℕ))
    (hfs : ∀ k, ∀ f ∈ fs k, f.1.1.Like f.1.2) (val val' : ℕ → Bool → ℝ) (a b : ℝ) (U V W : ℕ → ℕ → ℝ)
    (hlin : ∀ k un, LinearLine L ((P k).withData un un ((ss k).map fun s => s.1.comb a b s.2))
      ((fs k).map fun f => .flux (f.1.1.comb a b f.1.2) f.2) (mat k) (matS k) (dir k))
    (hU : ∀ k, LineSolves L ((P k).withData (L.p1 (U k)) (L.p1 (U k)) ((ss k).map (·.1))) ((fs k).map fun f => .flux f.1.1 f.2)
      (dir k) (val k) (U (k + 1)))
    (hV : ∀ k, LineSolves L ((P k).withData (L.p1 (V k)) (L.p1 (V k)) ((ss k).map (·.2))) ((fs k).map fun f => .flux f.1.2 f.2)
      (dir k) (val' k) (V (k + 1)))
    (hW : ∀ k, LineSolves L ((P k).withData (L.p1 (W k)) (L.p1 (W k)) ((ss k).map fun s => s.1.comb a b s.2))
      ((fs k).map fun f => .flux (f.1.1.comb a b f.1.2) f.2) (dir k) (fun q => a * val k q + b * val' k q) (W (k + 1)))
    (h0 : ∀ i ≤ L.N, W 0 i = a * U 0 i + b * V 0 i) (k : ℕ) : ∀ i ≤ L.N, W k i = a * U k i + b * V k i := by
  induction k with
  | zero => exact h0
  | succ k ih =>
    have hlaw := (hlin k (Fld.const 0)).law
    have hw := hW k
    rw [p1_eq L ih, ← comb_p1] at hw
    refine C90_unique (hlin k (.mix a (L.p1 (U k)) b (L.p1 (V k)))) _ _ _ hw ⟨fun q hq => ?_, fun v hv => ?_⟩
    · rw [← comb_p1]
      show a * _ + b * _ = _
      rw [(hU k).1 q hq, (hV k).1 q hq]
    · have h1 : Residual ((P k).withData (L.p1 (U (k + 1))) (L.p1 (U k)) ((ss k).map (·.1))) _ (L.p1 v) [] 0 := (hU k).2 v hv
      have h2 : Residual ((P k).withData (L.p1 (V (k + 1))) (L.p1 (V k)) ((ss k).map (·.2))) _ (L.p1 v) [] 0 := (hV k).2 v hv
      have := C108_superposition (P k) hlaw _ _ _ _ (ss k) (hss k) (fs k) (hfs k) a b (L.p1 v) 0 0 h1 h2
      rw [mul_zero, mul_zero, add_zero, comb_p1 L a b (U (k + 1)) (V (k + 1))] at this
      exact this

/-- **C108 (c).** Comparison on a line: of two steps which differ by their sources, fluxes, imposed and previous concentrations, the
one which has nowhere less of these has nowhere less hydrogen.  The flux conditions may be any (recombination of order two, ...): what
is required is that where the second concentration is below the first, the second flux into the material is not below the first. -/
theorem C108_comparison (L : Line Ω) (P : Problem Ω Bool 1) (mat : Ω → Mat) (dir : Bool → Prop) (u w un wn : ℕ → ℝ)
    (ss : List (((Ω → ℝ) × (Ω → ℝ)) × List ℕ)) (fs : List ((Flux Bool × Flux Bool) × List ℕ))
    (h1 : OnLine L (P.withData (L.p1 u) (L.p1 un) (ss.map fun s => ⟨.given s.1.1, s.2⟩)) (fs.map fun f => .flux f.1.1 f.2) mat u dir)
    (h2 : OnLine L (P.withData (L.p1 w) (L.p1 wn) (ss.map fun s => ⟨.given s.1.2, s.2⟩)) (fs.map fun f => .flux f.1.2 f.2) mat w dir)
    (hss : ∀ s ∈ ss, ∀ p, s.1.1 p ≤ s.1.2 p)
    (hfs : ∀ f ∈ fs, ∀ q, (L.p1 w).tr q < (L.p1 u).tr q →
      inward f.1.1 (P.T.T.tr q) ((L.p1 u).tr q) q ≤ inward f.1.2 (P.T.T.tr q) ((L.p1 w).tr q) q)
    (hdir : ∀ q, dir q → (L.p1 u).tr q ≤ (L.p1 w).tr q)
    (hstep : (∃ h, P.dt = some h ∧ 0 < h ∧ (∀ j ≤ L.N, un j ≤ wn j) ∧ ∀ p, L.h (L.cell p) ^ 2 ≤ 6 * diffAt P mat p * h) ∨
      P.dt = none ∧ (∀ p, 0 < diffAt P mat p) ∧ ∃ q, dir q) :
    ∀ j ≤ L.N, u j ≤ w j := by
  have ht : P.mv.theta = false := h1.theta
  have hcomb : ∀ x y : ℕ → ℝ, Fld.mix (-1) (L.p1 x) 1 (L.p1 y) = L.p1 fun i => y i - x i := by
    intro x y
    ext
    · show -1 * ((1 - _) * _ + _ * _) + 1 * ((1 - _) * _ + _ * _) = (1 - _) * _ + _ * _
      ring
    · show -1 * ((_ - _) / _) + 1 * ((_ - _) / _) = (_ - _) / _
      ring
    · rename_i q
      show -1 * (if q then _ else _) + 1 * (if q then _ else _) = if q then _ else _
      split <;> ring
  set sl : List (Src Ω × Src Ω) := ss.map fun s => (⟨.given s.1.1, s.2⟩, ⟨.given s.1.2, s.2⟩) with hsl
  let k : Flux Bool × Flux Bool → Flux Bool := fun f => .value fun q =>
    -1 * f.1.form P.T.T.tr (L.p1 u).tr q + 1 * f.2.form P.T.T.tr (L.p1 w).tr q
  set R : Problem Ω Bool 1 := P.withData (L.p1 fun i => w i - u i) (L.p1 fun i => wn i - un i)
    (sl.map fun s => s.1.comb (-1) 1 s.2) with hR
  have hconc : ∀ x y : Fld Ω Bool 1, ({ P.mv with sol := x, prev := y } : Mobile Ω Bool 1).mobileConcS P.mesh P.mats = x.tr := by
    intro x y
    funext q
    simp [Mobile.mobileConcS, ht]
  have hon : OnLine L R (fs.map fun f => .flux (k f.1) f.2) mat (fun i => w i - u i) dir := by
    refine ⟨h1.quad, h1.mesh, rfl, ht, h1.soret, rfl, h1.cover, ?_, ?_⟩
    · intro b vs hb
      obtain ⟨_, _, hx⟩ := List.mem_map.1 hb
      cases hx
    · intro v hv F hF
      obtain ⟨F1, hF1⟩ := form_ok_notraps (P.withData (L.p1 u) (L.p1 un) (ss.map fun s => ⟨.given s.1.1, s.2⟩))
        (fs.map fun f => .flux f.1.1 f.2) (L.p1 v) rfl
      obtain ⟨F2, hF2⟩ := form_ok_notraps (P.withData (L.p1 w) (L.p1 wn) (ss.map fun s => ⟨.given s.1.2, s.2⟩))
        (fs.map fun f => .flux f.1.2 f.2) (L.p1 v) rfl
      have r1 := (residual_notraps _ rfl _ _ _).1 ⟨F1, hF1, h1.solves v hv F1 hF1⟩
      have r2 := (residual_notraps _ rfl _ _ _).1 ⟨F2, hF2, h2.solves v hv F2 hF2⟩
      have r3 := (residual_notraps R rfl _ _ _).1 ⟨F, hF, rfl⟩
      have hno : P.mv.theta = true → ∀ m ∈ P.mats, m.law = .sievert := fun h => by rw [ht] at h; cases h
      have e1 := (bulk_comb P hno (-1) 1 (L.p1 u) (L.p1 w) (L.p1 un) (L.p1 wn) (ss.map fun s => ⟨.given s.1.1, s.2⟩)
        (ss.map fun s => ⟨.given s.1.2, s.2⟩) (sl.map fun s => s.1.comb (-1) 1 s.2) (L.p1 v)).assemble P.mesh
      have e2 := (source_comb P hno (-1) 1 (L.p1 u) (L.p1 w) (L.p1 un) (L.p1 wn) sl
        (by rintro s hs; obtain ⟨x, _, rfl⟩ := List.mem_map.1 hs; exact ⟨rfl, trivial⟩) (L.p1 v)).assemble P.mesh
      have e3 := (fluxes_comb P (-1) 1 fs k { P.mv with sol := L.p1 u, prev := L.p1 un } { P.mv with sol := L.p1 w, prev := L.p1 wn }
        R.mv (fun x _ q => by rw [hconc, hconc]; rfl) (L.p1 v)).assemble P.mesh
      rw [hcomb, hcomb] at e1 e2
      have s1 : sl.map (·.1) = ss.map fun s => ⟨.given s.1.1, s.2⟩ := by simp [hsl]
      have s2 : sl.map (·.2) = ss.map fun s => ⟨.given s.1.2, s.2⟩ := by simp [hsl]
      rw [s1, s2] at e2
      rw [r3]
      refine (congrArg₂ (· + ·) (congrArg₂ (· + ·) e1 e2) e3).trans ?_
      have r1' : (0 : ℝ) = P.mesh.assemble _ + P.mesh.assemble _ + P.mesh.assemble _ := r1
      have r2' : (0 : ℝ) = P.mesh.assemble _ + P.mesh.assemble _ + P.mesh.assemble _ := r2
      simp only [Problem.withData] at r1' r2' ⊢
      linarith
  have hpush : Pushes L R (fs.map fun f => .flux (k f.1) f.2) (fun i => w i - u i) dir 1 0 := by
    have htr : ∀ q, (L.p1 fun i => w i - u i).tr q = (L.p1 w).tr q - (L.p1 u).tr q := by
      intro q
      cases q <;> rfl
    refine ⟨?_, ?_, ?_⟩
    · intro s hs p
      obtain ⟨x, hx, rfl⟩ := List.mem_map.1 hs
      obtain ⟨y, hy, rfl⟩ := List.mem_map.1 hx
      have := hss y hy p
      show 0 ≤ 1 * (-1 * y.1.1 p + 1 * y.1.2 p)
      linarith
    · intro f l hf q _ hlt
      obtain ⟨x, hx, he⟩ := List.mem_map.1 hf
      cases he
      rw [htr, one_mul, one_mul, sub_neg] at hlt
      have := hfs x hx q hlt
      rw [one_mul]
      show 0 ≤ -1 * x.1.1.form P.T.T.tr (L.p1 u).tr q + 1 * x.1.2.form P.T.T.tr (L.p1 w).tr q
      have hfi : ∀ (f : Flux Bool) (c : Bool → ℝ), f.form P.T.T.tr c q = inward f (P.T.T.tr q) (c q) q := by
        intro f c
        cases f <;> simp only [Flux.form, inward, arr] <;> first | rfl | ring_nf
      rw [hfi, hfi]
      linarith
    · intro q hq
      rw [htr]
      have := hdir q hq
      linarith
  intro j hj
  rcases hstep with ⟨h, hdt, hh, hn, hc⟩ | ⟨hdt, hD, hex⟩
  · have := C75_lower_bound L R _ mat _ (fun i => wn i - un i) dir h 0 hon hdt hh rfl (fun j hj => sub_nonneg.2 (hn j hj)) hpush hc j hj
    linarith
  · have := C75_steady L R _ mat _ dir 0 hon hdt hpush hD hex j hj
    linarith

/-- **C108 (c).** Over a whole simulation. -/
theorem C108_comparison_run (L : Line Ω) (P : ℕ → Problem Ω Bool 1) (mat : ℕ → Ω → Mat) (dir : ℕ → Bool → Prop) (u w : ℕ → ℕ → ℝ)
    (ss : ℕ → List (((Ω → ℝ) × (Ω → ℝ)) × List ℕ)) (fs : ℕ → List ((Flux Bool × Flux Bool) × List ℕ)) (h : ℕ → ℝ)
    (h1 : ∀ n, OnLine L ((P n).withData (L.p1 (u (n + 1))) (L.p1 (u n)) ((ss n).map fun s => ⟨.given s.1.1, s.2⟩))
      ((fs n).map fun f => .flux f.1.1 f.2) (mat n) (u (n + 1)) (dir n))
    (h2 : ∀ n, OnLine L ((P n).withData (L.p1 (w (n + 1))) (L.p1 (w n)) ((ss n).map fun s => ⟨.given s.1.2, s.2⟩))
      ((fs n).map fun f => .flux f.1.2 f.2) (mat n) (w (n + 1)) (dir n))
    (hss : ∀ n, ∀ s ∈ ss n, ∀ p, s.1.1 p ≤ s.1.2 p)
    (hfs : ∀ n, ∀ f ∈ fs n, ∀ q, (L.p1 (w (n + 1))).tr q < (L.p1 (u (n + 1))).tr q →
      inward f.1.1 ((P n).T.T.tr q) ((L.p1 (u (n + 1))).tr q) q ≤ inward f.1.2 ((P n).T.T.tr q) ((L.p1 (w (n + 1))).tr q) q)
    (hdir : ∀ n q, dir n q → (L.p1 (u (n + 1))).tr q ≤ (L.p1 (w (n + 1))).tr q)
    (hdt : ∀ n, (P n).dt = some (h n)) (hh : ∀ n, 0 < h n)
    (hstep : ∀ n p, L.h (L.cell p) ^ 2 ≤ 6 * diffAt (P n) (mat n) p * h n)
    (h0 : ∀ j ≤ L.N, u 0 j ≤ w 0 j) (n : ℕ) : ∀ j ≤ L.N, u n j ≤ w n j := by
  induction n with
  | zero => exact h0
  | succ n ih =>
    exact C108_comparison L (P n) (mat n) (dir n) _ _ _ _ (ss n) (fs n) (h1 n) (h2 n) (hss n) (hfs n) (hdir n)
      (.inl ⟨h n, hdt n, hh n, ih, hstep n⟩)

end

namespace SuperCase

open BoundCase

/-- Two cells, `c = a` on the left, mass transfer with a medium at concentration `c` on the right. -/
noncomputable def uc (a c : ℝ) (i : ℕ) : ℝ := a + i * (c - a) / 3

noncomputable def fs (c c' : ℝ) : List ((Flux Bool × Flux Bool) × List ℕ) := [((.mass (fun _ => 1) fun _ => c, .mass (fun _ => 1) fun _ => c'), [2])]

theorem uc_solved (a c : ℝ) (v : ℕ → ℝ) (h0 : v 0 = 0) :
    Residual (Ps.withData ((simpson 1 one_pos).p1 (uc a c)) ((simpson 1 one_pos).p1 0) []) [.flux (.mass (fun _ => 1) fun _ => c) [2]]
      ((simpson 1 one_pos).p1 v) [] 0 := by
  refine ⟨_, rfl, ?_⟩
  simp [Problem.withData, Ps, P, simpson, Line.mesh, Mesh.assemble, Mesh.integrate, Form.neg, subdomainForm, Fld.const,
    dot, sourceForm, fluxesForm, M, Line.p1, uc, Fintype.sum_prod_type, Fin.sum_univ_three,
    Fin.sum_univ_two, Mobile.conc, MobBC.form, Flux.form, Mobile.mobileConcS, h0]
  ring

theorem uc_onLine (a c : ℝ) : OnLine (simpson 1 one_pos) (Ps.withData ((simpson 1 one_pos).p1 (uc a c)) ((simpson 1 one_pos).p1 0) [])
    [.flux (.mass (fun _ => 1) fun _ => c) [2]] (fun _ => M 1) (uc a c) (· = false) := by
  refine ⟨simpson_exact2 1 one_pos, ⟨_, rfl⟩, rfl, rfl, rfl, rfl, cover 1 1 1 one_pos, by simp, fun v hv F hF => ?_⟩
  obtain ⟨G, hG, h⟩ := uc_solved a c v (by simpa [Line.p1] using hv false rfl)
  rw [hG] at hF
  cases hF
  exact h

/-- C108 (a): twice the first problem and three times the second. -/
example (v : ℕ → ℝ) (h0 : v 0 = 0) :
    Residual (Ps.withData (.mix 2 ((simpson 1 one_pos).p1 (uc 1 3)) 3 ((simpson 1 one_pos).p1 (uc 1 6)))
        (.mix 2 ((simpson 1 one_pos).p1 0) 3 ((simpson 1 one_pos).p1 0)) [])
      [.flux (.mass (fun _ => 1) fun _ => 2 * 3 + 3 * 6) [2]] ((simpson 1 one_pos).p1 v) [] (2 * 0 + 3 * 0) :=
  C108_superposition Ps (fun h => by simp [Ps] at h) _ _ _ _ [] (by simp) (fs 3 6) (by simp [fs, Flux.Like]) 2 3 _ 0 0
    (uc_solved 1 3 v h0) (uc_solved 1 6 v h0)

/-- C108 (c), steady: more outside and more inside. -/
example : ∀ j ≤ 2, uc 1 3 j ≤ uc 2 6 j := by
  refine C108_comparison (simpson 1 one_pos) Ps (fun _ => M 1) (· = false) (uc 1 3) (uc 2 6) 0 0 [] (fs 3 6) (uc_onLine 1 3) (uc_onLine 2 6)
    (by simp) ?_ ?_ (.inr ⟨rfl, fun p => by simp [diffAt, arr, M], false, rfl⟩)
  · intro f hf q _
    simp only [fs, List.mem_singleton] at hf
    subst hf
    cases q <;> norm_num [inward, Line.p1, uc, simpson]
  · rintro q rfl
    norm_num [Line.p1, uc]

theorem ur_solves (n : ℕ) : LineSolves (simpson 1 one_pos)
    ((P 1 1 1 one_pos).withData ((simpson 1 one_pos).p1 (ur n)) ((simpson 1 one_pos).p1 (ur n)) []) [] (fun _ => False) (fun _ => 0)
    (ur (n + 1)) :=
  ⟨fun _ h => h.elim, fun v hv => by
    obtain ⟨F, hF⟩ := form_ok_notraps (Pr n) [] ((simpson 1 one_pos).p1 v) rfl
    exact ⟨F, hF, (run_onLine n).solves v hv F hF⟩⟩

theorem const_solves (c : ℝ) (v : ℕ → ℝ) : Residual ((P 1 1 1 one_pos).withData ((simpson 1 one_pos).p1 fun _ => c)
    ((simpson 1 one_pos).p1 fun _ => c) []) [] ((simpson 1 one_pos).p1 v) [] 0 := by
  refine ⟨_, rfl, ?_⟩
  simp [Problem.withData, P, simpson, Line.mesh, Mesh.assemble, Mesh.integrate, Form.neg, subdomainForm, Fld.const,
    dot, sourceForm, fluxesForm, M, Line.p1, Fintype.sum_prod_type, Fin.sum_univ_three,
    Fin.sum_univ_two, Mobile.conc]

theorem linear (un : Fld (Fin 2 × Fin 3) Bool 1) :
    LinearLine (simpson 1 one_pos) ((P 1 1 1 one_pos).withData un un []) [] (fun _ => M 1) (fun _ => M 1) fun _ => False where
  mesh := ⟨_, rfl⟩
  weights := (simpson_exact2 1 one_pos).w_nonneg
  cover := cover 1 1 1 one_pos
  solubility := ⟨by simp [Problem.withData, P], by simp [Problem.withData, P], by simp [Problem.withData, P], by simp [Problem.withData, P]⟩
  law := by simp [Problem.withData, P]
  uniform := by simp [Problem.withData, P]
  D_pos := by simp [Problem.withData, P, M]
  S_pos := by simp [Problem.withData, P]
  step := by
    intro h hh
    cases hh
    exact one_pos
  traps := rfl
  decay := by simp [Problem.withData]
  fluxes := by simp
  fixed := .inl (by simp [Problem.withData, P])

/-- C108 (b): starting from twice the run `ur` plus 3. -/
example (W : ℕ → ℕ → ℝ) (h0 : ∀ i, W 0 i = 2 * ur 0 i + 3)
    (hW : ∀ k, LineSolves (simpson 1 one_pos) ((P 1 1 1 one_pos).withData ((simpson 1 one_pos).p1 (W k)) ((simpson 1 one_pos).p1 (W k)) [])
      [] (fun _ => False) (fun _ => 2 * 0 + 3 * 0) (W (k + 1))) (k : ℕ) : ∀ i ≤ 2, W k i = 2 * ur k i + 3 * 1 :=
  C108_run (simpson 1 one_pos) (fun _ => P 1 1 1 one_pos) (fun _ _ => M 1) (fun _ _ => M 1) (fun _ _ => False) (fun _ => []) (by simp)
    (fun _ => []) (by simp) (fun _ _ => 0) (fun _ _ => 0) 2 3 ur (fun _ _ => 1) W (fun _ un => linear un) ur_solves
    (fun _ => ⟨fun _ h => h.elim, fun v _ => const_solves 1 v⟩) hW (fun i _ => by rw [h0]; ring) k

/-- C108 (c), a run: `ur` stays below 3 because it starts below. -/
example (n : ℕ) : ∀ j ≤ 2, ur n j ≤ 3 :=
  C108_comparison_run (simpson 1 one_pos) (fun _ => P 1 1 1 one_pos) (fun _ _ => M 1) (fun _ _ => False) ur (fun _ _ => 3) (fun _ => [])
    (fun _ => []) (fun _ => 1) run_onLine
    (fun n => ⟨simpson_exact2 1 one_pos, ⟨_, rfl⟩, rfl, rfl, rfl, rfl, cover 1 1 1 one_pos, by simp, fun v _ F hF => by
      obtain ⟨G, hG, h⟩ := const_solves 3 v
      cases Except.ok.inj (hG.symm.trans hF)
      exact h⟩) (by simp) (by simp) (by simp) (fun _ => rfl) (fun _ => one_pos) (by intro n p; simp [diffAt, arr, M, simpson])
    (by intro j _; unfold ur; split_ifs <;> norm_num) n

/-- C108 (d): sources 7 and 1 with conditions 20 and -4. -/
example (T T' v : Fld (Fin 2 × Fin 3) Bool 1) (m : Mesh (Fin 2 × Fin 3) Bool 1) :
    m.assemble (heatForm m [M 1] ⟨.mix 2 T 5 T', .mix 2 T 5 T'⟩ (some 1) [(fun _ => 2 * 7 + 5 * 1, [1])]
        [(.convective (fun _ => 3) fun _ => 2 * 20 + 5 * -4, [1])] v)
      = 2 * m.assemble (heatForm m [M 1] ⟨T, T⟩ (some 1) [(fun _ => 7, [1])] [(.convective (fun _ => 3) fun _ => 20, [1])] v)
        + 5 * m.assemble (heatForm m [M 1] ⟨T', T'⟩ (some 1) [(fun _ => 1, [1])] [(.convective (fun _ => 3) fun _ => -4, [1])] v) :=
  C108_heat m [M 1] (by simp [M]) T T' T T' (some 1) [((fun _ => 7, fun _ => 1), [1])]
    [((.convective (fun _ => 3) fun _ => 20, .convective (fun _ => 3) fun _ => -4), [1])] (by simp [Flux.HeatLike]) 2 5 v

/-- C108 (e): mass transfer at both ends, a uniform source and a source in the left cell. -/
noncomputable def ru (i : ℕ) : ℝ := if i = 1 then 3 / 2 else 1
noncomputable def rw' (i : ℕ) : ℝ := if i = 0 then 5 / 8 else if i = 1 then 3 / 4 else 3 / 8

example : volumeIn Ps.mesh [1] (fun p => 1 * ((simpson 1 one_pos).p1 rw').val p) =
    volumeIn Ps.mesh [1] fun p => (if p.1 = 0 then 1 else 0) * ((simpson 1 one_pos).p1 ru).val p := by
  refine C108_reciprocity Ps rfl rfl rfl ((simpson 1 one_pos).p1 ru) ((simpson 1 one_pos).p1 rw') (fun _ => 1)
    (fun p => if p.1 = 0 then 1 else 0) [1] [1] (by simp) (by simp) [(fun _ => 1, [1, 2])] ⟨_, rfl, ?_⟩ ⟨_, rfl, ?_⟩
  · simp [Problem.withData, Ps, P, simpson, Line.mesh, Mesh.assemble, Mesh.integrate, Form.neg, subdomainForm, Fld.const,
      dot, sourceForm, fluxesForm, M, Line.p1, ru, rw', Fintype.sum_prod_type, Fin.sum_univ_three, Src.at,
      Fin.sum_univ_two, Mobile.conc, MobBC.form, Flux.form, Mobile.mobileConcS]
    norm_num
  · simp [Problem.withData, Ps, P, simpson, Line.mesh, Mesh.assemble, Mesh.integrate, Form.neg, subdomainForm, Fld.const,
      dot, sourceForm, fluxesForm, M, Line.p1, ru, rw', Fintype.sum_prod_type, Fin.sum_univ_three, Src.at,
      Fin.sum_univ_two, Mobile.conc, MobBC.form, Flux.form, Mobile.mobileConcS]
    norm_num

theorem recomb_residual (c g : ℝ) : Residual (Ps.withData (Fld.const c) (Fld.const 0) [])
    [.flux (.value fun _ => g) [2], .flux (.recomb (fun _ => 1) (fun _ => 0) 2) [2]] (Fld.const 1) [] (c ^ 2 - g) := by
  refine ⟨_, rfl, ?_⟩
  simp [Problem.withData, Ps, P, simpson, Line.mesh, Mesh.assemble, Mesh.integrate, Form.neg, subdomainForm, Fld.const,
    dot, sourceForm, fluxesForm, M, Fintype.sum_prod_type, Fin.sum_univ_three,
    Fin.sum_univ_two, Mobile.conc, MobBC.form, Flux.form, Mobile.mobileConcS]
  ring

end SuperCase

/-- **C108, exception.** With recombination of order two, twice the incident flux does not give twice the concentration. -/
theorem C108_recombination : ∃ (P : Problem (Fin 2 × Fin 3) Bool 1) (u un v : Fld (Fin 2 × Fin 3) Bool 1) (bcs : ℝ → List (MobBC Bool)) (r : ℝ),
    (∀ g, bcs g = [.flux (.value fun _ => g) [2], .flux (.recomb (fun _ => 1) (fun _ => 0) 2) [2]]) ∧
    Residual (P.withData u un []) (bcs 1) v [] 0 ∧ r ≠ 0 ∧
    Residual (P.withData (.mix 2 u 0 u) (.mix 2 un 0 un) []) (bcs (2 * 1)) v [] r := by
  refine ⟨BoundCase.Ps, Fld.const 1, Fld.const 0, Fld.const 1, _, 2, fun _ => rfl, ?_, two_ne_zero, ?_⟩
  · have := SuperCase.recomb_residual 1 1
    norm_num at this
    exact this
  · have := SuperCase.recomb_residual 2 2
    norm_num at this
    have e : ∀ x y : ℝ, x * 2 = y → (Fld.mix 2 (Fld.const x) 0 (Fld.const x) : Fld (Fin 2 × Fin 3) Bool 1) = Fld.const y := by
      intro x y h
      ext
      · show 2 * x + 0 * x = y
        linarith
      · show (2 : ℝ) * 0 + 0 * 0 = 0
        norm_num
      · show 2 * x + 0 * x = y
        linarith
    rw [e 1 2 (by norm_num), e 0 0 (by norm_num)]
    simpa using this

end Festim.Props
