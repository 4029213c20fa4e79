import Verif.Proofs.Forms
import Verif.Spec.Theta

/-!
# C51-C54: conservation of the chemical potential
-/

open scoped BigOperators

set_option linter.unusedSectionVars false
set_option linter.unusedSimpArgs false

namespace Festim.Weak

section
variable {Ω Γ : Type} [Fintype Ω] [Fintype Γ] {d : ℕ}

theorem volumeIn_eq_sum (m : Mesh Ω Γ d) (ids : List ℕ) (hnd : ids.Nodup) (g : Ω → ℝ) :
    volumeIn m ids g = (ids.map fun i => volumeOf m i g).sum := by
  induction ids with
  | nil => simp [volumeIn]
  | cons i ids ih =>
    rw [List.map_cons, List.sum_cons, ← ih (List.nodup_cons.1 hnd).2, volumeIn, volumeOf, volumeIn,
      Finset.sum_filter, Finset.sum_filter, Finset.sum_filter, ← Finset.sum_add_distrib]
    refine Finset.sum_congr rfl fun p _ => ?_
    by_cases hp : m.vm p = i
    · simp [hp, (List.nodup_cons.1 hnd).1]
    · simp [hp]

theorem nodup_ids {mats : List Mat} (h : (mats.flatMap (·.ids)).Nodup) : ∀ mt ∈ mats, mt.ids.Nodup := by
  induction mats with
  | nil => simp
  | cons a l ih =>
    rw [List.flatMap_cons, List.nodup_append] at h
    intro mt hmt
    rcases List.mem_cons.1 hmt with rfl | hmt
    · exact h.1
    · exact ih h.2.1 mt hmt

theorem sum_materialsIn (m : Mesh Ω Γ d) {mats : List Mat} {mat : Ω → Mat} (h : Covers m mats mat)
    (g : Mat → Ω → ℝ) :
    (mats.map fun mt => volumeIn m mt.ids (g mt)).sum = volume m fun p => g (mat p) p := by
  rw [← sum_materials m h g]
  congr 1
  exact List.map_congr_left fun mt hmt => volumeIn_eq_sum m _ (nodup_ids h.nodup mt hmt) _

/-- The Galerkin projection of a function of the space is itself. -/
theorem projection_exact (m : Mesh Ω Γ d) (hw : ∀ p, 0 < m.w p) (V : Set (Ω → ℝ)) (hV : Linear V)
    (u t : Ω → ℝ) (hu : u ∈ V) (ht : t ∈ V)
    (h : ∀ v ∈ V, volume m (fun p => u p * v p) = volume m fun p => t p * v p) (p : Ω) : u p = t p := by
  have h0 := h _ (hV u hu t ht)
  have h1 : ∑ p, m.w p * (u p - t p) ^ 2 = 0 := by
    have : ∑ p, m.w p * (u p - t p) ^ 2
        = volume m (fun p => u p * (u p - t p)) - volume m fun p => t p * (u p - t p) := by
      rw [volume, volume, ← Finset.sum_sub_distrib]
      exact Finset.sum_congr rfl fun p _ => by ring
    rw [this, h0, sub_self]
  have h2 := (Finset.sum_eq_zero_iff_of_nonneg
    (fun p _ => mul_nonneg (hw p).le (sq_nonneg _))).1 h1 p (Finset.mem_univ p)
  rcases mul_eq_zero.1 h2 with h3 | h3
  · exact absurd h3 (hw p).ne'
  · linarith [pow_eq_zero_iff (n := 2) (by norm_num) |>.1 h3]

/-- The chemical potential variable of a concentration. -/
theorem thetaInit_assemble (m : Mesh Ω Γ d) {mats : List Mat} {mat : Ω → Mat} (h : Covers m mats mat)
    (T comp u v : Ω → ℝ) :
    m.assemble (thetaInitForm (Γ := Γ) mats T comp u v)
      = volume m (fun p => (match (mat p).law with
          | .sievert => comp p / arr (mat p).S_0 (mat p).E_S (T p)
          | .henry => (comp p / arr (mat p).S_0 (mat p).E_S (T p)) ^ (0.5 : ℝ)) * v p)
        - volume m fun p => u p * v p := by
  rw [thetaInitForm, assemble_flatMap]
  have : (mats.map fun mt => m.assemble
      ([Term.dxOn mt.ids fun p => -u p * v p] ++
        match mt.law with
        | .sievert => [Term.dxOn mt.ids fun p =>
            comp p / (mt.S_0 * Real.exp (-mt.E_S / kB / T p)) * v p]
        | .henry => [Term.dxOn mt.ids fun p =>
            (comp p / (mt.S_0 * Real.exp (-mt.E_S / kB / T p))) ^ (0.5 : ℝ) * v p]))
      = mats.map fun mt => volumeIn m mt.ids fun p => ((match mt.law with
          | .sievert => comp p / arr mt.S_0 mt.E_S (T p)
          | .henry => (comp p / arr mt.S_0 mt.E_S (T p)) ^ (0.5 : ℝ)) - u p) * v p := by
    refine List.map_congr_left fun mt _ => ?_
    cases hl : mt.law <;>
    · simp only [List.cons_append, List.nil_append, assemble_cons, assemble_nil, integrate_dxOn,
        volumeIn, arr, add_zero, ← Finset.sum_add_distrib]
      exact Finset.sum_congr rfl fun p _ => by ring
  refine (congrArg List.sum this).trans ?_
  rw [sum_materialsIn m h fun mt p => ((match mt.law with
          | .sievert => comp p / arr mt.S_0 mt.E_S (T p)
          | .henry => (comp p / arr mt.S_0 mt.E_S (T p)) ^ (0.5 : ℝ)) - u p) * v p, ← volume_sub]
  congr 1
  funext p
  ring

end

theorem half_pow_sq (x : ℝ) (hx : 0 ≤ x) : (x ^ (0.5 : ℝ)) ^ 2 = x := by
  rw [← Real.rpow_natCast, ← Real.rpow_mul hx]
  norm_num

theorem arr_pos {A E T : ℝ} (h : 0 < A) : 0 < arr A E T := mul_pos h (Real.exp_pos _)

end Festim.Weak

namespace Festim.Props

open Festim.Weak

section
variable {Ω Γ : Type} [Fintype Ω] [Fintype Γ] {d : ℕ}

/-! ## C51 -/

/-- **C51, initialisation in general.** For every finite element space, what `initialise` stores is the
projection of the potential of the given concentration: the function of the space which has the same
integral against every function of the space. -/
theorem C51_projection (m : Mesh Ω Γ d) (mats : List Mat) (mat : Ω → Mat) (hc : Covers m mats mat)
    (V : Set (Ω → ℝ)) (T comp u theta : Ω → ℝ)
    (hS : ∀ p, 0 < (mat p).S_0)
    (hnn : ∀ p, 0 ≤ theta p) (htheta : ∀ p, physConc true (mat p) (T p) (theta p) = comp p)
    (hsolve : Solves m V (fun u v => thetaInitForm (Γ := Γ) mats T comp u v) u) :
    ∀ v ∈ V, volume m (fun p => u p * v p) = volume m fun p => theta p * v p := by
  intro v hv
  have h := hsolve.zero v hv
  rw [thetaInit_assemble m hc] at h
  rw [← sub_eq_zero.1 h]
  congr 1
  funext p
  congr 1
  have hp := htheta p
  have hs : arr (mat p).S_0 (mat p).E_S (T p) ≠ 0 := (arr_pos (hS p)).ne'
  unfold physConc at hp
  cases hl : (mat p).law with
  | sievert =>
    rw [hl] at hp
    simp only at hp ⊢
    rw [← hp]
    field_simp
  | henry =>
    rw [hl] at hp
    simp only at hp ⊢
    rw [← hp]
    have : arr (mat p).S_0 (mat p).E_S (T p) * theta p ^ 2 / arr (mat p).S_0 (mat p).E_S (T p)
        = theta p ^ 2 := by field_simp
    rw [this, ← Real.rpow_natCast, ← Real.rpow_mul (hnn p)]
    norm_num

/-- **C51, round trip.** If the potential of the given (non-negative) concentration belongs to the finite
element space, the initial concentration of the simulation is exactly the one given, at every point,
for both solubility laws. -/
theorem C51_round_trip (m : Mesh Ω Γ d) (hw : ∀ p, 0 < m.w p) (mats : List Mat) (mat : Ω → Mat)
    (hc : Covers m mats mat) (V : Set (Ω → ℝ)) (hV : Linear V) (T comp u : Ω → ℝ)
    (hS : ∀ p, 0 < (mat p).S_0)
    (hexact : ∃ theta ∈ V, (∀ p, 0 ≤ theta p) ∧
      ∀ p, physConc true (mat p) (T p) (theta p) = comp p)
    (hsolve : Solves m V (fun u v => thetaInitForm (Γ := Γ) mats T comp u v) u) (p : Ω) :
    physConc true (mat p) (T p) (u p) = comp p := by
  obtain ⟨theta, hmem, hnn, hth⟩ := hexact
  have := projection_exact m hw V hV u theta hsolve.mem hmem
    (C51_projection m mats mat hc V T comp u theta hS hnn hth hsolve) p
  rw [this, hth p]

/-- Every non-negative concentration is that of one non-negative potential. -/
theorem C51_exists_unique (mat : Mat) (T c : ℝ) (hS : 0 < mat.S_0) (hc : 0 ≤ c) :
    ∃! theta : ℝ, 0 ≤ theta ∧ physConc true mat T theta = c := by
  have hs : 0 < arr mat.S_0 mat.E_S T := arr_pos hS
  unfold physConc
  cases mat.law with
  | sievert =>
    refine ⟨c / arr mat.S_0 mat.E_S T, ⟨by positivity, by field_simp⟩, ?_⟩
    rintro y ⟨_, hy⟩
    simp only at hy
    rw [← hy]
    field_simp
  | henry =>
    refine ⟨(c / arr mat.S_0 mat.E_S T) ^ (0.5 : ℝ), ⟨by positivity, ?_⟩, ?_⟩
    · simp only
      rw [half_pow_sq _ (by positivity)]
      field_simp
    · rintro y ⟨hy0, hy⟩
      simp only at hy
      rw [← hy]
      have : arr mat.S_0 mat.E_S T * y ^ 2 / arr mat.S_0 mat.E_S T = y ^ 2 := by field_simp
      rw [this, ← Real.rpow_natCast, ← Real.rpow_mul hy0]
      norm_num

/-! ## C52 -/

/-- **C52.** Wherever two points of two materials have the same value of the unknown, in particular on
both sides of an interface, the concentrations of the simulation are in equilibrium with the same
pressure, whatever the solubility laws and the temperatures. -/
theorem C52_same_pressure (mv : Mobile Ω Γ d) (hth : mv.theta = true) (T : Temp Ω Γ d) (A B : Mat)
    (hA : 0 < A.S_0) (hB : 0 < B.S_0) (p q : Ω) (hpq : mv.sol.val p = mv.sol.val q) :
    partialPressure A (T.T.val p) ((mv.conc A T).1.val p)
      = partialPressure B (T.T.val q) ((mv.conc B T).1.val q) := by
  have key : ∀ (M : Mat) (r : Ω), 0 < M.S_0 →
      partialPressure M (T.T.val r) ((mv.conc M T).1.val r) = mv.sol.val r ^ 2 := by
    intro M r hM
    have hs : arr M.S_0 M.E_S (T.T.val r) ≠ 0 := (arr_pos hM).ne'
    rw [conc_val, hth]
    unfold partialPressure physConc
    cases M.law <;> simp only <;> field_simp
  rw [key A p hA, key B q hB, hpq]

/-- **C52, converse.** Equal pressures mean equal (non-negative) unknowns: nothing else is imposed by the
continuity. -/
theorem C52_converse (mv : Mobile Ω Γ d) (hth : mv.theta = true) (T : Temp Ω Γ d) (A B : Mat)
    (hA : 0 < A.S_0) (hB : 0 < B.S_0) (p q : Ω) (hp : 0 ≤ mv.sol.val p) (hq : 0 ≤ mv.sol.val q)
    (h : partialPressure A (T.T.val p) ((mv.conc A T).1.val p)
      = partialPressure B (T.T.val q) ((mv.conc B T).1.val q)) :
    mv.sol.val p = mv.sol.val q := by
  have key : ∀ (M : Mat) (r : Ω), 0 < M.S_0 →
      partialPressure M (T.T.val r) ((mv.conc M T).1.val r) = mv.sol.val r ^ 2 := by
    intro M r hM
    have hs : arr M.S_0 M.E_S (T.T.val r) ≠ 0 := (arr_pos hM).ne'
    rw [conc_val, hth]
    unfold partialPressure physConc
    cases M.law <;> simp only <;> field_simp
  rw [key A p hA, key B q hB] at h
  exact (sq_eq_sq₀ hp hq).1 h

/-- **C52, jump of concentration.** The ratio of the concentrations of two Sievert (or two Henry)
materials is that of their solubilities; between a Sievert and a Henry material the relation is
quadratic. -/
theorem C52_jump (mv : Mobile Ω Γ d) (hth : mv.theta = true) (T : Temp Ω Γ d) (A B : Mat)
    (p q : Ω) (hpq : mv.sol.val p = mv.sol.val q) :
    let SA := arr A.S_0 A.E_S (T.T.val p)
    let SB := arr B.S_0 B.E_S (T.T.val q)
    let cA := (mv.conc A T).1.val p
    let cB := (mv.conc B T).1.val q
    (A.law = B.law → cA * SB = cB * SA) ∧
    (A.law = .sievert → B.law = .henry → cA ^ 2 * SB = cB * SA ^ 2) := by
  simp only [conc_val, hth]
  unfold physConc
  constructor
  · intro h
    rw [h, hpq]
    cases B.law <;> simp only <;> ring
  · intro h1 h2
    rw [h1, h2, hpq]
    simp only
    ring

/-! ## C53 -/

theorem findMat_eq {mats : List Mat} {mt : Mat} {i : ℕ} (hm : mt ∈ mats) (hi : i ∈ mt.ids)
    (hnd : (mats.flatMap (·.ids)).Nodup) : findMat mats i = .ok mt := by
  induction mats with
  | nil => simp at hm
  | cons a l ih =>
    rw [List.flatMap_cons, List.nodup_append] at hnd
    unfold findMat
    by_cases ha : i ∈ a.ids
    · rw [if_pos ha]
      rcases List.mem_cons.1 hm with h | h
      · rw [h]
      · exact absurd rfl (hnd.2.2 _ ha _ (List.mem_flatMap.2 ⟨mt, h, hi⟩))
    · rw [if_neg ha]
      rcases List.mem_cons.1 hm with h | h
      · exact absurd (h ▸ hi) ha
      · exact ih h hnd.2.1

/-- **C53, properties of the materials.** The field of a property in a cell is that of the material of the
cell at the local temperature (`D`, `S`, thermal properties). -/
theorem C53_property_fields (m : Mesh Ω Γ d) (mats : List Mat) (mat : Ω → Mat)
    (hc : Covers m mats mat) (T : Ω → ℝ) (p : Ω) :
    arrheniusCoeff mats (·.D_0) (·.E_D) (m.vm p) (T p) = .ok (arr (mat p).D_0 (mat p).E_D (T p)) ∧
    arrheniusCoeff mats (·.S_0) (·.E_S) (m.vm p) (T p) = .ok (arr (mat p).S_0 (mat p).E_S (T p)) ∧
    ∀ key : Mat → ℝ → ℝ, thermalProp mats key (m.vm p) (T p) = .ok (key (mat p) (T p)) := by
  have := findMat_eq (hc.mem p) (hc.has p) hc.nodup
  refine ⟨?_, ?_, fun key => ?_⟩
  · simp only [arrheniusCoeff, this, arr]
  · simp only [arrheniusCoeff, this, arr]
  · simp only [thermalProp, this]

theorem findMat_unknown {mats : List Mat} {i : ℕ} (h : ∀ mt ∈ mats, i ∉ mt.ids) :
    ∃ msg, findMat mats i = .error (.valueError msg) := by
  induction mats with
  | nil => exact ⟨_, rfl⟩
  | cons a l ih =>
    obtain ⟨msg, hmsg⟩ := ih fun mt hm => h mt (List.mem_cons_of_mem _ hm)
    exact ⟨msg, by unfold findMat; rw [if_neg (h a List.mem_cons_self), hmsg]⟩

/-- **C53, cells without a material.** In a cell whose marker is the id of no material, the evaluation of a
property or of an imposed concentration raises `ValueError`. -/
theorem C53_unknown_subdomain (mats : List Mat) (i : ℕ) (h : ∀ mt ∈ mats, i ∉ mt.ids)
    (pre E : Mat → ℝ) (key : Mat → ℝ → ℝ) (T c : ℝ) :
    (∃ msg, arrheniusCoeff mats pre E i T = .error (.valueError msg)) ∧
    (∃ msg, thermalProp mats key i T = .error (.valueError msg)) ∧
    (∃ msg, bcTheta mats i T c = .error (.valueError msg)) := by
  obtain ⟨msg, hmsg⟩ := findMat_unknown h
  exact ⟨⟨msg, by simp only [arrheniusCoeff, hmsg]⟩, ⟨msg, by simp only [thermalProp, hmsg]⟩,
    ⟨msg, by simp only [bcTheta, hmsg]⟩⟩

/-- **C53.** With the solubility field of the code, the concentration seen by the diffusion and trapping
terms (computed material by material) and the one seen by the sources and the boundary fluxes
(computed with the markers of the solubility laws) are the same, in the volume and on the boundary. -/
theorem C53_same_concentration (P : Problem Ω Γ d) (mat : Ω → Mat) (matS : Γ → Mat)
    (hc : Covers P.mesh P.mats mat)
    (hmS : ∀ q, matS q ∈ P.mats) (hiS : ∀ q, P.mesh.vmS q ∈ (matS q).ids)
    (hS : ∀ p, arrheniusCoeff P.mats (·.S_0) (·.E_S) (P.mesh.vm p) (P.T.T.val p)
      = .ok (P.mv.S.val p))
    (hStr : ∀ q, arrheniusCoeff P.mats (·.S_0) (·.E_S) (P.mesh.vmS q) (P.T.T.tr q)
      = .ok (P.mv.S.tr q)) :
    (∀ p, P.mv.mobileConc P.mesh P.mats p = (P.mv.conc (mat p) P.T).1.val p) ∧
    (∀ q, P.mv.mobileConcS P.mesh P.mats q = (P.mv.conc (matS q) P.T).1.tr q) := by
  have hsol : Solubility P mat matS := by
    refine ⟨fun _ p => ?_, fun _ => hmS, fun _ => hiS, fun _ q => ?_⟩
    · have h := hS p
      rw [(C53_property_fields P.mesh P.mats mat hc P.T.T.val p).2.1] at h
      exact (Except.ok.inj h).symm
    · have h := hStr q
      rw [arrheniusCoeff, findMat_eq (hmS q) (hiS q) hc.nodup] at h
      exact (Except.ok.inj h).symm
  refine ⟨fun p => ?_, fun q => ?_⟩
  · rw [mobileConc_eq P hc hsol, conc_val]
  · rw [mobileConcS_eq P hc hsol]
    unfold Mobile.conc physConc arrhenius arr
    cases P.mv.theta <;> cases (matS q).law
    · rfl
    · rfl
    · exact mul_comm _ _
    · exact mul_comm _ _

theorem solubility_assemble (m : Mesh Ω Γ d) {mats : List Mat} {mat : Ω → Mat}
    (h : Covers m mats mat) (T S v : Ω → ℝ) :
    m.assemble (solubilityForm (Γ := Γ) mats T S v)
      = volume m (fun p => arr (mat p).S_0 (mat p).E_S (T p) * v p) - volume m fun p => S p * v p := by
  rw [solubilityForm, assemble_flatMap, ← volume_sub]
  rw [← sum_materialsIn m h fun mt p => arr mt.S_0 mt.E_S (T p) * v p - S p * v p]
  congr 1
  refine List.map_congr_left fun mt _ => ?_
  simp only [assemble_cons, assemble_nil, integrate_dxOn, volumeIn, arr, add_zero,
    ← Finset.sum_add_distrib]
  exact Finset.sum_congr rfl fun p _ => by ring

/-- **C53, projected solubility** (steady temperature): it has the right integral against every function
of the space, and is the solubility of the materials whenever the space contains it. -/
theorem C53_solubility_as_function (m : Mesh Ω Γ d) (hw : ∀ p, 0 < m.w p) (mats : List Mat)
    (mat : Ω → Mat) (hc : Covers m mats mat) (V : Set (Ω → ℝ)) (hV : Linear V) (T S : Ω → ℝ)
    (hsolve : Solves m V (fun S v => solubilityForm (Γ := Γ) mats T S v) S) :
    (∀ v ∈ V, volume m (fun p => S p * v p)
      = volume m fun p => arr (mat p).S_0 (mat p).E_S (T p) * v p) ∧
    ((fun p => arr (mat p).S_0 (mat p).E_S (T p)) ∈ V →
      ∀ p, S p = arr (mat p).S_0 (mat p).E_S (T p)) := by
  have key : ∀ v ∈ V, volume m (fun p => S p * v p)
      = volume m fun p => arr (mat p).S_0 (mat p).E_S (T p) * v p := by
    intro v hv
    have h := hsolve.zero v hv
    rw [solubility_assemble m hc] at h
    linarith
  exact ⟨key, fun hex p => projection_exact m hw V hV S _ hsolve.mem hex key p⟩

theorem marker_assemble (m : Mesh Ω Γ d) (mats : List Mat) (law : Law) (u v : Ω → ℝ) :
    m.assemble (markerForm (Γ := Γ) mats law u v)
      = volume m (fun p => lawMarker mats law (m.vm p) * v p) - volume m fun p => u p * v p := by
  have h1 : ∀ mt : Mat, m.assemble (mt.ids.flatMap fun i =>
        if mt.law = law then [Term.dxOn (Γ := Γ) [i] fun p => 1 * v p] else [])
      = volume m fun p => (if mt.law = law then
          (mt.ids.map fun j => if j = m.vm p then (1 : ℝ) else 0).sum else 0) * v p := by
    intro mt
    by_cases hl : mt.law = law
    · simp only [hl, if_true]
      induction mt.ids with
      | nil => simp [volume]
      | cons i l ih =>
        rw [List.flatMap_cons, assemble_append, ih]
        simp only [assemble_cons, assemble_nil, Mesh.integrate, List.mem_singleton, List.map_cons,
          List.sum_cons, volume, add_zero, ← Finset.sum_add_distrib]
        refine Finset.sum_congr rfl fun p _ => ?_
        by_cases hp : m.vm p = i
        · simp [hp]; ring
        · simp [hp, Ne.symm hp]
    · simp only [hl, if_false]
      induction mt.ids with
      | nil => simp [volume]
      | cons i l ih => simpa using ih
  rw [markerForm, assemble_append, assemble_flatMap]
  simp only [assemble_cons, assemble_nil, integrate_dx, add_zero, h1]
  have h2 : (mats.map fun mt => volume m fun p => (if mt.law = law then
          (mt.ids.map fun j => if j = m.vm p then (1 : ℝ) else 0).sum else 0) * v p).sum
      = volume m fun p => lawMarker mats law (m.vm p) * v p := by
    unfold lawMarker
    induction mats with
    | nil => simp [volume]
    | cons a l ih =>
      simp only [List.map_cons, List.sum_cons, ih, ← volume_add]
      congr 1
      funext p
      ring
  rw [h2, volume, volume, volume, ← Finset.sum_add_distrib, ← Finset.sum_sub_distrib]
  exact Finset.sum_congr rfl fun p _ => by ring

/-- **C53, markers of the laws.** In a space of functions constant in every cell, the marker computed for
a law is 1 in the materials which follow it and 0 elsewhere. -/
theorem C53_law_markers (m : Mesh Ω Γ d) (hw : ∀ p, 0 < m.w p) (mats : List Mat) (mat : Ω → Mat)
    (hc : Covers m mats mat) {κ : Type} (cell : Ω → κ)
    (hcell : ∀ p q, cell p = cell q → m.vm p = m.vm q) (law : Law) (u : Ω → ℝ)
    (hsolve : Solves m {f | ∀ p q, cell p = cell q → f p = f q}
      (fun u v => markerForm (Γ := Γ) mats law u v) u) (p : Ω) :
    u p = if (mat p).law = law then 1 else 0 := by
  rw [← lawMarker_eq (hc.mem p) (hc.has p) hc.nodup law]
  refine projection_exact m hw {f | ∀ p q, cell p = cell q → f p = f q} ?_ u
    (fun p => lawMarker mats law (m.vm p)) hsolve.mem ?_ ?_ p
  · intro f hf g hg p q hpq
    simp only [hf p q hpq, hg p q hpq]
  · intro p q hpq
    simp only [hcell p q hpq]
  · intro v hv
    have h := hsolve.zero v hv
    rw [marker_assemble] at h
    linarith

theorem post_assemble (P : Problem Ω Γ d) {mat : Ω → Mat} (hc : Covers P.mesh P.mats mat)
    (hth : P.mv.theta = true)
    (hS : ∀ p, P.mv.S.val p = arr (mat p).S_0 (mat p).E_S (P.T.T.val p)) (c v : Ω → ℝ) :
    P.mesh.assemble (postForm P.mats P.mv c v)
      = volume P.mesh (fun p => P.c mat p * v p) - volume P.mesh fun p => c p * v p := by
  rw [postForm, assemble_append, assemble_flatMap]
  have h1 : (P.mats.map fun mt => P.mesh.assemble (match mt.law with
        | .sievert => [Term.dxOn (Γ := Γ) mt.ids fun p => P.mv.sol.val p * P.mv.S.val p * v p]
        | .henry => [Term.dxOn mt.ids fun p => P.mv.sol.val p ^ 2 * P.mv.S.val p * v p]))
      = P.mats.map fun mt => volumeIn P.mesh mt.ids fun p => (match mt.law with
        | .sievert => P.mv.sol.val p
        | .henry => P.mv.sol.val p ^ 2) * P.mv.S.val p * v p := by
    refine List.map_congr_left fun mt _ => ?_
    cases mt.law <;> simp [integrate_dxOn]
  refine (congrArg (fun l => P.mesh.assemble [Term.dx fun p => -c p * v p] + List.sum l) h1).trans ?_
  rw [sum_materialsIn P.mesh hc fun mt p => (match mt.law with
        | .sievert => P.mv.sol.val p
        | .henry => P.mv.sol.val p ^ 2) * P.mv.S.val p * v p]
  simp only [assemble_cons, assemble_nil, integrate_dx, add_zero]
  rw [volume, volume, volume, volume, ← Finset.sum_add_distrib, ← Finset.sum_sub_distrib]
  refine Finset.sum_congr rfl fun p _ => ?_
  rw [hS p]
  unfold Problem.c physConc
  rw [hth]
  cases (mat p).law <;> simp only <;> ring

/-- **C53, post-processing.** The concentration handed to the exports has the same integral as the
concentration of the equations against every function of its space; so if the space contains the
indicator of a volume (discontinuous elements), the exported inventory of every volume is that of the
equations; and if it contains the concentration itself, they agree at every point. -/
theorem C53_post_processed (P : Problem Ω Γ d) (mat : Ω → Mat) (hc : Covers P.mesh P.mats mat)
    (hth : P.mv.theta = true) (hw : ∀ p, 0 < P.mesh.w p)
    (hS : ∀ p, arrheniusCoeff P.mats (·.S_0) (·.E_S) (P.mesh.vm p) (P.T.T.val p)
      = .ok (P.mv.S.val p))
    (V : Set (Ω → ℝ)) (hV : Linear V) (c : Ω → ℝ)
    (hsolve : Solves P.mesh V (fun c v => postForm P.mats P.mv c v) c) :
    (∀ i, (fun p => if P.mesh.vm p = i then 1 else 0) ∈ V →
      volumeOf P.mesh i c = volumeOf P.mesh i fun p => (P.mv.conc (mat p) P.T).1.val p) ∧
    ((fun p => (P.mv.conc (mat p) P.T).1.val p) ∈ V →
      ∀ p, c p = (P.mv.conc (mat p) P.T).1.val p) := by
  have hS' : ∀ p, P.mv.S.val p = arr (mat p).S_0 (mat p).E_S (P.T.T.val p) := by
    intro p
    have h := hS p
    rw [(C53_property_fields P.mesh P.mats mat hc P.T.T.val p).2.1] at h
    exact (Except.ok.inj h).symm
  have key : ∀ v ∈ V, volume P.mesh (fun p => c p * v p)
      = volume P.mesh fun p => (P.mv.conc (mat p) P.T).1.val p * v p := by
    intro v hv
    have h := hsolve.zero v hv
    rw [post_assemble P hc hth hS'] at h
    have : (volume P.mesh fun p => (P.mv.conc (mat p) P.T).1.val p * v p)
        = volume P.mesh fun p => P.c mat p * v p := by
      simp only [conc_val, Problem.c]
    linarith
  refine ⟨fun i hi => ?_, fun hex p => projection_exact P.mesh hw V hV c _ hsolve.mem hex key p⟩
  have h := key _ hi
  simpa [volume, volumeOf, Finset.sum_filter] using h

/-! ## C54 -/

/-- **C54.** Any condition imposing a concentration (value, Sievert, Henry or implantation) on the mobile
species imposes, in a simulation with conservation of the chemical potential, the unknown whose
concentration is the given one: exactly in Sievert materials, up to `3e-16 * K_H` in Henry materials
(with a non-negative value). -/
theorem C54_imposed_concentration (b : Dirichlet Γ) (mats : List Mat) (vmS : Γ → ℕ) (T : Γ → ℝ)
    (q : Γ) (mt : Mat) (hm : mt ∈ mats) (hi : vmS q ∈ mt.ids) (hnd : (mats.flatMap (·.ids)).Nodup)
    (hS : 0 < mt.S_0) (c theta : ℝ) (hc : b.at (T q) q = .ok c)
    (himp : b.imposed mats true true vmS T q = .ok theta) :
    (mt.law = .sievert → physConc true mt (T q) theta = c) ∧
    (mt.law = .henry → 0 ≤ c →
      physConc true mt (T q) theta = c + 3e-16 * arr mt.S_0 mt.E_S (T q)) := by
  have hs : 0 < arr mt.S_0 mt.E_S (T q) := arr_pos hS
  have hth : bcTheta mats (vmS q) (T q) c = .ok theta := by
    unfold Dirichlet.imposed at himp
    cases b <;> simp_all
  unfold bcTheta at hth
  rw [findMat_eq hm hi hnd] at hth
  simp only at hth
  constructor
  · intro hl
    rw [hl] at hth
    have := (Except.ok.inj hth).symm
    unfold physConc
    rw [hl, this]
    simp only [arr] at hs ⊢
    field_simp
  · intro hl hc0
    rw [hl] at hth
    have := (Except.ok.inj hth).symm
    unfold physConc
    rw [hl, this]
    simp only [arr, dolfinEps] at hs ⊢
    rw [half_pow_sq _ (by positivity)]
    field_simp

/-- **C54, gas.** A surface of a material under `SievertsBC` (`HenrysBC` for a Henry material) with the
solubility of the material is in equilibrium with the given pressure. -/
theorem C54_gas_equilibrium (mats : List Mat) (vmS : Γ → ℕ) (T : Γ → ℝ) (pressure : Γ → ℝ)
    (q : Γ) (mt : Mat) (hm : mt ∈ mats) (hi : vmS q ∈ mt.ids) (hnd : (mats.flatMap (·.ids)).Nodup)
    (hS : 0 < mt.S_0) (hp : 0 ≤ pressure q) :
    (mt.law = .sievert → ∃ theta,
      (Dirichlet.sieverts mt.S_0 mt.E_S pressure).imposed mats true true vmS T q = .ok theta ∧
      partialPressure mt (T q) (physConc true mt (T q) theta) = pressure q) ∧
    (mt.law = .henry → ∃ theta,
      (Dirichlet.henrys mt.S_0 mt.E_S pressure).imposed mats true true vmS T q = .ok theta ∧
      partialPressure mt (T q) (physConc true mt (T q) theta) = pressure q + 3e-16) := by
  have hs : 0 < arr mt.S_0 mt.E_S (T q) := arr_pos hS
  constructor
  · intro hl
    refine ⟨_, by simp [Dirichlet.imposed, Dirichlet.at, bcTheta, findMat_eq hm hi hnd, hl]; rfl, ?_⟩
    unfold partialPressure physConc
    rw [hl]
    simp only [arr] at hs ⊢
    have : (mt.S_0 * Real.exp (-mt.E_S / kB / T q) *
        (mt.S_0 * Real.exp (-mt.E_S / kB / T q) * pressure q ^ (0.5 : ℝ) /
          (mt.S_0 * Real.exp (-mt.E_S / kB / T q))) / (mt.S_0 * Real.exp (-mt.E_S / kB / T q)))
        = pressure q ^ (0.5 : ℝ) := by field_simp
    rw [this, half_pow_sq _ hp]
  · intro hl
    refine ⟨_, by simp [Dirichlet.imposed, Dirichlet.at, bcTheta, findMat_eq hm hi hnd, hl]; rfl, ?_⟩
    unfold partialPressure physConc
    rw [hl]
    simp only [arr, dolfinEps] at hs ⊢
    have h1 : mt.S_0 * Real.exp (-mt.E_S / kB / T q) * pressure q
        / (mt.S_0 * Real.exp (-mt.E_S / kB / T q)) = pressure q := by field_simp
    rw [h1, half_pow_sq _ (by positivity)]
    field_simp

/-- **C54.** Without conservation of the chemical potential, or for another field (a trap), the value
given is imposed as it is. -/
theorem C54_not_converted (b : Dirichlet Γ) (mats : List Mat) (chem mobile : Bool)
    (h : chem = false ∨ mobile = false) (vmS : Γ → ℕ) (T : Γ → ℝ) (q : Γ) :
    b.imposed mats chem mobile vmS T q = b.at (T q) q := by
  unfold Dirichlet.imposed
  rcases h with h | h <;> simp [h]

/-- **C54, the exception.** A `CustomDirichlet` on the mobile species cannot be used with conservation of
the chemical potential. -/
theorem C54_custom_fails (f : Γ → ℝ → ℝ) (mats : List Mat) (vmS : Γ → ℕ) (T : Γ → ℝ) (q : Γ) :
    (Dirichlet.custom f).imposed mats true true vmS T q
      = .error (.attributeError "'dict_values' object has no attribute 'append'") := rfl

/-! ## C69 -/

/-- **C69.** `ImplantationDirichlet` imposes the concentration at the implantation depth: above a surface
concentration `c₀` which recombines exactly what is implanted and dissociated
(`K_r c₀² = φ + K_d P`), such that the linear profile over `R_p` carries the implanted flux
(`D (c - c₀) / R_p = φ`). -/
theorem C69_implantation (phi R_p : Γ → ℝ) (D_0 E_D Kr_0 E_Kr Kd_0 E_Kd : ℝ) (P : Γ → ℝ) (T : ℝ)
    (q : Γ) (hD : 0 < D_0) (hKr : 0 < Kr_0) (hKd : 0 ≤ Kd_0) (hphi : 0 ≤ phi q) (hP : 0 ≤ P q)
    (hR : R_p q ≠ 0) :
    ∃ c c0 : ℝ,
      (Dirichlet.implantation phi R_p D_0 E_D (some Kr_0) (some E_Kr) (some Kd_0) (some E_Kd)
        (some P)).at T q = .ok c ∧ 0 ≤ c0 ∧
      arr Kr_0 E_Kr T * c0 ^ 2 = phi q + arr Kd_0 E_Kd T * P q ∧
      arr D_0 E_D T * (c - c0) / R_p q = phi q := by
  have h1 : 0 < arr Kr_0 E_Kr T := arr_pos hKr
  have h2 : 0 < arr D_0 E_D T := arr_pos hD
  have h3 : 0 ≤ arr Kd_0 E_Kd T := mul_nonneg hKd (Real.exp_pos _).le
  refine ⟨_, ((phi q + arr Kd_0 E_Kd T * P q) / arr Kr_0 E_Kr T) ^ (0.5 : ℝ), rfl, by positivity,
    ?_, ?_⟩
  · rw [half_pow_sq _ (by positivity)]
    field_simp
  · simp only [arr] at h1 h2 h3 ⊢
    field_simp
    ring

/-- **C69.** With no recombination coefficient the recombination is instantaneous (`c₀ = 0`); with no
dissociation coefficient nothing comes from the gas. -/
theorem C69_implantation_defaults (phi R_p : Γ → ℝ) (D_0 E_D Kr_0 E_Kr : ℝ) (E_Kr' Kd_0 E_Kd : Option ℝ)
    (E_Kd' : Option ℝ) (P P' : Option (Γ → ℝ)) (T : ℝ)
    (q : Γ) (hD : 0 < D_0) (hKr : 0 < Kr_0) (hphi : 0 ≤ phi q) (hR : R_p q ≠ 0) :
    (∃ c, (Dirichlet.implantation phi R_p D_0 E_D none E_Kr' Kd_0 E_Kd P).at T q = .ok c ∧
      arr D_0 E_D T * c / R_p q = phi q) ∧
    (∃ c c0, (Dirichlet.implantation phi R_p D_0 E_D (some Kr_0) (some E_Kr) none E_Kd' P').at T q
        = .ok c ∧ 0 ≤ c0 ∧ arr Kr_0 E_Kr T * c0 ^ 2 = phi q ∧
      arr D_0 E_D T * (c - c0) / R_p q = phi q) := by
  have h1 : 0 < arr Kr_0 E_Kr T := arr_pos hKr
  have h2 : 0 < arr D_0 E_D T := arr_pos hD
  refine ⟨⟨_, rfl, ?_⟩, _, (phi q / arr Kr_0 E_Kr T) ^ (0.5 : ℝ), rfl, by positivity, ?_, ?_⟩
  · simp only [arr] at h2 ⊢
    field_simp
  · rw [half_pow_sq _ (by positivity)]
    field_simp
  · simp only [arr] at h1 h2 ⊢
    field_simp
    ring

/-- **C69.** Exactly these combinations of optional parameters can be used: no recombination coefficient, or one with
its energy and either no dissociation coefficient, or one with its energy and a pressure.  Any other raises
`TypeError`; no parameter is silently taken to be zero. -/
theorem C69_parameters_needed (phi R_p : Γ → ℝ) (D_0 E_D : ℝ) (Kr_0 E_Kr Kd_0 E_Kd : Option ℝ)
    (P : Option (Γ → ℝ)) (T : ℝ) (q : Γ) :
    let b := Dirichlet.implantation phi R_p D_0 E_D Kr_0 E_Kr Kd_0 E_Kd P
    ((∃ c, b.at T q = .ok c) ↔
      (Kr_0.isSome → E_Kr.isSome ∧ (Kd_0.isSome → E_Kd.isSome ∧ P.isSome))) ∧
    ((¬ ∃ c, b.at T q = .ok c) → ∃ m, b.at T q = .error (.typeError m)) := by
  cases Kr_0 <;> cases E_Kr <;> cases Kd_0 <;> cases E_Kd <;> cases P <;>
    simp [Dirichlet.at, dcImp, optNum]

end

end Festim.Props
