import Verif.Spec.Heat
import Verif.Props.Diffusion

/-!
# C58: heat balance
-/

open scoped BigOperators

set_option linter.unusedSectionVars false
set_option linter.unusedSimpArgs false

namespace Festim.Weak

section
variable {Ω Γ : Type} [Fintype Ω] [Fintype Γ] {d : ℕ}

theorem heatSubdomain_assemble (m : Mesh Ω Γ d) (mt : Mat) (T : Temp Ω Γ d) (v : Fld Ω Γ d)
    (vol : ℕ) (hr : (m.type = .cylindrical ∨ m.type = .spherical) → ∀ p, m.r.val p ≠ 0) :
    m.assemble (heatSubdomain m mt T v vol)
      = volumeOf m vol fun p =>
          dot (fun i => mt.cond (T.T.val p) * T.T.grad p i) (coordGrad m v p) := by
  unfold heatSubdomain coordGrad
  cases ht : m.type with
  | cartesian => simp [integrate_dxOn1]
  | cylindrical =>
    simp only [assemble_cons, assemble_nil, integrate_dxOn1, add_zero]
    congr 1
    funext p
    rw [dot_coordGrad_cyl m v p (hr (Or.inl ht) p)]
  | spherical =>
    simp only [assemble_cons, assemble_nil, integrate_dxOn1, add_zero]
    congr 1
    funext p
    rw [dot_smul_left, ← dot_coordGrad_sph m v p (hr (Or.inr ht) p)]
    ring
  | other =>
    have : ∀ a : Fin d → ℝ, dot a (fun _ => (0 : ℝ)) = 0 := fun a =>
      dot_zero_right _ _ fun _ => rfl
    simp [this, volumeOf]

theorem sum_map_add' {α : Type} (l : List α) (f g : α → ℝ) :
    (l.map fun x => f x + g x).sum = (l.map f).sum + (l.map g).sum := by
  induction l with
  | nil => simp
  | cons a l ih => simp only [List.map_cons, List.sum_cons, ih]; ring

end

end Festim.Weak

namespace Festim.Props

open Festim.Weak

section
variable {Ω Γ : Type} [Fintype Ω] [Fintype Γ] {d : ℕ}

/-- **C58.** The heat equation solved: `∫ ρ c_p (T - T_n)/dt v + ∫ λ ∇T·∇v` equals what is supplied
(first term only when transient), in the coordinates of the mesh. -/
theorem C58_weak_form (m : Mesh Ω Γ d) (mats : List Mat) (T : Temp Ω Γ d) (dt : Option ℝ)
    (sources : List ((Ω → ℝ) × List ℕ)) (bcs : List (Flux Γ × List ℕ)) (mat : Ω → Mat)
    (v : Fld Ω Γ d) (hcov : Covers m mats mat)
    (hr : (m.type = .cylindrical ∨ m.type = .spherical) → ∀ p, m.r.val p ≠ 0) :
    m.assemble (heatForm m mats T dt sources bcs v)
      = (match dt with
          | some h => volume m (fun p => (mat p).vcap (T.T.val p) * (T.T.val p - T.Tn.val p) / h
              * v.val p)
          | none => 0)
        + volume m (fun p => dot (fun i => (mat p).cond (T.T.val p) * T.T.grad p i)
            (coordGrad m v p))
        - heatSupply m sources bcs T.T.tr v := by
  unfold heatForm
  rw [assemble_append, assemble_append, assemble_flatMap, assemble_flatMap, assemble_flatMap]
  have hS : (sources.map fun s => m.assemble
        (s.2.map fun vol => .dxOn [vol] fun p => -s.1 p * v.val p)).sum
      = -(sources.map fun s => (s.2.map fun vol =>
          volumeOf m vol fun p => s.1 p * v.val p).sum).sum := by
    apply neg_sum_map
    intro s _
    rw [assemble_map]
    apply neg_sum_map
    intro vol _
    rw [integrate_dxOn1, ← neg_one_mul, ← volumeOf_smul]
    congr 1
    funext p
    ring
  have hB : (bcs.map fun b => m.assemble
        (b.2.map fun s => .ds s fun q => -b.1.form T.T.tr (fun _ => 0) q * v.tr q)).sum
      = -(bcs.map fun b => (b.2.map fun s =>
          surface m s fun q => inward b.1 (T.T.tr q) 0 q * v.tr q).sum).sum := by
    apply neg_sum_map
    intro b _
    rw [assemble_map]
    apply neg_sum_map
    intro s _
    rw [integrate_ds, ← neg_one_mul, ← surface_smul]
    congr 1
    funext q
    rw [flux_form_eq]
    ring
  rw [hS, hB]
  have hD : (mats.map fun mt => m.assemble (mt.ids.flatMap (heatSubdomain m mt T v))).sum
      = volume m (fun p => dot (fun i => (mat p).cond (T.T.val p) * T.T.grad p i)
            (coordGrad m v p)) := by
    rw [← sum_materials m hcov fun mt p =>
      dot (fun i => mt.cond (T.T.val p) * T.T.grad p i) (coordGrad m v p)]
    congr 1
    apply List.map_congr_left
    intro mt _
    rw [assemble_flatMap]
    congr 1
    apply List.map_congr_left
    intro vol _
    exact heatSubdomain_assemble m mt T v vol hr
  simp only [assemble_append, sum_map_add', hD]
  cases dt with
  | none => simp [heatSupply]; ring
  | some h =>
    have hT : (mats.map fun mt => m.assemble (mt.ids.map fun vol => .dxOn [vol] fun p =>
          mt.rho (T.T.val p) * mt.cp (T.T.val p) * (T.T.val p - T.Tn.val p) / h * v.val p)).sum
        = volume m (fun p => (mat p).vcap (T.T.val p) * (T.T.val p - T.Tn.val p) / h * v.val p) := by
      rw [← sum_materials m hcov fun mt p =>
        mt.vcap (T.T.val p) * (T.T.val p - T.Tn.val p) / h * v.val p]
      congr 1
      apply List.map_congr_left
      intro mt _
      rw [assemble_map]
      congr 1
      apply List.map_congr_left
      intro vol _
      exact integrate_dxOn1 m vol _
    simp only
    rw [hT]
    simp [heatSupply]
    ring

/-- Conduction does not contribute when the equation is tested with `1`, `r`, `r²`. -/
theorem heat_conduction_zero (m : Mesh Ω Γ d) (a : Ω → Fin d → ℝ)
    (hr : (m.type = .cylindrical ∨ m.type = .spherical) → ∀ p, m.r.val p ≠ 0) :
    volume m (fun p => dot (a p) (coordGrad m (weight m) p)) = 0 := by
  have : ∀ p (a : Fin d → ℝ), dot a (coordGrad m (weight m) p) = 0 := fun p a =>
    dot_zero_right _ _ fun i => coordGrad_weight m hr p i
  simp [this, volume]

/-- **C58.** A transient step has zero residual for the test function `1` (`r`, `r²`) iff the change
of temperature, weighted by `ρ c_p` at the new temperature, is `dt` times the heat supplied. -/
theorem C58_balance (m : Mesh Ω Γ d) (mats : List Mat) (T : Temp Ω Γ d) (h : ℝ)
    (sources : List ((Ω → ℝ) × List ℕ)) (bcs : List (Flux Γ × List ℕ)) (mat : Ω → Mat)
    (hh : h ≠ 0) (hcov : Covers m mats mat)
    (hr : (m.type = .cylindrical ∨ m.type = .spherical) → ∀ p, m.r.val p ≠ 0) :
    m.assemble (heatForm m mats T (some h) sources bcs (weight m)) = 0 ↔
      volume m (fun p => (mat p).vcap (T.T.val p) * (T.T.val p - T.Tn.val p) * (weight m).val p)
        = h * heatSupply m sources bcs T.T.tr (weight m) := by
  rw [C58_weak_form m mats T (some h) sources bcs mat _ hcov hr, heat_conduction_zero m _ hr]
  have e : volume m (fun p => (mat p).vcap (T.T.val p) * (T.T.val p - T.Tn.val p) / h
        * (weight m).val p)
      = h⁻¹ * volume m (fun p =>
          (mat p).vcap (T.T.val p) * (T.T.val p - T.Tn.val p) * (weight m).val p) := by
    rw [← volume_smul]
    congr 1
    funext p
    ring
  simp only [e]
  constructor
  · intro h0
    field_simp at h0
    linarith
  · intro h0
    rw [h0]
    field_simp
    ring

/-- **C58.** In steady state the heat supplied is zero: sources balance the fluxes. -/
theorem C58_steady (m : Mesh Ω Γ d) (mats : List Mat) (T : Temp Ω Γ d)
    (sources : List ((Ω → ℝ) × List ℕ)) (bcs : List (Flux Γ × List ℕ)) (mat : Ω → Mat)
    (hcov : Covers m mats mat)
    (hr : (m.type = .cylindrical ∨ m.type = .spherical) → ∀ p, m.r.val p ≠ 0) :
    m.assemble (heatForm m mats T none sources bcs (weight m)) = 0 ↔
      heatSupply m sources bcs T.T.tr (weight m) = 0 := by
  rw [C58_weak_form m mats T none sources bcs mat _ hcov hr, heat_conduction_zero m _ hr]
  constructor <;> intro h <;> linarith

/-- **C58.** With heat capacities which do not depend on the temperature, over a run of steps
`T 0, T 1, ..., T n` the heat content changes by the total heat supplied. -/
theorem C58_run (m : Mesh Ω Γ d) (mats : List Mat) (T : ℕ → Fld Ω Γ d) (h : ℕ → ℝ)
    (sources : ℕ → List ((Ω → ℝ) × List ℕ)) (bcs : ℕ → List (Flux Γ × List ℕ)) (mat : Ω → Mat)
    (cap : Ω → ℝ) (n : ℕ) (hh : ∀ k < n, h k ≠ 0) (hcov : Covers m mats mat)
    (hr : (m.type = .cylindrical ∨ m.type = .spherical) → ∀ p, m.r.val p ≠ 0)
    (hcap : ∀ p x, (mat p).vcap x = cap p)
    (hzero : ∀ k < n, m.assemble (heatForm m mats ⟨T (k + 1), T k⟩ (some (h k)) (sources k) (bcs k)
      (weight m)) = 0) :
    heatContent m cap (T n).val (weight m).val
      = heatContent m cap (T 0).val (weight m).val
        + ∑ k ∈ Finset.range n, h k * heatSupply m (sources k) (bcs k) (T (k + 1)).tr (weight m) := by
  induction n with
  | zero => simp
  | succ n ih =>
    have := (C58_balance m mats ⟨T (n + 1), T n⟩ (h n) (sources n) (bcs n) mat (hh n (by omega))
      hcov hr).1 (hzero n (by omega))
    rw [Finset.sum_range_succ, ← add_assoc, ← ih (fun k hk => hh k (by omega))
      (fun k hk => hzero k (by omega)), ← this]
    unfold heatContent
    rw [← volume_add]
    congr 1
    funext p
    simp only [hcap]
    ring

/-- **C58, limit.** With capacities which depend on the temperature the code does not conserve heat:
going from `T₀` to `T₁` and back takes the net heat `∫ (ρc_p(T₁) - ρc_p(T₀)) (T₁ - T₀)`, although
the final state is the initial one. -/
theorem C58_cycle_defect (m : Mesh Ω Γ d) (mats : List Mat) (T₀ T₁ : Fld Ω Γ d) (h h' : ℝ)
    (sources sources' : List ((Ω → ℝ) × List ℕ)) (bcs bcs' : List (Flux Γ × List ℕ)) (mat : Ω → Mat)
    (hh : h ≠ 0) (hh' : h' ≠ 0) (hcov : Covers m mats mat)
    (hr : (m.type = .cylindrical ∨ m.type = .spherical) → ∀ p, m.r.val p ≠ 0)
    (h1 : m.assemble (heatForm m mats ⟨T₁, T₀⟩ (some h) sources bcs (weight m)) = 0)
    (h2 : m.assemble (heatForm m mats ⟨T₀, T₁⟩ (some h') sources' bcs' (weight m)) = 0) :
    h * heatSupply m sources bcs T₁.tr (weight m) + h' * heatSupply m sources' bcs' T₀.tr (weight m)
      = volume m (fun p => ((mat p).vcap (T₁.val p) - (mat p).vcap (T₀.val p))
          * (T₁.val p - T₀.val p) * (weight m).val p) := by
  rw [← (C58_balance m mats ⟨T₁, T₀⟩ h sources bcs mat hh hcov hr).1 h1,
    ← (C58_balance m mats ⟨T₀, T₁⟩ h' sources' bcs' mat hh' hcov hr).1 h2, ← volume_add]
  congr 1
  funext p
  simp only
  ring

/-- **C58.** One step with constant properties has at most one solution: two temperature fields which
make the residual vanish for the test function `weight * (T₁ - T₂)` agree at every point.  The
conditions must not feed differences, as is the case of imposed fluxes and of convective
fluxes with a non-negative coefficient (`C58_monotone`). -/
theorem C58_unique (m : Mesh Ω Γ d) (mats : List Mat) (T₁ T₂ Tn : Fld Ω Γ d) (h : ℝ)
    (sources : List ((Ω → ℝ) × List ℕ)) (bcs : List (Flux Γ × List ℕ)) (mat : Ω → Mat)
    (hh : 0 < h) (hcov : Covers m mats mat) (hty : m.type ≠ .other)
    (hr : (m.type = .cylindrical ∨ m.type = .spherical) → ∀ p, m.r.val p ≠ 0)
    (hw : ∀ p, 0 < m.w p * (weight m).val p) (hws : ∀ q, 0 ≤ m.ws q * (weight m).tr q)
    (cap cond : Ω → ℝ) (hcap : ∀ p x, (mat p).vcap x = cap p) (hcond : ∀ p x, (mat p).cond x = cond p)
    (hcap0 : ∀ p, 0 < cap p) (hcond0 : ∀ p, 0 ≤ cond p)
    (hbc : ∀ b ∈ bcs, ∀ q, (inward b.1 (T₁.tr q) 0 q - inward b.1 (T₂.tr q) 0 q)
      * (T₁.tr q - T₂.tr q) ≤ 0)
    (h1 : m.assemble (heatForm m mats ⟨T₁, Tn⟩ (some h) sources bcs (weight m * (T₁ - T₂))) = 0)
    (h2 : m.assemble (heatForm m mats ⟨T₂, Tn⟩ (some h) sources bcs (weight m * (T₁ - T₂))) = 0) :
    ∀ p, T₁.val p = T₂.val p := by
  rw [C58_weak_form m mats _ _ sources bcs mat _ hcov hr] at h1 h2
  simp only [hcap, hcond] at h1 h2
  set u := T₁ - T₂ with hu
  have hsup : heatSupply m sources bcs T₁.tr (weight m * u)
      - heatSupply m sources bcs T₂.tr (weight m * u) ≤ 0 := by
    unfold heatSupply
    rw [add_sub_add_left_eq_sub, ← sum_sub_map]
    apply sum_nonpos'
    intro x hx
    obtain ⟨b, hb, rfl⟩ := List.mem_map.1 hx
    rw [← sum_sub_map]
    apply sum_nonpos'
    intro x hx
    obtain ⟨s, _, rfl⟩ := List.mem_map.1 hx
    have h0 := surface_nonneg m s (fun q => -1 * (inward b.1 (T₁.tr q) 0 q * (weight m * u).tr q)
        + inward b.1 (T₂.tr q) 0 q * (weight m * u).tr q) fun q _ => by
      have := mul_nonneg (neg_nonneg.2 (hbc b hb q)) (hws q)
      simp only [hu, Fld.mul_tr, Fld.sub_tr]
      nlinarith
    rw [surface_add, surface_smul] at h0
    linarith
  have hmass : volume m (fun p => cap p * (T₁.val p - Tn.val p) / h * (weight m * u).val p)
      - volume m (fun p => cap p * (T₂.val p - Tn.val p) / h * (weight m * u).val p)
      = volume m (fun p => cap p / h * (weight m).val p * (u.val p) ^ 2) := by
    rw [← volume_sub]
    congr 1
    funext p
    simp only [hu, Fld.mul_val, Fld.sub_val]
    ring
  have hstiff : volume m (fun p => dot (fun i => cond p * T₁.grad p i) (coordGrad m (weight m * u) p))
      - volume m (fun p => dot (fun i => cond p * T₂.grad p i) (coordGrad m (weight m * u) p))
      = volume m (fun p => cond p * (weight m).val p * dot (u.grad p) (u.grad p)) := by
    rw [← volume_sub]
    congr 1
    funext p
    simp only [dot, ← Finset.sum_sub_distrib, Finset.mul_sum]
    refine Finset.sum_congr rfl fun i _ => ?_
    rw [coordGrad_weight_mul m u hty hr p i]
    simp only [hu, Fld.sub_grad]
    ring
  have hs0 : 0 ≤ volume m (fun p => cond p * (weight m).val p * dot (u.grad p) (u.grad p)) := by
    refine volume_nonneg _ _ fun p => ?_
    have := mul_nonneg (hw p).le (mul_nonneg (hcond0 p) (dot_self_nonneg (u.grad p)))
    nlinarith
  have hle : volume m (fun p => cap p / h * (weight m).val p * (u.val p) ^ 2) ≤ 0 := by
    linarith
  have hpos : ∀ p, 0 ≤ m.w p * (cap p / h * (weight m).val p * (u.val p) ^ 2) := fun p => by
    have h3 : 0 ≤ cap p / h := (div_pos (hcap0 p) hh).le
    have := mul_nonneg (hw p).le (mul_nonneg h3 (sq_nonneg (u.val p)))
    nlinarith
  have hz := (Finset.sum_eq_zero_iff_of_nonneg fun p _ => hpos p).1
    (le_antisymm hle (Finset.sum_nonneg fun p _ => hpos p))
  intro p
  have hp := hz p (Finset.mem_univ p)
  have h3 : cap p / h ≠ 0 := (div_pos (hcap0 p) hh).ne'
  have h4 : u.val p ^ 2 = 0 := by
    have h5 : (m.w p * (weight m).val p) * (cap p / h) * u.val p ^ 2 = 0 := by linarith
    rcases mul_eq_zero.1 h5 with h6 | h6
    · rcases mul_eq_zero.1 h6 with h7 | h7
      · exact absurd h7 (hw p).ne'
      · exact absurd h7 h3
    · exact h6
  have h6 : u.val p = 0 := by simpa using h4
  have : T₁.val p - T₂.val p = 0 := h6
  linarith

/-- **C58.** Imposed fluxes, and convective fluxes with a non-negative coefficient, satisfy the
hypothesis of `C58_unique`; a convective flux brings heat iff the exterior is hotter. -/
theorem C58_monotone (hc Text : Γ → ℝ) (f : Γ → ℝ) (x y : ℝ) (q : Γ) :
    (inward (.value f) x 0 q - inward (.value f) y 0 q) * (x - y) ≤ 0 ∧
    (0 ≤ hc q → (inward (.convective hc Text) x 0 q - inward (.convective hc Text) y 0 q) * (x - y)
      ≤ 0) ∧
    (0 < hc q → (0 < inward (.convective hc Text) x 0 q ↔ x < Text q)) := by
  refine ⟨by simp [inward], fun h => ?_, fun h => ?_⟩
  · simp only [inward]
    have := mul_nonneg h (sq_nonneg (x - y))
    nlinarith
  · simp only [inward]
    rw [mul_pos_iff_of_pos_left h, sub_pos]

/-! ### Example: one cell, one boundary point, a source and a convective flux -/

noncomputable def hMesh : Mesh (Fin 1) (Fin 1) 1 :=
  ⟨fun _ => 1, fun _ => 1, fun _ => 1, fun _ => 1, fun _ => 1, Fld.const 1, .cartesian⟩

noncomputable def hMat : Mat := { uid := 0, ids := [1], D_0 := 1, E_D := 0,
                                  cond := fun _ => 3, cp := fun _ => 2, rho := fun _ => 5 }

/-- A source of 40, a convective flux `2 (T_ext - T)` with `T_ext = 400`, step `1/2`, from 300 to
`T`: `10 (T - 300) = 1/2 (40 + 2 (400 - T))`, so `T = 3420/11`. -/
example : hMesh.assemble (heatForm hMesh [hMat] ⟨Fld.const (3420 / 11), Fld.const 300⟩ (some (1 / 2))
    [(fun _ => 40, [1])] [(.convective (fun _ => 2) (fun _ => 400), [1])] (weight hMesh)) = 0 := by
  simp [Mesh.assemble, heatForm, heatSubdomain, hMesh, hMat, Mesh.integrate, weight, Fld.const,
    Flux.form, dot]
  norm_num

example : Covers hMesh [hMat] (fun _ => hMat) :=
  ⟨by simp, by simp [hMesh, hMat], by simp [hMat]⟩

example : heatSupply hMesh [(fun _ => 40, [1])] [(.convective (fun _ => 2) (fun _ => 400), [1])]
    (fun _ => 3420 / 11) (weight hMesh) = 2400 / 11 := by
  simp [heatSupply, hMesh, volumeOf, surface, weight, inward, Fld.const]
  norm_num

/-- With `ρ c_p = T`, going from 1 to 2 and back takes the heat `(2 - 1) (2 - 1) = 1`. -/
noncomputable def hMatT : Mat := { hMat with cp := fun T => T, rho := fun _ => 1 }

example : hMesh.assemble (heatForm hMesh [hMatT] ⟨Fld.const 2, Fld.const 1⟩ (some 1)
      [(fun _ => 2, [1])] [] (weight hMesh)) = 0 ∧
    hMesh.assemble (heatForm hMesh [hMatT] ⟨Fld.const 1, Fld.const 2⟩ (some 1)
      [(fun _ => -1, [1])] [] (weight hMesh)) = 0 := by
  constructor <;>
  simp [Mesh.assemble, heatForm, heatSubdomain, hMesh, hMat, hMatT, Mesh.integrate, weight,
    Fld.const, dot] <;> norm_num

end

end Festim.Props
