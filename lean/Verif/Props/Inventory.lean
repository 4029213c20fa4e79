import Verif.Props.Balance
import Verif.Props.BalanceCases
import Verif.Props.Derived

/-!
# C77: the hydrogen balance in the rows of the csv file

The totals and the adsorbed quantities reported by a `DerivedQuantities` export, put together, satisfy the
balance of the equations.
-/

open scoped BigOperators

set_option linter.unusedSectionVars false
set_option linter.unusedSimpArgs false

namespace Festim.Weak

section
variable {Ω Γ : Type} [Fintype Ω] [Fintype Γ] {d : ℕ}

/-- The surfaces with kinetics, each with its thickness `lambda_IS`. -/
def kineticSurfaces : List (MobBC Γ) → List (SKSurf × ℝ)
  | [] => []
  | .flux _ _ :: l => kineticSurfaces l
  | .sk b _ :: l => b.surfaces.map (fun s => (s, b.lambda_IS)) ++ kineticSurfaces l

/-- The functions given to the exports are those of the problem: concentration, traps and adsorbed
concentrations. -/
structure Reports (e : PostEnv Ω Γ d) (P : Problem Ω Γ d) (bcs : List (MobBC Γ)) (mat : Ω → Mat)
    (matS : Γ → Mat) : Prop where
  mesh : e.mesh = P.mesh
  solute : ∀ p, e.solute.val p = P.c mat p
  soluteS : ∀ q, e.solute.tr q = P.cS matS q
  traps : List.Forall₂ (fun (f : PostFun Ω Γ d) (t : Trap Ω Γ d) => f.val = t.sol.val) e.traps P.traps
  adsorbed : e.adsorbed = bcs.filterMap fun b => match b with
    | .flux _ _ => none
    | .sk b _ => some (b.surfaces.map (·.id), b.surfaces.map (·.sol))

/-- The coordinates a class of quantities is meant for. -/
def Geom.coord : Geom → Coord
  | .cartesian => .cartesian
  | .cylindrical _ => .cylindrical
  | .spherical _ _ => .spherical

/-- A list of quantities none of which projects the retention is computed one by one. -/
theorem derivedRow_values (e : PostEnv Ω Γ d) (proj : Bool) (qs : List Quantity) (xs : List ℝ)
    (hp : ∀ q ∈ qs, q.projects proj = proj)
    (hv : List.Forall₂ (fun q x => q.value e proj = .ok x) qs xs) : derivedRow e proj qs = .ok xs := by
  unfold derivedRow
  induction hv with
  | nil => rfl
  | @cons q x qs xs h hrest ih =>
    have ih' := ih fun q hq => hp q (List.mem_cons_of_mem _ hq)
    have hq := hp q List.mem_cons_self
    unfold Quantity.value at h
    rw [hq] at h
    simp only [assignFunctions, hq]
    cases hf : q.function e proj with
    | error err => rw [hf] at h; cases h
    | ok f =>
      rw [hf] at h
      cases hl : assignFunctions e proj qs with
      | error err => rw [hl] at ih'; cases ih'
      | ok l =>
        rw [hl] at ih'
        simp only at h ih' ⊢
        simp only [computeRow, h, ih']

theorem sum_volumeOf (m : Mesh Ω Γ d) (vols : List ℕ) (hn : vols.Nodup) (hc : ∀ p, m.vm p ∈ vols)
    (f : Ω → ℝ) : (vols.map fun v => volumeOf m v f).sum = volume m f := by
  have key : ∀ l : List ℕ, l.Nodup → (l.map fun v => volumeOf m v f).sum = volumeIn m l f := by
    intro l
    induction l with
    | nil => intro _; simp [volumeIn]
    | cons a l ih =>
      intro hl
      rw [List.map_cons, List.sum_cons, ih (List.nodup_cons.1 hl).2]
      unfold volumeOf volumeIn
      simp only [Finset.sum_filter, ← Finset.sum_add_distrib]
      refine Finset.sum_congr rfl fun p _ => ?_
      have ha := (List.nodup_cons.1 hl).1
      by_cases h1 : m.vm p = a
      · simp [h1, ha]
      · simp [h1]
  rw [key vols hn]
  unfold volumeIn volume
  rw [Finset.filter_true_of_mem fun p _ => hc p]

theorem adsorbedFunction_none (s : ℕ) (l : List (List ℕ × List ℝ)) (acc : Option ℝ)
    (h : ∀ x ∈ l, s ∉ x.1) : adsorbedFunction s l acc = acc := by
  induction l generalizing acc with
  | nil => rfl
  | cons a l ih =>
    obtain ⟨surfs, vals⟩ := a
    simp only [adsorbedFunction, if_neg (h _ List.mem_cons_self)]
    exact ih _ fun x hx => h x (List.mem_cons_of_mem _ hx)

theorem adsorbedFunction_append (s : ℕ) (l₁ l₂ : List (List ℕ × List ℝ)) (acc : Option ℝ) :
    adsorbedFunction s (l₁ ++ l₂) acc = adsorbedFunction s l₂ (adsorbedFunction s l₁ acc) := by
  induction l₁ generalizing acc with
  | nil => rfl
  | cons a l ih => obtain ⟨surfs, vals⟩ := a; simp only [List.cons_append, adsorbedFunction, ih]

end

end Festim.Weak

namespace Festim.Props

open Festim.Weak

section
variable {Ω Γ : Type} [Fintype Ω] [Fintype Γ] {d : ℕ}

/-- **C77.** `AdsorbedHydrogen` reports the adsorbed concentration of the *last* `SurfaceKinetics` which
has the surface (of the first position where it has it) times the area of the surface. -/
theorem C77_adsorbed_last (e : PostEnv Ω Γ d) (proj : Bool) (s : ℕ) (l₁ l₂ : List (List ℕ × List ℝ))
    (s₁ s₂ : List ℕ) (v₁ v₂ : List ℝ) (c : ℝ) (hlen : s₁.length = v₁.length)
    (he : e.adsorbed = l₁ ++ (s₁ ++ s :: s₂, v₁ ++ c :: v₂) :: l₂) (h1 : s ∉ s₁)
    (h2 : ∀ x ∈ l₂, s ∉ x.1) :
    (Quantity.adsorbed s).value e proj = .ok (c * surface e.mesh s fun _ => 1) := by
  have hf : adsorbedFunction s e.adsorbed none = some c := by
    rw [he, adsorbedFunction_append]
    simp only [adsorbedFunction]
    rw [adsorbedFunction_none _ _ _ h2, if_pos (by simp)]
    rw [List.idxOf_append_of_notMem h1, List.idxOf_cons_self, hlen]
    simp
  unfold Quantity.value Quantity.function
  simp only [hf, Quantity.compute, integrate_ds, PostFun.const]
  rw [← surface_smul]
  simp

/-- **C77.** It cannot be computed when no `SurfaceKinetics` has the surface. -/
theorem C77_adsorbed_missing (e : PostEnv Ω Γ d) (proj : Bool) (s : ℕ)
    (h : ∀ x ∈ e.adsorbed, s ∉ x.1) :
    ∃ m, (Quantity.adsorbed s).value e proj = .error (.typeError m) := by
  refine ⟨"unsupported operand type(s) for *: 'NoneType' and 'Measure'", ?_⟩
  unfold Quantity.value Quantity.function
  simp only [adsorbedFunction_none _ _ _ h]

theorem retention_sum (e : PostEnv Ω Γ d) (P : Problem Ω Γ d) (bcs : List (MobBC Γ)) (mat : Ω → Mat)
    (matS : Γ → Mat) (hR : Reports e P bcs mat matS) (p : Ω) :
    e.retention.val p = P.c mat p + (P.traps.map fun t => t.sol.val p).sum := by
  unfold PostEnv.retention
  rw [← hR.solute]
  have h := hR.traps
  generalize e.solute = f
  generalize e.traps = l at h
  generalize P.traps = l' at h
  induction h generalizing f with
  | nil => simp
  | @cons a b l l' hab _ ih =>
    rw [List.foldl_cons, ih]
    simp only [PostFun.add, List.map_cons, List.sum_cons, hab]
    ring

/-- Weight of the coordinates. -/
theorem jac_weight (m : Mesh Ω Γ d) (g : Geom)
    (hg : m.type = g.coord) (p : Ω) : jac m g.suffix p = (weight m).val p := by
  cases g with
  | cartesian => simp [hg, weight, jac, Geom.suffix, Geom.coord, Fld.const]
  | cylindrical az => simp [hg, weight, jac, Geom.suffix, Geom.coord]
  | spherical az pol =>
    simp only [hg, weight, jac, Geom.suffix, Geom.coord]
    exact sq _

/-- **C77.** The totals of the retention over all the volumes sum up to the hydrogen in the bulk, in the
coordinates of the mesh and times the angles. -/
theorem C77_bulk (e : PostEnv Ω Γ d) (P : Problem Ω Γ d) (bcs : List (MobBC Γ)) (mat : Ω → Mat)
    (matS : Γ → Mat) (hR : Reports e P bcs mat matS) (proj : Bool) (g : Geom)
    (hg : P.mesh.type = g.coord)
    (hproj : g = .cartesian ∨ proj = true) (vols : List ℕ) (hn : vols.Nodup)
    (hc : ∀ p, P.mesh.vm p ∈ vols) :
    ∃ xs, derivedRow e proj (vols.map fun v => .totalVolume g (.name "retention") v) = .ok xs ∧
      xs.length = vols.length ∧
      xs.sum = totalAngle g * volume P.mesh fun p =>
        (P.c mat p + (P.traps.map fun t => t.sol.val p).sum) * (weight P.mesh).val p := by
  refine ⟨vols.map fun v => (LinearKind.totalVolume g v).meaning e.mesh e.retention,
    derivedRow_values e proj _ _ ?_ ?_, by simp, ?_⟩
  · intro q hq
    obtain ⟨v, -, rfl⟩ := List.mem_map.1 hq
    exact linear_projects (.totalVolume g v) _ proj
  · rw [List.forall₂_map_left_iff, List.forall₂_map_right_iff, List.forall₂_same]
    intro v _
    have := linear_value e proj (.totalVolume g v) _ _ (label_retention e proj) (fun hr => ?_) trivial
    · refine this.trans ?_
      congr 1
      cases proj
      · rfl
      · exact meaning_project _ _ _
    · rcases hproj with rfl | rfl
      · simp [LinearKind.usesRadius] at hr
      · rfl
  · simp only [LinearKind.meaning, List.sum_map_mul_left]
    congr 1
    rw [hR.mesh, sum_volumeOf P.mesh vols hn hc]
    unfold volume
    refine Finset.sum_congr rfl fun p _ => ?_
    beta_reduce
    rw [retention_sum e P bcs mat matS hR, jac_weight P.mesh g hg]

theorem boundary_stock (m : Mesh Ω Γ d) (c : Γ → ℝ) (bcs : List (MobBC Γ)) :
    (bcs.map (bcStock m true c fun _ => 1)).sum
      = ((kineticSurfaces bcs).map fun x => x.1.sol * surface m x.1.id fun _ => 1).sum
        + ((kineticSurfaces bcs).map fun x => x.2 * surface m x.1.id c).sum := by
  induction bcs with
  | nil => simp [kineticSurfaces]
  | cons b l ih =>
    cases b with
    | flux f ss => simpa [kineticSurfaces, bcStock] using ih
    | sk b vs =>
      simp only [List.map_cons, List.sum_cons, ih, kineticSurfaces, List.map_append, List.sum_append,
        List.map_map, bcStock, if_true, mul_one]
      have : (b.surfaces.map fun s => surface m s.id fun q => s.sol + b.lambda_IS * c q).sum
          = (b.surfaces.map fun s => s.sol * surface m s.id fun _ => 1).sum
            + (b.surfaces.map fun s => b.lambda_IS * surface m s.id c).sum := by
        rw [← List.sum_map_add]
        congr 1
        refine List.map_congr_left fun s _ => ?_
        rw [surface_add, ← surface_smul, ← surface_smul]
        simp
      rw [this]
      simp only [Function.comp_def]
      ring

theorem adsorbedFunction_reports (bcs : List (MobBC Γ))
    (hn : ((kineticSurfaces bcs).map (·.1.id)).Nodup) (x : SKSurf × ℝ) (hx : x ∈ kineticSurfaces bcs)
    (acc : Option ℝ) :
    adsorbedFunction x.1.id (bcs.filterMap fun b => match b with
      | .flux _ _ => none
      | .sk b _ => some (b.surfaces.map (·.id), b.surfaces.map (·.sol))) acc = some x.1.sol := by
  induction bcs generalizing acc with
  | nil => simp [kineticSurfaces] at hx
  | cons b l ih =>
    cases b with
    | flux f ss => exact ih hn hx acc
    | sk b vs =>
      simp only [kineticSurfaces, List.map_append, List.map_map, List.nodup_append] at hn
      simp only [List.filterMap_cons, adsorbedFunction]
      rcases List.mem_append.1 hx with h | h
      · obtain ⟨s, hs, rfl⟩ := List.mem_map.1 h
        rw [adsorbedFunction_none]
        · rw [if_pos (List.mem_map.2 ⟨s, hs, rfl⟩)]
          have hnd : (b.surfaces.map (·.id)).Nodup := by simpa [Function.comp_def] using hn.1
          obtain ⟨i, hi, hsi⟩ := List.mem_iff_getElem.1 hs
          have : (b.surfaces.map (·.id)).idxOf s.id = i := by
            have h1 : (b.surfaces.map (·.id))[i]'(by simpa using hi) = s.id := by simp [hsi]
            rw [← h1, List.Nodup.idxOf_getElem hnd]
          simp [this, hi, hsi]
        · intro y hy hmem
          obtain ⟨b', hb', hy'⟩ := List.mem_filterMap.1 hy
          cases b' with
          | flux f ss => simp at hy'
          | sk b' vs' =>
            simp only [Option.some.injEq] at hy'
            subst hy'
            obtain ⟨s', hs', he⟩ := List.mem_map.1 hmem
            refine hn.2.2 s.id ?_ s.id ?_ rfl
            · exact List.mem_map.2 ⟨s, hs, rfl⟩
            · refine List.mem_map.2 ⟨(s', b'.lambda_IS), ?_, he⟩
              clear ih hn hx h hy
              induction l with
              | nil => simp at hb'
              | cons c l ih2 =>
                rcases List.mem_cons.1 hb' with rfl | h2
                · simp only [kineticSurfaces, List.mem_append, List.mem_map]
                  exact .inl ⟨s', hs', rfl⟩
                · cases c with
                  | flux f ss => exact ih2 h2
                  | sk c vs => exact List.mem_append_right _ (ih2 h2)
      · exact ih hn.2.1 h _

/-- The quantities of a complete inventory: the retention in every volume, the adsorbed hydrogen and the
concentration at the surfaces with kinetics. -/
def inventoryQuantities (vols surfs : List ℕ) : List Quantity :=
  vols.map (fun v => .totalVolume .cartesian (.name "retention") v)
    ++ surfs.map (fun s => .adsorbed s)
    ++ surfs.map (fun s => .totalSurface .cartesian (.name "solute") s)

/-- The inventory computed from such a row: the sum of the columns, those of the concentrations at the
surfaces times the thicknesses. -/
def inventoryOf (nv ns : ℕ) (thick : List ℝ) (row : List ℝ) : ℝ :=
  (row.take nv).sum + ((row.drop nv).take ns).sum
    + (List.zipWith (· * ·) thick (row.drop (nv + ns))).sum

/-- **C77.** In cartesian coordinates, if no surface has kinetics twice, a row of these quantities gives
the hydrogen inventory of the problem: bulk, traps, adsorbed and subsurface layers. -/
theorem C77_inventory (e : PostEnv Ω Γ d) (P : Problem Ω Γ d) (bcs : List (MobBC Γ)) (mat : Ω → Mat)
    (matS : Γ → Mat) (hR : Reports e P bcs mat matS) (proj : Bool) (hcart : P.mesh.type = .cartesian)
    (vols : List ℕ) (hn : vols.Nodup) (hc : ∀ p, P.mesh.vm p ∈ vols)
    (hsk : ((kineticSurfaces bcs).map (·.1.id)).Nodup) :
    ∃ row, derivedRow e proj
        (inventoryQuantities vols ((kineticSurfaces bcs).map (·.1.id))) = .ok row ∧
      inventoryOf vols.length (kineticSurfaces bcs).length ((kineticSurfaces bcs).map (·.2)) row
        = stock P bcs mat matS (weight P.mesh) := by
  have hw : weight P.mesh = Fld.const 1 := by simp [weight, hcart]
  refine ⟨vols.map (fun v => (LinearKind.totalVolume .cartesian v).meaning e.mesh e.retention)
    ++ (kineticSurfaces bcs).map (fun x => x.1.sol * surface e.mesh x.1.id fun _ => 1)
    ++ (kineticSurfaces bcs).map (fun x => surface e.mesh x.1.id e.solute.tr),
    derivedRow_values e proj _ _ ?_ ?_, ?_⟩
  · intro q hq
    simp only [inventoryQuantities, List.mem_append, List.mem_map] at hq
    rcases hq with (⟨v, -, rfl⟩ | ⟨s, -, rfl⟩) | ⟨s, -, rfl⟩
    all_goals simp [Quantity.projects, Quantity.isExtremum]
  · unfold inventoryQuantities
    refine List.rel_append (List.rel_append ?_ ?_) ?_
    · rw [List.forall₂_map_left_iff, List.forall₂_map_right_iff, List.forall₂_same]
      intro v _
      refine (linear_value e proj (.totalVolume .cartesian v) _ _ (label_retention e proj)
        (fun hr => ?_) trivial).trans ?_
      · simp [LinearKind.usesRadius] at hr
      · congr 1
        cases proj
        · rfl
        · exact meaning_project _ _ _
    · rw [List.map_map, List.forall₂_map_left_iff, List.forall₂_map_right_iff, List.forall₂_same]
      intro x hx
      have hf : adsorbedFunction x.1.id e.adsorbed none = some x.1.sol := by
        rw [hR.adsorbed]; exact adsorbedFunction_reports bcs hsk x hx none
      unfold Quantity.value Quantity.function
      simp only [Function.comp, hf, Quantity.compute, integrate_ds, PostFun.const]
      rw [← surface_smul]
      simp
    · rw [List.map_map, List.forall₂_map_left_iff, List.forall₂_map_right_iff, List.forall₂_same]
      intro x _
      refine (linear_value e proj (.totalSurface .cartesian x.1.id) _ _ (label_solute e proj)
        (fun hr => ?_) trivial).trans ?_
      · simp [LinearKind.usesRadius] at hr
      · simp [LinearKind.meaning, totalAngle, jacS, Geom.suffix]
  · have hz : ∀ (l : List (SKSurf × ℝ)) (g : SKSurf × ℝ → ℝ),
        (List.zipWith (· * ·) (l.map (·.2)) (l.map g)).sum = (l.map fun x => x.2 * g x).sum := by
      intro l g
      rw [List.zipWith_map_left, List.zipWith_map_right, List.zipWith_self]
    have hlen : ∀ (l : List ℕ) (g : ℕ → ℝ), (l.map g).length = l.length := fun l g => by simp
    unfold inventoryOf
    rw [List.append_assoc, List.take_left' (by simp), List.drop_left' (by simp),
      List.take_left' (by simp), ← List.append_assoc, List.drop_left' (by simp), hz]
    have hb := boundary_stock P.mesh (P.cS matS) bcs
    unfold stock
    rw [hw]
    simp only [Fld.const_val, Fld.const_tr, mul_one]
    have hb' : (bcs.map (bcStock P.mesh true (P.cS matS) (Fld.const 1 : Fld Ω Γ d).tr)).sum = _ := hb
    rw [hb', add_assoc, hR.mesh]
    congr 1
    · simp only [LinearKind.meaning, totalAngle, one_mul, jac, Geom.suffix, mul_one]
      rw [sum_volumeOf P.mesh vols hn hc]
      unfold volume
      refine Finset.sum_congr rfl fun p _ => ?_
      beta_reduce
      rw [retention_sum e P bcs mat matS hR]
    · have : e.solute.tr = P.cS matS := funext hR.soluteS
      rw [this]

theorem kineticSurfaces_follows (bcs bcs' : List (MobBC Γ))
    (h : List.Forall₂ (fun b b' : MobBC Γ => match b, b' with
      | .flux _ _, .flux _ _ => True
      | .sk b _, .sk b' _ => b.lambda_IS = b'.lambda_IS ∧
          List.Forall₂ (fun s s' : SKSurf => s.id = s'.id ∧ s'.prev = s.sol) b.surfaces b'.surfaces
      | _, _ => False) bcs bcs') :
    (kineticSurfaces bcs).map (fun x => (x.1.id, x.2))
      = (kineticSurfaces bcs').map fun x => (x.1.id, x.2) := by
  induction h with
  | nil => rfl
  | @cons b b' l l' hb _ ih =>
    cases b with
    | flux f ss =>
      cases b' with
      | flux f' ss' => exact ih
      | sk b' vs' => exact absurd hb (by simp)
    | sk b vs =>
      cases b' with
      | flux f' ss' => exact absurd hb (by simp)
      | sk b' vs' =>
        obtain ⟨hl, hs⟩ := hb
        simp only [kineticSurfaces, List.map_append, List.map_map, ih]
        congr 1
        rw [hl]
        clear hl ih
        generalize b.surfaces = L at hs ⊢
        generalize b'.surfaces = L' at hs ⊢
        induction hs with
        | nil => rfl
        | cons h _ ih => simp only [List.map_cons, ih, Function.comp, h.1]

/-- **C77.** Two consecutive rows of the csv file of a converged step: the inventory they give differs by
exactly the stepsize times what sources, flux conditions and adsorption supply. -/
theorem C77_rows_balance (e e' : PostEnv Ω Γ d) (P Q : Problem Ω Γ d) (bcs bcs' : List (MobBC Γ))
    (mat : Ω → Mat) (matS : Γ → Mat) (hR : Reports e P bcs mat matS) (hR' : Reports e' Q bcs' mat matS)
    (hfol : Follows P Q bcs bcs') (proj : Bool) (hcart : Q.mesh.type = .cartesian)
    (vols : List ℕ) (hn : vols.Nodup) (hc : ∀ p, Q.mesh.vm p ∈ vols)
    (hsk : ((kineticSurfaces bcs').map (·.1.id)).Nodup)
    (h : ℝ) (hh : h ≠ 0) (hdt : Q.dt = some h) (F : Form Ω Γ) (hcov : Covers Q.mesh Q.mats mat)
    (hsol : Solubility Q mat matS) (htest : SKTests Q.mesh (weight Q.mesh).tr bcs')
    (hnt : Q.mv.theta = false ∨ ∀ b vs, MobBC.sk b vs ∉ bcs')
    (hF : Q.form bcs' (weight Q.mesh) (Q.traps.map fun _ => weight Q.mesh) = .ok F)
    (hzero : Q.mesh.assemble F = 0) :
    ∃ row row', let surfs := (kineticSurfaces bcs').map (·.1.id)
      let thick := (kineticSurfaces bcs').map (·.2)
      derivedRow e proj (inventoryQuantities vols surfs) = .ok row ∧
      derivedRow e' proj (inventoryQuantities vols surfs) = .ok row' ∧
      inventoryOf vols.length surfs.length thick row'
        = inventoryOf vols.length surfs.length thick row
          + h * supply Q bcs' mat matS (weight Q.mesh) := by
  have hks := kineticSurfaces_follows bcs bcs' hfol.bcs
  have hids : (kineticSurfaces bcs).map (·.1.id) = (kineticSurfaces bcs').map (·.1.id) := by
    have := congrArg (List.map Prod.fst) hks
    simpa [Function.comp_def] using this
  have hth : (kineticSurfaces bcs).map (·.2) = (kineticSurfaces bcs').map (·.2) := by
    have := congrArg (List.map Prod.snd) hks
    simpa [Function.comp_def] using this
  have hlen : (kineticSurfaces bcs).length = (kineticSurfaces bcs').length := by
    simpa using congrArg List.length hks
  obtain ⟨row, h1, h2⟩ := C77_inventory e P bcs mat matS hR proj (by rw [← hfol.mesh]; exact hcart) vols hn
    (by rw [← hfol.mesh]; exact hc) (by rw [hids]; exact hsk)
  obtain ⟨row', h1', h2'⟩ := C77_inventory e' Q bcs' mat matS hR' proj hcart vols hn hc hsk
  rw [hids] at h1
  rw [hth, hlen] at h2
  refine ⟨row, row', h1, h1', ?_⟩
  simp only [List.length_map]
  rw [h2, h2', (C42_balance Q bcs' mat matS h F hh hdt hcov hsol (fun hcy => ?_) htest hnt hF).1 hzero,
    follows_stock P Q bcs bcs' mat matS _ hfol, hfol.mesh]
  rcases hcy with hcy | hcy <;> rw [hcart] at hcy <;> cases hcy

end

namespace Case

/-- A function with the given values, on the mesh of `BalanceCases`. -/
def post (c : ℝ) : PostFun (Fin 2) (Fin 2) 1 :=
  ⟨fun _ => c, fun _ => c, fun _ _ => 0, [(1, [c, c]), (2, [c, c])], fun _ => c, true⟩

noncomputable def env (c t a : ℝ) : PostEnv (Fin 2) (Fin 2) 1 where
  mesh := meshOf .cartesian
  n := fun q _ => if q = 0 then -1 else 1
  D := fun _ => 1
  cond := none
  Q := none
  T := post 300
  soret := true
  solute := post c
  traps := [post t]
  ids := [1]
  adsorbed := [([1], [a])]

/-- The step before `probOf .cartesian 5`. -/
noncomputable def before : Problem (Fin 2) (Fin 2) 1 :=
  { probOf .cartesian 5 with
    mv := { theta := false, sol := Fld.const 4, prev := Fld.const 4 }
    traps := [{ trap with sol := Fld.const 0 }] }

noncomputable def skBefore : SK (Fin 2) := { sk with surfaces := [⟨1, 0, 0⟩] }

/-- C77: the rows before and after the step with surface kinetics of C48: the inventory goes from
4 + 0 + 2 * 4 = 12 to 6 + 1 + 2 * 5 = 17, the source being 5. -/
example : ∃ row row',
    derivedRow (env 4 0 0) false (inventoryQuantities [1, 2] [1]) = .ok row ∧
    derivedRow (env 5 1 1) false (inventoryQuantities [1, 2] [1]) = .ok row' ∧
    inventoryOf 2 1 [2] row' = inventoryOf 2 1 [2] row
      + 1 * supply (probOf .cartesian 5) [.sk sk [1]] (fun _ => mat) (fun _ => mat)
        (weight (probOf .cartesian 5).mesh) := by
  refine C77_rows_balance (env 4 0 0) (env 5 1 1) before (probOf .cartesian 5) [.sk skBefore [1]]
    [.sk sk [1]] (fun _ => mat) (fun _ => mat) ?_ ?_ ?_ false rfl [1, 2] (by decide) ?_ (by simp [kineticSurfaces, sk])
    1 one_ne_zero rfl _ (covers .cartesian 5) ?_ ?_ (.inl rfl) rfl ?_
  · exact ⟨rfl, fun _ => rfl, fun _ => rfl, .cons rfl .nil, rfl⟩
  · exact ⟨rfl, fun _ => rfl, fun _ => rfl, .cons rfl .nil, rfl⟩
  · exact ⟨rfl, rfl, rfl, rfl, .cons rfl .nil, .cons ⟨rfl, .cons ⟨rfl, rfl⟩ .nil⟩ .nil⟩
  · intro p; fin_cases p <;> decide
  · constructor <;> intro h <;> simp [probOf] at h
  · intro b vs h
    simp only [List.mem_singleton, MobBC.sk.injEq] at h
    obtain ⟨rfl, rfl⟩ := h
    refine ⟨rfl, ?_⟩
    intro x hx q _
    simp [sk] at hx
    subst hx
    simp [weight, probOf, meshOf, Fld.const]
  · simp [probOf, meshOf, mat, trap, sk, weight, mobileForm, Mesh.assemble, Mesh.integrate, Form.neg,
      diffusionForm, subdomainForm, Fld.const, dot, sourceForm, fluxesForm, MobBC.form, Flux.form,
      Src.at, Mobile.conc, trapSourceForm, SK.form, SK.surfForm, SK.Jbs, SK.Jsb, Mobile.mobileConcS]
    norm_num

/-- Two conditions on surface 3: the last one is reported. -/
example : (Quantity.adsorbed 3).value
      { env 4 0 0 with adsorbed := [([3], [7]), ([1, 3, 3], [4, 5, 6]), ([2], [8])] } false
    = .ok (5 * surface (meshOf .cartesian) 3 fun _ => 1) :=
  C77_adsorbed_last _ false 3 [([3], [7])] [([2], [8])] [1] [3] [4] [6] 5 rfl rfl (by decide) (by decide)

/-- C77 on a cylinder. -/
example : ∃ xs, derivedRow { env 5 1 1 with mesh := meshOf .cylindrical } true
      ([1, 2].map fun v => .totalVolume (.cylindrical (0, 1)) (.name "retention") v) = .ok xs ∧
    xs.sum = totalAngle (.cylindrical (0, 1)) * volume (meshOf .cylindrical) fun p =>
      (5 + 1) * (weight (meshOf .cylindrical)).val p := by
  obtain ⟨xs, h1, -, h2⟩ := C77_bulk { env 5 1 1 with mesh := meshOf .cylindrical }
    (probOf .cylindrical 5) [.sk sk [1]] (fun _ => mat) (fun _ => mat)
    ⟨rfl, fun _ => rfl, fun _ => rfl, .cons rfl .nil, rfl⟩ true (.cylindrical (0, 1)) rfl (.inr rfl) [1, 2]
    (by decide) (by intro p; fin_cases p <;> decide)
  refine ⟨xs, h1, h2.trans ?_⟩
  simp [probOf, trap, Problem.c, physConc, Fld.const]

/-- No condition on surface 9. -/
example : ∃ m, (Quantity.adsorbed 9).value (env 4 0 0) false = .error (.typeError m) :=
  C77_adsorbed_missing _ _ _ (by simp [env])

end Case

end Festim.Props
