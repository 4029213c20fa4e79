import Verif.Proofs.Materials

/-! # Properties of materials and 1D meshes (C26-C33) -/

namespace Festim.Props

open Spec

/-! ## Example data -/

/-- Tungsten between 1 and 2, and copper on both sides with two ids. -/
def exMats : List Material :=
  [{ id := .one 3, name := some "W", borders := some (.flat 1 2) },
   { id := .many [1, 2], name := some "Cu", borders := some (.nested [(2, 4), (0, 1)]) }]

theorem exMats_wf : ∀ m ∈ exMats, WellFormed m := by
  intro m hm
  simp only [exMats, List.mem_cons, List.not_mem_nil, or_false] at hm
  rcases hm with rfl | rfl
  · exact ⟨⟨_, rfl⟩, by simp, by simp⟩
  · refine ⟨⟨_, rfl⟩, ?_, ?_⟩
    · rintro l ⟨⟩; decide
    · rintro l ⟨⟩; decide

theorem exMats_checked : checkBorders exMats 4 = .ok () := by decide +kernel

theorem exMats_lt : ∀ p ∈ exMats.flatMap intervals, p.1 < p.2 := by
  decide +kernel

/-! ## C26 -/

/-- C26 (a): for nondegenerate intervals, `check_borders` accepts exactly when every material has
intervals and these tile `[0, size]`: every point of it belongs to an interval, no point outside
does, and two intervals do not overlap. The order in which materials and intervals are listed is
irrelevant. -/
theorem C26_accepts_iff_tiles (ms : List Material) (size : ℚ) (hne : ms ≠ []) (hsize : 0 ≤ size)
    (hlt : ∀ p ∈ ms.flatMap intervals, p.1 < p.2) :
    checkBorders ms size = .ok () ↔
      (∀ m ∈ ms, intervals m ≠ []) ∧ Tiles (ms.flatMap intervals) 0 size := by
  have hperm := List.perm_insertionSort (fun p q : ℚ × ℚ => p.1 ≤ q.1) (ms.flatMap intervals)
  have hlt' : ∀ p ∈ (ms.flatMap intervals).insertionSort (fun p q => p.1 ≤ q.1), p.1 < p.2 :=
    fun p hp => hlt p (hperm.mem_iff.1 hp)
  have key : (∀ m ∈ ms, intervals m ≠ []) → ms.flatMap intervals ≠ [] := by
    intro h hn
    rw [List.flatMap_eq_nil_iff] at hn
    cases ms with
    | nil => exact hne rfl
    | cons m ms => exact h m (by simp) (hn m (by simp))
  have hne' : (∀ m ∈ ms, intervals m ≠ []) →
      (ms.flatMap intervals).insertionSort (fun p q => p.1 ≤ q.1) ≠ [] := by
    intro hm h; rw [h] at hperm; exact key hm hperm.nil_eq.symm
  rw [checkBorders_ok]
  constructor
  · rintro ⟨bs', h1, h2, h3⟩
    have hm : ∀ m ∈ ms, intervals m ≠ [] := by
      intro m hm he
      obtain ⟨e, he⟩ := allBorders_error ⟨m, hm, he⟩
      rw [he] at h1; cases h1
    rw [allBorders_of hm] at h1; cases h1
    exact ⟨hm, Tiles.perm (h3.tiles (hne' hm) hlt') hperm⟩
  · rintro ⟨hm, ht⟩
    refine ⟨_, allBorders_of hm, key hm, ?_⟩
    have : Std.Total (fun p q : ℚ × ℚ => p.1 ≤ q.1) := ⟨fun p q => le_total _ _⟩
    have : IsTrans (ℚ × ℚ) (fun p q : ℚ × ℚ => p.1 ≤ q.1) := ⟨fun p q r => le_trans⟩
    exact chained_of_tiles (hne' hm) (List.pairwise_insertionSort _ _) hlt'
      (Tiles.perm ht hperm.symm) hsize

/-- C26 (b): accepted intervals (degenerate ones included) have total length `size`. -/
theorem C26_total_length (ms : List Material) (size : ℚ) (h : checkBorders ms size = .ok ()) :
    ((ms.flatMap intervals).map fun p => p.2 - p.1).sum = size := by
  obtain ⟨bs, h1, -, h3⟩ := checkBorders_ok.1 h
  have hm : ∀ m ∈ ms, intervals m ≠ [] := by
    intro m hm he
    obtain ⟨e, he⟩ := allBorders_error ⟨m, hm, he⟩
    rw [he] at h1; cases h1
  rw [allBorders_of hm] at h1; cases h1
  have hperm := List.perm_insertionSort (fun p q : ℚ × ℚ => p.1 ≤ q.1) (ms.flatMap intervals)
  have := h3.sum
  rw [(hperm.map _).sum_eq] at this
  linarith

/-- C26 (c): the nondegeneracy hypothesis matters: with a zero-length interval the verdict depends on
the order in which the materials are listed. -/
theorem C26_degenerate_order :
    let a : Material := { id := .one 1, borders := some (.flat 0 0) }
    let b : Material := { id := .one 2, borders := some (.flat 0 1) }
    checkBorders [a, b] 1 = .ok () ∧ checkBorders [b, a] 1 ≠ .ok () := by
  decide +kernel

example : allBorders exMats = .ok [(1, 2), (2, 4), (0, 1)] ∧ checkBorders exMats 4 = .ok () ∧
    checkBorders exMats 5 ≠ .ok () := by decide +kernel

/-! ## C27 -/

theorem checkBorders_nonneg {ms : List Material} {size : ℚ} (h : checkBorders ms size = .ok ())
    (hlt : ∀ p ∈ ms.flatMap intervals, p.1 < p.2) : 0 ≤ size := by
  have key : ∀ l : List (ℚ × ℚ), (∀ p ∈ l, p.1 < p.2) → 0 ≤ (l.map fun p => p.2 - p.1).sum := by
    intro l hl
    induction l with
    | nil => simp
    | cons a l ih =>
      rw [List.map_cons, List.sum_cons]
      have h1 := hl a (by simp)
      have h2 := ih fun p hp => hl p (by simp [hp])
      linarith
  rw [← C26_total_length ms size h]
  exact key _ hlt


/-- C27 (a): in an accepted domain, a point strictly inside an interval gets the id of that
interval, whatever the order of the materials. -/
theorem C27_interior (ms : List Material) (hwf : ∀ m ∈ ms, WellFormed m) (size : ℚ)
    (h : checkBorders ms size = .ok ()) (hlt : ∀ p ∈ ms.flatMap intervals, p.1 < p.2)
    (r : (ℚ × ℚ) × ℕ) (hr : r ∈ regions ms) (x : ℚ) (h1 : r.1.1 < x) (h2 : x < r.1.2) :
    findSubdomain ms x = .ok (.one r.2) := by
  have hrm : r.1 ∈ ms.flatMap intervals := by
    rw [← regions_fst hwf]; exact List.mem_map_of_mem hr
  have hne : ms ≠ [] := by rintro rfl; simp at hrm
  have hsize := checkBorders_nonneg h hlt
  have ht := ((C26_accepts_iff_tiles ms size hne hsize hlt).1 h).2
  rw [findSubdomain_wf hwf]
  have hd : (regions ms).Pairwise fun p q => p.1.2 ≤ q.1.1 ∨ q.1.2 ≤ p.1.1 := by
    have := ht.disjoint
    rw [← regions_fst hwf, List.pairwise_map] at this
    exact this
  have key : ∀ (l : List ((ℚ × ℚ) × ℕ)), l.Pairwise (fun p q => p.1.2 ≤ q.1.1 ∨ q.1.2 ≤ p.1.1) →
      r ∈ l → (l.find? fun p => decide (Within x p.1)) = some r := by
    intro l hl hm
    induction l with
    | nil => simp at hm
    | cons a l ih =>
      rw [List.pairwise_cons] at hl
      rw [List.find?_cons]
      rcases List.mem_cons.1 hm with rfl | hm
      · have : decide (Within x r.1) = true := by simp [Within, h1.le, h2.le]
        simp [this]
      · have hna : decide (Within x a.1) = false := by
          rw [decide_eq_false_iff_not]
          rintro ⟨w1, w2⟩
          rcases hl.1 r hm with hh | hh
          · linarith
          · linarith
        simp only [hna]
        exact ih hl.2 hm
  rw [key _ hd hr]
  rfl

/-- C27 (b): every point of an accepted domain, interfaces included, gets the id of an interval
containing it; points outside get 0. -/
theorem C27_total (ms : List Material) (hwf : ∀ m ∈ ms, WellFormed m) (size : ℚ)
    (h : checkBorders ms size = .ok ()) (hlt : ∀ p ∈ ms.flatMap intervals, p.1 < p.2) (x : ℚ) :
    (0 ≤ x → x ≤ size → ∃ r ∈ regions ms, Within x r.1 ∧ findSubdomain ms x = .ok (.one r.2)) ∧
    (x < 0 ∨ size < x → findSubdomain ms x = .ok (.one 0)) := by
  have hne : ms ≠ [] := by
    rintro rfl
    simp [checkBorders, allBorders] at h
  have hsize := checkBorders_nonneg h hlt
  have ht := ((C26_accepts_iff_tiles ms size hne hsize hlt).1 h).2
  rw [findSubdomain_wf hwf]
  constructor
  · intro h0 h1
    obtain ⟨p, hp, hx⟩ := (ht.cover x).2 ⟨h0, h1⟩
    rw [← regions_fst hwf, List.mem_map] at hp
    obtain ⟨r, hr, rfl⟩ := hp
    cases hf : (regions ms).find? fun p => decide (Within x p.1) with
    | none =>
      rw [List.find?_eq_none] at hf
      exact absurd (by simpa using hx) (hf r hr)
    | some r' =>
      refine ⟨r', List.mem_of_find?_eq_some hf, ?_, rfl⟩
      simpa using List.find?_some hf
  · intro hout
    have hf : (regions ms).find? (fun p => decide (Within x p.1)) = none := by
      rw [List.find?_eq_none]
      intro r hr hx
      have := (ht.cover x).1 ⟨r.1, by rw [← regions_fst hwf]; exact List.mem_map_of_mem hr, by simpa using hx⟩
      rcases hout with hh | hh <;> linarith [this.1, this.2]
    rw [hf]; rfl

/-- C27 (c): a single interval written as `[[a, b]]` is accepted by `check_borders` but makes every
lookup that reaches this material raise a `TypeError`. -/
theorem C27_nested_single_crashes (n : ℕ) (p : ℚ × ℚ) (ms : List Material) (x : ℚ) :
    let m : Material := { id := .one n, borders := some (.nested [p]) }
    checkBorders [m] p.2 = checkBorders [{ m with borders := some (.flat p.1 p.2) }] p.2 ∧
    ∃ msg, findSubdomain (m :: ms) x = .error (.typeError msg) := by
  refine ⟨by simp [checkBorders, allBorders, Except.map], _, rfl⟩

/-- C27 (d): a list of ids shorter than the list of intervals is not rejected: points of the
remaining intervals get 0, although the borders are accepted and the ids are unique. -/
theorem C27_short_id_list :
    let m : Material := { id := .many [5], borders := some (.nested [(0, 1), (1, 2)]) }
    checkBorders [m] 2 = .ok () ∧ checkMaterials [m] .plain = .ok () ∧
    findSubdomain [m] (1 / 2) = .ok (.one 5) ∧ findSubdomain [m] (3 / 2) = .ok (.one 0) := by
  decide +kernel

example : findSubdomain exMats (1 / 2) = .ok (.one 2) ∧ findSubdomain exMats (3 / 2) = .ok (.one 3) ∧
    findSubdomain exMats 3 = .ok (.one 1) ∧ regions exMats = [((1, 2), 3), ((2, 4), 1), ((0, 1), 2)] := by
  decide +kernel

/-! ## C29 -/

/-- C29 (a): `check_unique_ids` accepts exactly the lists in which no id occurs twice, within or across
materials. -/
theorem C29_unique_ids (ms : List Material) :
    checkUniqueIds ms = .ok () ↔
      (∀ m ∈ ms, m.id.toList.Nodup) ∧
      ms.Pairwise fun m m' => ∀ i ∈ m.id.toList, i ∉ m'.id.toList := by
  have h1 : checkUniqueIds ms = .ok () ↔ (ms.flatMap fun m => m.id.toList).Nodup := by
    unfold checkUniqueIds
    simp only
    split <;> rename_i h
    · simp only [reduceCtorEq, false_iff]
      intro hn
      exact h (by rw [hn.dedup])
    · simp only [ne_eq, not_not] at h
      simp only [true_iff]
      have := (List.dedup_sublist (ms.flatMap fun m => m.id.toList)).eq_of_length h.symm
      rw [← this]
      exact List.nodup_dedup _
  rw [h1, List.nodup_flatMap]
  constructor
  · rintro ⟨a, b⟩
    refine ⟨a, b.imp ?_⟩
    intro m m' h i hi hi'
    exact h hi hi'
  · rintro ⟨a, b⟩
    refine ⟨a, b.imp ?_⟩
    intro m m' h i hi hi'
    exact h i hi hi'

/-- C29 (b): then looking up an id returns the only material of the list carrying it. -/
theorem C29_lookup_unique (ms : List Material) (h : checkUniqueIds ms = .ok ())
    (m : Material) (hm : m ∈ ms) (i : ℕ) (hi : i ∈ m.id.toList) :
    findFromId ms i = .ok m ∧ ∀ m' ∈ ms, i ∈ m'.id.toList → m' = m := by
  obtain ⟨-, hp⟩ := (C29_unique_ids ms).1 h
  clear h
  induction ms with
  | nil => simp at hm
  | cons a ms ih =>
    rw [List.pairwise_cons] at hp
    rcases List.mem_cons.1 hm with rfl | hm
    · refine ⟨by simp [findFromId, hi], ?_⟩
      intro m' hm' hi'
      rcases List.mem_cons.1 hm' with rfl | hm'
      · rfl
      · exact absurd hi' (hp.1 m' hm' i hi)
    · have hna : i ∉ a.id.toList := fun hia => hp.1 m hm i hia hi
      obtain ⟨i1, i2⟩ := ih hm hp.2
      refine ⟨by simp [findFromId, hna, i1], ?_⟩
      intro m' hm' hi'
      rcases List.mem_cons.1 hm' with rfl | hm'
      · exact absurd hi' hna
      · exact i2 m' hm' hi'

/-- C29 (c): looking up an id that no material carries raises `ValueError`. -/
theorem C29_lookup_missing (ms : List Material) (i : ℕ) :
    (∃ msg, findFromId ms i = .error (.valueError msg)) ↔ ∀ m ∈ ms, i ∉ m.id.toList := by
  induction ms with
  | nil => simp [findFromId]
  | cons a ms ih =>
    by_cases ha : i ∈ a.id.toList
    · simp [findFromId, ha]
    · simp [findFromId, ha, ih]

example : checkUniqueIds exMats = .ok () ∧
    checkUniqueIds ({ id := .one 2 } :: exMats) ≠ .ok () ∧ checkUniqueIds [{ id := .many [1, 1] }] ≠ .ok () := by
  decide +kernel

/-! ## C28 -/

theorem markCells_ok {ms : List Material} : ∀ {cs : List (ℚ × ℚ)} {vm : List ℕ},
    markCells ms cs = .ok vm → vm.length = cs.length ∧
      ∀ k, ∀ h : k < cs.length, ∀ h' : k < vm.length, volumeMarker ms cs[k] = .ok vm[k]
  | [], vm, h => by cases h; simp
  | c :: cs, vm, h => by
    simp only [markCells] at h
    split at h
    · cases h
    · rename_i n hn
      split at h
      · cases h
      · rename_i l hl
        cases h
        obtain ⟨i1, i2⟩ := markCells_ok hl
        refine ⟨by simp [i1], ?_⟩
        intro k hk hk'
        cases k with
        | zero => simpa using hn
        | succ k => simpa using i2 k (by simpa using hk) (by simpa using hk')

theorem mem_regions {ms : List Material} {r : (ℚ × ℚ) × ℕ} (h : r ∈ regions ms) :
    ∃ m ∈ ms, r.1 ∈ intervals m ∧ r.2 ∈ m.id.toList := by
  simp only [regions, List.mem_flatMap] at h
  obtain ⟨m, hm, hr⟩ := h
  have h1 := List.of_mem_zip hr
  refine ⟨m, hm, h1.1, ?_⟩
  have h2 := h1.2
  unfold intervalIds at h2
  cases hid : m.id with
  | one n => rw [hid] at h2; simp at h2; simp [MatId.toList, h2.2]
  | many l => rw [hid] at h2; simpa [MatId.toList] using h2

theorem max_spec {vs : List ℚ} {m : ℚ} (h : meshSize vs = .ok m) : m ∈ vs ∧ ∀ v ∈ vs, v ≤ m := by
  unfold meshSize at h
  split at h
  · cases h
  · rename_i k hk
    cases h
    exact List.max?_eq_some_iff.1 hk

theorem min_spec {vs : List ℚ} {m : ℚ} (h : meshStart vs = .ok m) : m ∈ vs ∧ ∀ v ∈ vs, m ≤ v := by
  unfold meshStart at h
  split at h
  · cases h
  · rename_i k hk
    cases h
    exact List.min?_eq_some_iff.1 hk

theorem defineMeasures_ok {eps : ℚ} {ms : List Material} {vs : List ℚ} {vm sm : List ℕ}
    (h : defineMeasures eps ms vs = .ok (vm, sm)) :
    ∃ size start, meshSize vs = .ok size ∧ meshStart vs = .ok start ∧ ms ≠ [] ∧
      (∀ m ∈ ms.head?, m.borders.isSome → checkBorders ms size = .ok ()) ∧
      markCells ms (meshCells vs) = .ok vm ∧
      sm = (meshVertices vs).map (surfaceMarker eps start size) := by
  unfold defineMeasures at h
  split at h
  · cases h
  · cases h
  · rename_i size start h1 h2
    split at h
    · cases h
    · split at h
      · cases h
      · rename_i m ms'
        split at h
        · cases h
        · rename_i u hb
          split at h
          · cases h
          · rename_i vm' hv
            cases h
            refine ⟨size, start, h1, h2, by simp, ?_, hv, rfl⟩
            rintro m' ⟨⟩ hsome
            rw [if_pos hsome] at hb
            exact hb

/-- C28 (a): in an accepted 1D problem whose mesh starts at a nonnegative coordinate, each cell is
marked with the id of an interval containing its midpoint, and looking up that id returns a material
occupying this interval. If all interval ends inside the mesh are vertices, the whole cell lies in
the interval. -/
theorem C28_cell_markers (eps : ℚ) (ms : List Material) (hwf : ∀ m ∈ ms, WellFormed m)
    (hlt : ∀ p ∈ ms.flatMap intervals, p.1 < p.2) (hids : checkUniqueIds ms = .ok ())
    (vs : List ℚ) (hpos : ∀ v ∈ vs, 0 ≤ v) (vm sm : List ℕ)
    (h : defineMeasures eps ms vs = .ok (vm, sm)) :
    vm.length = (meshCells vs).length ∧
    ∀ k, ∀ hk : k < (meshCells vs).length, ∀ hk' : k < vm.length,
      ∃ m ∈ ms, ∃ p ∈ intervals m,
        Within (((meshCells vs)[k].1 + (meshCells vs)[k].2) / 2) p ∧
        findFromId ms vm[k] = .ok m ∧
        ((∀ q ∈ ms.flatMap intervals, ∀ e, e = q.1 ∨ e = q.2 →
            (∃ v ∈ vs, v ≤ e) → (∃ v ∈ vs, e ≤ v) → e ∈ vs) →
          p.1 ≤ (meshCells vs)[k].1 ∧ (meshCells vs)[k].2 ≤ p.2) := by
  obtain ⟨size, start, h1, h2, hne, hb, hv, -⟩ := defineMeasures_ok h
  have hcb : checkBorders ms size = .ok () := by
    cases ms with
    | nil => exact absurd rfl hne
    | cons m ms =>
      apply hb m (by simp)
      obtain ⟨⟨b, hb⟩, -⟩ := hwf m (by simp)
      simp [hb]
  obtain ⟨hlen, hmk⟩ := markCells_ok hv
  refine ⟨hlen, fun k hk hk' => ?_⟩
  have hvm := hmk k hk hk'
  obtain ⟨c1, c2, c3, c4⟩ := zip_tail_spec (meshVertices_sorted vs) _ (List.getElem_mem hk)
  change (meshCells vs)[k].1 ∈ _ at c1
  change (meshCells vs)[k].2 ∈ _ at c2
  change (meshCells vs)[k].1 < (meshCells vs)[k].2 at c3
  change ∀ v ∈ meshVertices vs, v ≤ (meshCells vs)[k].1 ∨ (meshCells vs)[k].2 ≤ v at c4
  rw [mem_meshVertices] at c1 c2
  have hc2 := (max_spec h1).2 _ c2
  have hc1 := hpos _ c1
  obtain ⟨r, hr, hx, hf⟩ := (C27_total ms hwf size hcb hlt
    (((meshCells vs)[k].1 + (meshCells vs)[k].2) / 2)).1 (by linarith) (by linarith)
  have hn : vm[k] = r.2 := by
    unfold volumeMarker at hvm
    rw [hf] at hvm
    exact (Except.ok.inj hvm).symm
  obtain ⟨m, hm, hi, hid⟩ := mem_regions hr
  refine ⟨m, hm, r.1, hi, hx, ?_, ?_⟩
  · rw [hn]; exact (C29_lookup_unique ms hids m hm _ hid).1
  · intro hends
    have hrm : r.1 ∈ ms.flatMap intervals := List.mem_flatMap.2 ⟨m, hm, hi⟩
    have hx1 := hx.1
    have hx2 := hx.2
    constructor
    · by_contra hc
      rw [not_le] at hc
      have := hends r.1 hrm r.1.1 (.inl rfl) ⟨_, c1, hc.le⟩ ⟨_, c2, by linarith⟩
      rcases c4 _ (mem_meshVertices.2 this) with hh | hh <;> linarith
    · by_contra hc
      rw [not_le] at hc
      have := hends r.1 hrm r.1.2 (.inr rfl) ⟨_, c1, by linarith⟩ ⟨_, c2, hc.le⟩
      rcases c4 _ (mem_meshVertices.2 this) with hh | hh <;> linarith

/-- C28 (b): the nonnegativity hypothesis is needed: borders must begin at 0, so a cell of a mesh that
begins below 0 is marked 0, and no material is found for it unless one has id 0. -/
theorem C28_negative_cells (ms : List Material) (hwf : ∀ m ∈ ms, WellFormed m)
    (hlt : ∀ p ∈ ms.flatMap intervals, p.1 < p.2) (size : ℚ) (h : checkBorders ms size = .ok ())
    (c : ℚ × ℚ) (hneg : c.1 + c.2 < 0) : volumeMarker ms c = .ok 0 := by
  unfold volumeMarker
  rw [(C27_total ms hwf size h hlt _).2 (.inl (by linarith))]

/-- C28 (c): a single material without borders marks every cell with its id. -/
theorem C28_single_material (n : ℕ) (m : Material) (hid : m.id = .one n) (hb : m.borders = none)
    (eps : ℚ) (vs : List ℚ) (hne : vs ≠ []) :
    ∃ sm, defineMeasures eps [m] vs = .ok (List.replicate (meshCells vs).length n, sm) := by
  have hv : ∀ c, volumeMarker [m] c = .ok n := by
    intro c; simp [volumeMarker, findSubdomain, Material.findAt, hb, hid]
  have hm : ∀ cs, markCells [m] cs = .ok (List.replicate cs.length n) := by
    intro cs
    induction cs with
    | nil => rfl
    | cons c cs ih => simp [markCells, hv, ih, List.replicate_succ]
  have h1 : ∃ a, meshSize vs = .ok a := by
    unfold meshSize
    cases hx : vs.max? with
    | none => exact absurd (List.max?_eq_none_iff.1 hx) hne
    | some a => exact ⟨a, rfl⟩
  have h2 : ∃ a, meshStart vs = .ok a := by
    unfold meshStart
    cases hx : vs.min? with
    | none => exact absurd (List.min?_eq_none_iff.1 hx) hne
    | some a => exact ⟨a, rfl⟩
  obtain ⟨a, h1⟩ := h1
  obtain ⟨b, h2⟩ := h2
  exact ⟨_, by simp [defineMeasures, h1, h2, hb, hm]; rfl⟩

example : defineMeasures 0 exMats [4, 1, 2, 0, 1, 3] = .ok ([2, 3, 1, 1], [1, 0, 0, 0, 2]) := by
  decide +kernel

/-! ## C30 -/

/-- C30 (a): `check_consistency` accepts exactly when each optional property is given for all
materials or for none. -/
theorem C30_all_or_none (ms : List Material) :
    checkConsistency ms = .ok () ↔
      ∀ f ∈ [(·.S0), (·.ES), (·.thermalCond), (·.heatCapacity), (·.rho),
          fun m : Material => m.borders.isSome, (·.Q)],
        (∀ m ∈ ms, f m = true) ∨ (∀ m ∈ ms, f m = false) := by
  have key : ∀ l : List (String × (Material → Bool)), checkAttrs ms l = .ok () ↔
      ∀ p ∈ l, (∀ m ∈ ms, p.2 m = true) ∨ (∀ m ∈ ms, p.2 m = false) := by
    intro l
    induction l with
    | nil => simp [checkAttrs]
    | cons p l ih =>
      obtain ⟨n, f⟩ := p
      have hc : (ms.countP (fun m => !f m) = 0 ∨ ms.countP (fun m => !f m) = ms.length) ↔
          (∀ m ∈ ms, f m = true) ∨ (∀ m ∈ ms, f m = false) := by
        rw [List.countP_eq_zero, List.countP_eq_length]
        simp
      simp only [checkAttrs, List.forall_mem_cons]
      rw [← hc, ← ih]
      split <;> rename_i h
      · simp only [reduceCtorEq, false_iff, not_and_or]
        left; tauto
      · constructor
        · intro hh; exact ⟨by tauto, hh⟩
        · rintro ⟨-, hh⟩; exact hh
  unfold checkConsistency
  rw [key]
  simp [consistencyAttrs]

/-- C30: when `check_consistency` refuses, the ValueError names a property which some materials define and
others do not. -/
theorem C30_names (ms : List Material) (e : PyErr) (h : checkConsistency ms = .error e) :
    ∃ name f, (name, f) ∈ ([("S_0", (·.S0)), ("E_S", (·.ES)), ("thermal_cond", (·.thermalCond)),
        ("heat_capacity", (·.heatCapacity)), ("rho", (·.rho)),
        ("borders", fun m : Material => m.borders.isSome), ("Q", (·.Q))] : List (String × (Material → Bool))) ∧
      e = .valueError (name ++ " is not defined for all materials") ∧
      (∃ m ∈ ms, f m = true) ∧ ∃ m ∈ ms, f m = false := by
  have key : ∀ l : List (String × (Material → Bool)), checkAttrs ms l = .error e →
      ∃ name f, (name, f) ∈ l ∧ e = .valueError (name ++ " is not defined for all materials") ∧
        (∃ m ∈ ms, f m = true) ∧ ∃ m ∈ ms, f m = false := by
    intro l
    induction l with
    | nil => intro h; simp [checkAttrs] at h
    | cons p l ih =>
      obtain ⟨n, f⟩ := p
      intro h
      simp only [checkAttrs] at h
      split at h
      · rename_i hc
        obtain ⟨h0, h1⟩ := hc
        simp only [Except.error.injEq] at h
        refine ⟨n, f, by simp, h.symm, ?_, ?_⟩
        · by_contra hn
          push Not at hn
          exact h1 (List.countP_eq_length.2 fun m hm => by simpa using hn m hm)
        · by_contra hn
          push Not at hn
          exact h0 (List.countP_eq_zero.2 fun m hm => by simpa using hn m hm)
      · obtain ⟨name, g, hg, r⟩ := ih h
        exact ⟨name, g, by simp [hg], r⟩
  exact key _ h

/-- **C30.** A material can be created exactly when its solubility has both its parameters or none; otherwise the ValueError
names the missing one. -/
theorem C30_solubility (m : Material) :
    (m.check = .ok () ↔ m.S0 = m.ES) ∧
    (m.check = .error (.valueError "S_0 cannot be None") ↔ m.S0 = false ∧ m.ES = true) ∧
    (m.check = .error (.valueError "E_S cannot be None") ↔ m.S0 = true ∧ m.ES = false) := by
  unfold Material.check
  cases m.S0 <;> cases m.ES <;> simp

/-- C30 (b'): when properties needed by the heat transfer problem are missing, the `ValueError` names the
first of `thermal_cond`, `heat_capacity` and `rho` which is. -/
theorem C30_missing_named (m : Material) (ms : List Material) (T : TempKind) (e : PyErr)
    (h : checkMissing (m :: ms) T = .error e) :
    ∃ tr, T = .heatTransfer tr ∧
      ((m.thermalCond = false ∧ e = .valueError "Missing thermal_cond in materials") ∨
       (tr = true ∧ m.thermalCond = true ∧ m.heatCapacity = false ∧
          e = .valueError "Missing heat_capacity in materials") ∨
       (tr = true ∧ m.thermalCond = true ∧ m.heatCapacity = true ∧ m.rho = false ∧
          e = .valueError "Missing rho in materials")) := by
  cases T with
  | plain => cases h
  | heatTransfer tr =>
    refine ⟨tr, rfl, ?_⟩
    simp only [checkMissing] at h
    split at h
    · rename_i h1; cases h; exact .inl ⟨h1, rfl⟩
    · rename_i h1
      rw [Bool.not_eq_false] at h1
      split at h
      · rename_i h0
        split at h
        · rename_i h2; cases h; exact .inr (.inl ⟨h0, h1, h2, rfl⟩)
        · rename_i h2
          rw [Bool.not_eq_false] at h2
          split at h
          · rename_i h3; cases h; exact .inr (.inr ⟨h0, h1, h2, h3, rfl⟩)
          · cases h
      · cases h

/-- C30 (b): after the consistency check, `check_missing_properties` raises exactly when a property
needed by the heat transfer problem is missing in some material. -/
theorem C30_missing (ms : List Material) (hne : ms ≠ []) (T : TempKind)
    (hcons : checkConsistency ms = .ok ()) :
    checkMissing ms T = .ok () ↔
      match T with
      | .plain => True
      | .heatTransfer tr => (∀ m ∈ ms, m.thermalCond = true) ∧
          (tr = true → ∀ m ∈ ms, m.heatCapacity = true ∧ m.rho = true) := by
  rw [C30_all_or_none] at hcons
  have a1 := hcons (·.thermalCond) (by simp)
  have a2 := hcons (·.heatCapacity) (by simp)
  have a3 := hcons (·.rho) (by simp)
  cases ms with
  | nil => exact absurd rfl hne
  | cons m ms =>
    have lift : ∀ f : Material → Bool,
        ((∀ x ∈ m :: ms, f x = true) ∨ (∀ x ∈ m :: ms, f x = false)) →
        ((∀ x ∈ m :: ms, f x = true) ↔ f m = true) := by
      intro f hf
      constructor
      · intro h; exact h m (by simp)
      · intro h
        rcases hf with hf | hf
        · exact hf
        · have := hf m (by simp); rw [h] at this; cases this
    have b1 := lift _ a1
    have b2 := lift _ a2
    have b3 := lift _ a3
    cases T with
    | plain => simp [checkMissing]
    | heatTransfer tr =>
      simp only [checkMissing]
      have e : (∀ x ∈ m :: ms, x.heatCapacity = true ∧ x.rho = true) ↔
          m.heatCapacity = true ∧ m.rho = true := by
        rw [← b2, ← b3]
        constructor
        · intro h; exact ⟨fun x hx => (h x hx).1, fun x hx => (h x hx).2⟩
        · rintro ⟨h1, h2⟩ x hx; exact ⟨h1 x hx, h2 x hx⟩
      rw [b1, e]
      cases m.thermalCond <;> cases m.heatCapacity <;> cases m.rho <;> cases tr <;> simp

example : checkConsistency exMats = .ok () ∧
    checkConsistency [{ id := .one 1, S0 := true }, { id := .one 2 }] ≠ .ok () ∧
    checkMissing exMats (.heatTransfer true) ≠ .ok () ∧
    checkMissing [{ id := .one 1, thermalCond := true }] (.heatTransfer false) = .ok () := by
  decide +kernel

/-! ## C31 -/

/-- C31 (a): the mesh only depends on the set of vertices. -/
theorem C31_order_duplicates (vs vs' : List ℚ) (h : ∀ x, x ∈ vs ↔ x ∈ vs') :
    meshVertices vs = meshVertices vs' ∧ meshCells vs = meshCells vs' := by
  have : meshVertices vs = meshVertices vs' := by
    apply List.Perm.eq_of_pairwise (le := (· < ·))
    · intro a b _ _ hab hba; exact absurd hba (not_lt.2 hab.le)
    · exact meshVertices_sorted vs
    · exact meshVertices_sorted vs'
    · rw [List.perm_ext_iff_of_nodup ((meshVertices_sorted vs).imp fun h => h.ne)
        ((meshVertices_sorted vs').imp fun h => h.ne)]
      intro x
      have := h x
      rw [← mem_meshVertices, ← mem_meshVertices (vs := vs')] at this
      exact this
  exact ⟨this, by unfold meshCells; rw [this]⟩

theorem zip_tail_cover : ∀ {l : List ℚ}, l.Pairwise (· < ·) → ∀ x, (∃ a ∈ l, a ≤ x) →
    (∃ b ∈ l, x < b) → ∃ c ∈ l.zip l.tail, c.1 ≤ x ∧ x < c.2
  | [], _, x, ⟨a, ha, _⟩, _ => by simp at ha
  | [a], _, x, ⟨a', ha, h1⟩, ⟨b, hb, h2⟩ => by
    simp at ha hb; subst ha; subst hb; exact absurd h2 (not_lt.2 h1)
  | a :: b :: l, h, x, h1, h2 => by
    rw [List.pairwise_cons] at h
    by_cases hb : b ≤ x
    · obtain ⟨c, hc⟩ := zip_tail_cover h.2 x ⟨b, by simp, hb⟩ (by
        obtain ⟨d, hd, hx⟩ := h2
        rcases List.mem_cons.1 hd with rfl | hd
        · exact absurd hx (not_lt.2 ((h.1 b (by simp)).le.trans hb))
        · exact ⟨d, hd, hx⟩)
      exact ⟨c, by simpa using Or.inr hc.1, hc.2⟩
    · refine ⟨(a, b), by simp, ?_, not_le.1 hb⟩
      obtain ⟨d, hd, hx⟩ := h1
      rcases List.mem_cons.1 hd with rfl | hd
      · exact hx
      · exfalso
        rcases List.mem_cons.1 hd with rfl | hd
        · exact hb hx
        · exact hb (((List.pairwise_cons.1 h.2).1 d hd).le.trans hx)

/-- C31 (b): each cell joins two given vertices with none in between, and the cells cover every point
between the smallest and the largest vertex. -/
theorem C31_cells (vs : List ℚ) :
    (∀ c ∈ meshCells vs, c.1 ∈ vs ∧ c.2 ∈ vs ∧ c.1 < c.2 ∧ ∀ v ∈ vs, v ≤ c.1 ∨ c.2 ≤ v) ∧
    (∀ x, (∃ a ∈ vs, a ≤ x) → (∃ b ∈ vs, x < b) → ∃ c ∈ meshCells vs, c.1 ≤ x ∧ x < c.2) ∧
    (meshCells vs).length + 1 = max 1 (meshVertices vs).length := by
  refine ⟨?_, ?_, ?_⟩
  · intro c hc
    obtain ⟨h1, h2, h3, h4⟩ := zip_tail_spec (meshVertices_sorted vs) c hc
    rw [mem_meshVertices] at h1 h2
    exact ⟨h1, h2, h3, fun v hv => h4 v (mem_meshVertices.2 hv)⟩
  · rintro x ⟨a, ha, hax⟩ ⟨b, hb, hbx⟩
    exact zip_tail_cover (meshVertices_sorted vs) x ⟨a, mem_meshVertices.2 ha, hax⟩
      ⟨b, mem_meshVertices.2 hb, hbx⟩
  · simp only [meshCells, List.length_zip, List.length_tail]
    omega

/-- C31 (c): size and start are the extreme vertices. -/
theorem C31_extent (vs : List ℚ) (size start : ℚ) (h1 : meshSize vs = .ok size)
    (h2 : meshStart vs = .ok start) :
    size ∈ vs ∧ start ∈ vs ∧ ∀ v ∈ vs, start ≤ v ∧ v ≤ size :=
  ⟨(max_spec h1).1, (min_spec h2).1, fun v hv => ⟨(min_spec h2).2 v hv, (max_spec h1).2 v hv⟩⟩

example : meshCells [4, 1, 2, 0, 1, 3] = [(0, 1), (1, 2), (2, 3), (3, 4)] ∧
    meshSize [4, 1, 2, 0, 1, 3] = .ok 4 ∧ meshStart [4, 1, 2, 0, 1, 3] = .ok 0 := by decide +kernel

/-! ## C32 -/

/-- C32 (a): if distinct vertices are more than `eps` apart and there are at least two of them, the
first facet is marked 1, the last 2 and all the others 0. -/
theorem C32_surface_markers (eps : ℚ) (heps : 0 ≤ eps) (vs : List ℚ) (size start : ℚ)
    (h1 : meshSize vs = .ok size) (h2 : meshStart vs = .ok start) (hne : start ≠ size)
    (hsep : ∀ a ∈ vs, ∀ b ∈ vs, a ≠ b → eps < |a - b|) (x : ℚ) (hx : x ∈ vs) :
    surfaceMarker eps start size x = if x = start then 1 else if x = size then 2 else 0 := by
  have hs := (max_spec h1).1
  have ht := (min_spec h2).1
  have n1 : near eps x start = decide (x = start) := by
    unfold near
    by_cases h : x = start
    · simp [h, heps]
    · have := hsep x hx start ht h
      simp [h, this]
  have n2 : near eps x size = decide (x = size) := by
    unfold near
    by_cases h : x = size
    · simp [h, heps]
    · have := hsep x hx size hs h
      simp [h, this]
  unfold surfaceMarker
  rw [n1, n2]
  by_cases h : x = size
  · simp [h, Ne.symm hne]
  · simp [h]

/-- C32 (b): when the mesh is not longer than the tolerance, no facet is marked 1. -/
theorem C32_short_mesh (eps : ℚ) (vs : List ℚ) (size start : ℚ)
    (h1 : meshSize vs = .ok size) (h2 : meshStart vs = .ok start) (hshort : size - start ≤ eps)
    (x : ℚ) (hx : x ∈ vs) : surfaceMarker eps start size x = 2 := by
  have := (max_spec h1).2 x hx
  have := (min_spec h2).2 x hx
  have hn : near eps x size = true := by
    simp only [near, decide_eq_true_eq, abs_le]
    constructor <;> linarith
  simp [surfaceMarker, hn]

/-- C32 (c): the list of surface markers produced by `define_measures`. -/
theorem C32_marker_list (eps : ℚ) (heps : 0 ≤ eps) (ms : List Material) (vs : List ℚ)
    (hsep : ∀ a ∈ vs, ∀ b ∈ vs, a ≠ b → eps < |a - b|) (vm sm : List ℕ)
    (h : defineMeasures eps ms vs = .ok (vm, sm)) (hlen : 2 ≤ (meshVertices vs).length) :
    sm = 1 :: List.replicate ((meshVertices vs).length - 2) 0 ++ [2] := by
  obtain ⟨size, start, h1, h2, -, -, -, rfl⟩ := defineMeasures_ok h
  have hs := meshVertices_sorted vs
  have hmem : ∀ x ∈ meshVertices vs, x ∈ vs := fun x hx => mem_meshVertices.1 hx
  have hmem' : ∀ x ∈ vs, x ∈ meshVertices vs := fun x hx => mem_meshVertices.2 hx
  generalize hL : meshVertices vs = L at *
  match L, hlen with
  | a :: b :: l, _ =>
    obtain ⟨mid, z, hz⟩ : ∃ mid z, b :: l = mid ++ [z] := by
      rcases List.eq_nil_or_concat' (b :: l) with h | ⟨m, z, h⟩
      · simp at h
      · exact ⟨m, z, h⟩
    rw [hz] at hs hmem hmem' ⊢
    have hs' := hs
    rw [List.pairwise_cons, List.pairwise_append] at hs
    obtain ⟨p1, p2, -, p3⟩ := hs
    have ha : start = a := by
      have h3 := min_spec h2
      have h4 := hmem' _ h3.1
      have h5 := h3.2 a (hmem a (by simp))
      rcases List.mem_cons.1 h4 with h | h
      · exact h
      · exact absurd (p1 _ h) (not_lt.2 h5)
    have hz' : size = z := by
      have h3 := max_spec h1
      have h4 := hmem' _ h3.1
      have h5 := h3.2 z (hmem z (by simp))
      rcases List.mem_cons.1 h4 with h | h
      · exact absurd (p1 z (by simp)) (not_lt.2 (h ▸ h5))
      · rw [List.mem_append, List.mem_singleton] at h
        rcases h with h | h
        · exact absurd (p3 _ h z (by simp)) (not_lt.2 h5)
        · exact h
    have haz : a < z := p1 z (by simp)
    have key : ∀ x ∈ a :: (mid ++ [z]), surfaceMarker eps start size x =
        if x = a then 1 else if x = z then 2 else 0 := by
      intro x hx
      have := C32_surface_markers eps heps vs size start h1 h2 (by rw [ha, hz']; exact haz.ne) hsep x
        (hmem x hx)
      rw [ha, hz'] at this ⊢
      exact this
    rw [List.map_cons, List.map_append, List.map_singleton]
    rw [key a (by simp), key z (by simp)]
    have hmid : mid.map (surfaceMarker eps start size) = List.replicate mid.length 0 := by
      rw [List.eq_replicate_iff]
      refine ⟨by simp, ?_⟩
      intro y hy
      rw [List.mem_map] at hy
      obtain ⟨x, hx, rfl⟩ := hy
      rw [key x (by simp [hx])]
      have h3 : x ≠ a := (p1 x (by simp [hx])).ne'
      have h4 : x ≠ z := (p3 x hx z (by simp)).ne
      simp [h3, h4]
    rw [hmid]
    have hl : (a :: (mid ++ [z])).length - 2 = mid.length := by simp
    rw [hl]
    simp [haz.ne']

example : (∃ vm, defineMeasures (3 / 10 ^ 16) exMats [4, 1, 2, 0, 1, 3] = .ok (vm, [1, 0, 0, 0, 2])) :=
  ⟨[2, 3, 1, 1], by decide +kernel⟩

/-! ## C33 -/

/-- C33 (a): lookups by id, by name and by object agree in a list with unique ids and names. -/
theorem C33_lookups_agree (ms : List Material) (hids : checkUniqueIds ms = .ok ())
    (hnames : ms.Pairwise fun m m' => ∀ s, m.name = some s → m'.name ≠ some s)
    (m : Material) (hm : m ∈ ms) (i : ℕ) (hi : i ∈ m.id.toList) (s : String) (hs : m.name = some s) :
    findMaterial ms (.int i) = .ok (some m) ∧ findMaterial ms (.str s) = .ok (some m) ∧
      findMaterial ms (.mat m) = .ok (some m) := by
  refine ⟨by simp [findMaterial, (C29_lookup_unique ms hids m hm i hi).1, Except.map], ?_, rfl⟩
  have : findFromName ms s = .ok m := by
    clear hids
    induction ms with
    | nil => simp at hm
    | cons a ms ih =>
      rw [List.pairwise_cons] at hnames
      rcases List.mem_cons.1 hm with rfl | hm
      · simp [findFromName, hs]
      · have : a.name ≠ some s := fun h => hnames.1 m hm s h hs
        simp [findFromName, this, ih hnames.2 hm]
  simp [findMaterial, this, Except.map]

theorem findFromId_sound {ms : List Material} {m : Material} {i : ℕ}
    (h : findFromId ms i = .ok m) : m ∈ ms ∧ i ∈ m.id.toList := by
  induction ms with
  | nil => simp [findFromId] at h
  | cons a ms ih =>
    simp only [findFromId] at h
    split at h
    · cases h; rename_i hi; exact ⟨by simp, hi⟩
    · exact ⟨List.mem_cons_of_mem _ (ih h).1, (ih h).2⟩

theorem findFromName_sound {ms : List Material} {m : Material} {s : String}
    (h : findFromName ms s = .ok m) : m ∈ ms ∧ m.name = some s := by
  induction ms with
  | nil => simp [findFromName] at h
  | cons a ms ih =>
    simp only [findFromName] at h
    split at h
    · cases h; rename_i hi; exact ⟨by simp, hi⟩
    · exact ⟨List.mem_cons_of_mem _ (ih h).1, (ih h).2⟩

/-- C33 (b): a lookup by id or name that returns, returns a material of the list with that id or
name; it raises exactly if no material has the id or name, and then it raises ValueError. -/
theorem C33_lookup_sound (ms : List Material) :
    (∀ i m, findMaterial ms (.int i) = .ok (some m) → m ∈ ms ∧ i ∈ m.id.toList) ∧
    (∀ s m, findMaterial ms (.str s) = .ok (some m) → m ∈ ms ∧ m.name = some s) ∧
    (∀ i e, findMaterial ms (.int i) = .error e →
      (∃ msg, e = .valueError msg) ∧ ∀ m ∈ ms, i ∉ m.id.toList) ∧
    (∀ s e, findMaterial ms (.str s) = .error e →
      (∃ msg, e = .valueError msg) ∧ ∀ m ∈ ms, m.name ≠ some s) ∧
    (∀ i, (∃ m ∈ ms, i ∈ m.id.toList) → ∃ m, findMaterial ms (.int i) = .ok (some m)) ∧
    ∀ s, (∃ m ∈ ms, m.name = some s) → ∃ m, findMaterial ms (.str s) = .ok (some m) := by
  have e1 : ∀ i e, findFromId ms i = .error e → (∃ msg, e = .valueError msg) ∧ ∀ m ∈ ms, i ∉ m.id.toList := by
    intro i e h
    induction ms with
    | nil =>
      simp only [findFromId, Except.error.injEq] at h
      exact ⟨⟨_, h.symm⟩, by simp⟩
    | cons a ms ih =>
      unfold findFromId at h
      split_ifs at h with ha
      obtain ⟨h1, h2⟩ := ih h
      exact ⟨h1, by simpa using ⟨by simpa using ha, by simpa using h2⟩⟩
  have e2 : ∀ s e, findFromName ms s = .error e → (∃ msg, e = .valueError msg) ∧ ∀ m ∈ ms, m.name ≠ some s := by
    intro s e h
    clear e1
    induction ms with
    | nil =>
      simp only [findFromName, Except.error.injEq] at h
      exact ⟨⟨_, h.symm⟩, by simp⟩
    | cons a ms ih =>
      unfold findFromName at h
      split_ifs at h with ha
      obtain ⟨h1, h2⟩ := ih h
      exact ⟨h1, by simpa using ⟨ha, by simpa using h2⟩⟩
  refine ⟨fun i m h => ?_, fun s m h => ?_, fun i e h => ?_, fun s e h => ?_, fun i h => ?_, fun s h => ?_⟩
  · cases hf : findFromId ms i with
    | error e => simp [findMaterial, hf, Except.map] at h
    | ok a => simp [findMaterial, hf, Except.map] at h; subst h; exact findFromId_sound hf
  · cases hf : findFromName ms s with
    | error e => simp [findMaterial, hf, Except.map] at h
    | ok a => simp [findMaterial, hf, Except.map] at h; subst h; exact findFromName_sound hf
  · cases hf : findFromId ms i with
    | ok a => simp [findMaterial, hf, Except.map] at h
    | error e' => simp [findMaterial, hf, Except.map] at h; subst h; exact e1 i _ hf
  · cases hf : findFromName ms s with
    | ok a => simp [findMaterial, hf, Except.map] at h
    | error e' => simp [findMaterial, hf, Except.map] at h; subst h; exact e2 s _ hf
  · cases hf : findFromId ms i with
    | ok a => exact ⟨a, by simp [findMaterial, hf, Except.map]⟩
    | error e =>
      obtain ⟨m, hm, hi⟩ := h
      exact absurd hi ((e1 i e hf).2 m hm)
  · cases hf : findFromName ms s with
    | ok a => exact ⟨a, by simp [findMaterial, hf, Except.map]⟩
    | error e =>
      obtain ⟨m, hm, hi⟩ := h
      exact absurd hi ((e2 s e hf).2 m hm)

/-- C33 (c): any other type of tag (such as a numpy integer) is not rejected: the lookup returns
`None`. -/
theorem C33_other_tag_none (ms : List Material) : findMaterial ms .other = .ok none := rfl

example : checkUniqueIds exMats = .ok () ∧ (∃ m ∈ exMats, 2 ∈ m.id.toList ∧ m.name = some "Cu") := by
  refine ⟨by decide +kernel, _, List.mem_cons_of_mem _ (List.mem_cons_self ..), by decide, rfl⟩

end Festim.Props
