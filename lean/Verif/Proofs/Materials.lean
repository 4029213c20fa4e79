import Verif.Spec.Materials
import Mathlib.Data.List.Sort
import Mathlib.Tactic.Linarith
import Mathlib.Algebra.BigOperators.Group.List.Basic

/-! # Lemmas about materials -/

namespace Festim

open Spec

/-- Consecutive intervals from `a` to `b`. -/
def Chained (b : ℚ) : ℚ → List (ℚ × ℚ) → Prop
  | a, [] => a = b
  | a, p :: l => p.1 = a ∧ Chained b p.2 l

theorem checkChain_ok {size : ℚ} : ∀ {p : ℚ × ℚ} {l : List (ℚ × ℚ)},
    checkChain size (p :: l) = .ok () ↔ Chained size p.2 l
  | p, [] => by
    simp only [checkChain, Chained]
    split <;> rename_i h
    · simp [h]
    · simp only [ne_eq, not_not] at h; simp [h]
  | p, q :: l => by
    simp only [checkChain, Chained]
    split <;> rename_i h
    · simp only [reduceCtorEq, false_iff]
      rintro ⟨h1, -⟩; exact h h1.symm
    · simp only [ne_eq, not_not] at h
      rw [checkChain_ok]
      simp [h]

theorem checkBorders_ok {ms : List Material} {size : ℚ} :
    checkBorders ms size = .ok () ↔ ∃ bs, allBorders ms = .ok bs ∧ bs ≠ [] ∧
      Chained size 0 (bs.insertionSort fun p q => p.1 ≤ q.1) := by
  unfold checkBorders
  cases h : allBorders ms with
  | error e => simp
  | ok bs =>
    simp only [Except.ok.injEq, exists_eq_left']
    have hlen := List.length_insertionSort (fun p q : ℚ × ℚ => p.1 ≤ q.1) bs
    split
    · rename_i hs
      rw [hs] at hlen
      have : bs = [] := List.eq_nil_of_length_eq_zero (by simpa using hlen.symm)
      simp [this]
    · rename_i p l hs
      have hne : bs ≠ [] := by rintro rfl; simp [hs] at hlen
      rw [hs]
      simp only [Chained, hne, ne_eq, not_false_eq_true, true_and]
      split <;> rename_i h0
      · simp [h0]
      · simp only [not_not] at h0
        rw [checkChain_ok]; simp [h0]

theorem Chained.le {b : ℚ} : ∀ {a : ℚ} {l : List (ℚ × ℚ)}, Chained b a l →
    (∀ p ∈ l, p.1 < p.2) → a ≤ b ∧ ∀ p ∈ l, a ≤ p.1 ∧ p.2 ≤ b
  | a, [], h, _ => ⟨le_of_eq h, by simp⟩
  | a, p :: l, ⟨h1, h2⟩, hlt => by
    obtain ⟨i1, i2⟩ := h2.le fun q hq => hlt q (by simp [hq])
    have := hlt p (by simp)
    refine ⟨by linarith, ?_⟩
    intro q hq
    rcases List.mem_cons.1 hq with rfl | hq
    · exact ⟨h1.ge, i1⟩
    · exact ⟨by linarith [(i2 q hq).1], (i2 q hq).2⟩

theorem Chained.tiles {b : ℚ} : ∀ {a : ℚ} {l : List (ℚ × ℚ)}, l ≠ [] → Chained b a l →
    (∀ p ∈ l, p.1 < p.2) → Tiles l a b
  | a, [], hne, _, _ => absurd rfl hne
  | a, [p], _, ⟨h1, h2⟩, hlt => by
    simp only [Chained] at h2
    refine ⟨fun x => ?_, by simp⟩
    simp [Within, h1, h2]
  | a, p :: q :: l, _, ⟨h1, h2⟩, hlt => by
    have hlt' : ∀ r ∈ q :: l, r.1 < r.2 := fun r hr => hlt r (by simp [hr])
    obtain ⟨i1, i2⟩ := h2.le hlt'
    obtain ⟨c, d⟩ := Chained.tiles (by simp) h2 hlt'
    have hp := hlt p (by simp)
    refine ⟨fun x => ?_, ?_⟩
    · constructor
      · rintro ⟨r, hr, hx⟩
        rcases List.mem_cons.1 hr with rfl | hr
        · exact ⟨by rw [← h1]; exact hx.1, hx.2.trans i1⟩
        · have := (c x).1 ⟨r, hr, hx⟩
          exact ⟨by linarith, this.2⟩
      · rintro ⟨ha, hb⟩
        by_cases hx : x ≤ p.2
        · exact ⟨p, by simp, by rw [h1]; exact ha, hx⟩
        · obtain ⟨r, hr, hx⟩ := (c x).2 ⟨by linarith, hb⟩
          exact ⟨r, by simp [hr], hx⟩
    · rw [List.pairwise_cons]
      exact ⟨fun r hr => .inl (i2 r hr).1, d⟩

theorem Chained.sum {b : ℚ} : ∀ {a : ℚ} {l : List (ℚ × ℚ)}, Chained b a l →
    (l.map fun p => p.2 - p.1).sum = b - a
  | a, [], h => by simp only [Chained] at h; simp [h]
  | a, p :: l, ⟨h1, h2⟩ => by
    rw [List.map_cons, List.sum_cons, h2.sum]
    linarith

/-- A sorted tiling is a chain. -/
theorem chained_of_tiles {b : ℚ} : ∀ {a : ℚ} {l : List (ℚ × ℚ)}, l ≠ [] →
    l.Pairwise (fun p q => p.1 ≤ q.1) → (∀ p ∈ l, p.1 < p.2) → Tiles l a b → a ≤ b →
    Chained b a l
  | a, [], hne, _, _, _, _ => absurd rfl hne
  | a, p :: l, _, hs, hlt, ht, hab => by
    have hp := hlt p (by simp)
    rw [List.pairwise_cons] at hs
    have hpa : p.1 = a := by
      obtain ⟨q, hq, hqx⟩ := (ht.cover a).2 ⟨le_rfl, hab⟩
      have h1 : a ≤ p.1 := ((ht.cover p.1).1 ⟨p, by simp, le_rfl, hp.le⟩).1
      have h2 : p.1 ≤ q.1 := by
        rcases List.mem_cons.1 hq with rfl | hq
        · exact le_rfl
        · exact hs.1 q hq
      exact le_antisymm (h2.trans hqx.1) h1
    have hpb : p.2 ≤ b := ((ht.cover p.2).1 ⟨p, by simp, hp.le, le_rfl⟩).2
    refine ⟨hpa, ?_⟩
    have hd := List.pairwise_cons.1 ht.disjoint
    have hafter : ∀ q ∈ l, p.2 ≤ q.1 := by
      intro q hq
      rcases hd.1 q hq with h | h
      · exact h
      · have := hs.1 q hq
        have := hlt q (by simp [hq])
        linarith
    cases l with
    | nil =>
      simp only [Chained]
      obtain ⟨q, hq, hqx⟩ := (ht.cover b).2 ⟨hab, le_rfl⟩
      simp only [List.mem_singleton] at hq
      subst hq
      exact le_antisymm hpb hqx.2
    | cons q l =>
      have hqin := (ht.cover q.1).1 ⟨q, by simp, le_rfl, (hlt q (by simp)).le⟩
      have hq1 : q.1 = p.2 := by
        by_contra hne
        have hgt : p.2 < q.1 := lt_of_le_of_ne (hafter q (by simp)) (Ne.symm hne)
        obtain ⟨r, hr, hrx⟩ := (ht.cover ((p.2 + q.1) / 2)).2 ⟨by linarith, by linarith [hqin.2]⟩
        rcases List.mem_cons.1 hr with rfl | hr
        · have := hrx.2; linarith
        · have h1 : q.1 ≤ r.1 := by
            rcases List.mem_cons.1 hr with rfl | hr
            · exact le_rfl
            · exact (List.pairwise_cons.1 hs.2).1 r hr
          have := hrx.1
          linarith
      refine chained_of_tiles (by simp) hs.2 (fun r hr => hlt r (by simp [hr])) ⟨?_, hd.2⟩ hpb
      intro x
      constructor
      · rintro ⟨r, hr, hx⟩
        refine ⟨(hafter r hr).trans hx.1, ?_⟩
        exact ((ht.cover x).1 ⟨r, List.mem_cons_of_mem _ hr, hx⟩).2
      · rintro ⟨h1, h2⟩
        obtain ⟨r, hr, hx⟩ := (ht.cover x).2 ⟨by linarith, h2⟩
        rcases List.mem_cons.1 hr with rfl | hr
        · have : x = q.1 := by rw [hq1]; exact le_antisymm hx.2 h1
          exact ⟨q, by simp, this ▸ le_rfl, this ▸ (hlt q (by simp)).le⟩
        · exact ⟨r, hr, hx⟩

theorem Tiles.perm {l l' : List (ℚ × ℚ)} {a b : ℚ} (h : Tiles l a b) (hp : l.Perm l') :
    Tiles l' a b := by
  refine ⟨fun x => ?_, ?_⟩
  · rw [← h.cover]
    constructor <;> rintro ⟨p, hm, hx⟩
    · exact ⟨p, hp.mem_iff.2 hm, hx⟩
    · exact ⟨p, hp.mem_iff.1 hm, hx⟩
  · refine (hp.pairwise_iff ?_).1 h.disjoint
    intro p q h; exact h.symm

/-! ## Intervals and regions -/

theorem allBorders_of : ∀ {ms : List Material}, (∀ m ∈ ms, intervals m ≠ []) →
    allBorders ms = .ok (ms.flatMap intervals)
  | [], _ => rfl
  | m :: ms, h => by
    have ih := allBorders_of fun m hm => h m (List.mem_cons_of_mem _ hm)
    have h1 := h m (by simp)
    cases hb : m.borders with
    | none => simp [intervals, hb] at h1
    | some b =>
      cases b with
      | flat a b => simp [allBorders, hb, ih, intervals, Except.map]
      | nested l =>
        cases l with
        | nil => simp [intervals, hb] at h1
        | cons p ps => simp [allBorders, hb, ih, intervals, Except.map]

theorem intervals_ne {m : Material} (h : WellFormed m) : intervals m ≠ [] := by
  obtain ⟨⟨b, hb⟩, h2, -⟩ := h
  cases b with
  | flat a b => simp [hb, intervals]
  | nested l =>
    have := h2 l hb
    rintro h
    simp only [intervals, hb] at h
    simp [h] at this

theorem allBorders_error : ∀ {ms : List Material}, (∃ m ∈ ms, intervals m = []) →
    ∃ e, allBorders ms = .error e
  | [], h => by simp at h
  | m :: ms, h => by
    cases hb : m.borders with
    | none => exact ⟨.typeError "'NoneType' object is not subscriptable", by simp only [allBorders, hb]⟩
    | some b =>
      have ih : intervals m ≠ [] → ∃ e, allBorders ms = .error e := by
        intro hm
        apply allBorders_error
        obtain ⟨m', h1, h2⟩ := h
        rcases List.mem_cons.1 h1 with rfl | h1
        · exact absurd h2 hm
        · exact ⟨m', h1, h2⟩
      cases b with
      | flat a b =>
        obtain ⟨e, he⟩ := ih (by simp [intervals, hb])
        exact ⟨e, by simp [allBorders, hb, he, Except.map]⟩
      | nested l =>
        cases l with
        | nil => exact ⟨.indexError "list index out of range", by simp only [allBorders, hb]⟩
        | cons p ps =>
          obtain ⟨e, he⟩ := ih (by simp [intervals, hb])
          exact ⟨e, by simp [allBorders, hb, he, Except.map]⟩

theorem allBorders_wf {ms : List Material} (h : ∀ m ∈ ms, WellFormed m) :
    allBorders ms = .ok (ms.flatMap intervals) :=
  allBorders_of fun m hm => intervals_ne (h m hm)

theorem findAt_wf {m : Material} (h : WellFormed m) (x : ℚ) :
    m.findAt x = .ok ((((intervals m).zip (intervalIds m)).find? fun p => Within x p.1).map
      fun p => .one p.2) := by
  obtain ⟨⟨b, hb⟩, h2, h3⟩ := h
  unfold Material.findAt
  cases b with
  | flat a b =>
    simp only [hb, intervals, intervalIds]
    cases hid : m.id with
    | one n =>
      by_cases hx : a ≤ x ∧ x ≤ b
      · simp [hx, Within]
      · simp [hx, Within]
    | many l => simp only [Within]
  | nested l =>
    have hl := h2 l hb
    match l, hl with
    | p :: q :: ps, _ =>
      simp only [hb, intervals, intervalIds]
      cases hid : m.id with
      | one n => simp only [Within]
      | many l => simp only [Within]

theorem findSubdomain_wf : ∀ {ms : List Material}, (∀ m ∈ ms, WellFormed m) → ∀ x : ℚ,
    findSubdomain ms x = .ok (.one ((((regions ms).find? fun p => Within x p.1).map (·.2)).getD 0))
  | [], _, x => rfl
  | m :: ms, h, x => by
    have ih := findSubdomain_wf (fun m hm => h m (List.mem_cons_of_mem _ hm)) x
    simp only [findSubdomain, findAt_wf (h m (by simp)), regions, List.flatMap_cons,
      List.find?_append]
    cases hf : ((intervals m).zip (intervalIds m)).find? fun p => Within x p.1 with
    | some r => simp
    | none =>
      simp only [Option.map_none, ih, Option.none_or]
      rfl

theorem regions_fst : ∀ {ms : List Material}, (∀ m ∈ ms, WellFormed m) →
    (regions ms).map (·.1) = ms.flatMap intervals
  | [], _ => rfl
  | m :: ms, h => by
    have ih := regions_fst fun m hm => h m (List.mem_cons_of_mem _ hm)
    obtain ⟨-, -, h3⟩ := h m (by simp)
    simp only [regions, List.flatMap_cons, List.map_append] at ih ⊢
    rw [ih]
    congr 1
    apply List.map_fst_zip
    unfold intervalIds
    cases hid : m.id with
    | one n => simp
    | many l => simp [h3 l hid]

/-! ## Meshes -/

theorem meshVertices_sorted (vs : List ℚ) : (meshVertices vs).Pairwise (· < ·) := by
  have h1 : (meshVertices vs).Pairwise (· ≤ ·) :=
    (pySorted_pairwise' vs).sublist (List.dedup_sublist _)
  have h2 : (meshVertices vs).Pairwise (· ≠ ·) := List.nodup_dedup _
  exact (h1.and h2).imp fun h => lt_of_le_of_ne h.1 h.2
where
  pySorted_pairwise' (l : List ℚ) : (pySorted l).Pairwise (· ≤ ·) := by
    unfold pySorted
    exact List.pairwise_insertionSort _ _

theorem mem_meshVertices {vs : List ℚ} {x : ℚ} : x ∈ meshVertices vs ↔ x ∈ vs := by
  unfold meshVertices pySorted
  rw [List.mem_dedup, List.mem_insertionSort]

/-- consecutive elements of a strictly sorted list -/
theorem zip_tail_spec : ∀ {l : List ℚ}, l.Pairwise (· < ·) → ∀ c ∈ l.zip l.tail,
    c.1 ∈ l ∧ c.2 ∈ l ∧ c.1 < c.2 ∧ ∀ v ∈ l, v ≤ c.1 ∨ c.2 ≤ v
  | [], _, c, hc => by simp at hc
  | [a], _, c, hc => by simp at hc
  | a :: b :: l, h, c, hc => by
    rw [List.pairwise_cons] at h
    simp only [List.tail_cons, List.zip_cons_cons, List.mem_cons] at hc
    rcases hc with rfl | hc
    · refine ⟨by simp, by simp, h.1 b (by simp), ?_⟩
      intro v hv
      rcases List.mem_cons.1 hv with rfl | hv
      · exact .inl le_rfl
      · right
        rcases List.mem_cons.1 hv with rfl | hv
        · exact le_rfl
        · exact ((List.pairwise_cons.1 h.2).1 v hv).le
    · obtain ⟨i1, i2, i3, i4⟩ := zip_tail_spec h.2 c hc
      refine ⟨List.mem_cons_of_mem _ i1, List.mem_cons_of_mem _ i2, i3, ?_⟩
      intro v hv
      rcases List.mem_cons.1 hv with rfl | hv
      · exact .inl (h.1 _ i1).le
      · exact i4 v hv

end Festim
