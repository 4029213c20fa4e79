import Verif.Proofs.Run
import Verif.Spec.Run

/-! # Facts about `Stepsize.adapt` (helper lemmas) -/

namespace Festim

open Spec

theorem pyDiv_ok {v r w : ℚ} (h : pyDiv v r = .ok w) : r ≠ 0 ∧ w = v / r := by
  unfold pyDiv at h
  split at h
  · simp at h
  · rename_i h0; simp at h; exact ⟨h0, h.symm⟩

theorem onDivergence_true {a : Adaptive} {v w : ℚ} (h : a.onDivergence v true = .ok w) :
    w = v := by
  simp [Adaptive.onDivergence] at h; exact h.symm

theorem onDivergence_false {a : Adaptive} {v w : ℚ} (h : a.onDivergence v false = .ok w) :
    ∃ m, a.dtMin = some m ∧ a.ratio ≠ 0 ∧ w = v / a.ratio ∧ m ≤ w := by
  unfold Adaptive.onDivergence at h
  simp only [Bool.false_eq_true, if_false] at h
  split at h
  · simp at h
  · rename_i m hm
    split at h
    · simp at h
    · rename_i v' hv'
      obtain ⟨h0, rfl⟩ := pyDiv_ok hv'
      split at h
      · simp at h
      · rename_i hlt
        simp at h
        subst h
        exact ⟨m, hm, h0, rfl, not_lt.1 hlt⟩

theorem onIterations_ok {a : Adaptive} {v w : ℚ} {n : ℕ} (h : a.onIterations v n = .ok w) :
    (n < 5 ∧ w = v * a.ratio) ∨ (5 ≤ n ∧ a.ratio ≠ 0 ∧ w = v / a.ratio) := by
  unfold Adaptive.onIterations at h
  split at h
  · rename_i hn; simp at h; exact .inl ⟨hn, h.symm⟩
  · rename_i hn; exact .inr ⟨not_lt.1 hn, pyDiv_ok h⟩

theorem cap_ok {a : Adaptive} {t v w : ℚ} (h : a.cap t v = .ok w) :
    w ≤ v ∧ ((a.maxStep.eval t = .ok none ∧ w = v) ∨
      ∃ m, a.maxStep.eval t = .ok (some m) ∧ w ≤ m ∧ (w = m ∨ w = v)) := by
  unfold Adaptive.cap at h
  split at h
  · simp at h
  · rename_i he; simp at h; subst h; exact ⟨le_rfl, .inl ⟨he, rfl⟩⟩
  · rename_i m he
    split at h <;> simp at h <;> subst h
    · rename_i hlt; exact ⟨hlt.le, .inr ⟨_, he, le_rfl, .inl rfl⟩⟩
    · rename_i hlt; exact ⟨le_rfl, .inr ⟨m, he, not_lt.1 hlt, .inr rfl⟩⟩

theorem clipMilestone_le (ms : Option (List ℚ)) (t v : ℚ) : clipMilestone ms t v ≤ v := by
  unfold clipMilestone
  split
  · exact le_rfl
  · split
    · rename_i h; linarith [h.1]
    · exact le_rfl

theorem nextMilestone_lt {ms : Option (List ℚ)} {t m : ℚ} (h : nextMilestone ms t = some m) :
    t < m := by
  unfold nextMilestone at h
  split at h
  · simp at h
  · have := List.find?_some h; simpa using this

theorem clipMilestone_pos {ms : Option (List ℚ)} {t v : ℚ} (hv : 0 < v) :
    0 < clipMilestone ms t v := by
  unfold clipMilestone
  split
  · exact hv
  · rename_i m hm
    have := nextMilestone_lt hm
    split
    · linarith
    · exact hv

theorem clipMilestone_next {ms : Option (List ℚ)} {t v m : ℚ} (h : nextMilestone ms t = some m) :
    t + clipMilestone ms t v ≤ m ∨ Near t m := by
  unfold clipMilestone
  rw [h]
  simp only
  split
  · left; linarith
  · rename_i hc
    by_cases hn : isclose t m = true
    · right; exact isclose_iff.1 hn
    · left
      by_contra hlt
      exact hc ⟨not_le.1 hlt, hn⟩

/-- The milestone found is the smallest one after `t` when the list is sorted. -/
theorem nextMilestone_sorted {l : List ℚ} (hs : l.Pairwise (· ≤ ·)) {t m : ℚ} (hm : m ∈ l)
    (ht : t < m) : ∃ m₁ ∈ l, nextMilestone (some l) t = some m₁ ∧ t < m₁ ∧
      ∀ m₂ ∈ l, t < m₂ → m₁ ≤ m₂ := by
  induction l with
  | nil => simp at hm
  | cons a l ih =>
    rw [List.pairwise_cons] at hs
    by_cases ha : t < a
    · refine ⟨a, by simp, by simp [nextMilestone, ha], ha, ?_⟩
      intro m₂ hm₂ _
      rcases List.mem_cons.1 hm₂ with rfl | h
      · exact le_rfl
      · exact hs.1 _ h
    · have hm' : m ∈ l := by
        rcases List.mem_cons.1 hm with rfl | h
        · exact absurd ht ha
        · exact h
      obtain ⟨m₁, h1, h2, h3, h4⟩ := ih hs.2 hm'
      refine ⟨m₁, by simp [h1], ?_, h3, ?_⟩
      · simpa [nextMilestone, ha] using h2
      · intro m₂ hm₂ hlt
        rcases List.mem_cons.1 hm₂ with rfl | h
        · exact absurd hlt ha
        · exact h4 _ h hlt

theorem pySorted_pairwise (l : List ℚ) : (pySorted l).Pairwise (· ≤ ·) :=
  List.pairwise_insertionSort (· ≤ ·) l

theorem mem_pySorted {l : List ℚ} {m : ℚ} : m ∈ pySorted l ↔ m ∈ l := by
  simp [pySorted]

/-- Everything known about the value chosen after a converged solve. -/
theorem afterSolve_conv_pos {cfg : Stepsize} (hp : PositiveSteps cfg) {v t w : ℚ} {o : Outcome}
    (hv : 0 < v) (h : afterSolve cfg v t o = .ok w) : 0 < w := by
  unfold afterSolve at h
  split at h
  · unfold Stepsize.adapt at h
    split at h
    · simp at h
    · rename_i v' hv'
      simp at h
      subst h
      apply clipMilestone_pos
      unfold adaptAdaptive at hv'
      split at hv'
      · simp at hv'; subst hv'; exact hv
      · rename_i a ha
        obtain ⟨hr, hm⟩ := hp.2 a ha
        split at hv'
        · simp at hv'
        · rename_i v1 hv1
          have hv1p : 0 < v1 := by
            cases hc : o.converged with
            | true => rw [hc] at hv1; rw [onDivergence_true hv1]; exact hv
            | false =>
              rw [hc] at hv1
              obtain ⟨m, _, _, rfl, _⟩ := onDivergence_false hv1
              positivity
          split at hv'
          · simp at hv'
          · rename_i v2 hv2
            have hv2p : 0 < v2 := by
              rcases onIterations_ok hv2 with ⟨_, rfl⟩ | ⟨_, _, rfl⟩ <;> positivity
            obtain ⟨_, h1 | ⟨m, h1, _, h2⟩⟩ := cap_ok hv'
            · rw [h1.2]; exact hv2p
            · rcases h2 with rfl | rfl
              · exact hm _ _ h1
              · exact hv2p
  · simp at h; subst h; exact hv

theorem afterSolve_cap {cfg : Stepsize} {a : Adaptive} (ha : cfg.adaptive = some a) {v t w m : ℚ}
    {o : Outcome} (hm : a.maxStep.eval t = .ok (some m)) (h : afterSolve cfg v t o = .ok w) :
    w ≤ m := by
  unfold afterSolve at h
  rw [ha] at h
  simp only [Option.isSome_some, Bool.true_or, if_true] at h
  unfold Stepsize.adapt at h
  rw [ha] at h
  split at h
  · simp at h
  · rename_i v' hv'
    simp at h
    subst h
    refine le_trans (clipMilestone_le _ _ _) ?_
    unfold adaptAdaptive at hv'
    simp only at hv'
    split at hv'
    · simp at hv'
    · split at hv'
      · simp at hv'
      · obtain ⟨_, h1 | ⟨m', h1, h2, _⟩⟩ := cap_ok hv'
        · rw [hm] at h1; simp at h1
        · rw [hm] at h1; simp at h1; subst h1; exact h2

theorem afterSolve_milestone {cfg : Stepsize} {v t w m : ℚ} {o : Outcome}
    (hm : nextMilestone cfg.milestones t = some m) (h : afterSolve cfg v t o = .ok w) :
    t + w ≤ m ∨ Near t m := by
  have hs : cfg.milestones.isSome = true := by
    cases hc : cfg.milestones with
    | none => rw [hc] at hm; simp [nextMilestone] at hm
    | some _ => rfl
  unfold afterSolve at h
  rw [hs] at h
  simp only [Bool.or_true, if_true] at h
  unfold Stepsize.adapt at h
  split at h
  · simp at h
  · simp at h
    subst h
    exact clipMilestone_next hm

theorem afterSolve_growth {cfg : Stepsize} {a : Adaptive} (ha : cfg.adaptive = some a)
    {v t w : ℚ} {n : ℕ} (h : afterSolve cfg v t ⟨n, true⟩ = .ok w) :
    (n < 5 → w ≤ v * a.ratio) ∧ (5 ≤ n → w ≤ v / a.ratio) := by
  unfold afterSolve at h
  rw [ha] at h
  simp only [Option.isSome_some, Bool.true_or, if_true] at h
  unfold Stepsize.adapt at h
  rw [ha] at h
  split at h
  · simp at h
  · rename_i v' hv'
    simp at h
    subst h
    have hle := clipMilestone_le cfg.milestones t v'
    unfold adaptAdaptive at hv'
    simp only at hv'
    split at hv'
    · simp at hv'
    · rename_i v1 hv1
      rw [onDivergence_true hv1] at hv'
      split at hv'
      · simp at hv'
      · rename_i v2 hv2
        have := (cap_ok hv').1
        rcases onIterations_ok hv2 with ⟨h1, rfl⟩ | ⟨h1, _, rfl⟩
        · exact ⟨fun _ => by linarith, fun h => absurd h (by omega)⟩
        · exact ⟨fun h => absurd h (by omega), fun _ => by linarith⟩

theorem afterSolve_nonadaptive_le {cfg : Stepsize} (ha : cfg.adaptive = none) {v t w : ℚ}
    {o : Outcome} (h : afterSolve cfg v t o = .ok w) : w ≤ v := by
  unfold afterSolve at h
  split at h
  · unfold Stepsize.adapt adaptAdaptive at h
    rw [ha] at h
    simp at h
    subst h
    exact clipMilestone_le _ _ _
  · simp at h; exact h.symm.le

end Festim
