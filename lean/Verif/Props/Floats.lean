import Verif.Proofs.Floats
import Verif.Props.TimeStepping
import Verif.Props.Termination
import Mathlib.Tactic.GCongr

/-!
# Transient runs in floating-point arithmetic (C80)

The properties of time stepping proved for exact numbers (C01-C06, C14) in the arithmetic the
code really uses: which hold as they are, which hold up to rounding, and which fail.
-/

namespace Festim.Props

open Spec

/-! ## The rounding of Python floats -/

section
open Fl

theorem roundEven_int (n : ℤ) : roundEven n = n := by
  simp [roundEven]

theorem roundEven_bounds (x : ℚ) : ⌊x⌋ ≤ roundEven x ∧ roundEven x ≤ ⌊x⌋ + 1 := by
  unfold roundEven
  split
  · omega
  · split
    · omega
    · split <;> omega

theorem roundEven_mono {x y : ℚ} (h : x ≤ y) : roundEven x ≤ roundEven y := by
  rcases eq_or_lt_of_le (Int.floor_le_floor h) with he | hlt
  · unfold roundEven
    rw [he]
    by_cases h1 : x - ⌊y⌋ < 1 / 2
    · simp only [h1, if_true]
      have := (roundEven_bounds y).1
      unfold roundEven at this
      exact this
    · have h2 : ¬ y - ⌊y⌋ < 1 / 2 := by intro h2; exact h1 (by linarith)
      simp only [h1, h2, if_false]
      by_cases h3 : 1 / 2 < x - ⌊y⌋
      · have h4 : 1 / 2 < y - ⌊y⌋ := by linarith
        simp only [h3, h4, if_true]; exact le_rfl
      · simp only [h3, if_false]
        split_ifs <;> omega
  · have := (roundEven_bounds x).2
    have := (roundEven_bounds y).1
    omega

theorem roundEven_err (x : ℚ) : |(roundEven x : ℚ) - x| ≤ 1 / 2 := by
  have h1 := Int.floor_le x
  have h2 := Int.lt_floor_add_one x
  rw [abs_le]
  unfold roundEven
  split
  · rename_i h; constructor <;> linarith
  · rename_i h
    have h := not_lt.1 h
    split
    · rename_i h'; push_cast; constructor <;> linarith
    · rename_i h'
      have h' := not_lt.1 h'
      split
      · constructor <;> linarith
      · push_cast; constructor <;> linarith

theorem ulp_pos (p : ℕ) (x : ℚ) : 0 < ulp p x := by unfold ulp; exact zpow_pos (by norm_num) _

theorem two_pow_le {x : ℚ} (h : 0 < x) : (2 : ℚ) ^ Int.log 2 x ≤ x :=
  by exact_mod_cast Int.zpow_log_le_self (b := 2) (by norm_num) h

theorem lt_two_pow (x : ℚ) : x < (2 : ℚ) ^ (Int.log 2 x + 1) :=
  by exact_mod_cast Int.lt_zpow_succ_log_self (b := 2) (by norm_num) x

/-- powers of two are multiples of the last place -/
theorem pow_eq_ulp (p : ℕ) (hp : 0 < p) (x : ℚ) :
    (2 : ℚ) ^ Int.log 2 x = ((2 ^ (p - 1) : ℤ) : ℚ) * ulp p x ∧
    (2 : ℚ) ^ (Int.log 2 x + 1) = ((2 ^ p : ℤ) : ℚ) * ulp p x := by
  have h2 : (2 : ℚ) ≠ 0 := by norm_num
  unfold ulp
  constructor
  · push_cast
    rw [← zpow_natCast, ← zpow_add₀ h2]
    congr 1
    push_cast [Nat.cast_sub (show 1 ≤ p from hp)]
    ring
  · push_cast
    rw [← zpow_natCast, ← zpow_add₀ h2]
    congr 1
    ring

theorem binaryPos_bounds (p : ℕ) (hp : 0 < p) {x : ℚ} (hx : 0 < x) :
    (2 : ℚ) ^ Int.log 2 x ≤ binaryPos p x ∧ binaryPos p x ≤ (2 : ℚ) ^ (Int.log 2 x + 1) := by
  have hq := ulp_pos p x
  obtain ⟨e1, e2⟩ := pow_eq_ulp p hp x
  unfold binaryPos
  constructor
  · rw [e1]
    have : (2 ^ (p - 1) : ℤ) ≤ roundEven (x / ulp p x) := by
      rw [← roundEven_int (2 ^ (p - 1))]
      apply roundEven_mono
      rw [le_div_iff₀ hq, ← e1]
      exact two_pow_le hx
    gcongr
  · rw [e2]
    have : roundEven (x / ulp p x) ≤ (2 ^ p : ℤ) := by
      rw [← roundEven_int (2 ^ p)]
      apply roundEven_mono
      rw [div_le_iff₀ hq, ← e2]
      exact (lt_two_pow x).le
    gcongr

theorem binaryPos_pos (p : ℕ) (hp : 0 < p) {x : ℚ} (hx : 0 < x) : 0 < binaryPos p x :=
  lt_of_lt_of_le (zpow_pos (by norm_num) _) (binaryPos_bounds p hp hx).1

theorem binaryPos_mono (p : ℕ) (hp : 0 < p) {x y : ℚ} (hx : 0 < x) (h : x ≤ y) :
    binaryPos p x ≤ binaryPos p y := by
  have hy : 0 < y := by linarith
  have hlog : Int.log 2 x ≤ Int.log 2 y := Int.log_mono_right hx h
  rcases eq_or_lt_of_le hlog with he | hlt
  · have hu : ulp p x = ulp p y := by unfold ulp; rw [he]
    have hq := ulp_pos p y
    unfold binaryPos
    rw [hu]
    have : roundEven (x / ulp p y) ≤ roundEven (y / ulp p y) := by
      apply roundEven_mono
      gcongr
    gcongr
  · refine (binaryPos_bounds p hp hx).2.trans (le_trans ?_ (binaryPos_bounds p hp hy).1)
    exact zpow_le_zpow_right₀ (by norm_num) (by omega)

theorem binaryPos_err (p : ℕ) {x : ℚ} (hx : 0 < x) :
    |binaryPos p x - x| ≤ (1 / 2) ^ p * x := by
  have hq := ulp_pos p x
  have h1 := roundEven_err (x / ulp p x)
  have h2 : binaryPos p x - x = (roundEven (x / ulp p x) - x / ulp p x) * ulp p x := by
    unfold binaryPos
    field_simp
  rw [h2, abs_mul, abs_of_pos hq]
  calc |(roundEven (x / ulp p x) : ℚ) - x / ulp p x| * ulp p x ≤ 1 / 2 * ulp p x := by gcongr
    _ = (1 / 2) ^ p * (2 : ℚ) ^ Int.log 2 x := by
        unfold ulp
        rw [zpow_sub₀ (by norm_num), zpow_add₀ (by norm_num), zpow_one, zpow_natCast, one_div,
          inv_pow]
        field_simp
    _ ≤ (1 / 2) ^ p * x := by gcongr; exact two_pow_le hx

/-- a multiple of the last place below the next power of two is left as it is -/
theorem binaryPos_idem (p : ℕ) (hp : 0 < p) {x : ℚ} (hx : 0 < x) :
    binaryPos p (binaryPos p x) = binaryPos p x := by
  obtain ⟨h1, h2⟩ := binaryPos_bounds p hp hx
  have hpos := binaryPos_pos p hp hx
  have key : ∀ z : ℚ, (∃ n : ℤ, z / ulp p z = n) → binaryPos p z = z := by
    rintro z ⟨n, hn⟩
    have hq := ulp_pos p z
    unfold binaryPos
    rw [hn, roundEven_int, ← hn]
    field_simp
  apply key
  rcases eq_or_lt_of_le h2 with he | hlt
  · rw [he]
    have hl : Int.log 2 ((2 : ℚ) ^ (Int.log 2 x + 1)) = Int.log 2 x + 1 := by
      have := Int.log_zpow (R := ℚ) (b := 2) (by norm_num) (Int.log 2 x + 1)
      exact_mod_cast this
    have := (pow_eq_ulp p hp ((2 : ℚ) ^ (Int.log 2 x + 1))).1
    rw [hl] at this
    have hq := ulp_pos p ((2 : ℚ) ^ (Int.log 2 x + 1))
    refine ⟨2 ^ (p - 1), ?_⟩
    rw [div_eq_iff hq.ne']
    exact this
  · have hl : Int.log 2 (binaryPos p x) = Int.log 2 x := by
      apply le_antisymm
      · have h3 := two_pow_le hpos
        have h4 := lt_of_le_of_lt h3 hlt
        have := (zpow_lt_zpow_iff_right₀ (a := (2 : ℚ)) (by norm_num)).1 h4
        omega
      · have h3 := lt_of_le_of_lt h1 (lt_two_pow (binaryPos p x))
        have := (zpow_lt_zpow_iff_right₀ (a := (2 : ℚ)) (by norm_num)).1 h3
        omega
    have hu : ulp p (binaryPos p x) = ulp p x := by unfold ulp; rw [hl]
    rw [hu]
    refine ⟨roundEven (x / ulp p x), ?_⟩
    unfold binaryPos
    field_simp [(ulp_pos p x).ne']

end

/-- C80: rounding to nearest with `p ≥ 47` significant bits is a floating-point arithmetic in the
sense used below. -/
def binaryRounding (p : ℕ) (hp : 47 ≤ p) : Rounding where
  rnd := Fl.binary p
  u := (1 / 2) ^ p
  u_nonneg := by positivity
  u_small := by
    calc ((1 : ℚ) / 2) ^ p ≤ (1 / 2) ^ 47 := pow_le_pow_of_le_one (by norm_num) (by norm_num) hp
      _ ≤ 1 / 10 ^ 14 := by norm_num
  mono := by
    have hp0 : 0 < p := by omega
    intro x y h
    unfold Fl.binary
    by_cases hx : 0 < x
    · have hy : 0 < y := by linarith
      simp only [hx, hy, if_true]
      exact binaryPos_mono p hp0 hx h
    · by_cases hy : 0 < y
      · simp only [hx, hy, if_true, if_false]
        have := binaryPos_pos p hp0 hy
        split
        · rename_i hx'
          have := binaryPos_pos p hp0 (x := -x) (by linarith)
          linarith
        · exact this.le
      · simp only [hx, hy, if_false]
        by_cases hy' : y < 0
        · have hx' : x < 0 := by linarith
          simp only [hx', hy', if_true]
          have := binaryPos_mono p hp0 (x := -y) (y := -x) (by linarith) (by linarith)
          linarith
        · simp only [hy', if_false]
          split
          · have := binaryPos_pos p hp0 (x := -x) (by linarith)
            linarith
          · exact le_rfl
  idem := by
    have hp0 : 0 < p := by omega
    intro x
    unfold Fl.binary
    by_cases hx : 0 < x
    · simp only [hx, if_true, binaryPos_pos p hp0 hx, binaryPos_idem p hp0 hx]
    · by_cases hx' : x < 0
      · have h := binaryPos_pos p hp0 (x := -x) (by linarith)
        have h1 : ¬ (0 < -Fl.binaryPos p (-x)) := by linarith
        have h2 : -Fl.binaryPos p (-x) < 0 := by linarith
        simp only [hx, hx', if_true, if_false, h1, h2, neg_neg,
          binaryPos_idem p hp0 (x := -x) (by linarith)]
      · simp only [hx, hx', if_false, lt_irrefl]
  err := by
    intro x
    unfold Fl.binary
    by_cases hx : 0 < x
    · simp only [hx, if_true]
      rw [abs_of_pos hx]
      exact binaryPos_err p hx
    · by_cases hx' : x < 0
      · simp only [hx, hx', if_true, if_false]
        have h := binaryPos_err p (x := -x) (by linarith)
        rw [abs_of_neg hx']
        rw [abs_sub_comm] at h
        have e : -Fl.binaryPos p (-x) - x = -x - Fl.binaryPos p (-x) := by ring
        rw [e]
        exact h
      · have : x = 0 := le_antisymm (not_lt.1 hx) (not_lt.1 hx')
        subst this
        simp

/-- The rounding of the Python type `float` (no overflow, no underflow). -/
def pyFloat : Rounding := binaryRounding 53 (by norm_num)

/-- C80: what the decimal literal `x` stands for in Python. -/
def lit (x : ℚ) : ℚ := Fl.binary 53 x

/-- C80: the arithmetic of Python floats has the properties assumed in this file, with
`u = 2^-53`: `0.1` is what it is, `0.1 + 0.2 ≠ 0.3` and `1e16 + 1 = 1e16`. -/
theorem C80_python_floats :
    pyFloat.rnd = Fl.binary 53 ∧ pyFloat.u = 1 / 2 ^ 53 ∧
    lit (1 / 10) = 3602879701896397 / 36028797018963968 ∧
    Fl.binary 53 (lit (1 / 10) + lit (2 / 10)) = lit (3 / 10) + 1 / 2 ^ 54 ∧
    Fl.binary 53 (10 ^ 16 + 1) = 10 ^ 16 := by
  refine ⟨rfl, ?_, by decide +kernel, by decide +kernel, by decide +kernel⟩
  show ((1 : ℚ) / 2) ^ 53 = 1 / 2 ^ 53
  norm_num

/-! ## Relation with the exact model -/

/-- C80: without rounding this is the model of the other time-stepping properties. -/
theorem C80_exact (cfg : Stepsize) (final : ℚ) (outs : List Outcome) :
    Fl.run id cfg final outs = Run.run cfg final outs := by
  have h1 : ∀ a b, Fl.isclose id a b = isclose a b := fun a b => rfl
  have h2 : ∀ a v c, Fl.onDivergence id a v c = a.onDivergence v c := fun a v c => rfl
  have h3 : ∀ ms t v, Fl.clipMilestone id ms t v = clipMilestone ms t v := fun ms t v => rfl
  have h4 : ∀ v t o, Fl.afterSolve id cfg v t o = afterSolve cfg v t o := fun v t o => rfl
  have h5 : Fl.step id cfg final = Run.step cfg final := by
    funext s o
    rfl
  have h6 : Fl.start id cfg final = Run.start cfg final := rfl
  unfold Fl.run Run.run
  rw [h5, h6]

/-! ## Never past the final time, up to rounding -/

/-- C80 (C01 with floats): every time reached is at most `final_time * (1 + u)^2`. -/
theorem C80_final_time (R : Rounding) (cfg : Stepsize) (final : ℚ) (outs : List Outcome)
    (hp : PositiveSteps cfg) (hd : FloatData R cfg) (h : cfg.initialValue ≤ final) :
    (∀ t ∈ (Fl.run R.rnd cfg final outs).times, t ≤ final * (1 + R.u) ^ 2) ∧
    (Solving (Fl.run R.rnd cfg final outs) →
      (Fl.run R.rnd cfg final outs).t ≤ final * (1 + R.u) ^ 2) := by
  have hf : 0 < final := lt_of_lt_of_le hp.1 h
  have hfu : final ≤ final * (1 + R.u) ^ 2 := by
    have := R.u_nonneg
    nlinarith [mul_nonneg hf.le this, mul_nonneg (mul_nonneg hf.le this) this]
  have hfirst : R.rnd (0 + cfg.initialValue) ≤ final * (1 + R.u) ^ 2 := by
    rw [zero_add, hd.initial]; exact h.trans hfu
  have tr := Fl.trace R.rnd cfg final outs
  have g := Fl.good R (final := final) hp hd outs
  have hnext : ∀ r ∈ (Fl.run R.rnd cfg final outs).log, ∀ t nom, Fl.Linked R.rnd final r t nom →
      t ≤ final * (1 + R.u) ^ 2 := by
    intro r hr t nom hl
    rw [hl.t_eq, hl.nom_eq]
    exact Fl.next_le R (g.recs r hr).1.le (Fl.guard_lt hl.guard)
  constructor
  · intro t ht
    obtain ⟨r, hr, rfl⟩ := List.mem_map.1 ht
    obtain ⟨i, hi, rfl⟩ := List.getElem_of_mem hr
    cases i with
    | zero => rw [(Fl.head_time hi).1]; exact hfirst
    | succ i => exact hnext _ (List.getElem_mem _) _ _ (Fl.linked i hi)
  · rintro ⟨nom, k, hs⟩
    obtain ⟨h1, h2, _⟩ := tr.solving nom k hs
    rcases hl : (Fl.run R.rnd cfg final outs).log.getLast? with _ | r
    · rw [List.getLast?_eq_none_iff] at hl
      rw [(h1 hl).1]; exact hfirst
    · exact hnext r (List.mem_of_getLast? hl) _ _ (h2 r hl)

/-- The data of an ordinary simulation: `Stepsize(0.6, stepsize_change_ratio=2)`. -/
def exFloat : Stepsize := Stepsize.new { initialValue := lit (6 / 10), changeRatio := some 2 }

theorem exFloat_ok : PositiveSteps exFloat ∧ FloatData pyFloat exFloat := by
  refine ⟨⟨by decide +kernel, ?_⟩, ⟨?_, ?_, ?_⟩⟩
  · rintro a ⟨⟩
    refine ⟨by decide +kernel, ?_⟩
    rintro t m h
    simp [truthy, MaxStep.eval] at h
  · show Fl.binary 53 exFloat.initialValue = exFloat.initialValue
    decide +kernel
  · rintro a ⟨⟩ t m h
    simp [truthy, MaxStep.eval] at h
  · rintro ms ⟨⟩

/-- C80: C01 does not hold as it is with Python floats: with `initial_value=0.6`,
`stepsize_change_ratio=2` and `final_time=1.7`, the second and last step is at
`1.7000000000000002`, beyond `final_time`. -/
theorem C80_past_final_time :
    ∃ t₁ t₂, (Fl.run pyFloat.rnd exFloat (lit (17 / 10)) [⟨2, true⟩, ⟨2, true⟩]).times = [t₁, t₂] ∧
      Returned (Fl.run pyFloat.rnd exFloat (lit (17 / 10)) [⟨2, true⟩, ⟨2, true⟩]) ∧
      t₁ = lit (6 / 10) ∧ lit (17 / 10) < t₂ ∧ t₂ = lit (17 / 10) + 1 / 2 ^ 52 :=
  ⟨lit (6 / 10), lit (17 / 10) + 1 / 2 ^ 52, by
    show (Fl.run (Fl.binary 53) exFloat (lit (17 / 10)) [⟨2, true⟩, ⟨2, true⟩]).times = _
    decide +kernel, by
    show (Fl.run (Fl.binary 53) exFloat (lit (17 / 10)) [⟨2, true⟩, ⟨2, true⟩]).phase = .finished
    decide +kernel, rfl, by decide +kernel, rfl⟩

/-! ## Order of the accepted times -/

/-- C80 (C02 with floats): accepted times never decrease, and a step increases the time as soon as
its length is more than `2u` times the time. -/
theorem C80_monotone (R : Rounding) (cfg : Stepsize) (final : ℚ) (outs : List Outcome)
    (hp : PositiveSteps cfg) (hd : FloatData R cfg) :
    (0 :: (Fl.run R.rnd cfg final outs).times).Pairwise (· ≤ ·) ∧
    ∀ i, ∀ hi : i + 1 < (Fl.run R.rnd cfg final outs).log.length,
      2 * R.u * (Fl.run R.rnd cfg final outs).log[i].t <
        (Fl.run R.rnd cfg final outs).log[i + 1].dtNominal →
      (Fl.run R.rnd cfg final outs).log[i].t < (Fl.run R.rnd cfg final outs).log[i + 1].t := by
  have g := Fl.good R (final := final) hp hd outs
  refine ⟨g.pairwise, ?_⟩
  intro i hi hlt
  have hl := Fl.linked i hi
  have ht := (g.recs _ (List.getElem_mem (show i < _ by omega))).1
  have hn := (g.recs _ (List.getElem_mem hi)).2.2.2.2.1
  rw [hl.t_eq]
  generalize (Fl.run R.rnd cfg final outs).log[i].t = t at *
  generalize (Fl.run R.rnd cfg final outs).log[i + 1].dtNominal = v at *
  have h1 := Fl.le_rnd R (x := t + v) (by linarith)
  have hu := R.u_nonneg
  have hs := R.u_small
  refine lt_of_lt_of_le ?_ h1
  have h2 : R.u * v ≤ 1 / 10 ^ 14 * v := by gcongr
  nlinarith

/-- C80: C02 does not hold as it is: at `t = 2^53` steps of length 1 (found by an adaptive run whose
solver needs 5 iterations per step) no longer increase the time. -/
theorem C80_stalled_times :
    (Fl.run pyFloat.rnd (Stepsize.new { initialValue := 2 ^ 53, changeRatio := some (2 ^ 54) })
        (2 ^ 60) [⟨5, true⟩, ⟨5, true⟩, ⟨5, true⟩]).times = [2 ^ 53, 2 ^ 53, 2 ^ 53] := by
  show (Fl.run (Fl.binary 53) _ _ _).times = _
  decide +kernel

/-- C80: a constant stepsize `h` with `fl(t + h) = t` at a time before the end of the simulation:
the run goes on for ever, all further steps being accepted at the same time. -/
theorem C80_stall_for_ever (R : Rounding) (h final : ℚ) (outs more : List Outcome) (T : ℚ)
    (hs : (Fl.run R.rnd (Stepsize.new { initialValue := h }) final outs).phase = .solving h 0)
    (hv : (Fl.run R.rnd (Stepsize.new { initialValue := h }) final outs).value = h)
    (ht : (Fl.run R.rnd (Stepsize.new { initialValue := h }) final outs).t = T)
    (hT : R.rnd (T + h) = T) (hg : T < final * (1 - 1 / 100000 * (1 + 1 / 10 ^ 6)))
    (hf : 0 < final) (hm : ∀ o ∈ more, o.converged = true) :
    Solving (Fl.run R.rnd (Stepsize.new { initialValue := h }) final (outs ++ more)) ∧
    (Fl.run R.rnd (Stepsize.new { initialValue := h }) final (outs ++ more)).times =
      (Fl.run R.rnd (Stepsize.new { initialValue := h }) final outs).times ++
        List.replicate more.length T := by
  have hguard := Fl.guard_of_lt R hf hg
  rw [Fl.run_append]
  generalize Fl.run R.rnd (Stepsize.new { initialValue := h }) final outs = s at hs hv ht
  suffices H : ∀ (more : List Outcome) (s : RunState), (∀ o ∈ more, o.converged = true) →
      s.phase = .solving h 0 → s.value = h → s.t = T →
      Solving (more.foldl (Fl.step R.rnd (Stepsize.new { initialValue := h }) final) s) ∧
      (more.foldl (Fl.step R.rnd (Stepsize.new { initialValue := h }) final) s).times =
        s.times ++ List.replicate more.length T from H more s hm hs hv ht
  intro more
  induction more with
  | nil => intro s _ hs _ _; exact ⟨⟨h, 0, hs⟩, by simp⟩
  | cons o os ih =>
    intro s hm hs hv ht
    have ha : Fl.afterSolve R.rnd (Stepsize.new { initialValue := h }) s.value s.t o = .ok h := by
      rw [hv]
      simp [Fl.afterSolve, Stepsize.new, setMilestones]
    have hclip : Fl.clipFinal R.rnd final s.t h = h := by
      unfold Fl.clipFinal
      rw [ht, hT, if_neg (not_lt.2 (Fl.guard_lt hguard).le)]
    rw [List.foldl_cons, Fl.step_accept hs ha (hm o (by simp)), hclip]
    have hh : ∀ l, Fl.loopHead R.rnd final s.t h l =
        { t := T, value := h, phase := .solving h 0, log := l } := by
      intro l
      unfold Fl.loopHead
      rw [ht, if_pos hguard, hT]
    rw [hh]
    obtain ⟨h1, h2⟩ := ih ⟨T, h, .solving h 0, s.log ++ [StepRec.mk s.t h s.value h o.nbIt 0]⟩
      (fun o ho => hm o (by simp [ho])) rfl rfl rfl
    refine ⟨h1, ?_⟩
    rw [h2]
    simp [RunState.times, ht, List.replicate_succ]


/-- integers up to `2^53` are Python floats -/
theorem pyFloat_nat (n : ℕ) (h : n ≤ 2 ^ 53) : Fl.binary 53 (n : ℚ) = n := by
  rcases Nat.eq_zero_or_pos n with rfl | hn
  · simp [Fl.binary]
  · have hn' : (0 : ℚ) < n := by exact_mod_cast hn
    rcases eq_or_lt_of_le h with rfl | hlt
    · decide +kernel
    · have hlog : Int.log 2 (n : ℚ) < 53 := by
        have h1 := lt_of_le_of_lt (two_pow_le hn') (show (n : ℚ) < 2 ^ (53 : ℤ) by
          rw [show ((2 : ℚ) ^ (53 : ℤ)) = 2 ^ 53 by norm_num]; exact_mod_cast hlt)
        exact (zpow_lt_zpow_iff_right₀ (a := (2 : ℚ)) (by norm_num)).1 h1
      unfold Fl.binary
      rw [if_pos hn']
      obtain ⟨k, hk⟩ : ∃ k : ℕ, Int.log 2 (n : ℚ) + 1 - ((53 : ℕ) : ℤ) = -(k : ℤ) :=
        ⟨(53 - 1 - Int.log 2 (n : ℚ)).toNat, by omega⟩
      have hu : Fl.ulp 53 (n : ℚ) = ((2 : ℚ) ^ k)⁻¹ := by
        unfold Fl.ulp
        rw [hk, zpow_neg, zpow_natCast]
      unfold Fl.binaryPos
      rw [hu, div_inv_eq_mul]
      have : ((n : ℚ) * 2 ^ k) = ((n * 2 ^ k : ℤ) : ℚ) := by push_cast; ring
      rw [this, roundEven_int]
      push_cast
      field_simp

/-- C80: C04 and C14 do not hold as they are: a constant stepsize of 1 never gets beyond
`t = 2^53`, so that with `final_time >= 2^54` the run never ends. -/
theorem C80_constant_stalls (final : ℚ) (hf : 2 ^ 54 ≤ final) (outs : List Outcome)
    (hc : ∀ o ∈ outs, o.converged = true) :
    Solving (Fl.run pyFloat.rnd (Stepsize.new { initialValue := 1 }) final outs) ∧
    (Fl.run pyFloat.rnd (Stepsize.new { initialValue := 1 }) final outs).times =
      (List.range outs.length).map (fun i : ℕ => min ((i : ℚ) + 1) (2 ^ 53)) := by
  have hf0 : 0 < final := lt_of_lt_of_le (by norm_num) hf
  suffices H : (Fl.run pyFloat.rnd (Stepsize.new { initialValue := 1 }) final outs).phase =
        .solving 1 0 ∧
      (Fl.run pyFloat.rnd (Stepsize.new { initialValue := 1 }) final outs).value = 1 ∧
      (Fl.run pyFloat.rnd (Stepsize.new { initialValue := 1 }) final outs).t =
        min ((outs.length : ℚ) + 1) (2 ^ 53) ∧
      (Fl.run pyFloat.rnd (Stepsize.new { initialValue := 1 }) final outs).times =
        (List.range outs.length).map (fun i : ℕ => min ((i : ℚ) + 1) (2 ^ 53)) from
    ⟨⟨1, 0, H.1⟩, H.2.2.2⟩
  have hnext : ∀ n : ℕ, Fl.binary 53 (min ((n : ℚ) + 1) (2 ^ 53) + 1) =
      min ((n : ℚ) + 1 + 1) (2 ^ 53) := by
    intro n
    by_cases hn : n + 2 ≤ 2 ^ 53
    · have hn' : (n : ℚ) + 1 + 1 ≤ 2 ^ 53 := by
        have : ((n + 2 : ℕ) : ℚ) ≤ ((2 ^ 53 : ℕ) : ℚ) := Nat.cast_le.2 hn
        push_cast at this
        linarith
      rw [min_eq_left hn', min_eq_left (by linarith)]
      have := pyFloat_nat (n + 2) hn
      push_cast at this
      rw [show (n : ℚ) + 1 + 1 = n + 2 by ring]
      exact this
    · have hn' : (2 : ℚ) ^ 53 ≤ (n : ℚ) + 1 := by
        have : ((2 ^ 53 : ℕ) : ℚ) ≤ ((n + 1 : ℕ) : ℚ) := Nat.cast_le.2 (by omega)
        push_cast at this
        linarith
      rw [min_eq_right hn', min_eq_right (by linarith)]
      decide +kernel
  have hguard : ∀ x : ℚ, x ≤ 2 ^ 53 → Fl.loopGuard pyFloat.rnd final x = true := by
    intro x hx
    apply Fl.guard_of_lt pyFloat hf0
    norm_num at hx hf ⊢
    linarith
  induction outs using List.reverseRecOn with
  | nil =>
    have h0 := hguard 0 (by norm_num)
    have h1 : pyFloat.rnd (0 + 1) = 1 := by
      show Fl.binary 53 (0 + 1) = 1
      decide +kernel
    have hini : (Stepsize.new { initialValue := 1 }).initialValue = 1 := rfl
    simp only [Fl.run_nil, Fl.start, Fl.loopHead, h0, if_true, hini, h1]
    refine ⟨trivial, trivial, ?_, rfl⟩
    norm_num
  | append_singleton l o ih =>
    obtain ⟨h1, h2, h3, h4⟩ := ih (fun o ho => hc o (by simp [ho]))
    rw [Fl.run_concat]
    generalize Fl.run pyFloat.rnd (Stepsize.new { initialValue := 1 }) final l = s at *
    have ha : Fl.afterSolve pyFloat.rnd (Stepsize.new { initialValue := 1 }) s.value s.t o =
        .ok 1 := by
      rw [h2]
      simp [Fl.afterSolve, Stepsize.new, setMilestones]
    have hn : pyFloat.rnd (s.t + 1) = min ((l.length : ℚ) + 1 + 1) (2 ^ 53) := by
      rw [h3]; exact hnext l.length
    have hclip : Fl.clipFinal pyFloat.rnd final s.t 1 = 1 := by
      unfold Fl.clipFinal
      rw [hn, if_neg]
      have : min ((l.length : ℚ) + 1 + 1) (2 ^ 53) ≤ 2 ^ 53 := min_le_right _ _
      have h' : (2 : ℚ) ^ 53 ≤ 2 ^ 54 := by norm_num
      exact not_lt.2 ((this.trans h').trans hf)
    have hst : s.t ≤ 2 ^ 53 := by rw [h3]; exact min_le_right _ _
    rw [Fl.step_accept h1 ha (hc o (by simp)), hclip]
    unfold Fl.loopHead
    rw [if_pos (hguard s.t hst), hn]
    refine ⟨rfl, rfl, by simp, ?_⟩
    rw [List.length_append, List.length_singleton, List.range_succ, List.map_append, ← h4]
    simp [RunState.times, h3]

/-! ## End of the run -/

/-- C80 (C03 with floats): when the run returns, the last accepted time is within relative
`1.000001e-5` of `final_time`, `isclose` holds there (this is what exports look at), and all earlier
accepted times are before `final_time * (1 - 0.999999e-5)`.  A run with an accepted time beyond this
has returned. -/
theorem C80_end (R : Rounding) (cfg : Stepsize) (final : ℚ) (outs : List Outcome)
    (hp : PositiveSteps cfg) (hd : FloatData R cfg) (h : cfg.initialValue ≤ final) :
    (Returned (Fl.run R.rnd cfg final outs) → ∃ before last,
      (Fl.run R.rnd cfg final outs).times = before ++ [last] ∧
      Fl.isclose R.rnd last final = true ∧
      final * (1 - 1 / 100000 * (1 + 1 / 10 ^ 6)) ≤ last ∧ last ≤ final * (1 + R.u) ^ 2 ∧
      ∀ t ∈ before, t < final * (1 - 1 / 100000 * (1 - 1 / 10 ^ 6))) ∧
    ((∃ t ∈ (Fl.run R.rnd cfg final outs).times,
      final * (1 - 1 / 100000 * (1 - 1 / 10 ^ 6)) ≤ t) → Returned (Fl.run R.rnd cfg final outs)) := by
  have hf : 0 < final := lt_of_lt_of_le hp.1 h
  have tr := Fl.trace R.rnd cfg final outs
  constructor
  · intro hret
    obtain ⟨hf1, hf2⟩ := tr.finished hret
    rcases List.eq_nil_or_concat' (Fl.run R.rnd cfg final outs).log with hl | ⟨l, r, hl⟩
    · have := hf1 hl
      rw [Fl.guard_zero R hf] at this
      exact absurd this (by simp)
    · have hr := (hf2 r (by simp [hl])).1
      have hle := (C80_final_time R cfg final outs hp hd h).1 r.t (by simp [RunState.times, hl])
      have hge : final * (1 - 1 / 100000 * (1 + 1 / 10 ^ 6)) ≤ r.t := by
        by_contra hc
        rw [Fl.guard_of_lt R hf (not_le.1 hc)] at hr
        simp at hr
      refine ⟨l.map (·.t), r.t, by simp [RunState.times, hl], ?_, hge, hle, ?_⟩
      · by_cases hlt : r.t < final
        · simpa [Fl.loopGuard, hlt] using hr
        · apply Fl.isclose_of_near
          have h1 := not_lt.1 hlt
          rw [abs_of_nonneg (by linarith), abs_of_pos hf]
          have hu := R.u_nonneg
          have hs := R.u_small
          have : (1 + R.u) ^ 2 ≤ 1 + 1 / 10 ^ 10 := by nlinarith
          have : final * (1 + R.u) ^ 2 ≤ final * (1 + 1 / 10 ^ 10) := by gcongr
          nlinarith
      · intro t ht
        obtain ⟨r', hr', rfl⟩ := List.mem_map.1 ht
        obtain ⟨i, hi, rfl⟩ := List.getElem_of_mem hr'
        have hlen : i + 1 < (Fl.run R.rnd cfg final outs).log.length := by
          rw [hl]; simpa using hi
        have hg := (Fl.linked i hlen).guard
        simp only [hl] at hg
        rw [List.getElem_append_left hi] at hg
        exact Fl.lt_of_guard R hf hg
  · rintro ⟨t, ht, hle⟩
    obtain ⟨r, hr, rfl⟩ := List.mem_map.1 ht
    have hng : ¬ Fl.loopGuard R.rnd final r.t = true := by
      intro hg
      exact absurd (Fl.lt_of_guard R hf hg) (not_lt.2 hle)
    cases hph : (Fl.run R.rnd cfg final outs).phase with
    | finished => exact hph
    | solving nom k => exact absurd (Fl.last_of_solving ⟨nom, k, hph⟩ r hr) hng
    | raised e =>
      obtain ⟨i, hi, rfl⟩ := List.getElem_of_mem hr
      by_cases hl : i + 1 < (Fl.run R.rnd cfg final outs).log.length
      · exact absurd (Fl.linked i hl).guard hng
      · refine absurd (tr.raised e hph _ ?_) hng
        rw [List.getLast?_eq_getElem?]
        have : (Fl.run R.rnd cfg final outs).log.length - 1 = i := by omega
        rw [this]; simp [hi]

example : PositiveSteps exFloat ∧ FloatData pyFloat exFloat ∧
    exFloat.initialValue ≤ lit (17 / 10) ∧
    Returned (Fl.run pyFloat.rnd exFloat (lit (17 / 10)) [⟨2, true⟩, ⟨2, true⟩]) :=
  ⟨exFloat_ok.1, exFloat_ok.2, by decide +kernel, by
    show (Fl.run (Fl.binary 53) exFloat (lit (17 / 10)) [⟨2, true⟩, ⟨2, true⟩]).phase = .finished
    decide +kernel⟩

/-! ## Milestones -/

theorem afterSolve_cap_fl {fl : ℚ → ℚ} {cfg : Stepsize} {a : Adaptive}
    (ha : cfg.adaptive = some a) {v t w : ℚ} {o : Outcome}
    (h : Fl.afterSolve fl cfg v t o = .ok w) :
    ∃ v', (∃ v2, a.cap t v2 = .ok v') ∧ w = Fl.clipMilestone fl cfg.milestones t v' := by
  unfold Fl.afterSolve at h
  rw [ha] at h
  simp only [Option.isSome_some, Bool.true_or, if_true] at h
  unfold Fl.adapt at h
  rw [ha] at h
  split at h
  · simp at h
  · rename_i v' hv'
    simp at h
    refine ⟨v', ?_, h.symm⟩
    unfold Fl.adaptAdaptive at hv'
    simp only at hv'
    split at hv'
    · simp at hv'
    · split at hv'
      · simp at hv'
      · exact ⟨_, hv'⟩

theorem afterSolve_milestone_fl (R : Rounding) {cfg : Stepsize} {v t w m : ℚ} {o : Outcome}
    (hm : nextMilestone cfg.milestones t = some m) (ht : 0 ≤ t)
    (h : Fl.afterSolve R.rnd cfg v t o = .ok w) :
    R.rnd (t + w) ≤ m ∨ R.rnd (t + w) ≤ m * (1 + R.u) ^ 2 ∨ Fl.isclose R.rnd t m = true := by
  have hs : cfg.milestones.isSome = true := by
    cases hc : cfg.milestones with
    | none => rw [hc] at hm; simp [nextMilestone] at hm
    | some _ => rfl
  unfold Fl.afterSolve at h
  rw [hs] at h
  simp only [Bool.or_true, if_true] at h
  unfold Fl.adapt at h
  split at h
  · simp at h
  · rename_i v' _
    simp at h
    subst h
    have hlt := nextMilestone_lt hm
    unfold Fl.clipMilestone
    rw [hm]
    simp only
    split
    · rename_i hc
      right; left
      have := Fl.next_le R (v := v') ht hlt
      unfold Fl.clipFinal at this
      rwa [if_pos hc.1] at this
    · rename_i hc
      by_cases hn : Fl.isclose R.rnd t m = true
      · right; right; exact hn
      · left
        by_contra hlt
        exact hc ⟨not_le.1 hlt, hn⟩

/-- increments after the first are bounded by `H` -/
theorem increments_le_fl (R : Rounding) (cfg : Stepsize) (final : ℚ) (outs : List Outcome) (H : ℚ)
    (hp : PositiveSteps cfg) (hd : FloatData R cfg) (hff : R.IsFloat final)
    (hH : StepsAtMost cfg H) (i : ℕ) (hi : i + 1 < (Fl.run R.rnd cfg final outs).log.length) :
    (Fl.run R.rnd cfg final outs).log[i + 1].dtNominal ≤ H := by
  have g := Fl.good R (final := final) hp hd outs
  have hl := Fl.linked i hi
  have hok := (Fl.recOK (fl := R.rnd) (cfg := cfg) (final := final) (outs := outs) i
    (by omega)).adapted
  have hgr := g.recs _ (List.getElem_mem (show i < _ by omega))
  rw [hl.nom_eq]
  refine le_trans (Fl.clipFinal_le R hff hgr.2.2.2.1) ?_
  unfold StepsAtMost at hH
  split at hH
  · rename_i hn
    have hle : ∀ {v t w : ℚ} {o : Outcome}, R.IsFloat v →
        Fl.afterSolve R.rnd cfg v t o = .ok w → w ≤ v := by
      intro v t w o hv h
      unfold Fl.afterSolve at h
      split at h
      · unfold Fl.adapt Fl.adaptAdaptive at h
        rw [hn] at h
        simp at h
        subst h
        exact Fl.clipMilestone_le R (fun l hl => hd.milestones l hl) hv
      · simp at h; exact h.symm.le
    refine le_trans (hle hgr.2.2.2.2.2 hok) (le_trans ?_ hH)
    have hinv : (∀ r ∈ (Fl.run R.rnd cfg final outs).log, r.dtUsed ≤ cfg.initialValue) ∧
        (Solving (Fl.run R.rnd cfg final outs) →
          (Fl.run R.rnd cfg final outs).value ≤ cfg.initialValue) ∧
        Fl.Good R (Fl.run R.rnd cfg final outs) := by
      refine Fl.run_induction (P := fun s => (∀ r ∈ s.log, r.dtUsed ≤ cfg.initialValue) ∧
        (Solving s → s.value ≤ cfg.initialValue) ∧ Fl.Good R s) ?_ ?_ outs
      · refine ⟨by simp [Fl.start, Fl.log_loopHead], ?_, Fl.good_start R hp hd⟩
        intro hs
        unfold Fl.start at hs ⊢
        rw [(Fl.solving_loopHead hs).2]
      · intro s o h
        refine ⟨?_, ?_, Fl.good_step R hp hd o h.2.2⟩ <;>
        · cases hph : s.phase with
          | finished => rw [Fl.step_finished o hph]; first | exact h.1 | exact h.2.1
          | raised e => rw [Fl.step_raised o hph]; first | exact h.1 | exact h.2.1
          | solving nom k =>
            have hv0 := h.2.1 ⟨nom, k, hph⟩
            have hc := h.2.2.cur ⟨nom, k, hph⟩
            cases ha : Fl.afterSolve R.rnd cfg s.value s.t o with
            | error e =>
              rw [Fl.step_error hph ha]
              first | exact h.1 | (rintro ⟨_, _, h⟩; simp at h)
            | ok v =>
              have hv := hle hc.2.1 ha
              have hvf := (Fl.afterSolve_good R hp hd hc.1 hc.2.1 ha).2
              cases ho : o.converged with
              | false =>
                rw [Fl.step_retry hph ha ho]
                first | exact h.1 | exact fun _ => hv.trans hv0
              | true =>
                rw [Fl.step_accept hph ha ho]
                first
                  | (rw [Fl.log_loopHead]
                     intro r hr
                     rw [List.mem_append, List.mem_singleton] at hr
                     rcases hr with hr | rfl
                     · exact h.1 r hr
                     · exact hv0)
                  | (intro hs
                     rw [(Fl.solving_loopHead hs).2]
                     exact (Fl.clipFinal_le R hff hvf).trans (hv.trans hv0))
    exact hinv.1 _ (List.getElem_mem _)
  · rename_i a ha
    obtain ⟨m, hm, hle⟩ := hH ((Fl.run R.rnd cfg final outs).log[i].t)
    obtain ⟨v', ⟨v2, hv2⟩, hw⟩ := afterSolve_cap_fl ha hok
    refine le_trans ?_ hle
    obtain ⟨_, h1 | ⟨m', h1, h2, h3⟩⟩ := cap_ok hv2
    · rw [hm] at h1; simp at h1
    · rw [hm] at h1
      simp at h1
      subst h1
      by_cases hf : R.IsFloat v'
      · rw [hw]
        exact (Fl.clipMilestone_le R (fun l hl => hd.milestones l hl) hf).trans h2
      · rw [hw]
        unfold Fl.clipMilestone
        split
        · exact h2
        · rename_i m₁ hm₁
          split
          · rename_i hc
            have hmf : R.IsFloat m₁ := by
              cases hl : cfg.milestones with
              | none => rw [hl] at hm₁; simp [nextMilestone] at hm₁
              | some l =>
                rw [hl] at hm₁
                exact hd.milestones l hl m₁ (List.mem_of_find?_eq_some hm₁)
            have := Fl.lt_of_lt_rnd R hmf hc.1
            exact Fl.rnd_le_float R (hd.cap a ha _ _ hm) (by linarith)
          · exact h2

/-- C80 (C06 with floats): if steps are at most `H` and distinct milestones at least `H` apart, each
milestone between the first and the last accepted time has an accepted time within relative
`1.000001e-5`. -/
theorem C80_milestones (R : Rounding) (args : StepsizeArgs) (final : ℚ) (outs : List Outcome)
    (hp : PositiveSteps (Stepsize.new args)) (hd : FloatData R (Stepsize.new args))
    (hff : R.IsFloat final) (ms : List ℚ) (hms : args.milestones = some ms) (H : ℚ)
    (hH : StepsAtMost (Stepsize.new args) H)
    (hsep : ∀ m₁ ∈ ms, ∀ m₂ ∈ ms, m₁ < m₂ → H ≤ m₂ - m₁)
    (m : ℚ) (hm : m ∈ ms) (ts : List ℚ)
    (hts : ts = (Fl.run R.rnd (Stepsize.new args) final outs).times) (hne : 0 < ts.length)
    (h0 : ts[0] ≤ m) (h1 : m ≤ ts[ts.length - 1]) :
    ∃ t ∈ ts, |t - m| ≤ 1 / 100000 * (1 + 1 / 10 ^ 6) * |m| := by
  obtain ⟨l', hl', hs, hmem⟩ := new_milestones args ms hms
  have hmf : R.IsFloat m := hd.milestones l' hl' m ((hmem m).2 hm)
  have g := Fl.good R (final := final) hp hd outs
  rcases exists_step_around ts m hne h0 h1 with h | ⟨i, hi, ha, hb⟩
  · refine ⟨m, h, ?_⟩
    rw [sub_self, abs_zero]
    positivity
  · subst hts
    have hi' : i + 1 < (Fl.run R.rnd (Stepsize.new args) final outs).log.length := by
      simpa [RunState.times] using hi
    have hl := Fl.linked i hi'
    have hok := (Fl.recOK (fl := R.rnd) (cfg := Stepsize.new args) (final := final) (outs := outs) i
      (by omega)).adapted
    have hgr := g.recs _ (List.getElem_mem (show i < _ by omega))
    have hincr := increments_le_fl R (Stepsize.new args) final outs H hp hd hff hH i hi'
    have hmem1 : (Fl.run R.rnd (Stepsize.new args) final outs).log[i].t ∈
        (Fl.run R.rnd (Stepsize.new args) final outs).times := by
      simp only [RunState.times, List.mem_map]; exact ⟨_, List.getElem_mem _, rfl⟩
    have hmem2 : (Fl.run R.rnd (Stepsize.new args) final outs).log[i + 1].t ∈
        (Fl.run R.rnd (Stepsize.new args) final outs).times := by
      simp only [RunState.times, List.mem_map]; exact ⟨_, List.getElem_mem _, rfl⟩
    simp only [RunState.times, List.getElem_map] at ha hb
    obtain ⟨m₁, hm1, hnext, hlt, hmin⟩ := nextMilestone_sorted hs ((hmem m).2 hm) ha
    have hle := hmin m ((hmem m).2 hm) ha
    have ht0 := hgr.1
    have hmpos : 0 < m := by linarith
    have hm1pos : 0 < m₁ := by linarith
    have htle : (Fl.run R.rnd (Stepsize.new args) final outs).log[i + 1].t ≤
        R.rnd ((Fl.run R.rnd (Stepsize.new args) final outs).log[i].t +
          (Fl.run R.rnd (Stepsize.new args) final outs).log[i].dtExtrinsic) := by
      rw [hl.t_eq, hl.nom_eq]
      apply R.mono
      have := Fl.clipFinal_le R (t := (Fl.run R.rnd (Stepsize.new args) final outs).log[i].t)
        hff hgr.2.2.2.1
      linarith
    rcases afterSolve_milestone_fl R (by rw [hl']; exact hnext) ht0.le hok with hc | hc | hc
    · exfalso; linarith
    · refine ⟨_, hmem2, ?_⟩
      have h2 : (Fl.run R.rnd (Stepsize.new args) final outs).log[i + 1].t ≤
          m * (1 + R.u) ^ 2 := by
        refine (htle.trans hc).trans ?_
        gcongr
      have hu := R.u_nonneg
      have hus := R.u_small
      have h3 : (1 + R.u) ^ 2 ≤ 1 + 1 / 10 ^ 10 := by nlinarith
      have h4 : m * (1 + R.u) ^ 2 ≤ m * (1 + 1 / 10 ^ 10) := by gcongr
      rw [abs_of_pos (by linarith), abs_of_pos hmpos]
      nlinarith
    · rcases eq_or_lt_of_le hle with rfl | hlt'
      · exact ⟨_, hmem1, Fl.near_of_isclose R hc⟩
      · exfalso
        have hsp := hsep m₁ ((hmem _).1 hm1) m hm hlt'
        have : (Fl.run R.rnd (Stepsize.new args) final outs).log[i + 1].t ≤ m := by
          rw [hl.t_eq]
          exact Fl.rnd_le_float R hmf (by linarith)
        linarith

/-- Milestones 0.25 and 0.5 given unsorted, constant stepsize 0.1. -/
def exFloatMilestones : StepsizeArgs :=
  { initialValue := lit (1 / 10), milestones := some [lit (1 / 2), lit (1 / 4)] }

example : PositiveSteps (Stepsize.new exFloatMilestones) ∧
    FloatData pyFloat (Stepsize.new exFloatMilestones) ∧
    StepsAtMost (Stepsize.new exFloatMilestones) (lit (1 / 10)) := by
  refine ⟨⟨by decide +kernel, by rintro a ⟨⟩⟩, ⟨?_, by rintro a ⟨⟩, ?_⟩, le_refl (lit (1 / 10))⟩
  · show Fl.binary 53 _ = _
    decide +kernel
  · rintro ms hms
    have : ms = [lit (1 / 4), lit (1 / 2)] := by
      have e : (Stepsize.new exFloatMilestones).milestones = some [lit (1 / 4), lit (1 / 2)] := by
        decide +kernel
      rw [e] at hms; simpa using hms.symm
    subst this
    intro m hm
    rcases List.mem_cons.1 hm with rfl | hm
    · show Fl.binary 53 _ = _
      decide +kernel
    · rw [List.mem_singleton.1 hm]
      show Fl.binary 53 _ = _
      decide +kernel

/-- C80: with floats a milestone need not be an accepted time: in this run 0.25 is reached exactly,
and instead of 0.5 the run goes through 0.49999999999999994 and then beyond 0.5. -/
theorem C80_milestone_not_exact :
    ((Fl.run pyFloat.rnd (Stepsize.new exFloatMilestones) 1
        (List.replicate 9 ⟨2, true⟩)).times.drop 2).map
      (fun t => (decide (t = 1 / 4), decide (t = 1 / 2), decide (t = 1 / 2 - 1 / 2 ^ 54),
        decide (1 / 2 < t))) =
      [(true, false, false, false), (false, false, false, false), (false, false, false, false),
       (false, false, false, false), (false, false, false, false), (false, false, true, false),
       (false, false, false, true)] := by
  show ((Fl.run (Fl.binary 53) _ _ _).times.drop 2).map _ = _
  decide +kernel

/-! ## Constant stepsize -/

/-- C80 (C04 with floats): a constant stepsize `h` and `final_time = N*h` up to rounding, with
`N <= 90000`: the run makes exactly `N` steps, the `k`-th of which is within `u*k*(k+8)*h` of
`k*h`. -/
theorem C80_constant (R : Rounding) (h final : ℚ) (N : ℕ) (h0 : 0 < h) (hh : R.IsFloat h)
    (hN : 1 ≤ N) (hN' : N ≤ 90000) (hf : |final - N * h| ≤ 4 * R.u * (N * h))
    (outs : List Outcome) (hc : ∀ o ∈ outs, o.converged = true) (s : RunState)
    (hs : s = Fl.run R.rnd (Stepsize.new { initialValue := h }) final outs) :
    (∀ i, ∀ hi : i < s.times.length,
      |s.times[i] - (i + 1 : ℕ) * h| ≤ R.u * ((i + 1 : ℕ) * ((i + 1 : ℕ) + 8)) * h) ∧
    s.times.length = min outs.length N ∧ ¬ Raised s ∧ (N ≤ outs.length ↔ Returned s) := by
  have hu := R.u_nonneg
  have hus := R.u_small
  have hNq : (N : ℚ) ≤ 90000 := by exact_mod_cast hN'
  have hNq1 : (1 : ℚ) ≤ N := by exact_mod_cast hN
  -- final is close to N h
  rw [abs_le] at hf
  have hNh : h ≤ N * h := by nlinarith
  have hu4 : R.u * (N * h) ≤ 1 / 10 ^ 14 * (N * h) := by gcongr
  have hfl : N * h * (1 - 1 / 10 ^ 13) ≤ final := by linarith [hf.1]
  have hfu : final ≤ N * h * (1 + 1 / 10 ^ 13) := by linarith [hf.2]
  have hf0 : 0 < final := lt_of_lt_of_le (by positivity) hfl
  -- error bounds
  have herr : ∀ k : ℕ, k ≤ N → R.u * ((k : ℚ) * (k + 8)) ≤ 1 / 10 ^ 9 * k := by
    intro k hk
    have hk' : (k : ℚ) ≤ 90000 := le_trans (by exact_mod_cast hk) hNq
    have hk0 : (0 : ℚ) ≤ k := Nat.cast_nonneg k
    calc R.u * ((k : ℚ) * (k + 8)) ≤ 1 / 10 ^ 14 * ((k : ℚ) * (90000 + 8)) := by gcongr
      _ ≤ 1 / 10 ^ 9 * k := by linarith
  have herr' : ∀ k : ℕ, k ≤ N → R.u * ((k : ℚ) * (k + 8)) * h ≤ 1 / 10 ^ 9 * (k * h) := by
    intro k hk
    have := mul_le_mul_of_nonneg_right (herr k hk) h0.le
    linarith
  -- before the last step the guard holds
  have hguard : ∀ (k : ℕ) (t : ℚ), k + 1 ≤ N →
      |t - k * h| ≤ R.u * ((k : ℚ) * (k + 8)) * h → Fl.loopGuard R.rnd final t = true := by
    intro k t hk ht
    apply Fl.guard_of_lt R hf0
    have h1 := herr' k (by omega)
    have h2 := (abs_le.1 ht).2
    have hk' : (k : ℚ) * h ≤ N * h - h := by
      have : (k : ℚ) + 1 ≤ N := by exact_mod_cast hk
      nlinarith
    have hNh' : N * h ≤ 90000 * h := by gcongr
    have : N * h * (1 - 1 / 10 ^ 13) * (1 - 1 / 100000 * (1 + 1 / 10 ^ 6)) ≤
        final * (1 - 1 / 100000 * (1 + 1 / 10 ^ 6)) :=
      mul_le_mul_of_nonneg_right hfl (by norm_num)
    refine lt_of_lt_of_le ?_ this
    linarith
  have hstop : ∀ t : ℚ, |t - N * h| ≤ R.u * ((N : ℚ) * (N + 8)) * h →
      Fl.loopGuard R.rnd final t = false := by
    intro t ht
    have h1 := herr' N le_rfl
    have hcl : Fl.isclose R.rnd t final = true := by
      apply Fl.isclose_of_near
      have h2 := abs_le.1 ht
      rw [abs_of_pos hf0, abs_le]
      constructor <;> linarith
    simp [Fl.loopGuard, hcl]
  -- one step
  have hnext : ∀ (k : ℕ) (t : ℚ), 1 ≤ k → k + 1 ≤ N → 0 ≤ t →
      |t - k * h| ≤ R.u * ((k : ℚ) * (k + 8)) * h →
      |R.rnd (t + Fl.clipFinal R.rnd final t h) - (k + 1 : ℕ) * h| ≤
        R.u * (((k + 1 : ℕ) : ℚ) * ((k + 1 : ℕ) + 8)) * h ∧
      (k + 1 < N → Fl.clipFinal R.rnd final t h = h) := by
    intro k t hk1 hk ht0 ht
    have hk0 : (1 : ℚ) ≤ k := by exact_mod_cast hk1
    have h1 := herr k (by omega)
    have h1' := herr' k (by omega)
    have h2 := abs_le.1 ht
    have hkN : (k : ℚ) + 1 ≤ N := by exact_mod_cast hk
    have hplain : |R.rnd (t + h) - (k + 1 : ℕ) * h| ≤
        R.u * (((k + 1 : ℕ) : ℚ) * ((k + 1 : ℕ) + 8)) * h := by
      have e1 := Fl.err_nonneg R (x := t + h) (by linarith)
      have e2 : R.u * (t + h) ≤ R.u * ((k + 1) * h + 1 / 10 ^ 9 * (k * h)) :=
        mul_le_mul_of_nonneg_left (by linarith [h2.2]) hu
      have e3 : |R.rnd (t + h) - (k + 1 : ℕ) * h| ≤
          R.u * ((k : ℚ) * (k + 8)) * h + R.u * (t + h) := by
        have : R.rnd (t + h) - (k + 1 : ℕ) * h = (R.rnd (t + h) - (t + h)) + (t - k * h) := by
          push_cast; ring
        rw [this]
        exact (abs_add_le _ _).trans (by linarith)
      refine (e3.trans (add_le_add_right e2 _)).trans ?_
      have huh : 0 ≤ R.u * h := mul_nonneg hu h0.le
      have : R.u * ((k : ℚ) * (k + 8)) * h + R.u * ((k + 1) * h + 1 / 10 ^ 9 * (k * h)) =
          (R.u * h) * ((k : ℚ) * (k + 8) + (k + 1) + 1 / 10 ^ 9 * k) := by ring
      rw [this]
      have : R.u * (((k + 1 : ℕ) : ℚ) * ((k + 1 : ℕ) + 8)) * h =
          (R.u * h) * (((k : ℚ) + 1) * (k + 1 + 8)) := by push_cast; ring
      rw [this]
      gcongr
      nlinarith
    unfold Fl.clipFinal
    split
    · rename_i hclip
      have hkN' : k + 1 = N := by
        by_contra hne
        have hlt : k + 1 + 1 ≤ N := by omega
        have hlt' : (k : ℚ) + 1 + 1 ≤ N := by exact_mod_cast hlt
        have e1 := (abs_le.1 hplain).2
        have e2 := herr' (k + 1) (by omega)
        have e3 : ((k + 1 : ℕ) : ℚ) * h ≤ N * h - h := by push_cast; nlinarith
        have hNh' : N * h ≤ 90000 * h := by gcongr
        linarith
      refine ⟨?_, fun hlt => absurd hkN' (by omega)⟩
      have hkq : ((k + 1 : ℕ) : ℚ) = N := by exact_mod_cast hkN'
      rw [hkq]
      have htf : t < final := Fl.guard_lt (hguard k t hk ht)
      have p1 := Fl.rnd_nonneg R (x := final - t) (by linarith)
      have e1 := Fl.err_nonneg R (x := final - t) (by linarith)
      have e2 := Fl.err_nonneg R (x := t + R.rnd (final - t)) (by linarith)
      have p2 := Fl.rnd_le R (x := final - t) (by linarith)
      have e3 : R.u * (final - t) ≤ R.u * final := by gcongr; linarith
      have p3 : t + R.rnd (final - t) ≤ 2 * final := by
        have p4 : R.u * (final - t) ≤ 1 * (final - t) :=
          mul_le_mul_of_nonneg_right (Fl.u_lt_one R).le (by linarith)
        linarith
      have e4 : R.u * (t + R.rnd (final - t)) ≤ R.u * (2 * final) := by gcongr
      have e5 : |R.rnd (t + R.rnd (final - t)) - final| ≤ 3 * (R.u * final) := by
        have : R.rnd (t + R.rnd (final - t)) - final =
            (R.rnd (t + R.rnd (final - t)) - (t + R.rnd (final - t))) +
              (R.rnd (final - t) - (final - t)) := by ring
        rw [this]
        exact (abs_add_le _ _).trans (by linarith)
      have e6 : R.u * final ≤ R.u * (N * h * (1 + 1 / 10 ^ 13)) := by gcongr
      have e7 : |R.rnd (t + R.rnd (final - t)) - N * h| ≤ 8 * (R.u * (N * h)) := by
        have : R.rnd (t + R.rnd (final - t)) - N * h =
            (R.rnd (t + R.rnd (final - t)) - final) + (final - N * h) := by ring
        rw [this]
        refine (abs_add_le _ _).trans ?_
        have e8 : |final - N * h| ≤ 4 * (R.u * (N * h)) := by
          rw [abs_le]; constructor <;> linarith [hf.1, hf.2]
        have : 0 ≤ R.u * (N * h) := by positivity
        linarith
      refine e7.trans ?_
      have : 0 ≤ R.u * (N * h) := by positivity
      nlinarith
    · exact ⟨hplain, fun _ => rfl⟩
  -- the run
  suffices inv : (∀ i, ∀ hi : i < s.log.length,
        |s.log[i].t - (i + 1 : ℕ) * h| ≤ R.u * (((i + 1 : ℕ) : ℚ) * ((i + 1 : ℕ) + 8)) * h) ∧
      s.log.length = min outs.length N ∧
      (outs.length < N → (∃ nom, s.phase = .solving nom 0) ∧ 0 ≤ s.t ∧
        |s.t - (outs.length + 1 : ℕ) * h| ≤
          R.u * (((outs.length + 1 : ℕ) : ℚ) * ((outs.length + 1 : ℕ) + 8)) * h ∧
        (outs.length + 1 < N → s.value = h)) ∧
      (N ≤ outs.length → s.phase = .finished) by
    obtain ⟨i1, i2, i3, i4⟩ := inv
    refine ⟨?_, by simpa [RunState.times] using i2, ?_, i4, ?_⟩
    · intro i hi
      simp only [RunState.times, List.getElem_map]
      exact i1 i (by simpa [RunState.times] using hi)
    · rintro ⟨e, he⟩
      by_cases hlt : outs.length < N
      · obtain ⟨nom, hn⟩ := (i3 hlt).1
        rw [hn] at he; simp at he
      · rw [i4 (not_lt.1 hlt)] at he; simp at he
    · intro hret
      by_contra hlt
      obtain ⟨nom, hn⟩ := (i3 (not_le.1 hlt)).1
      unfold Returned at hret
      rw [hn] at hret; simp at hret
  subst hs
  induction outs using List.reverseRecOn with
  | nil =>
    have hini : (Stepsize.new { initialValue := h }).initialValue = h := rfl
    have h1 : R.rnd (0 + h) = h := by rw [zero_add]; exact hh
    simp only [Fl.run_nil, Fl.start, Fl.loopHead, Fl.guard_zero R hf0, if_true, hini, h1]
    refine ⟨by simp, by simp, ?_, fun hN0 => absurd hN0 (by simp; omega)⟩
    intro _
    refine ⟨⟨h, rfl⟩, h0.le, ?_, fun _ => trivial⟩
    simp
    positivity
  | append_singleton l o ih =>
    obtain ⟨i1, i2, i3, i4⟩ := ih (fun o ho => hc o (by simp [ho]))
    rw [Fl.run_concat]
    generalize Fl.run R.rnd (Stepsize.new { initialValue := h }) final l = s at *
    have hlen : (l ++ [o]).length = l.length + 1 := by simp
    by_cases hlt : l.length < N
    · obtain ⟨⟨nom, hph⟩, ht0, ht, hv⟩ := i3 hlt
      have ha : Fl.afterSolve R.rnd (Stepsize.new { initialValue := h }) s.value s.t o =
          .ok s.value := by
        simp [Fl.afterSolve, Stepsize.new, setMilestones]
      rw [Fl.step_accept hph ha (hc o (by simp))]
      have hlog : s.log.length = l.length := by rw [i2]; omega
      have j1 : ∀ i, ∀ hi : i < (s.log ++ [StepRec.mk s.t nom s.value s.value o.nbIt 0]).length,
          |(s.log ++ [StepRec.mk s.t nom s.value s.value o.nbIt 0])[i].t - (i + 1 : ℕ) * h| ≤
            R.u * (((i + 1 : ℕ) : ℚ) * ((i + 1 : ℕ) + 8)) * h := by
        intro i hi
        by_cases hil : i < s.log.length
        · rw [List.getElem_append_left hil]
          exact i1 i hil
        · have hie : i = s.log.length := by simp at hi; omega
          subst hie
          rw [List.getElem_append_right le_rfl]
          simp only [Nat.sub_self, List.getElem_cons_zero]
          rw [hlog]
          exact ht
      by_cases hlast : l.length + 1 < N
      · have hg := hguard (l.length + 1) s.t hlast ht
        rw [hv hlast]
        obtain ⟨n1, n2⟩ := hnext (l.length + 1) s.t (by omega) hlast ht0 ht
        unfold Fl.loopHead
        rw [if_pos hg]
        refine ⟨by rw [hv hlast] at j1; exact j1, by simp [hlog]; omega, ?_,
          fun hle => absurd hle (by rw [hlen]; omega)⟩
        intro _
        rw [hlen]
        refine ⟨⟨_, rfl⟩, ?_, n1, n2⟩
        apply Fl.rnd_nonneg R
        have := Fl.clipFinal_pos R (Fl.guard_lt hg) h0
        linarith
      · have hNe : l.length + 1 = N := by omega
        have hg := hstop s.t (by rw [← hNe]; exact ht)
        unfold Fl.loopHead
        rw [hg]
        refine ⟨j1, by simp [hlog]; omega, fun h' => absurd h' (by rw [hlen]; omega), fun _ => rfl⟩
    · have hfin := i4 (not_lt.1 hlt)
      rw [Fl.step_finished o hfin]
      refine ⟨i1, by rw [i2, hlen]; omega, fun h' => absurd h' (by rw [hlen]; omega),
        fun _ => hfin⟩

example : pyFloat.IsFloat (lit (1 / 10)) ∧
    |lit (3 / 10) - (3 : ℕ) * lit (1 / 10)| ≤ 4 * pyFloat.u * ((3 : ℕ) * lit (1 / 10)) ∧
    (Fl.run pyFloat.rnd (Stepsize.new { initialValue := lit (1 / 10) }) (lit (3 / 10))
      (List.replicate 5 ⟨2, true⟩)).times = [lit (1 / 10), lit (2 / 10), lit (3 / 10)] := by
  refine ⟨?_, ?_, ?_⟩
  · show Fl.binary 53 _ = _
    decide +kernel
  · show |_| ≤ 4 * ((1 : ℚ) / 2) ^ 53 * _
    decide +kernel
  · show (Fl.run (Fl.binary 53) _ _ _).times = _
    decide +kernel

/-! ## Termination -/

theorem positiveSteps_of_atLeast {cfg : Stepsize} {ε : ℚ} (he : StepsAtLeast cfg ε) :
    PositiveSteps cfg := by
  refine ⟨lt_of_lt_of_le he.pos he.initial, ?_⟩
  intro a ha
  refine ⟨lt_of_lt_of_le one_pos (he.ratio a ha), ?_⟩
  intro t m hm
  rcases he.cap a ha t with h | ⟨c, h, hc⟩
  · rw [hm] at h; simp at h
  · rw [hm] at h
    simp at h
    subst h
    exact lt_of_lt_of_le he.pos hc

theorem afterSolve_atLeast_fl (R : Rounding) {cfg : Stepsize} {ε : ℚ} (he : StepsAtLeast cfg ε)
    {v t : ℚ} {o : Outcome} (ho : FastOutcome cfg o) (hvf : R.IsFloat v) (hv0 : 0 < v)
    (ht : 0 < t) : ∃ w, Fl.afterSolve R.rnd cfg v t o = .ok w ∧
      (99 / 100 * ε ≤ v → 99 / 100 * ε ≤ w) := by
  have hpos := he.pos
  have hclip : ∀ v', 99 / 100 * ε ≤ v' →
      99 / 100 * ε ≤ Fl.clipMilestone R.rnd cfg.milestones t v' := by
    intro v' hv'
    unfold Fl.clipMilestone
    split
    · exact hv'
    · rename_i m hm
      split
      · rename_i hc
        have hlt := nextMilestone_lt hm
        have hmem : ∃ ms, cfg.milestones = some ms ∧ m ∈ ms := by
          unfold nextMilestone at hm
          split at hm
          · simp at hm
          · rename_i l hl
            exact ⟨l, hl, List.mem_of_find?_eq_some hm⟩
        obtain ⟨ms, hms, hin⟩ := hmem
        have h1 := he.milestones ms hms m hin (by linarith)
        have h2 : 1 / 100000 * (1 - 1 / 10 ^ 6) * m < m - t := by
          by_contra hc'
          refine hc.2 (Fl.isclose_of_near R ?_)
          rw [abs_of_pos (by linarith : 0 < m), abs_of_neg (by linarith : t - m < 0)]
          linarith [not_lt.1 hc']
        have h3 := Fl.le_rnd R (x := m - t) (by linarith)
        have h4 : (1 - 1 / 10 ^ 14) * (m - t) ≤ (1 - R.u) * (m - t) := by
          apply mul_le_mul_of_nonneg_right _ (by linarith)
          linarith [R.u_small]
        linarith
      · exact hv'
  unfold Fl.afterSolve
  split
  · cases hadp : cfg.adaptive with
    | none =>
      refine ⟨Fl.clipMilestone R.rnd cfg.milestones t v, ?_, hclip v⟩
      simp [Fl.adapt, hadp, Fl.adaptAdaptive]
    | some a =>
      have hn := ho.2 (by simp [hadp])
      have hr := he.ratio a hadp
      have h1 : 99 / 100 * ε ≤ v → 99 / 100 * ε ≤ R.rnd (v * a.ratio) := fun hv =>
        hv.trans (Fl.le_rnd_float R hvf (by nlinarith))
      rcases he.cap a hadp t with hc | ⟨c, hc, hle⟩
      · refine ⟨Fl.clipMilestone R.rnd cfg.milestones t (R.rnd (v * a.ratio)), ?_, fun hv => hclip _ (h1 hv)⟩
        simp [Fl.adapt, hadp, Fl.adaptAdaptive, Fl.onDivergence, ho.1,
          Fl.onIterations, hn, Adaptive.cap, hc]
      · by_cases hlt : c < R.rnd (v * a.ratio)
        · refine ⟨Fl.clipMilestone R.rnd cfg.milestones t c, ?_, fun _ => hclip _ (by linarith)⟩
          simp [Fl.adapt, hadp, Fl.adaptAdaptive, Fl.onDivergence, ho.1,
            Fl.onIterations, hn, Adaptive.cap, hc, hlt]
        · refine ⟨Fl.clipMilestone R.rnd cfg.milestones t (R.rnd (v * a.ratio)), ?_, fun hv => hclip _ (h1 hv)⟩
          simp [Fl.adapt, hadp, Fl.adaptAdaptive, Fl.onDivergence, ho.1,
            Fl.onIterations, hn, Adaptive.cap, hc, hlt]
  · exact ⟨v, rfl, id⟩

/-- C80 (C14 with floats): if steps cannot get below `ε`, with `ε >= 8*u*final_time` (about `1e-15`
times the final time), and solves converge fast, `run()` has returned after at most
`2*final_time/ε` solves. -/
theorem C80_terminates (R : Rounding) (cfg : Stepsize) (final ε : ℚ) (he : StepsAtLeast cfg ε)
    (hd : FloatData R cfg) (hini : cfg.initialValue ≤ final) (hε : 8 * R.u * final ≤ ε)
    (outs : List Outcome) (ho : ∀ o ∈ outs, FastOutcome cfg o)
    (hlen : 2 * final ≤ outs.length * ε) : Returned (Fl.run R.rnd cfg final outs) := by
  have hp := positiveSteps_of_atLeast he
  have hpos := he.pos
  have hf : 0 < final := lt_of_lt_of_le hp.1 hini
  have hu := R.u_nonneg
  have hus := R.u_small
  suffices inv : Returned (Fl.run R.rnd cfg final outs) ∨
      ((∃ nom k, (Fl.run R.rnd cfg final outs).phase = .solving nom k) ∧
        ((((outs.length : ℚ) + 1) * (ε / 2) ≤ (Fl.run R.rnd cfg final outs).t ∧
          99 / 100 * ε ≤ (Fl.run R.rnd cfg final outs).value ∧
          (Fl.run R.rnd cfg final outs).t ≤ final) ∨
        (final * (1 - 1 / 10 ^ 12) ≤ (Fl.run R.rnd cfg final outs).t ∧
          (outs.length : ℚ) * (ε / 2) < final))) by
    rcases inv with h | ⟨_, ⟨h1, _, h3⟩ | ⟨_, h2⟩⟩
    · exact h
    · exfalso; linarith
    · exfalso; linarith
  clear hlen
  induction outs using List.reverseRecOn with
  | nil =>
    right
    have h1 : R.rnd (0 + cfg.initialValue) = cfg.initialValue := by
      rw [zero_add]; exact hd.initial
    simp only [Fl.run_nil, Fl.start, Fl.loopHead, Fl.guard_zero R hf, if_true, h1]
    have := he.initial
    refine ⟨⟨_, _, rfl⟩, .inl ⟨?_, by linarith, hini⟩⟩
    simp only [List.length_nil, Nat.cast_zero]
    linarith
  | append_singleton l o ih =>
    have hg := Fl.good R (final := final) hp hd l
    rcases ih (fun o h => ho o (by simp [h])) with h | ⟨⟨nom, k, hph⟩, hcase⟩
    · left
      rw [Fl.run_concat, Fl.step_finished o h]
      exact h
    · rw [Fl.run_concat]
      generalize Fl.run R.rnd cfg final l = s at *
      obtain ⟨hv0, hvf, ht0, htf, _⟩ := hg.cur ⟨nom, k, hph⟩
      have hfast := ho o (by simp)
      obtain ⟨w, hw, hwe⟩ := afterSolve_atLeast_fl R he hfast hvf hv0 ht0
      rw [Fl.step_accept hph hw hfast.1]
      rw [List.length_append, List.length_singleton]
      unfold Fl.loopHead
      by_cases hgd : Fl.loopGuard R.rnd final s.t = true
      · rw [if_pos hgd]
        right
        refine ⟨⟨_, _, rfl⟩, ?_⟩
        have hlt := Fl.guard_lt hgd
        rcases hcase with ⟨h1, h2, h3⟩ | ⟨h1, _⟩
        · have hwe := hwe h2
          unfold Fl.clipFinal
          split
          · right
            push_cast
            refine ⟨?_, by linarith⟩
            have e1 := Fl.le_rnd R (x := final - s.t) (by linarith)
            have e0 := Fl.rnd_nonneg R (x := final - s.t) (by linarith)
            have e2 := Fl.le_rnd R (x := s.t + R.rnd (final - s.t)) (by linarith)
            have e3 : R.u * (final - s.t) ≤ 1 / 10 ^ 14 * (final - s.t) :=
              mul_le_mul_of_nonneg_right hus (by linarith)
            have e4 : R.u * (s.t + R.rnd (final - s.t)) ≤
                1 / 10 ^ 14 * (s.t + R.rnd (final - s.t)) :=
              mul_le_mul_of_nonneg_right hus (by linarith)
            linarith
          · rename_i hcl
            left
            refine ⟨?_, hwe, not_lt.1 hcl⟩
            have e1 := Fl.le_rnd R (x := s.t + w) (by linarith)
            have e2 : R.u * s.t ≤ R.u * final := by gcongr
            have e3 : R.u * w ≤ 1 / 10 ^ 14 * w := mul_le_mul_of_nonneg_right hus (by linarith)
            push_cast
            linarith
        · exfalso
          have := Fl.lt_of_guard R hf hgd
          linarith
      · rw [if_neg hgd]
        left
        rfl

example : StepsAtLeast exFloat (lit (6 / 10)) ∧ FloatData pyFloat exFloat ∧
    8 * pyFloat.u * lit (17 / 10) ≤ lit (6 / 10) ∧
    Returned (Fl.run pyFloat.rnd exFloat (lit (17 / 10)) (List.replicate 6 ⟨2, true⟩)) := by
  have h1 : StepsAtLeast exFloat (lit (6 / 10)) := by
    refine ⟨by decide +kernel, le_rfl, ?_, ?_, by rintro ms ⟨⟩⟩
    · rintro a ⟨⟩
      show (1 : ℚ) ≤ 2
      norm_num
    · rintro a ⟨⟩ t
      left
      simp [truthy, MaxStep.eval]
  have h2 : 8 * pyFloat.u * lit (17 / 10) ≤ lit (6 / 10) := by
    show 8 * ((1 : ℚ) / 2) ^ 53 * _ ≤ _
    decide +kernel
  refine ⟨h1, exFloat_ok.2, h2, ?_⟩
  refine C80_terminates pyFloat exFloat _ _ h1 exFloat_ok.2 (by decide +kernel) h2 _ ?_ ?_
  · intro o ho
    rw [List.eq_of_mem_replicate ho]
    exact ⟨rfl, fun _ => by norm_num⟩
  · rw [List.length_replicate]
    decide +kernel

end Festim.Props
