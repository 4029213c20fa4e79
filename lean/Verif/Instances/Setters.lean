import Verif.Props.Setters

/-!
# Concrete cases of C64
-/

namespace Festim.Props

open Attr Spec

theorem inst_set_ok {ε α : Type} {r : Except ε α} (h : r.isOk = true) : ∃ a, r = .ok a := by
  cases r with
  | ok a => exact ⟨a, rfl⟩
  | error e => simp [Except.isOk, Except.toBool] at h

/-- Object 3: a plain list of two traps; object 4: a list with a material in it. -/
def inst_heap : Heap := World.start.heap ++ [⟨.plain, [.leaf .trap 1, .leaf .trap 2]⟩, ⟨.plain, [.leaf .trap 1, .leaf .material 1]⟩,
  ⟨.plain, [.leaf .trap 5]⟩]

theorem inst_means : Means .traps inst_heap (.ref 3) [.leaf .trap 1, .leaf .trap 2] .fresh :=
  .list 3 .plain _ rfl (by decide) (by simp [Element]) (by simp [Element])

theorem inst_mixed (items : List Val) (sh : Sharing) : ¬ Means .traps inst_heap (.ref 4) items sh := by
  intro h
  cases h with
  | single _ h => simp [Element] at h
  | typed _ _ h => simp [inst_heap, World.start, Kind.cls] at h
  | list _ c _ h _ _ h2 =>
    have h3 : (⟨.plain, [.leaf .trap 1, .leaf .material 1]⟩ : Obj) = ⟨c, items⟩ := by simpa [inst_heap, World.start] using h
    cases h3
    have := h2 (.leaf .material 1) (by simp)
    simp [Element] at this

/-- `C64_accepts`: the simulation gets a list of its own with the two traps. -/
example : setter .traps inst_heap (.ref 3) = .ok (inst_heap ++ [⟨.traps, [.leaf .trap 1, .leaf .trap 2]⟩], .ref 6) :=
  C64_accepts .traps inst_heap (.ref 3) _ .fresh inst_means

/-- `C64_rejects`. -/
example : ∃ msg, setter .traps inst_heap (.ref 4) = .error (.typeError msg) :=
  C64_rejects .traps inst_heap (.ref 4) inst_mixed

/-- `C64_singleton`. -/
example : setter .traps inst_heap (.leaf .trap 5) = setter .traps inst_heap (.ref 5) :=
  C64_singleton .traps inst_heap (.leaf .trap 5) ⟨5, rfl⟩ 5 rfl

/-- `C64_failed_assignment`. -/
example : ∃ s, step ⟨inst_heap, [s]⟩ (.set 0 .traps (.ref 4)) = ⟨inst_heap, [s]⟩ := by
  obtain ⟨p, h⟩ := inst_set_ok (r := construct inst_heap {}) (by decide +kernel)
  exact ⟨p.2, C64_failed_assignment ⟨inst_heap, [p.2]⟩ 0 p.2 rfl .traps (.ref 4) inst_mixed⟩

theorem inst_closed : ClosedHeap inst_heap := by
  intro o ho v hv a hva
  subst hva
  simp only [inst_heap, World.start, List.cons_append, List.nil_append, List.mem_cons, List.not_mem_nil, or_false] at ho
  rcases ho with rfl | rfl | rfl | rfl | rfl | rfl <;> simp at hv

/-- `C64_constructor`, both ways. -/
example : (∃ r, construct inst_heap { traps := .ref 3, dt := .num 1, T := .num 300 } = .ok r) ∧
    ¬ ∃ r, construct inst_heap { traps := .ref 4 } = .ok r := by
  constructor
  · refine (C64_constructor inst_heap _ inst_closed (by intro a h; cases h) (by intro a h; cases h)).2 ⟨trivial, trivial,
      ⟨_, _, inst_means⟩, ⟨_, _, .noMaterials rfl⟩, ⟨_, _, .none (by decide)⟩⟩
  · intro h
    obtain ⟨-, -, ⟨items, sh, h1⟩, -⟩ := (C64_constructor inst_heap { traps := .ref 4 } inst_closed (by intro a h; cases h)
      (by intro a h; cases h)).1 h
    exact inst_mixed items sh h1

end Festim.Props
