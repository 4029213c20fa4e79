import Verif.Props.Derived
import Verif.Props.TrapElements

/-!
# Concrete cases of C60, C61, C67 and C76
-/

namespace Festim.Props

open Weak Spec

open DerivedCase

/-- `C60_total_is_average_times_measure`: a cylinder. -/
example : ∃ a t, (Quantity.averageVolume .cylindrical (.name "solute") 1).value env false = .ok a ∧
    (Quantity.totalVolume (.cylindrical (0, 2 * Real.pi)) (.name "solute") 1).value env false = .ok t ∧
    t = a * (totalAngle (.cylindrical (0, 2 * Real.pi)) * volumeOf env.mesh 1 (jac env.mesh .cylindrical)) :=
  C60_total_is_average_times_measure env false (.cylindrical (0, 2 * Real.pi)) (.name "solute") 1 (p1 1 2 5) (label_solute env false)
    (Or.inr rfl) (by simp [env, mesh, jac, volumeOf, Geom.suffix]; norm_num)

/-- `C60_empty_volume`: volume 7 does not exist. -/
example : (Quantity.totalVolume .cartesian (.name "solute") 7).value env false = .ok 0 ∧
    (Quantity.averageVolume .cartesian (.name "solute") 7).value env false = .error .zeroDivisionError :=
  ⟨(C60_empty_volume env false (.name "solute") 7 (p1 1 2 5) (fun b => label_solute env b) (by simp [env, mesh])
    (by simp [p1])).1,
   (C60_empty_volume env false (.name "solute") 7 (p1 1 2 5) (fun b => label_solute env b) (by simp [env, mesh])
    (by simp [p1])).2.1⟩

/-- `C61_order_matters`: the total in cylindrical coordinates. -/
example : (∃ r, derivedRow env false [.maximumVolume (.name "retention") 1,
      (LinearKind.totalVolume (.cylindrical (0, 1)) 1).of (.name "retention")] = .ok r) ∧
    (∃ m, derivedRow env false [(LinearKind.totalVolume (.cylindrical (0, 1)) 1).of (.name "retention"),
      .maximumVolume (.name "retention") 1] = .error (.attributeError m)) := by
  obtain ⟨l, h, hl⟩ := subdDofs_spec env.retention 1 (1, [1 + 1, 2 + 1]) (by simp [env, PostEnv.retention, PostFun.add, p1]) rfl
  exact C61_order_matters env (.totalVolume (.cylindrical (0, 1)) 1) 1 rfl (by simp [env]) (by simp [LinearKind.Measurable]) l
    (by intro h0; have := (hl (1 + 1)).2 ⟨(1, [1 + 1, 2 + 1]), by simp [env, PostEnv.retention, PostFun.add, p1], rfl, by simp⟩
        simp [h0] at this) h

/-- `C67_never_computes`. -/
example : ∀ r, derivedRow env false [.totalVolume .cartesian (.name "solute") 1, .maximumSurface (.name "solute") 1] ≠ .ok r :=
  C67_never_computes env false _ (.name "solute") 1 (Or.inl (by simp))

open CGCase in
/-- `C76_continuous_negative`: unit rates and densities, cells of size 1/10, at 300 K. -/
example : ∃ t, Solves (1 / 10) (by norm_num) 1 0 1 0 1 1 300 1 t ∧ t 2 < 0 := by
  obtain ⟨⟨t, h⟩, h2⟩ := C76_continuous_negative (1 / 10) (by norm_num) 1 0 1 0 1 1 300 1 one_pos zero_le_one one_pos one_pos one_pos
  exact ⟨t, h, (h2 t h).1⟩

end Festim.Props
