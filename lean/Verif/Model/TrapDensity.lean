import Verif.Model.Forms

/-!
# Export of the density of a trap

festim/exports/trap_density_xdmf.py: the field that `TrapDensityXDMF.write` computes and writes.
-/

namespace Festim.Weak

variable {Ω Γ : Type} {d : ℕ}

/-- The form solved by `TrapDensityXDMF.write` (trap_density_xdmf.py:26-32): whatever the number of densities of the trap,
`density[0]` is used.  A trap without density has no `density[0]`. -/
def densityForm (trap : Trap Ω Γ d) (u v : Ω → ℝ) : Except PyErr (Form Ω Γ) :=
  match trap.materials, trap.density with
  | [], _ => .ok [.dx fun p => u p * v p]
  | _ :: _, [] => .error (.indexError "list index out of range")
  | _ :: _, n :: _ =>
    .ok (.dx (fun p => u p * v p) :: trap.materials.map fun mat => .dxOn mat.ids fun p => -(n p * v p))

end Festim.Weak
