import Verif.Model.Forms

/-!
# The mixed function space

festim/h_transport_problem.py:113-142 (the space), 153-185 (its components are handed to the solute, the traps and the
surfaces of the `SurfaceKinetics` in this order), 249-278 (the form).  The space is given by a basis, one function for
each degree of freedom; nothing is assumed about the elements.
-/

open scoped BigOperators

namespace Festim.Weak

section
variable {Ω Γ : Type} {d : ℕ} {ι : Type} [Fintype ι]

/-- A function of the mixed space: solute, traps, adsorbed concentrations (real numbers, "R" elements)
(h_transport_problem.py:131-137). -/
structure MixedFun (Ω Γ : Type) (d : ℕ) where
  mob : Fld Ω Γ d
  trap : ℕ → Fld Ω Γ d
  ads : ℕ → ℝ

/-- The field with coefficients `x` (h_transport_problem.py:152-154). -/
def Fld.comb (x : ι → ℝ) (e : ι → Fld Ω Γ d) : Fld Ω Γ d :=
  ⟨fun p => ∑ i, x i * (e i).val p, fun p k => ∑ i, x i * (e i).grad p k, fun q => ∑ i, x i * (e i).tr q⟩

/-- `Function(V)` with the vector `x` (h_transport_problem.py:152-154). -/
def MixedFun.comb (x : ι → ℝ) (e : ι → MixedFun Ω Γ d) : MixedFun Ω Γ d :=
  ⟨Fld.comb x fun i => (e i).mob, fun k => Fld.comb x fun i => (e i).trap k, fun k => ∑ i, x i * (e i).ads k⟩

/-- `trap.solution = self.u.sub(index)` (h_transport_problem.py:172-175). -/
def placeTraps (f : ℕ → Fld Ω Γ d) : ℕ → List (Trap Ω Γ d) → List (Trap Ω Γ d)
  | _, [] => []
  | k, t :: ts => { t with sol := f k } :: placeTraps f (k + 1) ts

/-- `trap.test_function` (h_transport_problem.py:176). -/
def trapTests (f : ℕ → Fld Ω Γ d) : ℕ → List (Trap Ω Γ d) → List (Fld Ω Γ d)
  | _, [] => []
  | k, _ :: ts => f k :: trapTests f (k + 1) ts

/-- `concentration.solutions[i] = self.u.sub(index)` (h_transport_problem.py:166-168). -/
def placeSurfs (a : ℕ → ℝ) : ℕ → List SKSurf → List SKSurf
  | _, [] => []
  | k, s :: ss => { s with sol := a k } :: placeSurfs a (k + 1) ss

/-- `concentration.test_functions[i]` (h_transport_problem.py:169). -/
def adsTests (a : ℕ → ℝ) : ℕ → List SKSurf → List ℝ
  | _, [] => []
  | k, _ :: ss => a k :: adsTests a (k + 1) ss

/-- The same for all the conditions (h_transport_problem.py:236-247). -/
def placeBCs (u v : ℕ → ℝ) : ℕ → List (MobBC Γ) → List (MobBC Γ)
  | _, [] => []
  | k, .flux f s :: bcs => .flux f s :: placeBCs u v k bcs
  | k, .sk b _ :: bcs =>
    .sk { b with surfaces := placeSurfs u k b.surfaces } (adsTests v k b.surfaces)
      :: placeBCs u v (k + b.surfaces.length) bcs

/-- The problem whose unknown is `u` (h_transport_problem.py:236-247). -/
def Problem.at (P : Problem Ω Γ d) (u : MixedFun Ω Γ d) : Problem Ω Γ d :=
  { P with mv := { P.mv with sol := u.mob }, traps := placeTraps u.trap 0 P.traps }

/-- `self.F` with the test function `v` (h_transport_problem.py:249-278). -/
noncomputable def Problem.mixedForm (P : Problem Ω Γ d) (bcs : List (MobBC Γ)) (u v : MixedFun Ω Γ d) :
    Except PyErr (Form Ω Γ) :=
  (P.at u).form (placeBCs u.ads v.ads 0 bcs) v.mob (trapTests v.trap 0 P.traps)

end

end Festim.Weak
