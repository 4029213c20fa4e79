import Verif.Props.Solve
import Verif.Props.Existence

/-!
# C95 for the linear problems of C90
-/

open scoped BigOperators

namespace Festim.Spec

open Solve Weak

variable {Ω : Type} [Fintype Ω]

/-- The node at an end. -/
def endNode (L : Line Ω) (q : Bool) : Fin (L.N + 1) := if q then Fin.last L.N else 0

/-- The Dirichlet conditions of `S` are the values `val` at the ends `dir`. -/
structure EndValues (L : Line Ω) (S : System (Fin (L.N + 1))) (dir : Bool → Prop) (val : Bool → ℝ) : Prop where
  imposed : ∀ q, dir q → Imposed S.bcs (endNode L q) (val q)
  free : ∀ i, (∀ q, dir q → i ≠ endNode L q) → Free S.bcs i

/-- The unknowns of `S` are the nodal values; its equation `j` is the residual of the problem for the basis function
of node `j`. -/
def LineSystem (L : Line Ω) (P : Problem Ω Bool 1) (bcs : List (MobBC Bool)) (S : System (Fin (L.N + 1))) : Prop :=
  ∀ x (j : Fin (L.N + 1)), ∃ F, (P.withSol (L.p1 (extend L.N x))).form bcs (L.p1 (hat j)) [] = .ok F ∧
    S.F x j = P.mesh.assemble F

/-- The same for the heat equation. -/
def HeatSystem (L : Line Ω) (r : Fld Ω Bool 1) (mats : List Mat) (dt : Option ℝ)
    (sources : List ((Ω → ℝ) × List ℕ)) (bcs : List (Flux Bool × List ℕ)) (Tn : Fld Ω Bool 1)
    (S : System (Fin (L.N + 1))) : Prop :=
  ∀ x (j : Fin (L.N + 1)), S.F x j = (L.mesh r).assemble
    (heatForm (L.mesh r) mats ⟨L.p1 (extend L.N x), Tn⟩ dt sources bcs (L.p1 (hat j)))

end Festim.Spec

namespace Festim.Weak

open Solve Spec

variable {Ω : Type} [Fintype Ω] {L : Line Ω}

theorem bil_expand (L : Line Ω) (α K : Ω → ℝ) (β : Bool → ℝ) (x : Fin (L.N + 1) → ℝ) (v : ℕ → ℝ) :
    bil L α K β (extend L.N x) v = ∑ i : Fin (L.N + 1), x i * bil L α K β (hat i) v := by
  let f : (Fin (L.N + 1) → ℝ) →ₗ[ℝ] ℝ :=
    { toFun := fun x => bil L α K β (extend L.N x) v
      map_add' := fun x y => by rw [extend_add, bil_add]
      map_smul' := fun a x => by rw [extend_smul, bil_smul]; rfl }
  have h := LinearMap.pi_apply_eq_sum_univ f x
  refine h.trans (Finset.sum_congr rfl fun i _ => ?_)
  rw [smul_eq_mul]
  congr 1
  refine bil_congr L α K β (p1_congr L fun j hj => ?_) rfl
  simp only [extend, Nat.lt_succ_of_le hj, dif_pos, hat, Fin.ext_iff, eq_comm (a := j)]

theorem lin_expand (L : Line Ω) (f : Ω → ℝ) (g : Bool → ℝ) (x : Fin (L.N + 1) → ℝ) :
    lin L f g (extend L.N x) = ∑ i : Fin (L.N + 1), x i * lin L f g (hat i) := by
  let F : (Fin (L.N + 1) → ℝ) →ₗ[ℝ] ℝ :=
    { toFun := fun x => lin L f g (extend L.N x)
      map_add' := fun x y => by rw [extend_add, lin_add]
      map_smul' := fun a x => by rw [extend_smul, lin_smul]; rfl }
  have h := LinearMap.pi_apply_eq_sum_univ F x
  refine h.trans (Finset.sum_congr rfl fun i _ => ?_)
  rw [smul_eq_mul]
  congr 1
  refine lin_congr L f g (p1_congr L fun j hj => ?_)
  simp only [extend, Nat.lt_succ_of_le hj, dif_pos, hat, Fin.ext_iff, eq_comm (a := j)]

theorem tr_extend (L : Line Ω) (x : Fin (L.N + 1) → ℝ) (q : Bool) :
    (L.p1 (extend L.N x)).tr q = x (endNode L q) := by
  cases q <;> simp [Line.p1, endNode, extend, Fin.last]

/-- The stiffness matrix. -/
noncomputable def stiff (L : Line Ω) (α K : Ω → ℝ) (β : Bool → ℝ) :
    Matrix (Fin (L.N + 1)) (Fin (L.N + 1)) ℝ := Matrix.of fun j i => bil L α K β (hat i) (hat j)

section
variable {S : System (Fin (L.N + 1))} {α K : Ω → ℝ} {β : Bool → ℝ} {f : Ω → ℝ} {g : Bool → ℝ}
  {dir : Bool → Prop} {val : Bool → ℝ}

theorem affine_of_bil (hF : ∀ x (j : Fin (L.N + 1)), S.F x j
      = bil L α K β (extend L.N x) (hat j) - lin L f g (hat j)) (x : Fin (L.N + 1) → ℝ) :
    S.F x = (stiff L α K β).mulVec x - fun j : Fin (L.N + 1) => lin L f g (hat j) := by
  funext j
  rw [hF, bil_expand]
  simp only [Pi.sub_apply, Matrix.mulVec, dotProduct, stiff, Matrix.of_apply]
  congr 1
  exact Finset.sum_congr rfl fun i _ => mul_comm _ _

/-- The assembled matrix is regular. -/
theorem matrix_regular (hc : Coercive L α K β dir) (hJ : IsJacobian S) (hcell : ∀ i, 0 < S.cells i)
    (hd : EndValues L S dir val)
    (hF : ∀ x (j : Fin (L.N + 1)), S.F x j = bil L α K β (extend L.N x) (hat j) - lin L f g (hat j))
    (x : Fin (L.N + 1) → ℝ) : IsUnit (S.matrix x).det := by
  rw [← Matrix.isUnit_iff_isUnit_det, ← Matrix.mulVec_injective_iff_isUnit]
  suffices ∀ d, (S.matrix x).mulVec d = 0 → d = 0 by
    intro a b hab
    have := this (a - b) (by rw [Matrix.mulVec_sub]; exact sub_eq_zero.2 hab)
    exact sub_eq_zero.1 this
  intro d h
  have hJx := jacobian_affine hJ _ _ (affine_of_bil hF) x
  have himp : ∀ i v, Spec.Imposed S.bcs i v → d i = 0 := by
    intro i v hv
    have h1 := congrFun h i
    unfold Matrix.mulVec dotProduct at h1
    simp only [System.matrix, value_imposed hv, Matrix.of_apply, entry] at h1
    simp only [ite_mul, zero_mul, Finset.sum_ite_eq, Finset.mem_univ, if_true] at h1
    have hc' : (S.cells i : ℝ) ≠ 0 := by exact_mod_cast (hcell i).ne'
    exact (mul_eq_zero.1 h1).resolve_left hc'
  have hfree : ∀ i : Fin (L.N + 1), Free S.bcs i → bil L α K β (extend L.N d) (hat i) = 0 := by
    intro i hi
    have h1 := congrFun h i
    unfold Matrix.mulVec dotProduct at h1
    simp only [System.matrix, value_free hi, hJx, Matrix.of_apply, Pi.zero_apply] at h1
    rw [bil_expand, ← h1]
    refine Finset.sum_congr rfl fun j _ => ?_
    cases hj : S.value j with
    | none => simp only [entry, stiff, Matrix.of_apply]; ring
    | some v => rw [himp j v (value_some_iff.1 hj)]; simp
  have h0 : bil L α K β (extend L.N d) (extend L.N d) = 0 := by
    rw [bil_symm, bil_expand]
    refine Finset.sum_eq_zero fun i _ => ?_
    rcases imposed_or_free S.bcs i with ⟨v, hv⟩ | hi
    · rw [himp i v hv, zero_mul]
    · rw [bil_symm, hfree i hi, mul_zero]
  have := bil_definite L hc (extend L.N d) (fun q hq => by
    rw [tr_extend]; exact himp _ _ (hd.imposed q hq)) h0
  funext i
  have hi := this i (Nat.lt_succ_iff.1 i.2)
  simpa [extend, i.2] using hi

/-- A solution of the algebraic problem is a solution of the weak problem. -/
theorem weak_of_solves (hd : EndValues L S dir val)
    (hF : ∀ x (j : Fin (L.N + 1)), S.F x j = bil L α K β (extend L.N x) (hat j) - lin L f g (hat j))
    {x : Fin (L.N + 1) → ℝ} (hx : Spec.Solves S x) :
    (∀ q, dir q → (L.p1 (extend L.N x)).tr q = val q) ∧
    ∀ v : ℕ → ℝ, (∀ q, dir q → (L.p1 v).tr q = 0) →
      bil L α K β (extend L.N x) v = lin L f g v := by
  refine ⟨fun q hq => by rw [tr_extend]; exact hx.1 _ _ (hd.imposed q hq), fun v hv => ?_⟩
  rw [← bil_congr L α K β (u := extend L.N x) rfl (restrict_extend L v), ← lin_congr L f g (restrict_extend L v),
    bil_symm, bil_expand, lin_expand]
  refine Finset.sum_congr rfl fun i _ => ?_
  by_cases hi : ∀ q, dir q → i ≠ endNode L q
  · have := hx.2 i (hd.free i hi)
    rw [hF] at this
    rw [bil_symm]
    congr 1
    linarith
  · push Not at hi
    obtain ⟨q, hq, rfl⟩ := hi
    have := hv q hq
    rw [← restrict_extend L v, tr_extend] at this
    rw [this, zero_mul, zero_mul]

end

end Festim.Weak

namespace Festim.Props

open Newton Solve Spec Weak

variable {Ω : Type} [Fintype Ω] {L : Line Ω} {P : Problem Ω Bool 1} {bcs : List (MobBC Bool)} {mat : Ω → Mat}
  {matS : Bool → Mat} {dir : Bool → Prop}

/-- **C95 (e).** The linear hydrogen problems on a line: whatever the current field, the solve converges in at most
one iteration.  If it iterates, the nodal values it leaves are the one solution of the discrete weak problem. -/
theorem C95_line (hP : LinearLine L P bcs mat matS dir) (val : Bool → ℝ) (S : System (Fin (L.N + 1)))
    (hS : LineSystem L P bcs S) (hJ : IsJacobian S) (hcell : ∀ i, 0 < S.cells i) (hd : EndValues L S dir val)
    {lin : Matrix _ _ ℝ → (Fin (L.N + 1) → ℝ) → Fin (L.N + 1) → ℝ} (hl : LinearSolver lin) (o : Opts)
    (ha : 0 < o.atol) (hm : 0 < o.maxIt) (u : Fin (L.N + 1) → ℝ) :
    (Small o (norm2 (S.rhs u)) (norm2 (S.rhs u)) ∧ solveOnce S lin o u = (0, true, u)) ∨
    ∃ x, solveOnce S lin o u = (1, true, x) ∧ LineSolves L P bcs dir val (extend L.N x) ∧
      ∀ u', LineSolves L P bcs dir val u' → ∀ i : Fin (L.N + 1), x i = u' i := by
  have hF : ∀ x (j : Fin (L.N + 1)), S.F x j
      = bil L (reactionOf P mat) (conductivity P mat) (exchangeOf P bcs matS) (extend L.N x) (hat j)
        - Weak.lin L (loadOf P mat) (fluxAt P bcs) (hat j) := by
    intro x j
    obtain ⟨F, h1, h2⟩ := hS x j
    rw [h2, hP.residual _ _ F h1]
  rcases C95_linear S hl o (matrix_regular hP.coercive hJ hcell hd hF) hcell hJ
      ⟨_, _, affine_of_bil hF⟩ ha hm u with h | ⟨x, h, hx⟩
  · exact Or.inl h
  · right
    obtain ⟨h1, h2⟩ := weak_of_solves hd hF hx
    have hs : LineSolves L P bcs dir val (extend L.N x) := by
      refine ⟨h1, fun v hv => ?_⟩
      obtain ⟨F, hF⟩ := hP.formOk (extend L.N x) v
      exact ⟨F, hF, by rw [hP.residual _ v F hF, h2 v hv, sub_self]⟩
    refine ⟨x, h, hs, fun u' hu' i => ?_⟩
    have := C90_unique hP val _ _ hs hu' i (Nat.lt_succ_iff.1 i.2)
    simpa [extend, i.2] using this

/-- **C95 (f).** The same for the heat equation with properties which do not depend on the temperature. -/
theorem C95_heat {r : Fld Ω Bool 1} {mats : List Mat} {dt : Option ℝ} {bcs : List (Flux Bool × List ℕ)}
    {cap cond : Ω → ℝ} (hP : LinearHeat L r mats mat dt bcs cap cond dir)
    (sources : List ((Ω → ℝ) × List ℕ)) (Tn : Fld Ω Bool 1) (val : Bool → ℝ) (S : System (Fin (L.N + 1)))
    (hS : HeatSystem L r mats dt sources bcs Tn S) (hJ : IsJacobian S) (hcell : ∀ i, 0 < S.cells i)
    (hd : EndValues L S dir val)
    {lin : Matrix _ _ ℝ → (Fin (L.N + 1) → ℝ) → Fin (L.N + 1) → ℝ} (hl : LinearSolver lin) (o : Opts)
    (ha : 0 < o.atol) (hm : 0 < o.maxIt) (u : Fin (L.N + 1) → ℝ) :
    (Small o (norm2 (S.rhs u)) (norm2 (S.rhs u)) ∧ solveOnce S lin o u = (0, true, u)) ∨
    ∃ x, solveOnce S lin o u = (1, true, x) ∧
      HeatSolves L r mats dt sources bcs Tn dir val (extend L.N x) ∧
      ∀ u', HeatSolves L r mats dt sources bcs Tn dir val u' → ∀ i : Fin (L.N + 1), x i = u' i := by
  have hF := fun x (j : Fin (L.N + 1)) => (hS x j).trans (hP.residual sources Tn (extend L.N x) (hat j))
  rcases C95_linear S hl o (matrix_regular hP.coercive hJ hcell hd hF) hcell hJ
      ⟨_, _, affine_of_bil hF⟩ ha hm u with h | ⟨x, h, hx⟩
  · exact Or.inl h
  · right
    obtain ⟨h1, h2⟩ := weak_of_solves hd hF hx
    have hs : HeatSolves L r mats dt sources bcs Tn dir val (extend L.N x) :=
      ⟨h1, fun v hv => by rw [hP.residual, h2 v hv, sub_self]⟩
    refine ⟨x, h, hs, fun u' hu' i => ?_⟩
    have := (C90_heat hP sources Tn val).2 _ _ hs hu' i (Nat.lt_succ_iff.1 i.2)
    simpa [extend, i.2] using this

/-! ### There is such a system for each of these problems -/

open Classical in
/-- One condition for each end. -/
noncomputable def endBcs (L : Line Ω) (dir : Bool → Prop) (val : Bool → ℝ) : List (List (Fin (L.N + 1) × ℝ)) :=
  [false, true].map fun q => if dir q then [(endNode L q, val q)] else []

theorem endNode_ne (L : Line Ω) : endNode L true ≠ endNode L false := by
  have := L.N_pos
  simp [endNode, Fin.ext_iff]
  omega

theorem endBcs_ok (L : Line Ω) (dir : Bool → Prop) (val : Bool → ℝ) (S : System (Fin (L.N + 1)))
    (h : S.bcs = endBcs L dir val) : EndValues L S dir val := by
  have hne := endNode_ne L
  refine ⟨fun q hq => ?_, fun i hi => ?_⟩
  · rw [h]
    cases q
    · refine ⟨[], (endBcs L dir val).flatten.tail, by simp [endBcs, hq], ?_⟩
      by_cases ht : dir true <;> simp [endBcs, hq, ht, hne]
    · by_cases hf : dir false
      · exact ⟨[(endNode L false, val false)], [], by simp [endBcs, hq, hf], by simp⟩
      · exact ⟨[], [], by simp [endBcs, hq, hf], by simp⟩
  · rw [h]
    intro bc hbc e he
    simp only [endBcs, List.map_cons, List.map_nil, List.mem_cons, List.not_mem_nil, or_false] at hbc
    rcases hbc with rfl | rfl <;> split at he <;> rename_i hq <;> simp at he
    · rw [he]; exact (hi false hq).symm
    · rw [he]; exact (hi true hq).symm

/-- The system with given equations and matrix. -/
noncomputable def lineSys (L : Line Ω) (F : (Fin (L.N + 1) → ℝ) → Fin (L.N + 1) → ℝ)
    (J : Matrix (Fin (L.N + 1)) (Fin (L.N + 1)) ℝ) (dir : Bool → Prop) (val : Bool → ℝ) :
    System (Fin (L.N + 1)) where
  F := F
  J _ := J
  bcs := endBcs L dir val
  cells _ := 1

theorem lineSys_jacobian {L : Line Ω} {F : (Fin (L.N + 1) → ℝ) → Fin (L.N + 1) → ℝ}
    {J : Matrix (Fin (L.N + 1)) (Fin (L.N + 1)) ℝ} {dir : Bool → Prop} {val : Bool → ℝ}
    {f : Fin (L.N + 1) → ℝ} (h : ∀ x, F x = J.mulVec x - f) : IsJacobian (lineSys L F J dir val) := by
  intro x
  have : (lineSys L F J dir val).F = fun x => LinearMap.toContinuousLinearMap (Matrix.toLin' J) x - f := by
    funext x
    simp [lineSys, h]
  rw [this]
  exact (ContinuousLinearMap.hasFDerivAt _).sub_const _

theorem line_system_exists (hP : LinearLine L P bcs mat matS dir) (val : Bool → ℝ) :
    ∃ S : System (Fin (L.N + 1)), LineSystem L P bcs S ∧ IsJacobian S ∧ (∀ i, 0 < S.cells i) ∧
      EndValues L S dir val := by
  choose F hF using fun (x : Fin (L.N + 1) → ℝ) (j : Fin (L.N + 1)) => hP.formOk (extend L.N x) (hat j)
  let K := stiff L (reactionOf P mat) (conductivity P mat) (exchangeOf P bcs matS)
  let S := lineSys L (fun x j => P.mesh.assemble (F x j)) K dir val
  exact ⟨S, fun x j => ⟨F x j, hF x j, rfl⟩,
    lineSys_jacobian (affine_of_bil (S := S) fun x j => hP.residual _ _ _ (hF x j)),
    fun _ => Nat.one_pos, endBcs_ok L dir val S rfl⟩

theorem heat_system_exists {r : Fld Ω Bool 1} {mats : List Mat} {dt : Option ℝ} {bcs : List (Flux Bool × List ℕ)}
    {cap cond : Ω → ℝ} (hP : LinearHeat L r mats mat dt bcs cap cond dir)
    (sources : List ((Ω → ℝ) × List ℕ)) (Tn : Fld Ω Bool 1) (val : Bool → ℝ) :
    ∃ S : System (Fin (L.N + 1)), HeatSystem L r mats dt sources bcs Tn S ∧ IsJacobian S ∧
      (∀ i, 0 < S.cells i) ∧ EndValues L S dir val := by
  let K := stiff L (heatReaction dt cap) cond (fun q => (bcs.map (heatBcExchange L r q)).sum)
  let S := lineSys L (fun x j => (L.mesh r).assemble
    (heatForm (L.mesh r) mats ⟨L.p1 (extend L.N x), Tn⟩ dt sources bcs (L.p1 (hat j)))) K dir val
  exact ⟨S, fun x j => rfl,
    lineSys_jacobian (affine_of_bil (S := S) fun x j => hP.residual sources Tn _ _),
    fun _ => Nat.one_pos, endBcs_ok L dir val S rfl⟩

theorem inverse_solves {n : ℕ} : LinearSolver fun (A : Matrix (Fin n) (Fin n) ℝ) b => A⁻¹.mulVec b :=
  fun A b h => by rw [Matrix.mulVec_mulVec, Matrix.mul_nonsing_inv A h, Matrix.one_mulVec]

/-- Two layers, a mass flux on the right, an imposed flux on the left, a source and decay. -/
example (o : Opts) (ha : 0 < o.atol) (hm : 0 < o.maxIt) (u : Fin (LineCase.L.N + 1) → ℝ) :
    ∃ S : System (Fin (LineCase.L.N + 1)), ∃ n x, n ≤ 1 ∧
      solveOnce S (fun A b => A⁻¹.mulVec b) o u = (n, true, x) ∧
      (n = 1 → LineSolves LineCase.L (LineCase.linP none)
        [.flux (.mass (fun _ => 2) fun _ => 1) [2], .flux (.value fun _ => 5) [1]] (fun _ => False) (fun _ => 0)
        (extend LineCase.L.N x)) := by
  have hP := LineCase.linear_case none (by simp)
  obtain ⟨S, h1, h2, h3, h4⟩ := line_system_exists hP fun _ => 0
  refine ⟨S, ?_⟩
  rcases C95_line hP (fun _ => 0) S h1 h2 h3 h4 inverse_solves o ha hm u with ⟨-, h⟩ | ⟨x, h, hx, -⟩
  · exact ⟨0, u, by simp, h, by simp⟩
  · exact ⟨1, x, le_rfl, h, fun _ => hx⟩

/-- Two layers, convection on the right and a heat source. -/
example (o : Opts) (ha : 0 < o.atol) (hm : 0 < o.maxIt) (u : Fin (LineCase.L.N + 1) → ℝ) :
    ∃ S : System (Fin (LineCase.L.N + 1)), ∃ n x, n ≤ 1 ∧
      solveOnce S (fun A b => A⁻¹.mulVec b) o u = (n, true, x) ∧
      (n = 1 → HeatSolves LineCase.L (Fld.const 1) [LineCase.hA, LineCase.hB] none [(fun _ => 7, [1])]
        [(.convective (fun _ => 1) fun _ => 20, [2])] (Fld.const 0) (fun _ => False) (fun _ => 0)
        (extend LineCase.L.N x)) := by
  obtain ⟨S, h1, h2, h3, h4⟩ := heat_system_exists LineCase.heat_case [(fun _ => 7, [1])] (Fld.const 0) fun _ => 0
  refine ⟨S, ?_⟩
  rcases C95_heat LineCase.heat_case [(fun _ => 7, [1])] (Fld.const 0) (fun _ => 0) S h1 h2 h3 h4 inverse_solves
    o ha hm u with ⟨-, h⟩ | ⟨x, h, hx, -⟩
  · exact ⟨0, u, by simp, h, by simp⟩
  · exact ⟨1, x, le_rfl, h, fun _ => hx⟩

end Festim.Props
