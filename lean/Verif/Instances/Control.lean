import Verif.Instances.Exports
import Verif.Props.Simulation

/-!
# Concrete cases of C55, C57, C65, C66, C68, C71

Each theorem applied to the data of the module where it is stated.
-/

namespace Festim.Props

open Run Spec

/-! ## Temperature -/

/-- The temperature `300 + t`. -/
def inst_T : TempModel ℚ := .analytical (.add (.num "300" 300) (.sym "t")) fun t => 300 + t

/-- `C55_driver`, with a temperature which stops the run at the second step. -/
example : ∃ s, (sampleCfg (.heatTransient (.expr 500) [9] fun env _ Tn _ =>
        if env 9 = 2 then .error (.runtimeError "newton") else .ok Tn)).exec 0 sampleOuts = .ok s ∧
    (s.run = Run.run { initialValue := 1, adaptive := none, milestones := none } 3 sampleOuts ∨ ∃ e, s.run.phase = .raised e) := by
  obtain ⟨s, h⟩ := inst_of_ok (r := (sampleCfg (.heatTransient (.expr 500) [9] fun env _ Tn _ =>
        if env 9 = 2 then .error (.runtimeError "newton") else .ok Tn)).exec 0 sampleOuts) (by decide +kernel)
  exact ⟨s, h, C55_driver (sampleCfg _) 0 sampleOuts s h⟩

/-- `C55_driver_exact`. -/
example : ∃ s, (sampleCfg inst_T).exec 0 sampleOuts = .ok s ∧ s.run = Run.run (sampleCfg inst_T).dt 3 sampleOuts := by
  obtain ⟨s, h⟩ := inst_of_ok (r := (sampleCfg inst_T).exec 0 sampleOuts) (by decide +kernel)
  exact ⟨s, h, C55_driver_exact _ 0 sampleOuts s (by intro ic subs solve hc; cases hc) h⟩

/-- `C55_constant`: a temperature computed once, 450 everywhere. -/
example : ∃ s, (sampleCfg (.heatSteady fun _ _ => .ok 450)).exec 0 sampleOuts = .ok s ∧ s.recs.length = 3 ∧
    ∀ r ∈ s.recs, r.temp = ⟨450, 450⟩ := by
  obtain ⟨s, h⟩ := inst_of_ok (r := (sampleCfg (.heatSteady fun _ _ => .ok 450)).exec 0 sampleOuts) (by decide +kernel)
  obtain ⟨T, h1, h2⟩ := C55_constant _ 0 sampleOuts s (Or.inr ⟨_, rfl⟩) h
  have hT : T = 450 := by
    have h3 : (Except.ok ⟨450, 450⟩ : Except PyErr (TempState ℚ)) = .ok ⟨T, T⟩ := h1
    simpa using h3.symm
  refine ⟨s, h, ?_, hT ▸ h2⟩
  have key : ((sampleCfg (.heatSteady fun _ _ => .ok 450)).exec 0 sampleOuts).toOption.map (·.recs.length) = some 3 := by
    decide +kernel
  rw [h] at key
  simpa [Except.toOption] using key

/-- `C57_run`: two registered expressions. -/
example : ∃ s, (sampleCfg inst_T).exec 0 sampleOuts = .ok s ∧ ∀ r ∈ s.recs, r.env 4 = r.t ∧ r.env 7 = r.t ∧ r.env 5 = 0 := by
  obtain ⟨s, h⟩ := inst_of_ok (r := (sampleCfg inst_T).exec 0 sampleOuts) (by decide +kernel)
  have h1 := (C57_run _ 0 sampleOuts s h).1
  exact ⟨s, h, fun r hr => ⟨(h1 r hr).1 4 (by simp [sampleCfg]), (h1 r hr).1 7 (by simp [sampleCfg]),
    (h1 r hr).2 5 (by simp [sampleCfg]) (by simp [sampleCfg, inst_T, heatSubs])⟩⟩

/-- `C68_initial_temperature`. -/
example : ∃ s, inst_T.create 0 (fun _ => 0) = .ok s ∧ s.T = 300 ∧ s.Tn = 300 := by
  refine ⟨_, rfl, ?_⟩
  have h := C68_initial_temperature inst_T 0 (fun _ => 0) _ rfl
  simpa [inst_T] using h

/-! ## Simulations -/

theorem inst_simEx : ∃ I, simEx.initialise 0 = .ok I := inst_of_ok (by decide +kernel)

theorem inst_simSteady : ∃ I, simSteady.initialise 0 = .ok I := inst_of_ok (by decide +kernel)

/-- `C65_consistent`. -/
example : (simEx.dt ≠ none ↔ simEx.settings.transient = true) ∧
    (simEx.settings.transient = true → simEx.settings.finalTime ≠ none) ∧ simEx.temp ≠ none := by
  obtain ⟨I, h⟩ := inst_simEx
  exact C65_consistent 0 simEx I h

/-- `C65_no_materials`, on a mesh given by a file. -/
example : ∃ msg, ({ simEx with mesh := .other, materials := none, temp := some (.fromXDMF 5) } :
    SimInput (List ℚ) ℚ).initialise 0 = .error (.attributeError msg) := by
  refine ((C65_no_materials 0 { simEx with mesh := .other, materials := none, temp := some (.fromXDMF 5) } (Or.inl rfl)).2
    (.fromXDMF 5) rfl rfl rfl (by decide +kernel) ?_ (by decide +kernel) (by decide +kernel) ⟨_, rfl⟩).1 rfl
  intro s hs
  have : s = ⟨0, .strInt 1, false⟩ := by simpa [simEx] using hs
  subst this
  exact ⟨⟨.trap 1, by simp [Targets, fieldObj, simEx]⟩, by intro h; cases h⟩

/-- `C65_no_materials_1d`. -/
example : ∃ msg, ({ simEx with materials := none } : SimInput (List ℚ) ℚ).initialise 0 = .error (.typeError msg) := by
  refine (C65_no_materials_1d 0 { simEx with materials := none } (.analytical (.sym "t") fun t => 300 + t) rfl [0, 1, 2, 3, 4]
    (by simp) rfl (by decide +kernel) ?_ (by decide +kernel) (by decide +kernel)).1 rfl
  intro s hs
  have : s = ⟨0, .strInt 1, false⟩ := by simpa [simEx] using hs
  subst this
  exact ⟨⟨.trap 1, by simp [Targets, fieldObj, simEx]⟩, by intro h; cases h⟩

theorem inst_steady_written : ∃ I ex, simSteady.initialise 0 = .ok I ∧ I.exports.writeAll [([1, 2], 0)] = .ok ex := by
  obtain ⟨I, h⟩ := inst_simSteady
  have key : ((simSteady.initialise 0).toOption.map fun I => (I.exports.writeAll [([1, 2], 0)]).isOk) = some true := by decide +kernel
  rw [h] at key
  obtain ⟨ex, h2⟩ := inst_of_ok (r := I.exports.writeAll [([1, 2], 0)]) (by simpa [Except.toOption] using key)
  exact ⟨I, ex, h, h2⟩

/-- `C66_returns_iff` and `C66_diverged`: with and without convergence. -/
example : ∃ I ex, simSteady.initialise 0 = .ok I ∧ simSteady.run 0 [] I [(⟨3, true⟩, [1, 2])] = .steady ex ∧
    ∃ msg, simSteady.run 0 [] I [(⟨30, false⟩, [1, 2])] = .steadyRaised (.valueError msg) (some ex) := by
  obtain ⟨I, ex, h, h2⟩ := inst_steady_written
  exact ⟨I, ex, h, (C66_returns_iff 0 simSteady [] I rfl ⟨3, true⟩ [1, 2] [] ex).2 ⟨rfl, h2⟩,
    C66_diverged 0 simSteady [] I rfl ⟨30, false⟩ [1, 2] [] rfl ex h2⟩

/-- `C66_csv`. -/
example : ∃ I ex d', simSteady.initialise 0 = .ok I ∧ simSteady.run 0 [] I [(⟨3, true⟩, [1, 2])] = .steady ex ∧
    ex.items[0]? = some (.dq d') ∧ d'.file = some [[.text "t(s)", .text "a"], [.num 0, .num 3]] := by
  obtain ⟨I, ex, h, h2⟩ := inst_steady_written
  obtain ⟨-, d', h3, h4⟩ := C66_csv 0 simSteady [] I h rfl ⟨rfl, rfl⟩ ⟨3, true⟩ [1, 2] [] ex h2 0 []
    { quantities := [exQ], filename := some "out/dq.csv" } rfl (by simp) "out/dq.csv" rfl
  exact ⟨I, ex, d', h, (C66_returns_iff 0 simSteady [] I rfl ⟨3, true⟩ [1, 2] [] ex).2 ⟨rfl, h2⟩, h3,
    h4.trans (by decide +kernel)⟩

/-- The steady simulation with an XDMF export at the last step. -/
def inst_last : SimInput (List ℚ) ℚ := { simSteady with exports := [([], .xdmf { mode := .last })] }

/-- `C66_last_mode` and `C66_export_raises`. -/
example : ∃ I e, inst_last.initialise 0 = .ok I ∧ inst_last.run 0 [] I [(⟨3, true⟩, [1, 2])] = .steadyRaised e none := by
  obtain ⟨I, h⟩ := inst_of_ok (r := inst_last.initialise 0) (by decide +kernel)
  obtain ⟨e, h1⟩ := C66_last_mode 0 inst_last [] I h rfl ⟨rfl, rfl⟩ 0 [] { mode := .last } rfl rfl ⟨3, true⟩ [1, 2] []
  exact ⟨I, e, h, h1⟩

example : ∃ I e, inst_last.initialise 0 = .ok I ∧ inst_last.run 0 [] I [(⟨3, true⟩, [1, 2])] = .steadyRaised e none := by
  obtain ⟨I, h⟩ := inst_of_ok (r := inst_last.initialise 0) (by decide +kernel)
  have key : ((inst_last.initialise 0).toOption.map fun I => (I.exports.writeAll [([1, 2], 0)]).isOk) = some false := by decide +kernel
  rw [h] at key
  cases h2 : I.exports.writeAll [([1, 2], 0)] with
  | ok ex => simp [Except.toOption, h2, Except.isOk, Except.toBool] at key
  | error e => exact ⟨I, e, h, C66_export_raises 0 inst_last [] I rfl ⟨3, true⟩ [1, 2] [] e h2⟩

/-- `C66_txt_times`. -/
example : ∃ e, ({ simSteady with exports := [([], .txt { times := some [3], filename := some "./c.txt", sol := id })] } :
    SimInput (List ℚ) ℚ).initialise 0 = .error e :=
  C66_txt_times 0 { simSteady with exports := [([], .txt { times := some [3], filename := some "./c.txt", sol := id })] } rfl []
    { times := some [3], filename := some "./c.txt", sol := id } (by simp) [3] rfl (by simp)

/-- `C71_missing_unreachable`: two materials with the same identifier. -/
example : ∃ e, simCheckMaterials (some [{ id := .one 1 }, { id := .one 1 }]) (TempModel.fromXDMF (5 : ℚ)).kind = .error e ∧
    (checkConsistency [{ id := .one 1 }, { id := .one 1 }] = .error e ∨ checkUniqueIds [{ id := .one 1 }, { id := .one 1 }] = .error e) := by
  cases h : simCheckMaterials (some [{ id := .one 1 }, { id := .one 1 }]) (TempModel.fromXDMF (5 : ℚ)).kind with
  | ok a => cases a; exact absurd h (by decide +kernel)
  | error e =>
    exact ⟨e, rfl, C71_missing_unreachable (0 : ℚ) (.fromXDMF 5) true "cartesian" (Or.inl rfl) _ (by simp [MatId.toList]) _ rfl e h⟩

theorem inst_documented : ∀ m ∈ simMats, Documented m := by
  intro m hm
  simp only [simMats, List.mem_cons, List.not_mem_nil, or_false] at hm
  rcases hm with rfl | rfl
  · exact ⟨by simp [MatId.toList], .inr ⟨⟨⟨_, rfl⟩, by simp, by simp⟩, by decide +kernel⟩⟩
  · exact ⟨by simp [MatId.toList], .inr ⟨⟨⟨_, rfl⟩, by simp, by simp⟩, by decide +kernel⟩⟩

/-- `C71_type_error`: a heat transfer problem whose materials have no thermal conductivity. -/
example : ∃ msg, ({ simEx with mesh := .other, bcs := [], temp := some (.heatTransient (.expr 1) [] fun _ _ T _ => .ok T) } :
    SimInput (List ℚ) ℚ).initialise 0 = .error (.typeError msg) := by
  refine C71_type_error 0 { simEx with mesh := .other, bcs := [], temp := some (.heatTransient (.expr 1) [] fun _ _ T _ => .ok T) } 1
    (.heatTransient (.expr 1) [] fun _ _ T _ => .ok T) true simMats rfl rfl rfl rfl (by simp [simMats]) inst_documented (Or.inl rfl)
    ⟨by simp [simEx], fun _ => ⟨by simp [simEx], by simp [simEx]⟩⟩ (fun _ => rfl) (by intro ic subs solve h; cases h; simp) ?_
    (by decide +kernel) ⟨by intro h; simp [simEx] at h, by intro h; simp [simEx] at h⟩ (by intro vs h; cases h)
    ⟨{ id := .one 1, borders := some (.flat 0 1) }, by simp [simMats], Or.inl rfl⟩
  intro s hs
  have : s = ⟨0, .strInt 1, false⟩ := by simpa [simEx] using hs
  subst this
  exact ⟨⟨.trap 1, by simp [Targets, fieldObj, simEx]⟩, by intro h; cases h⟩

end Festim.Props
