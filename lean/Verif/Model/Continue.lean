import Verif.Model.Run

/-!
# Calling `run` again without `initialise`

`Simulation.run` (festim/generic_simulation.py:442-464) enters `run_transient` with the time and the stepsize the
object has at that moment; only `initialise` resets them (generic_simulation.py:326, 344-346).
-/

namespace Festim

/-- `run()` on a simulation left in state `s`, with `settings.final_time = final`
(festim/generic_simulation.py:466-483). -/
def Run.resume (cfg : Stepsize) (final : ℚ) (s : RunState) (outs : List Outcome) : RunState :=
  outs.foldl (Run.step cfg final) (loopHead final s.t s.value s.log)

end Festim
