import Verif.Model.Forms

/-!
# Conversion of energies

festim/helpers.py `kJmol_to_eV`, with the constants of festim/__init__.py.
-/

namespace Festim.Weak

/-- `R` (festim/__init__.py:18). -/
noncomputable def gasR : ℝ := 8.314462618

/-- `kJmol_to_eV` (festim/helpers.py:47-58). -/
noncomputable def kJmolToEV (energy : ℝ) : ℝ := kB * energy * 1e3 / gasR

end Festim.Weak
