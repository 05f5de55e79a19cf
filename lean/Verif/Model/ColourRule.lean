import Verif.Model.Movie
import Mathlib.Analysis.SpecialFunctions.Pow.NNReal

/-!
# The second rule for the colour limits of movies
-/

namespace Verif.Movie

/-- `new_cbar_max`, movie.py l.61-74, in real arithmetic (the argument of `np.sqrt` is positive).  The file defines this
rule next to `new_cbar_max_smooth`, which the movies use. -/
noncomputable def new_cbar_max (nm pm : ℝ) : ℝ := if nm < pm then nm + Real.sqrt (pm - nm) else nm

end Verif.Movie
