import Mathlib.Analysis.SpecialFunctions.Exp

/-!
# Specification: spectrum of filtered noise
-/

namespace Verif.Spec

/-- waves per unit length of mode `k` of `n` points in a box of length `size`; modes in the upper half are negative -/
noncomputable def freq (n : ℕ) (size : ℝ) (k : ℕ) : ℝ := (if 2 * k < n then (k : ℝ) else (k : ℝ) - (n : ℝ)) / size

/-- the logistic function: a smooth step from 0 to 1 -/
noncomputable def logistic (t : ℝ) : ℝ := 1 / (1 + Real.exp (-t))

open Classical in
/-- smooth band-pass filter from `lo` to `hi`; 0 means no bound -/
noncomputable def band (lo hi K : ℝ) : ℝ :=
  (if lo = 0 then 1 else logistic (1000 * (K - lo))) - (if hi = 0 then 0 else logistic (1000 * (K - hi)))

end Verif.Spec
