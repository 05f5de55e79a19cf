import Verif.Spec.Double
import Mathlib.Analysis.SpecialFunctions.Exp

/-!
# Specification: properties of double precision arithmetic

The few facts about IEEE-754 binary64 rounding (to nearest) used in the
statement about the frequency mask.
-/

namespace Verif.Spec

/-- `fl` rounds like binary64: relative error at most `2^-53` for results in the
normal range, 0 is exact, and `-1` is the number nearest to `x - 1` for
`0 ≤ x ≤ 2^-54`. -/
structure Rounds (fl : ℝ → ℝ) : Prop extends RelError fl where
  near : ∀ x, 0 ≤ x → x ≤ 1 / 2 ^ 54 → fl (x - 1) = -1

/-- `ex` computes the exponential function with a relative error of at most 50 %
(for arguments between 0 and 700) -/
def Exponential (ex : ℝ → ℝ) : Prop :=
  ∀ x, 0 ≤ x → x ≤ 700 → Real.exp x / 2 ≤ ex x ∧ ex x ≤ 2 * Real.exp x

end Verif.Spec
