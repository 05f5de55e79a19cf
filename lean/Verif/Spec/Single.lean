import Verif.Spec.Double
import Mathlib.Algebra.Order.Archimedean.Real.Basic
import Mathlib.Data.Int.Log

/-!
# Specification: storage in single precision

`SinglePrec r`: `r` (a value after storing it as `float32` and reading it back) has a relative error of at most `2^-24`
in the normal range of binary32.  `single` is rounding to nearest, ties to even, with 24 significant bits.
-/

namespace Verif

variable {K : Type} [Field K] [LinearOrder K]

structure Spec.SinglePrec (r : K → K) : Prop where
  rel : ∀ x, 1 / 2 ^ 126 ≤ |x| → |x| ≤ 2 ^ 127 → |r x - x| ≤ |x| / 2 ^ 24
  zero : r 0 = 0

/-- rounding to nearest, ties to even, with 24 significant bits -/
noncomputable def single (x : ℝ) : ℝ :=
  (roundEven (x / 2 ^ (Int.log 2 |x| - 23)) : ℝ) * 2 ^ (Int.log 2 |x| - 23)

end Verif
