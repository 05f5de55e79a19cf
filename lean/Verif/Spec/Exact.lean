import Verif.Spec.Run
import Mathlib.Algebra.Order.Floor.Ring
import Mathlib.Algebra.Order.Field.Basic

/-!
# Exact arithmetic

The float operations of the run functions, computed exactly in an ordered field
with integer parts (ℚ, ℝ).
-/

namespace Verif

open H5IO

variable (K : Type) [Field K] [LinearOrder K] [IsStrictOrderedRing K] [FloorRing K]

variable {K} in
/-- Python's `int(x)`: towards zero -/
def truncZ (x : K) : ℤ := if 0 ≤ x then ⌊x⌋ else ⌈x⌉

variable {K} in
/-- Python's `round(x)`: to the nearest integer, ties to even -/
def roundEven (x : K) : ℤ :=
  if x - ⌊x⌋ < 1 / 2 then ⌊x⌋
  else if 1 / 2 < x - ⌊x⌋ then ⌊x⌋ + 1
  else if ⌊x⌋ % 2 = 0 then ⌊x⌋ else ⌊x⌋ + 1

/-- exact operations -/
@[reducible] def exactOps : FloatOps K where
  ofInt z := z
  add := (· + ·)
  sub := (· - ·)
  mul := (· * ·)
  div x y := if y = 0 then .error .zeroDivisionError else .ok (x / y)
  le x y := decide (x ≤ y)
  lt x y := decide (x < y)
  eq x y := decide (x = y)
  toInt x := .ok (truncZ x)
  round x := .ok (roundEven x)
  round4 x := (roundEven (x * 10 ^ 4) : K) / 10 ^ 4

end Verif
