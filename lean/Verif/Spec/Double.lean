import Verif.Spec.Exact
import Mathlib.Algebra.Order.Ring.Abs
import Mathlib.Data.Rat.Floor

/-!
# Specification: rounded arithmetic

Operations computed exactly and then rounded.  `RelError` states what is needed
of the rounding; `rne` is rounding to nearest, ties to even, with 53 significant
bits (binary64 without overflow and underflow).
-/

namespace Verif

open H5IO

section
variable {K : Type} [Field K] [LinearOrder K]

/-- relative error at most `2^-53` for results in the normal range of binary64;
0 is exact -/
structure Spec.RelError (fl : K → K) : Prop where
  rel : ∀ x, 1 / 2 ^ 1022 ≤ |x| → |x| ≤ 2 ^ 1023 → |fl x - x| ≤ |x| / 2 ^ 53
  zero : fl 0 = 0

variable [IsStrictOrderedRing K] [FloorRing K]

/-- every arithmetic operation is followed by the rounding `fl` -/
@[reducible] def roundedOps (fl : K → K) : FloatOps K where
  ofInt z := fl z
  add x y := fl (x + y)
  sub x y := fl (x - y)
  mul x y := fl (x * y)
  div x y := if y = 0 then .error .zeroDivisionError else .ok (fl (x / y))
  le x y := decide (x ≤ y)
  lt x y := decide (x < y)
  eq x y := decide (x = y)
  toInt x := .ok (truncZ x)
  round x := .ok (roundEven x)
  round4 x := fl ((roundEven (x * 10 ^ 4) : K) / 10 ^ 4)

end

/-- `2^e` -/
def pow2 : ℤ → ℚ
  | .ofNat n => (2 ^ n : ℕ)
  | .negSucc n => mkRat 1 (2 ^ (n + 1))

/-- the exponent `e` with `2^52 ≤ |q| / 2^e < 2^53` -/
def expo (q : ℚ) : ℤ :=
  let e : ℤ := (Nat.log2 q.num.natAbs : ℤ) - (Nat.log2 q.den : ℤ) - 52
  if |q| < 2 ^ 52 * pow2 e then e - 1 else e

/-- rounding to nearest, ties to even, with 53 significant bits -/
def rne (q : ℚ) : ℚ :=
  if q = 0 then 0 else (roundEven (q / pow2 (expo q)) : ℚ) * pow2 (expo q)

/-- double precision (no overflow, no underflow) -/
@[reducible] def doubleOps : FloatOps ℚ := roundedOps rne

end Verif
