import Mathlib.Algebra.Order.Archimedean.Real.Basic
import Mathlib.Data.Int.Log
import Mathlib.Algebra.Order.Round
import Mathlib.Tactic.Positivity
import Mathlib.Tactic.Linarith
import Mathlib.Tactic.FieldSimp
import Mathlib.Tactic.Ring

/-!
# Specification: arithmetic with rounding errors

The standard model of floating-point arithmetic: the result of every operation is the exact result up
to a relative error of at most `u`.  Doubles satisfy it with `u = 2^-53` and singles with `u = 2^-24`,
as long as no operation overflows or underflows.  Nothing here refers to the program model.
-/

namespace Verif.Spec

/-- Operations on real numbers whose results have a relative error of at most `u` -/
structure Rounded (u : ℝ) where
  add : ℝ → ℝ → ℝ
  sub : ℝ → ℝ → ℝ
  mul : ℝ → ℝ → ℝ
  div : ℝ → ℝ → ℝ
  pow : ℝ → ℕ → ℝ
  add_err : ∀ a b, |add a b - (a + b)| ≤ u * |a + b|
  sub_err : ∀ a b, |sub a b - (a - b)| ≤ u * |a - b|
  mul_err : ∀ a b, |mul a b - a * b| ≤ u * |a * b|
  div_err : ∀ a b, b ≠ 0 → |div a b - a / b| ≤ u * |a / b|
  pow_err : ∀ a, |pow a 2 - a ^ 2| ≤ u * |a ^ 2|

/-- operations that round the exact result with one rounding function, as IEEE 754 prescribes -/
noncomputable def Rounded.ofRound (u : ℝ) (fl : ℝ → ℝ) (h : ∀ x, |fl x - x| ≤ u * |x|) : Rounded u where
  add a b := fl (a + b)
  sub a b := fl (a - b)
  mul a b := fl (a * b)
  div a b := fl (a / b)
  pow a n := fl (a ^ n)
  add_err _ _ := h _
  sub_err _ _ := h _
  mul_err _ _ := h _
  div_err _ _ _ := h _
  pow_err _ := h _

/-- the number with a significand of `p` bits nearest to `x` (exponents are not bounded) -/
noncomputable def nearest (p : ℕ) (x : ℝ) : ℝ :=
  round (x / (2 : ℝ) ^ (Int.log 2 |x| + 1 - p)) * (2 : ℝ) ^ (Int.log 2 |x| + 1 - p)

theorem nearest_err (p : ℕ) (x : ℝ) : |nearest p x - x| ≤ (2 : ℝ) ^ (-(p : ℤ)) * |x| := by
  rcases eq_or_ne x 0 with rfl | hx
  · simp [nearest]
  · have hpos : (0 : ℝ) < (2 : ℝ) ^ (Int.log 2 |x| + 1 - p) := zpow_pos (by norm_num) _
    have h1 := abs_sub_round (x / (2 : ℝ) ^ (Int.log 2 |x| + 1 - p))
    have h2 : (2 : ℝ) ^ (Int.log 2 |x|) ≤ |x| := by
      have := Int.zpow_log_le_self (R := ℝ) (b := 2) (by norm_num) (abs_pos.2 hx)
      exact_mod_cast this
    have e : nearest p x - x = -((x / (2 : ℝ) ^ (Int.log 2 |x| + 1 - p)
        - round (x / (2 : ℝ) ^ (Int.log 2 |x| + 1 - p))) * (2 : ℝ) ^ (Int.log 2 |x| + 1 - p)) := by
      unfold nearest; field_simp; ring
    rw [e, abs_neg, abs_mul, abs_of_pos hpos]
    calc _ ≤ 1 / 2 * (2 : ℝ) ^ (Int.log 2 |x| + 1 - p) := by gcongr
      _ = (2 : ℝ) ^ (-(p : ℤ)) * (2 : ℝ) ^ (Int.log 2 |x|) := by
        rw [sub_eq_add_neg, zpow_add₀ (by norm_num), zpow_add₀ (by norm_num)]; ring
      _ ≤ _ := mul_le_mul_of_nonneg_left h2 (zpow_pos (by norm_num) _).le

/-- binary floating-point arithmetic with significands of `p` bits, rounding to nearest (53 bits: double
precision without overflow and underflow) -/
noncomputable def Rounded.binary (p : ℕ) : Rounded ((2 : ℝ) ^ (-(p : ℤ))) :=
  .ofRound _ (nearest p) (nearest_err p)

/-- a number that is computed with the operations of `R` -/
structure Rd {u : ℝ} (R : Rounded u) where
  val : ℝ

variable {u : ℝ} {R : Rounded u}

instance : Inhabited (Rd R) := ⟨⟨0⟩⟩
instance : Add (Rd R) := ⟨fun a b => ⟨R.add a.val b.val⟩⟩
instance : Sub (Rd R) := ⟨fun a b => ⟨R.sub a.val b.val⟩⟩
instance : Mul (Rd R) := ⟨fun a b => ⟨R.mul a.val b.val⟩⟩
noncomputable instance : Div (Rd R) := ⟨fun a b => ⟨R.div a.val b.val⟩⟩
instance : Pow (Rd R) ℕ := ⟨fun a n => ⟨R.pow a.val n⟩⟩
/-- a change of sign is exact -/
instance : Neg (Rd R) := ⟨fun a => ⟨-a.val⟩⟩
/-- small integer literals are exact -/
instance : NatCast (Rd R) := ⟨fun n => ⟨n⟩⟩

/-- Higham's constant: the error of `k` successive roundings, relative to the size of the operands -/
noncomputable def gam (u : ℝ) (k : ℕ) : ℝ := k * u / (1 - k * u)

end Verif.Spec
