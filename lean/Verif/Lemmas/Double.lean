import Verif.Spec.Double
import Mathlib.Algebra.Order.Round
import Mathlib.Algebra.Order.Field.Power
import Mathlib.Data.Nat.Log
import Mathlib.Tactic.Linarith
import Mathlib.Tactic.Ring
import Mathlib.Tactic.FieldSimp
import Mathlib.Tactic.Positivity
import Mathlib.Tactic.NormNum

/-!
# Lemmas: rounded arithmetic
-/

set_option linter.unusedSectionVars false

namespace Verif

open H5IO

section
variable {K : Type} [Field K] [LinearOrder K] [IsStrictOrderedRing K] [FloorRing K]

theorem roundEven_err (x : K) : |(roundEven x : K) - x| ≤ 1 / 2 := by
  have h1 := Int.floor_le x
  have h2 := Int.lt_floor_add_one x
  unfold roundEven
  split_ifs with a b c <;> rw [abs_le] <;> push_cast <;> constructor <;> linarith

theorem roundEven_near (x : K) (n : ℤ) (h : |x - n| < 1 / 2) : roundEven x = n := by
  have h1 := roundEven_err x
  have h2 : |(roundEven x : K) - n| < 1 := by
    calc _ = |((roundEven x : K) - x) + (x - n)| := by ring_nf
      _ ≤ |(roundEven x : K) - x| + |x - n| := abs_add_le _ _
      _ < 1 := by linarith
  rw [← Int.cast_sub, ← Int.cast_abs] at h2
  have h3 : |roundEven x - n| < 1 := by exact_mod_cast h2
  have := Int.abs_lt_one_iff.1 h3
  omega

theorem relError_id : Spec.RelError (id : K → K) :=
  ⟨fun x _ _ => by simp only [id_eq, sub_self, abs_zero]; positivity, rfl⟩

end

theorem pow2_eq (e : ℤ) : pow2 e = (2 : ℚ) ^ e := by
  cases e with
  | ofNat n => simp [pow2]
  | negSucc n =>
    simp only [pow2, zpow_negSucc, Rat.mkRat_eq_div]
    push_cast
    rw [one_div]

theorem expo_spec (q : ℚ) (hq : q ≠ 0) : 2 ^ 52 * pow2 (expo q) ≤ |q| := by
  have hn : q.num.natAbs ≠ 0 := by simpa using hq
  have hd : q.den ≠ 0 := q.den_ne_zero
  have h1 : 2 ^ Nat.log2 q.num.natAbs ≤ q.num.natAbs := Nat.log2_self_le hn
  have h2 : q.den < 2 ^ (Nat.log2 q.den + 1) := Nat.lt_log2_self
  have hq' : |q| = (q.num.natAbs : ℚ) / q.den := by
    conv_lhs => rw [← Rat.num_div_den q]
    rw [abs_div, Nat.abs_cast, Nat.cast_natAbs, Int.cast_abs]
  have h1' : (2 : ℚ) ^ Nat.log2 q.num.natAbs ≤ q.num.natAbs := by exact_mod_cast h1
  have h2' : (q.den : ℚ) ≤ 2 ^ (Nat.log2 q.den + 1) := by exact_mod_cast h2.le
  have hd' : (0 : ℚ) < q.den := by exact_mod_cast Nat.pos_of_ne_zero hd
  have key : (2 : ℚ) ^ ((Nat.log2 q.num.natAbs : ℤ) - (Nat.log2 q.den : ℤ) - 1) ≤ |q| := by
    rw [hq', le_div_iff₀ hd']
    calc _ ≤ (2 : ℚ) ^ ((Nat.log2 q.num.natAbs : ℤ) - (Nat.log2 q.den : ℤ) - 1) * 2 ^ (Nat.log2 q.den + 1) :=
          mul_le_mul_of_nonneg_left h2' (by positivity)
      _ = (2 : ℚ) ^ Nat.log2 q.num.natAbs := by
          rw [← zpow_natCast, ← zpow_natCast, ← zpow_add₀ (by norm_num)]
          congr 1
          push_cast
          ring
      _ ≤ _ := h1'
  unfold expo
  simp only
  split_ifs with c
  · rw [pow2_eq, ← zpow_natCast (2 : ℚ) 52, ← zpow_add₀ (by norm_num)]
    refine le_trans (le_of_eq ?_) key
    congr 1
    push_cast
    ring
  · exact not_lt.1 c

/-- rounding to nearest with 53 bits has a relative error of at most `2^-53` -/
theorem relError_rne : Spec.RelError rne := by
  refine ⟨fun q _ _ => ?_, if_pos rfl⟩
  unfold rne
  split_ifs with c
  · rw [c]; norm_num
  · have he := expo_spec q c
    have hp : 0 < pow2 (expo q) := by rw [pow2_eq]; positivity
    have h := roundEven_err (q / pow2 (expo q))
    have e : (roundEven (q / pow2 (expo q)) : ℚ) * pow2 (expo q) - q
        = ((roundEven (q / pow2 (expo q)) : ℚ) - q / pow2 (expo q)) * pow2 (expo q) := by
      rw [sub_mul, div_mul_cancel₀ _ hp.ne']
    rw [e, abs_mul, abs_of_pos hp, le_div_iff₀ (by positivity)]
    nlinarith

example : rne (1 / 10) = 3602879701896397 / 2 ^ 55 := by decide +kernel

end Verif

namespace Verif

open H5IO

/-! The operations, as rewriting rules -/

section
variable {K : Type} [Field K] [LinearOrder K] [IsStrictOrderedRing K] [FloorRing K] (fl : K → K) (x y : K) (z : ℤ)

theorem rd_ofInt : @FloatOps.ofInt K (roundedOps fl) z = fl z := rfl
theorem rd_add : @FloatOps.add K (roundedOps fl) x y = fl (x + y) := rfl
theorem rd_sub : @FloatOps.sub K (roundedOps fl) x y = fl (x - y) := rfl
theorem rd_mul : @FloatOps.mul K (roundedOps fl) x y = fl (x * y) := rfl
theorem rd_div : @FloatOps.div K (roundedOps fl) x y = if y = 0 then .error .zeroDivisionError else .ok (fl (x / y)) := rfl
theorem rd_toInt : @FloatOps.toInt K (roundedOps fl) x = .ok (truncZ x) := rfl
theorem rd_round : @FloatOps.round K (roundedOps fl) x = .ok (roundEven x) := rfl

theorem ex_ofInt : @FloatOps.ofInt K (exactOps K) z = z := rfl
theorem ex_add : @FloatOps.add K (exactOps K) x y = x + y := rfl
theorem ex_sub : @FloatOps.sub K (exactOps K) x y = x - y := rfl
theorem ex_mul : @FloatOps.mul K (exactOps K) x y = x * y := rfl
theorem ex_div : @FloatOps.div K (exactOps K) x y = if y = 0 then .error .zeroDivisionError else .ok (x / y) := rfl
theorem ex_toInt : @FloatOps.toInt K (exactOps K) x = .ok (truncZ x) := rfl
theorem ex_round : @FloatOps.round K (exactOps K) x = .ok (roundEven x) := rfl
theorem ex_lt : @FloatOps.lt K (exactOps K) x y = decide (x < y) := rfl
theorem ex_le : @FloatOps.le K (exactOps K) x y = decide (x ≤ y) := rfl

end

end Verif
