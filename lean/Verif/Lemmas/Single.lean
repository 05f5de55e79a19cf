import Verif.Spec.Single
import Verif.Lemmas.Double

/-!
# Lemmas: storage in single precision
-/

set_option linter.unusedSectionVars false

namespace Verif

open H5IO

theorem single_prec : Spec.SinglePrec single := by
  refine ⟨fun x h _ => ?_, ?_⟩
  · have hx : 0 < |x| := lt_of_lt_of_le (by positivity) h
    have hl : (2 : ℝ) ^ Int.log 2 |x| ≤ |x| := by
      have := Int.zpow_log_le_self (R := ℝ) (b := 2) (by norm_num) hx
      exact_mod_cast this
    unfold single
    set e : ℝ := 2 ^ (Int.log 2 |x| - 23) with he
    have hp : 0 < e := by rw [he]; positivity
    have e2 : e * 2 ^ 23 = (2 : ℝ) ^ Int.log 2 |x| := by
      rw [he, ← zpow_natCast, ← zpow_add₀ (by norm_num)]; congr 1; push_cast; ring
    have h1 := roundEven_err (x / e)
    have h2 : (roundEven (x / e) : ℝ) * e - x = ((roundEven (x / e) : ℝ) - x / e) * e := by
      rw [sub_mul, div_mul_cancel₀ _ hp.ne']
    rw [h2, abs_mul, abs_of_pos hp, le_div_iff₀ (by positivity)]
    nlinarith
  · have : roundEven (0 : ℝ) = 0 := roundEven_near 0 0 (by norm_num)
    unfold single
    rw [zero_div, this]; simp

theorem single_big : single (2 ^ 24 + 1) = 2 ^ 24 := by
  have hl : Int.log 2 |(2 ^ 24 + 1 : ℝ)| = 24 := by
    rw [abs_of_pos (by norm_num)]
    have : ((2 ^ 24 + 1 : ℕ) : ℝ) = 2 ^ 24 + 1 := by norm_num
    rw [← this, Int.log_natCast]
    have : Nat.log 2 (2 ^ 24 + 1) = 24 := by rw [Nat.log_eq_iff (by norm_num)]; norm_num
    rw [this]; rfl
  have hf : ⌊(2 ^ 24 + 1 : ℝ) / 2⌋ = 2 ^ 23 := by
    rw [Int.floor_eq_iff]; norm_num
  unfold single
  rw [hl]
  norm_num only
  unfold roundEven
  norm_num at hf ⊢

theorem single_big' : single (2 ^ 24) = 2 ^ 24 := by
  have hl : Int.log 2 |(2 ^ 24 : ℝ)| = 24 := by
    rw [abs_of_pos (by norm_num)]
    have : ((2 ^ 24 : ℕ) : ℝ) = 2 ^ 24 := by norm_num
    rw [← this, Int.log_natCast]
    have : Nat.log 2 (2 ^ 24) = 24 := by rw [Nat.log_eq_iff (by norm_num)]; norm_num
    rw [this]; rfl
  have hr : roundEven (2 ^ 23 : ℝ) = 2 ^ 23 := roundEven_near _ _ (by norm_num)
  unfold single
  rw [hl]
  norm_num at hr ⊢
  rw [hr]
  norm_num

section
variable {K : Type} [Field K] [LinearOrder K] [IsStrictOrderedRing K]

/-- one more rounding -/
theorem err_step {x y z a b : K} (hx : 0 ≤ x) (hb : 0 ≤ b) (h1 : |y - x| ≤ a * x)
    (h2 : |z - y| ≤ b * |y|) : |z - x| ≤ (a + b + a * b) * x := by
  have hy : |y| ≤ (1 + a) * x := by
    have := abs_sub_abs_le_abs_sub y x
    rw [abs_of_nonneg hx] at this
    linarith
  have h3 : |z - x| ≤ |z - y| + |y - x| := by
    have := abs_add_le (z - y) (y - x)
    rwa [sub_add_sub_cancel] at this
  have h4 := mul_le_mul_of_nonneg_left hy hb
  linarith

/-- two points of a grid that are moved by less than half the distance in relation to their position -/
theorem grid_lt {τ s t v : K} (hτ : 0 < τ) (hv : 0 ≤ v) {i j : ℕ} (hij : i < j) (hj : v * (2 * j - 1) < 1)
    (hs : |s - i * τ| ≤ v * (i * τ)) (ht : |t - j * τ| ≤ v * (j * τ)) : s < t := by
  have h1 := (abs_le.1 hs).2
  have h2 := (abs_le.1 ht).1
  have h3 : (i : K) + 1 ≤ j := by exact_mod_cast hij
  have h4 : v * (i + j) < j - i := by
    have : v * (i + j) ≤ v * (2 * j - 1) := mul_le_mul_of_nonneg_left (by linarith) hv
    linarith
  nlinarith

end

end Verif
