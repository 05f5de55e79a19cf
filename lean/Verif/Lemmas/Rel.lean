import Verif.Lemmas.Double
import Mathlib.Tactic.Positivity
import Mathlib.Tactic.LinearCombination
import Mathlib.Tactic.FieldSimp

/-!
# Relative errors of rounded numbers
-/

namespace Verif

variable {K : Type} [Field K] [LinearOrder K] [IsStrictOrderedRing K]

/-- `x` is `y` up to the relative error `t` -/
def Rel (t x y : K) : Prop := |x - y| ≤ t * |y|

theorem Rel.abs_le {t x y : K} (h : Rel t x y) : |x| ≤ (1 + t) * |y| := by
  unfold Rel at h
  calc |x| = |(x - y) + y| := by ring_nf
    _ ≤ |x - y| + |y| := abs_add_le _ _
    _ ≤ _ := by linarith

theorem Rel.abs_ge {t x y : K} (h : Rel t x y) : (1 - t) * |y| ≤ |x| := by
  unfold Rel at h
  have : |y| ≤ |y - x| + |x| := by
    calc |y| = |(y - x) + x| := by ring_nf
      _ ≤ _ := abs_add_le _ _
  rw [abs_sub_comm] at this
  linarith

theorem Rel.mono {s t x y : K} (h : Rel s x y) (hst : s ≤ t) : Rel t x y :=
  le_trans h (mul_le_mul_of_nonneg_right hst (abs_nonneg y))

theorem Rel.ne_zero {t x y : K} (h : Rel t x y) (ht : t < 1) (hy : y ≠ 0) : x ≠ 0 := by
  have h1 := h.abs_ge
  have : 0 < (1 - t) * |y| := mul_pos (by linarith) (abs_pos.2 hy)
  exact abs_pos.1 (by linarith)

theorem Rel.mul {s t x y x' y' : K} (h : Rel s x y) (h' : Rel t x' y') (hs : 0 ≤ s) :
    Rel (s + t + s * t) (x * x') (y * y') := by
  have e : x * x' - y * y' = (x - y) * y' + x * (x' - y') := by ring
  have h1 := h.abs_le
  unfold Rel at *
  rw [e]
  calc _ ≤ |(x - y) * y'| + |x * (x' - y')| := abs_add_le _ _
    _ = |x - y| * |y'| + |x| * |x' - y'| := by rw [abs_mul, abs_mul]
    _ ≤ s * |y| * |y'| + (1 + s) * |y| * (t * |y'|) := by gcongr
    _ = _ := by rw [abs_mul]; ring

theorem Rel.inv {t x y : K} (h : Rel t x y) (ht : t ≤ 1 / 2) (hy : y ≠ 0) : Rel (2 * t) x⁻¹ y⁻¹ := by
  have hx := h.ne_zero (by linarith) hy
  have h1 := h.abs_ge
  have hy' := abs_pos.2 hy
  have hx' := abs_pos.2 hx
  unfold Rel at *
  have e : x⁻¹ - y⁻¹ = (y - x) * (x⁻¹ * y⁻¹) := by field_simp
  rw [e, abs_mul, abs_mul, abs_sub_comm, abs_inv, abs_inv]
  have h2 : |y| ≤ 2 * |x| := by nlinarith
  have h0 : 0 ≤ t * |y| := le_trans (abs_nonneg _) h
  have ht0 : 0 ≤ t := by
    by_contra hc
    have := mul_neg_of_neg_of_pos (not_le.1 hc) hy'
    linarith
  calc |x - y| * (|x|⁻¹ * |y|⁻¹) ≤ t * |y| * (|x|⁻¹ * |y|⁻¹) := by gcongr
    _ = t * |x|⁻¹ := by field_simp
    _ ≤ t * (2 * |y|⁻¹) := by
      refine mul_le_mul_of_nonneg_left ?_ ht0
      rw [inv_le_comm₀ hx' (by positivity), mul_inv, inv_inv]
      linarith
    _ = _ := by ring

theorem Rel.div {s t x y x' y' : K} (h : Rel s x y) (h' : Rel t x' y') (hs : 0 ≤ s) (ht : t ≤ 1 / 2) (hy : y' ≠ 0) :
    Rel (s + 2 * t + s * (2 * t)) (x / x') (y / y') := by
  rw [div_eq_mul_inv, div_eq_mul_inv]
  exact h.mul (h'.inv ht hy) hs

/-- rounding adds one error -/
theorem Rel.fl {fl : K → K} (hf : Spec.RelError fl) {s x y : K} (h : Rel s x y) (hs : s ≤ 1 / 2)
    (hy : y = 0 ∨ (1 / 2 ^ 1021 ≤ |y| ∧ |y| ≤ 2 ^ 1022)) : Rel (s + 2 / 2 ^ 53) (fl x) y := by
  have h1 := h.abs_le
  have h2 := h.abs_ge
  unfold Rel at *
  rcases hy with rfl | ⟨hy1, hy2⟩
  · rw [abs_zero, mul_zero] at h
    have : x = 0 := by simpa using h
    rw [this, hf.zero]
    simp
  · have hl : 1 / 2 * |y| ≤ |x| := by nlinarith [abs_nonneg y]
    have hu : |x| ≤ |y| * 2 := by nlinarith [abs_nonneg y]
    have hx1 : (1 : K) / 2 ^ 1022 ≤ |x| := by
      have : (1 : K) / 2 ^ 1022 = 1 / 2 * (1 / 2 ^ 1021) := by
        rw [pow_succ (2 : K) 1021]
        generalize (2 : K) ^ 1021 = c
        ring
      rw [this]
      exact le_trans (mul_le_mul_of_nonneg_left hy1 (by norm_num)) hl
    have hx2 : |x| ≤ (2 : K) ^ 1023 := by
      rw [pow_succ (2 : K) 1022]
      exact le_trans hu (mul_le_mul_of_nonneg_right hy2 (by norm_num))
    have h3 := hf.rel x hx1 hx2
    calc |fl x - y| = |(fl x - x) + (x - y)| := by ring_nf
      _ ≤ |fl x - x| + |x - y| := abs_add_le _ _
      _ ≤ |x| / 2 ^ 53 + s * |y| := by gcongr
      _ ≤ (2 * |y|) / 2 ^ 53 + s * |y| := by
        gcongr
        nlinarith [abs_nonneg y]
      _ = _ := by ring

theorem Rel.refl (y : K) : Rel 0 y y := by unfold Rel; simp

theorem Rel.of_fl {fl : K → K} (hf : Spec.RelError fl) (y : K)
    (hy : y = 0 ∨ (1 / 2 ^ 1021 ≤ |y| ∧ |y| ≤ 2 ^ 1022)) : Rel (2 / 2 ^ 53) (fl y) y := by
  have := (Rel.refl y).fl hf (by norm_num) hy
  rwa [zero_add] at this

end Verif
