import Mathlib.Analysis.Calculus.MeanValue
import Mathlib.Analysis.Calculus.Deriv.Pow
import Mathlib.Analysis.Calculus.Deriv.Mul
import Mathlib.Analysis.Calculus.Deriv.Add
import Mathlib.Analysis.Calculus.Deriv.Shift
import Mathlib.Tactic.FieldSimp
import Mathlib.Tactic.Ring
import Mathlib.Tactic.Module
import Mathlib.Tactic.Positivity

/-!
# Taylor estimates by integrating a derivative bound
-/

namespace Verif

open Set

variable {E : Type*} [NormedAddCommGroup E] [NormedSpace ℝ E]

/-- integrating a bound on the derivative -/
theorem growth {u u' : ℝ → E} {c T : ℝ} (n : ℕ) (h0 : u 0 = 0)
    (hd : ∀ t ∈ Icc 0 T, HasDerivWithinAt u (u' t) (Icc 0 T) t)
    (hb : ∀ t ∈ Icc 0 T, ‖u' t‖ ≤ c * t ^ n) :
    ∀ t ∈ Icc 0 T, ‖u t‖ ≤ c * t ^ (n + 1) / (n + 1) := by
  intro t ht
  have hB : ∀ x, HasDerivAt (fun x : ℝ => c * x ^ (n + 1) / (n + 1)) (c * x ^ n) x := by
    intro x
    have h1 := ((hasDerivAt_pow (n + 1) x).const_mul c).div_const ((n : ℝ) + 1)
    have h2 : c * (((n + 1 : ℕ) : ℝ) * x ^ (n + 1 - 1)) / ((n : ℝ) + 1) = c * x ^ n := by
      have : (n : ℝ) + 1 ≠ 0 := by positivity
      push_cast
      field_simp
    rw [h2] at h1
    exact h1
  refine image_norm_le_of_norm_deriv_right_le_deriv_boundary (f' := u')
    (fun x hx => (hd x hx).continuousWithinAt) ?_ ?_ hB ?_ ht
  · intro x hx
    have := hd x ⟨hx.1, hx.2.le⟩
    have h2 : HasDerivWithinAt u (u' x) (Icc x T) x :=
      this.mono fun y hy => ⟨hx.1.trans hy.1, hy.2⟩
    exact h2.mono_of_mem_nhdsWithin (Icc_mem_nhdsGE hx.2)
  · simp [h0]
  · exact fun x hx => hb x ⟨hx.1, hx.2.le⟩

private theorem shift_pos {f f' : ℝ → ℝ} (hf : ∀ t, HasDerivAt f (f' t) t) (x t : ℝ) :
    HasDerivAt (fun t => f (x + t)) (f' (x + t)) t := (hf (x + t)).comp_const_add x t

private theorem shift_neg {f f' : ℝ → ℝ} (hf : ∀ t, HasDerivAt f (f' t) t) (x t : ℝ) :
    HasDerivAt (fun t => f (x - t)) (-f' (x - t)) t := (hf (x - t)).comp_const_sub x t

/-- central first difference -/
theorem central_first {f f1 f2 f3 : ℝ → ℝ} (h0 : ∀ t, HasDerivAt f (f1 t) t)
    (h1 : ∀ t, HasDerivAt f1 (f2 t) t) (h2 : ∀ t, HasDerivAt f2 (f3 t) t) {M : ℝ}
    (hM : ∀ t, |f3 t| ≤ M) (x : ℝ) {s : ℝ} (hs : 0 ≤ s) :
    |f (x + s) - f (x - s) - 2 * s * f1 x| ≤ M * s ^ 3 / 3 := by
  have hT : s ∈ Icc 0 s := ⟨hs, le_rfl⟩
  have b2 := growth (E := ℝ) (u := fun t => f2 (x + t) - f2 (x - t))
    (u' := fun t => f3 (x + t) + f3 (x - t)) (c := 2 * M) (T := s) 0 (by simp)
    (fun t _ => by
      have := (shift_pos h2 x t).sub (shift_neg h2 x t)
      rw [sub_neg_eq_add] at this
      exact this.hasDerivWithinAt)
    (fun t _ => by
      rw [Real.norm_eq_abs, pow_zero, mul_one]
      have := abs_add_le (f3 (x + t)) (f3 (x - t))
      linarith [hM (x + t), hM (x - t)])
  have b1 := growth (E := ℝ) (u := fun t => f1 (x + t) + f1 (x - t) - 2 * f1 x)
    (u' := fun t => f2 (x + t) - f2 (x - t)) (c := 2 * M) (T := s) 1 (by simp; ring)
    (fun t _ => by
      have := ((shift_pos h1 x t).add (shift_neg h1 x t)).sub_const (2 * f1 x)
      rw [← sub_eq_add_neg] at this
      exact this.hasDerivWithinAt)
    (fun t ht => by
      refine (b2 t ht).trans_eq ?_
      simp)
  have b0 := growth (E := ℝ) (u := fun t => f (x + t) - f (x - t) - t * (2 * f1 x))
    (u' := fun t => f1 (x + t) + f1 (x - t) - 2 * f1 x) (c := M) (T := s) 2 (by simp)
    (fun t _ => by
      have := ((shift_pos h0 x t).sub (shift_neg h0 x t)).sub
        ((hasDerivAt_id t).mul_const (2 * f1 x))
      rw [sub_neg_eq_add, one_mul] at this
      exact this.hasDerivWithinAt)
    (fun t ht => by
      refine (b1 t ht).trans_eq ?_
      norm_num; ring)
  have := b0 s hT
  rw [Real.norm_eq_abs] at this
  calc |f (x + s) - f (x - s) - 2 * s * f1 x| = |f (x + s) - f (x - s) - s * (2 * f1 x)| := by
        congr 1; ring
    _ ≤ _ := this
    _ = M * s ^ 3 / 3 := by norm_num

/-- central second difference -/
theorem central_second {f f1 f2 f3 f4 : ℝ → ℝ} (h0 : ∀ t, HasDerivAt f (f1 t) t)
    (h1 : ∀ t, HasDerivAt f1 (f2 t) t) (h2 : ∀ t, HasDerivAt f2 (f3 t) t)
    (h3 : ∀ t, HasDerivAt f3 (f4 t) t) {M : ℝ}
    (hM : ∀ t, |f4 t| ≤ M) (x : ℝ) {s : ℝ} (hs : 0 ≤ s) :
    |f (x + s) + f (x - s) - 2 * f x - s ^ 2 * f2 x| ≤ M * s ^ 4 / 12 := by
  have hT : s ∈ Icc 0 s := ⟨hs, le_rfl⟩
  have b0 := growth (E := ℝ) (u := fun t => f (x + t) + f (x - t) - 2 * f x - t ^ 2 * f2 x)
    (u' := fun t => f1 (x + t) - f1 (x - t) - 2 * t * f2 x) (c := M / 3) (T := s) 3
    (by simp; ring)
    (fun t _ => by
      have := (((shift_pos h0 x t).add (shift_neg h0 x t)).sub_const (2 * f x)).sub
        ((hasDerivAt_pow 2 t).mul_const (f2 x))
      rw [← sub_eq_add_neg] at this
      have e : ((2 : ℕ) : ℝ) * t ^ (2 - 1) * f2 x = 2 * t * f2 x := by norm_num
      rw [e] at this
      exact this.hasDerivWithinAt)
    (fun t ht => by
      rw [Real.norm_eq_abs]
      refine (central_first h1 h2 h3 hM x ht.1).trans_eq ?_
      ring)
  have := b0 s hT
  rw [Real.norm_eq_abs] at this
  exact this.trans_eq (by norm_num; ring)

end Verif
