import Verif.Spec.Rounding
import Verif.Lemmas.Stencil
import Mathlib.Tactic.Positivity.Finset

/-!
# Propagation of rounding errors through the difference formulas

`Ap u k x' x s`: the computed number `x'` deviates from `x` by at most `(1/(1-u)^k - 1) * s`, where `s`
bounds `|x|`.  `Iv u k d' d`: the same for the reciprocal of a divisor.
-/

namespace Verif.Rounding

open Verif.Spec

variable {u : ℝ}

/-- the growth factor of one rounding -/
noncomputable def qf (u : ℝ) : ℝ := 1 / (1 - u)

theorem one_le_qf (h0 : 0 ≤ u) (h1 : u < 1) : 1 ≤ qf u := by
  unfold qf; rw [le_div_iff₀ (by linarith)]; linarith

theorem u_le_qf (h0 : 0 ≤ u) (h1 : u < 1) : 1 + u ≤ qf u := by
  unfold qf; rw [le_div_iff₀ (by linarith)]; nlinarith

theorem qf_mul (h1 : u < 1) : u * qf u = qf u - 1 := by
  unfold qf
  have : (1 - u) ≠ 0 := by linarith
  field_simp; ring

theorem qf_pow_le_gam (k : ℕ) (hk : k * u < 1) (h1 : u < 1) : qf u ^ k - 1 ≤ gam u k := by
  unfold qf gam
  have hb : 1 - k * u ≤ (1 - u) ^ k := by
    have := one_add_mul_le_pow (a := -u) (by linarith) k
    calc 1 - k * u = 1 + k * -u := by ring
      _ ≤ _ := this
      _ = _ := by ring
  have hp : 0 < 1 - k * u := by linarith
  rw [div_pow, one_pow, show (k * u / (1 - k * u) : ℝ) = 1 / (1 - k * u) - 1 by field_simp; ring]
  have := one_div_le_one_div_of_le hp hb
  linarith

/-- the computed `x'` approximates `x`, whose size is at most `s`, up to `k` roundings -/
def Ap (u : ℝ) (k : ℕ) (x' x s : ℝ) : Prop := |x| ≤ s ∧ |x' - x| ≤ (qf u ^ k - 1) * s

/-- the reciprocal of the computed divisor -/
def Iv (u : ℝ) (k : ℕ) (d' d : ℝ) : Prop := d' ≠ 0 ∧ |d'⁻¹ - d⁻¹| ≤ (qf u ^ k - 1) * |d⁻¹|

theorem Ap.leaf (x : ℝ) : Ap u 0 x x |x| := ⟨le_rfl, by simp⟩

theorem Ap.mono (h0 : 0 ≤ u) (h1 : u < 1) {k l : ℕ} (hkl : k ≤ l) {x' x s : ℝ} (h : Ap u k x' x s) : Ap u l x' x s := by
  refine ⟨h.1, h.2.trans ?_⟩
  have : 0 ≤ s := (abs_nonneg _).trans h.1
  have := pow_le_pow_right₀ (one_le_qf h0 h1) hkl
  gcongr

theorem Ap.abs_le {k : ℕ} {x' x s : ℝ} (h : Ap u k x' x s) : |x'| ≤ qf u ^ k * s := by
  have h1 := abs_add_le (x' - x) x
  rw [sub_add_cancel] at h1
  have := h.1
  have := h.2
  linarith

/-- one more rounding -/
theorem Ap.round (h0 : 0 ≤ u) (h1 : u < 1) {k : ℕ} {x'' x' x s : ℝ} (h : Ap u k x' x s)
    (hr : |x'' - x'| ≤ u * |x'|) : Ap u (k + 1) x'' x s := by
  refine ⟨h.1, ?_⟩
  have hs : 0 ≤ s := (abs_nonneg _).trans h.1
  have t := abs_sub_le x'' x' x
  have hq := u_le_qf h0 h1
  have hp : 0 ≤ qf u ^ k := pow_nonneg (by linarith [one_le_qf h0 h1]) k
  have a1 : u * |x'| ≤ u * (qf u ^ k * s) := mul_le_mul_of_nonneg_left h.abs_le h0
  have := h.2
  calc |x'' - x| ≤ u * (qf u ^ k * s) + (qf u ^ k - 1) * s := by linarith
    _ = ((1 + u) * qf u ^ k - 1) * s := by ring
    _ ≤ (qf u * qf u ^ k - 1) * s := by gcongr
    _ = _ := by rw [pow_succ']

theorem Ap.add0 (h0 : 0 ≤ u) (h1 : u < 1) {k l : ℕ} {x' x s y' y t : ℝ} (hx : Ap u k x' x s) (hy : Ap u l y' y t) :
    Ap u (max k l) (x' + y') (x + y) (s + t) := by
  obtain ⟨a1, a2⟩ := hx.mono h0 h1 (le_max_left k l)
  obtain ⟨b1, b2⟩ := hy.mono h0 h1 (le_max_right k l)
  refine ⟨(abs_add_le _ _).trans (add_le_add a1 b1), ?_⟩
  rw [show x' + y' - (x + y) = (x' - x) + (y' - y) by ring, mul_add]
  exact (abs_add_le _ _).trans (add_le_add a2 b2)

theorem Ap.neg {k : ℕ} {x' x s : ℝ} (h : Ap u k x' x s) : Ap u k (-x') (-x) s :=
  ⟨by rw [abs_neg]; exact h.1, by rw [← neg_sub', abs_neg]; exact h.2⟩

theorem Ap.mul0 (h0 : 0 ≤ u) (h1 : u < 1) {k l : ℕ} {x' x s y' y t : ℝ} (hx : Ap u k x' x s) (hy : Ap u l y' y t) :
    Ap u (k + l) (x' * y') (x * y) (s * t) := by
  have hs : 0 ≤ s := (abs_nonneg _).trans hx.1
  have ht : 0 ≤ t := (abs_nonneg _).trans hy.1
  have hq := one_le_qf h0 h1
  have hk : 1 ≤ qf u ^ k := one_le_pow₀ hq
  refine ⟨by rw [abs_mul]; exact mul_le_mul hx.1 hy.1 (abs_nonneg _) hs, ?_⟩
  rw [show x' * y' - x * y = (x' - x) * y' + x * (y' - y) by ring]
  have a1 : |(x' - x) * y'| ≤ ((qf u ^ k - 1) * s) * (qf u ^ l * t) := by
    rw [abs_mul]
    exact mul_le_mul hx.2 hy.abs_le (abs_nonneg _) (mul_nonneg (by linarith) hs)
  have a2 : |x * (y' - y)| ≤ s * ((qf u ^ l - 1) * t) := by
    rw [abs_mul]; exact mul_le_mul hx.1 hy.2 (abs_nonneg _) hs
  calc _ ≤ _ := (abs_add_le _ _).trans (add_le_add a1 a2)
    _ = _ := by rw [pow_add]; ring

theorem Iv.leaf {d : ℝ} (hd : d ≠ 0) : Iv u 0 d d := ⟨hd, by simp⟩

/-- one more rounding of the divisor -/
theorem Iv.round (h0 : 0 ≤ u) (h1 : u < 1) {k : ℕ} {d'' d' d : ℝ} (h : Iv u k d' d)
    (hr : |d'' - d'| ≤ u * |d'|) : Iv u (k + 1) d'' d := by
  obtain ⟨hne, he⟩ := h
  have hq := qf_mul h1
  have hq1 := one_le_qf h0 h1
  have hpos : 0 < |d'| := abs_pos.2 hne
  have hlow : (1 - u) * |d'| ≤ |d''| := by
    have := abs_sub_abs_le_abs_sub d' d''
    rw [abs_sub_comm] at this
    linarith
  have hlow0 : 0 < (1 - u) * |d'| := mul_pos (by linarith) hpos
  have hpos'' : 0 < |d''| := by linarith
  have hne'' : d'' ≠ 0 := abs_pos.1 hpos''
  refine ⟨hne'', ?_⟩
  have e1 : |d''⁻¹ - d'⁻¹| ≤ (qf u - 1) * |d'⁻¹| := by
    rw [inv_sub_inv hne'' hne, abs_div, abs_mul, abs_inv, abs_sub_comm]
    rw [div_le_iff₀ (by positivity), show (qf u - 1) * |d'|⁻¹ * (|d''| * |d'|) = (qf u - 1) * |d''| by
      field_simp]
    calc |d'' - d'| ≤ u * |d'| := hr
      _ = (qf u - 1) * ((1 - u) * |d'|) := by
        have : (1 - u) ≠ 0 := by linarith
        unfold qf; field_simp; ring
      _ ≤ _ := mul_le_mul_of_nonneg_left hlow (by linarith)
  have e2 : |d'⁻¹| ≤ qf u ^ k * |d⁻¹| := by
    have := abs_add_le (d'⁻¹ - d⁻¹) d⁻¹
    rw [sub_add_cancel] at this
    linarith
  have e3 := abs_sub_le d''⁻¹ d'⁻¹ d⁻¹
  have e4 : (qf u - 1) * |d'⁻¹| ≤ (qf u - 1) * (qf u ^ k * |d⁻¹|) := mul_le_mul_of_nonneg_left e2 (by linarith)
  calc _ ≤ (qf u - 1) * (qf u ^ k * |d⁻¹|) + (qf u ^ k - 1) * |d⁻¹| := by linarith
    _ = _ := by rw [pow_succ]; ring

theorem Iv.smul {k : ℕ} {d' d c : ℝ} (hc : c ≠ 0) (h : Iv u k d' d) : Iv u k (c * d') (c * d) := by
  refine ⟨mul_ne_zero hc h.1, ?_⟩
  rw [mul_inv, mul_inv, ← mul_sub, abs_mul, abs_mul]
  calc _ ≤ |c⁻¹| * ((qf u ^ k - 1) * |d⁻¹|) := mul_le_mul_of_nonneg_left h.2 (abs_nonneg _)
    _ = _ := by ring

/-! ### the operations of `Rd R` -/

section ops
variable {R : Rounded u}

@[simp] theorem val_add (a b : Rd R) : (a + b).val = R.add a.val b.val := rfl
@[simp] theorem val_sub (a b : Rd R) : (a - b).val = R.sub a.val b.val := rfl
@[simp] theorem val_mul (a b : Rd R) : (a * b).val = R.mul a.val b.val := rfl
@[simp] theorem val_div (a b : Rd R) : (a / b).val = R.div a.val b.val := rfl
@[simp] theorem val_pow (a : Rd R) (n : ℕ) : (a ^ n).val = R.pow a.val n := rfl
@[simp] theorem val_cast (n : ℕ) : ((n : ℕ) : Rd R).val = n := rfl

variable (h0 : 0 ≤ u) (h1 : u < 1)
include h0 h1

theorem Ap.add {k l : ℕ} {x' x s y' y t : ℝ} (hx : Ap u k x' x s) (hy : Ap u l y' y t) :
    Ap u (max k l + 1) (R.add x' y') (x + y) (s + t) := (hx.add0 h0 h1 hy).round h0 h1 (R.add_err _ _)

theorem Ap.sub {k l : ℕ} {x' x s y' y t : ℝ} (hx : Ap u k x' x s) (hy : Ap u l y' y t) :
    Ap u (max k l + 1) (R.sub x' y') (x - y) (s + t) := by
  have := hx.add0 h0 h1 hy.neg
  rw [← sub_eq_add_neg, ← sub_eq_add_neg] at this
  exact this.round h0 h1 (R.sub_err _ _)

theorem Ap.mul {k l : ℕ} {x' x s y' y t : ℝ} (hx : Ap u k x' x s) (hy : Ap u l y' y t) :
    Ap u (k + l + 1) (R.mul x' y') (x * y) (s * t) := (hx.mul0 h0 h1 hy).round h0 h1 (R.mul_err _ _)

theorem Ap.div {k l : ℕ} {x' x s d' d : ℝ} (hx : Ap u k x' x s) (hd : Iv u l d' d) :
    Ap u (k + l + 1) (R.div x' d') (x / d) (s / |d|) := by
  have hi : Ap u l d'⁻¹ d⁻¹ |d⁻¹| := ⟨le_rfl, hd.2⟩
  have := hx.mul0 h0 h1 hi
  rw [← div_eq_mul_inv, ← div_eq_mul_inv, abs_inv, ← div_eq_mul_inv] at this
  exact this.round h0 h1 (R.div_err _ _ hd.1)

end ops

/-! ### the difference formulas -/

section formulas
variable {R : Rounded u} {h w : ℕ} (h0 : 0 ≤ u) (h1 : u < 1)

/-- the exact numbers an array of computed numbers holds -/
def ex (f : ZMod h → ZMod w → Rd R) : ZMod h → ZMod w → ℝ := fun i j => (f i j).val

variable (f z p : ZMod h → ZMod w → Rd R) (dx : Rd R) (i : ZMod h) (j : ZMod w)

/-- size of the terms of the five-point formula -/
noncomputable def lapSize (dx : ℝ) (f : ZMod h → ZMod w → ℝ) (i : ZMod h) (j : ZMod w) : ℝ :=
  (|f (i - 1) j| + |f i (j - 1)| + 4 * |f i j| + |f i (j + 1)| + |f (i + 1) j|) / dx ^ 2

include h0 h1

theorem gradY_ap (hdx : dx.val ≠ 0) : |(gradY dx f i j).val - gradY dx.val (ex f) i j|
    ≤ (qf u ^ 3 - 1) * |gradY dx.val (ex f) i j| := by
  have a : Ap u 1 (R.sub (f (i + 1) j).val (f (i - 1) j).val) (ex f (i + 1) j - ex f (i - 1) j)
      |ex f (i + 1) j - ex f (i - 1) j| := by
    have := (Ap.leaf (u := u) (ex f (i + 1) j - ex f (i - 1) j)).round h0 h1 (R.sub_err _ _)
    exact this
  have d : Iv u 1 (R.mul (2 : ℕ) dx.val) ((2 : ℕ) * dx.val) :=
    (Iv.leaf (mul_ne_zero (by norm_num) hdx)).round h0 h1 (R.mul_err _ _)
  have := (a.div (R := R) h0 h1 d).2
  rw [← abs_div] at this
  exact this

theorem gradX_ap (hdx : dx.val ≠ 0) : |(gradX dx f i j).val - gradX dx.val (ex f) i j|
    ≤ (qf u ^ 3 - 1) * |gradX dx.val (ex f) i j| := by
  have a : Ap u 1 (R.sub (f i (j + 1)).val (f i (j - 1)).val) (ex f i (j + 1) - ex f i (j - 1))
      |ex f i (j + 1) - ex f i (j - 1)| := by
    have := (Ap.leaf (u := u) (ex f i (j + 1) - ex f i (j - 1))).round h0 h1 (R.sub_err _ _)
    exact this
  have d : Iv u 1 (R.mul (2 : ℕ) dx.val) ((2 : ℕ) * dx.val) :=
    (Iv.leaf (mul_ne_zero (by norm_num) hdx)).round h0 h1 (R.mul_err _ _)
  have := (a.div (R := R) h0 h1 d).2
  rw [← abs_div] at this
  exact this

theorem lap_ap (hdx : dx.val ≠ 0) : |(lap dx f i j).val - lap dx.val (ex f) i j|
    ≤ (qf u ^ 6 - 1) * lapSize dx.val (ex f) i j := by
  have L : ∀ a b, Ap u 0 (f a b).val (ex f a b) |ex f a b| := fun a b => Ap.leaf _
  have c4 : Ap u 0 (4 : ℕ) (4 : ℕ) |((4 : ℕ) : ℝ)| := Ap.leaf _
  have d : Iv u 1 (R.pow dx.val 2) (dx.val ^ 2) :=
    (Iv.leaf (pow_ne_zero 2 hdx)).round h0 h1 (R.pow_err _)
  have a := ((((((L (i - 1) j).add (R := R) h0 h1 (L i (j - 1))).sub (R := R) h0 h1
    (c4.mul (R := R) h0 h1 (L i j))).add (R := R) h0 h1 (L i (j + 1))).add (R := R) h0 h1
    (L (i + 1) j)).div (R := R) h0 h1 d)
  have e : |((4 : ℕ) : ℝ)| = 4 := by norm_num
  have e2 : |dx.val ^ 2| = dx.val ^ 2 := abs_of_nonneg (sq_nonneg _)
  rw [e, e2] at a
  exact a.2

/-- size of the terms of the nine-point formula -/
noncomputable def jacSize (dx : ℝ) (z p : ZMod h → ZMod w → ℝ) (i : ZMod h) (j : ZMod w) : ℝ :=
  (|z i (j + 1)| * (|p (i + 1) j| + |p (i - 1) j| + |p (i + 1) (j + 1)| + |p (i - 1) (j + 1)|)
    + |z i (j - 1)| * (|p (i + 1) j| + |p (i - 1) j| + |p (i + 1) (j - 1)| + |p (i - 1) (j - 1)|)
    + |z (i + 1) j| * (|p i (j + 1)| + |p i (j - 1)| + |p (i + 1) (j + 1)| + |p (i + 1) (j - 1)|)
    + |z (i - 1) j| * (|p i (j + 1)| + |p i (j - 1)| + |p (i - 1) (j + 1)| + |p (i - 1) (j - 1)|)
    + |z (i - 1) (j + 1)| * (|p i (j + 1)| + |p (i - 1) j|)
    + |z (i + 1) (j + 1)| * (|p (i + 1) j| + |p i (j + 1)|)
    + |z (i + 1) (j - 1)| * (|p (i + 1) j| + |p i (j - 1)|)
    + |z (i - 1) (j - 1)| * (|p i (j - 1)| + |p (i - 1) j|)) / |((12 : ℕ) : ℝ) * dx ^ 2|

theorem jac_ap (hdx : dx.val ≠ 0) : |(jac dx z p i j).val - jac dx.val (ex z) (ex p) i j|
    ≤ (qf u ^ 14 - 1) * jacSize dx.val (ex z) (ex p) i j := by
  have Z : ∀ a b, Ap u 0 (z a b).val (ex z a b) |ex z a b| := fun a b => Ap.leaf _
  have P : ∀ a b, Ap u 0 (p a b).val (ex p a b) |ex p a b| := fun a b => Ap.leaf _
  have d : Iv u 2 (R.mul (12 : ℕ) (R.pow dx.val 2)) ((12 : ℕ) * dx.val ^ 2) :=
    (((Iv.leaf (pow_ne_zero 2 hdx)).round h0 h1 (R.pow_err _)).smul (by norm_num)).round h0 h1 (R.mul_err _ _)
  have four : ∀ a b a1 b1 a2 b2 a3 b3 a4 b4, Ap u 4
      (R.mul (z a b).val (R.sub (R.add (R.sub (p a1 b1).val (p a2 b2).val) (p a3 b3).val) (p a4 b4).val))
      (ex z a b * (ex p a1 b1 - ex p a2 b2 + ex p a3 b3 - ex p a4 b4))
      (|ex z a b| * (|ex p a1 b1| + |ex p a2 b2| + |ex p a3 b3| + |ex p a4 b4|)) :=
    fun a b a1 b1 a2 b2 a3 b3 a4 b4 => (Z a b).mul h0 h1
      ((((P a1 b1).sub h0 h1 (P a2 b2)).add h0 h1 (P a3 b3)).sub h0 h1 (P a4 b4))
  have two : ∀ a b a1 b1 a2 b2, Ap u 2 (R.mul (z a b).val (R.sub (p a1 b1).val (p a2 b2).val))
      (ex z a b * (ex p a1 b1 - ex p a2 b2)) (|ex z a b| * (|ex p a1 b1| + |ex p a2 b2|)) :=
    fun a b a1 b1 a2 b2 => (Z a b).mul h0 h1 ((P a1 b1).sub h0 h1 (P a2 b2))
  have a := ((((((((four i (j + 1) (i + 1) j (i - 1) j (i + 1) (j + 1) (i - 1) (j + 1)).sub (R := R) h0 h1
    (four i (j - 1) (i + 1) j (i - 1) j (i + 1) (j - 1) (i - 1) (j - 1))).sub (R := R) h0 h1
    (four (i + 1) j i (j + 1) i (j - 1) (i + 1) (j + 1) (i + 1) (j - 1))).add (R := R) h0 h1
    (four (i - 1) j i (j + 1) i (j - 1) (i - 1) (j + 1) (i - 1) (j - 1))).add (R := R) h0 h1
    (two (i - 1) (j + 1) i (j + 1) (i - 1) j)).add (R := R) h0 h1
    (two (i + 1) (j + 1) (i + 1) j i (j + 1))).sub (R := R) h0 h1
    (two (i + 1) (j - 1) (i + 1) j i (j - 1))).sub (R := R) h0 h1
    (two (i - 1) (j - 1) i (j - 1) (i - 1) j)).div (R := R) h0 h1 d
  exact a.2

omit h0 h1 in
theorem lapSize_le {M dx : ℝ} {f : ZMod h → ZMod w → ℝ} (hM : ∀ i j, |f i j| ≤ M) (i : ZMod h) (j : ZMod w) :
    lapSize dx f i j ≤ 8 / dx ^ 2 * M := by
  have e : 8 / dx ^ 2 * M = (M + M + 4 * M + M + M) / dx ^ 2 := by ring
  unfold lapSize
  rw [e]
  gcongr <;> apply hM

omit h0 h1 in
theorem jacSize_le {A B dx : ℝ} {z p : ZMod h → ZMod w → ℝ} (hA : ∀ i j, |z i j| ≤ A) (hB : ∀ i j, |p i j| ≤ B)
    (i : ZMod h) (j : ZMod w) : jacSize dx z p i j ≤ 2 * A * B / dx ^ 2 := by
  have hA0 : 0 ≤ A := (abs_nonneg _).trans (hA i j)
  have hB0 : 0 ≤ B := (abs_nonneg _).trans (hB i j)
  have e : 2 * A * B / dx ^ 2 = (A * (B + B + B + B) + A * (B + B + B + B) + A * (B + B + B + B)
      + A * (B + B + B + B) + A * (B + B) + A * (B + B) + A * (B + B) + A * (B + B))
      / |((12 : ℕ) : ℝ) * dx ^ 2| := by
    rw [abs_of_nonneg (by positivity), show A * (B + B + B + B) + A * (B + B + B + B) + A * (B + B + B + B)
      + A * (B + B + B + B) + A * (B + B) + A * (B + B) + A * (B + B) + A * (B + B) = 12 * (2 * A * B) by ring]
    push_cast
    exact (mul_div_mul_left _ _ (by norm_num)).symm
  unfold jacSize
  rw [e]
  gcongr <;> first | apply hA | apply hB

omit h0 h1 in
theorem lap_bound {M dx : ℝ} {f : ZMod h → ZMod w → ℝ} (hM : ∀ i j, |f i j| ≤ M) (i : ZMod h) (j : ZMod w) :
    |lap dx f i j| ≤ 8 / dx ^ 2 * M := by
  refine le_trans ?_ (lapSize_le hM i j)
  unfold lap lapSize
  rw [abs_div, abs_of_nonneg (sq_nonneg dx)]
  gcongr
  refine (abs_add_le _ _).trans (add_le_add ((abs_add_le _ _).trans (add_le_add ((abs_sub _ _).trans
    (add_le_add (abs_add_le _ _) ?_)) le_rfl)) le_rfl)
  rw [abs_mul]; norm_num

omit h0 h1 in
theorem lap_iter_bound {dx : ℝ} (N : ℕ) {M : ℝ} {f : ZMod h → ZMod w → ℝ} (hM : ∀ i j, |f i j| ≤ M) (i : ZMod h)
    (j : ZMod w) : |(lap dx)^[N] f i j| ≤ (8 / dx ^ 2) ^ N * M := by
  induction N generalizing f M with
  | zero => simpa using hM i j
  | succ N ih =>
    rw [Function.iterate_succ_apply]
    exact (ih (lap_bound hM)).trans_eq (by ring)

omit h0 h1 in
theorem lap_sub {dx : ℝ} (f g : ZMod h → ZMod w → ℝ) :
    lap dx (fun i j => f i j - g i j) = fun i j => lap dx f i j - lap dx g i j := by
  funext i j; unfold lap; ring

omit h0 h1 in
theorem lap_iter_sub {dx : ℝ} (N : ℕ) (f g : ZMod h → ZMod w → ℝ) :
    (lap dx)^[N] (fun i j => f i j - g i j) = fun i j => (lap dx)^[N] f i j - (lap dx)^[N] g i j := by
  induction N generalizing f g with
  | zero => rfl
  | succ N ih => rw [Function.iterate_succ_apply, lap_sub, ih]; rfl

theorem lap_iter_ap (hdx : dx.val ≠ 0) (N : ℕ) {M : ℝ} (hM : ∀ i j, |ex f i j| ≤ M) (i : ZMod h) (j : ZMod w) :
    |((lap dx)^[N] f i j).val - (lap dx.val)^[N] (ex f) i j| ≤ (qf u ^ (6 * N) - 1) * ((8 / dx.val ^ 2) ^ N * M) := by
  induction N generalizing f M with
  | zero => simp [ex]
  | succ N ih =>
    rw [Function.iterate_succ_apply, Function.iterate_succ_apply]
    have hq : 1 ≤ qf u ^ 6 := one_le_pow₀ (one_le_qf h0 h1)
    have hqN : 1 ≤ qf u ^ (6 * N) := one_le_pow₀ (one_le_qf h0 h1)
    have hM0 : 0 ≤ M := (abs_nonneg _).trans (hM i j)
    have a1 : ∀ i j, |ex (lap dx f) i j - lap dx.val (ex f) i j| ≤ (qf u ^ 6 - 1) * (8 / dx.val ^ 2 * M) :=
      fun i j => (lap_ap h0 h1 f dx i j hdx).trans
        (mul_le_mul_of_nonneg_left (lapSize_le hM i j) (by linarith))
    have a2 : ∀ i j, |ex (lap dx f) i j| ≤ qf u ^ 6 * (8 / dx.val ^ 2 * M) := fun i j => by
      have t := abs_add_le (ex (lap dx f) i j - lap dx.val (ex f) i j) (lap dx.val (ex f) i j)
      rw [sub_add_cancel] at t
      have := a1 i j
      have := lap_bound (dx := dx.val) hM i j
      linarith
    have b1 := ih (lap dx f) a2
    have b2 := lap_iter_bound (dx := dx.val) N a1 i j
    rw [lap_iter_sub] at b2
    have t := abs_sub_le ((lap dx)^[N] (lap dx f) i j).val ((lap dx.val)^[N] (ex (lap dx f)) i j)
      ((lap dx.val)^[N] (lap dx.val (ex f)) i j)
    calc _ ≤ _ := t
      _ ≤ _ := add_le_add b1 b2
      _ = _ := by rw [show 6 * (N + 1) = 6 * N + 6 by ring, pow_add, pow_succ (8 / dx.val ^ 2)]; ring

end formulas

end Verif.Rounding
