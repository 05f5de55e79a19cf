import Verif.Lemmas.Spectral
import Mathlib.Analysis.SpecialFunctions.Trigonometric.Bounds
import Mathlib.Algebra.Order.Chebyshev

/-!
# Estimates for convergence: Arakawa's bracket, differences and the potential
-/

set_option linter.unusedSectionVars false

namespace Verif

open Spec Arr Complex
open scoped ComplexConjugate

variable {h w : ℕ} [NeZero h] [NeZero w]

/-- sum of squares -/
noncomputable def Q (f : Fld h w) : ℝ := S fun i j => f i j ^ 2

theorem Q_nonneg (f : Fld h w) : 0 ≤ Q f := S_nonneg fun _ _ => sq_nonneg _

theorem Q_shift (f : Fld h w) (a : ZMod h) (b : ZMod w) : Q (fun i j => f (i + a) (j + b)) = Q f :=
  S_shift (fun i j => f i j ^ 2) a b

theorem Q_add_le (f g : Fld h w) : Q (fun i j => f i j + g i j) ≤ 2 * Q f + 2 * Q g := by
  unfold Q
  rw [← S_mul_left, ← S_mul_left, ← S_add]
  exact S_le fun i j => by nlinarith [sq_nonneg (f i j - g i j)]

theorem Q_bound {f : Fld h w} {M : ℝ} (hM : ∀ i j, |f i j| ≤ M) : Q f ≤ (h : ℝ) * (w : ℝ) * M ^ 2 := by
  unfold Q
  rw [← S_const]
  refine S_le fun i j => ?_
  rw [← sq_abs]
  exact pow_le_pow_left₀ (abs_nonneg _) (hM i j) 2

/-- Young's inequality -/
theorem S_mul_le (f g : Fld h w) : 2 * S (fun i j => f i j * g i j) ≤ Q f + Q g := by
  unfold Q
  rw [← S_mul_left, ← S_add]
  exact S_le fun i j => by nlinarith [sq_nonneg (f i j - g i j)]

theorem S_mul_abs_le (c : ℝ) (f g : Fld h w) :
    2 * (c * S (fun i j => f i j * g i j)) ≤ |c| * (Q f + Q g) := by
  have h1 := S_mul_le f g
  have h2 := S_mul_le f (fun i j => - g i j)
  have e : S (fun i j => f i j * - g i j) = - S (fun i j => f i j * g i j) := by
    rw [← S_neg]; exact S_congr fun i j => by ring
  have e2 : Q (fun i j => - g i j) = Q g := S_congr fun i j => by ring
  rw [e, e2] at h2
  rcases abs_cases c with ⟨e, h0⟩ | ⟨e, h0⟩ <;> rw [e] <;> nlinarith

theorem dirichlet_eq (z : Fld h w) :
    dirichlet z z = Q (fun i j => z (i + 1) j - z i j) + Q (fun i j => z i (j + 1) - z i j) := by
  unfold dirichlet Q
  rw [← S_add]; exact S_congr fun i j => by ring

theorem cauchy8 {c1 c2 c3 c4 c5 c6 c7 c8 d1 d2 d3 d4 d5 d6 d7 d8 M : ℝ}
    (h1 : |c1| ≤ M) (h2 : |c2| ≤ M) (h3 : |c3| ≤ M) (h4 : |c4| ≤ M) (h5 : |c5| ≤ M) (h6 : |c6| ≤ M)
    (h7 : |c7| ≤ M) (h8 : |c8| ≤ M) :
    (c1 * d1 + c2 * d2 + c3 * d3 + c4 * d4 + c5 * d5 + c6 * d6 + c7 * d7 + c8 * d8) ^ 2
      ≤ 8 * M ^ 2 * (d1 ^ 2 + d2 ^ 2 + d3 ^ 2 + d4 ^ 2 + d5 ^ 2 + d6 ^ 2 + d7 ^ 2 + d8 ^ 2) := by
  have k : ∀ {c d : ℝ}, |c| ≤ M → (c * d) ^ 2 ≤ M ^ 2 * d ^ 2 := by
    intro c d hc
    rw [mul_pow]
    refine mul_le_mul_of_nonneg_right ?_ (sq_nonneg _)
    rw [← sq_abs]
    exact pow_le_pow_left₀ (abs_nonneg _) hc 2
  have k1 := k (d := d1) h1
  have k2 := k (d := d2) h2
  have k3 := k (d := d3) h3
  have k4 := k (d := d4) h4
  have k5 := k (d := d5) h5
  have k6 := k (d := d6) h6
  have k7 := k (d := d7) h7
  have k8 := k (d := d8) h8
  have c : ∀ f : Fin 8 → ℝ, (∑ i, f i) ^ 2 ≤ 8 * ∑ i, f i ^ 2 := by
    intro f
    have := sq_sum_le_card_mul_sum_sq (s := (Finset.univ : Finset (Fin 8))) (f := f)
    simpa using this
  have := c ![c1 * d1, c2 * d2, c3 * d3, c4 * d4, c5 * d5, c6 * d6, c7 * d7, c8 * d8]
  simp [Fin.sum_univ_succ] at this
  nlinarith

theorem abs_add_of {a b A B : ℝ} (ha : |a| ≤ A) (hb : |b| ≤ B) : |a + b| ≤ A + B :=
  (abs_add_le _ _).trans (add_le_add ha hb)

theorem sq_sub_le (a b : ℝ) : (a - b) ^ 2 ≤ 2 * b ^ 2 + 2 * a ^ 2 := by nlinarith [sq_nonneg (a + b)]
theorem sq_add_le (a b : ℝ) : (a + b) ^ 2 ≤ 2 * b ^ 2 + 2 * a ^ 2 := by nlinarith [sq_nonneg (a - b)]

/-- the bracket with a field of bounded differences is controlled by the differences of the other -/
theorem jac_sq_le {dx M : ℝ} (hdx : 0 < dx) (z p : Fld h w)
    (hy : ∀ i j, |p (i + 1) j - p i j| ≤ M) (hx : ∀ i j, |p i (j + 1) - p i j| ≤ M) :
    Q (jac dx z p) ≤ 80 / 9 * M ^ 2 / dx ^ 4 * dirichlet z z := by
  set gy : Fld h w := fun i j => z (i + 1) j - z i j with hgy
  set gx : Fld h w := fun i j => z i (j + 1) - z i j with hgx
  have key : ∀ i j, jac dx z p i j ^ 2 ≤ 8 / 9 * M ^ 2 / dx ^ 4 *
      ((gx i j ^ 2 + gx i (j - 1) ^ 2 + gy i j ^ 2 + gy (i - 1) j ^ 2)
        + (2 * gy (i - 1) j ^ 2 + 2 * gx (i - 1) j ^ 2)
        + (2 * gy i j ^ 2 + 2 * gx (i + 1) j ^ 2)
        + (2 * gy i j ^ 2 + 2 * gx (i + 1) (j - 1) ^ 2)
        + (2 * gy (i - 1) j ^ 2 + 2 * gx (i - 1) (j - 1) ^ 2)) := by
    intro i j
    have sy : ∀ i j, |p i j - p (i - 1) j| ≤ M := fun i j => by
      have := hy (i - 1) j; rwa [sub_add_cancel] at this
    have sx : ∀ i j, |p i j - p i (j - 1)| ≤ M := fun i j => by
      have := hx i (j - 1); rwa [sub_add_cancel] at this
    have c1 : |p (i + 1) j - p (i - 1) j + p (i + 1) (j + 1) - p (i - 1) (j + 1)| ≤ 4 * M := by
      have := abs_add_of (abs_add_of (hy i j) (sy i j)) (abs_add_of (hy i (j + 1)) (sy i (j + 1)))
      calc _ = _ := congrArg _ (by ring)
        _ ≤ _ := this
        _ = 4 * M := by ring
    have c2 : |p (i + 1) j - p (i - 1) j + p (i + 1) (j - 1) - p (i - 1) (j - 1)| ≤ 4 * M := by
      have := abs_add_of (abs_add_of (hy i j) (sy i j)) (abs_add_of (hy i (j - 1)) (sy i (j - 1)))
      calc _ = _ := congrArg _ (by ring)
        _ ≤ _ := this
        _ = 4 * M := by ring
    have c3 : |p i (j + 1) - p i (j - 1) + p (i + 1) (j + 1) - p (i + 1) (j - 1)| ≤ 4 * M := by
      have := abs_add_of (abs_add_of (hx i j) (sx i j)) (abs_add_of (hx (i + 1) j) (sx (i + 1) j))
      calc _ = _ := congrArg _ (by ring)
        _ ≤ _ := this
        _ = 4 * M := by ring
    have c4 : |p i (j + 1) - p i (j - 1) + p (i - 1) (j + 1) - p (i - 1) (j - 1)| ≤ 4 * M := by
      have := abs_add_of (abs_add_of (hx i j) (sx i j)) (abs_add_of (hx (i - 1) j) (sx (i - 1) j))
      calc _ = _ := congrArg _ (by ring)
        _ ≤ _ := this
        _ = 4 * M := by ring
    have hM : 0 ≤ M := (abs_nonneg _).trans (hy i j)
    have c5 : |p i (j + 1) - p (i - 1) j| ≤ 4 * M := by
      have := abs_add_of (hx i j) (sy i j)
      calc _ = _ := congrArg _ (by ring)
        _ ≤ _ := this
        _ ≤ 4 * M := by linarith
    have c6 : |p (i + 1) j - p i (j + 1)| ≤ 4 * M := by
      have a := hx i j
      rw [abs_sub_comm] at a
      have := abs_add_of (hy i j) a
      calc _ = _ := congrArg _ (by ring)
        _ ≤ _ := this
        _ ≤ 4 * M := by linarith
    have c7 : |p (i + 1) j - p i (j - 1)| ≤ 4 * M := by
      have := abs_add_of (hy i j) (sx i j)
      calc _ = _ := congrArg _ (by ring)
        _ ≤ _ := this
        _ ≤ 4 * M := by linarith
    have c8 : |p i (j - 1) - p (i - 1) j| ≤ 4 * M := by
      have a := sx i j
      rw [abs_sub_comm] at a
      have := abs_add_of (sy i j) a
      calc _ = _ := congrArg _ (by ring)
        _ ≤ _ := this
        _ ≤ 4 * M := by linarith
    have e : jac dx z p i j =
        ((p (i + 1) j - p (i - 1) j + p (i + 1) (j + 1) - p (i - 1) (j + 1)) * gx i j
        + (p (i + 1) j - p (i - 1) j + p (i + 1) (j - 1) - p (i - 1) (j - 1)) * gx i (j - 1)
        + (p i (j + 1) - p i (j - 1) + p (i + 1) (j + 1) - p (i + 1) (j - 1)) * - gy i j
        + (p i (j + 1) - p i (j - 1) + p (i - 1) (j + 1) - p (i - 1) (j - 1)) * - gy (i - 1) j
        + (p i (j + 1) - p (i - 1) j) * (gx (i - 1) j - gy (i - 1) j)
        + (p (i + 1) j - p i (j + 1)) * (gx (i + 1) j + gy i j)
        + (p (i + 1) j - p i (j - 1)) * (gx (i + 1) (j - 1) - gy i j)
        + (p i (j - 1) - p (i - 1) j) * (gx (i - 1) (j - 1) + gy (i - 1) j)) / (12 * dx ^ 2) := by
      unfold jac
      push_cast
      congr 1
      simp only [hgx, hgy, sub_add_cancel]
      ring
    rw [e, div_pow, div_le_iff₀ (by positivity)]
    refine (cauchy8 c1 c2 c3 c4 c5 c6 c7 c8).trans ?_
    have e2 : 8 / 9 * M ^ 2 / dx ^ 4 *
      ((gx i j ^ 2 + gx i (j - 1) ^ 2 + gy i j ^ 2 + gy (i - 1) j ^ 2)
        + (2 * gy (i - 1) j ^ 2 + 2 * gx (i - 1) j ^ 2)
        + (2 * gy i j ^ 2 + 2 * gx (i + 1) j ^ 2)
        + (2 * gy i j ^ 2 + 2 * gx (i + 1) (j - 1) ^ 2)
        + (2 * gy (i - 1) j ^ 2 + 2 * gx (i - 1) (j - 1) ^ 2)) * (12 * dx ^ 2) ^ 2
        = 8 * (4 * M) ^ 2 * ((gx i j ^ 2 + gx i (j - 1) ^ 2 + gy i j ^ 2 + gy (i - 1) j ^ 2)
        + (2 * gy (i - 1) j ^ 2 + 2 * gx (i - 1) j ^ 2)
        + (2 * gy i j ^ 2 + 2 * gx (i + 1) j ^ 2)
        + (2 * gy i j ^ 2 + 2 * gx (i + 1) (j - 1) ^ 2)
        + (2 * gy (i - 1) j ^ 2 + 2 * gx (i - 1) (j - 1) ^ 2)) := by
      field_simp; ring
    rw [e2]
    refine mul_le_mul_of_nonneg_left ?_ (by positivity)
    have q1 := sq_sub_le (gx (i - 1) j) (gy (i - 1) j)
    have q2 := sq_add_le (gx (i + 1) j) (gy i j)
    have q3 := sq_sub_le (gx (i + 1) (j - 1)) (gy i j)
    have q4 := sq_add_le (gx (i - 1) (j - 1)) (gy (i - 1) j)
    rw [neg_sq, neg_sq]
    linarith
  have s : ∀ (f : Fld h w) (a : ZMod h) (b : ZMod w), S (fun i j => f (i + a) (j + b) ^ 2) = Q f :=
    fun f a b => Q_shift f a b
  refine (S_le key).trans_eq ?_
  rw [S_mul_left]
  simp only [S_add, S_mul_left]
  have t1 : S (fun i j => gx i (j - 1) ^ 2) = Q gx := by simpa [sub_eq_add_neg] using s gx 0 (-1)
  have t2 : S (fun i j => gy (i - 1) j ^ 2) = Q gy := by simpa [sub_eq_add_neg] using s gy (-1) 0
  have t3 : S (fun i j => gx (i - 1) j ^ 2) = Q gx := by simpa [sub_eq_add_neg] using s gx (-1) 0
  have t4 : S (fun i j => gx (i + 1) j ^ 2) = Q gx := by simpa using s gx 1 0
  have t5 : S (fun i j => gx (i + 1) (j - 1) ^ 2) = Q gx := by simpa [sub_eq_add_neg] using s gx 1 (-1)
  have t6 : S (fun i j => gx (i - 1) (j - 1) ^ 2) = Q gx := by simpa [sub_eq_add_neg] using s gx (-1) (-1)
  rw [t1, t2, t3, t4, t5, t6, dirichlet_eq]
  change _ * ((Q gx + Q gx + Q gy + Q gy) + _ + (2 * Q gy + _) + (2 * Q gy + _) + _) = _
  ring

theorem gradY_sq_le {dx : ℝ} (hdx : 0 < dx) (z : Fld h w) :
    Q (gradY dx z) ≤ dirichlet z z / dx ^ 2 := by
  set gy : Fld h w := fun i j => z (i + 1) j - z i j with hgy
  have key : ∀ i j, gradY dx z i j ^ 2 ≤ (1 / (2 * dx ^ 2)) * (gy i j ^ 2 + gy (i - 1) j ^ 2) := by
    intro i j
    have e : gradY dx z i j = (gy i j + gy (i - 1) j) / (2 * dx) := by
      unfold gradY
      push_cast
      congr 1
      simp only [hgy, sub_add_cancel]; ring
    rw [e, div_pow, div_le_iff₀ (by positivity)]
    have e2 : 1 / (2 * dx ^ 2) * (gy i j ^ 2 + gy (i - 1) j ^ 2) * (2 * dx) ^ 2
        = 2 * (gy i j ^ 2 + gy (i - 1) j ^ 2) := by field_simp
    rw [e2]
    nlinarith [sq_nonneg (gy i j - gy (i - 1) j)]
  refine (S_le key).trans ?_
  rw [S_mul_left, S_add]
  have t2 : S (fun i j => gy (i - 1) j ^ 2) = Q gy := by
    have := Q_shift gy (-1) 0
    simpa [sub_eq_add_neg, Q] using this
  rw [t2, dirichlet_eq]
  change 1 / (2 * dx ^ 2) * (Q gy + Q gy) ≤ _
  have := Q_nonneg (fun i j => z i (j + 1) - z i j : Fld h w)
  rw [le_div_iff₀ (by positivity)]
  have e : 1 / (2 * dx ^ 2) * (Q gy + Q gy) * dx ^ 2 = Q gy := by field_simp; ring
  rw [e]
  linarith

/-! ### spectral estimates -/

theorem norm_ec_one {n : ℕ} [NeZero n] (k : ZMod n) : ‖ec k - 1‖ ^ 2 = 4 * Real.sin (Real.pi * kap k) ^ 2 := by
  rw [ec_kap]
  have e : I * ((2 * Real.pi * kap k : ℝ) : ℂ) = ((2 * Real.pi * kap k : ℝ) : ℂ) * I := mul_comm _ _
  rw [e, exp_mul_I, ← ofReal_cos, ← ofReal_sin]
  have e2 : ((Real.cos (2 * Real.pi * kap k) : ℝ) : ℂ) + ((Real.sin (2 * Real.pi * kap k) : ℝ) : ℂ) * I - 1
      = ((Real.cos (2 * Real.pi * kap k) - 1 : ℝ) : ℂ) + ((Real.sin (2 * Real.pi * kap k) : ℝ) : ℂ) * I := by
    push_cast; ring
  rw [e2, Complex.sq_norm, normSq_add_mul_I]
  have e3 : 2 * Real.pi * kap k = 2 * (Real.pi * kap k) := by ring
  rw [e3, Real.cos_two_mul, Real.sin_two_mul]
  have := Real.sin_sq_add_cos_sq (Real.pi * kap k)
  have h1 : Real.cos (Real.pi * kap k) ^ 2 = 1 - Real.sin (Real.pi * kap k) ^ 2 := by linarith
  calc _ = 4 * (1 - Real.cos (Real.pi * kap k) ^ 2) ^ 2
        + 4 * Real.sin (Real.pi * kap k) ^ 2 * Real.cos (Real.pi * kap k) ^ 2 := by ring
    _ = _ := by rw [h1]; ring

theorem D_fdY (f : Fld h w) (k : ZMod h) (l : ZMod w) :
    D (cx fun i j => f (i + 1) j - f i j) k l = (ec k - 1) * D (cx f) k l := by
  have e : (cx fun i j => f (i + 1) j - f i j) = fun i j => shift (-1) 0 (cx f) i j - cx f i j := by
    funext i j
    simp only [shift, sub_neg_eq_add, sub_zero, cx]; push_cast; ring
  rw [e, D_sub]
  beta_reduce
  rw [D_shift]
  simp only [mul_neg, mul_one, neg_neg, mul_zero, neg_zero, ec_zero]
  ring

theorem D_fdX (f : Fld h w) (k : ZMod h) (l : ZMod w) :
    D (cx fun i j => f i (j + 1) - f i j) k l = (ec l - 1) * D (cx f) k l := by
  have e : (cx fun i j => f i (j + 1) - f i j) = fun i j => shift 0 (-1) (cx f) i j - cx f i j := by
    funext i j
    simp only [shift, sub_neg_eq_add, sub_zero, cx]; push_cast; ring
  rw [e, D_sub]
  beta_reduce
  rw [D_shift]
  simp only [mul_neg, mul_one, neg_neg, mul_zero, neg_zero, ec_zero]
  ring

theorem Q_parseval (f : Fld h w) : S (fun k l => ‖D (cx f) k l‖ ^ 2) = (h : ℝ) * (w : ℝ) * Q f :=
  parseval_sq f

theorem dirichlet_le_spectral (p : Fld h w) :
    (h : ℝ) * (w : ℝ) * dirichlet p p ≤ S (fun k l => -lamb k l * ‖D (cx p) k l‖ ^ 2) := by
  rw [dirichlet_eq, mul_add, ← Q_parseval, ← Q_parseval, ← S_add]
  refine S_le fun k l => ?_
  rw [D_fdY, D_fdX, norm_mul, norm_mul, mul_pow, mul_pow, norm_ec_one, norm_ec_one, ← add_mul]
  refine mul_le_mul_of_nonneg_right ?_ (sq_nonneg _)
  have s : ∀ x : ℝ, Real.sin x ^ 2 ≤ x ^ 2 := fun x => by
    rw [← sq_abs, ← sq_abs x]
    exact pow_le_pow_left₀ (abs_nonneg _) Real.abs_sin_le_abs 2
  have h1 := s (Real.pi * kap k)
  have h2 := s (Real.pi * kap l)
  unfold lamb
  nlinarith

end Verif
