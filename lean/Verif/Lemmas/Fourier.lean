import Verif.Lemmas.TorusSums
import Mathlib.Analysis.Fourier.ZMod
import Mathlib.Analysis.SpecialFunctions.Complex.CircleAddChar

/-!
# Two-dimensional discrete Fourier transform on the torus
-/

set_option linter.unusedSectionVars false

namespace Verif

open Complex ZMod
open scoped ComplexConjugate

variable {h w : ℕ} [NeZero h] [NeZero w]

/-- the characters `e^{2πi a/n}` -/
noncomputable abbrev ec {n : ℕ} [NeZero n] (a : ZMod n) : ℂ := stdAddChar a

theorem ec_add {n : ℕ} [NeZero n] (a b : ZMod n) : ec (a + b) = ec a * ec b :=
  AddChar.map_add_eq_mul _ a b
theorem ec_zero {n : ℕ} [NeZero n] : ec (0 : ZMod n) = 1 := AddChar.map_zero_eq_one _
theorem ec_conj {n : ℕ} [NeZero n] (a : ZMod n) : conj (ec a) = ec (-a) := by
  change conj (stdAddChar a) = stdAddChar (-a)
  rw [stdAddChar_apply, stdAddChar_apply, AddChar.map_neg_eq_inv, Circle.coe_inv_eq_conj]
theorem ec_exp {n : ℕ} [NeZero n] (a b : ℕ) :
    ec ((a : ZMod n) * (b : ZMod n)) = exp (2 * Real.pi * I * (a * b / n)) := by
  have := stdAddChar_coe (N := n) ((a : ℤ) * (b : ℤ))
  push_cast at this
  rw [ec, this]; congr 1; ring
theorem ec_neg_exp {n : ℕ} [NeZero n] (a b : ℕ) :
    ec (-((a : ZMod n) * (b : ZMod n))) = exp (-(2 * Real.pi * I * (a * b / n))) := by
  have := stdAddChar_coe (N := n) (-((a : ℤ) * (b : ℤ)))
  push_cast at this
  rw [ec, this]; congr 1; ring

/-- forward transform -/
noncomputable def D (f : ZMod h → ZMod w → ℂ) : ZMod h → ZMod w → ℂ := fun k l =>
  S fun i j => f i j * (ec (-(k * i)) * ec (-(l * j)))

/-- inverse transform -/
noncomputable def ID (g : ZMod h → ZMod w → ℂ) : ZMod h → ZMod w → ℂ := fun i j =>
  (S fun k l => g k l * (ec (i * k) * ec (j * l))) / ((h : ℂ) * (w : ℂ))

theorem D_eq_dft (f : ZMod h → ZMod w → ℂ) : D f = dft (fun i => dft (f i)) := by
  funext k l
  rw [dft_apply]
  simp only [D, S, Finset.sum_apply, Pi.smul_apply, dft_apply, smul_eq_mul, Finset.mul_sum]
  refine Finset.sum_congr rfl fun i _ => Finset.sum_congr rfl fun j _ => ?_
  rw [mul_comm k i, mul_comm l j]; ring

theorem ID_eq_dft (g : ZMod h → ZMod w → ℂ) : ID g = fun i => dft.symm (dft.symm g i) := by
  funext i j
  rw [invDFT_apply, invDFT_apply]
  simp only [ID, S, Finset.sum_apply, Pi.smul_apply, smul_eq_mul, Finset.mul_sum]
  rw [Finset.sum_comm, Finset.sum_div]
  refine Finset.sum_congr rfl fun l _ => ?_
  rw [Finset.sum_div]
  refine Finset.sum_congr rfl fun k _ => ?_
  rw [mul_comm i k, mul_comm j l]
  have : ((h : ℂ)) ≠ 0 := Nat.cast_ne_zero.mpr (NeZero.ne h)
  have : ((w : ℂ)) ≠ 0 := Nat.cast_ne_zero.mpr (NeZero.ne w)
  field_simp

theorem ID_D (f : ZMod h → ZMod w → ℂ) : ID (D f) = f := by
  rw [ID_eq_dft, D_eq_dft]
  simp

theorem D_ID (g : ZMod h → ZMod w → ℂ) : D (ID g) = g := by
  rw [ID_eq_dft, D_eq_dft]
  simp

theorem D_inj {f g : ZMod h → ZMod w → ℂ} (e : D f = D g) : f = g := by
  rw [← ID_D f, e, ID_D]

theorem D_add (f g : ZMod h → ZMod w → ℂ) : D (fun i j => f i j + g i j) = fun k l => D f k l + D g k l := by
  funext k l
  unfold D
  rw [← S_add]; exact S_congr fun i j => by ring
theorem D_sub (f g : ZMod h → ZMod w → ℂ) : D (fun i j => f i j - g i j) = fun k l => D f k l - D g k l := by
  funext k l
  unfold D
  rw [← S_sub]; exact S_congr fun i j => by ring
theorem D_smul (c : ℂ) (f : ZMod h → ZMod w → ℂ) : D (fun i j => c * f i j) = fun k l => c * D f k l := by
  funext k l
  unfold D
  rw [← S_mul_left]; exact S_congr fun i j => by ring
theorem ID_smul (c : ℂ) (f : ZMod h → ZMod w → ℂ) : ID (fun i j => c * f i j) = fun k l => c * ID f k l := by
  funext k l
  unfold ID
  rw [← mul_div_assoc, ← S_mul_left]; congr 1; exact S_congr fun i j => by ring
theorem ID_add (f g : ZMod h → ZMod w → ℂ) : ID (fun i j => f i j + g i j) = fun k l => ID f k l + ID g k l := by
  funext k l
  unfold ID
  rw [← add_div, ← S_add]; congr 1; exact S_congr fun i j => by ring

theorem D_zero_zero (f : ZMod h → ZMod w → ℂ) : D f 0 0 = S f := by
  unfold D; exact S_congr fun i j => by simp

/-- transform of a translate -/
theorem D_shift (f : ZMod h → ZMod w → ℂ) (s : ZMod h) (t : ZMod w) (k : ZMod h) (l : ZMod w) :
    D (Spec.shift s t f) k l = ec (-(k * s)) * ec (-(l * t)) * D f k l := by
  unfold D
  rw [← S_mul_left, ← S_shift _ s t]
  refine S_congr fun i j => ?_
  simp only [Spec.shift, add_sub_cancel_right, mul_add, neg_add, ec_add]
  ring

theorem ID_shift (g : ZMod h → ZMod w → ℂ) (s : ZMod h) (t : ZMod w) (i : ZMod h) (j : ZMod w) :
    ID (fun k l => ec (-(k * s)) * ec (-(l * t)) * g k l) i j = ID g (i - s) (j - t) := by
  unfold ID
  congr 1
  refine S_congr fun k l => ?_
  rw [show (i - s) * k = i * k + -(k * s) by ring, show (j - t) * l = j * l + -(l * t) by ring,
    ec_add, ec_add]
  ring

/-- Hermitian symmetry of the transform of a real field -/
theorem D_real_symm (f : ZMod h → ZMod w → ℝ) (k : ZMod h) (l : ZMod w) :
    D (fun i j => (f i j : ℂ)) (-k) (-l) = conj (D (fun i j => (f i j : ℂ)) k l) := by
  unfold D S
  rw [map_sum]
  refine Finset.sum_congr rfl fun i _ => ?_
  rw [map_sum]
  refine Finset.sum_congr rfl fun j _ => ?_
  simp [ec_conj]

/-- inverse transform of Hermitian data is real -/
theorem ID_real (g : ZMod h → ZMod w → ℂ) (hg : ∀ k l, g (-k) (-l) = conj (g k l)) (i : ZMod h)
    (j : ZMod w) : conj (ID g i j) = ID g i j := by
  unfold ID
  rw [map_div₀, map_mul, conj_natCast, conj_natCast]
  congr 1
  have e : S (fun k l => g k l * (ec (i * k) * ec (j * l)))
      = S (fun k l => g (-k) (-l) * (ec (i * -k) * ec (j * -l))) := by
    unfold S
    rw [← Equiv.sum_comp (Equiv.neg (ZMod h))]
    refine Finset.sum_congr rfl fun k _ => ?_
    rw [← Equiv.sum_comp (Equiv.neg (ZMod w))]
    rfl
  conv_rhs => rw [e]
  unfold S
  rw [map_sum]
  refine Finset.sum_congr rfl fun k _ => ?_
  rw [map_sum]
  refine Finset.sum_congr rfl fun l _ => ?_
  rw [map_mul, map_mul, ec_conj, ec_conj, ← hg]
  simp

theorem ID_real_re (g : ZMod h → ZMod w → ℂ) (hg : ∀ k l, g (-k) (-l) = conj (g k l)) (i : ZMod h)
    (j : ZMod w) : (((ID g i j).re : ℝ) : ℂ) = ID g i j :=
  conj_eq_iff_re.mp (ID_real g hg i j)

/-- Parseval -/
theorem parseval (f g : ZMod h → ZMod w → ℂ) :
    S (fun k l => D f k l * conj (D g k l)) = (h : ℂ) * (w : ℂ) * S (fun i j => f i j * conj (g i j)) := by
  have hh : ((h : ℂ)) ≠ 0 := Nat.cast_ne_zero.mpr (NeZero.ne h)
  have hw : ((w : ℂ)) ≠ 0 := Nat.cast_ne_zero.mpr (NeZero.ne w)
  have e1 : ∀ k l, D f k l * conj (D g k l)
      = ∑ p : ZMod h × ZMod w, f p.1 p.2 * ((ec (-(k * p.1)) * ec (-(l * p.2))) * conj (D g k l)) := by
    intro k l
    rw [Fintype.sum_prod_type, D, S, Finset.sum_mul]
    refine Finset.sum_congr rfl fun i _ => ?_
    rw [Finset.sum_mul]
    exact Finset.sum_congr rfl fun j _ => by ring
  have e2 : S (fun k l => D f k l * conj (D g k l))
      = ∑ p : ZMod h × ZMod w, ∑ q : ZMod h × ZMod w,
        f p.1 p.2 * ((ec (-(q.1 * p.1)) * ec (-(q.2 * p.2))) * conj (D g q.1 q.2)) := by
    rw [Finset.sum_comm, Fintype.sum_prod_type]
    exact Finset.sum_congr rfl fun k _ => Finset.sum_congr rfl fun l _ => e1 k l
  rw [e2, Fintype.sum_prod_type]
  unfold S
  rw [Finset.mul_sum]
  refine Finset.sum_congr rfl fun i _ => ?_
  rw [Finset.mul_sum]
  refine Finset.sum_congr rfl fun j _ => ?_
  rw [← Finset.mul_sum]
  have e3 : conj (g i j) = (∑ q : ZMod h × ZMod w,
      (ec (-(q.1 * i)) * ec (-(q.2 * j))) * conj (D g q.1 q.2)) / ((h : ℂ) * w) := by
    conv_lhs => rw [← ID_D g]
    unfold ID
    rw [map_div₀, map_mul, conj_natCast, conj_natCast]
    congr 1
    rw [S, map_sum, Fintype.sum_prod_type]
    refine Finset.sum_congr rfl fun k _ => ?_
    rw [map_sum]
    refine Finset.sum_congr rfl fun l _ => ?_
    rw [map_mul, map_mul, ec_conj, ec_conj, mul_comm i k, mul_comm j l]; ring
  change f i j * _ = (h : ℂ) * w * (f i j * conj (g i j))
  rw [e3]
  field_simp

end Verif
