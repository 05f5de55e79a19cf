import Verif.Model.Downsample
import Verif.Spec.Downsample
import Mathlib.Analysis.SpecialFunctions.Complex.Log
import Mathlib.Algebra.Ring.GeomSum
import Mathlib.Tactic.FieldSimp
import Mathlib.Tactic.Ring
import Mathlib.Tactic.LinearCombination
import Mathlib.Tactic.Positivity

/-!
# Lemmas about resampling
-/

namespace Verif.Downsample

open Complex Spec

/-- `exp (2 π i z)` -/
noncomputable def e1 (z : ℂ) : ℂ := exp (2 * Real.pi * I * z)

theorem e1_add (a b : ℂ) : e1 (a + b) = e1 a * e1 b := by
  unfold e1; rw [← exp_add]; ring_nf

theorem e1_zero : e1 0 = 1 := by simp [e1]

theorem e1_int (a : ℤ) : e1 a = 1 := by
  unfold e1
  rw [exp_eq_one_iff]
  exact ⟨a, by ring⟩

/-- sums over a period -/
theorem sum_e1 (n : ℕ) (hn : 0 < n) (a : ℤ) :
    ∑ m ∈ Finset.range n, e1 ((a : ℂ) * m / n) = if (n : ℤ) ∣ a then (n : ℂ) else 0 := by
  have hn0 : (n : ℂ) ≠ 0 := by exact_mod_cast hn.ne'
  have hpow : ∀ m : ℕ, e1 ((a : ℂ) * m / n) = e1 ((a : ℂ) / n) ^ m := by
    intro m
    unfold e1
    rw [← exp_nat_mul]; ring_nf
  simp only [hpow]
  split_ifs with h
  · obtain ⟨c, rfl⟩ := h
    have : e1 (((n * c : ℤ) : ℂ) / n) = 1 := by
      rw [show ((((n : ℤ) * c : ℤ) : ℂ) / n) = ((c : ℤ) : ℂ) by push_cast; field_simp]
      exact e1_int c
    rw [this]; simp
  · have hne : e1 ((a : ℂ) / n) ≠ 1 := by
      intro h1
      unfold e1 at h1
      rw [exp_eq_one_iff] at h1
      obtain ⟨c, hc⟩ := h1
      apply h
      refine ⟨c, ?_⟩
      have hpi : (2 * Real.pi * I : ℂ) ≠ 0 := by simp [Real.pi_ne_zero]
      have h2 : (a : ℂ) / n = c := mul_left_cancel₀ hpi (by rw [hc]; ring)
      rw [div_eq_iff hn0] at h2
      have h3 : ((a : ℤ) : ℂ) = ((n * c : ℤ) : ℂ) := by rw [h2]; push_cast; ring
      exact_mod_cast h3
    rw [geom_sum_eq hne, ← hpow n, mul_div_assoc, div_self hn0, mul_one, e1_int]
    simp

/-- sum of the coefficients of a period -/
theorem sum_e1_lt (n : ℕ) (k : ℕ) (h0 : 0 < k) (hk : k < n) :
    ∑ j ∈ Finset.range n, e1 ((k : ℂ) * j / n) = 0 := by
  have := sum_e1 n (by omega) k
  rw [if_neg] at this
  · simpa using this
  · intro h
    have := Int.le_of_dvd (by omega) h
    omega

theorem re_sum (s : Finset ℕ) (f : ℕ → ℂ) : (∑ i ∈ s, f i).re = ∑ i ∈ s, (f i).re := by
  simp

theorem sum_alt (m : ℕ) : ∑ j ∈ Finset.range (2 * m), (-1 : ℝ) ^ j = 0 := by
  induction m with
  | zero => simp
  | succ m ih =>
    rw [show 2 * (m + 1) = 2 * m + 1 + 1 by ring, Finset.sum_range_succ, Finset.sum_range_succ, ih]
    rw [pow_succ]; ring

theorem sum_irfft (num : ℕ) (h : 0 < num) (Y : ℕ → ℂ) :
    ∑ j ∈ Finset.range num, irfft num Y j = (Y 0).re := by
  unfold irfft
  rw [← Finset.sum_div, Finset.sum_add_distrib, Finset.sum_add_distrib]
  have h1 : ∑ j ∈ Finset.range num, ∑ k ∈ Finset.Ico 1 ((num + 1) / 2),
      2 * (Y k * exp (2 * Real.pi * I * ((k : ℂ) * (j : ℂ) / (num : ℂ)))).re = 0 := by
    rw [Finset.sum_comm]
    refine Finset.sum_eq_zero fun k hk => ?_
    rw [Finset.mem_Ico] at hk
    rw [← Finset.mul_sum, ← re_sum, ← Finset.mul_sum]
    have := sum_e1_lt num k (by omega) (by omega)
    unfold e1 at this
    rw [this]; simp
  have h2 : ∑ j ∈ Finset.range num, (if num % 2 = 0 then (Y (num / 2)).re * (-1 : ℝ) ^ j else 0) = 0 := by
    by_cases hp : num % 2 = 0
    · simp only [hp, if_true]
      rw [← Finset.mul_sum, show num = 2 * (num / 2) by omega, sum_alt]; simp
    · simp [hp]
  rw [h1, h2]
  simp only [Finset.sum_const, Finset.card_range, nsmul_eq_mul, add_zero]
  have : (num : ℝ) ≠ 0 := by exact_mod_cast h.ne'
  field_simp

theorem spectrum_zero (n num : ℕ) (hn : 0 < n) (h : 0 < num) (X : ℕ → ℂ) : resampleSpectrum n num X 0 = X 0 := by
  unfold resampleSpectrum
  simp only
  rw [if_pos (by omega), if_neg (by rintro ⟨a, b⟩; have : 0 < min num n := lt_min h hn; omega)]

/-- Resampling preserves the mean. -/
theorem resample1_mean (n num : ℕ) (hn : 0 < n) (h : 0 < num) (x : ℕ → ℝ) :
    (∑ j ∈ Finset.range num, resample1 n num x j) / num = (∑ m ∈ Finset.range n, x m) / n := by
  unfold resample1
  rw [← Finset.sum_mul, sum_irfft _ h, spectrum_zero _ _ hn h]
  have : (rfft n x 0).re = ∑ m ∈ Finset.range n, x m := by
    unfold rfft
    rw [re_sum]
    exact Finset.sum_congr rfl fun m _ => by simp
  rw [this]
  have h1 : (num : ℝ) ≠ 0 := by exact_mod_cast h.ne'
  have h2 : (n : ℝ) ≠ 0 := by exact_mod_cast hn.ne'
  field_simp

/-- a real wave as a sum of complex waves -/
theorem wave_eq (a b : ℝ) (k : ℕ) (t : ℝ) :
    ((a * Real.cos (2 * Real.pi * k * t) + b * Real.sin (2 * Real.pi * k * t) : ℝ) : ℂ)
      = ((a : ℂ) - b * I) / 2 * e1 (k * t) + ((a : ℂ) + b * I) / 2 * e1 (-(k * t)) := by
  unfold e1
  rw [show (2 * Real.pi * I * (k * t) : ℂ) = ((2 * Real.pi * k * t : ℝ) : ℂ) * I by push_cast; ring,
    show (2 * Real.pi * I * -(k * t) : ℂ) = -((2 * Real.pi * k * t : ℝ) : ℂ) * I by push_cast; ring]
  rw [exp_mul_I, exp_mul_I, Complex.cos_neg, Complex.sin_neg]
  push_cast
  have := I_mul_I
  linear_combination ((b : ℂ) * Complex.sin (2 * Real.pi * k * t)) * this

theorem wave_re (a b : ℝ) (k : ℕ) (t : ℝ) :
    (((a : ℂ) - b * I) * e1 (k * t)).re = a * Real.cos (2 * Real.pi * k * t) + b * Real.sin (2 * Real.pi * k * t) := by
  unfold e1
  rw [show (2 * Real.pi * I * (k * t) : ℂ) = ((2 * Real.pi * k * t : ℝ) : ℂ) * I by push_cast; ring]
  generalize 2 * Real.pi * k * t = θ
  rw [exp_mul_I, ← Complex.ofReal_cos, ← Complex.ofReal_sin]
  simp only [sub_mul, mul_add, add_re, sub_re, mul_re, mul_im, ofReal_re, ofReal_im, I_re, I_im]
  ring

/-- the spectrum of a sampled wave -/
theorem rfft_wave (n : ℕ) (hn : 0 < n) (a b : ℝ) (k l : ℕ) (hkl : k + l < n) :
    rfft n (fun m => a * Real.cos (2 * Real.pi * k * (m / n : ℝ)) + b * Real.sin (2 * Real.pi * k * (m / n : ℝ))) l
      = if l = k then (if k = 0 then (a : ℂ) * n else ((a : ℂ) - b * I) / 2 * n) else 0 := by
  unfold rfft
  have hterm : ∀ m : ℕ,
      ((a * Real.cos (2 * Real.pi * k * (m / n : ℝ)) + b * Real.sin (2 * Real.pi * k * (m / n : ℝ)) : ℝ) : ℂ)
        * exp (-(2 * Real.pi * I * ((l : ℂ) * (m : ℂ) / (n : ℂ))))
      = ((a : ℂ) - b * I) / 2 * e1 ((((k : ℤ) - l : ℤ) : ℂ) * m / n)
        + ((a : ℂ) + b * I) / 2 * e1 (((-((k : ℤ) + l) : ℤ) : ℂ) * m / n) := by
    intro m
    rw [wave_eq, show exp (-(2 * Real.pi * I * ((l : ℂ) * (m : ℂ) / (n : ℂ)))) = e1 (-(l * m / n)) by
      unfold e1; ring_nf]
    rw [add_mul, mul_assoc, mul_assoc, ← e1_add, ← e1_add]
    congr 3 <;> (push_cast; ring)
  rw [Finset.sum_congr rfl fun m _ => hterm m, Finset.sum_add_distrib, ← Finset.mul_sum, ← Finset.mul_sum,
    sum_e1 n hn, sum_e1 n hn]
  by_cases hlk : l = k
  · subst hlk
    rw [if_pos rfl, if_pos (by simp)]
    by_cases h0 : l = 0
    · subst h0
      simp only [if_true, Nat.cast_zero, add_zero, neg_zero, dvd_zero]
      ring
    · rw [if_neg h0, if_neg]
      · ring
      · intro h
        have := Int.le_of_dvd (by omega) ((dvd_neg).1 h)
        omega
  · rw [if_neg hlk, if_neg, if_neg]
    · ring
    · intro h
      have := Int.le_of_dvd (by omega) ((dvd_neg).1 h)
      omega
    · intro h
      rcases lt_or_gt_of_ne hlk with h1 | h1
      · have := Int.le_of_dvd (by omega) h
        omega
      · have := Int.le_of_dvd (by omega) ((dvd_neg).2 h)
        omega

theorem rfft_congr {n : ℕ} {x y : ℕ → ℝ} (h : ∀ m < n, x m = y m) (k : ℕ) : rfft n x k = rfft n y k := by
  unfold rfft
  exact Finset.sum_congr rfl fun m hm => by rw [h m (Finset.mem_range.1 hm)]

theorem rfft_sum {ι : Type} (s : Finset ι) (n : ℕ) (x : ι → ℕ → ℝ) (k : ℕ) :
    rfft n (fun m => ∑ i ∈ s, x i m) k = ∑ i ∈ s, rfft n (x i) k := by
  unfold rfft
  rw [Finset.sum_comm]
  refine Finset.sum_congr rfl fun m _ => ?_
  rw [← Finset.sum_mul]
  push_cast
  rfl

theorem rfft_trig (n : ℕ) (hn : 0 < n) (D : ℕ) (a b : ℕ → ℝ) (l : ℕ) (h : D + l < n) :
    rfft n (fun m => ∑ k ∈ Finset.range (D + 1),
      (a k * Real.cos (2 * Real.pi * k * (m / n : ℝ)) + b k * Real.sin (2 * Real.pi * k * (m / n : ℝ)))) l
      = if l ≤ D then (if l = 0 then (a 0 : ℂ) * n else ((a l : ℂ) - b l * I) / 2 * n) else 0 := by
  rw [rfft_sum]
  rw [Finset.sum_congr rfl fun k hk => rfft_wave n hn (a k) (b k) k l (by have := Finset.mem_range.1 hk; omega)]
  rw [Finset.sum_ite_eq (Finset.range (D + 1)) l
    (fun k => if k = 0 then (a k : ℂ) * n else ((a k : ℂ) - b k * I) / 2 * n)]
  simp only [Finset.mem_range]
  by_cases hl : l ≤ D
  · rw [if_pos (by omega), if_pos hl]
    by_cases h0 : l = 0
    · subst h0; simp
    · rw [if_neg h0, if_neg h0]
  · rw [if_neg (by omega), if_neg hl]

/-- Trigonometric polynomials below the lower of the two Nyquist frequencies are
resampled exactly. -/
theorem resample1_trig (n num : ℕ) (D : ℕ) (h1 : 2 * D < n) (h2 : 2 * D < num) (f : ℝ → ℝ) (hf : TrigPoly D f)
    (x : ℕ → ℝ) (hx : ∀ m < n, x m = f (m / n)) (j : ℕ) : resample1 n num x j = f (j / num) := by
  obtain ⟨a, b, hab⟩ := hf
  have hn : 0 < n := by omega
  have hm : 0 < num := by omega
  have hX : ∀ l, D + l < n → rfft n x l
      = if l ≤ D then (if l = 0 then (a 0 : ℂ) * n else ((a l : ℂ) - b l * I) / 2 * n) else 0 := by
    intro l hl
    rw [← rfft_trig n hn D a b l hl]
    exact rfft_congr (fun m hm => by rw [hx m hm, hab]) l
  have hY : ∀ l, resampleSpectrum n num (rfft n x) l
      = if l ≤ D then (if l = 0 then (a 0 : ℂ) * n else ((a l : ℂ) - b l * I) / 2 * n) else 0 := by
    intro l
    unfold resampleSpectrum
    simp only
    have hN1 : 2 * D < min num n := lt_min h2 h1
    have hN2 : min num n ≤ n := min_le_right _ _
    generalize min num n = N at hN1 hN2
    by_cases hl : l < N / 2 + 1
    · rw [if_pos hl, hX l (by omega)]
      by_cases hl2 : N % 2 = 0 ∧ l = N / 2
      · rw [if_pos hl2, if_neg (show ¬ l ≤ D by omega)]
        split_ifs <;> simp
      · rw [if_neg hl2]
    · rw [if_neg hl, if_neg (by omega)]
  unfold resample1 irfft
  rw [hY 0, if_pos (Nat.zero_le _), if_pos rfl]
  have hnyq : (if num % 2 = 0 then (resampleSpectrum n num (rfft n x) (num / 2)).re * (-1 : ℝ) ^ j else 0) = 0 := by
    split_ifs with hp
    · rw [hY, if_neg (by omega)]; simp
    · rfl
  rw [hnyq]
  have hmid : ∑ k ∈ Finset.Ico 1 ((num + 1) / 2), 2 * (resampleSpectrum n num (rfft n x) k
      * exp (2 * Real.pi * I * ((k : ℂ) * (j : ℂ) / (num : ℂ)))).re
      = ∑ k ∈ Finset.Ico 1 (D + 1), n * (a k * Real.cos (2 * Real.pi * k * (j / num : ℝ))
          + b k * Real.sin (2 * Real.pi * k * (j / num : ℝ))) := by
    symm
    refine Finset.sum_subset_zero_on_sdiff (Finset.Ico_subset_Ico_right (by omega)) ?_ ?_
    · intro k hk
      simp only [Finset.mem_sdiff, Finset.mem_Ico] at hk
      rw [hY, if_neg (by omega)]; simp
    · intro k hk
      rw [Finset.mem_Ico] at hk
      rw [hY, if_pos (by omega), if_neg (by omega), ← wave_re]
      rw [show ((a k : ℂ) - b k * I) / 2 * n * exp (2 * Real.pi * I * ((k : ℂ) * (j : ℂ) / (num : ℂ)))
        = ((n / 2 : ℝ) : ℂ) * (((a k : ℂ) - b k * I) * e1 (k * (((j : ℝ) / (num : ℝ) : ℝ) : ℂ))) by
          unfold e1; push_cast; ring_nf]
      rw [Complex.re_ofReal_mul]
      ring
  rw [hmid, ← Finset.mul_sum, hab]
  rw [Finset.range_eq_Ico, Finset.sum_eq_sum_Ico_succ_bot (by omega : 0 < D + 1)]
  have e1 : (num : ℝ) ≠ 0 := by exact_mod_cast hm.ne'
  have e2 : (n : ℝ) ≠ 0 := by exact_mod_cast hn.ne'
  have e3 : ((a 0 : ℂ) * n).re = a 0 * n := by
    rw [show ((a 0 : ℂ) * n) = ((a 0 * n : ℝ) : ℂ) by push_cast; rfl, ofReal_re]
  rw [e3]
  simp only [Nat.cast_zero, mul_zero, zero_mul, Real.cos_zero, Real.sin_zero, mul_one, add_zero, zero_add]
  generalize (∑ k ∈ Finset.Ico 1 (D + 1), (_ : ℝ)) = s
  field_simp

/-- The same for polynomials that reach the Nyquist frequency of the coarser grid:
the unpaired coefficient is doubled, and its sine part vanishes at all points. -/
theorem resample1_nyquist (n D : ℕ) (h0 : 0 < D) (h1 : 2 * D < n) (f : ℝ → ℝ) (hf : TrigPoly D f)
    (x : ℕ → ℝ) (hx : ∀ m < n, x m = f (m / n)) (j : ℕ) : resample1 n (2 * D) x j = f (j / (2 * D : ℕ)) := by
  obtain ⟨a, b, hab⟩ := hf
  have hn : 0 < n := by omega
  have hX : ∀ l, D + l < n → rfft n x l
      = if l ≤ D then (if l = 0 then (a 0 : ℂ) * n else ((a l : ℂ) - b l * I) / 2 * n) else 0 := by
    intro l hl
    rw [← rfft_trig n hn D a b l hl]
    exact rfft_congr (fun m hm => by rw [hx m hm, hab]) l
  have hY : ∀ l < D, resampleSpectrum n (2 * D) (rfft n x) l
      = if l = 0 then (a 0 : ℂ) * n else ((a l : ℂ) - b l * I) / 2 * n := by
    intro l hl
    unfold resampleSpectrum
    simp only
    rw [min_eq_left h1.le, if_pos (by omega), if_neg (by omega), hX l (by omega), if_pos hl.le]
  have hYD : resampleSpectrum n (2 * D) (rfft n x) D = ((a D : ℂ) - b D * I) * n := by
    unfold resampleSpectrum
    simp only
    rw [min_eq_left h1.le, if_pos (by omega), if_pos (by omega), if_pos h1, hX D (by omega), if_pos le_rfl,
      if_neg h0.ne']
    ring
  unfold resample1 irfft
  rw [hY 0 h0, if_pos rfl, if_pos (by omega), show (2 * D) / 2 = D by omega, show (2 * D + 1) / 2 = D by omega, hYD]
  have hmid : ∑ k ∈ Finset.Ico 1 D, 2 * (resampleSpectrum n (2 * D) (rfft n x) k
      * exp (2 * Real.pi * I * ((k : ℂ) * (j : ℂ) / ((2 * D : ℕ) : ℂ)))).re
      = ∑ k ∈ Finset.Ico 1 D, n * (a k * Real.cos (2 * Real.pi * k * (j / (2 * D : ℕ) : ℝ))
          + b k * Real.sin (2 * Real.pi * k * (j / (2 * D : ℕ) : ℝ))) := by
    refine Finset.sum_congr rfl fun k hk => ?_
    rw [Finset.mem_Ico] at hk
    rw [hY k hk.2, if_neg (by omega), ← wave_re]
    rw [show ((a k : ℂ) - b k * I) / 2 * n * exp (2 * Real.pi * I * ((k : ℂ) * (j : ℂ) / ((2 * D : ℕ) : ℂ)))
      = ((n / 2 : ℝ) : ℂ) * (((a k : ℂ) - b k * I) * e1 (k * (((j : ℝ) / ((2 * D : ℕ) : ℝ) : ℝ) : ℂ))) by
        unfold e1; push_cast; ring_nf]
    rw [Complex.re_ofReal_mul]
    ring
  have e1 : ((2 * D : ℕ) : ℝ) ≠ 0 := by exact_mod_cast (by omega : 2 * D ≠ 0)
  have hD : (D : ℝ) ≠ 0 := by exact_mod_cast h0.ne'
  have e2 : (n : ℝ) ≠ 0 := by exact_mod_cast hn.ne'
  have e3 : ((a 0 : ℂ) * n).re = a 0 * n := by
    rw [show ((a 0 : ℂ) * n) = ((a 0 * n : ℝ) : ℂ) by push_cast; rfl, ofReal_re]
  have e4 : (((a D : ℂ) - b D * I) * n).re = a D * n := by simp
  have harg : 2 * Real.pi * D * (j / (2 * D : ℕ) : ℝ) = j * Real.pi := by
    push_cast
    field_simp
  rw [hmid, ← Finset.mul_sum, hab, e3, e4]
  rw [Finset.sum_range_succ, Finset.range_eq_Ico, Finset.sum_eq_sum_Ico_succ_bot h0, harg, Real.cos_nat_mul_pi,
    Real.sin_nat_mul_pi]
  simp only [Nat.cast_zero, mul_zero, zero_mul, Real.cos_zero, Real.sin_zero, mul_one, add_zero, zero_add]
  generalize (∑ k ∈ Finset.Ico 1 D, (_ : ℝ)) = s
  field_simp

theorem resample1_resolved (n num : ℕ) (D : ℕ) (h1 : 2 * D < n) (hnum : 0 < num) (h2 : 2 * D ≤ num) (f : ℝ → ℝ)
    (hf : TrigPoly D f) (x : ℕ → ℝ) (hx : ∀ m < n, x m = f (m / n)) (j : ℕ) : resample1 n num x j = f (j / num) := by
  rcases h2.lt_or_eq with h2 | rfl
  · exact resample1_trig n num D h1 h2 f hf x hx j
  · exact resample1_nyquist n D (by omega) h1 f hf x hx j

end Verif.Downsample
