import Verif.Lemmas.Noise
import Verif.Props.Init
import Mathlib.Analysis.Real.Pi.Bounds

/-!
# C114: the spectrum of the Fourier noise

`Spec.coef` is the Fourier coefficient (`Spec/Fourier.lean`), `Spec.freq` the number of waves per unit length, `Spec.band` the
band-pass filter (`Spec/Noise.lean`).
-/

namespace Verif.Props

open Init Arr Complex NoiseArgs Spec
open scoped ComplexConjugate

/-- the wave number the bounds of the filter are compared with -/
noncomputable def filterK (a : NoiseArgs) (k l : ℕ) : ℝ :=
  |freq a.h a.size k * a.scale| ^ a.factor + |freq a.w a.size l * a.scale| ^ a.factor

open Classical in
/-- a bound given as a wavelength takes precedence over one given as a frequency -/
noncomputable def bound (wavelength frequency : ℝ) : ℝ := if wavelength = 0 then frequency else 1 / wavelength

/-- the part of the random numbers that survives taking the real part of the field -/
noncomputable def symmetric (a : NoiseArgs) (rndj : ℕ → ℕ → ℂ) (k l : ℕ) : ℂ :=
  (rndj k l + conj (rndj ((a.h - k) % a.h) ((a.w - l) % a.w))) / 2

theorem minFreq_bound (a : NoiseArgs) : a.minFreq = bound a.max_wavelength a.min_frequency := by
  unfold minFreq bound; split_ifs <;> simp_all

theorem maxFreq_bound (a : NoiseArgs) : a.maxFreq = bound a.min_wavelength a.max_frequency := by
  unfold maxFreq bound; split_ifs <;> simp_all

/-- **C114.**  Up to one positive factor (which makes the standard deviation 1) every Fourier coefficient of the noise is its
random number divided by `K` and multiplied by the band-pass filter at `K`, where `K` is the sum of the `factor`-th powers of
the frequencies in the two directions; the mean is 0. -/
theorem C114_spectrum (a : NoiseArgs) (rndj : ℕ → ℕ → ℂ) (A : Arr ℝ) (hA : get_fft_noise a rndj = .ok (some A)) :
    ∃ s : ℝ, 0 < s ∧ coef a.h a.w A.at' 0 0 = 0 ∧ ∀ k l, k < a.h → l < a.w → ¬(k = 0 ∧ l = 0) →
      0 < filterK a k l ∧
      coef a.h a.w A.at' k l = (s : ℂ) * symmetric a rndj k l / (filterK a k l : ℂ)
        * (band (bound a.max_wavelength a.min_frequency) (bound a.min_wavelength a.max_frequency) (filterK a k l) : ℂ) := by
  have c1 : ¬(a.h = 0 ∨ a.w = 0) := by
    intro c
    unfold get_fft_noise at hA
    rw [if_pos c] at hA
    cases hA
  rw [not_or] at c1
  have i1 : NeZero a.h := ⟨c1.1⟩
  have i2 : NeZero a.w := ⟨c1.2⟩
  obtain ⟨hs, hc, h0, e⟩ := noise_value (h := a.h) (w := a.w) a rfl rfl rndj hA
  set f : ZMod a.h → ZMod a.w → ℝ := fun i j => (ID (fun k l => rndj k.val l.val * (filt a k l : ℂ)) i j).re with hf
  have key : ∀ k l : ℕ, coef a.h a.w A.at' k l = ((1 / std (ofField f) : ℝ) : ℂ) * ((rndj (k : ZMod a.h).val (l : ZMod a.w).val
      + conj (rndj (-(k : ZMod a.h)).val (-(l : ZMod a.w)).val)) / 2 * (filt a (k : ZMod a.h) (l : ZMod a.w) : ℂ)) := by
    intro k l
    rw [e, spec_coef_of (g := fun i j => f i j / std (ofField f)) fun i j hi hj => ofField_at' _ hi hj]
    have : cx (fun i j => f i j / std (ofField f)) = fun i j => ((1 / std (ofField f) : ℝ) : ℂ) * cx f i j := by
      funext i j
      simp only [cx]
      push_cast
      ring
    rw [this, D_smul]
    simp only
    rw [hf, raw_spectrum a fun k l => rndj k.val l.val]
  refine ⟨1 / std (ofField f), by positivity, ?_, fun k l hk hl hkl => ?_⟩
  · have := key 0 0
    rw [this]
    simp [filt]
  · have e1 : ((k : ZMod a.h)).val = k := by rw [ZMod.val_natCast, Nat.mod_eq_of_lt hk]
    have e2 : ((l : ZMod a.w)).val = l := by rw [ZMod.val_natCast, Nat.mod_eq_of_lt hl]
    have e3 : (-(k : ZMod a.h)).val = (a.h - k) % a.h := by rw [ZMod.neg_val', e1]
    have e4 : (-(l : ZMod a.w)).val = (a.w - l) % a.w := by rw [ZMod.neg_val', e2]
    have hne : ¬((k : ZMod a.h) = 0 ∧ (l : ZMod a.w) = 0) := by
      rw [← ZMod.val_eq_zero, ← ZMod.val_eq_zero, e1, e2]; exact hkl
    have eK : kF a (k : ZMod a.h) (l : ZMod a.w) = filterK a k l := kF_freq a hk hl
    refine ⟨by rw [← eK]; exact kF_pos a hs hc _ _ hne, ?_⟩
    rw [key, e1, e2, e3, e4]
    unfold filt symmetric
    rw [if_neg hne, eK, weight_eq, minFreq_bound, maxFreq_bound]
    push_cast
    ring

/-- **C114, partial.**  What the filter does: outside of the band the amplitude is at most `exp (-1000 d)` of the unfiltered one,
`d` being the distance of `K` from the bound; inside it is at least `1 - exp (-1000 d) - exp (-1000 d')`.
Missing: that the band is the given range of wavelengths; see `C114_wavelength_violated`. -/
theorem C114_band_partial (lo hi K : ℝ) :
    (lo ≠ 0 → K ≤ lo → band lo hi K ≤ Real.exp (-(1000 * (lo - K)))) ∧
    (hi ≠ 0 → hi ≤ K → band lo hi K ≤ Real.exp (-(1000 * (K - hi)))) ∧
    (1 - Real.exp (-(1000 * (K - lo))) - Real.exp (-(1000 * (hi - K))) ≤ band lo hi K) := by
  have h1 := logistic_pos (1000 * (K - hi))
  have h2 := logistic_pos (1000 * (K - lo))
  have h3 := logistic_le (1000 * (K - lo))
  have h4 := logistic_le (1000 * (K - hi))
  have h5 := logistic_compl (1000 * (K - lo))
  have h6 := logistic_compl (1000 * (K - hi))
  have h7 := logistic_le (-(1000 * (K - lo)))
  have h8 := logistic_le (-(1000 * (K - hi)))
  have h9 := logistic_pos (-(1000 * (K - lo)))
  have p1 := Real.exp_pos (-(1000 * (K - lo)))
  have p2 := Real.exp_pos (1000 * (K - hi))
  rw [show -(1000 * (lo - K)) = 1000 * (K - lo) by ring, show -(1000 * (hi - K)) = 1000 * (K - hi) by ring]
  unfold band
  refine ⟨fun hl _ => ?_, fun hh _ => ?_, ?_⟩
  · rw [if_neg hl]
    split_ifs <;> linarith
  · rw [if_neg hh]
    split_ifs <;> linarith
  · split_ifs <;> linarith

/-- the length of the wave `(k, l)` in a box of length `size` -/
noncomputable def waveLength (h w : ℕ) (size : ℝ) (k l : ℕ) : ℝ := 1 / Real.sqrt (freq h size k ^ 2 + freq w size l ^ 2)

/-- With `factor = 2` (the default, and what `run` uses) and `scale = 1`, `K` is the inverse *square* of the wavelength: the
bound `min_wavelength` acts on waves shorter than its square root. -/
theorem C114_square (a : NoiseArgs) (hf : a.factor = 2) (hs : a.scale = 1) (k l : ℕ) :
    filterK a k l = (1 / waveLength a.h a.w a.size k l) ^ 2 := by
  unfold filterK waveLength
  rw [hf, hs, mul_one, mul_one, sq_abs, sq_abs, one_div_one_div, Real.sq_sqrt (by positivity)]

/-- **C114, violated.**  In `run` with 128 points and `k0 = 0.15`, `min_wavelength` is 12 grid spacings.  The wave with 20
periods in the box is only 6.4 grid spacings long, but its amplitude is more than 99 % of the one of unfiltered noise
(amplitude 1/400 of the longest wave's, as all random numbers are 1). -/
theorem C114_wavelength_violated : ∃ A : Arr ℝ, get_fft_noise (runNoise 128 (3 / 20)) (fun _ _ => 1) = .ok (some A) ∧
    waveLength 128 128 (runNoise 128 (3 / 20)).size 20 0 * (3 / 2) < (runNoise 128 (3 / 20)).min_wavelength ∧
    coef 128 128 A.at' 1 0 ≠ 0 ∧
    99 / 100 * (1 / 400) * ‖coef 128 128 A.at' 1 0‖ < ‖coef 128 128 A.at' 20 0‖ := by
  have hpi := Real.pi_pos
  have hp1 := Real.pi_gt_d2
  have hp2 := Real.pi_lt_d2
  set a := runNoise 128 (3 / 20) with ha
  have hsz : a.size = 40 * Real.pi / 3 := by rw [ha]; unfold runNoise; ring
  have hsc : a.scale = 1 := rfl
  have hfa : a.factor = 2 := rfl
  have hmin : a.min_wavelength = 5 * Real.pi / 4 := by rw [ha]; unfold runNoise; norm_num; ring
  have hmax : a.max_wavelength = 4000 * Real.pi / 3 := by rw [ha]; unfold runNoise; norm_num; ring
  obtain ⟨A, hA, -⟩ := C63_run 128 (3 / 20) (by norm_num) (fun _ _ => 1) 1 0 (by norm_num) (by norm_num) (by norm_num)
    (by norm_num)
  obtain ⟨s, hs, -, hco⟩ := C114_spectrum a (fun _ _ => 1) A hA
  have fr : ∀ k : ℕ, 2 * k < 128 → freq 128 a.size k = 3 * k / (40 * Real.pi) := by
    intro k hk
    unfold freq
    rw [if_pos hk, hsz]
    field_simp
  have fK : ∀ k : ℕ, 2 * k < 128 → filterK a k 0 = (3 * k / (40 * Real.pi)) ^ 2 := by
    intro k hk
    unfold filterK
    rw [hsc, hfa]
    change |freq 128 a.size k * 1| ^ 2 + |freq 128 a.size 0 * 1| ^ 2 = _
    rw [fr k hk, fr 0 (by norm_num), mul_one, mul_one, sq_abs, sq_abs]
    norm_num
  have hsy : ∀ k, symmetric a (fun _ _ => 1) k 0 = 1 := by
    intro k; unfold symmetric; norm_num
  have hlo : bound a.max_wavelength a.min_frequency = 3 / (4000 * Real.pi) := by
    unfold bound
    rw [hmax, if_neg (by positivity), one_div_div]
  have hhi : bound a.min_wavelength a.max_frequency = 4 / (5 * Real.pi) := by
    unfold bound
    rw [hmin, if_neg (by positivity), one_div_div]
  have cf : ∀ k : ℕ, 1 ≤ k → 2 * k < 128 → coef 128 128 A.at' k 0
      = ((s / (3 * k / (40 * Real.pi)) ^ 2 * band (3 / (4000 * Real.pi)) (4 / (5 * Real.pi)) ((3 * k / (40 * Real.pi)) ^ 2) : ℝ) : ℂ) := by
    intro k h1 h2
    have := (hco k 0 (show k < 128 by omega) (show 0 < 128 by norm_num) (by omega)).2
    rw [fK k h2, hsy, hlo, hhi] at this
    refine Eq.trans this ?_
    push_cast
    ring
  have w1 := cf 1 le_rfl (by norm_num)
  have w2 := cf 20 (by norm_num) (by norm_num)
  simp only [Nat.cast_one, Nat.cast_ofNat] at w1 w2
  set lo : ℝ := 3 / (4000 * Real.pi)
  set hi : ℝ := 4 / (5 * Real.pi)
  set K1 : ℝ := (3 * 1 / (40 * Real.pi)) ^ 2 with hK1
  set K2 : ℝ := (3 * 20 / (40 * Real.pi)) ^ 2 with hK2
  have k12 : K2 = 400 * K1 := by rw [hK1, hK2]; ring
  have k1 : 0 < K1 := by positivity
  have hwt : ∀ K, a.weight K = band lo hi K := fun K => by rw [weight_eq, minFreq_bound, maxFreq_bound, hlo, hhi]
  have b1 : 0 < band lo hi K1 := by
    rw [← hwt]
    refine weight_pos a _ (.inr (.inr ?_))
    rw [minFreq_bound, maxFreq_bound, hlo, hhi, div_lt_div_iff₀ (by positivity) (by positivity)]
    nlinarith
  have b1' : band lo hi K1 ≤ 1 := by rw [← hwt]; exact weight_le_one a _
  have ex : ∀ x : ℝ, 20 ≤ x → Real.exp (-x) < 1 / 1000 := by
    intro x hx
    rw [Real.exp_neg, ← one_div, one_div_lt_one_div (Real.exp_pos x) (by norm_num)]
    have e1 : 6 ≤ Real.exp (x / 4) := by have := Real.add_one_le_exp (x / 4); linarith
    have e2 : Real.exp x = Real.exp (x / 4) ^ 4 := by rw [← Real.exp_nat_mul]; congr 1; push_cast; ring
    rw [e2]
    calc (1000 : ℝ) < 6 ^ 4 := by norm_num
      _ ≤ _ := pow_le_pow_left₀ (by norm_num) e1 4
  have hK2' : K2 = 9 / (4 * Real.pi ^ 2) := by rw [hK2]; field_simp; norm_num
  have b2 : 99 / 100 < band lo hi K2 := by
    have h3 := (C114_band_partial lo hi K2).2.2
    have e1 := ex (1000 * (K2 - lo)) (by
      have : 1 / 50 ≤ K2 - lo := by
        rw [hK2', div_sub_div _ _ (by positivity) (by positivity), div_le_div_iff₀ (by norm_num) (by positivity)]
        nlinarith [mul_pos hpi hpi]
      linarith)
    have e2 := ex (1000 * (hi - K2)) (by
      have : 1 / 50 ≤ hi - K2 := by
        rw [hK2', div_sub_div _ _ (by positivity) (by positivity), div_le_div_iff₀ (by norm_num) (by positivity)]
        nlinarith [mul_pos hpi hpi]
      linarith)
    linarith
  refine ⟨A, hA, ?_, ?_, ?_⟩
  · unfold waveLength
    rw [fr 20 (by norm_num), fr 0 (by norm_num), hmin]
    have : (3 * ((20 : ℕ) : ℝ) / (40 * Real.pi)) ^ 2 + (3 * ((0 : ℕ) : ℝ) / (40 * Real.pi)) ^ 2
        = (3 / (2 * Real.pi)) ^ 2 := by push_cast; field_simp; norm_num
    rw [this, Real.sqrt_sq (by positivity), one_div_div]
    linarith
  · rw [w1]
    exact Complex.ofReal_ne_zero.2 (mul_pos (div_pos hs k1) b1).ne'
  · rw [w1, w2]
    rw [Complex.norm_of_nonneg (by positivity), Complex.norm_of_nonneg (by positivity)]
    have e : s / K2 * band lo hi K2 = 1 / 400 * (s / K1) * band lo hi K2 := by rw [k12]; field_simp
    rw [e]
    have hq : 0 < s / K1 := div_pos hs k1
    nlinarith [mul_pos hq b1]

/-- a draw for a 4 × 4 grid: the hypothesis of `C114_spectrum` -/
example : ∃ A, get_fft_noise (runNoise 4 (3 / 20)) (fun k l => (k : ℂ) + 2 * l) = .ok (some A) :=
  let ⟨A, h1, _⟩ := C63_run 4 (3 / 20) (by norm_num) (fun k l => (k : ℂ) + 2 * l) 1 0 (by norm_num)
    (by norm_num) (by norm_num) (by
      have : (starRingEnd ℂ) 3 = 3 := Complex.conj_ofNat 3
      norm_num [this])
  ⟨A, h1⟩

/-- a wave of length 3 passes a filter with `min_wavelength = 4` (`K = 1/9 < 1/4`) -/
example : 99 / 100 < band 0 (bound 4 0) (1 / 9) := by
  have h := (C114_band_partial 0 (bound 4 0) (1 / 9)).2.2
  have hb : bound 4 0 = 1 / 4 := if_neg (by norm_num)
  rw [hb] at h ⊢
  have key : ∀ x : ℝ, 100 ≤ x → Real.exp (-x) < 1 / 250 := by
    intro x hx
    rw [Real.exp_neg, ← one_div, one_div_lt_one_div (Real.exp_pos x) (by norm_num)]
    have e1 : 51 ≤ Real.exp (x / 2) := by have := Real.add_one_le_exp (x / 2); linarith
    have e2 : Real.exp x = Real.exp (x / 2) ^ 2 := by rw [← Real.exp_nat_mul]; congr 1; push_cast; ring
    rw [e2]
    nlinarith
  have k1 := key (1000 * (1 / 9 - 0)) (by norm_num)
  have k2 := key (1000 * (1 / 4 - 1 / 9)) (by norm_num)
  linarith

example := C114_square (Init.runNoise 4 (3 / 20)) rfl rfl 1 2

example : ∃ (A : Arr ℝ) (s : ℝ), get_fft_noise (runNoise 4 (3 / 20)) (fun k l => (k : ℂ) + 2 * l) = .ok (some A) ∧ 0 < s ∧
    Spec.coef 4 4 A.at' 0 0 = 0 :=
  let ⟨A, h1, _⟩ := C63_run 4 (3 / 20) (by norm_num) (fun k l => (k : ℂ) + 2 * l) 1 0 (by norm_num)
    (by norm_num) (by norm_num) (by
      have : (starRingEnd ℂ) 3 = 3 := Complex.conj_ofNat 3
      norm_num [this])
  let ⟨s, h2, h3, _⟩ := C114_spectrum _ _ A h1
  ⟨A, s, h1, h2, h3⟩

end Verif.Props
