import Verif.Lemmas.Init
import Verif.Lemmas.PhiField
import Verif.Spec.Noise

/-!
# The spectrum of the Fourier noise
-/

namespace Verif.Init

open Arr Complex NoiseArgs
open scoped ComplexConjugate

variable {h w : ℕ} [NeZero h] [NeZero w]

/-- spectrum of the real part of an inverse transform -/
theorem D_re_ID (g : ZMod h → ZMod w → ℂ) (k : ZMod h) (l : ZMod w) :
    D (cx fun i j => (ID g i j).re) k l = (g k l + conj (g (-k) (-l))) / 2 := by
  have e : cx (fun i j => (ID g i j).re) = fun i j => (1 / 2 : ℂ) * ID (fun k l => g k l + conj (g (-k) (-l))) i j := by
    funext i j
    rw [ID_add]
    simp only
    rw [← ID_conj, Complex.add_conj]
    simp only [cx]
    push_cast
    ring
  rw [e, D_smul, D_ID]
  simp only
  ring

theorem raw_spectrum (a : NoiseArgs) (r : ZMod h → ZMod w → ℂ) (k : ZMod h) (l : ZMod w) :
    D (cx fun i j => (ID (fun k l => r k l * (filt a k l : ℂ)) i j).re) k l
      = (r k l + conj (r (-k) (-l))) / 2 * (filt a k l : ℂ) := by
  rw [D_re_ID, filt_neg, map_mul, conj_ofReal]
  ring

theorem raw_mean (a : NoiseArgs) (r : ZMod h → ZMod w → ℂ) :
    (ofField fun i j => (ID (fun k l => r k l * (filt a k l : ℂ)) i j).re).mean = 0 := by
  set f : ZMod h → ZMod w → ℝ := fun i j => (ID (fun k l => r k l * (filt a k l : ℂ)) i j).re with hf
  have e : D (cx f) 0 0 = 0 := by
    rw [hf, raw_spectrum]
    simp [filt]
  rw [D_zero_zero] at e
  have h2 : S (cx f) = ((S f : ℝ) : ℂ) := by
    unfold S cx
    push_cast
    rfl
  rw [h2] at e
  rw [mean_S, show S f = 0 by exact_mod_cast e, zero_div]

/-- `get_fft_noise` returns the filtered noise divided by its standard deviation -/
theorem noise_value (a : NoiseArgs) (ha : a.h = h) (hb : a.w = w) (rndj : ℕ → ℕ → ℂ) {A : Arr ℝ}
    (hA : get_fft_noise a rndj = .ok (some A)) :
    let f : ZMod h → ZMod w → ℝ := fun i j => (ID (fun k l => rndj k.val l.val * (filt a k l : ℂ)) i j).re
    a.size ≠ 0 ∧ a.scale ≠ 0 ∧ 0 < std (ofField f) ∧ A = ofField fun i j => f i j / std (ofField f) := by
  intro f
  unfold get_fft_noise at hA
  split at hA
  · cases hA
  split at hA
  · injection hA with hA; cases hA
  next hs =>
  split at hA
  · cases hA
  rw [not_or] at hs
  refine ⟨hs.1, hs.2, ?_⟩
  simp only at hA
  rw [fft_field a ha hb, ifft2_ofField] at hA
  simp only [Py.ok_bind, real_ofField] at hA
  have hm : (ofField f).mean = 0 := raw_mean a _
  by_cases hz : std (ofField f) = 0
  · have h1 := (if_pos hz).symm.trans hA
    injection h1 with h1
    cases h1
  · refine ⟨lt_of_le_of_ne (Real.sqrt_nonneg _) (Ne.symm hz), ?_⟩
    have h1 := (if_neg hz).symm.trans hA
    injection h1 with h1
    injection h1 with h1
    rw [← h1]
    simp only [map_ofField, mean_div_const]
    congr 1
    funext i j
    change f i j / std (ofField f) - (ofField f).mean / std (ofField f) = _
    rw [hm, zero_div, sub_zero]

/-! ### the mask -/

theorem step_eq (m k : ℝ) : NoiseArgs.step m k = Spec.logistic (1000 * (k - m)) := by
  unfold NoiseArgs.step Spec.logistic
  congr 3
  ring

theorem weight_eq (a : NoiseArgs) (k : ℝ) : a.weight k = Spec.band a.minFreq a.maxFreq k := by
  unfold weight Spec.band
  simp only [step_eq, ne_eq]
  by_cases h1 : a.minFreq = 0 <;> by_cases h2 : a.maxFreq = 0 <;> simp [h1, h2]

theorem logistic_le (t : ℝ) : Spec.logistic t ≤ Real.exp t := by
  unfold Spec.logistic
  rw [Real.exp_neg, div_le_iff₀ (by positivity), mul_add, mul_inv_cancel₀ (Real.exp_pos t).ne']
  have := Real.exp_pos t
  linarith

theorem logistic_compl (t : ℝ) : 1 - Spec.logistic t = Spec.logistic (-t) := by
  unfold Spec.logistic
  rw [neg_neg, Real.exp_neg]
  have := Real.exp_pos t
  field_simp
  ring

theorem logistic_pos (t : ℝ) : 0 < Spec.logistic t := by unfold Spec.logistic; positivity

theorem kF_freq (a : NoiseArgs) {k l : ℕ} (hk : k < h) (hl : l < w) :
    kF a (k : ZMod h) (l : ZMod w) = |Spec.freq h a.size k * a.scale| ^ a.factor
      + |Spec.freq w a.size l * a.scale| ^ a.factor := by
  have key : ∀ {n : ℕ} [NeZero n] {k : ℕ}, k < n → kap (k : ZMod n) * n / a.size = Spec.freq n a.size k := by
    intro n _ k hk
    have hn : (n : ℝ) ≠ 0 := Nat.cast_ne_zero.mpr (NeZero.ne n)
    rw [kap_cast hk]
    unfold fftfreq Spec.freq
    rw [fftfreqInt_eq hk, div_mul_cancel₀ _ hn]
    congr 1
    split <;> push_cast <;> rfl
  unfold kF
  rw [key hk, key hl]

end Verif.Init
