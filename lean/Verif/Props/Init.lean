import Verif.Lemmas.Init
import Verif.Spec.Init
import Mathlib.Analysis.Complex.ExponentialBounds
import Mathlib.Tactic.NormNum
import Mathlib.Tactic.Linarith

/-!
# C63, C64: the initial conditions
-/

namespace Verif.Props

open Init Arr Complex NoiseArgs
open scoped ComplexConjugate

theorem specMean_eq (A : Arr ℝ) : Spec.mean A.h A.w A.at' = A.mean := by
  unfold Spec.mean Arr.mean Arr.sum
  congr 1
  rw [Finset.sum_range]
  refine Finset.sum_congr rfl fun i _ => ?_
  rw [Finset.sum_range]
  exact Finset.sum_congr rfl fun j _ => by simp [at']

/-- **C63.**  The noise has the requested shape, mean 0 and mean square 1 (that
is, standard deviation 1), for every random draw and all arguments for which it
is defined (`none`: not a number, see `C63_defined`). -/
theorem C63_mean_std (a : NoiseArgs) (rndj : ℕ → ℕ → ℂ) (A : Arr ℝ) (h : get_fft_noise a rndj = .ok (some A)) :
    A.h = a.h ∧ A.w = a.w ∧ Spec.mean a.h a.w A.at' = 0 ∧ Spec.mean a.h a.w (fun i j => A.at' i j ^ 2) = 1 := by
  by_cases c1 : a.h = 0 ∨ a.w = 0
  · simp only [get_fft_noise, if_pos c1] at h; cases h
  by_cases c2 : a.size = 0 ∨ a.scale = 0
  · simp only [get_fft_noise, if_neg c1, if_pos c2] at h; injection h with h; cases h
  rw [not_or] at c1 c2
  have i1 : NeZero a.h := ⟨c1.1⟩
  have i2 : NeZero a.w := ⟨c1.2⟩
  by_cases hm : a.minFreq = 0 ∨ a.maxFreq = 0 ∨ a.minFreq ≤ a.maxFreq
  · rcases noise_eq a rfl rfl c2.1 c2.2 hm rndj with ⟨-, e⟩ | ⟨-, g, e, g1, g2⟩
    · rw [e] at h; injection h with h; cases h
    · rw [e] at h
      injection h with h
      injection h with h
      subst h
      refine ⟨rfl, rfl, ?_, ?_⟩
      · rw [← g1]; exact specMean_eq (ofField g)
      · rw [← g2, ← specMean_eq]
        unfold Spec.mean
        congr 1
        refine Finset.sum_congr rfl fun i hi => Finset.sum_congr rfl fun j hj => ?_
        have hi' : i < a.h := Finset.mem_range.1 hi
        have hj' : j < a.w := Finset.mem_range.1 hj
        simp only
        rw [ofField_at' _ hi' hj', ofField_at' _ hi' hj']
  · exfalso
    have hk : ¬ 0 ≤ a.weight (a.k 0 0) := fun q => hm ((weight_nonneg a _).1 q)
    unfold get_fft_noise at h
    rw [if_neg (by tauto), if_neg (by tauto), if_pos (by
      rintro ⟨-, q⟩; exact hk (q 0 (Nat.pos_of_ne_zero c1.1) 0 (Nat.pos_of_ne_zero c1.2)))] at h
    cases h

/-- **C63**, exact arithmetic: the assertion on the weight mask fails if and only
if a lower and an upper frequency are given with the lower above the upper one. -/
theorem C63_assertion (a : NoiseArgs) (h0 : 0 < a.h) (w0 : 0 < a.w) (hs : a.size ≠ 0) (hc : a.scale ≠ 0)
    (rndj : ℕ → ℕ → ℂ) : get_fft_noise a rndj = .error .assertionError ↔
      a.minFreq ≠ 0 ∧ a.maxFreq ≠ 0 ∧ a.maxFreq < a.minFreq := by
  have i1 : NeZero a.h := ⟨h0.ne'⟩
  have i2 : NeZero a.w := ⟨w0.ne'⟩
  by_cases hm : a.minFreq = 0 ∨ a.maxFreq = 0 ∨ a.minFreq ≤ a.maxFreq
  · have : ¬ (a.minFreq ≠ 0 ∧ a.maxFreq ≠ 0 ∧ a.maxFreq < a.minFreq) := by
      rintro ⟨h1, h2, h3⟩
      rcases hm with h | h | h
      · exact h1 h
      · exact h2 h
      · linarith
    refine ⟨fun e => ?_, fun q => absurd q this⟩
    rcases noise_eq a rfl rfl hs hc hm rndj with ⟨-, e'⟩ | ⟨-, g, e', -⟩ <;> (rw [e'] at e; cases e)
  · rw [not_or, not_or, not_le] at hm
    refine ⟨fun _ => hm, fun _ => ?_⟩
    have hk : ¬ 0 ≤ a.weight (a.k 0 0) := fun q => by
      rcases (weight_nonneg a _).1 q with h | h | h
      · exact hm.1 h
      · exact hm.2.1 h
      · exact absurd h (not_le.2 hm.2.2)
    unfold get_fft_noise
    rw [if_neg (by omega), if_neg (by tauto), if_pos (by rintro ⟨-, q⟩; exact hk (q 0 h0 0 w0))]

/-- **C63.**  The noise is defined for every draw that contains any wave at all:
some mode `(k, l) ≠ (0, 0)` for which the random number and the conjugate of the
one at `(-k, -l)` do not cancel (only the real part of the transform is used). -/
theorem C63_defined (a : NoiseArgs) (h0 : 0 < a.h) (w0 : 0 < a.w) (hs : a.size ≠ 0) (hc : a.scale ≠ 0)
    (hm : a.minFreq = 0 ∨ a.maxFreq = 0 ∨ a.minFreq < a.maxFreq) (rndj : ℕ → ℕ → ℂ) (k l : ℕ) (hk : k < a.h)
    (hl : l < a.w) (hkl : ¬ (k = 0 ∧ l = 0))
    (hr : rndj k l + conj (rndj ((a.h - k) % a.h) ((a.w - l) % a.w)) ≠ 0) :
    ∃ A, get_fft_noise a rndj = .ok (some A) := by
  have i1 : NeZero a.h := ⟨h0.ne'⟩
  have i2 : NeZero a.w := ⟨w0.ne'⟩
  have e1 : ((k : ZMod a.h)).val = k := by rw [ZMod.val_natCast, Nat.mod_eq_of_lt hk]
  have e2 : ((l : ZMod a.w)).val = l := by rw [ZMod.val_natCast, Nat.mod_eq_of_lt hl]
  have e3 : (-(k : ZMod a.h)).val = (a.h - k) % a.h := by rw [ZMod.neg_val', e1]
  have e4 : (-(l : ZMod a.w)).val = (a.w - l) % a.w := by rw [ZMod.neg_val', e2]
  have hraw := raw_ne a hs hc hm (fun k l => rndj k.val l.val) (k : ZMod a.h) (l : ZMod a.w)
    (by rw [← ZMod.val_eq_zero, ← ZMod.val_eq_zero, e1, e2]; exact hkl) (by simp only [e1, e2, e3, e4]; exact hr)
  rcases noise_eq a rfl rfl hs hc (by
    rcases hm with h | h | h
    exacts [.inl h, .inr (.inl h), .inr (.inr h.le)]) rndj with ⟨e, -⟩ | ⟨-, g, e, -⟩
  · exact absurd e hraw
  · exact ⟨_, e⟩

/-- **C63** for `run`: for every grid of at least two points per direction, every
`k0 > 0` and every draw that contains a wave, the initial noise has mean 0 and
standard deviation 1; no assertion fails. -/
theorem C63_run (n : ℕ) (k0 : ℝ) (hk0 : 0 < k0) (rndj : ℕ → ℕ → ℂ) (k l : ℕ) (hk : k < n) (hl : l < n)
    (hkl : ¬ (k = 0 ∧ l = 0)) (hr : rndj k l + conj (rndj ((n - k) % n) ((n - l) % n)) ≠ 0) :
    ∃ A, get_fft_noise (runNoise n k0) rndj = .ok (some A) ∧ A.h = n ∧ A.w = n ∧ Spec.mean n n A.at' = 0 ∧
      Spec.mean n n (fun i j => A.at' i j ^ 2) = 1 := by
  have n0 : 0 < n := by omega
  have nR : (1 : ℝ) ≤ n := by exact_mod_cast n0
  have hpi := Real.pi_pos
  have hL : 0 < 2 * Real.pi / k0 := by positivity
  have hmin : (runNoise n k0).minFreq = 1 / (2 * Real.pi / k0 / n * n * 100) := by
    unfold minFreq runNoise
    simp only
    rw [if_pos (by positivity)]
  have hmax : (runNoise n k0).maxFreq = 1 / (2 * Real.pi / k0 / n * 12) := by
    unfold maxFreq runNoise
    simp only
    rw [if_pos (by positivity)]
  have hlt : (runNoise n k0).minFreq < (runNoise n k0).maxFreq := by
    rw [hmin, hmax]
    apply one_div_lt_one_div_of_lt (by positivity)
    have : 0 < 2 * Real.pi / k0 / n := by positivity
    nlinarith
  obtain ⟨A, hA⟩ := C63_defined (runNoise n k0) n0 n0 hL.ne' one_ne_zero (.inr (.inr hlt)) rndj k l hk hl hkl hr
  exact ⟨A, hA, C63_mean_std _ _ _ hA⟩

/-- a draw for a 4 × 4 grid -/
example : ∃ A, get_fft_noise (runNoise 4 (3 / 20)) (fun k l => (k : ℂ) + 2 * l) = .ok (some A) ∧
    Spec.mean 4 4 A.at' = 0 :=
  let ⟨A, h1, _, _, h2, _⟩ := C63_run 4 (3 / 20) (by norm_num) (fun k l => (k : ℂ) + 2 * l) 1 0 (by norm_num)
    (by norm_num) (by norm_num) (by
      have : (starRingEnd ℂ) 3 = 3 := Complex.conj_ofNat 3
      norm_num [this])
  ⟨A, h1, h2⟩

section rounding
set_option exponentiation.threshold 2000
variable {fl ex : ℝ → ℝ}

theorem fl_bounds (hfl : Spec.Rounds fl) {x : ℝ} (h1 : 1 / 2 ^ 1000 ≤ x) (h2 : x ≤ 2 ^ 1000) :
    x * (999 / 1000) ≤ fl x ∧ fl x ≤ x * (1001 / 1000) := by
  have hx : 0 < x := lt_of_lt_of_le (by positivity) h1
  have h3 : (1 : ℝ) / 2 ^ 1022 ≤ 1 / 2 ^ 1000 :=
    one_div_le_one_div_of_le (by positivity) (pow_le_pow_right₀ (by norm_num) (by norm_num))
  have h4 : (2 : ℝ) ^ 1000 ≤ 2 ^ 1023 := pow_le_pow_right₀ (by norm_num) (by norm_num)
  have := hfl.rel x (by rw [abs_of_pos hx]; linarith) (by rw [abs_of_pos hx]; linarith)
  rw [abs_of_pos hx, abs_le] at this
  have h5 : x / 2 ^ 53 ≤ x / 1000 := div_le_div_of_nonneg_left hx.le (by norm_num) (by norm_num)
  constructor <;> linarith

/-- the computed step function at `k = 0` -/
theorem step_bounds (hfl : Spec.Rounds fl) (hex : Spec.Exponential ex) {m : ℝ} (h1 : 1 / 20 ≤ m) (h2 : m ≤ 1 / 2) :
    1 / 2 ^ 900 ≤ fl (1 / fl (1 + ex (fl (fl (m - 0) * 1000)))) ∧
      fl (1 / fl (1 + ex (fl (fl (m - 0) * 1000)))) ≤ 1 / 2 ^ 54 := by
  rw [sub_zero]
  have s1 : (1 : ℝ) / 2 ^ 1000 ≤ 1 / 20 := by norm_num
  have s2 : (1000 : ℝ) ≤ 2 ^ 1000 := le_trans (by norm_num : (1000 : ℝ) ≤ 2 ^ 10) (pow_le_pow_right₀ (by norm_num) (by norm_num))
  obtain ⟨a1, a2⟩ := fl_bounds hfl (x := m) (by linarith) (by linarith)
  obtain ⟨b1, b2⟩ := fl_bounds hfl (x := fl m * 1000) (by linarith) (by linarith)
  generalize fl (fl m * 1000) = z at b1 b2 ⊢
  have z1 : 49 ≤ z := by linarith
  have z2 : z ≤ 502 := by linarith
  obtain ⟨c1, c2⟩ := hex z (by linarith) (by linarith)
  have e1 : (2 : ℝ) ^ 60 ≤ Real.exp z := by
    have h := Real.exp_one_gt_d9
    have h' : (2.7 : ℝ) ^ 49 ≤ Real.exp 1 ^ 49 := pow_le_pow_left₀ (by norm_num) (by linarith) _
    rw [← Real.exp_nat_mul] at h'
    calc (2 : ℝ) ^ 60 ≤ 2.7 ^ 49 := by norm_num
      _ ≤ _ := h'
      _ ≤ _ := Real.exp_le_exp.2 (by push_cast; linarith)
  have e2 : Real.exp z ≤ (2 : ℝ) ^ 804 := by
    have h := Real.exp_one_lt_d9
    have h' : Real.exp 1 ^ 502 ≤ (3 : ℝ) ^ 502 := pow_le_pow_left₀ (Real.exp_pos _).le (by linarith) _
    rw [← Real.exp_nat_mul] at h'
    calc Real.exp z ≤ _ := Real.exp_le_exp.2 (by push_cast; linarith)
      _ ≤ _ := h'
      _ ≤ _ := by norm_num
  generalize ex z = E at c1 c2 ⊢
  have p1 : (2 : ℝ) ^ 60 = 2 ^ 59 * 2 := by norm_num
  have p2 : (2 : ℝ) ^ 804 * 4 = 2 ^ 806 := by rw [show (806 : ℕ) = 804 + 2 from rfl, pow_add]; norm_num
  have p3 : (1 : ℝ) ≤ 2 ^ 804 := one_le_pow₀ (by norm_num)
  have E1 : (2 : ℝ) ^ 59 ≤ 1 + E := by linarith
  have E2 : 1 + E ≤ 2 ^ 806 := by linarith
  have q1 : (2 : ℝ) ^ 806 ≤ 2 ^ 1000 := pow_le_pow_right₀ (by norm_num) (by norm_num)
  have q2 : (1 : ℝ) / 2 ^ 1000 ≤ 2 ^ 59 := by
    have : (1 : ℝ) / 2 ^ 1000 ≤ 1 := by rw [div_le_one (by positivity)]; exact one_le_pow₀ (by norm_num)
    linarith [show (1 : ℝ) ≤ 2 ^ 59 by norm_num]
  obtain ⟨d1, d2⟩ := fl_bounds hfl (x := 1 + E) (by linarith) (by linarith)
  generalize fl (1 + E) = F at d1 d2 ⊢
  have r1 : (2 : ℝ) ^ 59 = 2 ^ 58 * 2 := by norm_num
  have r2 : (2 : ℝ) ^ 806 * 2 = 2 ^ 807 := (pow_succ _ _).symm
  have p58 : (1 : ℝ) ≤ 2 ^ 58 := by norm_num
  have p806 : (0 : ℝ) < 2 ^ 806 := by positivity
  have F1 : (2 : ℝ) ^ 58 ≤ F := by linarith
  have F2 : F ≤ 2 ^ 807 := by linarith
  have G1 : (1 : ℝ) / 2 ^ 807 ≤ 1 / F := one_div_le_one_div_of_le (by linarith) F2
  have G2 : 1 / F ≤ (1 : ℝ) / 2 ^ 58 := one_div_le_one_div_of_le (by positivity) F1
  have t1 : (1 : ℝ) / 2 ^ 1000 ≤ 1 / 2 ^ 807 :=
    one_div_le_one_div_of_le (by positivity) (pow_le_pow_right₀ (by norm_num) (by norm_num))
  have t2 : (1 : ℝ) / 2 ^ 58 ≤ 2 ^ 1000 := by
    have : (1 : ℝ) / 2 ^ 58 ≤ 1 := by norm_num
    linarith [one_le_pow₀ (n := 1000) (show (1 : ℝ) ≤ 2 by norm_num)]
  obtain ⟨f1, f2⟩ := fl_bounds hfl (x := 1 / F) (by linarith) (by linarith)
  have u1 : (1 : ℝ) / 2 ^ 900 ≤ 1 / 2 ^ 807 * (1 / 2) := by
    rw [one_div_mul_one_div, ← pow_succ]
    exact one_div_le_one_div_of_le (by positivity) (pow_le_pow_right₀ (by norm_num) (by norm_num))
  have u2 : (0 : ℝ) < 1 / 2 ^ 807 := by positivity
  constructor
  · linarith
  · have : (1 : ℝ) / 2 ^ 58 * 2 ≤ 1 / 2 ^ 54 := by norm_num
    have : (0 : ℝ) < 1 / 2 ^ 58 := by positivity
    linarith

/-- **C63 is violated in floating-point arithmetic**: for a lower frequency of at
least 0.05 and an upper frequency up to 0.5, both given in the right order, the
computed mask is negative at the mean mode (`k = 0`), so that the assertion
fails.  The lower step `σ` is rounded away in `1 + (σ - 1)`, the upper one is
then subtracted from zero. -/
theorem C63_float_mask_violated (hfl : Spec.Rounds fl) (hex : Spec.Exponential ex) (a : NoiseArgs)
    (h1 : 1 / 20 ≤ a.minFreq) (h2 : a.minFreq ≤ a.maxFreq) (h3 : a.maxFreq ≤ 1 / 2) (hf : a.factor ≠ 0) :
    a.k 0 0 = 0 ∧ a.weightFl fl ex (a.k 0 0) < 0 := by
  have hk : a.k 0 0 = 0 := by
    unfold NoiseArgs.k fftfreq
    simp [fftfreqInt, hf]
  refine ⟨hk, ?_⟩
  rw [hk]
  obtain ⟨s1, s2⟩ := step_bounds hfl hex h1 (by linarith)
  obtain ⟨t1, t2⟩ := step_bounds hfl hex (m := a.maxFreq) (by linarith) h3
  unfold weightFl
  simp only
  rw [if_pos (by linarith), if_pos (by linarith)]
  rw [hfl.near _ (le_trans (by positivity) s1) s2]
  rw [show (1 : ℝ) + -1 = 0 by ring, hfl.zero, zero_sub]
  generalize fl (1 / fl (1 + ex (fl (fl (a.maxFreq - 0) * 1000)))) = t at t1 t2
  have t0 : 0 < t := lt_of_lt_of_le (by positivity) t1
  have := hfl.rel (-t) (by
    rw [abs_neg, abs_of_pos t0]
    exact le_trans (one_div_le_one_div_of_le (by positivity) (pow_le_pow_right₀ (by norm_num) (by norm_num))) t1) (by
    rw [abs_neg, abs_of_pos t0]
    have : (1 : ℝ) / 2 ^ 54 ≤ 1 := by norm_num
    linarith [one_le_pow₀ (n := 1023) (show (1 : ℝ) ≤ 2 by norm_num)])
  rw [abs_neg, abs_of_pos t0, abs_le] at this
  have h4 : t / 2 ^ 53 < t := div_lt_self t0 (by norm_num)
  linarith

open Classical in
/-- the hypotheses are satisfiable: a rounding that only moves numbers next to -1 -/
example : (⟨4, 4, 1, 1, 1 / 10, 1 / 2, 0, 0, 2⟩ : NoiseArgs).weightFl
    (fun x => if -1 ≤ x ∧ x ≤ 1 / 2 ^ 54 - 1 then -1 else x) Real.exp 0 < 0 := by
  have hfl : Spec.Rounds (fun x => if -1 ≤ x ∧ x ≤ 1 / 2 ^ 54 - 1 then -1 else x) := by
    refine ⟨⟨fun x _ _ => ?_, ?_⟩, fun x h1 h2 => if_pos ⟨by linarith, by linarith⟩⟩
    · split_ifs with h
      · have h3 : |x| = -x := abs_of_neg (by have : (1 : ℝ) / 2 ^ 54 < 1 := by norm_num
                                             linarith)
        rw [h3, abs_le]
        have : (1 : ℝ) / 2 ^ 54 ≤ 1 / 2 := by norm_num
        have h5 : (1 : ℝ) / 2 ^ 54 ≤ (1 / 2) / 2 ^ 53 := by norm_num
        have h6 : (1 / 2 : ℝ) / 2 ^ 53 ≤ -x / 2 ^ 53 := by
          apply div_le_div_of_nonneg_right _ (by positivity)
          linarith
        constructor <;> linarith
      · rw [sub_self, abs_zero]; positivity
    · exact if_neg (by norm_num)
  have hex : Spec.Exponential Real.exp := fun x _ _ => by
    have := Real.exp_pos x
    constructor <;> linarith
  have := C63_float_mask_violated hfl hex ⟨4, 4, 1, 1, 1 / 10, 1 / 2, 0, 0, 2⟩ (by norm_num [minFreq])
    (by norm_num [minFreq, maxFreq]) (by norm_num [maxFreq]) two_ne_zero
  rw [this.1] at this
  exact this.2

end rounding

/-! ### C64 -/

theorem sine_eq (h w : ℕ) (L : ℝ) : get_2d_sine h w L = .ok (tab w h fun a b =>
    Real.sin (2 * Real.pi * ((b : ℝ) * L / h) + 1) * Real.sin (2 * Real.pi * ((a : ℝ) * L / h) + 1)) := by
  unfold get_2d_sine meshgridXY
  simp only [map_tab]
  exact zip_tab _ _ _ _ _

/-- **C64.**  All values lie in [-1, 1], for every size and box length. -/
theorem C64_values (h w : ℕ) (L : ℝ) : ∃ A, get_2d_sine h w L = .ok A ∧
    ∀ i j, i < A.h → j < A.w → -1 ≤ A.at' i j ∧ A.at' i j ≤ 1 := by
  refine ⟨_, sine_eq h w L, fun i j hi hj => ?_⟩
  have hi' : i < w := hi
  have hj' : j < h := hj
  rw [tab_at' _ _ _ hi' hj', ← abs_le, abs_mul]
  exact mul_le_one₀ (Real.abs_sin_le_one _) (abs_nonneg _) (Real.abs_sin_le_one _)

/-- **C64**, square grids (the only ones `run` uses): the requested shape. -/
theorem C64_shape_partial (n : ℕ) (L : ℝ) : ∃ A, get_2d_sine n n L = .ok A ∧ A.h = n ∧ A.w = n :=
  ⟨_, sine_eq n n L, rfl, rfl⟩

/-- **C64 is violated for every other grid**: the result has the transposed shape. -/
theorem C64_shape_violated (h w : ℕ) (hw : h ≠ w) (L : ℝ) :
    (∃ A, get_2d_sine h w L = .ok A ∧ A.h = w ∧ A.w = h) ∧ ¬ ∃ A, get_2d_sine h w L = .ok A ∧ A.h = h ∧ A.w = w := by
  refine ⟨⟨_, sine_eq h w L, rfl, rfl⟩, ?_⟩
  rintro ⟨A, h1, h2, -⟩
  rw [sine_eq] at h1
  injection h1 with h1
  subst h1
  exact hw h2.symm

example : ¬ ∃ A, get_2d_sine 5 7 1 = .ok A ∧ A.h = 5 ∧ A.w = 7 := (C64_shape_violated 5 7 (by norm_num) 1).2

example : ∃ A, get_fft_noise (runNoise 4 (3 / 20)) (fun k l => (k : ℂ) + 2 * l) = .ok (some A) ∧
    Spec.mean 4 4 (fun i j => A.at' i j ^ 2) = 1 :=
  let ⟨A, h1, _⟩ := C63_run 4 (3 / 20) (by norm_num) (fun k l => (k : ℂ) + 2 * l) 1 0 (by norm_num)
    (by norm_num) (by norm_num) (by
      have : (starRingEnd ℂ) 3 = 3 := Complex.conj_ofNat 3
      norm_num [this])
  ⟨A, h1, (C63_mean_std _ _ A h1).2.2.2⟩

example := C63_assertion ⟨4, 6, 1, 1, 0, 0, 1, 3, 2⟩ (by decide) (by decide) (by norm_num) (by norm_num) (fun _ _ => 1)

example := C63_defined ⟨4, 6, 1, 1, 0, 0, 1, 3, 2⟩ (by decide) (by decide) (by norm_num) (by norm_num) (by norm_num [NoiseArgs.minFreq, NoiseArgs.maxFreq]) (fun _ _ => 1) 1 0
  (by norm_num) (by norm_num) (by norm_num) (by norm_num)

end Verif.Props
