import Verif.Lemmas.Fourier
import Verif.Model.Poisson

/-!
# The Poisson solvers are Fourier multipliers
-/

set_option linter.unusedSectionVars false

namespace Verif

open Arr Complex
open scoped ComplexConjugate

variable {h w : ℕ} [NeZero h] [NeZero w]

/-! ### frequencies -/

theorem fftfreqInt_eq {n k : ℕ} (hk : k < n) :
    fftfreqInt n k = if 2 * k < n then (k : Int) else (k : Int) - n := by
  unfold fftfreqInt
  split <;> split <;> omega

/-- `fftfreq` as a function on the dual torus -/
noncomputable def kap {n : ℕ} (k : ZMod n) : ℝ := fftfreq n k.val

theorem kap_cast {n : ℕ} {i : ℕ} (hi : i < n) : kap (i : ZMod n) = fftfreq n i := by
  unfold kap; rw [ZMod.val_natCast, Nat.mod_eq_of_lt hi]

theorem fftfreqInt_neg {n : ℕ} [NeZero n] (k : ZMod n) :
    fftfreqInt n (-k).val = - fftfreqInt n k.val ∨ -k = k := by
  by_cases hk : k = 0
  · right; simp [hk]
  · have : NeZero k := ⟨hk⟩
    have hv : (-k).val = n - k.val := ZMod.val_neg_of_ne_zero k
    have h1 := ZMod.val_lt k
    have h2 : k.val ≠ 0 := by rwa [Ne, ZMod.val_eq_zero]
    by_cases h3 : 2 * k.val = n
    · right
      apply ZMod.val_injective
      rw [hv]; omega
    · left
      rw [hv, fftfreqInt_eq h1, fftfreqInt_eq (by omega)]
      split <;> split <;> omega

theorem kap_neg_sq {n : ℕ} [NeZero n] (k : ZMod n) : kap (-k) ^ 2 = kap k ^ 2 := by
  rcases fftfreqInt_neg k with e | e
  · unfold kap fftfreq; rw [e]; push_cast; ring
  · rw [e]

theorem kap_eq_zero {n : ℕ} [NeZero n] (k : ZMod n) : kap k = 0 ↔ k = 0 := by
  unfold kap fftfreq
  have hn : ((n : ℕ) : ℝ) ≠ 0 := Nat.cast_ne_zero.mpr (NeZero.ne n)
  rw [div_eq_zero_iff, or_iff_left hn, Int.cast_eq_zero, fftfreqInt_eq (ZMod.val_lt k),
    ← ZMod.val_eq_zero]
  have := ZMod.val_lt k
  split <;> omega

/-- symbol of the Laplacian with unit spacing -/
noncomputable def lamb (k : ZMod h) (l : ZMod w) : ℝ := -((2 * Real.pi) ^ 2) * (kap k ^ 2 + kap l ^ 2)

theorem lamb_neg (k : ZMod h) (l : ZMod w) : lamb (-k) (-l) = lamb k l := by
  unfold lamb; rw [kap_neg_sq, kap_neg_sq]

theorem lamb_nonpos (k : ZMod h) (l : ZMod w) : lamb k l ≤ 0 := by
  unfold lamb
  have : 0 ≤ (2 * Real.pi) ^ 2 * (kap k ^ 2 + kap l ^ 2) := by positivity
  linarith

theorem lamb_eq_zero (k : ZMod h) (l : ZMod w) : lamb k l = 0 ↔ k = 0 ∧ l = 0 := by
  unfold lamb
  have : -((2 * Real.pi) ^ 2) ≠ 0 := neg_ne_zero.mpr (pow_ne_zero 2 (by positivity))
  rw [mul_eq_zero, or_iff_right this]
  constructor
  · intro e
    have h1 : kap k ^ 2 = 0 := by nlinarith [sq_nonneg (kap k), sq_nonneg (kap l)]
    have h2 : kap l ^ 2 = 0 := by nlinarith [sq_nonneg (kap k), sq_nonneg (kap l)]
    exact ⟨(kap_eq_zero k).mp (pow_eq_zero_iff two_ne_zero |>.mp h1),
      (kap_eq_zero l).mp (pow_eq_zero_iff two_ne_zero |>.mp h2)⟩
  · rintro ⟨rfl, rfl⟩
    rw [(kap_eq_zero _).mpr rfl, (kap_eq_zero _).mpr rfl]; ring

/-! ### fft2 / ifft2 compute `D` / `ID` -/

theorem sum_fin_ofField {K : Type} [AddCommMonoid K] (g : ZMod h → ZMod w → K) :
    (∑ m : Fin h, ∑ n : Fin w, g ((m : ℕ) : ZMod h) ((n : ℕ) : ZMod w)) = ∑ i, ∑ j, g i j :=
  sum_ofField g

theorem fft2_ofField (f : ZMod h → ZMod w → ℂ) : fft2 (ofField f) = .ok (ofField (D f)) := by
  unfold fft2
  rw [if_neg (by simp [NeZero.ne])]
  congr 1
  refine tab_congr rfl rfl fun k l _ _ => ?_
  unfold D S
  rw [← sum_fin_ofField]
  refine Finset.sum_congr rfl fun m _ => Finset.sum_congr rfl fun n _ => ?_
  change f _ _ * _ = _
  rw [ec_neg_exp, ec_neg_exp, ← exp_add]
  congr 2
  simp only [ofField_h, ofField_w]
  ring

theorem ifft2_ofField (f : ZMod h → ZMod w → ℂ) : ifft2 (ofField f) = .ok (ofField (ID f)) := by
  unfold ifft2
  rw [if_neg (by simp [NeZero.ne])]
  congr 1
  refine tab_congr rfl rfl fun k l _ _ => ?_
  unfold ID S
  rw [← sum_fin_ofField]
  simp only [ofField_h, ofField_w]
  congr 1
  refine Finset.sum_congr rfl fun m _ => Finset.sum_congr rfl fun n _ => ?_
  change f _ _ * _ = _
  rw [ec_exp, ec_exp, ← exp_add]
  congr 2
  ring

theorem toComplex_ofField (f : ZMod h → ZMod w → ℝ) :
    (ofField f).toComplex = ofField fun i j => (f i j : ℂ) := rfl
theorem real_ofField (f : ZMod h → ZMod w → ℂ) :
    (ofField f).real = ofField fun i j => (f i j).re := rfl

theorem cast_eq_zero_iff {n i : ℕ} [NeZero n] (hi : i < n) : (i : ZMod n) = 0 ↔ i = 0 := by
  rw [← ZMod.val_eq_zero, ZMod.val_natCast, Nat.mod_eq_of_lt hi]

/-- complexified real field -/
abbrev cx (f : ZMod h → ZMod w → ℝ) : ZMod h → ZMod w → ℂ := fun i j => (f i j : ℂ)

open Classical in
/-- the multiplier of the NumPy solver (without `dx**2`) -/
noncomputable def sig (m : ℕ) (k : ZMod h) (l : ZMod w) : ℝ :=
  if k = 0 ∧ l = 0 then (if m = 0 then 1 else 0) else 1 / lamb k l ^ m

theorem sig_neg (m : ℕ) (k : ZMod h) (l : ZMod w) : sig m (-k) (-l) = sig m k l := by
  unfold sig; simp [lamb_neg]

/-- real field obtained by applying a Fourier multiplier -/
noncomputable def mult (s : ZMod h → ZMod w → ℝ) (f : ZMod h → ZMod w → ℝ) : ZMod h → ZMod w → ℝ :=
  fun i j => (ID (fun k l => (s k l : ℂ) * D (cx f) k l) i j).re

theorem mult_cx (s : ZMod h → ZMod w → ℝ) (hs : ∀ k l, s (-k) (-l) = s k l)
    (f : ZMod h → ZMod w → ℝ) : cx (mult s f) = ID (fun k l => (s k l : ℂ) * D (cx f) k l) := by
  funext i j
  refine ID_real_re _ (fun k l => ?_) i j
  rw [map_mul, conj_ofReal, hs, ← D_real_symm]

theorem D_mult (s : ZMod h → ZMod w → ℝ) (hs : ∀ k l, s (-k) (-l) = s k l)
    (f : ZMod h → ZMod w → ℝ) : D (cx (mult s f)) = fun k l => (s k l : ℂ) * D (cx f) k l := by
  rw [mult_cx s hs, D_ID]

theorem cx_inj {f g : ZMod h → ZMod w → ℝ} (e : cx f = cx g) : f = g := by
  funext i j
  exact_mod_cast congrFun (congrFun e i) j

theorem mult_ext {f g : ZMod h → ZMod w → ℝ} (e : D (cx f) = D (cx g)) : f = g :=
  cx_inj (D_inj e)

open Classical in
theorem numpy_poisson_ofField (f : ZMod h → ZMod w → ℝ) (dx : ℝ) (m : ℕ) :
    NumpyPoisson.fourier_poisson_double (ofField f) dx m
      = .ok (ofField fun i j => mult (sig m) f i j * dx ^ 2) := by
  unfold NumpyPoisson.fourier_poisson_double
  simp only [toComplex_ofField, fft2_ofField, Py.ok_bind, ofField_h, ofField_w]
  rw [show ofField (D (cx f)) = tab h w fun i j => D (cx f) i j from rfl, zip_tab]
  simp only [Py.ok_bind]
  rw [zip_tab]
  simp only [Py.ok_bind]
  have e : (tab h w fun i j => if FloatX.isZero
        (if i = 0 ∧ j = 0 then FloatX.inf else FloatX.fin (-((2 * Real.pi) ^ 2) *
          (tab h w fun i j => fftfreq h i ^ 2 + fftfreq w j ^ 2 : Arr ℝ).at' i j)) then 0
        else FloatX.cdiv (D (cx f) i j) (FloatX.pow
          (if i = 0 ∧ j = 0 then FloatX.inf else FloatX.fin (-((2 * Real.pi) ^ 2) *
          (tab h w fun i j => fftfreq h i ^ 2 + fftfreq w j ^ 2 : Arr ℝ).at' i j)) m))
      = ofField fun k l => ((sig m k l : ℝ) : ℂ) * D (cx f) k l := by
    refine tab_congr rfl rfl fun i j hi hj => ?_
    rw [tab_at' _ _ _ hi hj]
    simp only [sig, cast_eq_zero_iff hi, cast_eq_zero_iff hj]
    by_cases h0 : i = 0 ∧ j = 0
    · rw [if_pos h0, if_pos h0]
      cases m with
      | zero => simp [FloatX.isZero, FloatX.pow, FloatX.cdiv]
      | succ m => simp [FloatX.isZero, FloatX.pow, FloatX.cdiv]
    · rw [if_neg h0, if_neg h0]
      have hl : -((2 * Real.pi) ^ 2) * (fftfreq h i ^ 2 + fftfreq w j ^ 2)
          = lamb (i : ZMod h) (j : ZMod w) := by
        unfold lamb; rw [kap_cast hi, kap_cast hj]
      rw [hl]
      have hne : lamb (i : ZMod h) (j : ZMod w) ≠ 0 := by
        rw [Ne, lamb_eq_zero, cast_eq_zero_iff hi, cast_eq_zero_iff hj]; exact h0
      simp only [FloatX.isZero, hne, if_false, FloatX.pow, FloatX.cdiv]
      push_cast; ring
  rw [e, ifft2_ofField]
  rfl

/-! ### Numba solver -/

theorem int16_id {z : Int} (h1 : -32768 ≤ z) (h2 : z < 32768) : NumbaPoisson.int16 z = z := by
  unfold NumbaPoisson.int16
  rw [Int.bmod_def]
  split <;> omega

theorem custom_fftfreqInt_eq {n k : ℕ} (hn : n ≤ 65536) (hk : k < n) :
    NumbaPoisson.custom_fftfreqInt n k = fftfreqInt n k := by
  unfold NumbaPoisson.custom_fftfreqInt fftfreqInt
  split
  · rw [int16_id] <;> omega
  · rw [int16_id] <;> omega

theorem custom_fftfreq_eq {n k : ℕ} (hn : n ≤ 65536) (hk : k < n) :
    NumbaPoisson.custom_fftfreq n k = fftfreq n k := by
  unfold NumbaPoisson.custom_fftfreq fftfreq
  rw [custom_fftfreqInt_eq hn hk]

open Classical in
/-- the multiplier of the Numba solver (without `dx**2`) -/
noncomputable def sigNumba (m : ℕ) (k : ZMod h) (l : ZMod w) : ℝ :=
  if k = 0 ∧ l = 0 then 1 / (10 ^ 14) ^ m else 1 / lamb k l ^ m

theorem sigNumba_neg (m : ℕ) (k : ZMod h) (l : ZMod w) : sigNumba m (-k) (-l) = sigNumba m k l := by
  unfold sigNumba; simp [lamb_neg]

theorem numba_poisson_ofField (hh : h ≤ 65536) (hw : w ≤ 65536) (f : ZMod h → ZMod w → ℝ) (dx : ℝ)
    (m : ℕ) : NumbaPoisson.fourier_poisson_double (ofField f) dx m
      = .ok (ofField fun i j => mult (sigNumba m) f i j * dx ^ 2) := by
  unfold NumbaPoisson.fourier_poisson_double NumbaPoisson.core_computation NumbaPoisson.fftfreq_sq
  simp only [toComplex_ofField, fft2_ofField, Py.ok_bind, ofField_h, ofField_w, tab_h, tab_w]
  rw [show ofField (D (cx f)) = tab h w fun i j => D (cx f) i j from rfl, zip_tab]
  simp only [Py.ok_bind]
  rw [zip_tab]
  simp only [Py.ok_bind, Py.pure_eq, map_tab]
  have e : (tab h w fun i j => (if (if i = 0 ∧ j = 0 then (10 : ℝ) ^ 14 else -((2 * Real.pi) ^ 2) *
          (tab h w fun i j => NumbaPoisson.custom_fftfreq h i ^ 2
            + NumbaPoisson.custom_fftfreq w j ^ 2 : Arr ℝ).at' i j) = 0 then 0
        else D (cx f) i j) / (((if i = 0 ∧ j = 0 then (10 : ℝ) ^ 14 else -((2 * Real.pi) ^ 2) *
          (tab h w fun i j => NumbaPoisson.custom_fftfreq h i ^ 2
            + NumbaPoisson.custom_fftfreq w j ^ 2 : Arr ℝ).at' i j) ^ m : ℝ) : ℂ)
          * ((dx ^ 2 : ℝ) : ℂ))
      = ofField fun k l => ((dx ^ 2 : ℝ) : ℂ) * (((sigNumba m k l : ℝ) : ℂ) * D (cx f) k l) := by
    refine tab_congr rfl rfl fun i j hi hj => ?_
    rw [tab_at' _ _ _ hi hj, custom_fftfreq_eq hh hi, custom_fftfreq_eq hw hj]
    simp only [sigNumba, cast_eq_zero_iff hi, cast_eq_zero_iff hj]
    by_cases h0 : i = 0 ∧ j = 0
    · rw [if_pos h0, if_pos h0, if_neg (by positivity)]
      push_cast; ring
    · rw [if_neg h0, if_neg h0]
      have hl : -((2 * Real.pi) ^ 2) * (fftfreq h i ^ 2 + fftfreq w j ^ 2)
          = lamb (i : ZMod h) (j : ZMod w) := by
        unfold lamb; rw [kap_cast hi, kap_cast hj]
      rw [hl]
      have hne : lamb (i : ZMod h) (j : ZMod w) ≠ 0 := by
        rw [Ne, lamb_eq_zero, cast_eq_zero_iff hi, cast_eq_zero_iff hj]; exact h0
      rw [if_neg hne]
      push_cast; ring
  rw [e, ifft2_ofField, ID_smul]
  simp only [Py.ok_bind]
  rw [real_ofField]
  congr 2
  funext i j
  rw [re_ofReal_mul, mul_comm]
  rfl

end Verif
