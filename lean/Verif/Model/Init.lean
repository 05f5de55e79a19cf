import Verif.NumPy.FFT
import Verif.NumPy.Reduce
import Mathlib.Analysis.SpecialFunctions.Sqrt
import Mathlib.Analysis.SpecialFunctions.Trigonometric.Basic

/-!
# `src/hw2d/initializations/`

Exact arithmetic.  The random draw is an argument.
-/

namespace Verif.Init

open Complex

/-! ### `sine.py` -/

/-- `np.meshgrid(range(h), range(w))` with its default `indexing='xy'`: two
arrays of shape `(w, h)`, the column and the row numbers; `initializations/sine.py` l.28 -/
def meshgridXY (h w : ℕ) : Arr ℝ × Arr ℝ :=
  (.tab w h fun _ b => (b : ℝ), .tab w h fun a _ => (a : ℝ))

/-- `get_2d_sine((h, w), L)`, `sine.py` l.5-32.  `indices.T * L / h` is computed
on the transposed stack and transposed back. -/
noncomputable def get_2d_sine (h w : ℕ) (L : ℝ) : Py (Arr ℝ) :=
  let x := (meshgridXY h w).1.map fun i => i * L / h
  let y := (meshgridXY h w).2.map fun i => i * L / h
  Arr.zip (· * ·) (x.map fun x => Real.sin (2 * Real.pi * x + 1)) (y.map fun y => Real.sin (2 * Real.pi * y + 1))

/-! ### `fourier_noise.py` -/

/-- arguments of `get_fft_noise`, l.13-22.  `factor` is a natural number. -/
structure NoiseArgs where
  h : ℕ
  w : ℕ
  size : ℝ
  scale : ℝ
  min_frequency : ℝ := 0
  max_frequency : ℝ := 0
  min_wavelength : ℝ := 0
  max_wavelength : ℝ := 0
  factor : ℕ := 2

namespace NoiseArgs
variable (a : NoiseArgs)

/-- `k[0, i, j, 0]`, l.49-52 -/
noncomputable def k (i j : ℕ) : ℝ :=
  |Arr.fftfreq a.h i * a.h / a.size * a.scale| ^ a.factor + |Arr.fftfreq a.w j * a.w / a.size * a.scale| ^ a.factor

open Classical in
/-- `min_frequency` after l.55-56 -/
noncomputable def minFreq : ℝ := if a.max_wavelength ≠ 0 then 1 / a.max_wavelength else a.min_frequency

open Classical in
/-- `max_frequency` after l.57-58 -/
noncomputable def maxFreq : ℝ := if a.min_wavelength ≠ 0 then 1 / a.min_wavelength else a.max_frequency

/-- `1 / (1 + np.exp((m - k) * 1e3))`; `initializations/fourier_noise.py` l.63, 66 -/
noncomputable def step (m k : ℝ) : ℝ := 1 / (1 + Real.exp ((m - k) * 1000))

open Classical in
/-- `weight_mask` at an entry where `k` has the value `k`, l.61-66 -/
noncomputable def weight (k : ℝ) : ℝ :=
  let w1 : ℝ := 1
  let w2 : ℝ := if a.minFreq ≠ 0 then w1 + (step a.minFreq k - 1) else w1
  if a.maxFreq ≠ 0 then w2 - step a.maxFreq k else w2

open Classical in
/-- `weight_mask` at an entry where `k` has the value `k`, l.61-66, with every
operation rounded by `fl` and the exponential computed by `ex` -/
noncomputable def weightFl (fl ex : ℝ → ℝ) (k : ℝ) : ℝ :=
  let step := fun m : ℝ => fl (1 / fl (1 + ex (fl (fl (m - k) * 1000))))
  let w1 : ℝ := 1
  let w2 : ℝ := if a.minFreq ≠ 0 then fl (w1 + fl (step a.minFreq - 1)) else w1
  if a.maxFreq ≠ 0 then fl (w2 - step a.maxFreq) else w2

/-- `inv_k[0, i, j, 0]`, l.73-75 -/
noncomputable def invK (i j : ℕ) : ℝ := if i = 0 ∧ j = 0 then 0 else 1 / a.k i j

end NoiseArgs

/-- `np.std(a)` over all entries; `initializations/fourier_noise.py` l.81 -/
noncomputable def std (a : Arr ℝ) : ℝ := Real.sqrt (a.map fun x => (x - a.mean) ^ 2).mean

open Classical in
/-- `get_fft_noise`, l.13-84, for the random numbers `rndj` (l.43-46).  An empty
resolution raises in `fftfreq`.  The result `none` is an array of `nan`: the
standard deviation is zero (l.81), or `size` or `scale` is zero so that `k` has
infinite or undefined entries (depending on the other arguments, the assertion
may then fail). -/
noncomputable def get_fft_noise (a : NoiseArgs) (rndj : ℕ → ℕ → ℂ) : Py (Option (Arr ℝ)) :=
  if a.h = 0 ∨ a.w = 0 then .error .zeroDivisionError
  else if a.size = 0 ∨ a.scale = 0 then .ok none
  else if ¬ ((∀ i < a.h, ∀ j < a.w, a.weight (a.k i j) ≤ 1) ∧ ∀ i < a.h, ∀ j < a.w, 0 ≤ a.weight (a.k i j)) then
    .error .assertionError
  else do
    let fft := Arr.tab a.h a.w fun i j => rndj i j * (a.invK i j : ℂ) * (a.weight (a.k i j) : ℂ)
    let array ← Arr.ifft2 fft
    let array := array.real
    if std array = 0 then return none
    else
      let array := array.map fun x => x / std array
      return some (array.map fun x => x - array.mean)

/-- the call of `run` for `init_type="fourier"`, `run.py` l.120-121 and l.132-139 -/
noncomputable def runNoise (grid_pts : ℕ) (k0 : ℝ) : NoiseArgs :=
  let L := 2 * Real.pi / k0
  let dx := L / grid_pts
  { h := grid_pts, w := grid_pts, size := L, scale := 1, min_wavelength := dx * 12,
    max_wavelength := dx * grid_pts * 100, factor := 2 }

end Verif.Init
