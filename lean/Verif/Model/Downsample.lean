import Verif.NumPy.Nd
import Verif.NumPy.FFT
import Verif.Model.IO
import Mathlib.Data.List.Sort
import Mathlib.Data.Real.Basic

/-!
# `src/hw2d/utils/downsample.py`
-/

namespace Verif.Downsample

open Complex H5IO

/-! ### `mean_downsample2x` -/

section mean
variable {K : Type} [Field K]

/-- one iteration of the loop, l.20-23 -/
def halve (x : Nd K) (i : ℕ) : Py (Nd K) := do
  let s ← Nd.zip (· + ·) (x.slice i 0 2) (x.slice i 1 2)
  return s.map (· / 2)

/-- the loop over the axes `i`, ..., `i + m - 1` with its `break`, l.15-23 -/
def meanLoop : ℕ → ℕ → Nd K → Py (Nd K)
  | _, 0, x => .ok x
  | i, m + 1, x => if x.shape.getD i 0 = 1 then .ok x else do
      let y ← halve x i
      meanLoop (i + 1) m y

/-- `mean_downsample2x`, l.6-24.  (A rank-0 argument has an empty loop.) -/
def mean_downsample2x (x : Nd K) : Py (Nd K) := meanLoop 1 (x.rank - 1) x

end mean

/-! ### `skip_downsampleNx` -/

/-- the slices for axes `i`, `i + 1`, ... (`m` of them) applied one after the
other; NumPy applies all at once, with the same result; `utils/downsample.py` l.38-41 -/
def skipLoop {α : Type} (k : ℕ) : ℕ → ℕ → Nd α → Nd α
  | _, 0, x => x
  | i, m + 1, x => skipLoop k (i + 1) m (x.slice i 0 k)

/-- `skip_downsampleNx`, l.27-42, for an integer `lowerscale ≥ 0`; a zero step
raises `ValueError`.  A rank-0 argument raises `IndexError` (one slice too
many). -/
def skip_downsampleNx {α : Type} (x : Nd α) (lowerscale : ℕ) : Py (Nd α) :=
  if x.rank = 0 then .error .indexError
  else if lowerscale = 0 ∧ 1 < x.rank then .error .valueError
  else .ok (skipLoop lowerscale 1 (x.rank - 1) x)

/-! ### `median_downsampleNx` -/

section median
variable {K : Type} [Field K] [LinearOrder K]

/-- `np.median` of a list of values: the middle one of the sorted values or the
mean of the two middle ones.  (The empty list gives `nan` in NumPy.)  l.57 -/
def median (l : List K) : K :=
  let s := l.mergeSort (· ≤ ·)
  if l.length % 2 = 1 then s.getD (l.length / 2) 0
  else (s.getD (l.length / 2 - 1) 0 + s.getD (l.length / 2) 0) / 2

/-- `along_axis`, l.48: the axes where the two shapes (the same expression
`x.shape` twice) differ -/
def alongAxis (x : Nd K) : List ℕ :=
  (List.range x.rank).filter fun i => x.shape.getD i 0 ≠ x.shape.getD i 0

/-- `sh`, l.50-52: `j` counts the axes inserted so far -/
def splitShape (shape newShape : List ℕ) : ℕ → List ℕ → List ℕ → List ℕ
  | _, [], sh => sh
  | j, i :: rest, sh =>
    splitShape shape newShape (j + 1) rest (sh.insertIdx (i + 1 + j) (shape.getD i 0 / newShape.getD i 0))

/-- `median_downsampleNx`, l.45-58, for an integer `lowerscale ≥ 0` (NumPy's
integer division by 0 gives 0).  A rank-0 argument raises `IndexError`, l.46. -/
def median_downsampleNx (x : Nd K) (lowerscale : ℕ) : Py (Nd K) :=
  if x.rank = 0 then .error .indexError
  else
    let new_shape := x.shape.headD 0 :: x.shape.tail.map (· / lowerscale)
    let sh := splitShape x.shape new_shape 0 (alongAxis x) x.shape
    do
      let x' ← x.reshape sh
      return (alongAxis x).foldl (fun y ax => y.reduce median (ax + 1)) x'

end median

/-! ### `fourier_downsample` -/

/-- `scipy.fft.rfft(x)[k]` of `n` real values.  Inside `scipy.signal.resample`, l.66. -/
noncomputable def rfft (n : ℕ) (x : ℕ → ℝ) (k : ℕ) : ℂ :=
  ∑ m ∈ Finset.range n, (x m : ℂ) * exp (-(2 * Real.pi * I * ((k : ℂ) * (m : ℂ) / (n : ℂ))))

/-- `scipy.fft.irfft(Y, num)[j]`: the inverse of `rfft`.  The imaginary parts of
`Y[0]` and, for even `num`, of `Y[num/2]` are ignored.  Inside `scipy.signal.resample`, l.66. -/
noncomputable def irfft (num : ℕ) (Y : ℕ → ℂ) (j : ℕ) : ℝ :=
  ((Y 0).re
    + ∑ k ∈ Finset.Ico 1 ((num + 1) / 2), 2 * (Y k * exp (2 * Real.pi * I * ((k : ℂ) * (j : ℂ) / (num : ℂ)))).re
    + if num % 2 = 0 then (Y (num / 2)).re * (-1) ^ j else 0) / (num : ℝ)

/-- the spectrum `Y` built by `scipy.signal.resample` from the spectrum `X` of
`n` real values: the lower `min(n, num) // 2 + 1` coefficients, where the
unpaired coefficient is doubled (fewer points) or halved (more points).  Inside
`scipy.signal.resample`, l.66. -/
noncomputable def resampleSpectrum (n num : ℕ) (X : ℕ → ℂ) (k : ℕ) : ℂ :=
  let N := min num n
  if k < N / 2 + 1 then
    if N % 2 = 0 ∧ k = N / 2 then
      if num < n then X k * 2 else if n < num then X k * (1 / 2) else X k
    else X k
  else 0

/-- `scipy.signal.resample(x, num)` of `n` real values (no window), exact
arithmetic; l.66 -/
noncomputable def resample1 (n num : ℕ) (x : ℕ → ℝ) (j : ℕ) : ℝ :=
  irfft num (resampleSpectrum n num (rfft n x)) j * ((num : ℝ) / (n : ℝ))

/-- `scipy.signal.resample(x, num, axis=-1)`; an empty axis or a number of
points below 1 raises `ValueError`; l.65-66 -/
noncomputable def resampleCols (x : Arr ℝ) (num : ℤ) : Py (Arr ℝ) :=
  if x.w = 0 ∨ num < 1 then .error .valueError
  else .ok (.tab x.h num.toNat fun i j => resample1 x.w num.toNat (fun n => x.at' i n) j)

/-- `scipy.signal.resample(x, num, axis=-2)`; l.65-66 -/
noncomputable def resampleRows (x : Arr ℝ) (num : ℤ) : Py (Arr ℝ) :=
  if x.h = 0 ∨ num < 1 then .error .valueError
  else .ok (.tab num.toNat x.w fun i j => resample1 x.h num.toNat (fun m => x.at' m j) i)

variable {α : Type} [FloatOps α]

/-- one entry of `list(map(round, np.array(x.shape) / lowerscale))`, l.63.  For
`lowerscale = 0` NumPy's quotient is `inf` or `nan` and `round` raises; the
model raises as well (with another exception). -/
def roundedLength (n : ℕ) (lowerscale : α) : Py ℤ := do
  let q ← FloatOps.div (FloatOps.ofInt n) lowerscale
  FloatOps.round q

/-- `fourier_downsample(x, lowerscale)` with the default `axes = (-1, -2)`,
l.61-67, for two-dimensional real `x` -/
noncomputable def fourier_downsample (x : Arr ℝ) (lowerscale : α) : Py (Arr ℝ) := do
  let n0 ← roundedLength x.h lowerscale
  let n1 ← roundedLength x.w lowerscale
  let x ← resampleCols x n1
  resampleRows x n0

/-- `downsample_fnc(v, downsample_factor)` for an entry of the `plasma`
dictionary, `run.py` l.144 and l.235; a number has no shape -/
noncomputable def downsampleCell (v : Cell ℝ) (factor : α) : Py (Cell ℝ) := match v with
  | .arr a => do
    let b ← fourier_downsample a factor
    return .arr b
  | .num _ => .error .typeError

end Verif.Downsample
