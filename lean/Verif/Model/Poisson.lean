import Verif.NumPy.FFT

/-!
# Model of `poisson_solvers/numpy_fourier_poisson.py` and `numba_fourier_poisson.py`

Exact real/complex arithmetic.  `fourier_poisson_single` is the same program
with single-precision storage and has the same model as `_double`.
`times` is a natural number.
-/

namespace Verif

open Arr Complex

/-- A floating-point number that may be `np.inf`.  `poisson_solvers/numpy_fourier_poisson.py`
l.28. -/
inductive FloatX where
  | fin (x : ℝ)
  | inf

namespace FloatX

/-- `x ** n`; `numpy_fourier_poisson.py` l.31 -/
noncomputable def pow : FloatX → ℕ → FloatX
  | fin x, n => fin (x ^ n)
  | inf, 0 => fin 1
  | inf, _ + 1 => inf

/-- `z / x`; the quotient by `inf` is 0.  (`z / 0` is totalised to 0; NumPy
gives `inf`/`nan`.)  `numpy_fourier_poisson.py` l.31 -/
noncomputable def cdiv (z : ℂ) : FloatX → ℂ
  | fin x => z / (x : ℂ)
  | inf => 0

/-- `x == 0`; `numpy_fourier_poisson.py` l.32 -/
def isZero : FloatX → Prop
  | fin x => x = 0
  | inf => False

/-- `numpy_fourier_poisson.py` l.28 -/
instance : Inhabited FloatX := ⟨fin 0⟩

end FloatX

namespace NumpyPoisson

open Classical in
/-- `fourier_poisson_double`, `poisson_solvers/numpy_fourier_poisson.py` l.19-35
(also `fourier_poisson_single` l.38-54). -/
noncomputable def fourier_poisson_double (tensor : Arr ℝ) (dx : ℝ) (times : ℕ := 1) :
    Py (Arr ℝ) := do
  let frequencies ← fft2 tensor.toComplex
  -- l.24-26: meshgrid(indexing="ij"), stack, sum of squares
  let k : Arr ℝ := tab tensor.h tensor.w fun i j => fftfreq tensor.h i ^ 2 + fftfreq tensor.w j ^ 2
  -- l.27-28
  let fft_laplace : Arr FloatX := tab tensor.h tensor.w fun i j =>
    if i = 0 ∧ j = 0 then .inf else .fin (-((2 * Real.pi) ^ 2) * k.at' i j)
  -- l.31-32
  let result ← Arr.zip (fun z d => FloatX.cdiv z (FloatX.pow d times)) frequencies fft_laplace
  let result ← Arr.zip (fun d z => if FloatX.isZero d then 0 else z) fft_laplace result
  -- l.34-35
  let result ← ifft2 result
  return result.real.map (· * dx ^ 2)

open Classical in
/-- `fourier_poisson_numpy`, l.57-93, for scalar `dx`.  `np.meshgrid` without
`indexing="ij"` returns arrays of shape `(w, h)`. -/
noncomputable def fourier_poisson_numpy (grid : Arr ℝ) (dx : ℝ) (times : ℕ := 1) :
    Py (Arr ℝ) := do
  let frequencies ← fft2 grid.toComplex
  -- l.76-78
  let k_squared : Arr ℝ := tab grid.w grid.h fun i j =>
    fftfreq grid.h j ^ 2 + fftfreq grid.w i ^ 2
  -- l.81-84
  let divisor : Arr ℝ := k_squared.map fun x => (-((2 * Real.pi) ^ 2) * x) ^ times
  -- l.86
  let safe_division ← Arr.zip (fun (z : ℂ) (d : ℝ) => if d ≠ 0 then z / (d : ℂ) else 0) frequencies divisor
  -- l.87-90
  let result ← ifft2 safe_division
  return result.real.map (· * dx ^ 2)

end NumpyPoisson

namespace NumbaPoisson

/-- conversion of an `int64` value to `int16` storage (wraps modulo 2^16);
`poisson_solvers/numba_fourier_poisson.py` l.52-55 -/
def int16 (z : Int) : Int := Int.bmod z 65536

/-- integer table of `custom_fftfreq`, `poisson_solvers/numba_fourier_poisson.py`
l.49-55 -/
def custom_fftfreqInt (n k : ℕ) : Int :=
  if k < (n - 1) / 2 + 1 then int16 k
  else int16 (-((n / 2 : ℕ) : Int) + ((k : Int) - (((n - 1) / 2 + 1 : ℕ) : Int)))

/-- `custom_fftfreq(n)[k]`, l.49-56 -/
noncomputable def custom_fftfreq (n k : ℕ) : ℝ := (custom_fftfreqInt n k : ℝ) / (n : ℝ)

/-- `fftfreq_sq`, l.34-46 -/
noncomputable def fftfreq_sq (h w : ℕ) : Arr ℝ :=
  tab h w fun i j => custom_fftfreq h i ^ 2 + custom_fftfreq w j ^ 2

open Classical in
/-- `core_computation`, l.20-31 -/
noncomputable def core_computation (frequencies : Arr ℂ) (k : Arr ℝ) (dx : ℝ) (times : ℕ) :
    Py (Arr ℂ) := do
  let fft_laplace : Arr ℝ := tab k.h k.w fun i j =>
    if i = 0 ∧ j = 0 then 10 ^ 14 else -((2 * Real.pi) ^ 2) * k.at' i j
  let frequencies ← Arr.zip (fun (d : ℝ) (z : ℂ) => if d = 0 then (0 : ℂ) else z) fft_laplace frequencies
  let result ← Arr.zip (fun (z : ℂ) (d : ℝ) => z / ((d ^ times : ℝ) : ℂ)) frequencies fft_laplace
  return result.map (· * ((dx ^ 2 : ℝ) : ℂ))

/-- `fourier_poisson_double`, l.8-17 -/
noncomputable def fourier_poisson_double (tensor : Arr ℝ) (dx : ℝ) (times : ℕ := 1) :
    Py (Arr ℝ) := do
  let frequencies ← fft2 tensor.toComplex
  let k := fftfreq_sq tensor.h tensor.w
  let result_comp ← core_computation frequencies k dx times
  let result ← ifft2 result_comp
  return result.real

end NumbaPoisson

end Verif
