import Verif.NumPy.FFT

/-!
# Model of `gradients/phiml_gradients.py` and `poisson_solvers/phiml_fourier_poisson.py`

A PhiML tensor with the spatial dimensions `y`, `x` is stored as an array with
rows `y` and columns `x` (no batch or channel dimension).  Exact arithmetic:
PhiML hands the sums to a backend whose order of summation is not specified,
and works in single precision by default.  `@pm.jit_compile` is the identity.

Assumed about PhiML (from its documentation):
* `pm.convolve(t, kernel, extrapolation=PERIODIC)` weights the neighbours of
  every point with the entries of the kernel, indices modulo the shape;
* `pm.spatial_gradient(t, dx, difference="central", padding=PERIODIC, dims=d,
  stack_dim=None)` is `(upper - lower) / (2 dx)` with the periodic neighbours
  along `d`;
* `pm.fft`/`pm.ifft` transform all spatial dimensions like `np.fft.fft2`/`ifft2`;
* `pm.fftfreq(shape)` holds `np.fft.fftfreq(n)` per spatial dimension;
* `pm.safe_div(a, b)` is `a / b`, and 0 where `b = 0`.

Not modelled: `laplace` (passes a keyword `mode` that `pm.convolve` does not
have) and `gradient` (slices a tensor by position).  An empty dimension is
given the error of the NumPy functions.
-/

namespace Verif

open Arr Complex

namespace Phiml

/-- `pm.convolve(t, kernel, extrapolation=PERIODIC)` for a 3×3 kernel with
dimensions `x` (first index) and `y` (second index).  `gradients/phiml_gradients.py` l.56. -/
def convolve (t : Arr ℝ) (kernel : Fin 3 → Fin 3 → ℝ) : Py (Arr ℝ) := do
  let padded ← t.padWrap 1
  return tab t.h t.w fun i j => ∑ a : Fin 3, ∑ b : Fin 3,
    kernel b a * padded.at' (i + (a : ℕ)) (j + (b : ℕ))

/-- a spatial dimension; `gradients/phiml_gradients.py` l.54, 132 -/
inductive Dim where
  | y
  | x
  deriving DecidableEq

/-- `pm.spatial_gradient` as described above; `gradients/phiml_gradients.py` l.132 -/
noncomputable def spatial_gradient (t : Arr ℝ) (dx : ℝ) (dims : Dim) : Py (Arr ℝ) := do
  let padded ← t.padWrap 1
  return tab t.h t.w fun i j => match dims with
    | .y => (padded.at' (i + 2) (j + 1) - padded.at' i (j + 1)) / (dx * 2)
    | .x => (padded.at' (i + 1) (j + 2) - padded.at' (i + 1) j) / (dx * 2)

open Classical in
/-- `pm.safe_div`; `poisson_solvers/phiml_fourier_poisson.py` l.27 -/
noncomputable def safe_div (a : Arr ℂ) (b : Arr ℝ) : Py (Arr ℂ) :=
  Arr.zip (fun (z : ℂ) (d : ℝ) => if d = 0 then 0 else z / (d : ℂ)) a b

/-- `pm.sum(pm.fftfreq(t.shape)**2, dim="vector")`; `poisson_solvers/phiml_fourier_poisson.py`
l.23 -/
noncomputable def k_squared (t : Arr ℝ) : Arr ℝ :=
  tab t.h t.w fun i j => fftfreq t.h i ^ 2 + fftfreq t.w j ^ 2

end Phiml

namespace PhimlGradients

/-- `laplace_kernel`, `gradients/phiml_gradients.py` l.52-54 -/
def laplace_kernel : Fin 3 → Fin 3 → ℝ := ![![0, 1, 0], ![1, -4, 1], ![0, 1, 0]]

/-- `phiml_gradients.periodic_laplace`, l.40-56 -/
noncomputable def periodic_laplace (arr : Arr ℝ) (dx : ℝ) : Py (Arr ℝ) := do
  return (← Phiml.convolve arr laplace_kernel).map (· / dx ^ 2)

/-- `phiml_gradients.periodic_laplace_N`, l.59-74 -/
noncomputable def periodic_laplace_N (arr : Arr ℝ) (dx : ℝ) : ℕ → Py (Arr ℝ)
  | 0 => .ok arr
  | N + 1 => do periodic_laplace_N (← periodic_laplace arr dx) dx N

/-- `phiml_gradients.fourier_laplace`, l.77-94 -/
noncomputable def fourier_laplace (grid : Arr ℝ) (dx : ℝ) (N : ℕ := 1) : Py (Arr ℝ) := do
  let frequencies ← fft2 grid.toComplex
  let fft_laplace := (Phiml.k_squared grid).map fun k => -((2 * Real.pi) ^ 2) * k
  let product ← Arr.zip (fun (z : ℂ) (d : ℝ) => z * ((d ^ N : ℝ) : ℂ)) frequencies fft_laplace
  let result ← ifft2 product
  return result.real.map (· / dx ^ 2)

/-- `phiml_gradients.periodic_gradient`, l.120-132 -/
noncomputable def periodic_gradient (input_field : Arr ℝ) (dx : ℝ) (axis : Phiml.Dim) :
    Py (Arr ℝ) :=
  Phiml.spatial_gradient input_field dx axis

end PhimlGradients

namespace PhimlPoisson

/-- `fourier_poisson_single`, `poisson_solvers/phiml_fourier_poisson.py` l.19-29 -/
noncomputable def fourier_poisson_single (tensor : Arr ℝ) (dx : ℝ) (times : ℕ := 1) :
    Py (Arr ℝ) := do
  let frequencies ← fft2 tensor.toComplex
  let fft_laplace := (Phiml.k_squared tensor).map fun k => -((2 * Real.pi) ^ 2) * k
  let divisor := fft_laplace.map fun d => d ^ times
  let safe_division ← Phiml.safe_div frequencies divisor
  let result ← ifft2 safe_division
  return result.real.map (· * dx ^ 2)

end PhimlPoisson

end Verif
