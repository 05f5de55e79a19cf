import Verif.NumPy.Arr
import Verif.NumPy.Reduce
import Mathlib.Analysis.SpecialFunctions.Exp
import Mathlib.Analysis.SpecialFunctions.Complex.CircleAddChar

/-!
# NumPy layer: `np.fft`

`fft2`, `ifft2` (default and `norm="ortho"` normalisation), `fftfreq`,
`meshgrid`.  Exact complex arithmetic; the defining sums are those of the
NumPy documentation.
-/

namespace Verif.Arr

open Complex

/-- `np.fft.fft2(a)` = `np.fft.fftn(a)` for two-dimensional `a`:
`A[k,l] = Σ_{m,n} a[m,n] exp(-2πi (k m / h + l n / w))`.
An empty axis raises `ValueError` ("Invalid number of FFT data points"). -/
noncomputable def fft2 (a : Arr ℂ) : Py (Arr ℂ) :=
  if a.h = 0 ∨ a.w = 0 then .error .valueError
  else .ok (tab a.h a.w fun k l => ∑ m : Fin a.h, ∑ n : Fin a.w,
    a.get m n * exp (-(2 * Real.pi * I * ((k : ℂ) * (m : ℕ) / (a.h : ℂ) + (l : ℂ) * (n : ℕ) / (a.w : ℂ)))))

/-- `np.fft.ifft2(a)`: conjugate kernel and division by `h*w`. -/
noncomputable def ifft2 (a : Arr ℂ) : Py (Arr ℂ) :=
  if a.h = 0 ∨ a.w = 0 then .error .valueError
  else .ok (tab a.h a.w fun k l => (∑ m : Fin a.h, ∑ n : Fin a.w,
    a.get m n * exp (2 * Real.pi * I * ((k : ℂ) * (m : ℕ) / (a.h : ℂ) + (l : ℂ) * (n : ℕ) / (a.w : ℂ))))
      / ((a.h : ℂ) * (a.w : ℂ)))

/-- `np.fft.fft2(a, norm="ortho")`: `fft2` divided by `sqrt(h*w)`. -/
noncomputable def fft2Ortho (a : Arr ℂ) : Py (Arr ℂ) := do
  let r ← fft2 a
  return r.map (· / ((Real.sqrt ((a.h : ℝ) * (a.w : ℝ)) : ℝ) : ℂ))

/-- the integer table behind `np.fft.fftfreq(n)`: entries `0..N-1`, then
`-(n//2)..-1`, where `N = (n-1)//2 + 1` -/
def fftfreqInt (n k : ℕ) : Int :=
  if k < (n - 1) / 2 + 1 then k else -((n / 2 : ℕ) : Int) + ((k : Int) - (((n - 1) / 2 + 1 : ℕ) : Int))

/-- `np.fft.fftfreq(n)[k]` -/
noncomputable def fftfreq (n k : ℕ) : ℝ := (fftfreqInt n k : ℝ) / (n : ℝ)

/-- `np.fft.fftfreq(n, d=dx)[k]` -/
noncomputable def fftfreqD (n : ℕ) (dx : ℝ) (k : ℕ) : ℝ := (fftfreqInt n k : ℝ) / ((n : ℝ) * dx)

/-- `np.real(a)` -/
def real (a : Arr ℂ) : Arr ℝ := a.map Complex.re

/-- `np.array(a, dtype=np.complex128)` for a real array -/
def toComplex (a : Arr ℝ) : Arr ℂ := a.map (fun x : ℝ => (x : ℂ))

end Verif.Arr
