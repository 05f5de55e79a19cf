import Mathlib.Analysis.SpecialFunctions.Exp
import Mathlib.Analysis.SpecialFunctions.Complex.Circle
import Mathlib.Algebra.BigOperators.Field

/-!
# Specification: Fourier series of sampled functions

`f m n` (`m < h`, `n < w`) are the samples of a doubly periodic function on an
`h × w` grid with spacing `dx`.  Nothing here refers to the program model.
-/

namespace Verif.Spec

open Complex

/-- mean of the samples -/
noncomputable def mean (h w : ℕ) (f : ℕ → ℕ → ℝ) : ℝ :=
  (∑ m ∈ Finset.range h, ∑ n ∈ Finset.range w, f m n) / ((h : ℝ) * (w : ℝ))

/-- Fourier coefficient of mode `(k, l)` -/
noncomputable def coef (h w : ℕ) (f : ℕ → ℕ → ℝ) (k l : ℕ) : ℂ :=
  ∑ m ∈ Finset.range h, ∑ n ∈ Finset.range w,
    (f m n : ℂ) * exp (-(2 * Real.pi * I * ((k : ℂ) * (m : ℂ) / (h : ℂ) + (l : ℂ) * (n : ℂ) / (w : ℂ))))

/-- wave number of mode `k` on `n` points with spacing `dx`; modes in the upper
half are negative frequencies -/
noncomputable def wave (n : ℕ) (dx : ℝ) (k : ℕ) : ℝ :=
  2 * Real.pi * (if 2 * k < n then (k : ℝ) else (k : ℝ) - (n : ℝ)) / ((n : ℝ) * dx)

/-- `g` is the (spectral) Laplacian of `f` -/
def IsLaplacian (h w : ℕ) (dx : ℝ) (f g : ℕ → ℕ → ℝ) : Prop :=
  ∀ k < h, ∀ l < w, coef h w g k l
    = ((-(wave h dx k ^ 2 + wave w dx l ^ 2) : ℝ) : ℂ) * coef h w f k l

/-- `g` is the (spectral) derivative of `f` along y (the first index).  As usual
for odd derivatives on an even grid, the Nyquist mode has derivative 0 (its
derivative is not a real field otherwise). -/
def IsDy (h w : ℕ) (dx : ℝ) (f g : ℕ → ℕ → ℝ) : Prop :=
  ∀ k < h, ∀ l < w, coef h w g k l
    = if 2 * k = h then 0 else I * (wave h dx k : ℂ) * coef h w f k l

end Verif.Spec
