import Verif.NumPy.Arr

/-!
# Model of `gradients/numpy_gradients.py` and `gradients/numba_gradients.py`

The scalar operations are unspecified parameters (no algebraic law is
available), so these definitions also describe the IEEE-float program.
Integer literals and `dx**2` are `Nat.cast` and `^ 2` of the parameter type.
-/

namespace Verif

variable {α : Type} [Inhabited α] [Add α] [Sub α] [Mul α] [Div α] [NatCast α] [Pow α ℕ]

open Arr

namespace NumpyGradients

/-- `numpy_gradients.laplace`, `gradients/numpy_gradients.py` l.22-39. -/
def laplace (padded : Arr α) (dx : α) : Py (Arr α) :=
  ((.ok (padded.sl s0m2 s1m1)                        -- above
      + .ok (padded.sl s1m1 s0m2)                    -- left
      - ((4 : ℕ) : α) * (.ok (padded.sl s1m1 s1m1) : Py (Arr α))   -- center
      + .ok (padded.sl s1m1 s2)                      -- right
      + .ok (padded.sl s2 s1m1)) : Py (Arr α))       -- below
    / dx ^ 2

/-- `numpy_gradients.periodic_laplace`, l.42-58 (two-dimensional input, so
`pad_size = 1`). -/
def periodic_laplace (arr : Arr α) (dx : α) : Py (Arr α) := do
  laplace (← arr.padWrap 1) dx

/-- `numpy_gradients.periodic_laplace_N`, l.61-75: the `for` loop re-pads in
every iteration.  `N` is a natural number (`range(N)` is empty for `N ≤ 0`). -/
def periodic_laplace_N (arr : Arr α) (dx : α) : ℕ → Py (Arr α)
  | 0 => .ok arr
  | N + 1 => do periodic_laplace_N (← periodic_laplace arr dx) dx N

/-- `numpy_gradients.gradient`, l.100-119; falling through all branches returns
`None`. -/
def gradient (padded : Arr α) (dx : α) (axis : Int := 0) : Py (Arr α) :=
  if axis = 0 then
    (.ok (padded.sl s2 s1m1) - .ok (padded.sl s0m2 s1m1) : Py (Arr α)) / (((2 : ℕ) : α) * dx)
  else if axis = 1 then
    (.ok (padded.sl s1m1 s2) - .ok (padded.sl s1m1 s0m2) : Py (Arr α)) / (((2 : ℕ) : α) * dx)
  else if axis = -2 then
    (.ok (padded.sl s2 s1m1) - .ok (padded.sl s0m2 s1m1) : Py (Arr α)) / (((2 : ℕ) : α) * dx)
  else if axis = -1 then
    (.ok (padded.sl s1m1 s2) - .ok (padded.sl s1m1 s0m2) : Py (Arr α)) / (((2 : ℕ) : α) * dx)
  else .error .noneResult

/-- `numpy_gradients.periodic_gradient`, l.122-141.  For two-dimensional input
both branches of the pad-size selection pad one cell on every side. -/
def periodic_gradient (input_field : Arr α) (dx : α) (axis : Int := 0) : Py (Arr α) := do
  let padded ← if axis < 0 then input_field.padWrap 1 else input_field.padWrap 1
  gradient padded dx axis

/-- `numpy_gradients.fourier_laplace`, l.78-97.  Every statement before l.96
succeeds on a non-empty array (`fft2` raises `ValueError` on an empty one);
l.96 evaluates the name `times`, which is bound nowhere in the module. -/
def fourier_laplace (grid : Arr α) (_dx : α) (_N : ℕ := 1) : Py (Arr α) :=
  if grid.h = 0 ∨ grid.w = 0 then .error .valueError
  else .error (.nameError "times")

end NumpyGradients

namespace NumbaGradients

/-- `numba_gradients.laplace`, `gradients/numba_gradients.py` l.5-23. -/
def laplace (padded : Arr α) (dx : α) : Py (Arr α) :=
  ((.ok (padded.sl s0m2 s1m1)                        -- above
      + .ok (padded.sl s1m1 s0m2)                    -- left
      - ((4 : ℕ) : α) * (.ok (padded.sl s1m1 s1m1) : Py (Arr α))   -- center
      + .ok (padded.sl s1m1 s2)                      -- right
      + .ok (padded.sl s2 s1m1)) : Py (Arr α))       -- below
    / dx ^ 2

/-- `numba_gradients.periodic_laplace`, l.26-37. -/
def periodic_laplace (arr : Arr α) (dx : α) : Py (Arr α) := do
  laplace (← arr.padWrap 1) dx

/-- `numba_gradients.laplace_N`, l.40-55: no re-padding inside the loop. -/
def laplace_N (arr : Arr α) (dx : α) : ℕ → Py (Arr α)
  | 0 => .ok arr
  | N + 1 => do laplace_N (← laplace arr dx) dx N

/-- `numba_gradients.periodic_laplace_N`, l.58-70: pads once by `N`. -/
def periodic_laplace_N (arr : Arr α) (dx : α) (N : ℕ) : Py (Arr α) := do
  laplace_N (← arr.padWrap N) dx N

/-- `numba_gradients.gradient`, l.73-89; only axes 0 and 1. -/
def gradient (padded : Arr α) (dx : α) (axis : Int := 0) : Py (Arr α) :=
  if axis = 0 then
    (.ok (padded.sl s2 s1m1) - .ok (padded.sl s0m2 s1m1) : Py (Arr α)) / (((2 : ℕ) : α) * dx)
  else if axis = 1 then
    (.ok (padded.sl s1m1 s2) - .ok (padded.sl s1m1 s0m2) : Py (Arr α)) / (((2 : ℕ) : α) * dx)
  else .error .noneResult

/-- `numba_gradients.periodic_gradient`, l.92-105. -/
def periodic_gradient (input_field : Arr α) (dx : α) (axis : Int := 0) : Py (Arr α) := do
  gradient (← input_field.padWrap 1) dx axis

end NumbaGradients

end Verif
