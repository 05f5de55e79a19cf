import Mathlib.Data.ZMod.Basic

/-!
# Specification: difference operators on the discrete torus

A periodic field on an `h × w` grid is a function `ZMod h → ZMod w → α`
(`f i j`: row `i` = y, column `j` = x).  `i + 1`, `i - 1` are the periodic
neighbours.  Nothing here refers to the program model.  The scalar operations
are unspecified, numerals are casts of natural numbers.
-/

namespace Verif.Spec

variable {α : Type} [Add α] [Sub α] [Mul α] [Div α] [NatCast α] [Pow α ℕ] {h w : ℕ}

/-- five-point Laplacian -/
def lap (dx : α) (f : ZMod h → ZMod w → α) : ZMod h → ZMod w → α := fun i j =>
  (f (i - 1) j + f i (j - 1) - ((4 : ℕ) : α) * f i j + f i (j + 1) + f (i + 1) j) / dx ^ 2

/-- central difference along rows (axis 0, `y`) -/
def gradY (dx : α) (f : ZMod h → ZMod w → α) : ZMod h → ZMod w → α := fun i j =>
  (f (i + 1) j - f (i - 1) j) / (((2 : ℕ) : α) * dx)

/-- central difference along columns (axis 1, `x`) -/
def gradX (dx : α) (f : ZMod h → ZMod w → α) : ZMod h → ZMod w → α := fun i j =>
  (f i (j + 1) - f i (j - 1)) / (((2 : ℕ) : α) * dx)

/-- Arakawa's (1966) nine-point Jacobian `z_x p_y - z_y p_x`, fused form -/
def jac (dx : α) (z p : ZMod h → ZMod w → α) : ZMod h → ZMod w → α := fun i j =>
  (z i (j + 1) * (p (i + 1) j - p (i - 1) j + p (i + 1) (j + 1) - p (i - 1) (j + 1))
    - z i (j - 1) * (p (i + 1) j - p (i - 1) j + p (i + 1) (j - 1) - p (i - 1) (j - 1))
    - z (i + 1) j * (p i (j + 1) - p i (j - 1) + p (i + 1) (j + 1) - p (i + 1) (j - 1))
    + z (i - 1) j * (p i (j + 1) - p i (j - 1) + p (i - 1) (j + 1) - p (i - 1) (j - 1))
    + z (i - 1) (j + 1) * (p i (j + 1) - p (i - 1) j)
    + z (i + 1) (j + 1) * (p (i + 1) j - p i (j + 1))
    - z (i + 1) (j - 1) * (p (i + 1) j - p i (j - 1))
    - z (i - 1) (j - 1) * (p i (j - 1) - p (i - 1) j)) / (((12 : ℕ) : α) * dx ^ 2)

/-- the field translated by `(s, t)`: value at `(i, j)` comes from `(i - s, j - t)` -/
def shift (s : ZMod h) (t : ZMod w) (f : ZMod h → ZMod w → α) : ZMod h → ZMod w → α :=
  fun i j => f (i - s) (j - t)

end Verif.Spec
