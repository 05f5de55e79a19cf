import Verif.NumPy.Arr
import Mathlib.Analysis.Calculus.Deriv.Basic

/-!
# Specification: smooth periodic functions and their samples on a grid

Functions take `(y, x)`, in the order of the array axes.
-/

namespace Verif.Spec

/-- `G` is the partial derivative of `F` in y -/
def HasPartialY (F G : ℝ → ℝ → ℝ) : Prop := ∀ y x, HasDerivAt (fun y' => F y' x) (G y x) y

/-- `G` is the partial derivative of `F` in x -/
def HasPartialX (F G : ℝ → ℝ → ℝ) : Prop := ∀ y x, HasDerivAt (fun x' => F y x') (G y x) x

/-- the array holds the values of `F` on the grid with spacing `dx`, and `F` is
periodic over the box covered by the array -/
structure Samples (dx : ℝ) (F : ℝ → ℝ → ℝ) (a : Arr ℝ) : Prop where
  entry : ∀ i j, i < a.h → j < a.w → a.at' i j = F (i * dx) (j * dx)
  periodY : ∀ y x, F (y + a.h * dx) x = F y x
  periodX : ∀ y x, F y (x + a.w * dx) = F y x

/-- `D a b` is the partial derivative of `D 0 0`, `a` times in y and `b` times
in x, for all orders up to `r`, and all of them are bounded by `B` -/
structure Partials (r : ℕ) (D : ℕ → ℕ → ℝ → ℝ → ℝ) (B : ℝ) : Prop where
  dy : ∀ a b, a + b + 1 ≤ r → HasPartialY (D a b) (D (a + 1) b)
  dx : ∀ a b, a + b + 1 ≤ r → HasPartialX (D a b) (D a (b + 1))
  bound : ∀ a b, a + b ≤ r → ∀ y x, |D a b y x| ≤ B

/-- the Laplacian, on families of partial derivatives -/
def lapFam (D : ℕ → ℕ → ℝ → ℝ → ℝ) : ℕ → ℕ → ℝ → ℝ → ℝ :=
  fun a b y x => D (a + 2) b y x + D a (b + 2) y x

end Verif.Spec
