import Verif.NumPy.Nd
import Mathlib.Algebra.BigOperators.Group.Finset.Basic
import Mathlib.Algebra.Field.Basic
import Mathlib.Analysis.SpecialFunctions.Trigonometric.Basic
import Mathlib.Algebra.BigOperators.Field

/-!
# Specification: blocks, means and trigonometric polynomials
-/

namespace Verif.Spec

variable {K : Type} [Field K]

/-- sum of the `2^d` values of `f` at the indices `2 i + e` with `e ∈ {0, 1}^d` -/
def blockSum : List ℕ → (List ℕ → K) → K
  | [], f => f []
  | i :: r, f => blockSum r (fun q => f (2 * i :: q)) + blockSum r (fun q => f ((2 * i + 1) :: q))

/-- mean of the `2 × ... × 2` block of `f` with number `r` -/
def blockMean (r : List ℕ) (f : List ℕ → K) : K := blockSum r f / 2 ^ r.length

/-- sum over all indices inside `shape` -/
def total : List ℕ → (List ℕ → K) → K
  | [], f => f []
  | n :: s, f => ∑ i ∈ Finset.range n, total s fun q => f (i :: q)

/-- mean over all indices inside `shape` -/
def meanOver (shape : List ℕ) (f : List ℕ → K) : K := total shape f / (shape.prod : K)

/-- `f` is a trigonometric polynomial of period 1 and degree at most `D` -/
def TrigPoly (D : ℕ) (f : ℝ → ℝ) : Prop := ∃ a b : ℕ → ℝ, ∀ t, f t =
  ∑ k ∈ Finset.range (D + 1), (a k * Real.cos (2 * Real.pi * k * t) + b k * Real.sin (2 * Real.pi * k * t))

end Verif.Spec
