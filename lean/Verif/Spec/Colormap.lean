import Mathlib.Algebra.Order.Field.Basic
import Mathlib.Algebra.Order.Group.Unbundled.Abs
import Mathlib.Algebra.BigOperators.Group.List.Basic

/-!
# Specification: piecewise linear colour maps

A table of colours (position in hundredths, red, green, blue out of 256), each
pair of neighbouring colours being connected by evenly spaced linear blends.
-/

namespace Verif.Spec

variable {K : Type} [Field K] [LinearOrder K]

/-- the mixture of `a/256` and `b/256` at the fraction `k/n` of the way from `a` to `b` -/
def blend (a b : ℤ) (n k : ℕ) : K := ((a : K) + ((b : K) - a) * (k / n)) / 256

/-- `cs` connects the colours of the table: between two neighbours there is a
share of the `vals` colours proportional to the difference of the positions,
rounded down (up to `δ`), and each of them is the linear blend up to `ε`; the
first colour of the pair is included and the second is not. -/
inductive Blends (ε δ : K) (vals : ℤ) : List (ℤ × ℤ × ℤ × ℤ) → List (K × K × K) → Prop
  | last (p) : Blends ε δ vals [p] []
  | step (p q : ℤ × ℤ × ℤ × ℤ) (rest : List (ℤ × ℤ × ℤ × ℤ)) (s cs : List (K × K × K))
      (lower : ((q.1 : K) - p.1) / 100 * vals - 1 - δ < s.length)
      (upper : (s.length : K) ≤ ((q.1 : K) - p.1) / 100 * vals + δ)
      (colour : ∀ k (h : k < s.length), |s[k].1 - blend p.2.1 q.2.1 s.length k| ≤ ε
        ∧ |s[k].2.1 - blend p.2.2.1 q.2.2.1 s.length k| ≤ ε
        ∧ |s[k].2.2 - blend p.2.2.2 q.2.2.2 s.length k| ≤ ε)
      (rest_ok : Blends ε δ vals (q :: rest) cs) : Blends ε δ vals (p :: q :: rest) (s ++ cs)

end Verif.Spec
