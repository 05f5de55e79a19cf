import Verif.NumPy.Arr
import Mathlib.Algebra.BigOperators.Fin
import Mathlib.Algebra.BigOperators.Field
import Mathlib.Data.ZMod.Basic
import Mathlib.Data.Real.Basic

/-!
# NumPy layer: reductions (`np.sum`, `np.mean`) over a field
-/

namespace Verif.Arr

variable {K : Type}

/-- `np.sum(a)` (exact summation) -/
def sum [AddCommMonoid K] (a : Arr K) : K := ∑ i, ∑ j, a.get i j

/-- `np.mean(a)`: sum of all entries divided by their number.  (NumPy returns
`nan` for an empty array; the quotient is totalised here.) -/
def mean [Field K] (a : Arr K) : K := a.sum / ((a.h : K) * (a.w : K))

/-- `np.mean(a, axis=-2, keepdims=True)`: array of shape `(1, w)` of column
means (mean over the rows `y`). -/
def meanRows [Field K] (a : Arr K) : Arr K :=
  ⟨1, a.w, fun _ j => (∑ i, a.get i j) / (a.h : K)⟩

theorem sum_ofField [AddCommMonoid K] {h w : ℕ} [NeZero h] [NeZero w] (f : ZMod h → ZMod w → K) :
    (ofField f).sum = ∑ i, ∑ j, f i j := by
  cases h with
  | zero => exact absurd rfl (NeZero.ne 0)
  | succ h =>
    cases w with
    | zero => exact absurd rfl (NeZero.ne 0)
    | succ w =>
      change (∑ i : Fin (h + 1), ∑ j : Fin (w + 1), f ((i : ℕ) : ZMod (h+1)) ((j : ℕ) : ZMod (w+1))) = _
      have hc : ∀ (n : ℕ) (i : Fin (n + 1)), (((i : ℕ) : ZMod (n + 1)) : Fin (n + 1)) = i :=
        fun n i => ZMod.natCast_zmod_val (n := n + 1) i
      exact Finset.sum_congr rfl fun i _ => Finset.sum_congr rfl fun j _ => by
        congr 1
        · exact hc h i
        · exact hc w j

theorem mean_ofField [Field K] {h w : ℕ} [NeZero h] [NeZero w] (f : ZMod h → ZMod w → K) :
    (ofField f).mean = (∑ i, ∑ j, f i j) / ((h : K) * (w : K)) := by
  rw [mean, sum_ofField]; rfl

theorem meanRows_ofField [Field K] {h w : ℕ} [NeZero h] (f : ZMod h → ZMod w → K) :
    (ofField f).meanRows = tab 1 w fun _ j => (∑ i, f i (j : ZMod w)) / (h : K) := by
  cases h with
  | zero => exact absurd rfl (NeZero.ne 0)
  | succ h =>
    have hc : ∀ (n : ℕ) (i : Fin (n + 1)), (((i : ℕ) : ZMod (n + 1)) : Fin (n + 1)) = i :=
        fun n i => ZMod.natCast_zmod_val (n := n + 1) i
    unfold meanRows tab
    congr 1
    funext _ j
    congr 1
    exact Finset.sum_congr rfl fun i _ => by
      change f ((i : ℕ) : ZMod (h+1)) _ = _
      congr 1; exact hc h i

end Verif.Arr
