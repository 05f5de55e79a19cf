import Verif.Spec.Rounding
import Mathlib.Algebra.Order.BigOperators.Group.List

/-!
# Specification: sums in any order

Floating-point addition is not associative, so the result of `np.sum` or `np.mean` depends on the order in
which the entries are added.  A `SumOrder` is such an order with parentheses.
-/

namespace Verif.Spec

/-- a sum with parentheses -/
inductive SumOrder (α : Type) where
  | leaf (x : α)
  | node (s t : SumOrder α)

namespace SumOrder

variable {α : Type}

/-- the value of the sum -/
def sum [Add α] : SumOrder α → α
  | leaf x => x
  | node s t => s.sum + t.sum

/-- the summands -/
def leaves : SumOrder α → List α
  | leaf x => [x]
  | node s t => s.leaves ++ t.leaves

/-- the largest number of additions that a summand takes part in -/
def depth : SumOrder α → ℕ
  | leaf _ => 0
  | node s t => max s.depth t.depth + 1

variable {u : ℝ} {R : Rounded u}

/-- the error of a sum of floating-point numbers, in any order -/
theorem sum_err (u0 : 0 ≤ u) (t : SumOrder (Rd R)) :
    |t.sum.val - (t.leaves.map Rd.val).sum| ≤ ((1 + u) ^ t.depth - 1) * (t.leaves.map fun x => |x.val|).sum ∧
      |(t.leaves.map Rd.val).sum| ≤ (t.leaves.map fun x => |x.val|).sum := by
  induction t with
  | leaf x => simp [sum, leaves, depth]
  | node s t hs ht =>
    simp only [sum, leaves, depth, List.map_append, List.sum_append]
    generalize (s.leaves.map Rd.val).sum = a at *
    generalize (t.leaves.map Rd.val).sum = b at *
    generalize hA : (s.leaves.map fun x => |x.val|).sum = A at *
    generalize hB : (t.leaves.map fun x => |x.val|).sum = B at *
    have A0 : 0 ≤ A := (abs_nonneg _).trans hs.2
    have B0 : 0 ≤ B := (abs_nonneg _).trans ht.2
    have g1 : (1 + u) ^ s.depth ≤ (1 + u) ^ max s.depth t.depth := pow_le_pow_right₀ (by linarith) (le_max_left _ _)
    have g2 : (1 + u) ^ t.depth ≤ (1 + u) ^ max s.depth t.depth := pow_le_pow_right₀ (by linarith) (le_max_right _ _)
    have g3 : 1 ≤ (1 + u) ^ max s.depth t.depth := one_le_pow₀ (by linarith)
    rw [pow_succ]
    generalize (1 + u) ^ max s.depth t.depth = g at *
    have l1 := hs.1.trans (mul_le_mul_of_nonneg_right (sub_le_sub_right g1 1) A0)
    have l2 := ht.1.trans (mul_le_mul_of_nonneg_right (sub_le_sub_right g2 1) B0)
    have r := R.add_err s.sum.val t.sum.val
    refine ⟨?_, (abs_add_le _ _).trans (add_le_add hs.2 ht.2)⟩
    have e : |s.sum.val + t.sum.val - (a + b)| ≤ (g - 1) * (A + B) := by
      rw [show s.sum.val + t.sum.val - (a + b) = (s.sum.val - a) + (t.sum.val - b) by ring]
      refine (abs_add_le _ _).trans ((add_le_add l1 l2).trans (le_of_eq ?_))
      ring
    have e' : |s.sum.val + t.sum.val| ≤ g * (A + B) := by
      have h1 : |s.sum.val + t.sum.val| ≤ |s.sum.val + t.sum.val - (a + b)| + |a + b| := by
        have := abs_add_le (s.sum.val + t.sum.val - (a + b)) (a + b)
        rwa [sub_add_cancel] at this
      have h2 : |a + b| ≤ A + B := (abs_add_le _ _).trans (add_le_add hs.2 ht.2)
      linarith
    change |R.add s.sum.val t.sum.val - (a + b)| ≤ _
    have h3 := abs_sub_le (R.add s.sum.val t.sum.val) (s.sum.val + t.sum.val) (a + b)
    have h4 : u * |s.sum.val + t.sum.val| ≤ u * (g * (A + B)) := mul_le_mul_of_nonneg_left e' u0
    have h5 : (g * (1 + u) - 1) * (A + B) = u * (g * (A + B)) + (g - 1) * (A + B) := by ring
    linarith

end SumOrder

end Verif.Spec
