import Verif.Spec.Torus
import Mathlib.Algebra.BigOperators.Ring.Finset
import Mathlib.Algebra.BigOperators.Field
import Mathlib.Algebra.Order.BigOperators.Group.Finset
import Mathlib.Data.ZMod.Basic
import Mathlib.Data.Real.Basic
import Mathlib.Tactic.Ring
import Mathlib.Tactic.FieldSimp
import Mathlib.Tactic.Linarith
import Mathlib.Tactic.Positivity

/-!
# Sums over the torus: translation invariance, summation by parts, Arakawa identities
-/

set_option linter.unusedSectionVars false
set_option linter.unusedVariables false

namespace Verif

open Spec

variable {K : Type} {h w : ℕ} [NeZero h] [NeZero w]

/-- sum over the torus -/
def S [AddCommMonoid K] (f : ZMod h → ZMod w → K) : K := ∑ i, ∑ j, f i j

section comm
variable [AddCommGroup K]

theorem S_shift (f : ZMod h → ZMod w → K) (a : ZMod h) (b : ZMod w) :
    S (fun i j => f (i + a) (j + b)) = S f := by
  unfold S
  rw [← Equiv.sum_comp (Equiv.addRight a) fun i => ∑ j, f i j]
  refine Finset.sum_congr rfl fun i _ => ?_
  rw [← Equiv.sum_comp (Equiv.addRight b) fun j => f _ j]
  rfl

theorem S_add (f g : ZMod h → ZMod w → K) : S (fun i j => f i j + g i j) = S f + S g := by
  simp [S, Finset.sum_add_distrib]
theorem S_sub (f g : ZMod h → ZMod w → K) : S (fun i j => f i j - g i j) = S f - S g := by
  simp [S, Finset.sum_sub_distrib]
theorem S_neg (f : ZMod h → ZMod w → K) : S (fun i j => - f i j) = - S f := by
  simp [S]
theorem S_zero : S (fun (_ : ZMod h) (_ : ZMod w) => (0 : K)) = 0 := by simp [S]

/-- a difference of translates sums to zero -/
theorem S_sub_shift (f : ZMod h → ZMod w → K) (a : ZMod h) (b : ZMod w) :
    S (fun i j => f i j - f (i + a) (j + b)) = 0 := by
  rw [S_sub, S_shift, sub_self]

theorem S_congr {f g : ZMod h → ZMod w → K} (hfg : ∀ i j, f i j = g i j) : S f = S g := by
  unfold S; exact Finset.sum_congr rfl fun i _ => Finset.sum_congr rfl fun j _ => hfg i j

end comm

section ring
variable [Field K]

theorem S_mul_left (c : K) (f : ZMod h → ZMod w → K) : S (fun i j => c * f i j) = c * S f := by
  simp [S, Finset.mul_sum]
theorem S_mul_right (c : K) (f : ZMod h → ZMod w → K) : S (fun i j => f i j * c) = S f * c := by
  simp [S, Finset.sum_mul]
theorem S_div (c : K) (f : ZMod h → ZMod w → K) : S (fun i j => f i j / c) = S f / c := by
  simp [S, Finset.sum_div]
theorem S_const (c : K) : S (fun (_ : ZMod h) (_ : ZMod w) => c) = (h : K) * (w : K) * c := by
  simp [S, Finset.sum_const, ZMod.card]; ring

/-! ### gradient and Laplacian -/

theorem S_gradY (dx : K) (f : ZMod h → ZMod w → K) : S (gradY dx f) = 0 := by
  unfold gradY
  rw [S_div]
  have h1 := S_shift f 1 0
  have h2 := S_shift f (-1) 0
  simp only [add_zero, ← sub_eq_add_neg] at h1 h2
  rw [S_sub (fun i j => f (i + 1) j) (fun i j => f (i - 1) j), h1, h2, sub_self, zero_div]

theorem S_gradX (dx : K) (f : ZMod h → ZMod w → K) : S (gradX dx f) = 0 := by
  unfold gradX
  rw [S_div]
  have h1 := S_shift f 0 1
  have h2 := S_shift f 0 (-1)
  simp only [add_zero, ← sub_eq_add_neg] at h1 h2
  rw [S_sub (fun i j => f i (j + 1)) (fun i j => f i (j - 1)), h1, h2, sub_self, zero_div]

theorem S_gradY_skew (dx : K) (f g : ZMod h → ZMod w → K) :
    S (fun i j => f i j * gradY dx g i j) = - S (fun i j => gradY dx f i j * g i j) := by
  rw [eq_neg_iff_add_eq_zero, ← S_add]
  have e : ∀ i j, f i j * gradY dx g i j + gradY dx f i j * g i j
      = ((f i j * g (i + 1) j + f (i + 1) j * g i j)
        - (f (i + (-1)) (j + 0) * g (i + (-1) + 1) (j + 0) + f (i + (-1) + 1) (j + 0) * g (i + (-1)) (j + 0)))
        / (((2 : ℕ) : K) * dx) := by
    intro i j
    simp only [gradY, add_zero, ← sub_eq_add_neg, sub_add_cancel]
    rw [← mul_div_assoc, div_mul_eq_mul_div, ← add_div]; congr 1; ring
  rw [S_congr e, S_div, S_sub_shift (fun i j => f i j * g (i + 1) j + f (i + 1) j * g i j), zero_div]

theorem S_gradX_skew (dx : K) (f g : ZMod h → ZMod w → K) :
    S (fun i j => f i j * gradX dx g i j) = - S (fun i j => gradX dx f i j * g i j) := by
  rw [eq_neg_iff_add_eq_zero, ← S_add]
  have e : ∀ i j, f i j * gradX dx g i j + gradX dx f i j * g i j
      = ((f i j * g i (j + 1) + f i (j + 1) * g i j)
        - (f (i + 0) (j + (-1)) * g (i + 0) (j + (-1) + 1) + f (i + 0) (j + (-1) + 1) * g (i + 0) (j + (-1))))
        / (((2 : ℕ) : K) * dx) := by
    intro i j
    simp only [gradX, add_zero, ← sub_eq_add_neg, sub_add_cancel]
    rw [← mul_div_assoc, div_mul_eq_mul_div, ← add_div]; congr 1; ring
  rw [S_congr e, S_div, S_sub_shift (fun i j => f i j * g i (j + 1) + f i (j + 1) * g i j), zero_div]

/-- sum of products of forward differences -/
def dirichlet (f g : ZMod h → ZMod w → K) : K :=
  S fun i j => (f (i + 1) j - f i j) * (g (i + 1) j - g i j)
    + (f i (j + 1) - f i j) * (g i (j + 1) - g i j)

theorem dirichlet_comm (f g : ZMod h → ZMod w → K) : dirichlet f g = dirichlet g f :=
  S_congr fun i j => by ring

theorem S_lap_dirichlet (dx : K) (f g : ZMod h → ZMod w → K) :
    S (fun i j => f i j * lap dx g i j) = - (dirichlet f g / dx ^ 2) := by
  rw [dirichlet, ← S_div, eq_neg_iff_add_eq_zero, ← S_add]
  have e : ∀ i j, f i j * lap dx g i j
        + ((f (i + 1) j - f i j) * (g (i + 1) j - g i j)
          + (f i (j + 1) - f i j) * (g i (j + 1) - g i j)) / dx ^ 2
      = (((f (i + 1) j * (g (i + 1) j - g i j))
          - (f (i + (-1) + 1) (j + 0) * (g (i + (-1) + 1) (j + 0) - g (i + (-1)) (j + 0))))
        + ((f i (j + 1) * (g i (j + 1) - g i j))
          - (f (i + 0) (j + (-1) + 1) * (g (i + 0) (j + (-1) + 1) - g (i + 0) (j + (-1)))))) / dx ^ 2 := by
    intro i j
    simp only [lap, add_zero, ← sub_eq_add_neg, sub_add_cancel]
    rw [← mul_div_assoc, ← add_div]; congr 1; push_cast; ring
  rw [S_congr e, S_div, S_add, S_sub_shift (fun i j => f (i + 1) j * (g (i + 1) j - g i j)),
    S_sub_shift (fun i j => f i (j + 1) * (g i (j + 1) - g i j)), add_zero, zero_div]

theorem S_lap_symm (dx : K) (f g : ZMod h → ZMod w → K) :
    S (fun i j => f i j * lap dx g i j) = S (fun i j => lap dx f i j * g i j) := by
  rw [S_lap_dirichlet, dirichlet_comm, ← S_lap_dirichlet]
  exact S_congr fun i j => mul_comm _ _

theorem S_lap (dx : K) (f : ZMod h → ZMod w → K) : S (lap dx f) = 0 := by
  have := S_lap_dirichlet dx (fun _ _ => 1) f
  simp only [one_mul, dirichlet, sub_self, zero_mul, add_zero, S_zero, zero_div, neg_zero] at this
  exact this

theorem S_lap_iterate (dx : K) (f : ZMod h → ZMod w → K) (N : ℕ) :
    S ((lap dx)^[N + 1] f) = 0 := by
  rw [Function.iterate_succ_apply']; exact S_lap dx _

theorem S_lap_iterate_symm (dx : K) (m : ℕ) (f g : ZMod h → ZMod w → K) :
    S (fun i j => f i j * (lap dx)^[m] g i j) = S (fun i j => (lap dx)^[m] f i j * g i j) := by
  induction m generalizing f g with
  | zero => rfl
  | succ m ih =>
    rw [Function.iterate_succ_apply, ih f (lap dx g), S_lap_symm, Function.iterate_succ_apply']

/-! ### Arakawa's Jacobian -/

theorem jac_antisymm (dx : K) (z p : ZMod h → ZMod w → K) (i : ZMod h) (j : ZMod w) :
    jac dx z p i j = - jac dx p z i j := by
  unfold jac; rw [← neg_div]; congr 1; ring

theorem jac_const_left (dx c : K) (p : ZMod h → ZMod w → K) (i : ZMod h) (j : ZMod w) :
    jac dx (fun _ _ => c) p i j = 0 := by
  unfold jac; rw [div_eq_zero_iff]; left; ring

theorem jac_lin_left (dx a b : K) (y z p : ZMod h → ZMod w → K) (i : ZMod h) (j : ZMod w) :
    jac dx (fun i j => a * y i j + b * z i j) p i j = a * jac dx y p i j + b * jac dx z p i j := by
  unfold jac; rw [← mul_div_assoc, ← mul_div_assoc, ← add_div]; congr 1; ring

theorem jac_lin_right (dx a b : K) (z p q : ZMod h → ZMod w → K) (i : ZMod h) (j : ZMod w) :
    jac dx z (fun i j => a * p i j + b * q i j) i j = a * jac dx z p i j + b * jac dx z q i j := by
  unfold jac; rw [← mul_div_assoc, ← mul_div_assoc, ← add_div]; congr 1; ring

theorem jac_self (dx : K) (z : ZMod h → ZMod w → K) (i : ZMod h) (j : ZMod w) :
    jac dx z z i j = 0 := by
  unfold jac; rw [div_eq_zero_iff]; left; ring

theorem S_jac_left (dx : K) (z p : ZMod h → ZMod w → K) :
    S (fun i j => z i j * jac dx z p i j) = 0 := by
  have e : ∀ i j, z i j * jac dx z p i j =
      (((fun i j => z i j * z i (j + 1) *
            (p (i + 1) j - p (i - 1) j + p (i + 1) (j + 1) - p (i - 1) (j + 1))) i j
          - (fun i j => z i j * z i (j + 1) *
            (p (i + 1) j - p (i - 1) j + p (i + 1) (j + 1) - p (i - 1) (j + 1))) (i + 0) (j + (-1)))
        - ((fun i j => z i j * z (i + 1) j *
            (p i (j + 1) - p i (j - 1) + p (i + 1) (j + 1) - p (i + 1) (j - 1))) i j
          - (fun i j => z i j * z (i + 1) j *
            (p i (j + 1) - p i (j - 1) + p (i + 1) (j + 1) - p (i + 1) (j - 1))) (i + (-1)) (j + 0))
        + ((fun i j => z i j * z (i - 1) (j + 1) * (p i (j + 1) - p (i - 1) j)) i j
          - (fun i j => z i j * z (i - 1) (j + 1) * (p i (j + 1) - p (i - 1) j)) (i + 1) (j + (-1)))
        + ((fun i j => z i j * z (i + 1) (j + 1) * (p (i + 1) j - p i (j + 1))) i j
          - (fun i j => z i j * z (i + 1) (j + 1) * (p (i + 1) j - p i (j + 1))) (i + (-1)) (j + (-1))))
        / (((12 : ℕ) : K) * dx ^ 2) := by
    intro i j
    simp only [jac, add_zero, ← sub_eq_add_neg, sub_add_cancel, add_sub_cancel_right]
    rw [← mul_div_assoc]; congr 1; ring
  rw [S_congr e, S_div, S_add, S_add, S_sub, S_sub_shift, S_sub_shift, S_sub_shift, S_sub_shift]
  simp

theorem S_jac_right (dx : K) (z p : ZMod h → ZMod w → K) :
    S (fun i j => p i j * jac dx z p i j) = 0 := by
  have := S_jac_left dx p z
  rw [← neg_eq_zero, ← S_neg]
  rw [← this]
  exact S_congr fun i j => by rw [jac_antisymm dx z p]; ring

theorem S_jac (dx : K) (z p : ZMod h → ZMod w → K) : S (jac dx z p) = 0 := by
  have h1 := S_jac_left dx (fun i j => 1 * z i j + 1 * (fun _ _ => (1 : K)) i j) p
  simp only [jac_lin_left, jac_const_left] at h1
  have h2 := S_jac_left dx z p
  have h3 : S (fun i j => z i j * jac dx z p i j + jac dx z p i j) = 0 := by
    rw [← h1]; exact S_congr fun i j => by ring
  rwa [S_add, h2, zero_add] at h3

end ring

/-! ### signs over ℝ -/

section real

theorem S_nonneg {f : ZMod h → ZMod w → ℝ} (hf : ∀ i j, 0 ≤ f i j) : 0 ≤ S f :=
  Finset.sum_nonneg fun i _ => Finset.sum_nonneg fun j _ => hf i j

theorem S_eq_zero_iff {f : ZMod h → ZMod w → ℝ} (hf : ∀ i j, 0 ≤ f i j) :
    S f = 0 ↔ ∀ i j, f i j = 0 := by
  unfold S
  rw [Finset.sum_eq_zero_iff_of_nonneg fun i _ => Finset.sum_nonneg fun j _ => hf i j]
  constructor
  · intro H i j
    have := H i (Finset.mem_univ i)
    rw [Finset.sum_eq_zero_iff_of_nonneg fun j _ => hf i j] at this
    exact this j (Finset.mem_univ j)
  · intro H i _
    exact Finset.sum_eq_zero fun j _ => H i j

theorem dirichlet_self_nonneg (f : ZMod h → ZMod w → ℝ) : 0 ≤ dirichlet f f :=
  S_nonneg fun i j => add_nonneg (mul_self_nonneg _) (mul_self_nonneg _)

theorem dirichlet_self_eq_zero (f : ZMod h → ZMod w → ℝ) (hf : dirichlet f f = 0) (i : ZMod h)
    (j : ZMod w) : f i j = f 0 0 := by
  unfold dirichlet at hf
  rw [S_eq_zero_iff fun i j => add_nonneg (mul_self_nonneg _) (mul_self_nonneg _)] at hf
  have hy : ∀ i j, f (i + 1) j = f i j := fun i j => by
    have := hf i j
    nlinarith [mul_self_nonneg (f (i + 1) j - f i j), mul_self_nonneg (f i (j + 1) - f i j),
      sq_nonneg (f (i + 1) j - f i j)]
  have hx : ∀ i j, f i (j + 1) = f i j := fun i j => by
    have := hf i j
    nlinarith [mul_self_nonneg (f (i + 1) j - f i j), mul_self_nonneg (f i (j + 1) - f i j)]
  have hy' : ∀ (n : ℕ) j, f (n : ZMod h) j = f 0 j := by
    intro n j
    induction n with
    | zero => simp
    | succ n ih => push_cast; rw [hy, ih]
  have hx' : ∀ (n : ℕ) i, f i (n : ZMod w) = f i 0 := by
    intro n i
    induction n with
    | zero => simp
    | succ n ih => push_cast; rw [hx, ih]
  rw [← ZMod.natCast_zmod_val i, ← ZMod.natCast_zmod_val j, hy', hx']

theorem S_lap_self_nonpos (dx : ℝ) (f : ZMod h → ZMod w → ℝ) :
    S (fun i j => f i j * lap dx f i j) ≤ 0 := by
  rw [S_lap_dirichlet]
  have := dirichlet_self_nonneg f
  have : 0 ≤ dirichlet f f / dx ^ 2 := by positivity
  linarith

/-- the hyperdiffusion quadratic form with the sign `(-1)^(N+1)` is non-positive -/
theorem S_hyper_nonpos (dx : ℝ) (N : ℕ) (f : ZMod h → ZMod w → ℝ) :
    (-1) ^ (N + 1) * S (fun i j => f i j * (lap dx)^[N] f i j) ≤ 0 := by
  rcases Nat.even_or_odd' N with ⟨m, rfl | rfl⟩
  · have : S (fun i j => f i j * (lap dx)^[2 * m] f i j)
        = S (fun i j => (lap dx)^[m] f i j * (lap dx)^[m] f i j) := by
      rw [two_mul, Function.iterate_add_apply, S_lap_iterate_symm]
    rw [this]
    have h0 : 0 ≤ S (fun i j => (lap dx)^[m] f i j * (lap dx)^[m] f i j) :=
      S_nonneg fun i j => mul_self_nonneg _
    rw [pow_succ, pow_mul]; norm_num; exact h0
  · have : S (fun i j => f i j * (lap dx)^[2 * m + 1] f i j)
        = S (fun i j => (lap dx)^[m] f i j * lap dx ((lap dx)^[m] f) i j) := by
      rw [show 2 * m + 1 = m + (m + 1) by ring, Function.iterate_add_apply, S_lap_iterate_symm,
        Function.iterate_succ_apply']
    rw [this]
    have h0 := S_lap_self_nonpos dx ((lap dx)^[m] f)
    rw [show 2 * m + 1 + 1 = 2 * (m + 1) by ring, pow_mul]; norm_num; exact h0

end real

/-! ### translations (no laws) -/

section lawless
variable {α : Type} [Add α] [Sub α] [Mul α] [Div α] [NatCast α] [Pow α ℕ] {h w : ℕ}

theorem lap_shift (dx : α) (f : ZMod h → ZMod w → α) (s : ZMod h) (t : ZMod w) :
    lap dx (shift s t f) = shift s t (lap dx f) := by
  funext i j
  simp only [lap, shift, sub_right_comm _ _ s, sub_right_comm _ _ t, sub_add_eq_add_sub]

theorem lap_iterate_shift (dx : α) (N : ℕ) (f : ZMod h → ZMod w → α) (s : ZMod h) (t : ZMod w) :
    (lap dx)^[N] (shift s t f) = shift s t ((lap dx)^[N] f) := by
  induction N generalizing f with
  | zero => rfl
  | succ N ih => rw [Function.iterate_succ_apply, lap_shift, ih, Function.iterate_succ_apply]

theorem gradY_shift (dx : α) (f : ZMod h → ZMod w → α) (s : ZMod h) (t : ZMod w) :
    gradY dx (shift s t f) = shift s t (gradY dx f) := by
  funext i j
  simp only [gradY, shift, sub_right_comm _ _ s, sub_add_eq_add_sub]

theorem gradX_shift (dx : α) (f : ZMod h → ZMod w → α) (s : ZMod h) (t : ZMod w) :
    gradX dx (shift s t f) = shift s t (gradX dx f) := by
  funext i j
  simp only [gradX, shift, sub_right_comm _ _ t, sub_add_eq_add_sub]

theorem jac_shift (dx : α) (f g : ZMod h → ZMod w → α) (s : ZMod h) (t : ZMod w) :
    jac dx (shift s t f) (shift s t g) = shift s t (jac dx f g) := by
  funext i j
  simp only [jac, shift, sub_right_comm _ _ s, sub_right_comm _ _ t, sub_add_eq_add_sub]

end lawless

end Verif
