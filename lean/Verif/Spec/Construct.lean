import Verif.Model.Namespace
import Mathlib.Data.Int.Cast.Lemmas
import Mathlib.Algebra.Order.AbsoluteValue.Basic

/-!
# Specification: the arguments of a call

What a caller who knows the signature of a function means by a call.
-/

namespace Verif.Spec

/-- the value the call `f(*pos, **kw)` gives to the parameter number `i`, called `name` -/
def given {V : Type} (pos : List V) (kw : NS V) (i : ℕ) (name : String) : Option V :=
  if h : i < pos.length then some pos[i] else kw.get? name

/-- the call fits the signature: no more positional arguments than parameters, every keyword is
the name of a parameter not given by position, and the first `required` parameters are given -/
structure FitsSignature {V : Type} (params : List String) (required : ℕ) (pos : List V) (kw : NS V) : Prop where
  positional : pos.length ≤ params.length
  keywords : ∀ k ∈ kw.keys, ∃ i, ∃ h : i < params.length, params[i] = k ∧ pos.length ≤ i
  complete : ∀ i (h : i < params.length), i < required → (given pos kw i params[i]).isSome

/-- `z` is `x` without its fractional part: `int(x)` -/
def IsIntPart (x : ℝ) (z : ℤ) : Prop :=
  |(z : ℝ)| ≤ |x| ∧ |x - z| < 1 ∧ (0 < x → 0 ≤ z) ∧ (x < 0 → z ≤ 0)

end Verif.Spec
