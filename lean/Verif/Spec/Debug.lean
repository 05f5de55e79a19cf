import Verif.Spec.HW

/-!
# Specification: sizes of fields and the increments of a Runge–Kutta step
-/

namespace Verif.Spec

variable {h w : ℕ}

/-- `m` is the largest absolute value of the field -/
def IsMaxAbs (f : Fld h w) (m : ℝ) : Prop := (∀ i j, |f i j| ≤ m) ∧ ∃ i j, |f i j| = m

/-- `K i` and `L i` are the increments of density and vorticity in the four stages of the classical
Runge–Kutta method with step `dt`, from density `n`, vorticity `o` and potential `p`; `pot` gives the
potential of a vorticity -/
structure Stages [NeZero h] (P : Params) (pot : Fld h w → Fld h w) (dt : ℝ) (n o p : Fld h w) (K L : Fin 4 → Fld h w) :
    Prop where
  k1 : ∀ i j, K 0 i j = dt * rhsN P n p i j
  l1 : ∀ i j, L 0 i j = dt * rhsO P n o p i j
  k2 : ∀ n' o' : Fld h w, (∀ i j, n' i j = n i j + K 0 i j / 2) → (∀ i j, o' i j = o i j + L 0 i j / 2) →
    ∀ i j, K 1 i j = dt * rhsN P n' (pot o') i j
  l2 : ∀ n' o' : Fld h w, (∀ i j, n' i j = n i j + K 0 i j / 2) → (∀ i j, o' i j = o i j + L 0 i j / 2) →
    ∀ i j, L 1 i j = dt * rhsO P n' o' (pot o') i j
  k3 : ∀ n' o' : Fld h w, (∀ i j, n' i j = n i j + K 1 i j / 2) → (∀ i j, o' i j = o i j + L 1 i j / 2) →
    ∀ i j, K 2 i j = dt * rhsN P n' (pot o') i j
  l3 : ∀ n' o' : Fld h w, (∀ i j, n' i j = n i j + K 1 i j / 2) → (∀ i j, o' i j = o i j + L 1 i j / 2) →
    ∀ i j, L 2 i j = dt * rhsO P n' o' (pot o') i j
  k4 : ∀ n' o' : Fld h w, (∀ i j, n' i j = n i j + K 2 i j) → (∀ i j, o' i j = o i j + L 2 i j) →
    ∀ i j, K 3 i j = dt * rhsN P n' (pot o') i j
  l4 : ∀ n' o' : Fld h w, (∀ i j, n' i j = n i j + K 2 i j) → (∀ i j, o' i j = o i j + L 2 i j) →
    ∀ i j, L 3 i j = dt * rhsO P n' o' (pot o') i j

end Verif.Spec
