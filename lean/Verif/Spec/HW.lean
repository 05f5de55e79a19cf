import Verif.Spec.Torus
import Mathlib.Algebra.BigOperators.Field
import Mathlib.Data.Real.Basic

/-!
# Specification: the semi-discrete Hasegawa–Wakatani equations

Fields are functions on the discrete torus.  Nothing here refers to the
program model.
-/

namespace Verif.Spec

variable {h w : ℕ}

/-- real field on the torus -/
abbrev Fld (h w : ℕ) := ZMod h → ZMod w → ℝ

/-- physical parameters; `nu` is the user's (unsigned) hyperdiffusion coefficient -/
structure Params where
  dx : ℝ
  N : ℕ
  c1 : ℝ
  nu : ℝ
  pb : ℝ
  kappa : ℝ
  zonal : Bool

/-- field minus its mean over y (rows) -/
noncomputable def nonZonal [NeZero h] (f : Fld h w) : Fld h w :=
  fun i j => f i j - (∑ i', f i' j) / (h : ℝ)

/-- the adiabatic coupling `φ - n` (of the non-zonal parts if `zonal`) -/
noncomputable def couple [NeZero h] (zonal : Bool) (p n : Fld h w) : Fld h w :=
  fun i j => if zonal then nonZonal p i j - nonZonal n i j else p i j - n i j

/-- hyperdiffusion `(-1)^(N+1) nu ∇^{2N} f` -/
noncomputable def hyper (P : Params) (f : Fld h w) : Fld h w :=
  fun i j => (-1) ^ (P.N + 1) * P.nu * ((lap P.dx)^[P.N] f) i j

/-- `∂t n = c1 (φ - n) - [φ, n] - κ ∂y φ + D n` -/
noncomputable def rhsN [NeZero h] (P : Params) (n p : Fld h w) : Fld h w := fun i j =>
  P.c1 * couple P.zonal p n i j - P.pb * jac P.dx p n i j - P.kappa * gradY P.dx p i j
    + hyper P n i j

/-- `∂t Ω = c1 (φ - n) - [φ, Ω] + D Ω` -/
noncomputable def rhsO [NeZero h] (P : Params) (n o p : Fld h w) : Fld h w := fun i j =>
  P.c1 * couple P.zonal p n i j - P.pb * jac P.dx p o i j + hyper P o i j

end Verif.Spec
