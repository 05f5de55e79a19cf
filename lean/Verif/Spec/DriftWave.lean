import Verif.Spec.Modes

/-!
# Specification: which waves of the discretised equations grow

For mode `(k, l)` with coupling coefficient `c`, `1/K²` = potential of a unit of (negative) vorticity,
`s` = discrete wave number of the central difference along y, and `d` = rate of the hyperdiffusion.
Nothing here refers to the program model.
-/

namespace Verif.Spec

/-- damping by the coupling: `c (1 + 1/K²)` -/
noncomputable def dampSym (P : Params) (h w k l : ℕ) : ℝ := couSym P k * (1 - potSym h w P.dx k l)

/-- drive by the background gradient: `κ s c / K²` -/
noncomputable def driveSym (P : Params) (h w k l : ℕ) : ℝ :=
  P.kappa * (Real.sin (2 * Real.pi * k / h) / P.dx) * couSym P k * (-potSym h w P.dx k l)

/-- damping by the hyperdiffusion -/
noncomputable def dissSym (P : Params) (h w k l : ℕ) : ℝ := -hypSym P h w k l

/-- the drive exceeds the damping: `(a + 2d)² d (a + d) < b²` -/
def Unstable (P : Params) (h w k l : ℕ) : Prop :=
  (dampSym P h w k l + 2 * dissSym P h w k l) ^ 2 * (dissSym P h w k l * (dampSym P h w k l + dissSym P h w k l))
    < driveSym P h w k l ^ 2

/-- the damping exceeds the drive: `b² < (a + 2d)² d (a + d)` -/
def Damped (P : Params) (h w k l : ℕ) : Prop :=
  driveSym P h w k l ^ 2 <
    (dampSym P h w k l + 2 * dissSym P h w k l) ^ 2 * (dissSym P h w k l * (dampSym P h w k l + dissSym P h w k l))

end Verif.Spec
