import Verif.Spec.HW
import Verif.Spec.Fourier
import Mathlib.Data.Matrix.Mul
import Mathlib.LinearAlgebra.Matrix.Notation

/-!
# Specification: linear waves of the discretised equations

The symbols of the operators of the program on an `h × w` grid (first index y),
and the matrix that drives the amplitudes of density and vorticity of mode
`(k, l)` when the brackets are left out.  Nothing here refers to the program
model.
-/

namespace Verif.Spec

open Complex

/-- potential of a unit vorticity in mode `(k, l)`: spectral inverse of the Laplacian, no mean -/
noncomputable def potSym (h w : ℕ) (dx : ℝ) (k l : ℕ) : ℝ :=
  if k = 0 ∧ l = 0 then 0 else -1 / (wave h dx k ^ 2 + wave w dx l ^ 2)

/-- central difference along y of mode `k` -/
noncomputable def derSym (h : ℕ) (dx : ℝ) (k : ℕ) : ℂ := I * (Real.sin (2 * Real.pi * k / h) / dx : ℝ)

/-- five-point Laplacian of mode `(k, l)` -/
noncomputable def lapSym (h w : ℕ) (dx : ℝ) (k l : ℕ) : ℝ :=
  -4 * (Real.sin (Real.pi * k / h) ^ 2 + Real.sin (Real.pi * l / w) ^ 2) / dx ^ 2

/-- hyperdiffusion of mode `(k, l)` -/
noncomputable def hypSym (P : Params) (h w : ℕ) (k l : ℕ) : ℝ :=
  (-1) ^ (P.N + 1) * P.nu * lapSym h w P.dx k l ^ P.N

/-- coupling coefficient of mode `k`: the modified equations do not couple the zonal modes `k = 0` -/
noncomputable def couSym (P : Params) (k : ℕ) : ℝ := if P.zonal ∧ k = 0 then 0 else P.c1

/-- time derivative of the amplitudes `(n, Ω)` of mode `(k, l)` without brackets:
`n' = c (φ - n) - κ ∂y φ + D n` and `Ω' = c (φ - n) + D Ω` with `φ = potSym Ω` -/
noncomputable def modeMat (P : Params) (h w : ℕ) (k l : ℕ) : Matrix (Fin 2) (Fin 2) ℂ :=
  !![((hypSym P h w k l - couSym P k : ℝ) : ℂ),
      ((couSym P k : ℝ) - (P.kappa : ℝ) * derSym h P.dx k) * (potSym h w P.dx k l : ℝ);
    (-(couSym P k) : ℝ), ((couSym P k * potSym h w P.dx k l + hypSym P h w k l : ℝ) : ℂ)]

end Verif.Spec
