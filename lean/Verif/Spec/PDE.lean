import Verif.Spec.Smooth
import Verif.Spec.HW
import Mathlib.MeasureTheory.Integral.IntervalIntegral.Basic

/-!
# Specification: the Hasegawa–Wakatani partial differential equations

Smooth functions of `(y, x)` come as families of partial derivatives: `f a b`
is `∂y^a ∂x^b f`.  Nothing here refers to the program model.
-/

namespace Verif.Spec

open Set

/-- the function minus its mean over y, on a box of height `Ly` -/
noncomputable def fluct (Ly : ℝ) (F : ℝ → ℝ → ℝ) (y x : ℝ) : ℝ := F y x - (∫ y' in 0..Ly, F y' x) / Ly

/-- the adiabatic coupling `φ - n` (of the fluctuations about the zonal mean if `zonal`) -/
noncomputable def coupling (zonal : Bool) (Ly : ℝ) (p n : ℝ → ℝ → ℝ) (y x : ℝ) : ℝ :=
  if zonal then fluct Ly p y x - fluct Ly n y x else p y x - n y x

/-- the right-hand side of the Hasegawa–Wakatani density equation at a point:
`c1 (φ - n) - (φ_x n_y - φ_y n_x) - κ φ_y + (-1)^(N+1) ν Δ^N n` -/
noncomputable def pdeN (P : Params) (Ly : ℝ) (nf pf : ℕ → ℕ → ℝ → ℝ → ℝ) (y x : ℝ) : ℝ :=
  P.c1 * coupling P.zonal Ly (pf 0 0) (nf 0 0) y x
    - P.pb * (pf 0 1 y x * nf 1 0 y x - pf 1 0 y x * nf 0 1 y x)
    - P.kappa * pf 1 0 y x + (-1) ^ (P.N + 1) * P.nu * (lapFam^[P.N] nf) 0 0 y x

/-- the right-hand side of the vorticity equation at a point -/
noncomputable def pdeO (P : Params) (Ly : ℝ) (nf wf pf : ℕ → ℕ → ℝ → ℝ → ℝ) (y x : ℝ) : ℝ :=
  P.c1 * coupling P.zonal Ly (pf 0 0) (nf 0 0) y x
    - P.pb * (pf 0 1 y x * wf 1 0 y x - pf 1 0 y x * wf 0 1 y x)
    + (-1) ^ (P.N + 1) * P.nu * (lapFam^[P.N] wf) 0 0 y x

/-- periodic over a box of height `Ly` and width `Lx` -/
def Periodic2 (Ly Lx : ℝ) (F : ℝ → ℝ → ℝ) : Prop :=
  ∀ y x, F (y + Ly) x = F y x ∧ F y (x + Lx) = F y x

/-- a smooth solution of the Hasegawa–Wakatani equations on the time interval
`[0, T]` and the periodic box `Ly × Lx`: density `n`, vorticity `w` and
potential `p` have `r` space derivatives bounded by `B`, the potential solves
`Δ p = w` with zero mean, and density and vorticity evolve by the equations -/
structure HWSolution (P : Params) (Ly Lx T : ℝ) (r : ℕ) (B : ℝ)
    (n w p : ℝ → ℕ → ℕ → ℝ → ℝ → ℝ) : Prop where
  smoothN : ∀ t ∈ Icc 0 T, Partials r (n t) B
  smoothO : ∀ t ∈ Icc 0 T, Partials r (w t) B
  smoothP : ∀ t ∈ Icc 0 T, Partials r (p t) B
  periodicN : ∀ t ∈ Icc 0 T, Periodic2 Ly Lx (n t 0 0)
  periodicO : ∀ t ∈ Icc 0 T, Periodic2 Ly Lx (w t 0 0)
  periodicP : ∀ t ∈ Icc 0 T, Periodic2 Ly Lx (p t 0 0)
  poisson : ∀ t ∈ Icc 0 T, ∀ y x, p t 2 0 y x + p t 0 2 y x = w t 0 0 y x
  meanP : ∀ t ∈ Icc 0 T, ∫ x in 0..Lx, ∫ y in 0..Ly, p t 0 0 y x = 0
  evolN : ∀ t ∈ Icc 0 T, ∀ y x,
    HasDerivWithinAt (fun s => n s 0 0 y x) (pdeN P Ly (n t) (p t) y x) (Icc 0 T) t
  evolO : ∀ t ∈ Icc 0 T, ∀ y x,
    HasDerivWithinAt (fun s => w s 0 0 y x) (pdeO P Ly (n t) (w t) (p t) y x) (Icc 0 T) t

/-- root mean square over an `h × w` grid -/
noncomputable def rms (h w : ℕ) (f : ℕ → ℕ → ℝ) : ℝ :=
  Real.sqrt ((∑ i ∈ Finset.range h, ∑ j ∈ Finset.range w, f i j ^ 2) / (h * w))

end Verif.Spec
