import Verif.Spec.PDE

/-!
# Specification: physical quantities of smooth fields

The averages over the periodic box that the properties of a simulation stand
for.  Nothing here refers to the program model.
-/

namespace Verif.Spec

/-- mean of a function over the box `Ly × Lx` -/
noncomputable def boxMean (Ly Lx : ℝ) (F : ℝ → ℝ → ℝ) : ℝ := (∫ x in 0..Lx, ∫ y in 0..Ly, F y x) / (Ly * Lx)

/-- particle flux, resistive dissipation, energies and enstrophy of density `n`,
vorticity `w` and potential `p` (families of partial derivatives, see `Spec/PDE.lean`) -/
noncomputable def physical (Ly Lx c1 : ℝ) (n w p : ℕ → ℕ → ℝ → ℝ → ℝ) (name : String) : ℝ := match name with
  | "gamma_n" => -boxMean Ly Lx fun y x => n 0 0 y x * p 1 0 y x
  | "gamma_n_spectral" => -boxMean Ly Lx fun y x => n 0 0 y x * p 1 0 y x
  | "gamma_c" => c1 * boxMean Ly Lx fun y x => (n 0 0 y x - p 0 0 y x) ^ 2
  | "energy" => (boxMean Ly Lx fun y x => n 0 0 y x ^ 2 + p 0 1 y x ^ 2 + p 1 0 y x ^ 2) / 2
  | "thermal_energy" => (boxMean Ly Lx fun y x => n 0 0 y x ^ 2) / 2
  | "kinetic_energy" => (boxMean Ly Lx fun y x => p 0 1 y x ^ 2 + p 1 0 y x ^ 2) / 2
  | "enstrophy" => (boxMean Ly Lx fun y x => (n 0 0 y x - w 0 0 y x) ^ 2) / 2
  | "enstrophy_phi" => (boxMean Ly Lx fun y x => (n 0 0 y x - w 0 0 y x) ^ 2) / 2
  | _ => 0

end Verif.Spec
