import Verif.Spec.Fourier
import Verif.Spec.Index

/-!
# Specification: the physical quantities behind the property names

`n`, `p`, `o` are the samples of density, potential and vorticity on an `h × w`
grid with spacing `dx` (first index: y).  Nothing here refers to the program
model.
-/

namespace Verif.Spec

open Complex

/-- the properties a file may be asked for -/
def propertyTable : List String :=
  ["gamma_n", "gamma_n_spectral", "gamma_c", "energy", "thermal_energy", "kinetic_energy", "enstrophy", "enstrophy_phi"]

/-- central difference along y -/
noncomputable def diffY (h : ℕ) (dx : ℝ) (f : ℕ → ℕ → ℝ) (i j : ℕ) : ℝ := (f (up h i) j - f (down h i) j) / (2 * dx)

/-- central difference along x -/
noncomputable def diffX (w : ℕ) (dx : ℝ) (f : ℕ → ℕ → ℝ) (i j : ℕ) : ℝ := (f i (up w j) - f i (down w j)) / (2 * dx)

/-- five-point Laplacian -/
noncomputable def lap5 (h w : ℕ) (dx : ℝ) (f : ℕ → ℕ → ℝ) (i j : ℕ) : ℝ :=
  (f (up h i) j + f (down h i) j + f i (up w j) + f i (down w j) - 4 * f i j) / dx ^ 2

/-- `v` is the value of the named property: particle flux, particle flux with the
spectral derivative (even grids), resistive dissipation, energy, thermal energy,
kinetic energy, enstrophy, enstrophy with the vorticity recomputed from the potential -/
def IsProperty (h w : ℕ) (dx c1 : ℝ) (n p o : ℕ → ℕ → ℝ) (name : String) (v : ℝ) : Prop :=
  match name with
  | "gamma_n" => v = -mean h w fun i j => n i j * diffY h dx p i j
  | "gamma_n_spectral" => Even h → ∀ d, IsDy h w dx p d → v = -mean h w fun i j => n i j * d i j
  | "gamma_c" => v = c1 * mean h w fun i j => (n i j - p i j) ^ 2
  | "energy" => v = (mean h w fun i j => n i j ^ 2 + diffX w dx p i j ^ 2 + diffY h dx p i j ^ 2) / 2
  | "thermal_energy" => v = (mean h w fun i j => n i j ^ 2) / 2
  | "kinetic_energy" => ∀ l, IsLaplacian h w dx p l → v = -(mean h w fun i j => p i j * l i j) / 2
  | "enstrophy" => v = (mean h w fun i j => (n i j - o i j) ^ 2) / 2
  | "enstrophy_phi" => v = (mean h w fun i j => (n i j - lap5 h w dx p i j) ^ 2) / 2
  | _ => False

/-- `g` is the spectral derivative of `f` along y without the shortest waves (the
Nyquist mode of an even grid, the two modes of highest frequency of an odd grid) -/
def IsDyLow (h w : ℕ) (dx : ℝ) (f g : ℕ → ℕ → ℝ) : Prop :=
  ∀ k < h, ∀ l < w, coef h w g k l
    = if h ≤ 2 * k + 1 ∧ 2 * k ≤ h + 1 then 0 else I * (wave h dx k : ℂ) * coef h w f k l

end Verif.Spec
