import Verif.Model.HWGen
import Verif.Model.Run2

/-!
# The functions of `physical_properties/numpy_properties.py` with any kind of numbers

`Model/Properties.lean` evaluates these functions with real numbers.  Here the same lines are evaluated with
numbers of an arbitrary type `α`, operation by operation in the order of the program, so that `α` can be
floating-point numbers.  `Props/MeasuredFloat.lean` proves that for real numbers this is `Model/Properties.lean`.
The three functions that use the Fourier transform are parameters: pocketfft chooses its own order of operations.
-/

namespace Verif.Gen

open Arr NumpyGradients

variable {α : Type} [Inhabited α] [Add α] [Sub α] [Mul α] [Div α] [Neg α] [Pow α ℕ] [NatCast α]

/-- the functions of `numpy_properties.py` that call `np.fft.fft2`, l.76-98 and l.248-297 -/
structure Spectra (α : Type) where
  /-- `get_gamma_n_spectrally`, l.94-98 -/
  gamma_n : Arr α → Arr α → α → Py α
  /-- `get_energy_N_spectrally`, l.261-269 -/
  energy_N : Arr α → Py α
  /-- `get_energy_V_spectrally`, l.288-297 -/
  energy_V : Arr α → α → Py α

variable (A : Arith α)

/-- `get_gamma_n`, l.30-50, with `dy_p=None`; `np.mean(…, axis=(-1, -2))` of a two-dimensional array is the mean
of all its entries (also in the functions below) -/
def get_gamma_n (n p : Arr α) (dx : α) : Py α := do
  let dy_p ← periodic_gradient p dx (-2)
  let prod ← (.ok n * .ok dy_p : Py (Arr α))
  return -A.mean prod

/-- `get_gamma_c`, l.53-70 -/
def get_gamma_c (n p : Arr α) (c1 _dx : α) : Py α := do
  let d ← (.ok n - .ok p : Py (Arr α))
  return c1 * A.mean (d.map (· ^ 2))

/-- `get_energy`, l.104-119 -/
def get_energy (n phi : Arr α) (dx : α) : Py α := do
  let gx ← periodic_gradient phi dx (-1)
  let gy ← periodic_gradient phi dx (-2)
  let squared_norm_grad_phi ← (.ok (gx.map (· ^ 2)) + .ok (gy.map (· ^ 2)) : Py (Arr α))
  let integral ← (.ok (n.map (· ^ 2)) + .ok squared_norm_grad_phi : Py (Arr α))
  return A.mean integral / ((2 : ℕ) : α)

/-- `get_enstrophy`, l.125-134 -/
def get_enstrophy (n omega : Arr α) (_dx : α) : Py α := do
  let d ← (.ok n - .ok omega : Py (Arr α))
  return A.mean (d.map (· ^ 2)) / ((2 : ℕ) : α)

/-- `get_enstrophy_phi`, l.137-147 -/
def get_enstrophy_phi (n phi : Arr α) (dx : α) : Py α := do
  let omega ← periodic_laplace_N phi dx 1
  let omega := omega.map (· - A.mean omega)
  let d ← (.ok n - .ok omega : Py (Arr α))
  return A.mean (d.map (· ^ 2)) / ((2 : ℕ) : α)

/-- `property_fncs[name](n=n, p=p, o=o, dx=dx, c1=c1)` of `run2.py`, l.42-57 and l.309-315, on arrays, for the
eight names whose call succeeds -/
def propValue (Z : Spectra α) (name : String) (dx c1 : α) (n p o : Arr α) : Py α :=
  if name = "gamma_n" then get_gamma_n A n p dx
  else if name = "gamma_n_spectral" then Z.gamma_n n p dx
  else if name = "gamma_c" then get_gamma_c A n p c1 dx
  else if name = "energy" then get_energy A n p dx
  else if name = "thermal_energy" then Z.energy_N n
  else if name = "kinetic_energy" then Z.energy_V p dx
  else if name = "enstrophy" then get_enstrophy A n o dx
  else if name = "enstrophy_phi" then get_enstrophy_phi A n p dx
  else .error (.keyError name)

/-- `property_fncs` of `run2.py`, l.42-57 and l.309-315.  The last four entries need further keyword arguments,
which are not passed (`TypeError`). -/
def propertyFncs (Z : Spectra α) (name : String) : Option (Cell α → Cell α → Cell α → α → α → Py α) :=
  if name = "DE" ∨ name = "DU" ∨ name = "dE_dt" ∨ name = "dU_dt" then some fun _ _ _ _ _ => .error .typeError
  else if name ∈ ["gamma_n", "gamma_n_spectral", "gamma_c", "energy", "thermal_energy", "kinetic_energy", "enstrophy",
    "enstrophy_phi"] then some fun n p o dx c1 => match n, p, o with
      | .arr n, .arr p, .arr o => propValue A Z name dx c1 n p o
      | _, _, _ => .error .typeError
  else none

end Verif.Gen
