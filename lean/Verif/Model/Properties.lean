import Verif.NumPy.FFT
import Verif.Model.Gradients
import Verif.Model.Namespace

/-!
# Model of `physical_properties/numpy_properties.py`

Exact real/complex arithmetic; a frame is a two-dimensional array (the same
functions on arrays with leading batch axes are in `Model/Stacked`, see C95).
-/

namespace Verif.Properties

open Arr Complex NumpyGradients

/-- `get_gamma_n`, l.30-50 -/
noncomputable def get_gamma_n (n p : Arr ℝ) (dx : ℝ) (dy_p : Option (Arr ℝ) := none) : Py ℝ := do
  let dy_p ← match dy_p with
    | some d => .ok d
    | none => periodic_gradient p dx (-2)
  let prod ← (.ok n * .ok dy_p : Py (Arr ℝ))
  return -prod.mean

/-- `get_gamma_c`, l.53-70 -/
noncomputable def get_gamma_c (n p : Arr ℝ) (c1 _dx : ℝ) : Py ℝ := do
  let d ← (.ok n - .ok p : Py (Arr ℝ))
  return c1 * (d.map (· ^ 2)).mean

/-- `np.mean(a, axis=-1)` as the list of row means; `physical_properties/numpy_properties.py`
l.87, 257, 284 -/
noncomputable def meanLast (a : Arr ℝ) : List ℝ :=
  List.ofFn fun i => (∑ j, a.get i j) / (a.w : ℝ)

/-- `np.mean` of a one-dimensional array; `numpy_properties.py` l.97, 268, 296 -/
noncomputable def mean1 (l : List ℝ) : ℝ := l.sum / (l.length : ℝ)

/-- second output of `np.meshgrid(f_h, f_w)` (default `indexing="xy"`), l.83-85:
shape `(w, h)`, varies along axis 0 -/
noncomputable def meshKy (h w : ℕ) (dx : ℝ) : Arr ℝ := tab w h fun i _ => fftfreqD w dx i * 2 * Real.pi

/-- first output of the same call: shape `(w, h)`, varies along axis 1; `numpy_properties.py`
l.83, 278 -/
noncomputable def meshKx (h w : ℕ) (dx : ℝ) : Arr ℝ := tab w h fun _ j => fftfreqD h dx j * 2 * Real.pi

/-- `get_gamma_n_ky`, l.76-91 -/
noncomputable def get_gamma_n_ky (n p : Arr ℝ) (dx : ℝ) : Py (List ℝ × List ℝ) := do
  let ky_max := n.h / 2
  let n_dft ← fft2Ortho n.toComplex
  let p_dft ← fft2Ortho p.toComplex
  let k_ky := meshKy n.h n.w dx
  let gamma_n_k ← (.ok (n_dft.map (· * I)) * .ok k_ky.toComplex
    * .ok (p_dft.map (starRingEnd ℂ)) : Py (Arr ℂ))
  let integrated_gamma_n_k := (meanLast gamma_n_k.real).take ky_max
  let ky := (List.range (min ky_max k_ky.h)).map fun i => k_ky.at' i 0
  return (ky, integrated_gamma_n_k)

/-- `get_gamma_n_spectrally`, l.94-98 -/
noncomputable def get_gamma_n_spectrally (n p : Arr ℝ) (dx : ℝ) : Py ℝ := do
  let (_, gamma_n_ky) ← get_gamma_n_ky n p dx
  return mean1 gamma_n_ky

/-- `get_energy`, l.104-119 -/
noncomputable def get_energy (n phi : Arr ℝ) (dx : ℝ) : Py ℝ := do
  let gx ← periodic_gradient phi dx (-1)
  let gy ← periodic_gradient phi dx (-2)
  let squared_norm_grad_phi ← (.ok (gx.map (· ^ 2)) + .ok (gy.map (· ^ 2)) : Py (Arr ℝ))
  let integral ← (.ok (n.map (· ^ 2)) + .ok squared_norm_grad_phi : Py (Arr ℝ))
  return integral.mean / 2

/-- `get_enstrophy`, l.125-134 -/
noncomputable def get_enstrophy (n omega : Arr ℝ) (_dx : ℝ) : Py ℝ := do
  let d ← (.ok n - .ok omega : Py (Arr ℝ))
  return (d.map (· ^ 2)).mean / 2

/-- `get_enstrophy_phi`, l.137-147 -/
noncomputable def get_enstrophy_phi (n phi : Arr ℝ) (dx : ℝ) : Py ℝ := do
  let omega ← periodic_laplace_N phi dx 1
  let omega := omega.map (· - omega.mean)
  let d ← (.ok n - .ok omega : Py (Arr ℝ))
  return (d.map (· ^ 2)).mean / 2

/-- `get_D`, l.150-165 -/
noncomputable def get_D (arr : Arr ℝ) (nu : ℝ) (N : ℕ) (dx : ℝ) : Py (Arr ℝ) :=
  nu * periodic_laplace_N arr dx N

/-- `np.mean(v, axis=(-1, -2))`; a plain number has no axes (`AxisError`, a
`ValueError`); `numpy_properties.py` l.186, 205 -/
noncomputable def meanVal : Val → Py ℝ
  | .arr a => .ok a.mean
  | .num _ => .error .valueError

open NS in
/-- `get_DE`, l.171-187 (`Dn`, `Dp` may be the plain number 0) -/
noncomputable def get_DE (n p : Arr ℝ) (Dn Dp : Val) : Py ℝ := do
  let a ← Ops.mul (.arr n) Dn
  let b ← Ops.mul (.arr p) Dp
  meanVal (← Ops.sub a b)

open NS in
/-- `get_DU`, l.190-206 -/
noncomputable def get_DU (n o : Arr ℝ) (Dn Dp : Val) : Py ℝ := do
  let a ← Ops.sub (.arr n) (.arr o)
  let b ← Ops.sub Dn Dp
  return -(← meanVal (← Ops.mul a b))

/-- `get_dE_dt`, l.212-226 -/
def get_dE_dt (gamma_n gamma_c DE : ℝ) : ℝ := gamma_n - gamma_c - DE

/-- `get_dU_dt`, l.229-242 -/
def get_dU_dt (gamma_n DU : ℝ) : ℝ := gamma_n - DU

/-- `get_energy_N_ky`, l.248-258 -/
noncomputable def get_energy_N_ky (n : Arr ℝ) : Py (List ℝ) := do
  let n_dft ← fft2Ortho n.toComplex
  return meanLast (n_dft.map fun z => ‖z‖ ^ 2 / 2)

/-- `get_energy_N_spectrally`, l.261-269 -/
noncomputable def get_energy_N_spectrally (n : Arr ℝ) : Py ℝ := do
  return mean1 (← get_energy_N_ky n)

/-- `get_energy_V_ky`, l.272-285 -/
noncomputable def get_energy_V_ky (p : Arr ℝ) (dx : ℝ) : Py (List ℝ) := do
  let k_kx := meshKx p.h p.w dx
  let k_ky := meshKy p.h p.w dx
  let p_dft ← fft2Ortho p.toComplex
  let squared_norm_k ← (.ok (k_ky.map (· ^ 2)) + .ok (k_kx.map (· ^ 2)) : Py (Arr ℝ))
  let prod ← (.ok squared_norm_k.toComplex * .ok p_dft * .ok (p_dft.map (starRingEnd ℂ)) : Py (Arr ℂ))
  return meanLast (prod.map fun z => ‖z‖ / 2)

/-- `get_energy_V_spectrally`, l.288-297 -/
noncomputable def get_energy_V_spectrally (p : Arr ℝ) (dx : ℝ) : Py ℝ := do
  return mean1 (← get_energy_V_ky p dx)

/-- `get_delta_ky`, l.303-310: `imag(log z)` is the argument of `z`.  (At
`z = 0` NumPy's `log` is `-inf+0j`, imaginary part 0 = `arg 0`.) -/
noncomputable def get_delta_ky (n p : Arr ℝ) : Py (List ℝ) := do
  let n_dft ← fft2Ortho n.toComplex
  let p_dft ← fft2Ortho p.toComplex
  let prod ← (.ok (n_dft.map (starRingEnd ℂ)) * .ok p_dft : Py (Arr ℂ))
  let delta_k := meanLast (prod.map Complex.arg)
  return delta_k.take (n.w / 2)

end Verif.Properties
