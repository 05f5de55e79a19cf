import Verif.NumPy.Stack
import Verif.Model.Properties
import Verif.Model.Poisson

/-!
# Model of the functions that accept leading axes, on arrays of any rank

`gradients/numpy_gradients.py`, `physical_properties/numpy_properties.py` and
`zonal_transform/numpy_zonal_transform.py` index with `[..., y, x]` and reduce
over negative axes.  These are the same functions as in `Model/Gradients`,
`Model/Properties` and `Model/Zonal`, without the restriction to rank 2.
The bracket (`poisson_bracket/numpy_arakawa.py`) and the Poisson solver
(`poisson_solvers/numpy_fourier_poisson.py`) also accept arrays of any rank.
-/

namespace Verif.Stacked

open Arr (s0m2 s1m1 s2)

section gradients

variable {α : Type} [Add α] [Sub α] [Mul α] [Div α] [NatCast α] [Pow α ℕ]

/-- `laplace`, `gradients/numpy_gradients.py` l.22-39 -/
def laplace (padded : Nd α) (dx : α) : Py (Nd α) := do
  let above ← padded.slLast s0m2 s1m1
  let left ← padded.slLast s1m1 s0m2
  let center ← padded.slLast s1m1 s1m1
  let right ← padded.slLast s1m1 s2
  let below ← padded.slLast s2 s1m1
  let s ← Nd.bzip (· + ·) above left
  let s ← Nd.bzip (· - ·) s (center.map (((4 : ℕ) : α) * ·))
  let s ← Nd.bzip (· + ·) s right
  let s ← Nd.bzip (· + ·) s below
  return s.map (· / dx ^ 2)

/-- l.54-57 and l.134-137: no padding on the leading axes, one cell on the last
two.  `pad_size[-2]` raises `IndexError` on fewer than two axes. -/
def padLast (rank : ℕ) : Py (List (ℕ × ℕ)) :=
  if rank < 2 then .error .indexError else .ok (List.replicate (rank - 2) (0, 0) ++ [(1, 1), (1, 1)])

/-- `periodic_laplace`, l.42-58: `pad_size = 1` (every axis) for rank ≤ 2 -/
def periodic_laplace (arr : Nd α) (dx : α) : Py (Nd α) := do
  let pad_size ← if 2 < arr.rank then padLast arr.rank else .ok (List.replicate arr.rank (1, 1))
  laplace (← arr.padWrap pad_size) dx

/-- `periodic_laplace_N`, l.61-75 -/
def periodic_laplace_N (arr : Nd α) (dx : α) : ℕ → Py (Nd α)
  | 0 => .ok arr
  | N + 1 => do periodic_laplace_N (← periodic_laplace arr dx) dx N

/-- `(a - b) / (2 * dx)`; `gradients/numpy_gradients.py` l.113-119 -/
def centered (a b : Py (Nd α)) (dx : α) : Py (Nd α) := do
  let d ← Nd.bzip (· - ·) (← a) (← b)
  return d.map (· / (((2 : ℕ) : α) * dx))

/-- `gradient`, l.100-119: axes 0 and 1 index the first two axes, −2 and −1 the
last two; other axes return `None` -/
def gradient (padded : Nd α) (dx : α) (axis : Int := 0) : Py (Nd α) :=
  if axis = 0 then centered (padded.slFirst s2 s1m1) (padded.slFirst s0m2 s1m1) dx
  else if axis = 1 then centered (padded.slFirst s1m1 s2) (padded.slFirst s1m1 s0m2) dx
  else if axis = -2 then centered (padded.slLast s2 s1m1) (padded.slLast s0m2 s1m1) dx
  else if axis = -1 then centered (padded.slLast s1m1 s2) (padded.slLast s1m1 s0m2) dx
  else .error .noneResult

/-- `periodic_gradient`, l.122-141: for a negative axis only the last two axes
are padded, otherwise every axis is -/
def periodic_gradient (input_field : Nd α) (dx : α) (axis : Int := 0) : Py (Nd α) := do
  let pad_size ← if axis < 0 then padLast input_field.rank else .ok (List.replicate input_field.rank (1, 1))
  gradient (← input_field.padWrap pad_size) dx axis

/-- `arakawa_vec`, `poisson_bracket/numpy_arakawa.py` l.127-153 (the same
expression in `numba_arakawa.py` l.75-91): slices of the first two axes -/
def arakawa_vec (zeta psi : Nd α) (dx : α) : Py (Nd α) := do
  let z := zeta.slFirst
  let p := psi.slFirst
  let add (a b : Py (Nd α)) : Py (Nd α) := do Nd.bzip (· + ·) (← a) (← b)
  let sub (a b : Py (Nd α)) : Py (Nd α) := do Nd.bzip (· - ·) (← a) (← b)
  let mul (a b : Py (Nd α)) : Py (Nd α) := do Nd.bzip (· * ·) (← a) (← b)
  let t1 := mul (z s1m1 s2) (sub (add (sub (p s2 s1m1) (p s0m2 s1m1)) (p s2 s2)) (p s0m2 s2))
  let t2 := mul (z s1m1 s0m2) (sub (add (sub (p s2 s1m1) (p s0m2 s1m1)) (p s2 s0m2)) (p s0m2 s0m2))
  let t3 := mul (z s2 s1m1) (sub (add (sub (p s1m1 s2) (p s1m1 s0m2)) (p s2 s2)) (p s2 s0m2))
  let t4 := mul (z s0m2 s1m1) (sub (add (sub (p s1m1 s2) (p s1m1 s0m2)) (p s0m2 s2)) (p s0m2 s0m2))
  let t5 := mul (z s0m2 s2) (sub (p s1m1 s2) (p s0m2 s1m1))
  let t6 := mul (z s2 s2) (sub (p s2 s1m1) (p s1m1 s2))
  let t7 := mul (z s2 s0m2) (sub (p s2 s1m1) (p s1m1 s0m2))
  let t8 := mul (z s0m2 s0m2) (sub (p s1m1 s0m2) (p s0m2 s1m1))
  let s ← sub (sub (add (add (add (sub (sub t1 t2) t3) t4) t5) t6) t7) t8
  return s.map (· / (((12 : ℕ) : α) * dx ^ 2))

/-- `periodic_arakawa_vec`, l.156-170 (`numba_arakawa.py` l.94-95):
`np.pad(x, 1, mode="wrap")` pads every axis -/
def periodic_arakawa_vec (zeta psi : Nd α) (dx : α) : Py (Nd α) := do
  arakawa_vec (← zeta.padWrap (List.replicate zeta.rank (1, 1))) (← psi.padWrap (List.replicate psi.rank (1, 1))) dx

end gradients

/-- `np.sum(np.stack(np.meshgrid(*[np.fft.fftfreq(n) for n in shape],
indexing="ij"), -1)**2, axis=-1)` at the index `idx`,
`poisson_solvers/numpy_fourier_poisson.py` l.24-26 -/
noncomputable def ksq (shape idx : List ℕ) : ℝ := (List.zipWith (fun n i => Arr.fftfreq n i ^ 2) shape idx).sum

open Classical in
/-- `fourier_poisson_double`, l.19-35 (also `fourier_poisson_single` l.38-54).
`fftfreq(0)` raises `ZeroDivisionError`.  `fft_laplace[0, 0] = np.inf` sets every
entry whose first two indices are 0. -/
noncomputable def fourier_poisson_double (tensor : Nd ℝ) (dx : ℝ) (times : ℕ := 1) : Py (Nd ℝ) := do
  let frequencies ← tensor.toComplex.fft2
  if 0 ∈ tensor.shape then .error .zeroDivisionError
  else
    let fft_laplace : Nd FloatX := ⟨tensor.shape, fun idx =>
      if idx.getD 0 0 = 0 ∧ idx.getD 1 0 = 0 then .inf else .fin (-((2 * Real.pi) ^ 2) * ksq tensor.shape idx)⟩
    let result ← Nd.bzip (fun z d => FloatX.cdiv z (FloatX.pow d times)) frequencies fft_laplace
    let result ← Nd.bzip (fun d z => if FloatX.isZero d then 0 else z) fft_laplace result
    let result ← result.ifft2
    return result.real.map (· * dx ^ 2)

open Properties (meshKx meshKy)

/-- `zonal_transform`, `zonal_transform/numpy_zonal_transform.py` l.16-21 -/
noncomputable def zonal_transform (field : Nd ℝ) : Py (Nd ℝ) := do
  Nd.bzip (· - ·) field (← field.meanRowsKeep)

/-- `get_gamma_n`, `physical_properties/numpy_properties.py` l.30-50 -/
noncomputable def get_gamma_n (n p : Nd ℝ) (dx : ℝ) (dy_p : Option (Nd ℝ) := none) : Py (Nd ℝ) := do
  let dy_p ← match dy_p with
    | some d => .ok d
    | none => periodic_gradient p dx (-2)
  let prod ← Nd.bzip (· * ·) n dy_p
  return (← prod.meanLast2).map (- ·)

/-- `get_gamma_c`, l.53-70 -/
noncomputable def get_gamma_c (n p : Nd ℝ) (c1 _dx : ℝ) : Py (Nd ℝ) := do
  let d ← Nd.bzip (· - ·) n p
  return (← (d.map (· ^ 2)).meanLast2).map (c1 * ·)

/-- `get_gamma_n_ky`, l.76-91; `n.shape[-2]` raises `IndexError` on rank < 2 -/
noncomputable def get_gamma_n_ky (n p : Nd ℝ) (dx : ℝ) : Py (List ℝ × Nd ℝ) := do
  let k := n.rank - 2
  if n.rank < 2 then .error .indexError
  else
    let h := n.shape.getD k 0
    let w := n.shape.getD (k + 1) 0
    let ky_max := h / 2
    let n_dft ← n.toComplex.fft2Ortho
    let p_dft ← p.toComplex.fft2Ortho
    let k_ky := meshKy h w dx
    let a ← Nd.bzip (· * ·) (n_dft.map (· * Complex.I)) (Nd.ofArr k_ky.toComplex)
    let gamma_n_k ← Nd.bzip (· * ·) a (p_dft.map (starRingEnd ℂ))
    let integrated_gamma_n_k ← (← gamma_n_k.real.meanLast).takeLast ky_max
    let ky := (List.range (min ky_max k_ky.h)).map fun i => k_ky.at' i 0
    return (ky, integrated_gamma_n_k)

/-- `get_gamma_n_spectrally`, l.94-98 -/
noncomputable def get_gamma_n_spectrally (n p : Nd ℝ) (dx : ℝ) : Py (Nd ℝ) := do
  let (_, gamma_n_ky) ← get_gamma_n_ky n p dx
  gamma_n_ky.meanLast

/-- `get_energy`, l.104-119 -/
noncomputable def get_energy (n phi : Nd ℝ) (dx : ℝ) : Py (Nd ℝ) := do
  let gx ← periodic_gradient phi dx (-1)
  let gy ← periodic_gradient phi dx (-2)
  let squared_norm_grad_phi ← Nd.bzip (· + ·) (gx.map (· ^ 2)) (gy.map (· ^ 2))
  let integral ← Nd.bzip (· + ·) (n.map (· ^ 2)) squared_norm_grad_phi
  return (← integral.meanLast2).map (· / 2)

/-- `get_enstrophy`, l.125-134 -/
noncomputable def get_enstrophy (n omega : Nd ℝ) (_dx : ℝ) : Py (Nd ℝ) := do
  let d ← Nd.bzip (· - ·) n omega
  return (← (d.map (· ^ 2)).meanLast2).map (· / 2)

/-- `get_enstrophy_phi`, l.137-147.  (`omega -= m` with `m` of shape
`(..., 1, 1)` keeps the shape of `omega`.) -/
noncomputable def get_enstrophy_phi (n phi : Nd ℝ) (dx : ℝ) : Py (Nd ℝ) := do
  let omega ← periodic_laplace_N phi dx 1
  let omega ← Nd.bzip (· - ·) omega (← omega.meanLast2Keep)
  let d ← Nd.bzip (· - ·) n omega
  return (← (d.map (· ^ 2)).meanLast2).map (· / 2)

/-- `get_D`, l.150-165 -/
noncomputable def get_D (arr : Nd ℝ) (nu : ℝ) (N : ℕ) (dx : ℝ) : Py (Nd ℝ) := do
  return (← periodic_laplace_N arr dx N).map (nu * ·)

/-- `get_DE`, l.171-187, for arrays `Dn`, `Dp` -/
noncomputable def get_DE (n p Dn Dp : Nd ℝ) : Py (Nd ℝ) := do
  let a ← Nd.bzip (· * ·) n Dn
  let b ← Nd.bzip (· * ·) p Dp
  (← Nd.bzip (· - ·) a b).meanLast2

/-- `get_DU`, l.190-206, for arrays `Dn`, `Dp` -/
noncomputable def get_DU (n o Dn Dp : Nd ℝ) : Py (Nd ℝ) := do
  let a ← Nd.bzip (· - ·) n o
  let b ← Nd.bzip (· - ·) Dn Dp
  return (← (← Nd.bzip (· * ·) a b).meanLast2).map (- ·)

/-- `get_energy_N_ky`, l.248-258 -/
noncomputable def get_energy_N_ky (n : Nd ℝ) : Py (Nd ℝ) := do
  let n_dft ← n.toComplex.fft2Ortho
  (n_dft.map fun z => ‖z‖ ^ 2 / 2).meanLast

/-- `get_energy_N_spectrally`, l.261-269 -/
noncomputable def get_energy_N_spectrally (n : Nd ℝ) : Py (Nd ℝ) := do
  (← get_energy_N_ky n).meanLast

/-- `get_energy_V_ky`, l.272-285; `*[... for i in p.shape[-2:]]` unpacks to two
values only for rank ≥ 2 (otherwise `ValueError`) -/
noncomputable def get_energy_V_ky (p : Nd ℝ) (dx : ℝ) : Py (Nd ℝ) := do
  let k := p.rank - 2
  if p.rank < 2 then .error .valueError
  else
    let h := p.shape.getD k 0
    let w := p.shape.getD (k + 1) 0
    let k_kx := meshKx h w dx
    let k_ky := meshKy h w dx
    let p_dft ← p.toComplex.fft2Ortho
    let squared_norm_k ← (.ok (k_ky.map (· ^ 2)) + .ok (k_kx.map (· ^ 2)) : Py (Arr ℝ))
    let a ← Nd.bzip (· * ·) (Nd.ofArr squared_norm_k.toComplex) p_dft
    let prod ← Nd.bzip (· * ·) a (p_dft.map (starRingEnd ℂ))
    (prod.map fun z => ‖z‖ / 2).meanLast

/-- `get_energy_V_spectrally`, l.288-297 -/
noncomputable def get_energy_V_spectrally (p : Nd ℝ) (dx : ℝ) : Py (Nd ℝ) := do
  (← get_energy_V_ky p dx).meanLast

/-- `get_delta_ky`, l.303-310; note `n.shape[1]`, the second axis counted from
the front -/
noncomputable def get_delta_ky (n p : Nd ℝ) : Py (Nd ℝ) := do
  let n_dft ← n.toComplex.fft2Ortho
  let p_dft ← p.toComplex.fft2Ortho
  let prod ← Nd.bzip (· * ·) (n_dft.map (starRingEnd ℂ)) p_dft
  let delta_k ← (prod.map Complex.arg).meanLast
  delta_k.takeLast (n.shape.getD 1 0 / 2)

end Verif.Stacked
