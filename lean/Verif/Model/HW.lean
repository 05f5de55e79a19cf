import Verif.Model.Namespace
import Verif.Model.Arakawa
import Verif.Model.Poisson
import Verif.Model.Zonal
import Verif.Model.Properties

/-!
# Model of `model.py`

Exact real arithmetic.  The profiling counters `self.calls` are state; the
wall-clock `self.timings` are added in `Model/Timed.lean`, the `debug` printing in
`Model/Debug.lean`.
-/

namespace Verif

open Arr NS

/-- `self.calls`, `model.py` l.215-227 -/
structure Calls where
  full_step : ℕ := 0
  get_phi : ℕ := 0
  diffuse : ℕ := 0
  gradient_2d : ℕ := 0
  poisson_bracket : ℕ := 0
  deriving DecidableEq, Repr

/-- Computations of `HW` methods: they update the counters and may raise.  The
counters after an exception are not modelled.  `model.py` l.229-238. -/
abbrev M := StateT Calls (Except PyErr)

/-- run a pure numerical function; `model.py` l.309, 315 and the calls in l.83-147 -/
def M.lift {α : Type} (x : Py α) : M α := fun c => x.map fun a => (a, c)

/-- `self.log(name, ...)`, l.229-238 -/
def logCall (f : Calls → Calls) : M Unit := fun c => .ok ((), f c)

/-- The numerical schemes chosen by the import block l.34-52 and stored by
`HW.__init__` l.190-193. -/
structure Backend where
  poisson_solver : Arr ℝ → ℝ → Py (Arr ℝ)
  diffuse_N : Arr ℝ → ℝ → ℕ → Py (Arr ℝ)
  poisson_bracket : Arr ℝ → Arr ℝ → ℝ → Py (Arr ℝ)
  gradient_func : Arr ℝ → ℝ → Int → Py (Arr ℝ)

/-- NumPy schemes, l.34-41 -/
noncomputable def numpyBackend : Backend where
  poisson_solver t dx := NumpyPoisson.fourier_poisson_double t dx
  diffuse_N := NumpyGradients.periodic_laplace_N
  poisson_bracket := NumpyArakawa.periodic_arakawa_vec
  gradient_func a dx axis := NumpyGradients.periodic_gradient a dx axis

/-- Numba schemes, l.43-50 (used when Numba can be imported) -/
noncomputable def numbaBackend : Backend where
  poisson_solver t dx := NumbaPoisson.fourier_poisson_double t dx
  diffuse_N := NumbaGradients.periodic_laplace_N
  poisson_bracket := NumbaArakawa.periodic_arakawa_stencil
  gradient_func a dx axis := NumbaGradients.periodic_gradient a dx axis

/-- an `HW` object (attributes set by `__init__`, l.172-227) -/
structure HW where
  backend : Backend
  N : ℕ
  c1 : ℝ
  nu : ℝ
  k0 : ℝ
  poisson_bracket_coeff : ℝ
  kappa_coeff : ℝ
  dx : ℝ
  zonal : Bool
  TEST_CONSERVATION : Bool

/-- `HW.__init__`, l.172-227; `N` is a natural number. -/
def HW.init (backend : Backend) (dx : ℝ) (N : ℕ) (c1 nu k0 : ℝ) (poisson_bracket_coeff : ℝ := 1)
    (kappa_coeff : ℝ := 1) (zonal : Bool := false) (TEST_CONSERVATION : Bool := true) : HW :=
  { backend, N, c1, nu := (-1) ^ (N + 1) * nu, k0, poisson_bracket_coeff, kappa_coeff, dx, zonal,
    TEST_CONSERVATION }

/-- in-place `a += b`: the broadcast shape must be the shape of `a`; `model.py` l.114, 117,
127, 130, 133 -/
def iadd (a b : Arr ℝ) : Py (Arr ℝ) := do
  let r ← (.ok a + .ok b : Py (Arr ℝ))
  if r.h = a.h ∧ r.w = a.w then return r else .error .valueError

/-- `HW.get_phi`, l.305-311 -/
noncomputable def HW.get_phi (hw : HW) (omega : Arr ℝ) (dx : ℝ) : M (Arr ℝ) := do
  let o_mean := omega.mean
  let centered_omega := omega.map (· - o_mean)
  let phi ← M.lift (hw.backend.poisson_solver centered_omega dx)
  logCall fun c => { c with get_phi := c.get_phi + 1 }
  return phi

/-- `HW.diffuse`, l.313-317 -/
def HW.diffuse (hw : HW) (arr : Arr ℝ) (dx : ℝ) (N : ℕ) : M (Arr ℝ) := do
  let arr ← M.lift (hw.backend.diffuse_N arr dx N)
  logCall fun c => { c with diffuse := c.diffuse + 1 }
  return arr

/-- `HW.get_gammas`, l.355-359 -/
noncomputable def HW.get_gammas (hw : HW) (n p : Arr ℝ) : Py (ℝ × ℝ) := do
  let gamma_n ← Properties.get_gamma_n n p hw.dx
  let gamma_c ← Properties.get_gamma_c n p hw.c1 hw.dx
  return (gamma_n, gamma_c)

open Classical in
/-- bracket contribution `x += -poisson_bracket_coeff * [phi, psi]`: l.108-114 for
`psi = omega`, l.121-128 for `psi = density` -/
noncomputable def HW.addBracket (hw : HW) (x phi psi : Arr ℝ) (dx : ℝ) : M (Arr ℝ) :=
  if hw.poisson_bracket_coeff ≠ 0 then do
    let b ← M.lift (hw.backend.poisson_bracket phi psi dx)
    let arak_comp := b.map (-hw.poisson_bracket_coeff * ·)
    logCall fun c => { c with poisson_bracket := c.poisson_bracket + 1 }
    M.lift (iadd x arak_comp)
  else pure x

open Classical in
/-- hyperdiffusion contribution `x += nu * diffuse(f)`: l.115-117 for omega,
l.131-133 for density; also returns the term itself (0 if skipped, l.92-93) -/
noncomputable def HW.addDiffusion (hw : HW) (x f : Arr ℝ) (dx : ℝ) : M (Arr ℝ × Val) :=
  if hw.nu ≠ 0 then do
    let d ← hw.diffuse f dx hw.N
    let Df := d.map (hw.nu * ·)
    let x ← M.lift (iadd x Df)
    return (x, .arr Df)
  else pure (x, .num 0)

open Classical in
/-- background-gradient contribution `n += -kappa_coeff * dy_p`, l.128-130 -/
noncomputable def HW.addKappa (hw : HW) (x dy_p : Arr ℝ) : Py (Arr ℝ) :=
  if hw.kappa_coeff ≠ 0 then iadd x (dy_p.map (-hw.kappa_coeff * ·)) else .ok x

/-- the adiabatic coupling difference, l.99-104 -/
noncomputable def HW.coupling (phi density : Arr ℝ) (zonal : Bool) : Py (Arr ℝ) :=
  if zonal then do
    let zonal_phi ← Zonal.zonal_transform phi
    let zonal_density ← Zonal.zonal_transform density
    (.ok zonal_phi - .ok zonal_density : Py (Arr ℝ))
  else (.ok phi - .ok density : Py (Arr ℝ))

/-- `if "age" in kwargs: return_dict["age"] = kwargs["age"] + dt`, l.154-155 -/
noncomputable def HW.addAge (return_dict : NS Val) (age : Option Val) (dt : ℝ) : Py (NS Val) :=
  match age with
  | some a => do return return_dict.set "age" (← Ops.add a (.num dt))
  | none => .ok return_dict

/-- the `TEST_CONSERVATION` block, l.158-166 -/
noncomputable def HW.addConservation (hw : HW) (return_dict : NS Val) (density omega phi : Arr ℝ)
    (Dn : Val) (dx : ℝ) : M (NS Val) :=
  if hw.TEST_CONSERVATION then do
    let gammas ← M.lift (hw.get_gammas density phi)
    let dp ← hw.diffuse phi dx hw.N
    let Dp := Val.arr (dp.map (hw.nu * ·))
    let DE ← M.lift (Properties.get_DE density phi Dn Dp)
    let DU ← M.lift (Properties.get_DU density omega Dn Dp)
    let dE_dt := Properties.get_dE_dt gammas.1 gammas.2 DE
    let dU_dt := Properties.get_dU_dt gammas.1 DU
    return (return_dict.set "dE" (.num dE_dt)).set "dU" (.num dU_dt)
  else pure return_dict

/-- `hw2d_gradient`, l.63-168, called through `HW.gradient_2d` l.319-352, with
array arguments.  `age` is `kwargs.get("age")`; the remaining keyword
arguments are ignored by the Python function as well.  The `debug` printing
(l.136-147) is in `Model/Debug.lean`. -/
noncomputable def HW.hw2d_gradient (hw : HW) (density omega : Arr ℝ) (phi : Option (Arr ℝ))
    (age : Option Val) (dt dx : ℝ) (zonal : Bool) : M (NS Val) := do
  -- l.86-87
  let phi ← phi.elim (hw.get_phi omega dx) pure
  -- l.95-96
  let dy_p ← M.lift (hw.backend.gradient_func phi dx 0)
  logCall fun c => { c with gradient_2d := c.gradient_2d + 1 }
  -- l.99-104
  let diff ← M.lift (HW.coupling phi density zonal)
  -- l.107-117, new omega
  let o := diff.map (hw.c1 * ·)
  let o ← hw.addBracket o phi omega dx
  let oD ← hw.addDiffusion o omega dx
  -- l.120-133, new density
  let n := diff.map (hw.c1 * ·)
  let n ← hw.addBracket n phi density dx
  let n ← M.lift (hw.addKappa n dy_p)
  let nD ← hw.addDiffusion n density dx
  -- l.149-166
  let return_dict : NS Val := [("density", .arr nD.1), ("omega", .arr oD.1)]
  let return_dict ← M.lift (HW.addAge return_dict age dt)
  hw.addConservation return_dict density omega phi nD.2 dx

/-- keyword names that `gradient_2d(**y, phi=…, dt=…, dx=…, zonal=…)` (l.252-255, l.270-…)
or the inner `hw2d_gradient(…, **kwargs)` call would receive twice -/
def reservedNames : List String :=
  ["self", "dt", "dx", "phi", "zonal", "get_phi_func", "gradient_func", "diffuse_func",
   "poisson_bracket_func", "get_gammas_func", "make_zonal_func", "log", "poisson_bracket_coeff",
   "kappa_coeff", "c1", "nu", "N", "TEST_CONSERVATION"]

/-- `self.gradient_2d(**y, phi=phi, dt=dt, dx=dx, zonal=zonal)`, l.319-352.  A
repeated keyword or a missing `density`/`omega` raises `TypeError`. -/
noncomputable def HW.gradient_2d (hw : HW) (y : NS Val) (phi : Option Val) (dt dx : ℝ) (zonal : Bool) :
    M (NS Val) :=
  if y.keys.any (· ∈ reservedNames) then M.lift (.error .typeError)
  else match y.get? "density", y.get? "omega" with
    | some density, some omega => do
      let density ← M.lift density.asArr
      let omega ← M.lift omega.asArr
      let phi ← M.lift (phi.elim (.ok none) fun p => p.asArr.map some)
      hw.hw2d_gradient density omega phi (y.get? "age") dt dx zonal
    | _, _ => M.lift (.error .typeError)

/-- `self.get_phi(omega=y.omega, dx=dx)`; `model.py` l.258, 272, 275, 278, 283 -/
noncomputable def HW.get_phi_of (hw : HW) (y : NS Val) (dx : ℝ) : M Val := do
  let om ← M.lift (y.getItem "omega")
  let om ← M.lift om.asArr
  return .arr (← hw.get_phi om dx)

/-- `HW.euler_step`, l.248-262 -/
noncomputable def HW.euler_step (hw : HW) (plasma : NS Val) (dt dx : ℝ) : M (NS Val) := do
  let y := plasma.without "phi"
  -- l.253-256: `phi=plasma["phi"]` if present, otherwise the default `None`
  let g ← hw.gradient_2d y (plasma.get? "phi") 0 dx hw.zonal
  let d ← M.lift (g.mul (.scalar (.num dt)))
  let y ← M.lift (y.add (.ns d))
  let phi ← hw.get_phi_of y dx
  let y := y.set "phi" phi
  let age ← M.lift (plasma.getItem "age")
  let age ← M.lift (Ops.add age (.num dt))
  let y := y.set "age" age
  logCall fun c => { c with full_step := c.full_step + 1 }
  return y

/-- `HW.rk4_step`, l.264-303 -/
noncomputable def HW.rk4_step (hw : HW) (plasma : NS Val) (dt dx : ℝ) : M (NS Val) := do
  let yn := plasma.without "phi"
  let pn ← M.lift (plasma.getItem "phi")
  let k1 ← M.lift ((← hw.gradient_2d yn (some pn) 0 dx hw.zonal).mul (.scalar (.num dt)))
  let y1 ← M.lift (do yn.add (.ns (← k1.mul (.scalar (.num (1 / 2))))))
  let p1 ← hw.get_phi_of y1 dx
  let k2 ← M.lift ((← hw.gradient_2d y1 (some p1) (dt / 2) dx hw.zonal).mul (.scalar (.num dt)))
  let y2 ← M.lift (do yn.add (.ns (← k2.mul (.scalar (.num (1 / 2))))))
  let p2 ← hw.get_phi_of y2 dx
  let k3 ← M.lift ((← hw.gradient_2d y2 (some p2) (dt / 2) dx hw.zonal).mul (.scalar (.num dt)))
  let y3 ← M.lift (yn.add (.ns k3))
  let p3 ← hw.get_phi_of y3 dx
  let k4 ← M.lift ((← hw.gradient_2d y3 (some p3) dt dx hw.zonal).mul (.scalar (.num dt)))
  let yk1 ← M.lift (do
    let s ← k1.add (.ns (← k2.mul (.scalar (.num 2))))
    let s ← s.add (.ns (← k3.mul (.scalar (.num 2))))
    let s ← s.add (.ns k4)
    yn.add (.ns (← s.mul (.scalar (.num (1 / 6))))))
  let phi ← hw.get_phi_of yk1 dx
  let yk1 := yk1.set "phi" phi
  let age ← M.lift (plasma.getItem "age")
  let age ← M.lift (Ops.add age (.num dt))
  let yk1 := yk1.set "age" age
  logCall fun c => { c with full_step := c.full_step + 1 }
  return yk1

end Verif
