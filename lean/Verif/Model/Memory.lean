import Verif.Model.HW

/-!
# Model of the arrays in memory

The steps of `Model/HW.lean` once more, with arrays as objects: a variable or dictionary entry holds a
reference, `a + b` creates an array, `o += a` (`model.py` l.114-133) changes the array that `o` refers to,
and everyone who holds the same reference sees the change.  Every numerical scheme is a function of
the contents of its arguments that creates its result, except that the NumPy `periodic_laplace_N` with
`N = 0` returns its argument (`numpy_gradients.py` l.72-74).
-/

namespace Verif.Memory

open NS

/-- an entry of a state: a reference to an array, or a number; `model.py` l.149-166 -/
inductive Obj where
  | ref (r : ℕ)
  | num (x : ℝ)

/-- the arrays in memory and the profiling counters; `model.py` l.215-227 -/
structure Mem where
  heap : List (Arr ℝ) := []
  calls : Calls := {}

/-- computations of `HW` methods on objects; `model.py` l.229-238 -/
abbrev H := StateT Mem (Except PyErr)

/-- a pure numerical function; `model.py` l.309, 315 and the calls in l.83-147 -/
def H.lift {α : Type} (x : Py α) : H α := fun m => x.map fun a => (a, m)

/-- the contents of an array (every reference of the program is valid: C132); `model.py` l.83-147 -/
def get (r : ℕ) : H (Arr ℝ) := fun m => match m.heap[r]? with
  | some a => .ok (a, m)
  | none => .error .typeError

/-- a new array; `model.py` l.95-133 -/
def alloc (a : Arr ℝ) : H ℕ := fun m => .ok (m.heap.length, { m with heap := m.heap ++ [a] })

/-- assignment to the contents of an array; `model.py` l.114, 117, 127, 130, 133 -/
def put (r : ℕ) (a : Arr ℝ) : H Unit := fun m => .ok ((), { m with heap := m.heap.set r a })

/-- `self.log(name, ...)`, `model.py` l.229-238 -/
def logH (f : Calls → Calls) : H Unit := fun m => .ok ((), { m with calls := f m.calls })

/-- the value of an entry; `utils/namespaces.py` l.2-40 -/
def fetch : Obj → H Val
  | .ref r => do return .arr (← get r)
  | .num x => pure (.num x)

/-- a new object with the given value; `utils/namespaces.py` l.2-40 -/
def store : Val → H Obj
  | .arr a => do return .ref (← alloc a)
  | .num x => pure (.num x)

/-- an array that is computed from another one; e.g. `model.py` l.95, 107, 308, 309 -/
def un (f : Arr ℝ → Py (Arr ℝ)) (r : ℕ) : H ℕ := do
  let a ← get r
  let b ← H.lift (f a)
  alloc b

/-- an array that is computed from two others; e.g. `model.py` l.102, 104, 110 -/
def bin (f : Arr ℝ → Arr ℝ → Py (Arr ℝ)) (r s : ℕ) : H ℕ := do
  let a ← get r
  let b ← get s
  let c ← H.lift (f a b)
  alloc c

/-- an operator applied to entries; `utils/namespaces.py` l.2-40 -/
def op (f : Val → Val → Py Val) (u v : Obj) : H Obj := do
  let a ← fetch u
  let b ← fetch v
  let c ← H.lift (f a b)
  store c

/-- `x += y` for arrays, in place; `model.py` l.114, 117, 127, 130, 133 -/
noncomputable def addInPlace (x y : ℕ) : H Unit := do
  let a ← get x
  let b ← get y
  let c ← H.lift (iadd a b)
  put x c

/-- `Namespace({key: op(other[key], val) for key, val in self.items()})`; `utils/namespaces.py` l.4, 30 -/
def zipWith (f : Val → Val → Py Val) : (self other : NS Obj) → H (NS Obj)
  | [], _ => pure []
  | (k, v) :: rest, other => do
    let u ← H.lift (other.getItem k)
    let r ← op f u v
    let rs ← zipWith f rest other
    return (k, r) :: rs

/-- `Namespace({key: op(other, val) for key, val in self.items()})`; `utils/namespaces.py` l.6, 32 -/
def mapWith (f : Val → Val → Py Val) : (self : NS Obj) → (other : ℝ) → H (NS Obj)
  | [], _ => pure []
  | (k, v) :: rest, other => do
    let r ← op f (.num other) v
    let rs ← mapWith f rest other
    return (k, r) :: rs

/-- the array an entry refers to; `model.py` l.306-309 (`np.mean(omega)` etc. of a number is outside the model) -/
def asRef : Obj → Py ℕ
  | .ref r => .ok r
  | .num _ => .error .typeError

/-- `HW.get_phi`, `model.py` l.305-311 -/
noncomputable def get_phi (hw : HW) (omega : ℕ) (dx : ℝ) : H ℕ := do
  let centered_omega ← un (fun o => .ok (o.map (· - o.mean))) omega
  let phi ← un (fun a => hw.backend.poisson_solver a dx) centered_omega
  logH fun c => { c with get_phi := c.get_phi + 1 }
  return phi

/-- `self.diffuse_N(arr=arr, dx=dx, N=N)`; `model.py` l.315.  With `same` the scheme returns its argument
for `N = 0` (`numpy_gradients.py` l.72-74). -/
def diffuse_N (same : Bool) (hw : HW) (arr : ℕ) (dx : ℝ) (N : ℕ) : H ℕ :=
  if same ∧ N = 0 then pure arr else un (fun a => hw.backend.diffuse_N a dx N) arr

/-- `HW.diffuse`, `model.py` l.313-317 -/
def diffuse (same : Bool) (hw : HW) (arr : ℕ) (dx : ℝ) (N : ℕ) : H ℕ := do
  let d ← diffuse_N same hw arr dx N
  logH fun c => { c with diffuse := c.diffuse + 1 }
  return d

open Classical in
/-- `x += -poisson_bracket_coeff * [phi, psi]`, `model.py` l.107-114 and l.120-127 -/
noncomputable def addBracket (hw : HW) (x phi psi : ℕ) (dx : ℝ) : H Unit :=
  if hw.poisson_bracket_coeff ≠ 0 then do
    let b ← bin (fun p q => hw.backend.poisson_bracket p q dx) phi psi
    let arak_comp ← un (fun b => .ok (b.map (-hw.poisson_bracket_coeff * ·))) b
    logH fun c => { c with poisson_bracket := c.poisson_bracket + 1 }
    addInPlace x arak_comp
  else pure ()

open Classical in
/-- `x += nu * diffuse(f)`, `model.py` l.115-117 and l.131-133; returns the term -/
noncomputable def addDiffusion (same : Bool) (hw : HW) (x f : ℕ) (dx : ℝ) : H Obj :=
  if hw.nu ≠ 0 then do
    let d ← diffuse same hw f dx hw.N
    let Df ← un (fun d => .ok (d.map (hw.nu * ·))) d
    addInPlace x Df
    return .ref Df
  else pure (.num 0)

open Classical in
/-- `n += -kappa_coeff * dy_p`, `model.py` l.128-130 -/
noncomputable def addKappa (hw : HW) (x dy_p : ℕ) : H Unit :=
  if hw.kappa_coeff ≠ 0 then do
    let kap ← un (fun d => .ok (d.map (-hw.kappa_coeff * ·))) dy_p
    addInPlace x kap
  else pure ()

/-- the adiabatic coupling difference, `model.py` l.99-104 -/
noncomputable def coupling (phi density : ℕ) (zonal : Bool) : H ℕ :=
  if zonal then do
    let zonal_phi ← un Zonal.zonal_transform phi
    let zonal_density ← un Zonal.zonal_transform density
    bin (fun a b => (.ok a - .ok b : Py (Arr ℝ))) zonal_phi zonal_density
  else bin (fun a b => (.ok a - .ok b : Py (Arr ℝ))) phi density

/-- the new `omega`, `model.py` l.107-117 -/
noncomputable def newOmega (same : Bool) (hw : HW) (diff phi omega : ℕ) (dx : ℝ) : H (ℕ × Obj) := do
  let o ← un (fun d => .ok (d.map (hw.c1 * ·))) diff
  addBracket hw o phi omega dx
  let Do ← addDiffusion same hw o omega dx
  return (o, Do)

/-- the new `density`, `model.py` l.120-133 -/
noncomputable def newDensity (same : Bool) (hw : HW) (diff phi density dy_p : ℕ) (dx : ℝ) : H (ℕ × Obj) := do
  let n ← un (fun d => .ok (d.map (hw.c1 * ·))) diff
  addBracket hw n phi density dx
  addKappa hw n dy_p
  let Dn ← addDiffusion same hw n density dx
  return (n, Dn)

/-- `if "age" in kwargs: return_dict["age"] = kwargs["age"] + dt`, `model.py` l.154-155 -/
noncomputable def addAge (return_dict : NS Obj) (age : Option Obj) (dt : ℝ) : H (NS Obj) :=
  match age with
  | some a => do return return_dict.set "age" (← op Ops.add a (.num dt))
  | none => pure return_dict

/-- the `TEST_CONSERVATION` block, `model.py` l.158-166 -/
noncomputable def addConservation (same : Bool) (hw : HW) (return_dict : NS Obj) (density omega phi : ℕ)
    (Dn : Obj) (dx : ℝ) : H (NS Obj) :=
  if hw.TEST_CONSERVATION then do
    let n ← get density
    let o ← get omega
    let p ← get phi
    let gammas ← H.lift (hw.get_gammas n p)
    let dp ← diffuse same hw phi dx hw.N
    let Dp ← un (fun d => .ok (d.map (hw.nu * ·))) dp
    let dn ← fetch Dn
    let dp ← get Dp
    let DE ← H.lift (Properties.get_DE n p dn (.arr dp))
    let DU ← H.lift (Properties.get_DU n o dn (.arr dp))
    let dE_dt := Properties.get_dE_dt gammas.1 gammas.2 DE
    let dU_dt := Properties.get_dU_dt gammas.1 DU
    return (return_dict.set "dE" (.num dE_dt)).set "dU" (.num dU_dt)
  else pure return_dict

/-- `hw2d_gradient`, `model.py` l.63-168 -/
noncomputable def hw2d_gradient (same : Bool) (hw : HW) (density omega : ℕ) (phi : Option ℕ)
    (age : Option Obj) (dt dx : ℝ) (zonal : Bool) : H (NS Obj) := do
  let phi ← phi.elim (get_phi hw omega dx) pure
  let dy_p ← un (fun p => hw.backend.gradient_func p dx 0) phi
  logH fun c => { c with gradient_2d := c.gradient_2d + 1 }
  let diff ← coupling phi density zonal
  let o ← newOmega same hw diff phi omega dx
  let n ← newDensity same hw diff phi density dy_p dx
  let return_dict : NS Obj := [("density", .ref n.1), ("omega", .ref o.1)]
  let return_dict ← addAge return_dict age dt
  addConservation same hw return_dict density omega phi n.2 dx

/-- `HW.gradient_2d`, `model.py` l.319-352 -/
noncomputable def gradient_2d (same : Bool) (hw : HW) (y : NS Obj) (phi : Option Obj) (dt dx : ℝ) (zonal : Bool) :
    H (NS Obj) :=
  if y.keys.any (· ∈ reservedNames) then H.lift (.error .typeError)
  else match y.get? "density", y.get? "omega" with
    | some density, some omega => do
      let density ← H.lift (asRef density)
      let omega ← H.lift (asRef omega)
      let phi ← H.lift (phi.elim (.ok none) fun p => (asRef p).map some)
      hw2d_gradient same hw density omega phi (y.get? "age") dt dx zonal
    | _, _ => H.lift (.error .typeError)

/-- `self.get_phi(omega=y.omega, dx=dx)`; `model.py` l.258, 272, 275, 278, 283 -/
noncomputable def get_phi_of (hw : HW) (y : NS Obj) (dx : ℝ) : H Obj := do
  let om ← H.lift (y.getItem "omega")
  let om ← H.lift (asRef om)
  return .ref (← get_phi hw om dx)

/-- `plasma.age + dt`, `model.py` l.259, 286 -/
noncomputable def nextAge (plasma : NS Obj) (dt : ℝ) : H Obj := do
  let age ← H.lift (plasma.getItem "age")
  op Ops.add age (.num dt)

/-- `HW.euler_step`, `model.py` l.248-262 -/
noncomputable def euler_step (same : Bool) (hw : HW) (plasma : NS Obj) (dt dx : ℝ) : H (NS Obj) := do
  let y := plasma.without "phi"
  let g ← gradient_2d same hw y (plasma.get? "phi") 0 dx hw.zonal
  let d ← mapWith Ops.mul g dt
  let y ← zipWith Ops.add y d
  let phi ← get_phi_of hw y dx
  let y := y.set "phi" phi
  let age ← nextAge plasma dt
  let y := y.set "age" age
  logH fun c => { c with full_step := c.full_step + 1 }
  return y

/-- `HW.rk4_step`, `model.py` l.264-303 -/
noncomputable def rk4_step (same : Bool) (hw : HW) (plasma : NS Obj) (dt dx : ℝ) : H (NS Obj) := do
  let yn := plasma.without "phi"
  let pn ← H.lift (plasma.getItem "phi")
  let g1 ← gradient_2d same hw yn (some pn) 0 dx hw.zonal
  let k1 ← mapWith Ops.mul g1 dt
  let h1 ← mapWith Ops.mul k1 (1 / 2)
  let y1 ← zipWith Ops.add yn h1
  let p1 ← get_phi_of hw y1 dx
  let g2 ← gradient_2d same hw y1 (some p1) (dt / 2) dx hw.zonal
  let k2 ← mapWith Ops.mul g2 dt
  let h2 ← mapWith Ops.mul k2 (1 / 2)
  let y2 ← zipWith Ops.add yn h2
  let p2 ← get_phi_of hw y2 dx
  let g3 ← gradient_2d same hw y2 (some p2) (dt / 2) dx hw.zonal
  let k3 ← mapWith Ops.mul g3 dt
  let y3 ← zipWith Ops.add yn k3
  let p3 ← get_phi_of hw y3 dx
  let g4 ← gradient_2d same hw y3 (some p3) dt dx hw.zonal
  let k4 ← mapWith Ops.mul g4 dt
  let d2 ← mapWith Ops.mul k2 2
  let s ← zipWith Ops.add k1 d2
  let d3 ← mapWith Ops.mul k3 2
  let s ← zipWith Ops.add s d3
  let s ← zipWith Ops.add s k4
  let s ← mapWith Ops.mul s (1 / 6)
  let yk1 ← zipWith Ops.add yn s
  let phi ← get_phi_of hw yk1 dx
  let yk1 := yk1.set "phi" phi
  let age ← nextAge plasma dt
  let yk1 := yk1.set "age" age
  logH fun c => { c with full_step := c.full_step + 1 }
  return yk1

/-- `numpy_gradients.periodic_laplace_N`, l.61-75: the loop does not run for `N = 0`, and the argument is returned -/
noncomputable def periodic_laplace_N (arr : ℕ) (dx : ℝ) (N : ℕ) : H ℕ :=
  if N = 0 then pure arr else un (fun a => NumpyGradients.periodic_laplace_N a dx N) arr

/-- `get_enstrophy_phi`, `numpy_properties.py` l.137-147, with `omega -= np.mean(omega, ...)` in place -/
noncomputable def get_enstrophy_phi (n phi : ℕ) (dx : ℝ) : H ℝ := do
  let omega ← periodic_laplace_N phi dx 1
  let o ← get omega
  put omega (o.map (· - o.mean))
  let d ← bin (fun a b => (.ok a - .ok b : Py (Arr ℝ))) n omega
  let d ← get d
  return (d.map (· ^ 2)).mean / 2

end Verif.Memory
