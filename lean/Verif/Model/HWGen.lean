import Verif.Model.Arakawa
import Verif.Model.Gradients

/-!
# The time steps of `model.py` with any kind of numbers

`Model/HW.lean` evaluates the program with real numbers.  Here the same lines are evaluated with
numbers of an arbitrary type `α`, operation by operation in the order of the program, so that `α` can be
floating-point numbers.  Only the entries `density`, `omega` and `phi` of a state are kept (the
others never enter these three), and counters and keyword errors are left out.
`Props/Float.lean` proves that for real numbers this is `Model/HW.lean`.
-/

namespace Verif.Gen

open Arr

variable {α : Type} [Inhabited α] [Add α] [Sub α] [Mul α] [Div α] [Neg α] [Pow α ℕ] [NatCast α]

/-- what the program does with numbers other than calling an operator; `poisson_solver`, `diffuse_N`,
`poisson_bracket` and `gradient_func` are the schemes chosen in `model.py` l.34-50 -/
structure Arith (α : Type) where
  /-- the literal `0.5` -/
  half : α
  /-- truth value of a number -/
  truthy : α → Bool
  /-- `np.mean(a)` -/
  mean : Arr α → α
  /-- `np.mean(a, axis=-2, keepdims=True)` -/
  meanRows : Arr α → Arr α
  poisson_solver : Arr α → α → Py (Arr α)
  diffuse_N : Arr α → α → ℕ → Py (Arr α)
  poisson_bracket : Arr α → Arr α → α → Py (Arr α)
  gradient_func : Arr α → α → Int → Py (Arr α)

/-- the attributes set by `HW.__init__` that the steps read, l.195-205 (`nu` with its sign) -/
structure Coeffs (α : Type) where
  N : ℕ
  c1 : α
  nu : α
  poisson_bracket_coeff : α
  kappa_coeff : α
  zonal : Bool

/-- the arrays of a state; `model.py` l.248, 264 -/
structure State (α : Type) where
  density : Arr α
  omega : Arr α
  phi : Arr α

/-- density and vorticity of a state or a derivative; `model.py` l.149-153 -/
structure Two (α : Type) where
  density : Arr α
  omega : Arr α

variable (A : Arith α) (P : Coeffs α)

/-- in-place `a += b`; `model.py` l.114, 117, 127, 130, 133 -/
def iadd (a b : Arr α) : Py (Arr α) := do
  let r ← (.ok a + .ok b : Py (Arr α))
  if r.h = a.h ∧ r.w = a.w then return r else .error .valueError

/-- `HW.get_phi`, l.305-311 -/
def get_phi (omega : Arr α) (dx : α) : Py (Arr α) :=
  let o_mean := A.mean omega
  let centered_omega := omega.map (· - o_mean)
  A.poisson_solver centered_omega dx

/-- `zonal_transform`, `numpy_zonal_transform.py` l.16-21 -/
def zonal_transform (field : Arr α) : Py (Arr α) :=
  (.ok field - .ok (A.meanRows field) : Py (Arr α))

/-- l.99-104 -/
def coupling (phi density : Arr α) : Py (Arr α) :=
  if P.zonal then do
    let zonal_phi ← zonal_transform A phi
    let zonal_density ← zonal_transform A density
    (.ok zonal_phi - .ok zonal_density : Py (Arr α))
  else (.ok phi - .ok density : Py (Arr α))

/-- l.108-114, l.121-128 -/
def addBracket (x phi psi : Arr α) (dx : α) : Py (Arr α) :=
  if A.truthy P.poisson_bracket_coeff then do
    let b ← A.poisson_bracket phi psi dx
    iadd x (b.map (-P.poisson_bracket_coeff * ·))
  else .ok x

/-- l.115-117, l.131-133 -/
def addDiffusion (x f : Arr α) (dx : α) : Py (Arr α) :=
  if A.truthy P.nu then do
    let d ← A.diffuse_N f dx P.N
    iadd x (d.map (P.nu * ·))
  else .ok x

/-- l.128-130 -/
def addKappa (x dy_p : Arr α) : Py (Arr α) :=
  if A.truthy P.kappa_coeff then iadd x (dy_p.map (-P.kappa_coeff * ·)) else .ok x

/-- `hw2d_gradient`, l.63-152, with a given potential -/
def hw2d_gradient (density omega phi : Arr α) (dx : α) : Py (Two α) := do
  let dy_p ← A.gradient_func phi dx 0
  let diff ← coupling A P phi density
  let o := diff.map (P.c1 * ·)
  let o ← addBracket A P o phi omega dx
  let o ← addDiffusion A P o omega dx
  let n := diff.map (P.c1 * ·)
  let n ← addBracket A P n phi density dx
  let n ← addKappa A P n dy_p
  let n ← addDiffusion A P n density dx
  return ⟨n, o⟩

/-- `Namespace.__mul__` with a number, `namespaces.py` l.2-6: `other * val` -/
def smul (c : α) (y : Two α) : Two α := ⟨y.density.map (c * ·), y.omega.map (c * ·)⟩

/-- `Namespace.__add__`, `namespaces.py` l.34-36: `y + z` is `z[key] + y[key]` -/
def add (y z : Two α) : Py (Two α) := do
  let n ← (.ok z.density + .ok y.density : Py (Arr α))
  let o ← (.ok z.omega + .ok y.omega : Py (Arr α))
  return ⟨n, o⟩

/-- `HW.euler_step`, l.248-262, of a state with a potential -/
def euler_step (plasma : State α) (dt dx : α) : Py (State α) := do
  let y : Two α := ⟨plasma.density, plasma.omega⟩
  let d := smul dt (← hw2d_gradient A P y.density y.omega plasma.phi dx)
  let y ← add y d
  return ⟨y.density, y.omega, ← get_phi A y.omega dx⟩

/-- `HW.rk4_step`, l.264-303 -/
def rk4_step (plasma : State α) (dt dx : α) : Py (State α) := do
  let yn : Two α := ⟨plasma.density, plasma.omega⟩
  let k1 := smul dt (← hw2d_gradient A P yn.density yn.omega plasma.phi dx)
  let y1 ← add yn (smul A.half k1)
  let p1 ← get_phi A y1.omega dx
  let k2 := smul dt (← hw2d_gradient A P y1.density y1.omega p1 dx)
  let y2 ← add yn (smul A.half k2)
  let p2 ← get_phi A y2.omega dx
  let k3 := smul dt (← hw2d_gradient A P y2.density y2.omega p2 dx)
  let y3 ← add yn k3
  let p3 ← get_phi A y3.omega dx
  let k4 := smul dt (← hw2d_gradient A P y3.density y3.omega p3 dx)
  let s ← add k1 (smul ((2 : ℕ) : α) k2)
  let s ← add s (smul ((2 : ℕ) : α) k3)
  let s ← add s k4
  let yk1 ← add yn (smul (((1 : ℕ) : α) / ((6 : ℕ) : α)) s)
  return ⟨yk1.density, yk1.omega, ← get_phi A yk1.omega dx⟩

/-- the state after `k` steps.  The loop of `run.py` l.258-260 without saving. -/
def iterate (step : State α → Py (State α)) : ℕ → State α → Py (State α)
  | 0, s => .ok s
  | k + 1, s => do iterate step k (← step s)

end Verif.Gen
