import Verif.Model.HWGen
import Verif.Model.RunHW

/-!
# The simulation object of `run.py` with any kind of numbers

`Run.Solver` instantiated with the time step of `Model/HWGen.lean`.
-/

namespace Verif.Gen

open Run

variable {α : Type} [Inhabited α] [Add α] [Sub α] [Mul α] [Div α] [Neg α] [Pow α ℕ] [NatCast α]

/-- An `HW` object as used by `run.py` l.250-260.  The states of `run` have the entries `density`, `omega`, `phi`
(arrays) and `age` (a number); other dictionaries are not modelled here (`typeError`).  The result has the
entries in the order of `model.py` l.267, 285-287. -/
def solver (A : Arith α) (P : Coeffs α) : Solver α where
  rk4_step plasma dt dx :=
    match plasma.get? "density", plasma.get? "omega", plasma.get? "phi", plasma.get? "age" with
    | some (.arr n), some (.arr o), some (.arr p), some (.num t) => do
      let s ← rk4_step A P ⟨n, o, p⟩ dt dx
      return [("density", .arr s.density), ("omega", .arr s.omega), ("age", .num (t + dt)), ("phi", .arr s.phi)]
    | _, _, _, _ => .error .typeError
  get_phi omega dx := match omega with
    | .arr o => do return .arr (← get_phi A o dx)
    | .num _ => .error .typeError

/-- a keyword argument without default value; `model.py` l.172-184 -/
def reqArg (p : NS (Attr α)) (k : String) : Py (Attr α) := match p.get? k with
  | some v => .ok v
  | none => .error .typeError

/-- `int(N)`, assumed to be a natural number; `model.py` l.205 -/
def attrNat : Attr α → Py ℕ
  | .int (.ofNat n) => .ok n
  | _ => .error .typeError

/-- `(-1) ** (N + 1) * nu`, `model.py` l.207: multiplying a float by 1 or -1 is exact -/
def signed (N : ℕ) (nu : α) : α := if (N + 1) % 2 = 0 then nu else -nu

/-- `HW(**physics_params)`, `model.py` l.172-214, with the numbers `num v` of the attributes `v`: missing and
unknown keyword arguments raise `TypeError` -/
def hwOf (A : Arith α) (num : Attr α → α) (p : NS (Attr α)) : Py (Solver α) :=
  if p.keys.any (· ∉ hwArgs) then .error .typeError
  else do
    let _ ← reqArg p "dx"
    let N ← reqArg p "N"
    let N ← attrNat N
    let c1 ← reqArg p "c1"
    let nu ← reqArg p "nu"
    let _ ← reqArg p "k0"
    return solver A
      { N := N
        c1 := num c1
        nu := signed N (num nu)
        poisson_bracket_coeff := ((p.get? "poisson_bracket_coeff").map num).getD ((1 : ℕ) : α)
        kappa_coeff := ((p.get? "kappa_coeff").map num).getD ((1 : ℕ) : α)
        zonal := ((p.get? "zonal").map fun v => A.truthy (num v)).getD false }

end Verif.Gen
