import Verif.Model.RunHW
import Mathlib.Algebra.Order.Floor.Ring

/-!
# Creating a simulation: `HW(...)`

How Python binds the arguments of `HW.__init__` (`model.py` l.172-184) and what the
constructor stores (l.200-216).  Numbers are Python numbers: the constructor of a NumPy scalar
`k0 = 0` would warn instead of raising.
-/

namespace Verif

/-- the parameters of `HW.__init__` after `self`, in order; `model.py` l.174-183 -/
def initParams : List String :=
  ["dx", "N", "c1", "nu", "k0", "poisson_bracket_coeff", "kappa_coeff", "zonal", "debug", "TEST_CONSERVATION"]

/-- Python's binding of positional and keyword arguments to parameters: too many positional
arguments, an unknown keyword and a parameter given twice raise `TypeError`; the call of
`HW.__init__`, `model.py` l.172-184 -/
def bindArgs {V : Type} (params : List String) (pos : List V) (kw : NS V) : Py (NS V) :=
  if params.length < pos.length then .error .typeError
  else if kw.keys.any (· ∉ params) then .error .typeError
  else if kw.keys.any (· ∈ params.take pos.length) then .error .typeError
  else .ok (params.zip pos ++ kw)

/-- `int(N)`: truncates towards zero; `model.py` l.206 -/
noncomputable def attrTrunc : Attr ℝ → ℤ
  | .num x => if 0 ≤ x then ⌊x⌋ else ⌈x⌉
  | .int z => z
  | .bool b => if b then 1 else 0

/-- the attributes of an `HW` object that hold numbers and flags; `model.py` l.205-218 -/
structure HWObject where
  N : ℤ
  c1 : ℝ
  nu : ℝ
  k0 : ℝ
  poisson_bracket_coeff : ℝ
  kappa_coeff : ℝ
  dx : ℝ
  L : ℝ
  zonal : Bool
  debug : Bool
  TEST_CONSERVATION : Bool

/-- `HW(*pos, **kw)`; `model.py` l.172-218.  `self.L` divides by `k0`. -/
noncomputable def construct (pos : List (Attr ℝ)) (kw : NS (Attr ℝ)) : Py HWObject := do
  let p ← bindArgs initParams pos kw
  let dx ← reqArg p "dx"
  let N ← reqArg p "N"
  let c1 ← reqArg p "c1"
  let nu ← reqArg p "nu"
  let k0 ← reqArg p "k0"
  let N := attrTrunc N
  if attrReal k0 = 0 then .error .zeroDivisionError
  else return {
    N := N, c1 := attrReal c1, nu := (-1) ^ (N + 1) * attrReal nu, k0 := attrReal k0,
    poisson_bracket_coeff := ((p.get? "poisson_bracket_coeff").map attrReal).getD 1,
    kappa_coeff := ((p.get? "kappa_coeff").map attrReal).getD 1,
    dx := attrReal dx, L := 2 * Real.pi / attrReal k0,
    zonal := ((p.get? "zonal").map attrBool).getD false,
    debug := ((p.get? "debug").map attrBool).getD false,
    TEST_CONSERVATION := ((p.get? "TEST_CONSERVATION").map attrBool).getD true }

/-- the simulation an `HW` object performs.  The model of `hw2d_gradient` covers `0 ≤ N`
(`model.py` l.206).  The schemes, l.201-204, are those of the backend `b`. -/
noncomputable def HWObject.toHW (b : Backend) (o : HWObject) : HW :=
  { backend := b, N := o.N.toNat, c1 := o.c1, nu := o.nu, k0 := o.k0, poisson_bracket_coeff := o.poisson_bracket_coeff,
    kappa_coeff := o.kappa_coeff, dx := o.dx, zonal := o.zonal, TEST_CONSERVATION := o.TEST_CONSERVATION }

end Verif
