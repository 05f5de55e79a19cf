import Verif.NumPy.Arr
import Mathlib.Data.Real.Basic

/-!
# Model of `utils/namespaces.py`

A `Namespace` is a `dict`: an association list whose order is the insertion
order.  The value type and the operators on it are parameters (law-free); the
operators may raise.
-/

namespace Verif

/-- a Python `dict` with string keys; `utils/namespaces.py` l.1 -/
abbrev NS (V : Type) := List (String × V)

namespace NS

variable {V : Type}

/-- keys in insertion order; `run.py` l.199, `utils/io.py` l.79 -/
def keys (ns : NS V) : List String := ns.map (·.1)

/-- `ns.get(k)`; `utils/namespaces.py` l.42-68 (the properties read `self[k]`) -/
def get? (ns : NS V) (k : String) : Option V := (ns.find? (·.1 = k)).map (·.2)

/-- `ns[k]`; also the accessor properties `omega`, `phi`, `density`, `dE`, `dU`,
`age`, `utils/namespaces.py` l.42-64 -/
def getItem (ns : NS V) (k : String) : Py V := match ns.get? k with
  | some v => .ok v
  | none => .error (.keyError k)

/-- `ns[k] = v`: replaces in place or appends; `model.py` l.155, 165, 166, 258 -/
def set (ns : NS V) (k : String) (v : V) : NS V :=
  if k ∈ ns.keys then ns.map fun p => if p.1 = k then (k, v) else p else ns ++ [(k, v)]

/-- `{k: v for k, v in ns.items() if k != name}`; `model.py` l.252, 267 (the entries passed on
as keywords) -/
def without (ns : NS V) (name : String) : NS V := ns.filter (·.1 ≠ name)

/-- `Namespace({key: op(other[key], val) for key, val in self.items()})`;
`utils/namespaces.py` l.4, 12, 18, 24, 30, 38 -/
def zipWith (op : V → V → Py V) : (self other : NS V) → Py (NS V)
  | [], _ => .ok []
  | (k, v) :: rest, other => do
    let u ← other.getItem k
    let r ← op u v
    let rs ← zipWith op rest other
    return (k, r) :: rs

/-- `Namespace({key: op(other, val) for key, val in self.items()})`; `utils/namespaces.py`
l.6, 14, 20, 26, 32, 40 -/
def mapWith (op : V → V → Py V) : (self : NS V) → (other : V) → Py (NS V)
  | [], _ => .ok []
  | (k, v) :: rest, other => do
    let r ← op other v
    let rs ← mapWith op rest other
    return (k, r) :: rs

/-- operators on entries; `utils/namespaces.py` l.2-40 -/
class Ops (V : Type) where
  add : V → V → Py V
  sub : V → V → Py V
  mul : V → V → Py V
  div : V → V → Py V

variable [Ops V]

/-- the right operand of a `Namespace` operator; `isinstance(other, Namespace)`,
`utils/namespaces.py` l.3, 11, 17, 23, 29, 37 -/
inductive Operand (V : Type) where
  | ns (o : NS V)
  | scalar (v : V)

/-- the common shape of all `Namespace` operators; `utils/namespaces.py` l.2-6 and likewise
l.10-40 -/
def binop (op : V → V → Py V) (self : NS V) : Operand V → Py (NS V)
  | .ns o => zipWith op self o
  | .scalar v => mapWith op self v

/-- `__mul__` / `__rmul__`, l.2-8: `other[key] * val` -/
def mul (self : NS V) (other : Operand V) : Py (NS V) := binop Ops.mul self other

/-- `__truediv__`, l.16-20: `val / other[key]` -/
def truediv (self : NS V) (other : Operand V) : Py (NS V) :=
  binop (fun o v => Ops.div v o) self other

/-- `__add__` / `__radd__`, l.28-34: `other[key] + val` -/
def add (self : NS V) (other : Operand V) : Py (NS V) := binop Ops.add self other

/-- `__sub__`, l.36-40: `other[key] - val` -/
def sub (self : NS V) (other : Operand V) : Py (NS V) := binop Ops.sub self other

/-- `other / ns` with a non-Namespace left operand: `__rdiv__` (l.22-26) is a
Python 2 hook that Python 3 never calls; there is no `__rtruediv__`. -/
def rtruediv (_self : NS V) (_other : V) : Py (NS V) := .error .typeError

/-- `copy`, l.70-71 -/
def copy (self : NS V) : NS V := self.map fun p => (p.1, p.2)

end NS

/-- A value stored in a plasma state: two-dimensional array or number.  `run.py` l.157-162,
`model.py` l.149-166. -/
inductive Val where
  | arr (a : Arr ℝ)
  | num (x : ℝ)

namespace Val

/-- element-wise operator with broadcasting (a number broadcasts to any shape);
`utils/namespaces.py` l.2-40 on entries -/
def lift (f : ℝ → ℝ → ℝ) : Val → Val → Py Val
  | arr a, arr b => do return arr (← Arr.zip f a b)
  | arr a, num y => .ok (arr (a.map (f · y)))
  | num x, arr b => .ok (arr (b.map (f x ·)))
  | num x, num y => .ok (num (f x y))

/-- Division is totalised at 0 (`ZeroDivisionError` / `inf` are not modelled);
the HW model never divides.  `utils/namespaces.py` l.10-26. -/
noncomputable instance : NS.Ops Val :=
  ⟨lift (· + ·), lift (· - ·), lift (· * ·), lift (· / ·)⟩

/-- The functions of `model.py` are modelled for two-dimensional array
arguments; a plain number in place of a field is outside the model and
recorded as `TypeError`.  `model.py` l.63-168. -/
def asArr : Val → Py (Arr ℝ)
  | arr a => .ok a
  | num _ => .error .typeError

end Val

end Verif
