import Verif.Model.Run
import Verif.Model.HW

/-!
# The simulation object of the run functions

`Run.Solver` instantiated with the model of `model.py`.
-/

namespace Verif

open Run

/-- the same value as an entry of a simulation state.  The fields of `plasma`, `run.py`
l.157-162, 260. -/
def Cell.toVal : Cell ℝ → Val
  | .arr a => .arr a
  | .num x => .num x

/-- the same value as an entry of a `plasma` dictionary.  The fields of `plasma`, `run.py`
l.260, 266. -/
def Val.toCell : Val → Cell ℝ
  | .arr a => .arr a
  | .num x => .num x

/-- An `HW` object as used by `run.py` l.251-262 and `run2.py`.  The profiling
counters restart at 0 in each call; they do not influence the results. -/
noncomputable def hwSolver (hw : HW) : Solver ℝ where
  rk4_step p dt dx := do
    let r ← hw.rk4_step (p.map fun q => (q.1, q.2.toVal)) dt dx {}
    return r.1.map fun q => (q.1, q.2.toCell)
  get_phi v dx := do
    let om ← v.toVal.asArr
    let r ← hw.get_phi om dx {}
    return .arr r.1

/-- a stored attribute used as a number; `HW(**physics_params)`, `run.py` l.250 -/
noncomputable def attrReal : Attr ℝ → ℝ
  | .num x => x
  | .int z => z
  | .bool b => if b then 1 else 0

/-- `N`: `int(N)` is assumed to be a natural number (`model.py` l.205) -/
def attrNat : Attr ℝ → Py ℕ
  | .int (.ofNat n) => .ok n
  | _ => .error .typeError

/-- a stored attribute used as a truth value; `HW(**physics_params)`, `run2.py` l.329 (`zonal`) -/
noncomputable def attrBool : Attr ℝ → Bool
  | .num x => decide (x ≠ 0)
  | .int z => decide (z ≠ 0)
  | .bool b => b

/-- a keyword argument without default value; `HW(**physics_params)`, `run.py` l.250; the
parameters of `model.py` l.172-189 -/
def reqArg (p : NS (Attr ℝ)) (k : String) : Py (Attr ℝ) := match p.get? k with
  | some v => .ok v
  | none => .error .typeError

/-- parameters of `HW.__init__` the run functions can pass, `model.py` l.172-184 -/
def hwArgs : List String := ["dx", "N", "c1", "nu", "k0", "poisson_bracket_coeff", "kappa_coeff", "zonal"]

/-- `HW(**physics_params)`: missing and unknown keyword arguments raise
`TypeError`, `model.py` l.172-184 -/
noncomputable def hwOf (b : Backend) (p : NS (Attr ℝ)) : Py HW :=
  if p.keys.any (· ∉ hwArgs) then .error .typeError
  else do
    let dx ← reqArg p "dx"
    let N ← reqArg p "N"
    let N ← attrNat N
    let c1 ← reqArg p "c1"
    let nu ← reqArg p "nu"
    let k0 ← reqArg p "k0"
    return HW.init b (attrReal dx) N (attrReal c1) (attrReal nu) (attrReal k0)
      (((p.get? "poisson_bracket_coeff").map attrReal).getD 1) (((p.get? "kappa_coeff").map attrReal).getD 1)
      (((p.get? "zonal").map attrBool).getD false)

end Verif
