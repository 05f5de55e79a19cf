import Verif.Model.HW

/-!
# Model of the `debug` printing in `model.py`

`hw2d_gradient` (l.136-147) and `rk4_step` (l.289-302) print a line if asked to.  Here they are
modelled once more with the lines they print.  Of a line the numbers are kept, before they are rounded to
two (the age: four) digits for printing; the elapsed seconds at the end of the line of `rk4_step` are left out.
-/

namespace Verif.Debug

open Arr NS

/-- the numbers of a printed line -/
inductive Line where
  /-- l.136-147: sizes of the contributions to the time derivative of omega and of density, and their means -/
  | gradient (maxO maxN meanO meanN : List ℝ)
  /-- l.289-302: the age after the step, the size of density and of its four increments -/
  | step (age : ℝ) (sizes : List ℝ)

/-- computations of `HW` methods that may print; the state holds `self.calls` and the lines printed so
far; `model.py` l.136-147, 229-238, 289-302 -/
abbrev D := StateT (Calls × List Line) (Except PyErr)

/-- a computation that prints nothing; the calls in `model.py` l.86-133, 154-166, 258-288 -/
def D.of {α : Type} (x : M α) : D α := fun s => (x s.1).map fun r => (r.1, (r.2, s.2))

/-- `print(...)`, `model.py` l.137, 290 -/
def print (l : Line) : D Unit := fun s => .ok ((), (s.1, s.2 ++ [l]))

open Classical in
/-- `np.max(np.abs(x))` of a number or an array, `model.py` l.140-141, 294-298; NumPy refuses the maximum of
an array without entries -/
noncomputable def maxAbs : Val → Py ℝ
  | .num x => .ok |x|
  | .arr a =>
    if a.h = 0 ∨ a.w = 0 then .error .valueError
    else .ok (((List.range a.h).flatMap fun i => (List.range a.w).map fun j => |a.at' i j|).foldl max 0)

/-- `np.mean(x)` of a number or an array, `model.py` l.142-143 -/
noncomputable def mean : Val → ℝ
  | .num x => x
  | .arr a => a.mean

open Classical in
/-- the bracket terms, `model.py` l.107-114 and l.120-127; also returns the term (0 if skipped, l.89-90) -/
noncomputable def addBracket (hw : HW) (x phi psi : Arr ℝ) (dx : ℝ) : M (Arr ℝ × Val) :=
  if hw.poisson_bracket_coeff ≠ 0 then do
    let b ← M.lift (hw.backend.poisson_bracket phi psi dx)
    let arak_comp := b.map (-hw.poisson_bracket_coeff * ·)
    logCall fun c => { c with poisson_bracket := c.poisson_bracket + 1 }
    let x ← M.lift (iadd x arak_comp)
    return (x, .arr arak_comp)
  else pure (x, .num 0)

open Classical in
/-- `kap = -kappa_coeff * dy_p; n += kap`, `model.py` l.128-130; also returns the term (0 if skipped, l.91) -/
noncomputable def addKappa (hw : HW) (x dy_p : Arr ℝ) : Py (Arr ℝ × Val) :=
  if hw.kappa_coeff ≠ 0 then do
    let kap := dy_p.map (-hw.kappa_coeff * ·)
    let x ← iadd x kap
    return (x, .arr kap)
  else .ok (x, .num 0)

/-- the line printed by `hw2d_gradient`, `model.py` l.137-146.  `c` is `c1 * diff`. -/
noncomputable def gradientLine (c arak_comp_o Do arak_comp_n kap Dn : Val) : Py Line := do
  let o1 ← maxAbs c
  let o2 ← maxAbs arak_comp_o
  let o3 ← maxAbs Do
  let n1 ← maxAbs c
  let n2 ← maxAbs arak_comp_n
  let n3 ← maxAbs kap
  let n4 ← maxAbs Dn
  return .gradient [o1, o2, o3] [n1, n2, n3, n4] [mean c, mean arak_comp_o, mean Do]
    [mean c, mean arak_comp_n, mean kap, mean Dn]

/-- the block `if debug: print(…)`, `model.py` l.136-147 -/
noncomputable def printGradient (debug : Bool) (c arak_comp_o Do arak_comp_n kap Dn : Val) : D Unit :=
  if debug then do
    let l ← D.of (M.lift (gradientLine c arak_comp_o Do arak_comp_n kap Dn))
    print l
  else pure ()

/-- `hw2d_gradient`, `model.py` l.63-168 -/
noncomputable def hw2d_gradient (hw : HW) (density omega : Arr ℝ) (phi : Option (Arr ℝ))
    (age : Option Val) (dt dx : ℝ) (zonal debug : Bool) : D (NS Val) := do
  let phi ← D.of (phi.elim (hw.get_phi omega dx) pure)
  let dy_p ← D.of (M.lift (hw.backend.gradient_func phi dx 0))
  D.of (logCall fun c => { c with gradient_2d := c.gradient_2d + 1 })
  let diff ← D.of (M.lift (HW.coupling phi density zonal))
  let o := diff.map (hw.c1 * ·)
  let oB ← D.of (addBracket hw o phi omega dx)
  let oD ← D.of (hw.addDiffusion oB.1 omega dx)
  let n := diff.map (hw.c1 * ·)
  let nB ← D.of (addBracket hw n phi density dx)
  let nK ← D.of (M.lift (addKappa hw nB.1 dy_p))
  let nD ← D.of (hw.addDiffusion nK.1 density dx)
  printGradient debug (.arr (diff.map (hw.c1 * ·))) oB.2 oD.2 nB.2 nK.2 nD.2
  let return_dict : NS Val := [("density", .arr nD.1), ("omega", .arr oD.1)]
  let return_dict ← D.of (M.lift (HW.addAge return_dict age dt))
  D.of (hw.addConservation return_dict density omega phi nD.2 dx)

/-- `self.gradient_2d(**y, phi=phi, dt=dt, dx=dx, zonal=zonal, debug=debug)`, `model.py` l.319-352; `debug` is
`false` where the call has no such argument (l.254, 256, 270, 273, 276, 279: all calls by the time steppers).
A state with an entry `debug` is not modelled. -/
noncomputable def gradient_2d (hw : HW) (y : NS Val) (phi : Option Val) (dt dx : ℝ) (zonal debug : Bool) :
    D (NS Val) :=
  if y.keys.any (· ∈ reservedNames) then D.of (M.lift (.error .typeError))
  else match y.get? "density", y.get? "omega" with
    | some density, some omega => do
      let density ← D.of (M.lift density.asArr)
      let omega ← D.of (M.lift omega.asArr)
      let phi ← D.of (M.lift (phi.elim (.ok none) fun p => p.asArr.map some))
      hw2d_gradient hw density omega phi (y.get? "age") dt dx zonal debug
    | _, _ => D.of (M.lift (.error .typeError))

/-- `HW.euler_step`, `model.py` l.248-262: `self.debug` is not used -/
noncomputable def euler_step (hw : HW) (plasma : NS Val) (dt dx : ℝ) : D (NS Val) := do
  let y := plasma.without "phi"
  let g ← gradient_2d hw y (plasma.get? "phi") 0 dx hw.zonal false
  let d ← D.of (M.lift (g.mul (.scalar (.num dt))))
  let y ← D.of (M.lift (y.add (.ns d)))
  let phi ← D.of (hw.get_phi_of y dx)
  let y := y.set "phi" phi
  let age ← D.of (M.lift (plasma.getItem "age"))
  let age ← D.of (M.lift (Ops.add age (.num dt)))
  let y := y.set "age" age
  D.of (logCall fun c => { c with full_step := c.full_step + 1 })
  return y

/-- the age in the line of `rk4_step`, `model.py` l.293: only a number can be formatted -/
def formatAge : Val → Py ℝ
  | .num x => .ok x
  | .arr _ => .error .typeError

/-- the line printed by `rk4_step`, `model.py` l.290-301 -/
noncomputable def stepLine (age : Val) (yn k1 k2 k3 k4 : NS Val) : Py Line := do
  let a ← formatAge age
  let m0 ← maxAbs (← yn.getItem "density")
  let m1 ← maxAbs (← k1.getItem "density")
  let m2 ← maxAbs (← k2.getItem "density")
  let m3 ← maxAbs (← k3.getItem "density")
  let m4 ← maxAbs (← k4.getItem "density")
  return .step a [m0, m1, m2, m3, m4]

/-- the block `if self.debug: print(…)`, `model.py` l.289-302 -/
noncomputable def printStep (debug : Bool) (age : Val) (yn k1 k2 k3 k4 : NS Val) : D Unit :=
  if debug then do
    let l ← D.of (M.lift (stepLine age yn k1 k2 k3 k4))
    print l
  else pure ()

/-- `HW.rk4_step`, `model.py` l.264-303; `debug` is `self.debug` (l.217) -/
noncomputable def rk4_step (hw : HW) (debug : Bool) (plasma : NS Val) (dt dx : ℝ) : D (NS Val) := do
  let yn := plasma.without "phi"
  let pn ← D.of (M.lift (plasma.getItem "phi"))
  let g1 ← gradient_2d hw yn (some pn) 0 dx hw.zonal false
  let k1 ← D.of (M.lift (g1.mul (.scalar (.num dt))))
  let y1 ← D.of (M.lift (do yn.add (.ns (← k1.mul (.scalar (.num (1 / 2)))))))
  let p1 ← D.of (hw.get_phi_of y1 dx)
  let g2 ← gradient_2d hw y1 (some p1) (dt / 2) dx hw.zonal false
  let k2 ← D.of (M.lift (g2.mul (.scalar (.num dt))))
  let y2 ← D.of (M.lift (do yn.add (.ns (← k2.mul (.scalar (.num (1 / 2)))))))
  let p2 ← D.of (hw.get_phi_of y2 dx)
  let g3 ← gradient_2d hw y2 (some p2) (dt / 2) dx hw.zonal false
  let k3 ← D.of (M.lift (g3.mul (.scalar (.num dt))))
  let y3 ← D.of (M.lift (yn.add (.ns k3)))
  let p3 ← D.of (hw.get_phi_of y3 dx)
  let g4 ← gradient_2d hw y3 (some p3) dt dx hw.zonal false
  let k4 ← D.of (M.lift (g4.mul (.scalar (.num dt))))
  let yk1 ← D.of (M.lift (do
    let s ← k1.add (.ns (← k2.mul (.scalar (.num 2))))
    let s ← s.add (.ns (← k3.mul (.scalar (.num 2))))
    let s ← s.add (.ns k4)
    yn.add (.ns (← s.mul (.scalar (.num (1 / 6)))))))
  let phi ← D.of (hw.get_phi_of yk1 dx)
  let yk1 := yk1.set "phi" phi
  let age ← D.of (M.lift (plasma.getItem "age"))
  let age ← D.of (M.lift (Ops.add age (.num dt)))
  let yk1 := yk1.set "age" age
  D.of (logCall fun c => { c with full_step := c.full_step + 1 })
  printStep debug age yn k1 k2 k3 k4
  return yk1

end Verif.Debug
