import Verif.Model.HW

/-!
# Model of the profiling in `model.py`

The steps of `Model/HW.lean` once more, with the wall clock: every `time.time()` reads the next
value of a clock, and `self.log` adds a duration to `self.timings` (`model.py` l.217-238).
`debug` is off (with `debug=True`, `rk4_step` reads the clock once more after the last `log`).
-/

namespace Verif.Timed

open Arr NS

/-- `self.timings`, `model.py` l.226: seconds per function -/
structure Times where
  full_step : ℝ := 0
  get_phi : ℝ := 0
  diffuse : ℝ := 0
  gradient_2d : ℝ := 0
  poisson_bracket : ℝ := 0

/-- the state of the profiling: the number of clock readings so far, `self.timings` and
`self.calls`, `model.py` l.226-227 -/
structure Prof where
  reads : ℕ := 0
  times : Times := {}
  calls : Calls := {}

/-- computations of `HW` methods that read the clock; `model.py` l.229-238 -/
abbrev T := StateT Prof (Except PyErr)

/-- a pure numerical function; `model.py` l.309, 315 and the calls in l.83-147 -/
def T.lift {α : Type} (x : Py α) : T α := fun p => x.map fun a => (a, p)

/-- `time.time()`: the next reading of the clock; `model.py` l.94, 108, 121, 251, 266, 306, 314 -/
def now (clock : ℕ → ℝ) : T ℝ := fun p => .ok (clock p.reads, { p with reads := p.reads + 1 })

/-- `self.log(name, time)`, `model.py` l.229-238: `timings[name] += time`, `calls[name] += 1` -/
def log (f : Times → Times) (g : Calls → Calls) : T Unit := fun p => .ok ((), { p with times := f p.times, calls := g p.calls })

variable (clock : ℕ → ℝ)

/-- `HW.get_phi`, `model.py` l.305-311 -/
noncomputable def get_phi (hw : HW) (omega : Arr ℝ) (dx : ℝ) : T (Arr ℝ) := do
  let t0 ← now clock
  let o_mean := omega.mean
  let centered_omega := omega.map (· - o_mean)
  let phi ← T.lift (hw.backend.poisson_solver centered_omega dx)
  let t1 ← now clock
  log (fun t => { t with get_phi := t.get_phi + (t1 - t0) }) fun c => { c with get_phi := c.get_phi + 1 }
  return phi

/-- `HW.diffuse`, `model.py` l.313-317 -/
noncomputable def diffuse (hw : HW) (arr : Arr ℝ) (dx : ℝ) (N : ℕ) : T (Arr ℝ) := do
  let t0 ← now clock
  let arr ← T.lift (hw.backend.diffuse_N arr dx N)
  let t1 ← now clock
  log (fun t => { t with diffuse := t.diffuse + (t1 - t0) }) fun c => { c with diffuse := c.diffuse + 1 }
  return arr

open Classical in
/-- the bracket terms, `model.py` l.107-114 and l.120-127 -/
noncomputable def addBracket (hw : HW) (x phi psi : Arr ℝ) (dx : ℝ) : T (Arr ℝ) :=
  if hw.poisson_bracket_coeff ≠ 0 then do
    let t0 ← now clock
    let b ← T.lift (hw.backend.poisson_bracket phi psi dx)
    let arak_comp := b.map (-hw.poisson_bracket_coeff * ·)
    let t1 ← now clock
    log (fun t => { t with poisson_bracket := t.poisson_bracket + (t1 - t0) })
      fun c => { c with poisson_bracket := c.poisson_bracket + 1 }
    T.lift (iadd x arak_comp)
  else pure x

open Classical in
/-- the hyperdiffusion terms, `model.py` l.115-117 and l.131-133 -/
noncomputable def addDiffusion (hw : HW) (x f : Arr ℝ) (dx : ℝ) : T (Arr ℝ × Val) :=
  if hw.nu ≠ 0 then do
    let d ← diffuse clock hw f dx hw.N
    let Df := d.map (hw.nu * ·)
    let x ← T.lift (iadd x Df)
    return (x, .arr Df)
  else pure (x, .num 0)

/-- the `TEST_CONSERVATION` block, `model.py` l.158-166 -/
noncomputable def addConservation (hw : HW) (return_dict : NS Val) (density omega phi : Arr ℝ)
    (Dn : Val) (dx : ℝ) : T (NS Val) :=
  if hw.TEST_CONSERVATION then do
    let gammas ← T.lift (hw.get_gammas density phi)
    let dp ← diffuse clock hw phi dx hw.N
    let Dp := Val.arr (dp.map (hw.nu * ·))
    let DE ← T.lift (Properties.get_DE density phi Dn Dp)
    let DU ← T.lift (Properties.get_DU density omega Dn Dp)
    let dE_dt := Properties.get_dE_dt gammas.1 gammas.2 DE
    let dU_dt := Properties.get_dU_dt gammas.1 DU
    return (return_dict.set "dE" (.num dE_dt)).set "dU" (.num dU_dt)
  else pure return_dict

/-- `hw2d_gradient`, `model.py` l.63-168 -/
noncomputable def hw2d_gradient (hw : HW) (density omega : Arr ℝ) (phi : Option (Arr ℝ))
    (age : Option Val) (dt dx : ℝ) (zonal : Bool) : T (NS Val) := do
  let phi ← phi.elim (get_phi clock hw omega dx) pure
  let t0 ← now clock
  let dy_p ← T.lift (hw.backend.gradient_func phi dx 0)
  let t1 ← now clock
  log (fun t => { t with gradient_2d := t.gradient_2d + (t1 - t0) }) fun c => { c with gradient_2d := c.gradient_2d + 1 }
  let diff ← T.lift (HW.coupling phi density zonal)
  let o := diff.map (hw.c1 * ·)
  let o ← addBracket clock hw o phi omega dx
  let oD ← addDiffusion clock hw o omega dx
  let n := diff.map (hw.c1 * ·)
  let n ← addBracket clock hw n phi density dx
  let n ← T.lift (hw.addKappa n dy_p)
  let nD ← addDiffusion clock hw n density dx
  let return_dict : NS Val := [("density", .arr nD.1), ("omega", .arr oD.1)]
  let return_dict ← T.lift (HW.addAge return_dict age dt)
  addConservation clock hw return_dict density omega phi nD.2 dx

/-- `HW.gradient_2d`, `model.py` l.319-352 -/
noncomputable def gradient_2d (hw : HW) (y : NS Val) (phi : Option Val) (dt dx : ℝ) (zonal : Bool) :
    T (NS Val) :=
  if y.keys.any (· ∈ reservedNames) then T.lift (.error .typeError)
  else match y.get? "density", y.get? "omega" with
    | some density, some omega => do
      let density ← T.lift density.asArr
      let omega ← T.lift omega.asArr
      let phi ← T.lift (phi.elim (.ok none) fun p => p.asArr.map some)
      hw2d_gradient clock hw density omega phi (y.get? "age") dt dx zonal
    | _, _ => T.lift (.error .typeError)

/-- `self.get_phi(omega=y.omega, dx=dx)`; `model.py` l.258, 272, 275, 278, 283 -/
noncomputable def get_phi_of (hw : HW) (y : NS Val) (dx : ℝ) : T Val := do
  let om ← T.lift (y.getItem "omega")
  let om ← T.lift om.asArr
  return .arr (← get_phi clock hw om dx)

/-- `HW.euler_step`, `model.py` l.248-262 -/
noncomputable def euler_step (hw : HW) (plasma : NS Val) (dt dx : ℝ) : T (NS Val) := do
  let t0 ← now clock
  let y := plasma.without "phi"
  -- l.253-256: `phi=plasma["phi"]` if present, otherwise the default `None`
  let g ← gradient_2d clock hw y (plasma.get? "phi") 0 dx hw.zonal
  let d ← T.lift (g.mul (.scalar (.num dt)))
  let y ← T.lift (y.add (.ns d))
  let phi ← get_phi_of clock hw y dx
  let y := y.set "phi" phi
  let age ← T.lift (plasma.getItem "age")
  let age ← T.lift (Ops.add age (.num dt))
  let y := y.set "age" age
  let t1 ← now clock
  log (fun t => { t with full_step := t.full_step + (t1 - t0) }) fun c => { c with full_step := c.full_step + 1 }
  return y

/-- `HW.rk4_step`, `model.py` l.264-303 -/
noncomputable def rk4_step (hw : HW) (plasma : NS Val) (dt dx : ℝ) : T (NS Val) := do
  let t0 ← now clock
  let yn := plasma.without "phi"
  let pn ← T.lift (plasma.getItem "phi")
  let k1 ← T.lift ((← gradient_2d clock hw yn (some pn) 0 dx hw.zonal).mul (.scalar (.num dt)))
  let y1 ← T.lift (do yn.add (.ns (← k1.mul (.scalar (.num (1 / 2))))))
  let p1 ← get_phi_of clock hw y1 dx
  let k2 ← T.lift ((← gradient_2d clock hw y1 (some p1) (dt / 2) dx hw.zonal).mul (.scalar (.num dt)))
  let y2 ← T.lift (do yn.add (.ns (← k2.mul (.scalar (.num (1 / 2))))))
  let p2 ← get_phi_of clock hw y2 dx
  let k3 ← T.lift ((← gradient_2d clock hw y2 (some p2) (dt / 2) dx hw.zonal).mul (.scalar (.num dt)))
  let y3 ← T.lift (yn.add (.ns k3))
  let p3 ← get_phi_of clock hw y3 dx
  let k4 ← T.lift ((← gradient_2d clock hw y3 (some p3) dt dx hw.zonal).mul (.scalar (.num dt)))
  let yk1 ← T.lift (do
    let s ← k1.add (.ns (← k2.mul (.scalar (.num 2))))
    let s ← s.add (.ns (← k3.mul (.scalar (.num 2))))
    let s ← s.add (.ns k4)
    yn.add (.ns (← s.mul (.scalar (.num (1 / 6))))))
  let phi ← get_phi_of clock hw yk1 dx
  let yk1 := yk1.set "phi" phi
  let age ← T.lift (plasma.getItem "age")
  let age ← T.lift (Ops.add age (.num dt))
  let yk1 := yk1.set "age" age
  let t1 ← now clock
  log (fun t => { t with full_step := t.full_step + (t1 - t0) }) fun c => { c with full_step := c.full_step + 1 }
  return yk1

/-- a row of the table of `print_log`, `model.py` l.240-246; `none` is NaN (a function that was
never called, or a share of no time).  A time that is not zero is not divided by zero: see C131. -/
structure Row where
  name : String
  time : ℝ
  calls : ℕ
  perCall : Option ℝ
  percent : Option ℝ

open Classical in
/-- `x / y` of pandas columns where `0 / 0` is NaN; the case `x / 0` with `x ≠ 0`, infinity, is also
represented by `none`.  `model.py` l.243-244 -/
noncomputable def quot (x y : ℝ) : Option ℝ := if y = 0 then none else some (x / y)

/-- the rows before sorting, in the order of `watch_fncs`; `model.py` l.219-225, 242-244 -/
noncomputable def rows (p : Prof) : List Row :=
  let row name (time : ℝ) (calls : ℕ) : Row :=
    ⟨name, time, calls, quot time calls, (quot time p.times.full_step).map (· * 100)⟩
  [row "full_step" p.times.full_step p.calls.full_step, row "get_phi" p.times.get_phi p.calls.get_phi,
   row "diffuse" p.times.diffuse p.calls.diffuse, row "gradient_2d" p.times.gradient_2d p.calls.gradient_2d,
   row "poisson_bracket" p.times.poisson_bracket p.calls.poisson_bracket]

/-- `a` may stand before `b` in `df.sort_values("time/call")`: ascending, NaN last; `model.py` l.245 -/
def Before (a b : Row) : Prop := match a.perCall, b.perCall with
  | some x, some y => x ≤ y
  | none, some _ => False
  | _, none => True

/-- the printed tables: pandas' quicksort may order rows with equal keys in any way;
`print_log`, `model.py` l.240-246 -/
def Printed (p : Prof) (table : List Row) : Prop := table.Perm (rows p) ∧ table.Pairwise Before

end Verif.Timed
