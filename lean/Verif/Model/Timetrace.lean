import Verif.Model.Plot
import Verif.Model.MovieFile

/-!
# Model of `utils/plot/timetrace.py` on files: curves, legends, statistics

Not modelled: drawing by matplotlib, printing, the y axis (`Model/Plot.lean`), the ticks of `plot_timetraces`, the
formatting of the numbers in the legend.  Exact arithmetic; `sqrt` is the square root used by `np.std`.  A statistic
of no values (NaN) is `none`.
-/

namespace Verif.Timetrace

open H5 Plot

variable {K : Type} [Field K] [LinearOrder K] [IsStrictOrderedRing K] [FloorRing K]

/-- the value of a Python number; timetrace.py l.135, 142, 160 -/
def value : Attr K → K
  | .num x => x
  | .int z => z
  | .bool b => if b then 1 else 0

/-- truth of `parameters.get("adaptive_step_size", False)`; timetrace.py l.133, 136 -/
def truth : Option (Attr K) → Bool
  | some (.num x) => decide (x ≠ 0)
  | some (.int z) => z != 0
  | some (.bool b) => b
  | none => false

/-- `max(a, b)`: the first of equal arguments; timetrace.py l.311 -/
def pyMax (a b : Attr K) : Attr K := if value a < value b then b else a

/-- the numbers in the rows of a dataset, `none` if a row is an array; timetrace.py l.147, 175, 179 -/
def rowNumbers : List (Cell K) → Option (List K)
  | [] => some []
  | .num x :: rest => (rowNumbers rest).map (x :: ·)
  | .arr _ :: _ => none

/-- `hf[name]` for a dataset of one number per frame; timetrace.py l.147, 175, 179, 235.  (Other datasets cannot be
drawn: `ax.plot` raises.) -/
def series (f : H5 K K) (name : String) : Py (List K) := match f.dsets name with
  | some (.flat l) => .ok l
  | some (.rows _ r) => match rowNumbers r with
    | some l => .ok l
    | none => .error .valueError
  | some (.full _) => .error .valueError
  | none => .error (.keyError name)

/-- `np.argmin(np.abs(times_x - t))`; timetrace.py l.139, 160, 315, 334 -/
def nearest (times : List K) (t : K) : Py ℤ :=
  let d := times.map fun x => |x - t|
  match d.min? with
  | some m => .ok (d.idxOf m)
  | none => .error .valueError

/-- `int(t // frame_dt)`; timetrace.py l.142, 162, 319, 337 (for `frame_dt = 0` NumPy gives NaN or an infinity, which
`int` refuses) -/
def frameOf (t frame_dt : K) : Py ℤ := if frame_dt = 0 then .error .valueError else .ok ⌊t / frame_dt⌋

/-- `np.mean`, `np.std`; timetrace.py l.175-176, 235-236 -/
def stats (sqrt : K → K) (l : List K) : Option (K × K) :=
  if l = [] then none
  else
    let mean := l.sum / l.length
    some (mean, sqrt ((l.map fun x => (x - mean) ^ 2).sum / l.length))

/-- a curve with its entry in the legend, and the limits of the x axis after drawing it -/
structure Curve (K : Type) where
  label : String
  stats : Option (K × K)
  points : List (K × K)
  xlim : K × K

/-- the times of the values, timetrace.py l.184-188, 245-251 -/
def xValues (f : H5 K K) (adaptive : Bool) (t0 : K) (t0_idx : ℤ) (length : ℕ) (frame_dt : K) : Py (List K) :=
  if adaptive then do
    let times ← Movie.recordedTimes f
    return sliceFrom times t0_idx
  else .ok (arange t0 (t0 + length * frame_dt) frame_dt)

/-- timetrace.py l.173-203 and `process_property`, l.233-270, with `plot_timeline_with_stds`, l.88-118: the curve of a
property; `none` if there are no values -/
def curve (sqrt : K → K) (f : H5 K K) (adaptive : Bool) (prop label : String) (t0 : K) (t0_idx t0_std_idx : ℤ) :
    Py (Option (Curve K)) := do
  let data ← series f prop
  let s := stats sqrt (sliceFrom data t0_std_idx)
  let prop_data := sliceFrom data t0_idx
  if prop_data.isEmpty then return none
  else
    let frame_dt := value (← RunProperties.attr f "frame_dt")
    let x ← xValues f adaptive t0 t0_idx prop_data.length frame_dt
    let x := x.take prop_data.length
    if x.length ≠ prop_data.length then .error .valueError
    else match x.getLast? with
      | some last => return some ⟨label, s, x.zip prop_data, (t0, t0 + last)⟩
      | none => .error .indexError

/-- the check of the lengths, timetrace.py l.145-154 (`key = "dt"`), l.322-329 (`key = "frame_dt"`): the largest length,
or `none` if the function returns without a plot -/
def maxLength (f : H5 K K) (t0_idx : ℤ) (key : String) : List String → ℕ → Py (Option ℕ)
  | [], max_len => .ok (some max_len)
  | prop :: rest, max_len => do
    let data ← series f prop
    if (data.length : ℤ) ≤ t0_idx then
      let _ ← RunProperties.attr f key
      return none
    else maxLength f t0_idx key rest (max max_len data.length)

/-- the index of a time, timetrace.py l.136-142, 159-162, 312-319, 333-337 -/
def timeIndex (f : H5 K K) (adaptive : Bool) (t : K) : Py ℤ :=
  if adaptive then do
    let times ← Movie.recordedTimes f
    nearest times t
  else do
    let frame_dt ← RunProperties.attr f "frame_dt"
    frameOf t (value frame_dt)

/-- the loop over the properties of `plot_timetraces`, timetrace.py l.173-205.  The label is made from the
name `property` of the Python class instead of `prop` (l.196), see `plot_timeline_with_stds` l.104. -/
def curves (sqrt : K → K) (f : H5 K K) (adaptive : Bool) (t0 : K) (t0_idx t0_std_idx : ℤ) :
    List String → Py (List (Curve K))
  | [] => .ok []
  | prop :: rest => do
    let c ← curve sqrt f adaptive prop "<class 'property'> " t0 t0_idx t0_std_idx
    let cs ← curves sqrt f adaptive t0 t0_idx t0_std_idx rest
    return c.toList ++ cs

/-- `plot_timetraces`, timetrace.py l.121-205: the curves, or `none` if it returns without a plot.  (`t0` is an
integer, as passed by `run` and by the command line.) -/
def plot_timetraces (sqrt : K → K) (f : H5 K K) (properties : List String) (t0 : ℤ) (t0_std : K) :
    Py (Option (List (Curve K))) := do
  let adaptive := truth (f.attrs "adaptive_step_size")
  let init_time := value ((f.attrs "initial_time").getD (.int 0))
  let t0_idx ← timeIndex f adaptive t0
  match ← maxLength f t0_idx "dt" properties 0 with
  | none => return none
  | some max_len =>
    if (max_len : ℤ) < t0_idx then return none
    else
      let t0_std_idx ← timeIndex f adaptive (t0_std - init_time)
      let t0_std_idx := if (max_len : ℤ) < t0_std_idx then t0_idx else t0_std_idx
      let cs ← curves sqrt f adaptive t0 t0_idx t0_std_idx properties
      return some cs

/-- the curve in the lower panel, timetrace.py l.354-359 -/
def fullCurve (sqrt : K → K) (f : H5 K K) (adaptive : Bool) (prop label : String) (t0 : K) (t0_idx t0_std_idx : ℤ) :
    Py (Option (Curve K)) :=
  if (f.dsets prop).isSome then curve sqrt f adaptive prop label t0 t0_idx t0_std_idx else .ok none

/-- the loop over the properties of `plot_timetrace_comparison`, timetrace.py l.348-359: the curves of the upper and the
lower panel -/
def panels (sqrt : K → K) (f : H5 K K) (adaptive : Bool) (pre : String) (t0 : K) (t0_idx t0_std_idx : ℤ) :
    List String → Py (List (Curve K) × List (Curve K))
  | [] => .ok ([], [])
  | prop :: rest => do
    let name ← latex_format prop
    let c ← curve sqrt f adaptive prop (name ++ " ") t0 t0_idx t0_std_idx
    let d ← fullCurve sqrt f adaptive (pre ++ prop) ("Full " ++ name ++ " ") t0 t0_idx t0_std_idx
    let (cs, ds) ← panels sqrt f adaptive pre t0 t0_idx t0_std_idx rest
    return (c.toList ++ cs, d.toList ++ ds)

/-- the ticks set by `format_axis`, timetrace.py l.289-290: `range` refuses a float -/
def ticks (t0 : Attr K) (age : K) (xtick_interval : ℤ) : Py Unit :=
  if ⌊age / xtick_interval⌋ < 15 then match t0 with
    | .num _ => .error .typeError
    | _ => .ok ()
  else .ok ()

/-- `end_time`, timetrace.py l.316, 320 -/
def endTime (f : H5 K K) (adaptive : Bool) : Py K :=
  if adaptive then do
    let times ← Movie.recordedTimes f
    match times.getLast? with
    | some t => return t
    | none => .error .indexError
  else do
    let frame_dt ← RunProperties.attr f "frame_dt"
    match f.dsets "density" with
    | some (.rows _ r) => return r.length * value frame_dt
    | some (.full a) => return a.h * value frame_dt
    | some (.flat l) => return l.length * value frame_dt
    | none => .error (.keyError "density")

/-- `plot_timetrace_comparison`, timetrace.py l.293-361: the curves of both panels, or `none` if it returns without a
plot -/
def plot_timetrace_comparison (sqrt : K → K) (f : H5 K K) (properties : List String) (pre : String) (t0 : Attr K) (t0_std : K)
    (xtick_interval : ℤ) : Py (Option (List (Curve K) × List (Curve K))) := do
  let adaptive := truth (f.attrs "adaptive_step_size")
  let init_time := (f.attrs "initial_time").getD (.int 0)
  let t0 := pyMax t0 init_time
  let t0_idx ← timeIndex f adaptive (value t0)
  let end_time ← endTime f adaptive
  match ← maxLength f t0_idx "frame_dt" properties 0 with
  | none => return none
  | some max_len =>
    let t0_std_idx ← timeIndex f adaptive (t0_std - value init_time)
    let t0_std_idx := if (max_len : ℤ) < t0_std_idx then t0_idx else t0_std_idx
    let p ← panels sqrt f adaptive pre (value t0) t0_idx t0_std_idx properties
    ticks t0 end_time xtick_interval
    return some p

/-- `s.split(sub)[0]`; timetrace.py l.226, 367 -/
def beforeFirst (sub : List Char) : List Char → List Char
  | [] => []
  | c :: s => if sub.isPrefixOf (c :: s) then [] else c :: beforeFirst sub s

/-- where a figure is saved, timetrace.py l.224-228, 365-369 -/
def figurePath (file_path : List Char) (out_path : Option (List Char)) (properties : List String) : List Char :=
  match out_path with
  | some p => p
  | none => beforeFirst ".h5".toList file_path ++ ("_".toList ++ (("-".intercalate properties).toList ++ ".jpg".toList))

/-- `main(…, comparison=False)`, timetrace.py l.396-411: the paths of the two figures -/
def mainPaths (file_path : List Char) (out_path : Option (List Char)) : List (List Char) :=
  [figurePath file_path out_path ["gamma_c", "gamma_n", "gamma_n_spectral"],
   figurePath file_path out_path ["energy", "kinetic_energy", "thermal_energy", "enstrophy_phi"]]

end Verif.Timetrace
