import Verif.NumPy.Arr
import Mathlib.Data.Nat.Digits.Defs
import Mathlib.Algebra.Order.Floor.Ring
import Mathlib.Algebra.Order.Field.Basic

/-!
# Model of `utils/latex_format.py`, `utils/plot/image.py`, `utils/plot/timetrace.py`

Labels, file names, frame numbers, the points of the curves and the limits of the
axes.  Drawing itself is not modelled.  Text is a list of characters.  The functions of
`timetrace.py` and `image.py` as a whole are in `Model/Timetrace.lean` and `Model/Image.lean`.
-/

namespace Verif.Plot

/-! ### latex_format.py -/

/-- the dictionary literal `names`, latex_format.py l.1-44, in order (the key
"std_gamma_n" occurs twice) -/
def namesLiteral : List (String × String) :=
  [("int_gamma_n", "$\\Gamma_n(t) = \\int{dk_y \\; \\Gamma_n \\left( k_y \\right) }$"),
   ("integrated gamma_n", "$\\Gamma_n(t) = \\int{dk_y \\; \\Gamma_n \\left( k_y \\right) }$"),
   ("gamma_n", "$\\Gamma_n$"),
   ("gamma_n_k", "$\\Gamma_n \\left(k_y\\right)$"),
   ("gamma_n_spectral", "$\\int{\\Gamma_n \\left( k_y \\right) }$"),
   ("gamma_c", "$\\Gamma_c$"),
   ("ky_phi", "$\\phi \\left( k_y \\right)$"),
   ("ky_omega", "$\\Omega \\left( k_y \\right)$"),
   ("ky_density", "$n \\left( k_y \\right)$"),
   ("ky", "$k_y$"),
   ("mean", "$\\mu$"),
   ("std", "$\\sigma$"),
   ("delta_k", "$\\delta_k$"),
   ("U_phi", "$U_\\phi$"),
   ("U_centered", "$U \\left( \\Omega-\\mu \\left( \\Omega \\right), n \\right)$"),
   ("nu", "$\\nu$"),
   ("density", "density ($n$)"),
   ("phi", "potential ($\\phi$)"),
   ("omega", "vorticity ($\\Omega$)"),
   ("dE_dt", "$\\partial_t E$"),
   ("dU_dt", "$\\partial_t U$"),
   ("DE_v", "$DE_v$"),
   ("DE_n", "$DE_n$"),
   ("DEv", "$DE_v$"),
   ("DEn", "$DE_n$"),
   ("DE", "$DE$"),
   ("DU", "$DU$"),
   ("E", "E"),
   ("U", "U"),
   ("cfl", "cfl"),
   ("mean_gamma_n", "$\\mu \\left( \\Gamma_n \\right)$"),
   ("std_gamma_n", "$\\sigma \\left( \\Gamma_n \\right)$"),
   ("mean_gamma_c", "$\\mu \\left( \\Gamma_c \\right)$"),
   ("std_gamma_c", "$\\sigma \\left( \\Gamma_c \\right)$"),
   ("mean_int_gamma_n", "$\\mu_t \\left( \\int \\Gamma_n \\left(k_y\\right) \\right)$"),
   ("std_gamma_n", "$\\sigma \\left( \\int \\Gamma_n \\left(k_y\\right) \\right)$"),
   ("c1", "$c_1$"),
   ("kinetic_energy", "$E_K$"),
   ("thermal_energy", "$E_T$"),
   ("energy", "Energy $(E)$"),
   ("enstrophy", "Enstrophy $(U)$"),
   ("enstrophy_phi", "Enstrophy $(U(n,\\phi))$")]

/-- `names[string]`: the last entry of the literal with this key; `utils/latex_format.py`
l.1-44, 49, 55 -/
def names (s : String) : Py String :=
  match namesLiteral.reverse.lookup s with
  | some v => .ok v
  | none => .error (.keyError s)

/-- `metric_format`, latex_format.py l.47-50: the part before the first `_`, a space and
the label of the rest.  Without `_` `string.find` is -1, so that the slices are
`string[:-1]` and `string[0:]`. -/
def metric_format (string : String) : Py String :=
  if ["mean", "median", "std"].any fun s => decide (s.toList <:+: string.toList) then
    let find := string.toList.idxOf '_'
    if find < string.toList.length then do
      return String.ofList (string.toList.take find ++ [' ']) ++ (← names (String.ofList (string.toList.drop (find + 1))))
    else do
      return String.ofList (string.toList.dropLast ++ [' ']) ++ (← names string)
  else .ok ""

/-- `latex_format`, latex_format.py l.53-58 (the `print` is not modelled) -/
def latex_format (s : String) : Py String :=
  match names s with
  | .ok v => .ok v
  | .error _ => .ok s

/-! ### image.py -/

/-- `s.replace(old, new)` for non-empty `old`; `utils/plot/image.py` l.84 -/
def replaceAll (old new : List Char) : List Char → List Char
  | [] => []
  | c :: s =>
    if old.isPrefixOf (c :: s) then new ++ replaceAll old new (s.drop (old.length - 1))
    else c :: replaceAll old new s
termination_by s => s.length
decreasing_by all_goals simp

/-- `str(t)` for an integer `t ≥ 0`; `utils/plot/image.py` l.84 -/
def decimal (t : ℕ) : List Char :=
  if t = 0 then ['0'] else ((Nat.digits 10 t).map Nat.digitChar).reverse

/-- image.py l.84 and l.137: the path a figure is saved to,
`save_file_path[:-4] + save_type`, for an integer `t` (as given on the command
line or by default) -/
def savePath (file_path : List Char) (t : ℕ) (save_type : List Char) : List Char :=
  let save_file_path := replaceAll ".h5".toList ".jpg".toList file_path ++ ("_t=".toList ++ decimal t)
  save_file_path.take (save_file_path.length - 4) ++ save_type

section
variable {K : Type} [Field K] [LinearOrder K] [IsStrictOrderedRing K] [FloorRing K]

/-- image.py l.93: `int((t - initial_time) // frame_dt)`; `fl` rounds the
difference.  (`//` of two floats is the integer part of the exact quotient.) -/
def frameIndex (fl : K → K) (t initial_time frame_dt : K) : ℤ := ⌊fl (t - initial_time) / frame_dt⌋

/-! ### timetrace.py -/

/-- `is_zero_included`, timetrace.py l.12-28 (`np.min` of an empty array raises) -/
def is_zero_included (vals : List K) (frac : K) : Py Bool :=
  match vals.min?, vals.max? with
  | some min_yvals, some max_yvals =>
    let range_vals := max_yvals - min_yvals
    .ok (decide (min_yvals - frac * range_vals ≤ 0) && decide (0 ≤ max_yvals - frac * range_vals))
  | _, _ => .error .valueError

/-- `np.arange(start, stop, step)` for a positive step; `utils/plot/timetrace.py` l.54 -/
def arange (start stop step : K) : List K :=
  (List.range ⌈(stop - start) / step⌉.toNat).map fun i : ℕ => start + i * step

/-- `get_uniform_x`, timetrace.py l.51-56 -/
def get_uniform_x (length : ℕ) (dt t0 : K) : List K :=
  (arange t0 (t0 + length * dt) dt).take length

/-- `a[i:]`; `utils/plot/timetrace.py` l.179, 240 -/
def sliceFrom {β : Type} (a : List β) (i : ℤ) : List β :=
  if i < 0 then a.drop (i + a.length).toNat else a.drop i.toNat

/-- `plot_timetraces`, timetrace.py l.142-189, the curve of one property with
values `data`: the pairs `(x, y)` given to `ax.plot` (fixed step size).  `none`:
the function returns without a plot (l.150-154); an empty slice is skipped
(l.180-182).  `ax.plot` raises for lists of different lengths. -/
def timetracePoints (data : List K) (frame_dt t0 : K) : Py (Option (List (K × K))) :=
  let t0_idx := ⌊t0 / frame_dt⌋
  if (data.length : ℤ) ≤ t0_idx then .ok none
  else
    let prop_data := sliceFrom data t0_idx
    let time := prop_data.length * frame_dt
    let x := (arange t0 (t0 + time) frame_dt).take prop_data.length
    if x.length = prop_data.length then .ok (some (x.zip prop_data)) else .error .valueError

/-- `plot_timetrace_comparison`, timetrace.py l.313-319 and l.233-252: the curve
of one property -/
def comparisonPoints (data : List K) (frame_dt initial_time t0 : K) : Py (Option (List (K × K))) :=
  timetracePoints data frame_dt (max t0 initial_time)

/-- the adjustment of the y-limits, timetrace.py l.207-215 and l.275-283;
`ylims` are the limits chosen by matplotlib -/
def adjustY (min_yval max_yval y_cutoff : K) (ylims : K × K) : K × K :=
  let ylims := if |min_yval| ≤ 1 / 10 ^ 8 ∨ (0 < min_yval ∧ min_yval - 1 / 100 * (max_yval - min_yval) < 0)
    then (0, ylims.2) else ylims
  if y_cutoff < max_yval then (0, y_cutoff) else ylims

/-- the y-limits of `plot_timetraces`, timetrace.py l.172-215, for the plotted
values of all properties (lists without entries are skipped).  Both bounds are
accumulated from `np.min`. -/
def timetraceY (props : List (List K)) (y_cutoff : K) (ylims : K × K) : K × K :=
  let mins := props.filterMap (·.min?)
  adjustY (mins.foldl min 0) (mins.foldl max 0) y_cutoff ylims

/-- the y-limits of `plot_timetrace_comparison`, timetrace.py l.346-361 with l.266-267:
`process_property` updates only its own copies of `min_yval` and `max_yval` -/
def comparisonY (_props : List (List K)) (y_cutoff : K) (ylims : K × K) : K × K :=
  adjustY 0 0 y_cutoff ylims

end

/-- `plot_timeline`, timetrace.py l.59-85 (l.78): the name `time` is not defined -/
def plot_timeline : Py Unit := .error (.nameError "time")

end Verif.Plot
