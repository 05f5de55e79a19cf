import Verif.Model.Timetrace

/-!
# Model of `utils/plot/image.py` on dictionaries and files

Not modelled: drawing by matplotlib, printing, the progress bar, the layout of the figure.  Exact arithmetic.
-/

namespace Verif.Image

open H5IO H5 Plot Movie

variable {K : Type} [Field K] [LinearOrder K] [IsStrictOrderedRing K] [FloorRing K]

/-- an array by its number of dimensions; image.py l.44, 48, 56 -/
inductive Data (K : Type)
  | line (values : List K)
  | image (a : Arr K)
  | other (dimensions : ℕ)

/-- the numbers in an array of one or two dimensions; image.py l.62-63 -/
def Data.values : Data K → List K
  | .line l => l
  | .image a => entries a
  | .other _ => []

/-- what an axis shows: a curve, or an image with its colour limits (`none`: chosen by `imshow` for this image alone);
image.py l.44-54, 70 -/
inductive Drawn (K : Type)
  | curve (values : List K)
  | image (a : Arr K) (clim : Option (K × K))

/-- an axis with its title; image.py l.61 -/
structure Panel (K : Type) where
  title : String
  drawn : Drawn K

/-- body of the loop of `plot_dict`, image.py l.40-65, with `vmin` and `vmax` -/
def drawEntry (label : String) (data : Data K) (v : K × K) : Py (Panel K × (K × K)) := do
  let drawn ← match data with
    | .line l => .ok (.curve l)
    | .image a => .ok (.image a none)
    | .other _ => .error (.baseException "Shape not recognized.")
  match data.values.min?, data.values.max? with
  | some lo, some hi => return (⟨label, drawn⟩, (min lo v.1, max hi v.2))
  | _, _ => .error .valueError

/-- the loop of `plot_dict`, image.py l.38-65 -/
def drawAll : List (String × Data K) → K × K → Py (List (Panel K) × (K × K))
  | [], v => .ok ([], v)
  | (label, data) :: rest, v => do
    let (p, v) ← drawEntry label data v
    let (ps, v) ← drawAll rest v
    return (p :: ps, v)

/-- `img.set_clim(vmin, vmax)` for the axes that show an image; image.py l.69-70 -/
def setClim (v : K × K) (p : Panel K) : Panel K := match p.drawn with
  | .image a _ => { p with drawn := .image a (some v) }
  | .curve _ => p

/-- `plot_dict`, image.py l.13-72.  `plt.subplots` refuses to make a figure without axes; for a single axis it
returns the axis itself, which `axarr[i]` (l.42) cannot index. -/
def plot_dict (plot_dic : List (String × Data K)) (couple_cbars : Bool) : Py (List (Panel K)) :=
  if plot_dic.length = 0 then .error .valueError
  else if plot_dic.length = 1 then .error .typeError
  else do
    let (panels, v) ← drawAll plot_dic (0, 0)
    return if couple_cbars then panels.map (setClim v) else panels

/-- `d[key] = value` for a dictionary; image.py l.105 -/
def dictSet {β : Type} (d : List (String × β)) (key : String) (v : β) : List (String × β) :=
  if d.any (·.1 = key) then d.map fun e => if e.1 = key then (key, v) else e else d ++ [(key, v)]

/-- `{latex_format(name): value for name, value in plot_dic.items()}`, image.py l.105 -/
def renamed {β : Type} : List (String × β) → List (String × β) → Py (List (String × β))
  | [], d => .ok d
  | (name, v) :: rest, d => do
    let key ← latex_format name
    renamed rest (dictSet d key v)

/-- `file[field_name][t_idx]`, image.py l.97 (other datasets than rows of two-dimensional arrays are refused) -/
def frame (f : H5 K K) (t_idx : ℤ) (name : String) : Py (String × Arr K) := do
  let ds ← match images f name with
    | some ds => .ok ds
    | none => .error (.keyError name)
  let a ← h5row ds t_idx
  return (name, a)

/-- `plot_dic["omega"] - np.mean(plot_dic["omega"])`, image.py l.101-102 -/
def centre (zero_omega : Bool) (e : String × Arr K) : String × Arr K :=
  if zero_omega ∧ e.1 = "omega" then (e.1, e.2.map (· - e.2.mean)) else e

/-- the ticks of an axis: on the x axis and, if set for this axis, on the y axis; image.py l.121-130 -/
structure Ticks where
  xticks : List ℕ
  yticks : Option (List ℕ)

/-- image.py l.98, 121-130: the ticks of axis `i`; `x, y` is the shape of the array -/
def axisTicks (ticks : Bool) (x y i : ℕ) : Ticks :=
  if ticks then ⟨[0, x / 2, x], if i = 0 then some [0, y / 2, y] else none⟩ else ⟨[], some []⟩

/-- the figure -/
structure Figure (K : Type) where
  panels : List (Panel K)
  ticks : List Ticks

/-- `main` up to l.133, image.py l.83-133: the figure for a file -/
def figure (f : H5 K K) (t : K) (zero_omega ticks : Bool) : Py (Figure K) := do
  let init := Timetrace.value ((f.attrs "initial_time").getD (.int 0))
  let frame_dt ← RunProperties.attr f "frame_dt"
  let t_idx ← Timetrace.frameOf (t - init) (Timetrace.value frame_dt)
  let plot_dic ← ["density", "omega", "phi"].mapM (frame f t_idx)
  let (x, y) ← match plot_dic with
    | (_, a) :: _ => .ok (a.h, a.w)
    | [] => .error (.keyError "density")
  let plot_dic := plot_dic.map (centre zero_omega)
  let plot_dic ← renamed plot_dic []
  let panels ← plot_dict (plot_dic.map fun e => (e.1, .image e.2)) false
  return ⟨panels, (List.range 3).map (axisTicks ticks x y)⟩

/-- `main`, image.py l.75-139: the figure and the paths it is saved to (l.84, 135-137); `text` is `str(t)` -/
def main (path : String) (t : K) (text : List Char) (save_types : List (List Char)) (zero_omega ticks : Bool) :
    IOM K K (Figure K × List (List Char)) := do
  openR path
  let f ← content path
  let fig ← IOM.lift (figure f t zero_omega ticks)
  let save_file_path := replaceAll ".h5".toList ".jpg".toList path.toList ++ ("_t=".toList ++ text)
  return (fig, save_types.map fun s => save_file_path.take (save_file_path.length - 4) ++ s)

end Verif.Image
