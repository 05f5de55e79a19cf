import Verif.Model.Movie
import Verif.Model.RunProperties

/-!
# Model of `create_movie`, `utils/plot/movie.py`, on files

Not modelled: drawing by matplotlib, the video encoder, the progress bar,
printing, the name of the movie file, the formatting of the numbers in the title
and the captions.  File and figure have numbers of one type `K`.
-/

namespace Verif.Movie

open H5IO H5

variable {K : Type} [Field K] [LinearOrder K] [FloatOps K]

/-- the number in an attribute; movie.py l.169-173 -/
def attrValue : Attr K → K
  | .num x => x
  | .int z => FloatOps.ofInt z
  | .bool b => FloatOps.ofInt (if b then 1 else 0)

/-- truth of an attribute, `if params["adaptive_step_size"]`, movie.py l.322 -/
def attrTruth : Attr K → Bool
  | .num x => !FloatOps.eq x (FloatOps.ofInt 0)
  | .int z => z != 0
  | .bool b => b

/-- the arrays in the rows of a dataset, `none` if a row is not a two-dimensional array; movie.py l.110, 197, 283 -/
def rowArrays : List (Cell K) → Option (List (Arr K))
  | [] => some []
  | .arr a :: rest => (rowArrays rest).map (a :: ·)
  | .num _ :: _ => none

/-- `hf[name]` for the datasets that hold images; movie.py l.110, 197, 283.  (Other datasets also exist
in `hf`, but cannot be drawn: `imshow` raises.) -/
def images (f : H5 K K) (name : String) : Option (List (Arr K)) := match f.dsets name with
  | some (.rows _ r) => rowArrays r
  | _ => none

/-- `generate_title`, movie.py l.136-147: the parameters shown in the title -/
def generate_title (f : H5 K K) : Py (List (String × Attr K)) :=
  ["c1", "k0", "grid_pts", "dt", "N", "nu"].mapM fun k => do
    let v ← RunProperties.attr f k
    return (k, v)

/-- one iteration of `setup_visualization`, movie.py l.103-112: the first frame of the field, with the limits chosen by
`imshow` -/
def setupAxis (hf : String → Option (List (Arr K))) (plot_order : List String) (i : ℕ) : Py (String × Axis K) := do
  let name ← match plot_order[i]? with
    | some n => .ok n
    | none => .error .indexError
  let ds ← match hf name with
    | some ds => .ok ds
    | none => .error (.keyError name)
  let a ← h5row ds 0
  let vmin ← npMin a
  let vmax ← npMax a
  return (name, ⟨a, (vmin, vmax)⟩)

/-- `setup_figure` and `setup_visualization`, movie.py l.93-128: three axes -/
def setupAxes (hf : String → Option (List (Arr K))) (plot_order : List String) : Py (List (String × Axis K)) :=
  [0, 1, 2].mapM (setupAxis hf plot_order)

/-- a picture of the movie: the time in the captions (l.208, 294) and the axes -/
structure Picture (K : Type) where
  caption : K
  axes : List (String × Axis K)

/-- what the movie shows -/
structure Film (K : Type) where
  title : List (String × Attr K)
  fps : K
  pictures : List (Picture K)

/-- `FuncAnimation` and `save`, movie.py l.192-214, 278-303: matplotlib draws the first picture once before recording
the pictures -/
def shoot (hf : String → Option (List (Arr K))) (zero_omega : Bool) (caption : ℤ → Py K) (ts : List ℤ)
    (axes : List (String × Axis K)) : Py (List (Picture K)) := do
  let axes ← match ts.head? with
    | some t => animate hf zero_omega t axes
    | none => .ok axes
  let states ← animation hf zero_omega ts axes
  let captions ← ts.mapM caption
  return List.zipWith Picture.mk captions states

/-- `create_movie_equally_spaced`, movie.py l.150-219 -/
def create_movie_equally_spaced (f : H5 K K) (t0 : K) (t1 : Option K) (zero_omega : Bool) (plot_order : List String)
    (min_fps : ℤ) (speed : K) : Py (Film K) := do
  let title ← generate_title f
  let len ← match t1 with
    | some _ => .ok 0
    | none => match plot_order[0]? with
      | some name => match images f name with
        | some ds => .ok ds.length
        | none => .error (.keyError name)
      | none => .error .indexError
  let frame_dt := attrValue (← RunProperties.attr f "frame_dt")
  let plan ← equallySpaced len frame_dt ((f.attrs "initial_time").map attrValue) t0 t1 speed min_fps
  let axes ← setupAxes (images f) plot_order
  let pictures ← shoot (images f) zero_omega (fun t => .ok (FloatOps.mul (FloatOps.ofInt t) frame_dt)) plan.frames axes
  return ⟨title, plan.fps, pictures⟩

/-- `np.array(hf["time"][:, 0])`, movie.py l.247 -/
def recordedTimes (f : H5 K K) : Py (List K) := match f.dsets "time" with
  | some (.rows .one r) => r.mapM fun
    | .num x => .ok x
    | .arr _ => .error .valueError
  | some _ => .error .valueError
  | none => .error (.keyError "time")

/-- `create_movie_unequal_spaced_fine`, movie.py l.221-307 -/
def create_movie_unequal_spaced_fine (f : H5 K K) (t1 : Option K) (zero_omega : Bool) (plot_order : List String)
    (min_fps : ℤ) (speed : K) : Py (Film K) := do
  let title ← generate_title f
  let times ← recordedTimes f
  let selected_frames ← unequallySpaced times t1 speed (FloatOps.ofInt min_fps)
  let axes ← setupAxes (images f) plot_order
  let pictures ← shoot (images f) zero_omega (h5row times) selected_frames axes
  return ⟨title, FloatOps.ofInt min_fps, pictures⟩

/-- `create_movie`, movie.py l.310-327 -/
def create_movie (path : String) (t0 : K) (t1 : Option K) (zero_omega : Bool) (plot_order : List String)
    (min_fps : ℤ) (speed : K) : IOM K K (Film K) := do
  openR path
  let f ← content path
  let adaptive ← IOM.lift (RunProperties.attr f "adaptive_step_size")
  if attrTruth adaptive then
    IOM.lift (create_movie_unequal_spaced_fine f t1 zero_omega plot_order min_fps speed)
  else
    IOM.lift (create_movie_equally_spaced f t0 t1 zero_omega plot_order min_fps speed)

end Verif.Movie
