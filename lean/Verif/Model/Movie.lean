import Verif.Model.IO
import Verif.NumPy.Reduce

/-!
# Model of `utils/plot/movie.py`: which frames are shown, and the colour limits

Titles, captions and the functions that open a file are in `Model/MovieFile.lean`, the colour map is in
`Model/Colormap.lean`.  Drawing itself (matplotlib figures, progress bar, writing the video) is not modelled;
file names of movies neither.
-/

namespace Verif.Movie

open H5IO

/-! ### Frame selection -/

section frames
variable {α : Type} [FloatOps α]

/-- `range(start, stop, step)` for a positive step; movie.py l.182 -/
def pyRange (start stop step : ℤ) : List ℤ :=
  (List.range ((stop - start + step - 1).fdiv step).toNat).map fun i : ℕ => start + step * (i : ℤ)

/-- `time_to_length`, movie.py l.131-133 -/
def time_to_length (time dt : α) : Py ℤ := do
  FloatOps.round (← FloatOps.div time dt)

/-- what `create_movie_equally_spaced` determines from the file and its arguments; movie.py
l.168-182 -/
structure Plan (α : Type) where
  /-- `frame_range` -/
  frames : List ℤ
  /-- `frame_steps` -/
  step : ℤ
  /-- frames per second given to the writer -/
  fps : α

/-- `create_movie_equally_spaced`, movie.py l.168-182.  `len` is
`len(hf[plot_order[0]])`, `initial_time` the attribute if present, `min_fps` an
integer (as passed by `main`). -/
def equallySpaced (len : ℕ) (frame_dt : α) (initial_time : Option α) (t0 : α) (t1 : Option α) (speed : α)
    (min_fps : ℤ) : Py (Plan α) := do
  let t1 := match t1 with
    | some t => t
    | none => FloatOps.mul (FloatOps.ofInt ((len : ℤ) - 1)) frame_dt
  let init := initial_time.getD (FloatOps.ofInt 0)
  let t0_idx ← time_to_length (FloatOps.sub t0 init) frame_dt
  let t1_idx ← time_to_length (FloatOps.sub t1 init) frame_dt
  let fps ← FloatOps.toInt (← FloatOps.div speed frame_dt)
  if min_fps = 0 then .error .zeroDivisionError
  else
    let frame_steps := max 1 (fps.fdiv min_fps)
    let rate ← FloatOps.div (FloatOps.ofInt fps) (FloatOps.ofInt frame_steps)
    .ok ⟨pyRange t0_idx (t1_idx + 1) frame_steps, frame_steps, rate⟩

/-- `np.searchsorted(times, v)` for ascending `times`: the number of entries less
than `v`; movie.py l.252-253, 264 -/
def searchsorted (times : List α) (v : α) : ℕ := times.countP fun t => FloatOps.lt t v

/-- `create_movie_unequal_spaced_fine`, movie.py l.247-265: the selected frames.
(`t0` is only used for an index that is never used.) -/
def unequallySpaced (times : List α) (t1 : Option α) (speed min_fps : α) : Py (List ℤ) := do
  let t1 ← match t1 with
    | some t => .ok t
    | none => match times.getLast? with
      | some t => .ok t
      | none => .error .indexError
  let t_per_frame ← FloatOps.div speed min_fps
  let n ← FloatOps.toInt (← FloatOps.div t1 t_per_frame)
  .ok ((pyRange 0 (n + 1) 1).map fun i => (searchsorted times (FloatOps.mul (FloatOps.ofInt i) t_per_frame) : ℤ))

end frames

/-! ### Animation -/

section animation
variable {K : Type} [Field K] [LinearOrder K]

/-- `ds[i]` of an HDF5 dataset: negative indices count from the end; movie.py l.197, 283 -/
def h5row {β : Type} (ds : List β) (i : ℤ) : Py β :=
  let j := if i < 0 then i + ds.length else i
  if j < 0 then .error .indexError
  else match ds[j.toNat]? with
    | some x => .ok x
    | none => .error .indexError

/-- all entries of an array; movie.py l.200-201 -/
def entries (a : Arr K) : List K :=
  (List.finRange a.h).flatMap fun i => (List.finRange a.w).map fun j => a.get i j

/-- `np.max(a)`; raises for an empty array; movie.py l.200 -/
def npMax (a : Arr K) : Py K :=
  match (entries a).max? with
  | some m => .ok m
  | none => .error .valueError

/-- `np.min(a)`; raises for an empty array; movie.py l.201 -/
def npMin (a : Arr K) : Py K :=
  match (entries a).min? with
  | some m => .ok m
  | none => .error .valueError

/-- `new_cbar_max_smooth`, movie.py l.77-90 -/
def new_cbar_max_smooth (nm pm : K) : K := if nm < pm then (nm + pm) / 2 else nm

/-- the image of an axis: data and colour limits (`get_clim`); movie.py l.110, 202, 206-207 -/
structure Axis (K : Type) where
  data : Arr K
  clim : K × K

/-- body of the loop of `animate`, movie.py l.196-207 (and l.282-293), for the
axis showing the field `name`.  `hf name` is the list of frames of a dataset. -/
def animateAxis (hf : String → Option (List (Arr K))) (zero_omega : Bool) (t_idx : ℤ) (name : String)
    (ax : Axis K) : Py (Axis K) := do
  let ds ← match hf name with
    | some ds => .ok ds
    | none => .error (.keyError name)
  let arr ← h5row ds t_idx
  let arr := if zero_omega = true ∧ name = "omega" then arr.map (· - arr.mean) else arr
  let vmax ← npMax arr
  let vmin ← npMin arr
  let pm := max |ax.clim.1| ax.clim.2
  let nm := max |vmin| vmax
  let nm := new_cbar_max_smooth nm pm
  .ok ⟨arr, (-nm, nm)⟩

/-- `animate`, movie.py l.193-209: one axis per field of `plot_order` -/
def animate (hf : String → Option (List (Arr K))) (zero_omega : Bool) (t_idx : ℤ) :
    List (String × Axis K) → Py (List (String × Axis K))
  | [] => .ok []
  | (name, ax) :: rest => do
    let ax' ← animateAxis hf zero_omega t_idx name ax
    let rest' ← animate hf zero_omega t_idx rest
    .ok ((name, ax') :: rest')

/-- `animation.FuncAnimation(fig, animate, frames=...)` and `ani.save`, movie.py
l.211-214: what is shown for each frame.  (matplotlib draws the first frame once
more beforehand; `axes` may be any state.) -/
def animation (hf : String → Option (List (Arr K))) (zero_omega : Bool) :
    List ℤ → List (String × Axis K) → Py (List (List (String × Axis K)))
  | [], _ => .ok []
  | t :: ts, axes => do
    let axes' ← animate hf zero_omega t axes
    let rest ← animation hf zero_omega ts axes'
    .ok (axes' :: rest)

end animation

end Verif.Movie
