import Verif.Model.RunProperties

/-!
# Model of `run.py`

The physics (`HW`), the initial noise, the downsampling function, the NaN and
zero tests are parameters: everything proved about `run` holds whatever they do.
The statements before the initial fields exist (`np.random.seed`, `init_type`, …)
are in `Model/RunStart.lean`.  The movie and the plots only read the file and are
left out here (movies are in `Model/MovieFile.lean`); so are console output and the performance log.
-/

namespace Verif.Run

open H5 H5IO

/-- a simulation object: `hw.rk4_step(plasma, dt, dx)` and `hw.get_phi(omega, dx)`; `run.py`
l.250-251, 260 -/
structure Solver (α : Type) where
  rk4_step : NS (Cell α) → α → α → Py (NS (Cell α))
  get_phi : Cell α → α → Py (Cell α)

/-- the functions `run` calls; `run.py` l.144, 201, 206, 250, 285, 312 -/
structure Env (α β : Type) where
  /-- `HW(**physics_params)` -/
  HW : NS (Attr α) → Py (Solver α)
  /-- `np.isnan(np.sum(v))` -/
  hasNaN : Cell α → Bool
  /-- `np.all(v == 0)` -/
  allZero : Cell α → Bool
  /-- `fourier_downsample(v, factor)` -/
  downsample : Cell α → α → Py (Cell α)
  /-- value of an attribute as a float, used for `physics_params["dx"]` -/
  attrNum : Attr α → α
  /-- see `RunProperties` -/
  props : RunProperties.PropEnv α β

/-- arguments of `run`, l.27-80.  `dx` is `2 * np.pi / k0 / grid_pts`
(l.120-121); `density0`, `omega0`, `phi0` are `noise[init_type](y, x) *
init_scale` (l.157-162). -/
structure Args (α : Type) where
  step_size : α
  end_time : α
  grid_pts : ℕ
  dx : α
  k0 : α
  N : ℕ
  nu : α
  c1 : α
  kappa_coeff : α
  poisson_bracket_coeff : α
  density0 : Cell α
  omega0 : Cell α
  phi0 : Cell α
  output_path : String
  recording_start_time : α
  continue_file : Bool
  buffer_length : ℕ
  snaps : ℕ
  downsample_factor : α
  add_last_state : Bool
  properties : List String
  force_recompute : Bool

variable {α β : Type} [Casts α β] [Zero α] [Inhabited α] [Inhabited β] [FloatOps α]

/-- `downsample_factor != 1`; `run.py` l.127, 168, 234, 273 -/
def downsampling (factor : α) : Bool := !FloatOps.eq factor (FloatOps.ofInt 1)

/-- the flag after l.127-128 -/
def Args.saveState (a : Args α) : Bool := a.add_last_state || downsampling a.downsample_factor

/-- `int(round(n / factor))` as an array dimension, l.168-170; a negative
dimension makes `np.zeros` raise -/
def saveDim (n : ℕ) (factor : α) : Py ℕ :=
  if downsampling factor then do
    let q ← FloatOps.div (FloatOps.ofInt n) factor
    let z ← FloatOps.round q
    if z < 0 then .error .valueError else .ok z.toNat
  else .ok n

/-- `physics_params`, l.147-155 -/
def Args.physics (a : Args α) : NS (Attr α) :=
  [("dx", .num a.dx), ("N", .int a.N), ("c1", .num a.c1), ("nu", .num a.nu), ("k0", .num a.k0),
   ("poisson_bracket_coeff", .num a.poisson_bracket_coeff), ("kappa_coeff", .num a.kappa_coeff)]

/-- `plasma`, l.157-162 -/
def Args.plasma0 (a : Args α) : NS (Cell α) :=
  [("density", a.density0), ("omega", a.omega0), ("phi", a.phi0), ("age", .num (FloatOps.ofInt 0))]

/-- `field_list`, l.122 -/
def fieldList : List String := ["density", "omega", "phi"]

/-- `k in ("phi", "omega", "density")`; `run.py` l.229, 233, 266, 272 -/
def isField (k : String) : Bool := k = "phi" ∨ k = "omega" ∨ k = "density"

/-- the zero-filled buffers, l.173-179 -/
def zeroBuffer (L y_save x_save : ℕ) : NS (Buf β) :=
  (fieldList.map fun k => (k, ⟨.grid y_save x_save,
    List.replicate L ((RowShape.grid y_save x_save).zero (Casts.f32 (0 : α)))⟩))
  ++ [("time", ⟨.one, List.replicate L (RowShape.one.zero (Casts.f32 (0 : α)))⟩)]

/-- `if downsample_factor != 1: new_val[k] = downsample_fnc(v, downsample_factor)`,
l.234-235 and l.273-274 -/
def putDown (E : Env α β) (factor : α) (k : String) (v : Cell α) (new_val : NS (Cell α)) : Py (NS (Cell α)) :=
  if downsampling factor then do
    let d ← E.downsample v factor
    .ok (new_val.set k d)
  else .ok new_val

/-- `for k, v in plasma.items()`: downsampled values and `state_*` entries,
l.232-237 and l.271-276 -/
def frameLoop (E : Env α β) (factor : α) (add_last_state : Bool) :
    NS (Cell α) → NS (Cell α) → NS (Cell α) → Py (NS (Cell α) × NS (Cell α))
  | [], new_val, last_state => .ok (new_val, last_state)
  | (k, v) :: rest, new_val, last_state =>
    if isField k then do
      let new_val ← putDown E factor k v new_val
      frameLoop E factor add_last_state rest new_val
        (if add_last_state then last_state.set ("state_" ++ k) v else last_state)
    else frameLoop E factor add_last_state rest new_val last_state

/-- `{k: v for k, v in plasma.items() if k in ("phi", "omega", "density")}`, l.229, l.266 -/
def fieldsOf (plasma : NS (Cell α)) : NS (Cell α) := plasma.filter fun p => isField p.1

/-- the consistency check of a loaded state, l.199-208 -/
def checkLoaded (E : Env α β) : NS (Cell α) → Py Unit
  | [] => .ok ()
  | (field, v) :: rest =>
    if E.hasNaN v then .error (.baseException ("Input file is broken: NaNs in " ++ field))
    else if (field = "density" ∨ field = "omega") ∧ E.allZero v = true then
      .error (.baseException ("Input File is zero: " ++ field))
    else checkLoaded E rest

/-- values that change during the run; `run.py` l.181-185, 189, 239, 260-261, 277 -/
structure RunState (α β : Type) where
  plasma : NS (Cell α)
  buffer : NS (Buf β)
  buffer_index : ℕ

/-- File handling, l.165-244, for a non-empty `output_path`: `none` if the
function returns early (l.211), otherwise the state, `physics_params` and
`initial_time`. -/
def setup (E : Env α β) (a : Args α) : IOM α β (Option (RunState α β × NS (Attr α) × α)) := do
  let y_save ← IOM.lift (saveDim a.grid_pts a.downsample_factor)
  let x_save ← IOM.lift (saveDim a.grid_pts a.downsample_factor)
  let buffer : NS (Buf β) := zeroBuffer (α := α) a.buffer_length y_save x_save
  if (← isFile a.output_path) && !a.force_recompute then
    if a.continue_file then do
      let (plasma, physics_params) ← continue_h5_file a.output_path fieldList
      let initial_time ← IOM.lift (plasma.getItem "age")
      let initial_time ← match initial_time with
        | .num x => pure x
        | .arr _ => IOM.raise .typeError
      IOM.lift (checkLoaded E plasma)
      return some (⟨plasma, buffer, 0⟩, physics_params, initial_time)
    else return none
  else do
    let save_params := get_save_params a.physics a.step_size a.snaps a.grid_pts a.grid_pts (some x_save)
      (some y_save) a.recording_start_time false
    create_appendable_h5 a.output_path save_params y_save x_save a.grid_pts a.grid_pts fieldList ["time"] a.saveState
    if FloatOps.eq a.recording_start_time (FloatOps.ofInt 0) then do
      let (new_val, last_state) ← IOM.lift
        (frameLoop E a.downsample_factor a.saveState a.plasma0 (fieldsOf a.plasma0) [])
      let new_val := new_val.set "time" (.num (FloatOps.ofInt 0))
      let (buffer, i) ← save_to_buffered_h5 buffer a.buffer_length 0 new_val a.output_path last_state
      return some (⟨a.plasma0, buffer, i⟩, a.physics, FloatOps.ofInt 0)
    else return some (⟨a.plasma0, buffer, 0⟩, a.physics, FloatOps.ofInt 0)

/-- l.263-282: save the current state if it is to be recorded -/
def record (E : Env α β) (a : Args α) (current_time : α) (it : ℕ) (s : RunState α β) : IOM α β (RunState α β) := do
  if FloatOps.le a.recording_start_time current_time && it % a.snaps == 0 then do
    let new_val := (fieldsOf s.plasma).set "time" (.num current_time)
    let (new_val, last_state) ← IOM.lift (frameLoop E a.downsample_factor a.saveState s.plasma new_val [])
    let (buffer, i) ← save_to_buffered_h5 s.buffer a.buffer_length s.buffer_index new_val a.output_path last_state
    return ⟨s.plasma, buffer, i⟩
  else return s

/-- the loop l.258-287: `k` iterations to go, the next one is number `it` -/
def loop (E : Env α β) (hw : Solver α) (a : Args α) : ℕ → ℕ → RunState α β → IOM α β (RunState α β)
  | 0, _, s => pure s
  | k + 1, it, s => do
    let plasma ← IOM.lift (hw.rk4_step s.plasma a.step_size a.dx)
    let current_time := FloatOps.mul (FloatOps.ofInt it) a.step_size
    let s ← record E a current_time it { s with plasma := plasma }
    let density ← IOM.lift (s.plasma.getItem "density")
    if E.hasNaN density then return s
    else loop E hw a k (it + 1) s

/-- l.246-291: set up the simulation, run it, flush the buffer -/
def simulate (E : Env α β) (a : Args α) (s : RunState α β) (physics_params : NS (Attr α)) (initial_time : α) :
    IOM α β Unit := do
  let hw ← IOM.lift (E.HW physics_params)
  let omega ← IOM.lift (s.plasma.getItem "omega")
  let dx ← IOM.lift (physics_params.getItem "dx")
  let phi ← IOM.lift (hw.get_phi omega (E.attrNum dx))
  let s := { s with plasma := s.plasma.set "phi" phi }
  let q ← IOM.lift (FloatOps.div (FloatOps.sub a.end_time initial_time) a.step_size)
  let steps ← IOM.lift (FloatOps.toInt q)
  if a.snaps = 0 then IOM.raise .zeroDivisionError
  else do
    let s ← loop E hw a steps.toNat 1 s
    if 0 < s.buffer_index then append_h5 a.output_path s.buffer s.buffer_index

/-- `run`, l.27-328.  For an empty `output_path` no `save_params` exists when
l.247 uses it. -/
def run (E : Env α β) (a : Args α) : IOM α β Unit := do
  if a.output_path = "" then IOM.raise (.unboundLocalError "save_params")
  else do
    match ← setup E a with
    | none => pure ()
    | some (s, physics_params, initial_time) => do
      simulate E a s physics_params initial_time
      if !a.properties.isEmpty then
        RunProperties.calculate_properties E.props a.output_path a.buffer_length a.properties true

end Verif.Run
