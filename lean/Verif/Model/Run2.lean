import Verif.Model.Run

/-!
# Model of `run2.py`

Same parameters as the model of `run.py`, plus the property functions
(`property_fncs`, l.42-57).  The `while` loops are unbounded in Python; the
model gives them fuel and returns `none` when it runs out, so "`run2` returns"
is "for some fuel the result is not `none`".  `adaptive_step_size` only changes
the way the time is computed (the step size never changes).  The progress bar
is modelled in `Model/Progress.lean`: `new_val.get(show_property, 0)` finds no entry, because the
property entries are called `fullres_...`.
-/

namespace Verif.Run2

open H5 H5IO Run

/-- the functions `run2` calls; `run2.py` l.42-57, 189, 258, 263, 329, 414, 465 -/
structure Env2 (α β : Type) extends Env α β where
  /-- `property_fncs[name](n, p, o, dx, c1)`: `none` if the name is not a key of
  `property_fncs`.  (`DE`, `DU`, `dE_dt`, `dU_dt` are keys whose functions raise
  `TypeError`, because their further arguments are not passed.) -/
  propertyFn : String → Option (Cell α → Cell α → Cell α → α → α → Py α)
  /-- `np.sum(used_time_steps)` -/
  sum : List α → α

/-- arguments of `run2.run`, l.60-119; `properties` is the list after
`properties += [show_property]` (l.172-173), see `withShown` -/
structure Args2 (α : Type) extends Args α where
  adaptive_step_size : Bool
  zonal : Bool

/-- l.172-173: `if show_property not in properties: properties += [show_property]`.
The list object itself is changed, also when it is the default argument. -/
def withShown (show_property : String) (properties : List String) : List String :=
  if show_property ∈ properties then properties else properties ++ [show_property]

/-- What a call of `run2.run` does with the list of properties: the list it
computes and the value of the default argument afterwards.  The default list
(l.96-105) is one object, created when the function is defined; l.172-173 change
it in place when the argument is omitted (`passed = none`). -/
def propertiesOfCall (default : List String) (passed : Option (List String)) (show_property : String) :
    List String × List String := match passed with
  | some l => (withShown show_property l, default)
  | none => (withShown show_property default, withShown show_property default)

variable {α β : Type} [Casts α β] [Zero α] [Inhabited α] [Inhabited β] [FloatOps α]

/-- `physics_params`, l.193-202 -/
def Args2.physics2 (a : Args2 α) : NS (Attr α) := a.toArgs.physics ++ [("zonal", .bool a.zonal)]

/-- buffers, l.220-229 -/
def zeroBuffer2 (L y_save x_save : ℕ) (properties : List String) : NS (Buf β) :=
  properties.foldl (fun b name => b.set ("fullres_" ++ name)
      ⟨.one, List.replicate L (RowShape.one.zero (Casts.f32 (0 : α)))⟩)
    (zeroBuffer (α := α) L y_save x_save)

/-- `new_val[f"fullres_{prop_name}"] = property_fncs[prop_name](...)`, l.308-315 and l.384-391 -/
def propLoop (E : Env2 α β) (dx c1 : α) (plasma : NS (Cell α)) : List String → NS (Cell α) → Py (NS (Cell α))
  | [], new_val => .ok new_val
  | name :: rest, new_val => do
    match E.propertyFn name with
    | none => .error (.keyError name)
    | some F => do
      let n ← plasma.getItem "density"
      let p ← plasma.getItem "phi"
      let o ← plasma.getItem "omega"
      let x ← F n p o dx c1
      propLoop E dx c1 plasma rest (new_val.set ("fullres_" ++ name) (.num x))

/-- File handling, l.212-322, for a non-empty `output_path` -/
def setup2 (E : Env2 α β) (a : Args2 α) : IOM α β (Option (RunState α β × NS (Attr α) × α)) := do
  let y_save ← IOM.lift (saveDim a.grid_pts a.downsample_factor)
  let x_save ← IOM.lift (saveDim a.grid_pts a.downsample_factor)
  let buffer : NS (Buf β) := zeroBuffer2 (α := α) a.buffer_length y_save x_save a.properties
  if (← isFile a.output_path) && !a.force_recompute then
    if a.continue_file then do
      let (plasma, physics_params) ← continue_h5_file a.output_path fieldList
      let initial_time ← IOM.lift (plasma.getItem "age")
      let initial_time ← match initial_time with
        | .num x => pure x
        | .arr _ => IOM.raise .typeError
      IOM.lift (checkLoaded E.toEnv plasma)
      return some (⟨plasma, buffer, 0⟩, physics_params, initial_time)
    else return none
  else do
    let save_params := get_save_params a.physics2 a.step_size a.snaps a.grid_pts a.grid_pts (some x_save)
      (some y_save) a.recording_start_time a.adaptive_step_size
    create_appendable_h5 a.output_path save_params y_save x_save a.grid_pts a.grid_pts fieldList
      ("time" :: a.properties.map ("fullres_" ++ ·)) a.saveState
    if FloatOps.eq a.recording_start_time (FloatOps.ofInt 0) then do
      let (new_val, last_state) ← IOM.lift
        (frameLoop E.toEnv a.downsample_factor a.saveState a.plasma0 (fieldsOf a.plasma0) [])
      let new_val ← IOM.lift (propLoop E a.dx a.c1 a.plasma0 a.properties new_val)
      let new_val := new_val.set "time" (.num (FloatOps.ofInt 0))
      let (buffer, i) ← save_to_buffered_h5 buffer a.buffer_length 0 new_val a.output_path last_state
      return some (⟨a.plasma0, buffer, i⟩, a.physics2, FloatOps.ofInt 0)
    else return some (⟨a.plasma0, buffer, 0⟩, a.physics2, FloatOps.ofInt 0)

/-- values that change during the loop of `run2`; `run2.py` l.334-340 -/
structure LoopState (α β : Type) extends RunState α β where
  iteration_count : ℕ
  used_time_steps : List α
  current_time : α

/-- l.369-411: save the current state; returns whether it was a snapshot -/
def record2 (E : Env2 α β) (a : Args2 α) (s : LoopState α β) : IOM α β (LoopState α β × Bool) := do
  if FloatOps.le a.recording_start_time s.current_time && s.iteration_count % a.snaps == 0 then do
    let new_val := (fieldsOf s.plasma).set "time" (.num s.current_time)
    let new_val ← IOM.lift (propLoop E a.dx a.c1 s.plasma a.properties new_val)
    let (new_val, last_state) ← IOM.lift (frameLoop E.toEnv a.downsample_factor a.saveState s.plasma new_val [])
    let (buffer, i) ← save_to_buffered_h5 s.buffer a.buffer_length s.buffer_index new_val a.output_path last_state
    return ({ s with buffer := buffer, buffer_index := i }, true)
  else return (s, false)

/-- the time after a step, l.363-367 -/
def nextTime (E : Env2 α β) (a : Args2 α) (initial_time : α) (count : ℕ) (used : List α) : α :=
  if a.adaptive_step_size then FloatOps.add initial_time (E.sum used)
  else FloatOps.add initial_time (FloatOps.mul (FloatOps.ofInt count) a.step_size)

/-- the loops l.349-416 with fuel.  A failing `rk4_step` is retried with the same
arguments (l.352-359; only `BaseException`s escape). -/
def loop2 (E : Env2 α β) (hw : Solver α) (a : Args2 α) (initial_time : α) :
    ℕ → LoopState α β → IOM α β (Option (LoopState α β))
  | 0, _ => pure none
  | fuel + 1, s =>
    if FloatOps.lt (FloatOps.round4 s.current_time) a.end_time then
      match hw.rk4_step s.plasma a.step_size a.dx with
      | .error (.baseException m) => IOM.raise (.baseException m)
      | .error _ => loop2 E hw a initial_time fuel s
      | .ok plasma => do
        let count := s.iteration_count + 1
        let used := if a.adaptive_step_size then s.used_time_steps ++ [a.step_size] else s.used_time_steps
        let s : LoopState α β := { s with
          plasma := plasma, iteration_count := count, used_time_steps := used,
          current_time := nextTime E a initial_time count used }
        let (s, snapshot) ← record2 E a s
        if snapshot then do
          let density ← IOM.lift (s.plasma.getItem "density")
          if E.hasNaN density then return some s
          else loop2 E hw a initial_time fuel s
        else loop2 E hw a initial_time fuel s
    else return some s

/-- l.324-444 -/
def simulate2 (E : Env2 α β) (a : Args2 α) (s : RunState α β) (physics_params : NS (Attr α)) (initial_time : α)
    (fuel : ℕ) : IOM α β (Option Unit) := do
  let hw ← IOM.lift (E.HW physics_params)
  let omega ← IOM.lift (s.plasma.getItem "omega")
  let dx ← IOM.lift (physics_params.getItem "dx")
  let phi ← IOM.lift (hw.get_phi omega (E.attrNum dx))
  let s : LoopState α β := { s with
    plasma := s.plasma.set "phi" phi, iteration_count := 0, used_time_steps := [], current_time := initial_time }
  match ← loop2 E hw a initial_time fuel s with
  | none => return none
  | some s => do
    if FloatOps.lt a.recording_start_time s.current_time && decide (0 < s.buffer_index) then
      append_h5 a.output_path s.buffer s.buffer_index
    return some ()

/-- `run2.run`, l.60-481 (without the movie and the plots).  `int(end_time /
step_size)` and `steps // snaps` (l.164-165) may raise before anything else
happens; their values are not used. -/
def run2 (E : Env2 α β) (a : Args2 α) (fuel : ℕ) : IOM α β (Option Unit) := do
  let q ← IOM.lift (FloatOps.div a.end_time a.step_size)
  let _ ← IOM.lift (FloatOps.toInt q)
  if a.snaps = 0 then IOM.raise .zeroDivisionError
  else if a.output_path = "" then IOM.raise (.unboundLocalError "save_params")
  else do
    match ← setup2 E a with
    | none => return some ()
    | some (s, physics_params, initial_time) => do
      match ← simulate2 E a s physics_params initial_time fuel with
      | none => return none
      | some _ => do
        if !a.properties.isEmpty then
          RunProperties.calculate_properties E.props a.output_path a.buffer_length a.properties true
        return some ()

end Verif.Run2
