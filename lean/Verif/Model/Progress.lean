import Verif.Model.Run2

/-!
# The progress bar of `run2.py`

The loop of `run2` together with the values it displays, l.336-429.  `Run2.loop2`
leaves them out; `Lemmas/Progress.lean` shows that nothing else differs.  The
number of iterations per second and the drawing of the bar are not modelled.
-/

namespace Verif.Run2

open H5 H5IO Run

variable {α β : Type} [Casts α β] [Zero α] [Inhabited α] [Inhabited β] [FloatOps α]

/-- the loop variables, `new_val` (l.341, l.372-391) and the values displayed so far -/
structure BarState (α β : Type) extends LoopState α β where
  new_val : NS (Cell α)
  shown : List (Cell α)

/-- l.369-411: `record2`, with `new_val` afterwards -/
def record2P (E : Env2 α β) (a : Args2 α) (s : LoopState α β) (old : NS (Cell α)) :
    IOM α β (LoopState α β × Bool × NS (Cell α)) := do
  if FloatOps.le a.recording_start_time s.current_time && s.iteration_count % a.snaps == 0 then do
    let new_val := (fieldsOf s.plasma).set "time" (.num s.current_time)
    let new_val ← IOM.lift (propLoop E a.dx a.c1 s.plasma a.properties new_val)
    let (new_val, last_state) ← IOM.lift (frameLoop E.toEnv a.downsample_factor a.saveState s.plasma new_val [])
    let (buffer, i) ← save_to_buffered_h5 s.buffer a.buffer_length s.buffer_index new_val a.output_path last_state
    return ({ s with buffer := buffer, buffer_index := i }, true, new_val)
  else return (s, false, old)

/-- l.427-428: `if show_property: ... new_val.get(show_property, 0)` -/
def display (show_property : String) (new_val : NS (Cell α)) : List (Cell α) :=
  if show_property = "" then [] else [(new_val.get? show_property).getD (.num (FloatOps.ofInt 0))]

/-- the loops l.349-429 with fuel; l.415-416 leave the loop before anything is displayed -/
def loop2P (E : Env2 α β) (hw : Solver α) (a : Args2 α) (show_property : String) (initial_time : α) :
    ℕ → BarState α β → IOM α β (Option (BarState α β))
  | 0, _ => pure none
  | fuel + 1, s =>
    if FloatOps.lt (FloatOps.round4 s.current_time) a.end_time then
      match hw.rk4_step s.plasma a.step_size a.dx with
      | .error (.baseException m) => IOM.raise (.baseException m)
      | .error _ => loop2P E hw a show_property initial_time fuel s
      | .ok plasma => do
        let count := s.iteration_count + 1
        let used := if a.adaptive_step_size then s.used_time_steps ++ [a.step_size] else s.used_time_steps
        let t : LoopState α β := { s.toLoopState with
          plasma := plasma, iteration_count := count, used_time_steps := used,
          current_time := nextTime E a initial_time count used }
        let (t, snapshot, new_val) ← record2P E a t s.new_val
        let bar : BarState α β := { t with new_val := new_val, shown := s.shown ++ display show_property new_val }
        if snapshot then do
          let density ← IOM.lift (t.plasma.getItem "density")
          if E.hasNaN density then return some { bar with shown := s.shown }
          else loop2P E hw a show_property initial_time fuel bar
        else loop2P E hw a show_property initial_time fuel bar
    else return some s

/-- l.324-444 -/
def simulate2P (E : Env2 α β) (a : Args2 α) (show_property : String) (s : RunState α β) (physics_params : NS (Attr α))
    (initial_time : α) (fuel : ℕ) : IOM α β (Option (ℕ × List (Cell α))) := do
  let hw ← IOM.lift (E.HW physics_params)
  let omega ← IOM.lift (s.plasma.getItem "omega")
  let dx ← IOM.lift (physics_params.getItem "dx")
  let phi ← IOM.lift (hw.get_phi omega (E.attrNum dx))
  let s : BarState α β := { s with
    plasma := s.plasma.set "phi" phi, iteration_count := 0, used_time_steps := [], current_time := initial_time,
    new_val := [], shown := [] }
  match ← loop2P E hw a show_property initial_time fuel s with
  | none => return none
  | some s => do
    if FloatOps.lt a.recording_start_time s.current_time && decide (0 < s.buffer_index) then
      append_h5 a.output_path s.buffer s.buffer_index
    return some (s.iteration_count, s.shown)

/-- `run2.run`, l.60-481, returning the number of steps and the values its progress bar displayed (`a.properties` is the list after l.172-173) -/
def run2P (E : Env2 α β) (a : Args2 α) (show_property : String) (fuel : ℕ) : IOM α β (Option (ℕ × List (Cell α))) := do
  let q ← IOM.lift (FloatOps.div a.end_time a.step_size)
  let _ ← IOM.lift (FloatOps.toInt q)
  if a.snaps = 0 then IOM.raise .zeroDivisionError
  else if a.output_path = "" then IOM.raise (.unboundLocalError "save_params")
  else do
    match ← setup2 E a with
    | none => return some (0, [])
    | some (s, physics_params, initial_time) => do
      match ← simulate2P E a show_property s physics_params initial_time fuel with
      | none => return none
      | some shown => do
        if !a.properties.isEmpty then
          RunProperties.calculate_properties E.props a.output_path a.buffer_length a.properties true
        return some shown

end Verif.Run2
