import Verif.Model.Run
import Verif.Spec.IO

/-!
# Vocabulary for the statements about the run functions
-/

namespace Verif

open H5IO H5 Run

variable {α β : Type} [Casts α β] [Zero α] [Inhabited α] [Inhabited β] [FloatOps α]

/-- `plasma` is a dictionary with an `n × n` array for each of the three fields -/
structure Shaped (n : ℕ) (plasma : NS (Cell α)) : Prop where
  nodup : plasma.keys.Nodup
  fields : ∀ k ∈ fieldList, ∃ A : Arr α, plasma.get? k = some (.arr A) ∧ A.h = n ∧ A.w = n

/-- `S n` is the state after `n` successful steps, for `n ≤ m` -/
def Trajectory (hw : Solver α) (dt dx : α) (m : ℕ) (S : ℕ → NS (Cell α)) : Prop :=
  ∀ n < m, hw.rk4_step (S n) dt dx = .ok (S (n + 1))

/-- the value recorded for the array `v`: downsampled unless the factor is 1 -/
def recordedValue (E : Env α β) (factor : α) (v : Cell α) : Py (Cell α) :=
  if downsampling factor then E.downsample v factor else .ok v

/-- Downsampling an `n × n` array gives an `ns × ns` array, where `ns` is the
size the run functions compute for the file (for the shape see C59). -/
structure SavesAs (E : Env α β) (factor : α) (n ns : ℕ) : Prop where
  dim : saveDim n factor = .ok ns
  down : downsampling factor = true → ∀ A : Arr α, A.h = n → A.w = n →
    ∃ B : Arr α, E.downsample (.arr A) factor = .ok (.arr B) ∧ B.h = ns ∧ B.w = ns

/-- `row` is what a frame of the state `plasma` at time `t` must contain for
dataset `k`: the time, or the recorded value of the field, as `float32` -/
def IsFrameRow (E : Env α β) (factor : α) (k : String) (t : α) (plasma : NS (Cell α)) (row : Cell β) : Prop :=
  if k = "time" then row = .num (Casts.f32 t)
  else ∃ A B : Arr α, plasma.get? k = some (.arr A) ∧ recordedValue E factor (.arr A) = .ok (.arr B) ∧
    row = .arr (B.map Casts.f32)

/-- the density of the state contains a NaN -/
def nanState (E : Env α β) (plasma : NS (Cell α)) : Bool := match plasma.get? "density" with
  | some v => E.hasNaN v
  | none => false

/-- time of step `it` according to `run`: `it * step_size` -/
def stepTime (a : Args α) (it : ℕ) : α := FloatOps.mul (FloatOps.ofInt it) a.step_size

/-- step `it` is to be recorded: not before `recording_start_time` and a multiple of `snaps` -/
def isRecorded (a : Args α) (it : ℕ) : Bool :=
  FloatOps.le a.recording_start_time (stepTime a it) && it % a.snaps == 0

/-- The frames (time, state) a run of `m` steps has to write: the initial state
if recording starts at 0, then the states after the recorded steps, in order. -/
def frames (a : Args α) (S : ℕ → NS (Cell α)) (m : ℕ) : List (α × NS (Cell α)) :=
  (if FloatOps.eq a.recording_start_time (FloatOps.ofInt 0) then [(FloatOps.ofInt 0, a.plasma0)] else [])
  ++ ((List.range' 1 m).filter (isRecorded a)).map fun it => (stepTime a it, S it)

/-- The loop is left after `m` of at most `steps` steps: no earlier state
contains a NaN, and all steps are done or the last state contains a NaN. -/
structure StopsAfter (E : Env α β) (S : ℕ → NS (Cell α)) (steps m : ℕ) : Prop where
  before : ∀ j, 1 ≤ j → j < m → nanState E (S j) = false
  stop : m = steps ∨ (m < steps ∧ 0 < m ∧ nanState E (S m) = true)

/-- shape of the rows of dataset `k` -/
def rowShape (ns : ℕ) (k : String) : RowShape := if k = "time" then .one else .grid ns ns

/-- A call of `run` that creates a new file, and what the simulation does: `S n`
is the state after `n` steps, `steps` is `int((end_time - 0) / step_size)`, the
loop is left after `m` steps. -/
structure FreshRun (E : Env α β) (a : Args α) (σ : St α β) (hw : Solver α) (ns : ℕ) (steps : ℤ) (m : ℕ)
    (S : ℕ → NS (Cell α)) : Prop where
  path : a.output_path ≠ ""
  fresh : σ.fs a.output_path = none ∨ a.force_recompute = true
  buffer : 1 ≤ a.buffer_length
  snaps : 1 ≤ a.snaps
  saves : SavesAs E a.downsample_factor a.grid_pts ns
  init : Shaped a.grid_pts a.plasma0
  solver : E.HW a.physics = .ok hw
  start : ∃ phi, hw.get_phi a.omega0 (E.attrNum (.num a.dx)) = .ok phi ∧ S 0 = a.plasma0.set "phi" phi
  count : ∃ q, FloatOps.div (FloatOps.sub a.end_time (FloatOps.ofInt 0)) a.step_size = .ok q ∧
    FloatOps.toInt q = .ok steps
  traj : Trajectory hw a.step_size a.dx m S
  shaped : ∀ n, 1 ≤ n → n ≤ m → Shaped a.grid_pts (S n)
  stops : StopsAfter E S steps.toNat m

/-- what continuing the file `f` must start from: the `state_*` dataset if there
is one, otherwise the last recorded row as `float64` -/
def loadedValue (f : H5 α β) (k : String) : Option (Cell α) := match f.dsets ("state_" ++ k) with
  | some (.full A) => some (.arr A)
  | some _ => none
  | none => match f.dsets k with
    | some (.rows _ r) => match r.getLast? with
      | some (.arr A) => some (.arr (A.map Casts.f64))
      | some (.num x) => some (.num (Casts.f64 x))
      | none => none
    | _ => none

/-- A file with the datasets the run functions write: rows for the time and the
fields and, if wanted, full-resolution states. -/
structure OutputFile (f : H5 α β) (n ns : ℕ) (states : Bool) : Prop where
  rows : ∀ k ∈ "time" :: fieldList, ∃ r, f.dsets k = some (.rows (rowShape ns k) r)
  states : states = true → ∀ k ∈ fieldList, ∃ A : Arr α, f.dsets ("state_" ++ k) = some (.full A) ∧ A.h = n ∧ A.w = n

/-- the frames a continued run of `m` steps has to write -/
def continuedFrames (a : Args α) (S : ℕ → NS (Cell α)) (m : ℕ) : List (α × NS (Cell α)) :=
  ((List.range' 1 m).filter (isRecorded a)).map fun it => (stepTime a it, S it)

/-- A call of `run` that continues the file `f`: `d`, `o`, `p` are the loaded
fields, `t0` the loaded time, `params` the stored parameters. -/
structure ContinuedRun (E : Env α β) (a : Args α) (σ : St α β) (f : H5 α β) (hw : Solver α) (ns : ℕ) (d o p : Arr α)
    (t0 : α) (params : NS (Attr α)) (steps : ℤ) (m : ℕ) (S : ℕ → NS (Cell α)) : Prop where
  path : a.output_path ≠ ""
  file : σ.fs a.output_path = some f
  keep : a.force_recompute = false
  cont : a.continue_file = true
  buffer : 1 ≤ a.buffer_length
  snaps : 1 ≤ a.snaps
  saves : SavesAs E a.downsample_factor a.grid_pts ns
  output : OutputFile f a.grid_pts ns a.saveState
  density : loadedValue f "density" = some (.arr d)
  omega : loadedValue f "omega" = some (.arr o)
  phi : loadedValue f "phi" = some (.arr p)
  time : ∃ r x, f.dsets "time" = some (.rows .one r) ∧ r.getLast? = some (.num x) ∧ Casts.f64 x = t0
  restored : restoreParams f.attrs restoredKeys = .ok params
  noNaN : E.hasNaN (.arr d) = false ∧ E.hasNaN (.arr o) = false ∧ E.hasNaN (.arr p) = false ∧
    E.hasNaN (.num t0) = false
  nonzero : E.allZero (.arr d) = false ∧ E.allZero (.arr o) = false
  solver : E.HW params = .ok hw
  start : ∃ phi dxa, params.get? "dx" = some dxa ∧ hw.get_phi (.arr o) (E.attrNum dxa) = .ok phi ∧
    S 0 = [("density", .arr d), ("omega", .arr o), ("phi", phi), ("age", .num t0)]
  count : ∃ q, FloatOps.div (FloatOps.sub a.end_time t0) a.step_size = .ok q ∧ FloatOps.toInt q = .ok steps
  traj : Trajectory hw a.step_size a.dx m S
  shaped : ∀ n, 1 ≤ n → n ≤ m → Shaped a.grid_pts (S n)
  stops : StopsAfter E S steps.toNat m

end Verif
