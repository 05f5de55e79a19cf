import Verif.Model.Run2
import Verif.Spec.Run

/-!
# Vocabulary for the statements about `run2`
-/

namespace Verif

open H5IO H5 Run Run2

variable {α β : Type} [Casts α β] [Zero α] [Inhabited α] [Inhabited β] [FloatOps α]

/-- time after `it` steps of a run that starts at time `t0`: `t0 + it * step_size`,
or `t0 + (step_size + … + step_size)` with `adaptive_step_size` -/
def timeAt (E : Env2 α β) (a : Args2 α) (t0 : α) (it : ℕ) : α :=
  if it = 0 then t0
  else if a.adaptive_step_size then FloatOps.add t0 (E.sum (List.replicate it a.step_size))
  else FloatOps.add t0 (FloatOps.mul (FloatOps.ofInt it) a.step_size)

/-- step `it` is to be recorded: not before `recording_start_time` and a multiple of `snaps` -/
def isRecorded2 (E : Env2 α β) (a : Args2 α) (t0 : α) (it : ℕ) : Bool :=
  FloatOps.le a.recording_start_time (timeAt E a t0 it) && it % a.snaps == 0

/-- the frames (time, state) of the recorded ones of the steps `1, …, m` -/
def stepFrames2 (E : Env2 α β) (a : Args2 α) (t0 : α) (S : ℕ → NS (Cell α)) (m : ℕ) : List (α × NS (Cell α)) :=
  ((List.range' 1 m).filter (isRecorded2 E a t0)).map fun it => (timeAt E a t0 it, S it)

/-- the frames of a run that creates a new file -/
def frames2 (E : Env2 α β) (a : Args2 α) (S : ℕ → NS (Cell α)) (m : ℕ) : List (α × NS (Cell α)) :=
  (if FloatOps.eq a.recording_start_time (FloatOps.ofInt 0) then [(FloatOps.ofInt 0, a.plasma0)] else [])
  ++ stepFrames2 E a (FloatOps.ofInt 0) S m

/-- The loop is left after `m` steps: before each of them the rounded time is
below `end_time` and no recorded state contains a NaN; after `m` steps the
rounded time has reached `end_time`, or the last state is recorded and contains
a NaN. -/
structure StopsAfter2 (E : Env2 α β) (a : Args2 α) (t0 : α) (S : ℕ → NS (Cell α)) (m : ℕ) : Prop where
  before : ∀ j < m, FloatOps.lt (FloatOps.round4 (timeAt E a t0 j)) a.end_time = true
  noNaN : ∀ j, 1 ≤ j → j < m → isRecorded2 E a t0 j = true → nanState E.toEnv (S j) = false
  stop : FloatOps.lt (FloatOps.round4 (timeAt E a t0 m)) a.end_time = false ∨
    (1 ≤ m ∧ isRecorded2 E a t0 m = true ∧ nanState E.toEnv (S m) = true)

/-- the property functions asked for exist and return numbers on the grid of the run -/
def PropsOk (E : Env2 α β) (a : Args2 α) : Prop :=
  ∀ name ∈ a.properties, ∃ F, E.propertyFn name = some F ∧
    ∀ n p o : Arr α, (n.h = a.grid_pts ∧ n.w = a.grid_pts) → (p.h = a.grid_pts ∧ p.w = a.grid_pts) →
      (o.h = a.grid_pts ∧ o.w = a.grid_pts) → ∃ x, F (.arr n) (.arr p) (.arr o) a.dx a.c1 = .ok x

/-- `x` is the value of property `name` in the (full-resolution) state `plasma` -/
def IsPropValue (E : Env2 α β) (a : Args2 α) (name : String) (plasma : NS (Cell α)) (x : α) : Prop :=
  ∃ F n p o, E.propertyFn name = some F ∧ plasma.get? "density" = some n ∧ plasma.get? "phi" = some p ∧
    plasma.get? "omega" = some o ∧ F n p o a.dx a.c1 = .ok x

/-- A call of `run2` that creates a new file; `S 0` is the state before the first step. -/
structure FreshCall2 (E : Env2 α β) (a : Args2 α) (σ : St α β) (hw : Solver α) (ns : ℕ) (S : ℕ → NS (Cell α)) :
    Prop where
  path : a.output_path ≠ ""
  fresh : σ.fs a.output_path = none ∨ a.force_recompute = true
  buffer : 1 ≤ a.buffer_length
  snaps : 1 ≤ a.snaps
  early : ∃ q z, FloatOps.div a.end_time a.step_size = .ok q ∧ FloatOps.toInt q = .ok z
  saves : SavesAs E.toEnv a.downsample_factor a.grid_pts ns
  nodup : a.properties.Nodup
  props : PropsOk E a
  init : Shaped a.grid_pts a.plasma0
  solver : E.HW a.physics2 = .ok hw
  start : ∃ phi, hw.get_phi a.omega0 (E.attrNum (.num a.dx)) = .ok phi ∧ S 0 = a.plasma0.set "phi" phi

/-- A call of `run2` that creates a new file, and what the simulation does: `S n`
is the state after `n` steps, the loop is left after `m` steps. -/
structure FreshRun2 (E : Env2 α β) (a : Args2 α) (σ : St α β) (hw : Solver α) (ns m : ℕ) (S : ℕ → NS (Cell α)) : Prop
    extends FreshCall2 E a σ hw ns S where
  traj : Trajectory hw a.step_size a.dx m S
  shaped : ∀ n, 1 ≤ n → n ≤ m → Shaped a.grid_pts (S n)
  stops : StopsAfter2 E a (FloatOps.ofInt 0) S m

/-- A call of `run2` that continues the file `f`, whatever properties `f` records. -/
structure ContinuedCall2 (E : Env2 α β) (a : Args2 α) (σ : St α β) (f : H5 α β) (hw : Solver α) (ns : ℕ) (d o p : Arr α)
    (t0 : α) (params : NS (Attr α)) (m : ℕ) (S : ℕ → NS (Cell α)) : Prop where
  path : a.output_path ≠ ""
  file : σ.fs a.output_path = some f
  keep : a.force_recompute = false
  cont : a.continue_file = true
  buffer : 1 ≤ a.buffer_length
  snaps : 1 ≤ a.snaps
  early : ∃ q z, FloatOps.div a.end_time a.step_size = .ok q ∧ FloatOps.toInt q = .ok z
  saves : SavesAs E.toEnv a.downsample_factor a.grid_pts ns
  nodup : a.properties.Nodup
  props : PropsOk E a
  output : OutputFile f a.grid_pts ns a.saveState
  density : loadedValue f "density" = some (.arr d)
  omega : loadedValue f "omega" = some (.arr o)
  phi : loadedValue f "phi" = some (.arr p)
  time : ∃ r x, f.dsets "time" = some (.rows .one r) ∧ r.getLast? = some (.num x) ∧ Casts.f64 x = t0
  restored : restoreParams f.attrs restoredKeys = .ok params
  notNaN : E.hasNaN (.arr d) = false ∧ E.hasNaN (.arr o) = false ∧ E.hasNaN (.arr p) = false ∧
    E.hasNaN (.num t0) = false
  nonzero : E.allZero (.arr d) = false ∧ E.allZero (.arr o) = false
  solver : E.HW params = .ok hw
  start : ∃ phi dxa, params.get? "dx" = some dxa ∧ hw.get_phi (.arr o) (E.attrNum dxa) = .ok phi ∧
    S 0 = [("density", .arr d), ("omega", .arr o), ("phi", phi), ("age", .num t0)]
  traj : Trajectory hw a.step_size a.dx m S
  shaped : ∀ n, 1 ≤ n → n ≤ m → Shaped a.grid_pts (S n)
  stops : StopsAfter2 E a t0 S m

/-- A call of `run2` that continues the file `f`, which records the properties of the call. -/
structure ContinuedRun2 (E : Env2 α β) (a : Args2 α) (σ : St α β) (f : H5 α β) (hw : Solver α) (ns : ℕ) (d o p : Arr α)
    (t0 : α) (params : NS (Attr α)) (m : ℕ) (S : ℕ → NS (Cell α)) : Prop
    extends ContinuedCall2 E a σ f hw ns d o p t0 params m S where
  propRows : ∀ name ∈ a.properties, ∃ r, f.dsets ("fullres_" ++ name) = some (.rows .one r)

/-- the last recorded frames of a run that ended at time `t` are written: the
condition of `run2` for emptying its buffer -/
def flushes2 (a : Args2 α) (t : α) : Bool := FloatOps.lt a.recording_start_time t

/-- the frames of `fr` that are in the file when a run ends at time `t`: all of
them, or only those with which the buffer was full -/
def written2 (a : Args2 α) (t : α) (fr : List (α × NS (Cell α))) : List (α × NS (Cell α)) :=
  if flushes2 a t then fr else fr.take (a.buffer_length * (fr.length / a.buffer_length))

/-- `g` is `f` with the rows of the frames `fr` appended to `time`, to the fields and to the properties `pre`;
everything else is as in `f`. -/
structure Extended2 (E : Env2 α β) (a : Args2 α) (ns : ℕ) (pre : List String) (fr : List (α × NS (Cell α)))
    (f g : H5 α β) : Prop where
  attrs : g.attrs = f.attrs
  rows : ∀ k ∈ "time" :: fieldList, ∃ rows, g.dsets k = some (.rows (rowShape ns k) (f.rowsOf k ++ rows)) ∧
    List.Forall₂ (fun fr row => IsFrameRow E.toEnv a.downsample_factor k fr.1 fr.2 row) fr rows
  props : ∀ name ∈ pre, ∃ rows,
    g.dsets ("fullres_" ++ name) = some (.rows .one (f.rowsOf ("fullres_" ++ name) ++ rows)) ∧
    List.Forall₂ (fun fr row => ∃ x, IsPropValue E a name fr.2 x ∧ row = .num (Casts.f32 x)) fr rows
  other : ∀ k, k ∉ "time" :: fieldList → (∀ name ∈ pre, k ≠ "fullres_" ++ name) → g.dsets k = f.dsets k

end Verif
