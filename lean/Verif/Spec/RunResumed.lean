import Verif.Spec.BitContinue

/-!
# Vocabulary for C140
-/

namespace Verif

open H5IO H5 Run

variable {α β : Type}

/-- the call of `run` with another `end_time` -/
def Run.Args.until (a : Args α) (T : α) : Args α := { a with end_time := T }

/-- the call of `run` that continues the file until time `T` -/
def Run.Args.continued (a : Args α) (T : α) : Args α :=
  { a with end_time := T, continue_file := true, force_recompute := false }

variable [Casts α β] [Zero α] [Inhabited α] [Inhabited β] [FloatOps α]

/-- the numbers of the steps that a `run` that creates a file and makes `m` steps records -/
def runSteps (a : Args α) (m : ℕ) : List ℕ :=
  (if FloatOps.eq a.recording_start_time (FloatOps.ofInt 0) then [0] else [])
  ++ (List.range' 1 m).filter (isRecorded a)

/-- the state recorded for step `k`: for `k = 0` the one the user has given -/
def runState (a : Args α) (S : ℕ → NS (Cell α)) (k : ℕ) : NS (Cell α) := if k = 0 then a.plasma0 else S k

/-- the time stamp of the recorded step `it`: `it * step_size`, and 0 for the initial state -/
def runStamp (a : Args α) (it : ℕ) : α := if it = 0 then FloatOps.ofInt 0 else stepTime a it

/-- A `run` until `T1` that makes `m1` steps and stores its states at step `k`, its last recorded step being `l`; and a
call that continues its file until `T2` and may make `steps` steps.  `S` is the computation: `S n` is the state after
`n ≤ M` steps. -/
structure RunResumed (E : Env α β) (a : Args α) (σ : St α β) (hw : Solver α) (ns : ℕ) (steps1 : ℤ) (m1 : ℕ)
    (S : ℕ → NS (Cell α)) (T1 T2 : α) (k l M : ℕ) (steps : ℤ) : Prop where
  first : FreshRun E (a.until T1) σ hw ns steps1 m1 S
  stored : a.saveState = true
  buffer : a.buffer_length ≤ (runSteps a m1).length
  step : (runSteps a m1)[a.buffer_length * ((runSteps a m1).length / a.buffer_length) - 1]? = some k
  last : (runSteps a m1).getLast? = some l
  dx : E.attrNum (.num a.dx) = a.dx
  names : ∀ name ∈ a.properties, name ∉ ["time", "density", "omega", "phi"] ∧ ∀ k ∈ fieldList, name ≠ "state_" ++ k
  count : ∃ q, FloatOps.div (FloatOps.sub T2 (Casts.f64 (Casts.f32 (runStamp a l) : β)))
      a.step_size = .ok q ∧ FloatOps.toInt q = .ok steps
  traj : Trajectory hw a.step_size a.dx M S
  shaped : ∀ n, 1 ≤ n → n ≤ M → Shaped a.grid_pts (S n)
  noNaN : E.hasNaN (.num (Casts.f64 (Casts.f32 (runStamp a l) : β))) = false ∧
    ∀ key ∈ fieldList, ∀ A, (runState a S k).get? key = some (.arr A) → E.hasNaN (.arr A) = false
  nonzero : ∀ key ∈ ["density", "omega"], ∀ A, (runState a S k).get? key = some (.arr A) → E.allZero (.arr A) = false

end Verif
