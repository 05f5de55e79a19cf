import Verif.Spec.Run2Split

/-!
# Vocabulary for C136
-/

namespace Verif

open H5IO H5 Run Run2

variable {α β : Type}

/-- the two states agree in density, vorticity and potential (their ages may differ) -/
def SameArrays (s s' : NS (Cell α)) : Prop := ∀ k ∈ fieldList, s.get? k = s'.get? k

/-- A simulation whose steps compute the new density, vorticity and potential from the old ones alone and return
states with the potential of the vorticity.  (`Good` is an invariant of the states.)  Nothing is assumed about the
arithmetic. -/
structure ArraySolver (hw : Solver α) (dt dx : α) (n : ℕ) (Good : NS (Cell α) → Prop) : Prop where
  nodup : ∀ s, Good s → s.keys.Nodup
  init : ∀ d o p t, (d.h = n ∧ d.w = n) → (o.h = n ∧ o.w = n) → (p.h = n ∧ p.w = n) → Good (fieldState d o p t)
  step : ∀ s s' r, Good s → Good s' → SameArrays s s' → hw.rk4_step s dt dx = .ok r →
    Good r ∧ ∃ r', hw.rk4_step s' dt dx = .ok r' ∧ Good r' ∧ SameArrays r r'
  phi : ∀ s r o, Good s → hw.rk4_step s dt dx = .ok r → r.get? "omega" = some (.arr o) →
    ∃ p, hw.get_phi (.arr o) dx = .ok p ∧ r.get? "phi" = some p
  get_phi : ∀ o v, (o.h = n ∧ o.w = n) → hw.get_phi (.arr o) dx = .ok v → ∃ p, v = .arr p ∧ p.h = n ∧ p.w = n

variable [Casts α β] [Zero α] [Inhabited α] [Inhabited β] [FloatOps α]

/-- the numbers of the recorded steps of a run that creates a file and makes `m` steps -/
def frameSteps (E : Env2 α β) (a : Args2 α) (m : ℕ) : List ℕ :=
  (if FloatOps.eq a.recording_start_time (FloatOps.ofInt 0) then [0] else [])
  ++ (List.range' 1 m).filter (isRecorded2 E a (FloatOps.ofInt 0))

/-- the state recorded for step `k`: for `k = 0` the one the user has given -/
def recordedState (a : Args2 α) (S : ℕ → NS (Cell α)) (k : ℕ) : NS (Cell α) := if k = 0 then a.plasma0 else S k

/-- the time a continuing call starts from: the recorded time of the last frame -/
def restartTime (E : Env2 α β) (a : Args2 α) (l : ℕ) : α :=
  Casts.f64 (Casts.f32 (timeAt E a (FloatOps.ofInt 0) l) : β)

/-- A run until `T1` that makes `m1` steps and stores its states at step `k`, its last recorded step being `l`; and a
call that continues its file until `T2`.  The steps of the simulation after the first run's, `S (m1 + 1), …`, are those
an uninterrupted run would make. -/
structure Resumed (E : Env2 α β) (a : Args2 α) (σ : St α β) (hw : Solver α) (ns m1 : ℕ) (S : ℕ → NS (Cell α))
    (T1 T2 : α) (k l M : ℕ) : Prop where
  first : FreshRun2 E (a.until T1) σ hw ns m1 S
  stored : a.saveState = true
  buffer : a.buffer_length ≤ (frameSteps E a m1).length
  step : (frameSteps E a m1)[a.buffer_length * ((frameSteps E a m1).length / a.buffer_length) - 1]? = some k
  last : (frameSteps E a m1).getLast? = some l
  flush : FloatOps.lt a.recording_start_time (timeAt E a (FloatOps.ofInt 0) m1) = true
  solver : E.HW a.toArgs.physics = .ok hw
  dx : E.attrNum (.num a.dx) = a.dx
  names : ∀ name ∈ a.properties, name ∉ ["time", "density", "omega", "phi"] ∧ (∀ n', name ≠ "fullres_" ++ n') ∧
      ∀ k ∈ fieldList, name ≠ "state_" ++ k
  early : ∃ q z, FloatOps.div T2 a.step_size = .ok q ∧ FloatOps.toInt q = .ok z
  traj : Trajectory hw a.step_size a.dx M S
  shaped : ∀ n, 1 ≤ n → n ≤ M → Shaped a.grid_pts (S n)
  noNaN : E.hasNaN (.num (restartTime E a l)) = false ∧
    ∀ key ∈ fieldList, ∀ A, (recordedState a S k).get? key = some (.arr A) → E.hasNaN (.arr A) = false
  nonzero : ∀ key ∈ ["density", "omega"], ∀ A, (recordedState a S k).get? key = some (.arr A) →
    E.allZero (.arr A) = false

end Verif
