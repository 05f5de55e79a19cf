import Verif.Spec.Run

/-!
# Vocabulary for crashes during `run`
-/

namespace Verif

open H5IO H5 Run

variable {α β : Type} [Casts α β] [Zero α] [Inhabited α] [Inhabited β] [FloatOps α]

/-- A call of `run` that creates a new file, whatever happens later: creating the
simulation, the first potential or any step may raise, and the density may
become NaN.  `S n` is the state after `n` steps, as far as they succeed; the
call asks for at most `M` steps. -/
structure StartedRun (E : Env α β) (a : Args α) (fs : FS α β) (hw : Solver α) (ns M : ℕ) (S : ℕ → NS (Cell α)) :
    Prop where
  fresh : fs a.output_path = none ∨ a.force_recompute = true
  buffer : 1 ≤ a.buffer_length
  saves : SavesAs E a.downsample_factor a.grid_pts ns
  init : Shaped a.grid_pts a.plasma0
  solver : ∀ hw', E.HW a.physics = .ok hw' → hw' = hw
  start : ∀ phi, hw.get_phi a.omega0 (E.attrNum (.num a.dx)) = .ok phi → S 0 = a.plasma0.set "phi" phi
  steps : ∀ n p, n < M → hw.rk4_step (S n) a.step_size a.dx = .ok p → p = S (n + 1)
  count : ∀ q s, FloatOps.div (FloatOps.sub a.end_time (FloatOps.ofInt 0)) a.step_size = .ok q →
    FloatOps.toInt q = .ok s → s.toNat ≤ M
  shaped : ∀ n, 1 ≤ n → n ≤ M → Shaped a.grid_pts (S n)

/-- A call of `run` that continues the file `f`, whatever happens later; compare
`ContinuedRun`. -/
structure StartedContinuation (E : Env α β) (a : Args α) (fs : FS α β) (f : H5 α β) (hw : Solver α) (ns : ℕ)
    (d o p : Arr α) (t0 : α) (params : NS (Attr α)) (M : ℕ) (S : ℕ → NS (Cell α)) : Prop where
  file : fs a.output_path = some f
  keep : a.force_recompute = false
  cont : a.continue_file = true
  buffer : 1 ≤ a.buffer_length
  saves : SavesAs E a.downsample_factor a.grid_pts ns
  output : OutputFile f a.grid_pts ns a.saveState
  density : loadedValue f "density" = some (.arr d)
  omega : loadedValue f "omega" = some (.arr o)
  phi : loadedValue f "phi" = some (.arr p)
  time : ∃ r x, f.dsets "time" = some (.rows .one r) ∧ r.getLast? = some (.num x) ∧ Casts.f64 x = t0
  restored : restoreParams f.attrs restoredKeys = .ok params
  solver : ∀ hw', E.HW params = .ok hw' → hw' = hw
  start : ∀ dxa phi, params.get? "dx" = some dxa → hw.get_phi (.arr o) (E.attrNum dxa) = .ok phi →
    S 0 = [("density", .arr d), ("omega", .arr o), ("phi", phi), ("age", .num t0)]
  steps : ∀ n p, n < M → hw.rk4_step (S n) a.step_size a.dx = .ok p → p = S (n + 1)
  count : ∀ q s, FloatOps.div (FloatOps.sub a.end_time t0) a.step_size = .ok q →
    FloatOps.toInt q = .ok s → s.toNat ≤ M
  shaped : ∀ n, 1 ≤ n → n ≤ M → Shaped a.grid_pts (S n)

/-- `f` is the beginning of a file with the old rows `old` and the new frames
`fr`: every dataset consists of the old rows and the first `c` or the first
`c + d` frames, where `d ≤ buffer_length`; at most one dataset (`k0`) has,
instead of frames `c+1, …, c+d`, rows of zeros.  A dataset may be missing as
long as there is no row at all. -/
def Truncated (E : Env α β) (a : Args α) (ns : ℕ) (old : String → List (Cell β)) (fr : List (α × NS (Cell α)))
    (f : H5 α β) : Prop :=
  ∃ k0 c d, d ≤ a.buffer_length ∧ ∀ k ∈ "time" :: fieldList, k ∉ a.properties →
    (f.dsets k = none ∧ old "time" = [] ∧ c = 0 ∧ d = 0) ∨
    ∃ good z, f.dsets k = some (.rows (rowShape ns k)
        (old k ++ good ++ List.replicate z ((rowShape ns k).zero (Casts.f32 (0 : α))))) ∧
      List.Forall₂ (fun fr row => IsFrameRow E a.downsample_factor k fr.1 fr.2 row) (fr.take good.length) good ∧
      (good.length = c ∨ good.length = c + d) ∧ (z = 0 ∨ (k = k0 ∧ good.length = c ∧ z = d))

/-- A call of `run` that creates a new file and whose step number `m + 1` raises
`e`; the first `m` steps succeed and give no NaN. -/
structure FailingRun (E : Env α β) (a : Args α) (σ : St α β) (hw : Solver α) (ns : ℕ) (steps : ℤ) (m : ℕ)
    (S : ℕ → NS (Cell α)) (e : PyErr) : Prop where
  path : a.output_path ≠ ""
  fresh : σ.fs a.output_path = none ∨ a.force_recompute = true
  buffer : 1 ≤ a.buffer_length
  snaps : 1 ≤ a.snaps
  saves : SavesAs E a.downsample_factor a.grid_pts ns
  init : Shaped a.grid_pts a.plasma0
  solver : E.HW a.physics = .ok hw
  start : ∃ phi, hw.get_phi a.omega0 (E.attrNum (.num a.dx)) = .ok phi ∧ S 0 = a.plasma0.set "phi" phi
  count : ∃ q, FloatOps.div (FloatOps.sub a.end_time (FloatOps.ofInt 0)) a.step_size = .ok q ∧
    FloatOps.toInt q = .ok steps
  traj : Trajectory hw a.step_size a.dx m S
  shaped : ∀ n, 1 ≤ n → n ≤ m → Shaped a.grid_pts (S n)
  noNaN : ∀ n, 1 ≤ n → n ≤ m → nanState E (S n) = false
  early : m < steps.toNat
  error : hw.rk4_step (S m) a.step_size a.dx = .error e

end Verif
