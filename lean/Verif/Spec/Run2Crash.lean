import Verif.Spec.Run2
import Verif.Spec.RunCrash

/-!
# Vocabulary for crashes during `run2`
-/

namespace Verif

open H5IO H5 Run Run2

variable {α β : Type} [Casts α β] [Zero α] [Inhabited α] [Inhabited β] [FloatOps α]

/-- A call of `run2` that creates a new file, whatever happens later: creating the
simulation, the first potential, any step or any property function may raise,
and the density may become NaN.  `S n` is the state after `n` successful steps. -/
structure StartedRun2 (E : Env2 α β) (a : Args2 α) (fs : FS α β) (hw : Solver α) (ns : ℕ) (S : ℕ → NS (Cell α)) :
    Prop where
  fresh : fs a.output_path = none ∨ a.force_recompute = true
  buffer : 1 ≤ a.buffer_length
  saves : SavesAs E.toEnv a.downsample_factor a.grid_pts ns
  nodup : a.properties.Nodup
  init : Shaped a.grid_pts a.plasma0
  solver : ∀ hw', E.HW a.physics2 = .ok hw' → hw' = hw
  start : ∀ phi, hw.get_phi a.omega0 (E.attrNum (.num a.dx)) = .ok phi → S 0 = a.plasma0.set "phi" phi
  steps : ∀ n p, hw.rk4_step (S n) a.step_size a.dx = .ok p → p = S (n + 1)
  shaped : ∀ n, 1 ≤ n → Shaped a.grid_pts (S n)

/-- A call of `run2` that continues the file `f`, whatever happens later; compare
`ContinuedRun2`. -/
structure StartedContinuation2 (E : Env2 α β) (a : Args2 α) (fs : FS α β) (f : H5 α β) (hw : Solver α) (ns : ℕ)
    (d o p : Arr α) (t0 : α) (params : NS (Attr α)) (S : ℕ → NS (Cell α)) : Prop where
  file : fs a.output_path = some f
  keep : a.force_recompute = false
  cont : a.continue_file = true
  buffer : 1 ≤ a.buffer_length
  saves : SavesAs E.toEnv a.downsample_factor a.grid_pts ns
  output : OutputFile f a.grid_pts ns a.saveState
  propRows : ∀ name ∈ a.properties, ∃ r, f.dsets ("fullres_" ++ name) = some (.rows .one r)
  density : loadedValue f "density" = some (.arr d)
  omega : loadedValue f "omega" = some (.arr o)
  phi : loadedValue f "phi" = some (.arr p)
  time : ∃ r x, f.dsets "time" = some (.rows .one r) ∧ r.getLast? = some (.num x) ∧ Casts.f64 x = t0
  restored : restoreParams f.attrs restoredKeys = .ok params
  solver : ∀ hw', E.HW params = .ok hw' → hw' = hw
  start : ∀ dxa phi, params.get? "dx" = some dxa → hw.get_phi (.arr o) (E.attrNum dxa) = .ok phi →
    S 0 = [("density", .arr d), ("omega", .arr o), ("phi", phi), ("age", .num t0)]
  steps : ∀ n p, hw.rk4_step (S n) a.step_size a.dx = .ok p → p = S (n + 1)
  shaped : ∀ n, 1 ≤ n → Shaped a.grid_pts (S n)

/-- The dataset `k` of `f` consists of the rows `old`, followed by rows for the
first `c` or the first `c + d` of the frames `fr` (`R` says what the row of a
frame is); if `k = k0` there may be, instead of the frames `c+1, …, c+d`, rows of
zeros. -/
def CutAt (f : H5 α β) (k0 : String) (c d : ℕ) (k : String) (shape : RowShape) (old : List (Cell β))
    (fr : List (α × NS (Cell α))) (R : α × NS (Cell α) → Cell β → Prop) : Prop :=
  ∃ good z, f.dsets k = some (.rows shape (old ++ good ++ List.replicate z (shape.zero (Casts.f32 (0 : α))))) ∧
    List.Forall₂ R (fr.take good.length) good ∧ (good.length = c ∨ good.length = c + d) ∧
    (z = 0 ∨ (k = k0 ∧ good.length = c ∧ z = d))

end Verif
