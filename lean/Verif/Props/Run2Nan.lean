import Verif.Props.Run2
import Verif.Props.Parallel

/-!
# Further concrete cases (C51, C113)
-/

namespace Verif.Props

open Arr NS Spec H5IO Run Run2 Par

/-- "NaN" (here the value 14) is in the state after 4 steps, which is recorded -/
def nanEnv2 : Env2 ℚ ℚ := { demoEnv2 with
  hasNaN := fun v => match v with
    | .arr a => decide (a.at' 0 0 = 14)
    | .num _ => false }

theorem nanEnv2_state (j : ℕ) : nanState nanEnv2.toEnv (demoStates (1 / 2) demoStart j) = decide ((10 : ℚ) + j = 14) := by
  unfold nanState
  rw [demoStates_get _ _ 10 _ rfl]
  simp only [nanEnv2, demoField_corner]

/-- eight steps are asked for, four are made -/
theorem nan_stops2 : FreshRun2 nanEnv2 { demoArgs2 with end_time := 4, buffer_length := 2, snaps := 2, recording_start_time := 0 }
    noFiles demoSolver 2 4 (demoStates (1 / 2) demoStart) :=
  let h := demo_run2 4 8 (by norm_num) (by decide) 0 2 2 (by decide) (by decide) noFiles rfl
  { h with
    saves := ⟨demo_saves.dim, demo_saves.down⟩
    traj := fun j hj => h.traj j (by omega)
    shaped := fun n h1 h2 => h.shaped n h1 (by omega)
    stops := by
      refine ⟨fun j hj => h.stops.before j (by omega), fun j h1 h2 _ => ?_, .inr ⟨by decide, ?_, ?_⟩⟩
      · rw [nanEnv2_state, decide_eq_false_iff_not]
        intro e
        have : (j : ℚ) = 4 := by linarith
        have : j = 4 := by exact_mod_cast this
        omega
      · have : isRecorded2 demoEnv2 demoArgs2 (FloatOps.ofInt 0) 4 = true := by
          simp [isRecorded2, demo_time2, FloatOps.le, FloatOps.ofInt, demoArgs2, demoArgs]
        exact this
      · rw [nanEnv2_state]
        norm_num }

example := C51_run2_partial nan_stops2 (fuel := 9) (by decide) (by
    have : isRecorded2 demoEnv2 demoArgs2 (FloatOps.ofInt 0) 4 = true := by
      simp [isRecorded2, demo_time2, FloatOps.le, FloatOps.ofInt, demoArgs2, demoArgs]
    exact this) (by rw [nanEnv2_state]; norm_num) demo_end2

/-- the parallel Laplacian of a 2 × 3 field -/
example : ∃ (padded : Arr ℚ) (m : Loc → ℚ), Stores m "padded" padded ∧ Always (Par.laplace 2 3 (1 / 2)) m fun m' =>
    Stores m' "out" (ofField (Spec.lap (1 / 2) fun (i : ZMod 2) (j : ZMod 3) => (10 * i.val + j.val : ℚ))) := by
  obtain ⟨padded, hp⟩ : ∃ padded, (ofField fun (i : ZMod 2) (j : ZMod 3) => (10 * i.val + j.val : ℚ)).padWrap 1 = .ok padded :=
    ⟨_, rfl⟩
  exact ⟨padded, fun x => padded.at' x.i x.j, fun i j _ _ => rfl, C113_periodic_laplace _ _ padded hp _ fun i j _ _ => rfl⟩

end Verif.Props
