import Verif.Lemmas.Run2Crash
import Verif.Props.RunCrash
import Verif.Props.Run2

/-!
# C93, C94: crashes during `run2`

`StartedRun2` and `StartedContinuation2` (see `Spec/Run2Crash.lean`) describe a
call of `run2` that creates a file and one that continues a file; solver, steps
and property functions may raise.  `run2 E a fuel` is the call with at most
`fuel` tests of the loop condition; `frames2 E a S fuel` are the frames of its
first `fuel` steps.  Since the statements hold for every `fuel`, they cover runs
that never come to an end.
-/

set_option linter.unusedSectionVars false

namespace Verif.Props

open H5IO H5 Run Run2

section general

variable {α β : Type} [Casts α β] [Zero α] [Inhabited α] [Inhabited β] [FloatOps α]
variable {E : Env2 α β} {a : Args2 α} {fs : FS α β} {hw : Solver α} {ns fuel : ℕ} {S : ℕ → NS (Cell α)}

/-- **C93 (partial).** Whenever the process dies during a call of `run2` that
creates a new file, no other file has been touched, and the output file is as
before or holds, in each of the datasets `time`, `density`, `omega`, `phi` and
`fullres_<property>`, the first `c` or the first `c + d` of the frames of the
run, `d ≤ buffer_length`.  Missing: at most one dataset may have `d` rows of
zeros behind its `c` frames (`C93_zero_rows_violated`). -/
theorem C93_crash2_partial (h : StartedRun2 E a fs hw ns S) (g : FS α β)
    (hg : g ∈ IOM.crashStates (run2 E a fuel) fs) :
    (∀ q, q ≠ a.output_path → g q = fs q) ∧
    (g a.output_path = fs a.output_path ∨
      ∃ f, g a.output_path = some f ∧ ∃ k0 c d, d ≤ a.buffer_length ∧
        (∀ k ∈ ["time", "density", "omega", "phi"], k ∉ a.properties →
          (f.dsets k = none ∧ c = 0 ∧ d = 0) ∨
          CutAt f k0 c d k (rowShape ns k) [] (frames2 E a S fuel)
            fun fr row => IsFrameRow E.toEnv a.downsample_factor k fr.1 fr.2 row) ∧
        (∀ name ∈ a.properties, "fullres_" ++ name ∉ a.properties →
          (f.dsets ("fullres_" ++ name) = none ∧ c = 0 ∧ d = 0) ∨
          CutAt f k0 c d ("fullres_" ++ name) .one [] (frames2 E a S fuel)
            fun fr row => ∃ x, IsPropValue E a name fr.2 x ∧ row = .num (Casts.f32 x))) := by
  rcases (tr_run2 h fuel).crashStates rfl g hg with rfl | ⟨f, rfl, ht⟩
  · exact ⟨fun _ _ => rfl, .inl rfl⟩
  · refine ⟨fun q hq => upd_ne _ _ hq, .inr ⟨f, upd_same _ _ _, ?_⟩⟩
    obtain ⟨k0, c, d, hd, hk⟩ := ht
    refine ⟨k0, c, d, hd, fun k hk1 hk2 => ?_, fun name hn hk2 => ?_⟩
    · rcases hk k (mem_keys2.mpr (.inl hk1)) hk2 with ⟨h1, -, h2⟩ | ⟨good, z, h1, h2, h3⟩
      · exact .inl ⟨h1, h2⟩
      · rw [shape2_eq ns hk1] at h1
        exact .inr ⟨good, z, h1, h2.imp fun _ _ h => h.1 hk1, h3⟩
    · rcases hk _ (mem_keys2.mpr (.inr ⟨name, hn, rfl⟩)) hk2 with ⟨h1, -, h2⟩ | ⟨good, z, h1, h2, h3⟩
      · exact .inl ⟨h1, h2⟩
      · rw [shape2_fullres] at h1
        exact .inr ⟨good, z, h1, h2.imp fun _ _ h => h.2 name hn rfl, h3⟩

/-- **C94 (partial).** Whenever the process dies during a call of `run2` that
continues a file, no other file has been touched, and the output file is as
before or holds, in each of the datasets, all rows it had, unchanged and in
order, followed by the first `c` or the first `c + d` frames of the continuation,
`d ≤ buffer_length`.  Missing: at most one dataset may have `d` rows of zeros
behind its `c` new frames (`C94_zero_rows_violated`). -/
theorem C94_crash2_continued_partial {f : H5 α β} {d o p : Arr α} {t0 : α} {params : NS (Attr α)}
    (h : StartedContinuation2 E a fs f hw ns d o p t0 params S) (g : FS α β)
    (hg : g ∈ IOM.crashStates (run2 E a fuel) fs) :
    (∀ q, q ≠ a.output_path → g q = fs q) ∧
    (g a.output_path = fs a.output_path ∨
      ∃ f', g a.output_path = some f' ∧ ∃ k0 c d, d ≤ a.buffer_length ∧
        (∀ k ∈ ["time", "density", "omega", "phi"], k ∉ a.properties → ∃ old,
          f.dsets k = some (.rows (rowShape ns k) old) ∧
          CutAt f' k0 c d k (rowShape ns k) old (stepFrames2 E a t0 S fuel)
            fun fr row => IsFrameRow E.toEnv a.downsample_factor k fr.1 fr.2 row) ∧
        (∀ name ∈ a.properties, "fullres_" ++ name ∉ a.properties → ∃ old,
          f.dsets ("fullres_" ++ name) = some (.rows .one old) ∧
          CutAt f' k0 c d ("fullres_" ++ name) .one old (stepFrames2 E a t0 S fuel)
            fun fr row => ∃ x, IsPropValue E a name fr.2 x ∧ row = .num (Casts.f32 x))) := by
  rcases (tr_run2_continue h fuel).crashStates rfl g hg with rfl | ⟨f', rfl, ht⟩
  · exact ⟨fun _ _ => rfl, .inl rfl⟩
  · refine ⟨fun q hq => upd_ne _ _ hq, .inr ⟨f', upd_same _ _ _, ?_⟩⟩
    obtain ⟨k0, c, d, hd, hk⟩ := ht
    have htime : f.rowsOf "time" ≠ [] := by
      obtain ⟨r, x, t1, t2, -⟩ := h.time
      unfold H5.rowsOf
      rw [t1]
      rintro rfl
      cases t2
    refine ⟨k0, c, d, hd, fun k hk1 hk2 => ?_, fun name hn hk2 => ?_⟩
    · have hk' := mem_keys2 (a := a).mpr (.inl hk1)
      have hrows := h.base.rows0 k hk'
      rcases hk k hk' hk2 with ⟨-, h0, -⟩ | ⟨good, z, h1, h2, h3⟩
      · exact absurd h0 htime
      · rw [shape2_eq ns hk1] at h1 hrows
        exact ⟨_, hrows, good, z, h1, h2.imp fun _ _ h => h.1 hk1, h3⟩
    · have hk' := mem_keys2 (a := a).mpr (.inr ⟨name, hn, rfl⟩)
      have hrows := h.base.rows0 _ hk'
      rcases hk _ hk' hk2 with ⟨-, h0, -⟩ | ⟨good, z, h1, h2, h3⟩
      · exact absurd h0 htime
      · rw [shape2_fullres] at h1 hrows
        exact ⟨_, hrows, good, z, h1, h2.imp fun _ _ h => h.2 name hn rfl, h3⟩

end general

/-! ### a small run -/

theorem demo_started2 :
    StartedRun2 demoEnv2 demoArgs2 emptyDisk demoSolver 2 (demoStates (1 / 2) demoStart) where
  fresh := .inl rfl
  buffer := demo_run2_4.buffer
  saves := demo_saves
  nodup := demo_run2_4.nodup
  init := demo_init 10 20 30 _
  solver := fun hw' e => by injection e with e; exact e.symm
  start := fun phi e => by injection e with e; subst e; rfl
  steps := fun n p e => by injection e with e; exact e.symm
  shaped := fun n _ => demo_shaped _ _ demoStart_shaped n

example (g : FS ℚ ℚ) (hg : g ∈ IOM.crashStates (run2 demoEnv2 demoArgs2 5) emptyDisk) := C93_crash2_partial demo_started2 g hg

-- a solver that fails in the third step is also covered
example : ∃ S, StartedRun2 { demoEnv2 with HW := fun _ => .ok failSolver } demoArgs2 emptyDisk failSolver 2 S := by
  refine ⟨demoStates (1 / 2) demoStart, ?_⟩
  refine { demo_started2 with saves := ⟨demo_saves.dim, demo_saves.down⟩, solver := ?_, start := ?_, steps := ?_ }
  · intro hw' e
    injection e with e
    exact e.symm
  · intro phi e
    injection e with e
    subst e; rfl
  · intro n p e
    unfold failSolver at e
    simp only [demoStates_get (1 / 2) demoStart 10 "density" rfl n, demoField_corner] at e
    split at e
    · cases e
    · injection e with e
      exact e.symm

/-- **C93 is violated**: a crash between the enlargement of a dataset and the
writing of the rows leaves rows of zeros, which are the density of no frame. -/
theorem C93_zero_rows_violated :
    ∃ g ∈ IOM.crashStates (run2 demoEnv2 demoArgs2 5) emptyDisk, ∃ f s r row, g "run.h5" = some f ∧
      f.dsets "density" = some (.rows s r) ∧ row ∈ r ∧
      ∀ n, ¬ IsFrameRow demoRunEnv 1 "density" 0 (demoStates (1 / 2) demoStart n) row ∧
        ¬ IsFrameRow demoRunEnv 1 "density" 0 demoArgs2.plasma0 row := by
  have h : (IOM.crashStates (run2 demoEnv2 demoArgs2 5) emptyDisk).any hasZeroRow = true := by decide +kernel
  rw [List.any_eq_true] at h
  obtain ⟨g, hg, hz⟩ := h
  obtain ⟨f, s, r, A, h1, h2, h3, hA⟩ := zero_row_of hz
  exact ⟨g, hg, f, s, r, _, h1, h2, h3, fun n =>
    ⟨zero_row_no_frame hA (c := 10 + n) (by have : (0 : ℚ) ≤ n := Nat.cast_nonneg n; linarith)
      (demoStates_get _ _ 10 _ rfl n), zero_row_no_frame hA (c := 10) (by norm_num) rfl⟩⟩

/-- a file of `run2` with three frames at the times 0, 1, 2 -/
def demoOld2 : H5 ℚ ℚ := { demoOld with
  dsets := fun k => if k = "fullres_gamma_n" then some (.rows .one [.num 30, .num 36, .num 42]) else demoOld.dsets k }

/-- the disk with this file -/
def oldDisk2 : FS ℚ ℚ := fun _ => some demoOld2

/-- the arguments of a continuing call -/
def demoCont2 : Args2 ℚ := { demoArgs2 with continue_file := true, end_time := 4 }

theorem demoOld2_ne {k : String} (h : k ≠ "fullres_gamma_n") : demoOld2.dsets k = demoOld.dsets k := if_neg h

theorem demoOld2_loaded {k : String} (hk : k ∈ fieldList) : loadedValue demoOld2 k = some (.arr (demoField 14)) := by
  rw [← demo_loaded hk]
  have h1 : k ≠ "fullres_gamma_n" := fun h => absurd (h ▸ hk : "fullres_gamma_n" ∈ fieldList) (by decide)
  have h2 : "state_" ++ k ≠ "fullres_gamma_n" := state_ne_fullres (name := "gamma_n")
  unfold loadedValue
  rw [demoOld2_ne h1, demoOld2_ne h2]

theorem demo_started_continuation2 : StartedContinuation2 demoEnv2 demoCont2 oldDisk2 demoOld2 demoSolver 2
    (demoField 14) (demoField 14) (demoField 14) 2 demoArgs.physics (demoStates (1 / 2) demoLoaded) where
  file := rfl
  keep := rfl
  cont := rfl
  buffer := demo_run2_4.buffer
  saves := demo_saves
  output := by
    refine ⟨fun k hk => ?_, fun hs k hk => ?_⟩
    · obtain ⟨r, hr⟩ := demo_continued.output.rows k hk
      exact ⟨r, by rw [demoOld2_ne fun h => absurd (h ▸ hk : "fullres_gamma_n" ∈ "time" :: fieldList) (by decide)]; exact hr⟩
    · obtain ⟨A, hA⟩ := demo_continued.output.states hs k hk
      exact ⟨A, by rw [demoOld2_ne (state_ne_fullres (name := "gamma_n"))]; exact hA⟩
  propRows := by
    intro name hn
    have : name = "gamma_n" := List.mem_singleton.mp hn
    subst this
    exact ⟨_, rfl⟩
  density := demoOld2_loaded (by simp [fieldList])
  omega := demoOld2_loaded (by simp [fieldList])
  phi := demoOld2_loaded (by simp [fieldList])
  time := by
    obtain ⟨r, x, h1, h2, h3⟩ := demo_continued.time
    exact ⟨r, x, by rw [demoOld2_ne (by decide)]; exact h1, h2, h3⟩
  restored := demo_continued.restored
  solver := fun hw' e => by injection e with e; exact e.symm
  start := fun dxa phi e1 e2 => by
    injection e2 with e2
    subst e2; rfl
  steps := fun n p e => by injection e with e; exact e.symm
  shaped := fun n _ => demo_shaped _ _ demoLoaded_shaped n

example (g : FS ℚ ℚ) (hg : g ∈ IOM.crashStates (run2 demoEnv2 demoCont2 5) oldDisk2) :=
  C94_crash2_continued_partial demo_started_continuation2 g hg

/-- **C94 is violated** in the same way when a file is continued. -/
theorem C94_zero_rows_violated :
    ∃ g ∈ IOM.crashStates (run2 demoEnv2 demoCont2 5) oldDisk2, ∃ f s r row, g "run.h5" = some f ∧
      f.dsets "density" = some (.rows s r) ∧ row ∈ r ∧
      ∀ n, ¬ IsFrameRow demoRunEnv 1 "density" 0 (demoStates (1 / 2) demoLoaded n) row := by
  have h : (IOM.crashStates (run2 demoEnv2 demoCont2 5) oldDisk2).any hasZeroRow = true := by decide +kernel
  rw [List.any_eq_true] at h
  obtain ⟨g, hg, hz⟩ := h
  obtain ⟨f, s, r, A, h1, h2, h3, hA⟩ := zero_row_of hz
  exact ⟨g, hg, f, s, r, _, h1, h2, h3, fun n =>
    zero_row_no_frame hA (c := 14 + n) (by have : (0 : ℚ) ≤ n := Nat.cast_nonneg n; linarith)
      (demoStates_get _ _ 14 _ rfl n)⟩

end Verif.Props
