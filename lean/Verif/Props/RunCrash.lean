import Verif.Lemmas.RunFail
import Verif.Props.RunDemo
import Verif.Props.RunContinue

/-!
# C83, C84, C85: crashes and exceptions during `run`

`StartedRun` and `FailingRun` (see `Spec/RunCrash.lean`) describe a call of `run`
that creates the file, `StartedContinuation` one that continues a file.
-/

set_option linter.unusedSectionVars false

namespace Verif.Props

open H5IO H5 Run

section general

variable {α β : Type} [Casts α β] [Zero α] [Inhabited α] [Inhabited β] [FloatOps α]
variable {E : Env α β} {a : Args α} {fs : FS α β} {hw : Solver α} {ns M m : ℕ} {S : ℕ → NS (Cell α)}

/-- **C83 (partial).** Whenever the process dies during a run that creates a new
file — while the file is created, during a step, while frames are written, while
the properties are computed, after an exception — no other file has been
touched, and the output file is as before or holds, in each of the datasets
`time`, `density`, `omega`, `phi`, the first `c` or the first `c + d` of the
frames of the run, `d ≤ buffer_length`.  Missing: at most one dataset may have
`d` rows of zeros behind its `c` frames (`C83_zero_rows_violated`). -/
theorem C83_crash_partial (h : StartedRun E a fs hw ns M S) (g : FS α β) (hg : g ∈ IOM.crashStates (run E a) fs) :
    (∀ q, q ≠ a.output_path → g q = fs q) ∧
    (g a.output_path = fs a.output_path ∨
      ∃ f, g a.output_path = some f ∧ ∃ k0 c d, d ≤ a.buffer_length ∧
        ∀ k ∈ ["time", "density", "omega", "phi"], k ∉ a.properties →
          (f.dsets k = none ∧ c = 0 ∧ d = 0) ∨
          ∃ good z, f.dsets k = some (.rows (rowShape ns k)
              (good ++ List.replicate z ((rowShape ns k).zero (Casts.f32 (0 : α))))) ∧
            List.Forall₂ (fun fr row => IsFrameRow E a.downsample_factor k fr.1 fr.2 row)
              ((frames a S M).take good.length) good ∧
            (good.length = c ∨ good.length = c + d) ∧ (z = 0 ∨ (k = k0 ∧ good.length = c ∧ z = d))) := by
  rcases (tr_run h).crashStates rfl g hg with rfl | ⟨f, rfl, ht⟩
  · exact ⟨fun _ _ => rfl, .inl rfl⟩
  · refine ⟨fun q hq => upd_ne _ _ hq, .inr ⟨f, upd_same _ _ _, ?_⟩⟩
    obtain ⟨k0, c, d, hd, hk⟩ := ht
    refine ⟨k0, c, d, hd, fun k hk1 hk2 => ?_⟩
    rcases hk k hk1 hk2 with ⟨h1, -, h2⟩ | h1
    · exact .inl ⟨h1, h2⟩
    · exact .inr h1

/-- **C85 (partial).** Whenever the process dies during a run that continues a
file, no other file has been touched, and the output file is as before or holds,
in each of the datasets `time`, `density`, `omega`, `phi`, all rows it had,
unchanged and in order, followed by the first `c` or the first `c + d` frames of
the continuation, `d ≤ buffer_length`.  Missing: at most one dataset may have
`d` rows of zeros behind its `c` new frames (`C85_zero_rows_violated`). -/
theorem C85_crash_continued_partial {f : H5 α β} {d o p : Arr α} {t0 : α} {params : NS (Attr α)}
    (h : StartedContinuation E a fs f hw ns d o p t0 params M S) (g : FS α β)
    (hg : g ∈ IOM.crashStates (run E a) fs) :
    (∀ q, q ≠ a.output_path → g q = fs q) ∧
    (g a.output_path = fs a.output_path ∨
      ∃ f', g a.output_path = some f' ∧ ∃ k0 c d, d ≤ a.buffer_length ∧
        ∀ k ∈ ["time", "density", "omega", "phi"], k ∉ a.properties →
          ∃ old good z, f.dsets k = some (.rows (rowShape ns k) old) ∧
            f'.dsets k = some (.rows (rowShape ns k)
              (old ++ good ++ List.replicate z ((rowShape ns k).zero (Casts.f32 (0 : α))))) ∧
            List.Forall₂ (fun fr row => IsFrameRow E a.downsample_factor k fr.1 fr.2 row)
              ((continuedFrames a S M).take good.length) good ∧
            (good.length = c ∨ good.length = c + d) ∧ (z = 0 ∨ (k = k0 ∧ good.length = c ∧ z = d))) := by
  rcases (tr_run_continue h).crashStates rfl g hg with rfl | ⟨f', rfl, ht⟩
  · exact ⟨fun _ _ => rfl, .inl rfl⟩
  · refine ⟨fun q hq => upd_ne _ _ hq, .inr ⟨f', upd_same _ _ _, ?_⟩⟩
    obtain ⟨k0, c, d, hd, hk⟩ := ht
    refine ⟨k0, c, d, hd, fun k hk1 hk2 => ?_⟩
    have hrows := h.base.rows0 k hk1
    rcases hk k hk1 hk2 with ⟨-, h0, -⟩ | ⟨good, z, h1, h2⟩
    · obtain ⟨r, x, t1, t2, -⟩ := h.time
      unfold H5.rowsOf at h0
      rw [t1] at h0
      subst h0
      cases t2
    · exact ⟨_, good, z, hrows, h1, h2⟩

/-- **C84 (partial).** If step `m + 1` of a run raises, the exception leaves
`run`; no other file is touched, and of the `n` frames recorded so far exactly the first
`buffer_length * (n / buffer_length)` are in the file, each complete.  Missing:
the remaining `n % buffer_length` frames, which are lost
(`C84_frames_lost_violated`). -/
theorem C84_exception_partial {σ : St α β} {steps : ℤ} {e : PyErr} (h : FailingRun E a σ hw ns steps m S e) :
    (run E a σ).1 = .error e ∧ (∀ q, q ≠ a.output_path → (run E a σ).2.fs q = σ.fs q) ∧
    ∃ f, (run E a σ).2.fs a.output_path = some f ∧ ∀ k ∈ ["time", "density", "omega", "phi"],
      ∃ rows, f.dsets k = some (.rows (rowShape ns k) rows) ∧
        List.Forall₂ (fun fr row => IsFrameRow E a.downsample_factor k fr.1 fr.2 row)
          ((frames a S m).take (a.buffer_length * ((frames a S m).length / a.buffer_length))) rows := by
  obtain ⟨σ', f', e1, e2, e3⟩ := run_failing h
  rw [e1]
  refine ⟨rfl, fun q hq => by simp only [e2, upd_ne _ _ hq], f', by simp only [e2, upd_same], fun k hk => ?_⟩
  rw [e3]
  exact flushed_rows h.buffer h.saves (failingSaves_ok h) hk

/-- **C84 is violated** whenever the number of frames recorded before the
exception is not a multiple of `buffer_length`: every dataset has fewer rows. -/
theorem C84_frames_lost_violated {σ : St α β} {steps : ℤ} {e : PyErr} (h : FailingRun E a σ hw ns steps m S e)
    (hn : ¬ a.buffer_length ∣ (frames a S m).length) :
    ∃ f, (run E a σ).2.fs a.output_path = some f ∧ ∀ k ∈ ["time", "density", "omega", "phi"],
      ∃ rows, f.dsets k = some (.rows (rowShape ns k) rows) ∧ rows.length < (frames a S m).length := by
  obtain ⟨-, -, f, hf, h2⟩ := C84_exception_partial h
  refine ⟨f, hf, fun k hk => ?_⟩
  obtain ⟨rows, h3, h4⟩ := h2 k hk
  refine ⟨rows, h3, ?_⟩
  have h5 := h4.length_eq
  rw [List.length_take] at h5
  have hdm := Nat.div_add_mod (frames a S m).length a.buffer_length
  have : (frames a S m).length % a.buffer_length ≠ 0 := fun e => hn (Nat.dvd_of_mod_eq_zero e)
  omega

end general

/-! ### a small run -/

/-- the empty disk -/
def emptyDisk : FS ℚ ℚ := fun _ => none

theorem demo_started : StartedRun demoRunEnv demoArgs emptyDisk demoSolver 2 4 (demoStates (1 / 2) demoStart) := by
  have h := demo_fresh 2 4 (by norm_num) (by norm_num) 0 2 2 (by norm_num) (by norm_num) ⟨emptyDisk, []⟩ rfl
  refine ⟨.inl rfl, by decide, demo_saves, demo_init 10 20 30 _, ?_, ?_, ?_, ?_, fun n _ _ => demo_shaped _ _ demoStart_shaped n⟩
  · intro hw' e
    injection e with e
    exact e.symm
  · intro phi e
    injection e with e
    subst e; rfl
  · intro n p _ e
    injection e with e
    exact e.symm
  · intro q s hq hs
    obtain ⟨q', h1, h2⟩ := h.count
    have e : q' = q := by
      have := h1.symm.trans hq
      injection this
    subst e
    have := h2.symm.trans hs
    injection this with this
    rw [← this]
    rfl

example : ∃ g ∈ IOM.crashStates (run demoRunEnv demoArgs) emptyDisk, (g "run.h5").isSome = true := by
  refine ⟨_, List.mem_append_right _ (List.mem_singleton.mpr rfl), ?_⟩
  decide +kernel

/-- the density dataset of the file has a row of zeros -/
def hasZeroRow (g : FS ℚ ℚ) : Bool := match g "run.h5" with
  | some f => match f.dsets "density" with
    | some (.rows _ r) => r.any fun c => match c with
      | .arr A => decide (A.at' 0 0 = 0)
      | .num _ => false
    | _ => false
  | none => false

/-- a row of zeros is the density of no frame of the demo run -/
theorem zero_row_no_frame {A : Arr ℚ} (hA : A.at' 0 0 = 0) {p : NS (Cell ℚ)} {c : ℚ} (hc : 1 ≤ c)
    (hp : p.get? "density" = some (.arr (demoField c))) :
    ¬ IsFrameRow demoRunEnv (1 : ℚ) "density" (0 : ℚ) p (.arr A) := by
  intro hrow
  unfold IsFrameRow at hrow
  rw [if_neg (by decide)] at hrow
  obtain ⟨A', B, h1, h2, h3⟩ := hrow
  rw [hp] at h1
  injection h1 with h1
  injection h1 with h1
  have h4 : (Cell.arr A' : Cell ℚ) = .arr B := by
    unfold recordedValue downsampling at h2
    rw [if_neg (by simp [FloatOps.eq, FloatOps.ofInt])] at h2
    injection h2
  injection h4 with h4
  injection h3 with h3
  rw [h3, ← h4, ← h1] at hA
  have : ((demoField c).map (Casts.f32 : ℚ → ℚ)).at' 0 0 = (⌊100 * c⌋ : ℚ) / 100 := by
    unfold demoField
    rw [Arr.map_tab, Arr.tab_at' _ _ _ (by decide) (by decide)]
    simp [Casts.f32]
  rw [this] at hA
  have h5 : (⌊100 * c⌋ : ℚ) = 0 := by linarith
  have h6 : (100 : ℤ) ≤ ⌊100 * c⌋ := Int.le_floor.mpr (by push_cast; linarith)
  have h7 : ⌊100 * c⌋ = 0 := by exact_mod_cast h5
  omega

theorem zero_row_of {g : FS ℚ ℚ} (hz : hasZeroRow g = true) :
    ∃ f s r A, g "run.h5" = some f ∧ f.dsets "density" = some (.rows s r) ∧ Cell.arr A ∈ r ∧ A.at' 0 0 = 0 := by
  unfold hasZeroRow at hz
  cases hf : g "run.h5" with
  | none => rw [hf] at hz; cases hz
  | some f =>
    rw [hf] at hz
    simp only at hz
    cases hd : f.dsets "density" with
    | none => rw [hd] at hz; cases hz
    | some d =>
      rw [hd] at hz
      cases d with
      | full a => cases hz
      | flat v => cases hz
      | rows s r =>
        simp only [List.any_eq_true] at hz
        obtain ⟨row, hr, h0⟩ := hz
        cases row with
        | num x => cases h0
        | arr A => exact ⟨f, s, r, A, rfl, hd, hr, by simpa using h0⟩

/-- **C83 is violated**: a crash between the enlargement of a dataset and the
writing of the rows leaves rows of zeros, which are the density of no frame. -/
theorem C83_zero_rows_violated :
    ∃ g ∈ IOM.crashStates (run demoRunEnv demoArgs) emptyDisk, ∃ f s r row, g "run.h5" = some f ∧
      f.dsets "density" = some (.rows s r) ∧ row ∈ r ∧
      ∀ n, ¬ IsFrameRow demoRunEnv 1 "density" 0 (demoStates (1 / 2) demoStart n) row ∧
        ¬ IsFrameRow demoRunEnv 1 "density" 0 demoArgs.plasma0 row := by
  have h : (IOM.crashStates (run demoRunEnv demoArgs) emptyDisk).any hasZeroRow = true := by decide +kernel
  rw [List.any_eq_true] at h
  obtain ⟨g, hg, hz⟩ := h
  obtain ⟨f, s, r, A, h1, h2, h3, hA⟩ := zero_row_of hz
  exact ⟨g, hg, f, s, r, _, h1, h2, h3, fun n =>
    ⟨zero_row_no_frame hA (c := 10 + n) (by have : (0 : ℚ) ≤ n := Nat.cast_nonneg n; linarith)
      (demoStates_get _ _ 10 _ rfl n), zero_row_no_frame hA (c := 10) (by norm_num) rfl⟩⟩

theorem demo_started_continuation : StartedContinuation demoRunEnv demoCont oldFiles.fs demoOld demoSolver 2
    (demoField 14) (demoField 14) (demoField 14) 2 demoArgs.physics 4 (demoStates (1 / 2) demoLoaded) := by
  have h := demo_continued
  refine ⟨h.file, h.keep, h.cont, h.buffer, h.saves, h.output, h.density, h.omega, h.phi, h.time, h.restored,
    ?_, ?_, ?_, ?_, h.shaped⟩
  · intro hw' e
    exact (Except.ok.inj (h.solver.symm.trans e)).symm
  · intro dxa phi e1 e2
    obtain ⟨phi', dxa', s1, s2, s3⟩ := h.start
    rw [s1] at e1
    injection e1 with e1
    rw [← e1, s2] at e2
    rw [s3, Except.ok.inj e2]
  · intro n p hn e
    exact (Except.ok.inj ((h.traj n hn).symm.trans e)).symm
  · intro q s hq hs
    obtain ⟨q', h1, h2⟩ := h.count
    rw [← Except.ok.inj (h1.symm.trans hq)] at hs
    rw [← Except.ok.inj (h2.symm.trans hs)]
    rfl

/-- **C85 is violated** in the same way when a file is continued. -/
theorem C85_zero_rows_violated :
    ∃ g ∈ IOM.crashStates (run demoRunEnv demoCont) oldFiles.fs, ∃ f s r row, g "run.h5" = some f ∧
      f.dsets "density" = some (.rows s r) ∧ row ∈ r ∧
      ∀ n, ¬ IsFrameRow demoRunEnv 1 "density" 0 (demoStates (1 / 2) demoLoaded n) row := by
  have h : (IOM.crashStates (run demoRunEnv demoCont) oldFiles.fs).any hasZeroRow = true := by decide +kernel
  rw [List.any_eq_true] at h
  obtain ⟨g, hg, hz⟩ := h
  obtain ⟨f, s, r, A, h1, h2, h3, hA⟩ := zero_row_of hz
  exact ⟨g, hg, f, s, r, _, h1, h2, h3, fun n =>
    zero_row_no_frame hA (c := 14 + n) (by have : (0 : ℚ) ≤ n := Nat.cast_nonneg n; linarith)
      (demoStates_get _ _ 14 _ rfl n)⟩

/-- a solver whose steps fail at density 13 -/
def failSolver : Solver ℚ where
  rk4_step p dt dx := match p.get? "density" with
    | some (.arr a) => if a.at' 0 0 = 13 then .error .valueError else demoSolver.rk4_step p dt dx
    | _ => .error .typeError
  get_phi := demoSolver.get_phi

/-- the same environment with this solver -/
def failEnv : Env ℚ ℚ := { demoRunEnv with HW := fun _ => .ok failSolver }

theorem fail_run (L : ℕ) (hL : 1 ≤ L) : FailingRun failEnv { demoArgs with buffer_length := L, snaps := 1 } ⟨emptyDisk, []⟩
    failSolver 2 4 3 (demoStates (1 / 2) demoStart) .valueError where
  path := by simp [demoArgs]
  fresh := .inl rfl
  buffer := hL
  snaps := le_refl 1
  saves := ⟨demo_saves.dim, demo_saves.down⟩
  init := demo_init 10 20 30 _
  solver := rfl
  start := ⟨_, rfl, rfl⟩
  count := (demo_fresh 2 4 (by norm_num) (by norm_num) 0 2 2 (by norm_num) (by norm_num) ⟨emptyDisk, []⟩ rfl).count
  traj := by
    intro n hn
    unfold failSolver
    simp only [demoStates_get (1 / 2) demoStart 10 "density" rfl n, demoField_corner]
    rw [if_neg]
    · rfl
    · have : (n : ℚ) < 3 := by exact_mod_cast hn
      intro h; linarith
  shaped := fun n _ _ => demo_shaped _ _ demoStart_shaped n
  noNaN := by
    intro n _ hn
    have h := demo_noNaN (1 / 2) demoStart 10 rfl n
    have : nanState failEnv (demoStates (1 / 2) demoStart n) = nanState demoRunEnv (demoStates (1 / 2) demoStart n) := rfl
    rw [this, h, decide_eq_false_iff_not]
    have : (n : ℚ) ≤ 3 := by exact_mod_cast hn
    intro h; linarith
  early := by decide
  error := by
    unfold failSolver
    simp only [demoStates_get (1 / 2) demoStart 10 "density" rfl 3, demoField_corner]
    rw [if_pos (by norm_num)]

-- four frames are recorded before the failure; with a buffer of length 3 one of them is lost
example : (run failEnv { demoArgs with buffer_length := 3, snaps := 1 } ⟨emptyDisk, []⟩).1 = .error .valueError :=
  (C84_exception_partial (fail_run 3 (by norm_num))).1

example : (frames { demoArgs with buffer_length := 3, snaps := 1 } (demoStates (1 / 2) demoStart) 3).length = 4 := by
  decide +kernel

example (g : FS ℚ ℚ) (hg : g ∈ IOM.crashStates (run demoRunEnv demoArgs) emptyDisk) := C83_crash_partial demo_started g hg
example (g : FS ℚ ℚ) (hg : g ∈ IOM.crashStates (run demoRunEnv demoCont) oldFiles.fs) :=
  C85_crash_continued_partial demo_started_continuation g hg

example := C84_frames_lost_violated (fail_run 3 (by norm_num)) (by decide +kernel)

end Verif.Props
