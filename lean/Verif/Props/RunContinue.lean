import Verif.Props.Run

/-!
# C48, C49: `run` with `continue_file=True`

`ContinuedRun E a σ f hw ns d o p t0 params steps m S` (see `Spec/Run.lean`)
describes a call of `run` that continues the file `f`, whose last time is `t0`.
-/

set_option linter.unusedSectionVars false

namespace Verif.Props

open H5IO H5 Run

section general

variable {α β : Type} [Casts α β] [Zero α] [Inhabited α] [Inhabited β] [FloatOps α]
variable {E : Env α β} {a : Args α} {σ : St α β} {hw : Solver α} {ns m : ℕ} {steps : ℤ} {S : ℕ → NS (Cell α)}

/-- **C48 is violated**: the times a continued `run` appends are `it * step_size`
for `it = 1, 2, …` — they start again near 0, whatever the last time `t0` in the
file is. -/
theorem C48_time_restarts_violated {f : H5 α β} {d o p : Arr α} {t0 : α} {params : NS (Attr α)}
    (h : ContinuedRun E a σ f hw ns d o p t0 params steps m S) (hp : "time" ∉ a.properties) :
    ∃ f', (run E a σ).2.fs a.output_path = some f' ∧
      f'.dsets "time" = some (.rows .one (f.rowsOf "time" ++
        ((List.range' 1 m).filter (isRecorded a)).map fun it => .num (Casts.f32 (stepTime a it)))) := by
  obtain ⟨f', h1, -, -, -, h2⟩ := continue_result h
  obtain ⟨rows, h3, h4⟩ := h2 "time" (by decide) hp
  refine ⟨f', h1, ?_⟩
  rw [h3]
  unfold rowShape
  rw [if_pos rfl]
  congr 3
  unfold continuedFrames at h4
  rw [List.forall₂_map_left_iff] at h4
  refine List.ext_getElem (by rw [List.length_map]; exact h4.length_eq.symm) fun j j1 j2 => ?_
  rw [List.forall₂_iff_get] at h4
  rw [List.length_map] at j2
  have := h4.2 j j2 j1
  unfold IsFrameRow at this
  rw [if_pos rfl] at this
  rw [List.getElem_map]
  exact this

/-- `restoreParams` of the attributes a fresh run stores -/
theorem restore_runParams (ns : ℕ) (attrs : String → Option (Attr α)) (h : ∀ k, attrs k = (runParams a ns).get? k) :
    restoreParams attrs restoredKeys = .ok a.physics := by
  have key : ∀ k v, a.physics.get? k = some v → k ∈ restoredKeys → attrs k = some v := by
    intro k v hv hk
    rw [h]
    unfold runParams get_save_params
    rw [← hv]
    simp only [restoredKeys, List.mem_cons, List.not_mem_nil, or_false] at hk
    simp only [NS.get?_set]
    rcases hk with rfl | rfl | rfl | rfl | rfl | rfl | rfl <;>
    · iterate 9 rw [if_neg (by decide)]
  simp only [restoredKeys, restoreParams]
  rw [key "dx" _ rfl (by decide), key "N" _ rfl (by decide), key "c1" _ rfl (by decide), key "nu" _ rfl (by decide),
    key "k0" _ rfl (by decide), key "poisson_bracket_coeff" _ rfl (by decide), key "kappa_coeff" _ rfl (by decide)]
  rfl

/-- **C49 (partial).** A file written by a fresh `run` with physics parameters
`a.physics` is continued with a simulation object created from exactly these
parameters, whatever parameters the continuing call is given.  Missing: the
steps use the grid spacing of the continuing call (`C49_dx_violated`), and
`run2` loses `zonal` (`C49_zonal_violated`). -/
theorem C49_params_restored_partial (h : FreshRun E a σ hw ns steps m S) :
    ∃ f, (run E a σ).2.fs a.output_path = some f ∧
      ∀ (a' : Args α) (σ' : St α β) (hw' : Solver α) (ns' m' : ℕ) (steps' : ℤ) (S' : ℕ → NS (Cell α))
        (d o p : Arr α) (t0 : α) (params : NS (Attr α)),
        ContinuedRun E a' σ' f hw' ns' d o p t0 params steps' m' S' →
        params = a.physics ∧ hw' = hw := by
  obtain ⟨f, h1, -, -, h2, -, -⟩ := run_result h
  refine ⟨f, h1, fun a' σ' hw' ns' m' steps' S' d o p t0 params h' => ?_⟩
  have e := restore_runParams (a := a) ns f.attrs h2
  have hp : params = a.physics := by
    have := h'.restored
    rw [e] at this
    exact (Except.ok.inj this).symm
  refine ⟨hp, ?_⟩
  have h3 := h'.solver
  rw [hp, h.solver] at h3
  exact (Except.ok.inj h3).symm

/-- **C49 is violated for the grid spacing**: the steps of a continued `run` are
made with the `dx` computed from the arguments of the continuing call (`grid_pts`,
`k0`), not with the `dx` stored in the file (which `get_phi` uses for the first
potential). -/
theorem C49_dx_violated {f : H5 α β} {d o p : Arr α} {t0 : α} {params : NS (Attr α)}
    (h : ContinuedRun E a σ f hw ns d o p t0 params steps m S) (k : String)
    (hk : k ∈ ["density", "omega", "phi"]) (hp : k ∉ a.properties) :
    ∃ f' rows stored phi, (run E a σ).2.fs a.output_path = some f' ∧
      f'.dsets k = some (.rows (.grid ns ns) (f.rowsOf k ++ rows)) ∧
      params.get? "dx" = some stored ∧ hw.get_phi (.arr o) (E.attrNum stored) = .ok phi ∧
      S 0 = [("density", .arr d), ("omega", .arr o), ("phi", phi), ("age", .num t0)] ∧
      (∀ n < m, hw.rk4_step (S n) a.step_size a.dx = .ok (S (n + 1))) ∧
      List.Forall₂ (fun it row => IsFrameRow E a.downsample_factor k (stepTime a it) (S it) row)
        ((List.range' 1 m).filter (isRecorded a)) rows := by
  obtain ⟨f', h1, -, -, -, h2⟩ := continue_result h
  obtain ⟨rows, h3, h4⟩ := h2 k (List.mem_cons_of_mem _ hk) hp
  obtain ⟨phi, dxa, s1, s2, s3⟩ := h.start
  have hkt : k ≠ "time" := by rintro rfl; simp at hk
  unfold rowShape at h3
  rw [if_neg hkt] at h3
  unfold continuedFrames at h4
  rw [List.forall₂_map_left_iff] at h4
  exact ⟨f', rows, dxa, phi, h1, h3, s1, s2, s3, h.traj, h4⟩

end general

/-! ## non-vacuity -/

/-- a file with three frames at the times 0, 1, 2 -/
def demoOld : H5 ℚ ℚ where
  dsets k :=
    if k = "time" then some (.rows .one [.num 0, .num 1, .num 2])
    else if k ∈ fieldList then
      some (.rows (.grid 2 2) [.arr (demoField 10), .arr (demoField 12), .arr (demoField 14)])
    else if k ∈ ["state_density", "state_omega", "state_phi"] then some (.full (demoField 14))
    else none
  attrs k := (runParams demoArgs 2).get? k

/-- the arguments of a continuing call with another grid spacing -/
def demoCont : Args ℚ := { demoArgs with continue_file := true, end_time := 4, dx := 7 }

/-- state after loading -/
def demoLoaded : NS (Cell ℚ) :=
  [("density", .arr (demoField 14)), ("omega", .arr (demoField 14)), ("phi", .arr ((demoField 14).map (2 * ·))),
    ("age", .num 2)]

theorem demoLoaded_shaped : Shaped 2 demoLoaded := by
  refine ⟨by simp [NS.keys, demoLoaded], fun k hk => ?_⟩
  simp only [fieldList, List.mem_cons, List.not_mem_nil, or_false] at hk
  rcases hk with rfl | rfl | rfl
  · exact ⟨_, rfl, rfl, rfl⟩
  · exact ⟨_, rfl, rfl, rfl⟩
  · exact ⟨_, rfl, rfl, rfl⟩

/-- the stored file -/
def oldFiles : St ℚ ℚ := ⟨fun _ => some demoOld, []⟩

theorem demo_loaded {k : String} (hk : k ∈ fieldList) : loadedValue demoOld k = some (.arr (demoField 14)) := by
  have : demoOld.dsets ("state_" ++ k) = some (.full (demoField 14)) := by
    simp only [fieldList, List.mem_cons, List.not_mem_nil, or_false] at hk
    rcases hk with rfl | rfl | rfl <;> simp [demoOld, fieldList]
  unfold loadedValue
  rw [this]

theorem demo_continued : ContinuedRun demoRunEnv demoCont oldFiles demoOld demoSolver 2 (demoField 14) (demoField 14)
    (demoField 14) 2 demoArgs.physics 4 4 (demoStates (1 / 2) demoLoaded) where
  path := by simp [demoCont, demoArgs]
  file := rfl
  keep := rfl
  cont := rfl
  buffer := by simp [demoCont, demoArgs]
  snaps := by simp [demoCont, demoArgs]
  saves := demo_saves
  output := by
    refine ⟨fun k hk => ?_, fun _ k hk => ?_⟩
    · simp only [fieldList, List.mem_cons, List.not_mem_nil, or_false] at hk
      rcases hk with rfl | rfl | rfl | rfl <;> simp [demoOld, fieldList, rowShape]
    · simp only [fieldList, List.mem_cons, List.not_mem_nil, or_false] at hk
      rcases hk with rfl | rfl | rfl <;>
        exact ⟨demoField 14, by simp [demoOld, fieldList], rfl, rfl⟩
  density := demo_loaded (by decide)
  omega := demo_loaded (by decide)
  phi := demo_loaded (by decide)
  time := ⟨_, _, by simp [demoOld]; rfl, rfl, rfl⟩
  restored := restore_runParams (a := demoArgs) 2 _ fun _ => rfl
  noNaN := by simp only [demoRunEnv, demoField_corner]; norm_num
  nonzero := by simp only [demoRunEnv, demoField_corner]; norm_num
  solver := rfl
  start := ⟨_, _, rfl, rfl, rfl⟩
  count := by
    refine ⟨4, ?_, ?_⟩
    · simp only [FloatOps.div, FloatOps.sub, demoCont, demoArgs]
      norm_num
    · simp only [FloatOps.toInt, truncZ]
      norm_num
  traj := demo_step _ _ _ _
  shaped := fun n _ _ => demo_shaped _ _ demoLoaded_shaped n
  stops := by
    refine ⟨fun j h1 h2 => ?_, .inl (by simp)⟩
    rw [demo_noNaN _ _ 14 rfl j, decide_eq_false_iff_not]
    have : (j : ℚ) < 4 := by exact_mod_cast h2
    intro h; linarith

/-- C48 concretely: the file with the times 0, 1, 2 is continued to time 4; the
times are then 0, 1, 2, 1, 2. -/
theorem C48_demo_violated : ∃ f', (run demoRunEnv demoCont oldFiles).2.fs demoCont.output_path = some f' ∧
    f'.dsets "time" = some (.rows .one [.num 0, .num 1, .num 2, .num 1, .num 2]) := by
  obtain ⟨f', h1, h2⟩ := C48_time_restarts_violated demo_continued (by simp [demoCont, demoArgs])
  refine ⟨f', h1, ?_⟩
  rw [h2]
  have e1 : demoOld.rowsOf "time" = [.num 0, .num 1, .num 2] := by simp [H5.rowsOf, demoOld]
  have e2 : (List.range' 1 4).filter (isRecorded demoCont) = [2, 4] := by
    simp [isRecorded, FloatOps.le, FloatOps.ofInt, stepTime, FloatOps.mul, demoCont, demoArgs, List.range']
  rw [e1, e2]
  simp only [List.map_cons, List.map_nil, stepTime, FloatOps.mul, FloatOps.ofInt, demoCont, demoArgs, Casts.f32,
    List.cons_append, List.nil_append]
  norm_num

/-- the file is written with `dx = 1`, the continuing call steps with `dx = 7` -/
example := C49_dx_violated demo_continued "omega" (by simp) (by simp [demoCont, demoArgs])

example := C49_params_restored_partial demo_fresh4

/-- a file written by `run` with these parameters can be continued -/
example : demoOld.attrs "nu" = some (.num demoArgs.nu) ∧ demoArgs.physics.get? "dx" = some (.num 1) ∧ demoCont.dx = 7 :=
  ⟨rfl, rfl, rfl⟩

end Verif.Props
