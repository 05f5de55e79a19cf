import Verif.Lemmas.Run2File
import Verif.Props.RunContinue

/-!
# C43, C45, C46, C49–C55, C58 for `run2`

`FreshRun2 E a σ hw ns m S` (see `Spec/Run2.lean`) describes a call of `run2`
that creates the file: `S n` is the state after `n` steps, `m` the number of
steps until the loop is left.  `run2 E a fuel σ` is the call with at most `fuel`
tests of the loop condition; the value `.ok none` means that this was not
enough.  Arithmetic on times, the physics, the downsampling, the property
functions and the storage conversion are arbitrary, unless exact arithmetic is
mentioned.
-/

set_option linter.unusedSectionVars false

namespace Verif.Props

open H5IO H5 Run Run2

section general

variable {α β : Type} [Casts α β] [Zero α] [Inhabited α] [Inhabited β] [FloatOps α]
variable {E : Env2 α β} {a : Args2 α} {σ : St α β} {hw : Solver α} {ns m fuel : ℕ} {S : ℕ → NS (Cell α)}

/-! ## C52 -/

/-- **C52 (partial).** If the run ends after `recording_start_time`, every
recorded frame is in the file when `run2` returns: the rows of each dataset are
exactly those of the frames, including the property values.  Missing: runs that
end at (or before) `recording_start_time` (`C52_lost_frames_violated`). -/
theorem C52_all_written_partial (h : FreshRun2 E a σ hw ns m S) (hfuel : m < fuel)
    (hend : FloatOps.lt a.recording_start_time (timeAt E a (FloatOps.ofInt 0) m) = true) :
    ∃ f, (run2 E a fuel σ).2.fs a.output_path = some f ∧ (run2 E a fuel σ).1 ≠ .ok none ∧
      (∀ k ∈ ["time", "density", "omega", "phi"], k ∉ a.properties → ∃ rows,
        f.dsets k = some (.rows (rowShape ns k) rows) ∧
        List.Forall₂ (fun fr row => IsFrameRow E.toEnv a.downsample_factor k fr.1 fr.2 row) (frames2 E a S m) rows) ∧
      (∀ name ∈ a.properties, "fullres_" ++ name ∉ a.properties → ∃ rows,
        f.dsets ("fullres_" ++ name) = some (.rows .one rows) ∧
        List.Forall₂ (fun fr row => ∃ x, IsPropValue E a name fr.2 x ∧ row = .num (Casts.f32 x))
          (frames2 E a S m) rows) := by
  obtain ⟨f, h1, -, h2, -, -, h3, h4, -⟩ := run2_result h hfuel
  unfold written2 flushes2 at h3 h4
  simp only [hend, if_true] at h3 h4
  exact ⟨f, h1, h2, h3, h4⟩

/-- the same for a continued file -/
theorem C52_all_written_continued_partial {f : H5 α β} {d o p : Arr α} {t0 : α} {params : NS (Attr α)}
    (h : ContinuedRun2 E a σ f hw ns d o p t0 params m S) (hfuel : m < fuel)
    (hend : FloatOps.lt a.recording_start_time (timeAt E a t0 m) = true) :
    ∃ f', (run2 E a fuel σ).2.fs a.output_path = some f' ∧ (run2 E a fuel σ).1 ≠ .ok none ∧
      (∀ k ∈ ["time", "density", "omega", "phi"], k ∉ a.properties → ∃ rows,
        f'.dsets k = some (.rows (rowShape ns k) (f.rowsOf k ++ rows)) ∧
        List.Forall₂ (fun fr row => IsFrameRow E.toEnv a.downsample_factor k fr.1 fr.2 row)
          (stepFrames2 E a t0 S m) rows) ∧
      (∀ name ∈ a.properties, "fullres_" ++ name ∉ a.properties → ∃ rows,
        f'.dsets ("fullres_" ++ name) = some (.rows .one (f.rowsOf ("fullres_" ++ name) ++ rows)) ∧
        List.Forall₂ (fun fr row => ∃ x, IsPropValue E a name fr.2 x ∧ row = .num (Casts.f32 x))
          (stepFrames2 E a t0 S m) rows) := by
  obtain ⟨f, h1, -, h2, -, -, h3, h4⟩ := continue2_result h hfuel
  unfold written2 flushes2 at h3 h4
  simp only [hend, if_true] at h3 h4
  exact ⟨f, h1, h2, h3, h4⟩

/-- **C52 is violated** when the final time is not greater than
`recording_start_time`: the last `n % buffer_length` of the `n` recorded frames
are missing in the file. -/
theorem C52_lost_frames_violated (h : FreshRun2 E a σ hw ns m S) (hfuel : m < fuel)
    (hend : FloatOps.lt a.recording_start_time (timeAt E a (FloatOps.ofInt 0) m) = false)
    (k : String) (hk : k ∈ ["time", "density", "omega", "phi"]) (hp : k ∉ a.properties) :
    ∃ f rows, (run2 E a fuel σ).2.fs a.output_path = some f ∧ f.dsets k = some (.rows (rowShape ns k) rows) ∧
      rows.length + (frames2 E a S m).length % a.buffer_length = (frames2 E a S m).length := by
  obtain ⟨f, h1, -, -, -, -, h3, -, -⟩ := run2_result h hfuel
  obtain ⟨rows, h4, h5⟩ := h3 k hk hp
  refine ⟨f, rows, h1, h4, ?_⟩
  unfold written2 flushes2 at h5
  simp only [hend] at h5
  have := h5.length_eq
  simp only [Bool.false_eq_true, if_false, List.length_take] at this
  have hdm := Nat.div_add_mod (frames2 E a S m).length a.buffer_length
  rw [Nat.min_eq_left (by omega)] at this
  omega

/-! ## C45, C43, C46 -/

/-- **C45 for `run2` (partial).** With a recording start time other than 0, and
smaller than the final time, exactly the states after the steps `it` with
`recording_start_time ≤ t_it` and `snaps ∣ it` are written, in order. -/
theorem C45_run2_partial (h : FreshRun2 E a σ hw ns m S) (hfuel : m < fuel)
    (h0 : FloatOps.eq a.recording_start_time (FloatOps.ofInt 0) = false)
    (hend : FloatOps.lt a.recording_start_time (timeAt E a (FloatOps.ofInt 0) m) = true)
    (k : String) (hk : k ∈ ["time", "density", "omega", "phi"]) (hp : k ∉ a.properties) :
    ∃ f rows, (run2 E a fuel σ).2.fs a.output_path = some f ∧ f.dsets k = some (.rows (rowShape ns k) rows) ∧
      List.Forall₂ (fun it row => IsFrameRow E.toEnv a.downsample_factor k (timeAt E a (FloatOps.ofInt 0) it) (S it) row)
        ((List.range' 1 m).filter fun it =>
          FloatOps.le a.recording_start_time (timeAt E a (FloatOps.ofInt 0) it) && decide (a.snaps ∣ it)) rows := by
  obtain ⟨f, h1, -, h3, -⟩ := C52_all_written_partial h hfuel hend
  obtain ⟨rows, h3, h4⟩ := h3 k hk hp
  refine ⟨f, rows, h1, h3, ?_⟩
  unfold frames2 stepFrames2 at h4
  rw [h0] at h4
  simp only [Bool.false_eq_true, if_false, List.nil_append, List.forall₂_map_left_iff] at h4
  convert h4 using 3 with it
  unfold isRecorded2
  by_cases hd : it % a.snaps = 0 <;> simp [hd, Nat.dvd_iff_mod_eq_zero]

/-- **C43 for `run2` (partial).** -/
theorem C43_run2_partial (h : FreshRun2 E a σ hw ns m S) (hfuel : m < fuel) (hst : a.saveState = true)
    (hn : frames2 E a S m ≠ []) (hd : a.buffer_length ∣ (frames2 E a S m).length) (k : String) (hk : k ∈ fieldList)
    (hp : "state_" ++ k ∉ a.properties) :
    ∃ f A, (run2 E a fuel σ).2.fs a.output_path = some f ∧ f.dsets ("state_" ++ k) = some (.full A) ∧
      ((frames2 E a S m).getLast hn).2.get? k = some (.arr A) := by
  obtain ⟨f, h1, -, -, -, -, -, -, h2⟩ := run2_result h hfuel
  obtain ⟨A, h3, -, -, -, h4⟩ := h2 hst k hk hp
  refine ⟨f, A, h1, h3, ?_⟩
  have hpos : 0 < (frames2 E a S m).length := List.length_pos_iff.mpr hn
  refine h4 _ (Nat.le_of_dvd hpos hd) ?_
  rw [Nat.mul_div_cancel' hd, List.getElem?_eq_getElem (by omega), List.getLast_eq_getElem]

/-- **C43 is violated** by `run2` in all other cases, as by `run`. -/
theorem C43_run2_violated (h : FreshRun2 E a σ hw ns m S) (hfuel : m < fuel) (hst : a.saveState = true)
    (hd : ¬ a.buffer_length ∣ (frames2 E a S m).length) (k : String) (hk : k ∈ fieldList)
    (hp : "state_" ++ k ∉ a.properties) :
    ∃ f A, (run2 E a fuel σ).2.fs a.output_path = some f ∧ f.dsets ("state_" ++ k) = some (.full A) ∧
      ((frames2 E a S m).length < a.buffer_length → A = Arr.tab a.grid_pts a.grid_pts fun _ _ => 0) ∧
      (a.buffer_length ≤ (frames2 E a S m).length → ∃ x,
        (frames2 E a S m)[a.buffer_length * ((frames2 E a S m).length / a.buffer_length) - 1]? = some x ∧
        a.buffer_length * ((frames2 E a S m).length / a.buffer_length) - 1 + 1 < (frames2 E a S m).length ∧
        x.2.get? k = some (.arr A)) := by
  obtain ⟨f, h1, -, -, -, -, -, -, h2⟩ := run2_result h hfuel
  obtain ⟨A, h3, -, -, h5, h4⟩ := h2 hst k hk hp
  refine ⟨f, A, h1, h3, h5, fun hle => ?_⟩
  have hL := h.buffer
  have hdm := Nat.div_add_mod (frames2 E a S m).length a.buffer_length
  have hmod : (frames2 E a S m).length % a.buffer_length ≠ 0 := fun e => hd (Nat.dvd_of_mod_eq_zero e)
  have hq : 1 ≤ (frames2 E a S m).length / a.buffer_length := (Nat.one_le_div_iff hL).mpr hle
  have := Nat.mul_le_mul_left a.buffer_length hq
  have hlt : a.buffer_length * ((frames2 E a S m).length / a.buffer_length) - 1 < (frames2 E a S m).length := by omega
  exact ⟨_, List.getElem?_eq_getElem hlt, by omega, h4 _ hle (List.getElem?_eq_getElem hlt)⟩

/-! ## C46 -/

/-- For a solver whose steps return consistent states, every recorded frame
after a step is consistent. -/
theorem later_frames2 (h : FreshRun2 E a σ hw ns m S) (hfuel : m < fuel)
    (hend : FloatOps.lt a.recording_start_time (timeAt E a (FloatOps.ofInt 0) m) = true)
    (hc : ∀ s s', hw.rk4_step s a.step_size a.dx = .ok s' → PhiOk hw a.dx s')
    (hp : "omega" ∉ a.properties ∧ "phi" ∉ a.properties) :
    ∃ f ro rp, (run2 E a fuel σ).2.fs a.output_path = some f ∧ f.dsets "omega" = some (.rows (.grid ns ns) ro) ∧
      f.dsets "phi" = some (.rows (.grid ns ns) rp) ∧ ro.length = rp.length ∧
      ∀ j (h1 : j < ro.length) (h2 : j < rp.length),
        (j ≠ 0 ∨ FloatOps.eq a.recording_start_time (FloatOps.ofInt 0) = false) →
        ∃ t s, PhiOk hw a.dx s ∧ IsFrameRow E.toEnv a.downsample_factor "omega" t s ro[j] ∧
          IsFrameRow E.toEnv a.downsample_factor "phi" t s rp[j] := by
  obtain ⟨f, h1, -, h2, -⟩ := C52_all_written_partial h hfuel hend
  obtain ⟨ro, g1, g2⟩ := h2 "omega" (by decide) hp.1
  obtain ⟨rp, g3, g4⟩ := h2 "phi" (by decide) hp.2
  refine ⟨f, ro, rp, h1, g1, g3, by rw [← g2.length_eq, g4.length_eq], fun j j1 j2 hj => ?_⟩
  have l1 : j < (frames2 E a S m).length := by rw [g2.length_eq]; exact j1
  rw [List.forall₂_iff_get] at g2 g4
  refine ⟨(frames2 E a S m)[j].1, (frames2 E a S m)[j].2, ?_, g2.2 j l1 j1, g4.2 j l1 j2⟩
  have hmem : ∃ it, 1 ≤ it ∧ it ≤ m ∧ (frames2 E a S m)[j].2 = S it := by
    have hfr : (frames2 E a S m)[j] ∈
        ((List.range' 1 m).filter (isRecorded2 E a (FloatOps.ofInt 0))).map fun it => (timeAt E a (FloatOps.ofInt 0) it, S it) := by
      unfold frames2 stepFrames2
      by_cases h0 : FloatOps.eq a.recording_start_time (FloatOps.ofInt 0) = true
      · have hj0 : j ≠ 0 := hj.resolve_right (by rw [h0]; simp)
        obtain ⟨j, rfl⟩ := Nat.exists_eq_succ_of_ne_zero hj0
        simp only [h0, if_true, List.singleton_append, List.getElem_cons_succ]
        exact List.getElem_mem _
      · simp only [h0, Bool.false_eq_true, if_false, List.nil_append]
        exact List.getElem_mem _
    obtain ⟨it, hit, e⟩ := List.mem_map.mp hfr
    rw [List.mem_filter, List.mem_range'_1] at hit
    exact ⟨it, by omega, by omega, by rw [← e]⟩
  obtain ⟨it, i1, i2, e⟩ := hmem
  rw [e]
  obtain ⟨it, rfl⟩ : ∃ n, it = n + 1 := ⟨it - 1, by omega⟩
  exact hc _ _ (h.traj it (by omega))

/-- **C46 is violated by the first frame**: it stores the initial potential
`phi0` as it was given (random noise), not the potential of `omega0`. -/
theorem C46_run2_violated (h : FreshRun2 E a σ hw ns m S) (hfuel : m < fuel)
    (hend : FloatOps.lt a.recording_start_time (timeAt E a (FloatOps.ofInt 0) m) = true)
    (h0 : FloatOps.eq a.recording_start_time (FloatOps.ofInt 0) = true)
    (hp : "omega" ∉ a.properties ∧ "phi" ∉ a.properties) :
    ∃ f ro rp, (run2 E a fuel σ).2.fs a.output_path = some f ∧
      f.dsets "omega" = some (.rows (.grid ns ns) ro) ∧ f.dsets "phi" = some (.rows (.grid ns ns) rp) ∧
      ∃ A B A' B' : Arr α, a.omega0 = .arr A ∧ recordedValue E.toEnv a.downsample_factor (.arr A) = .ok (.arr B) ∧
        ro[0]? = some (.arr (B.map Casts.f32)) ∧
        a.phi0 = .arr A' ∧ recordedValue E.toEnv a.downsample_factor (.arr A') = .ok (.arr B') ∧
        rp[0]? = some (.arr (B'.map Casts.f32)) := by
  obtain ⟨f, h1, -, h2, -⟩ := C52_all_written_partial h hfuel hend
  obtain ⟨ro, g1, g2⟩ := h2 "omega" (by decide) hp.1
  obtain ⟨rp, g3, g4⟩ := h2 "phi" (by decide) hp.2
  unfold frames2 stepFrames2 at g2 g4
  rw [if_pos h0, List.singleton_append, List.forall₂_cons_left_iff] at g2 g4
  obtain ⟨r1, l1, p1, -, rfl⟩ := g2
  obtain ⟨r2, l2, p2, -, rfl⟩ := g4
  refine ⟨f, _, _, h1, g1, g3, ?_⟩
  unfold IsFrameRow at p1 p2
  rw [if_neg (by decide)] at p1 p2
  obtain ⟨A, B, q1, q2, rfl⟩ := p1
  obtain ⟨A', B', q3, q4, rfl⟩ := p2
  have e1 : a.plasma0.get? "omega" = some a.omega0 := rfl
  have e2 : a.plasma0.get? "phi" = some a.phi0 := rfl
  rw [e1] at q1
  rw [e2] at q3
  injection q1 with q1
  injection q3 with q3
  exact ⟨A, B, A', B', q1, q2, rfl, q3, q4, rfl⟩

/-! ## C51 -/

/-- **C51 for `run2` (partial).** Suppose the state after step `m` is a recorded
one, its density contains a NaN, and this is not so for an earlier recorded
state.  Then `run2` stops there, and the recorded states up to step `m` are in
the file.  Missing: NaNs between two recorded states do not stop the run
(`C51_run2_violated`). -/
theorem C51_run2_partial (h : FreshRun2 E a σ hw ns m S) (hfuel : m < fuel)
    (_hrec : isRecorded2 E a (FloatOps.ofInt 0) m = true) (_hnan : nanState E.toEnv (S m) = true)
    (hend : FloatOps.lt a.recording_start_time (timeAt E a (FloatOps.ofInt 0) m) = true) :
    ∃ f, (run2 E a fuel σ).2.fs a.output_path = some f ∧ (run2 E a fuel σ).1 ≠ .ok none ∧
      ∀ k ∈ ["time", "density", "omega", "phi"], k ∉ a.properties → ∃ rows,
        f.dsets k = some (.rows (rowShape ns k) rows) ∧
        List.Forall₂ (fun fr row => IsFrameRow E.toEnv a.downsample_factor k fr.1 fr.2 row) (frames2 E a S m) rows := by
  obtain ⟨f, h1, h2, h3, -⟩ := C52_all_written_partial h hfuel hend
  exact ⟨f, h1, h2, h3⟩

/-- **C51 is violated by `run2`**: a NaN after step `j` does not stop the run if
step `j` is not recorded; the run goes on and records later states. -/
theorem C51_run2_violated (h : FreshRun2 E a σ hw ns m S) (hfuel : m < fuel) (j : ℕ) (_hj : j < m)
    (_hnan : nanState E.toEnv (S j) = true) (_hrec : isRecorded2 E a (FloatOps.ofInt 0) j = false)
    (hend : FloatOps.lt a.recording_start_time (timeAt E a (FloatOps.ofInt 0) m) = true)
    (it : ℕ) (hit : j < it ∧ it ≤ m) (hrec : isRecorded2 E a (FloatOps.ofInt 0) it = true)
    (hp : "density" ∉ a.properties) :
    ∃ f rows row, (run2 E a fuel σ).2.fs a.output_path = some f ∧
      f.dsets "density" = some (.rows (.grid ns ns) rows) ∧ row ∈ rows ∧
      IsFrameRow E.toEnv a.downsample_factor "density" (timeAt E a (FloatOps.ofInt 0) it) (S it) row := by
  obtain ⟨f, h1, -, h3, -⟩ := C52_all_written_partial h hfuel hend
  obtain ⟨rows, h4, h5⟩ := h3 "density" (by simp) hp
  have hmem : (timeAt E a (FloatOps.ofInt 0) it, S it) ∈ frames2 E a S m := by
    unfold frames2 stepFrames2
    refine List.mem_append_right _ (List.mem_map.mpr ⟨it, ?_, rfl⟩)
    rw [List.mem_filter, List.mem_range'_1]
    exact ⟨by omega, hrec⟩
  obtain ⟨n, hn, e⟩ := List.mem_iff_getElem.mp hmem
  rw [List.forall₂_iff_get] at h5
  have := h5.2 n hn (by rw [← h5.1]; exact hn)
  simp only [List.get_eq_getElem, e] at this
  exact ⟨f, rows, _, h1, h4, List.getElem_mem _, this⟩

/-! ## C50, C55 -/

/-- **C50 for `run2`.** -/
theorem C50_run2_protected (hpath : a.output_path ≠ "") (hf : (σ.fs a.output_path).isSome = true)
    (h1 : a.force_recompute = false) (h2 : a.continue_file = false) (hsn : 1 ≤ a.snaps)
    (hearly : ∃ q z, FloatOps.div a.end_time a.step_size = .ok q ∧ FloatOps.toInt q = .ok z) :
    (run2 E a fuel σ).2 = σ ∧
      (∀ n, saveDim a.grid_pts a.downsample_factor = .ok n → (run2 E a fuel σ).1 = .ok (some ())) := by
  obtain ⟨q, z, hq, hz⟩ := hearly
  have hl : ∀ {X : Type} (x : X), (IOM.lift (.ok x) : IOM α β X) σ = (.ok x, σ) := fun _ => rfl
  have key : run2 E a fuel σ = (match saveDim a.grid_pts a.downsample_factor with
      | .ok _ => (.ok (some ()), σ)
      | .error e => (.error e, σ)) := by
    unfold run2
    rw [hq, IOM.bind_ok (hl q), hz, IOM.bind_ok (hl z), if_neg (by omega), if_neg hpath]
    cases hs : saveDim a.grid_pts a.downsample_factor with
    | error e =>
      have : setup2 E a σ = (.error e, σ) := by
        unfold setup2
        rw [hs]; rfl
      rw [IOM.bind_error this]
    | ok n =>
      have : setup2 E a σ = (.ok none, σ) := by
        unfold setup2
        rw [hs]
        rw [IOM.bind_ok (hl n), IOM.bind_ok (hl n)]
        have hi : (isFile a.output_path : IOM α β Bool) σ = (.ok (σ.fs a.output_path).isSome, σ) := rfl
        rw [IOM.bind_ok hi, hf, h1, h2]
        rfl
      rw [IOM.bind_ok this]
      rfl
  rw [key]
  constructor
  · split <;> rfl
  · intro n hn
    rw [hn]

/-- **C55 is violated** by `run2`, too. -/
theorem C55_run2_violated (h : a.output_path = "") (hsn : 1 ≤ a.snaps)
    (hearly : ∃ q z, FloatOps.div a.end_time a.step_size = .ok q ∧ FloatOps.toInt q = .ok z) :
    run2 E a fuel σ = (.error (.unboundLocalError "save_params"), σ) := by
  obtain ⟨q, z, hq, hz⟩ := hearly
  have hl : ∀ {X : Type} (x : X), (IOM.lift (.ok x) : IOM α β X) σ = (.ok x, σ) := fun _ => rfl
  unfold run2
  rw [hq, IOM.bind_ok (hl q), hz, IOM.bind_ok (hl z), if_neg (by omega), if_pos h]
  rfl

/-! ## C54 -/

/-- **C54 is violated**: suppose `n` steps succeed (and the end is not reached)
and the next `rk4_step` raises any exception other than a `BaseException` like
`KeyboardInterrupt`.  Then the exception is not reported: `run2` neither raises
nor returns, however many iterations it makes. -/
theorem C54_never_reported_violated {n : ℕ} (h : FreshCall2 E a σ hw ns S) (hT : Trajectory hw a.step_size a.dx n S)
    (hS : ∀ j, 1 ≤ j → j ≤ n → Shaped a.grid_pts (S j))
    (hB : ∀ j ≤ n, FloatOps.lt (FloatOps.round4 (timeAt E a (FloatOps.ofInt 0) j)) a.end_time = true)
    (hN : ∀ j, 1 ≤ j → j ≤ n → isRecorded2 E a (FloatOps.ofInt 0) j = true → nanState E.toEnv (S j) = false)
    {e : PyErr} (he : hw.rk4_step (S n) a.step_size a.dx = .error e) (hne : ∀ msg, e ≠ .baseException msg) (fuel : ℕ) :
    (run2 E a fuel σ).1 = .ok none := by
  by_cases hle : fuel ≤ n
  · obtain ⟨σ', buf, i, hx⟩ := run2_reach h (fun j hj => hT j (by omega)) (fun j h1 h2 => hS j h1 (by omega))
      (fun j hj => hB j (by omega)) (fun j h1 h2 => hN j h1 (by omega)) (n := fuel) 0
    have := (hx (.ok none) σ' rfl).1 rfl
    rw [Nat.zero_add] at this
    rw [this]
  · obtain ⟨σ', buf, i, hx⟩ := run2_reach h hT hS (fun j hj => hB j (by omega)) hN (fuel - n)
    have hloop : ∀ k, loop2 E hw a (FloatOps.ofInt 0) k (loopState E a (FloatOps.ofInt 0) S n buf i) σ' = (.ok none, σ') := by
      intro k
      induction k with
      | zero => rfl
      | succ k ih =>
        rw [loop2, if_pos (by simp only [loopState]; exact hB n le_rfl)]
        have hrk : hw.rk4_step (loopState E a (FloatOps.ofInt 0) S n buf i).plasma a.step_size a.dx = .error e := he
        rw [hrk]
        cases e with
        | baseException msg => exact absurd rfl (hne msg)
        | _ => exact ih
    have := (hx (.ok none) σ' (hloop _)).1 rfl
    rw [Nat.sub_add_cancel (by omega)] at this
    rw [this]

/-- **C54 (partial).** A `BaseException` that is not an `Exception` is reported. -/
theorem C54_base_exception_partial {n : ℕ} (h : FreshCall2 E a σ hw ns S) (hT : Trajectory hw a.step_size a.dx n S)
    (hS : ∀ j, 1 ≤ j → j ≤ n → Shaped a.grid_pts (S j))
    (hB : ∀ j ≤ n, FloatOps.lt (FloatOps.round4 (timeAt E a (FloatOps.ofInt 0) j)) a.end_time = true)
    (hN : ∀ j, 1 ≤ j → j ≤ n → isRecorded2 E a (FloatOps.ofInt 0) j = true → nanState E.toEnv (S j) = false)
    {msg : String} (he : hw.rk4_step (S n) a.step_size a.dx = .error (.baseException msg)) (hfuel : n < fuel) :
    (run2 E a fuel σ).1 = .error (.baseException msg) := by
  obtain ⟨σ', buf, i, hx⟩ := run2_reach h hT hS (fun j hj => hB j (by omega)) hN (fuel - n)
  have hloop : loop2 E hw a (FloatOps.ofInt 0) (fuel - n) (loopState E a (FloatOps.ofInt 0) S n buf i) σ'
      = (.error (.baseException msg), σ') := by
    obtain ⟨k, hk⟩ : ∃ k, fuel - n = k + 1 := ⟨fuel - n - 1, by omega⟩
    rw [hk, loop2, if_pos (by simp only [loopState]; exact hB n le_rfl)]
    have hrk : hw.rk4_step (loopState E a (FloatOps.ofInt 0) S n buf i).plasma a.step_size a.dx
        = .error (.baseException msg) := he
    rw [hrk]
    rfl
  have := (hx _ σ' hloop).2 _ rfl
  rw [Nat.sub_add_cancel (by omega)] at this
  rw [this]

/-! ## C49 -/

/-- **C49 is violated by `run2` for `zonal`**: the value is stored in the file,
but it is not among the parameters with which the simulation is created again;
`HW` then uses its default `False`. -/
theorem C49_zonal_violated (h : FreshRun2 E a σ hw ns m S) (hfuel : m < fuel) :
    ∃ f, (run2 E a fuel σ).2.fs a.output_path = some f ∧ f.attrs "zonal" = some (.bool a.zonal) ∧
      ∀ (a' : Args2 α) (σ' : St α β) (hw' : Solver α) (ns' m' : ℕ) (S' : ℕ → NS (Cell α))
        (d o p : Arr α) (t0 : α) (params : NS (Attr α)),
        ContinuedRun2 E a' σ' f hw' ns' d o p t0 params m' S' →
        params.get? "zonal" = none ∧ (∀ k, k ≠ "zonal" → params.get? k = a.physics2.get? k) ∧
        E.HW params = .ok hw' := by
  obtain ⟨f, h1, -, -, -, h2, -⟩ := run2_result h hfuel
  have key : ∀ k v, a.physics2.get? k = some v → k ∈ "zonal" :: restoredKeys → f.attrs k = some v := by
    intro k v hv hk
    rw [h2]
    unfold runParams2 get_save_params
    rw [← hv]
    simp only [restoredKeys, List.mem_cons, List.not_mem_nil, or_false] at hk
    simp only [NS.get?_set]
    rcases hk with rfl | rfl | rfl | rfl | rfl | rfl | rfl | rfl <;>
    · iterate 9 rw [if_neg (by decide)]
  refine ⟨f, h1, key "zonal" _ rfl (by decide), fun a' σ' hw' ns' m' S' d o p t0 params h' => ?_⟩
  have e : restoreParams f.attrs restoredKeys = .ok a.toArgs.physics := by
    simp only [restoredKeys, restoreParams]
    rw [key "dx" _ rfl (by decide), key "N" _ rfl (by decide), key "c1" _ rfl (by decide), key "nu" _ rfl (by decide),
      key "k0" _ rfl (by decide), key "poisson_bracket_coeff" _ rfl (by decide), key "kappa_coeff" _ rfl (by decide)]
    rfl
  have hp : params = a.toArgs.physics := by
    have := h'.restored
    rw [e] at this
    exact (Except.ok.inj this).symm
  refine ⟨by rw [hp]; rfl, fun k hk => ?_, h'.solver⟩
  rw [hp]
  unfold Args2.physics2 Args.physics
  simp only [List.cons_append, List.nil_append, NS.get?_cons]
  simp only [Ne.symm hk, if_false]

/-! ## C58 -/

/-- the default list after a history of calls (omitted or given lists, shown properties) -/
def defaultAfter (default : List String) (calls : List (Option (List String) × String)) : List String :=
  calls.foldl (fun D c => (propertiesOfCall D c.1 c.2).2) default

/-- **C58 (partial).** If the list of properties is given, or if no earlier call
that omitted it asked to show a property outside the default list, the
properties of a call depend only on its own arguments. -/
theorem C58_independent_partial (default : List String) (calls : List (Option (List String) × String))
    (passed : Option (List String)) (shown : String)
    (h : passed ≠ none ∨ ∀ c ∈ calls, c.1 = none → c.2 ∈ default) :
    (propertiesOfCall (defaultAfter default calls) passed shown).1 = (propertiesOfCall default passed shown).1 := by
  cases passed with
  | some l => rfl
  | none =>
    replace h := h.resolve_left (by simp)
    have : defaultAfter default calls = default := by
      induction calls with
      | nil => rfl
      | cons c calls ih =>
        have h1 : (propertiesOfCall default c.1 c.2).2 = default := by
          rcases c with ⟨_ | l, s⟩
          · have := h (none, s) (by simp) rfl
            simp only [propertiesOfCall, withShown, this, if_true]
          · rfl
        unfold defaultAfter
        rw [List.foldl_cons, h1]
        exact ih fun c hc => h c (by simp [hc])
    rw [this]

/-- **C58 is violated**: a call that omits `properties` and shows a property `x`
outside the default list changes the list for all later calls that omit it. -/
theorem C58_leak_violated (default : List String) (x : String) (hx : x ∉ default)
    (calls : List (Option (List String) × String)) (shown : String) :
    x ∈ (propertiesOfCall (defaultAfter default ((none, x) :: calls)) none shown).1 := by
  have key : ∀ (calls : List (Option (List String) × String)) (D : List String), x ∈ D → x ∈ defaultAfter D calls := by
    intro calls
    induction calls with
    | nil => exact fun _ h => h
    | cons c calls ih =>
      intro D h
      unfold defaultAfter
      rw [List.foldl_cons]
      refine ih _ ?_
      rcases c with ⟨_ | l, s⟩
      · simp only [propertiesOfCall, withShown]
        split
        · exact h
        · exact List.mem_append_left _ h
      · exact h
  have h1 : x ∈ defaultAfter default ((none, x) :: calls) := by
    unfold defaultAfter
    rw [List.foldl_cons]
    exact key _ _ (by simp [propertiesOfCall, withShown, hx])
  simp only [propertiesOfCall, withShown]
  split
  · exact h1
  · exact List.mem_append_left _ h1

/-- … and the file of such a later call contains the leaked property. -/
theorem C58_leak_in_file_violated (default : List String) (x : String) (hx : x ∉ default)
    (calls : List (Option (List String) × String)) (shown : String)
    (ha : a.properties = (propertiesOfCall (defaultAfter default ((none, x) :: calls)) none shown).1)
    (h : FreshRun2 E a σ hw ns m S) (hfuel : m < fuel) (hn : "fullres_" ++ x ∉ a.properties) :
    ∃ f rows, (run2 E a fuel σ).2.fs a.output_path = some f ∧ f.dsets ("fullres_" ++ x) = some (.rows .one rows) := by
  obtain ⟨f, h1, -, -, -, -, -, h2, -⟩ := run2_result h hfuel
  obtain ⟨rows, h3, -⟩ := h2 x (by rw [ha]; exact C58_leak_violated default x hx calls shown) hn
  exact ⟨f, rows, h1, h3⟩

end general

/-! ## C53: exact arithmetic -/

section exact

attribute [local instance] exactOps

variable {K β : Type} [Field K] [LinearOrder K] [IsStrictOrderedRing K] [FloorRing K] [Casts K β] [Inhabited K]
  [Inhabited β]
variable {E : Env2 K β} {a : Args2 K} {σ : St K β} {hw : Solver K} {ns m : ℕ} {S : ℕ → NS (Cell K)}

theorem exact_timeAt (hsum : a.adaptive_step_size = true → ∀ l, E.sum l = l.sum) (t0 : K) (it : ℕ) :
    timeAt E a t0 it = t0 + it * a.step_size := by
  unfold timeAt
  by_cases h0 : it = 0
  · subst h0; simp
  · rw [if_neg h0]
    split
    · next h => rw [hsum h, List.sum_replicate]; simp [FloatOps.add]
    · simp [FloatOps.add, FloatOps.mul, FloatOps.ofInt]

theorem roundEven_ge (x : K) : x - 1 < roundEven x := by
  have := Int.sub_one_lt_floor x
  unfold roundEven
  split
  · exact this
  split
  · push_cast; linarith
  split
  · exact this
  · push_cast; linarith

theorem roundEven_le_int {x : K} {z : ℤ} (h : x ≤ z) : roundEven x ≤ z := by
  have h1 : ⌊x⌋ ≤ z := by
    have := (Int.floor_le x).trans h
    exact_mod_cast this
  rcases h1.lt_or_eq with h2 | h2
  · unfold roundEven
    split
    · exact h1
    split
    · omega
    split
    · exact h1
    · omega
  · have h3 : x = ⌊x⌋ := le_antisymm (by rw [h2]; exact h) (Int.floor_le x)
    unfold roundEven
    rw [if_pos (by rw [← h3]; norm_num)]
    exact h1

/-- **C53.** Exact arithmetic, positive step size, steps that succeed and never
produce NaN: `run2` makes exactly as many steps as the least `k` with
`round(k * step_size, 4) ≥ end_time`, which exists. -/
theorem C53_terminates (h : FreshCall2 E a σ hw ns S) (hdt : 0 < a.step_size)
    (hsum : a.adaptive_step_size = true → ∀ l, E.sum l = l.sum)
    (hT : ∀ n, hw.rk4_step (S n) a.step_size a.dx = .ok (S (n + 1))) (hS : ∀ n, 1 ≤ n → Shaped a.grid_pts (S n))
    (hN : ∀ n, 1 ≤ n → nanState E.toEnv (S n) = false) :
    ∃ m, IsLeast {k : ℕ | a.end_time ≤ FloatOps.round4 ((k : K) * a.step_size)} m ∧
      FreshRun2 E a σ hw ns m S ∧ ∀ fuel, (run2 E a fuel σ).1 = .ok none ↔ fuel ≤ m := by
  classical
  have hex : ∃ k : ℕ, a.end_time ≤ FloatOps.round4 ((k : K) * a.step_size) := by
    obtain ⟨k, hk⟩ := exists_nat_gt ((a.end_time * 10 ^ 4 + 1) / (a.step_size * 10 ^ 4))
    refine ⟨k, ?_⟩
    simp only [FloatOps.round4]
    rw [le_div_iff₀ (by positivity)]
    rw [div_lt_iff₀ (by positivity)] at hk
    have := roundEven_ge ((k : K) * a.step_size * 10 ^ 4)
    linarith
  have ht : ∀ it : ℕ, timeAt E a (FloatOps.ofInt 0) it = it * a.step_size := by
    intro it
    rw [exact_timeAt hsum]
    simp [FloatOps.ofInt]
  have hmin : ∀ j < Nat.find hex,
      FloatOps.lt (FloatOps.round4 (timeAt E a (FloatOps.ofInt 0) j)) a.end_time = true := by
    intro j hj
    have := Nat.find_min hex hj
    rw [ht]
    simpa [FloatOps.lt] using this
  have hrun : FreshRun2 E a σ hw ns (Nat.find hex) S :=
    { h with
      traj := fun n _ => hT n
      shaped := fun n h1 _ => hS n h1
      stops :=
        { before := hmin
          noNaN := fun j h1 _ _ => hN j h1
          stop := .inl (by
            rw [ht]
            simpa [FloatOps.lt] using Nat.find_spec hex) } }
  refine ⟨Nat.find hex, ⟨Nat.find_spec hex, fun k hk => Nat.find_min' hex hk⟩, hrun, fun fuel => ⟨fun hf => ?_, fun hle => ?_⟩⟩
  · by_contra hlt
    obtain ⟨f, -, -, h2, -⟩ := run2_result hrun (fuel := fuel) (by omega)
    exact h2 hf
  · obtain ⟨σ', buf, i, hx⟩ := run2_reach h (fun j _ => hT j) (fun j h1 _ => hS j h1)
      (fun j hj => hmin j (by omega)) (fun j h1 _ _ => hN j h1) (n := fuel) 0
    have := (hx (.ok none) σ' rfl).1 rfl
    rw [Nat.zero_add] at this
    rw [this]

/-- The usual case: `end_time` is `n` steps, a multiple of `0.0001`, and
`step_size ≥ 0.0001`: then the number of steps is `n`. -/
theorem C53_step_count (n : ℕ) (z : ℤ) (hend : a.end_time = n * a.step_size) (hz : a.end_time * 10 ^ 4 = z)
    (hdt : 1 / 10 ^ 4 ≤ a.step_size) :
    IsLeast {k : ℕ | a.end_time ≤ FloatOps.round4 ((k : K) * a.step_size)} n := by
  have hpos : 0 < a.step_size := lt_of_lt_of_le (by positivity) hdt
  constructor
  · simp only [Set.mem_ofPred_eq, FloatOps.round4]
    rw [← hend, le_div_iff₀ (by positivity), hz]
    have h1 := roundEven_ge (z : K)
    have : z - 1 < roundEven (z : K) := by exact_mod_cast h1
    have : z ≤ roundEven (z : K) := by omega
    exact_mod_cast this
  · intro k hk
    by_contra hlt
    simp only [Set.mem_ofPred_eq, FloatOps.round4] at hk
    rw [le_div_iff₀ (by positivity), hz] at hk
    have hk1 : (k : K) + 1 ≤ n := by
      have : k + 1 ≤ n := by omega
      exact_mod_cast this
    have h1 : (k : K) * a.step_size * 10 ^ 4 ≤ ((z - 1 : ℤ) : K) := by
      push_cast
      rw [← hz, hend]
      have h2 := mul_le_mul_of_nonneg_right hk1 hpos.le
      have h3 : (1 : K) ≤ a.step_size * 10 ^ 4 := by
        rw [div_le_iff₀ (by positivity)] at hdt
        exact hdt
      nlinarith
    have h2 := roundEven_le_int h1
    have h3 : z ≤ roundEven ((k : K) * a.step_size * 10 ^ 4) := by exact_mod_cast hk
    omega

/-- The rounding can cost a step: with `step_size = end_time = 1/3` the time
after the first step is rounded to `0.3333 < 1/3`, so there is a second one. -/
theorem C53_extra_step :
    IsLeast {k : ℕ | (1 / 3 : ℚ) ≤ FloatOps.round4 ((k : ℚ) * (1 / 3))} 2 := by
  constructor
  · have h2 : roundEven ((2 : ℕ) * (1 / 3 : ℚ) * 10 ^ 4) = 6667 := by
      have : ⌊((2 : ℕ) * (1 / 3 : ℚ) * 10 ^ 4)⌋ = 6666 := by rw [Int.floor_eq_iff]; norm_num
      unfold roundEven
      rw [this]
      norm_num
    simp only [Set.mem_ofPred_eq, FloatOps.round4]
    rw [h2]; norm_num
  · intro k hk
    by_contra hlt
    have h0 : k = 0 ∨ k = 1 := by omega
    simp only [Set.mem_ofPred_eq, FloatOps.round4] at hk
    rcases h0 with rfl | rfl
    · have : roundEven ((0 : ℕ) * (1 / 3 : ℚ) * 10 ^ 4) = 0 := by simp [roundEven]
      rw [this] at hk; norm_num at hk
    · have : roundEven ((1 : ℕ) * (1 / 3 : ℚ) * 10 ^ 4) = 3333 := by
        have : ⌊((1 : ℕ) * (1 / 3 : ℚ) * 10 ^ 4)⌋ = 3333 := by rw [Int.floor_eq_iff]; norm_num
        unfold roundEven
        rw [this]
        norm_num
      rw [this] at hk; norm_num at hk

end exact

/-- **C46 for `run2` (partial).** With the simulation of `model.py`, every recorded frame
that was written after a step stores the vorticity and the potential of one
state in which `phi = get_phi(omega)`.  Missing: the initial frame
(`C46_run2_violated`). -/
theorem C46_run2_partial {β : Type} [Casts ℝ β] [Inhabited β] [FloatOps ℝ] {E : Env2 ℝ β} {a : Args2 ℝ} {σ : St ℝ β}
    {hw : HW} {ns m fuel : ℕ} {S : ℕ → NS (Cell ℝ)} (h : FreshRun2 E a σ (hwSolver hw) ns m S)
    (hfuel : m < fuel) (hend : FloatOps.lt a.recording_start_time (timeAt E a (FloatOps.ofInt 0) m) = true)
    (hp : "omega" ∉ a.properties ∧ "phi" ∉ a.properties) :
    ∃ f ro rp, (run2 E a fuel σ).2.fs a.output_path = some f ∧ f.dsets "omega" = some (.rows (.grid ns ns) ro) ∧
      f.dsets "phi" = some (.rows (.grid ns ns) rp) ∧ ro.length = rp.length ∧
      ∀ j (h1 : j < ro.length) (h2 : j < rp.length),
        (j ≠ 0 ∨ FloatOps.eq a.recording_start_time (FloatOps.ofInt 0) = false) →
        ∃ t s o p, s.get? "omega" = some o ∧ (hwSolver hw).get_phi o a.dx = .ok p ∧ s.get? "phi" = some p ∧
          IsFrameRow E.toEnv a.downsample_factor "omega" t s ro[j] ∧ IsFrameRow E.toEnv a.downsample_factor "phi" t s rp[j] := by
  obtain ⟨f, ro, rp, h1, h2, h3, h4, h5⟩ := later_frames2 h hfuel hend (fun s s' hs => hwSolver_consistent hw hs) hp
  refine ⟨f, ro, rp, h1, h2, h3, h4, fun j j1 j2 hj => ?_⟩
  obtain ⟨t, s, ⟨o, p, a1, a2, a3⟩, b1, b2⟩ := h5 j j1 j2 hj
  exact ⟨t, s, o, p, a1, a2, a3, b1, b2⟩


/-! ## non-vacuity -/

/-- the demo environment with one property: the sum of the corner entries -/
def demoEnv2 : Env2 ℚ ℚ := { demoRunEnv with
  propertyFn := fun name => if name = "gamma_n" then some fun n p _ _ _ => match n, p with
      | .arr n, .arr p => .ok (n.at' 0 0 + p.at' 0 0)
      | _, _ => .error .typeError
    else none
  sum := List.sum }

/-- the demo arguments for `run2` -/
def demoArgs2 : Args2 ℚ := { demoArgs with properties := ["gamma_n"], adaptive_step_size := true, zonal := true }

theorem demo_call2 (end_time r : ℚ) (L s : ℕ) (hL : 1 ≤ L) (hs : 1 ≤ s) (σ : St ℚ ℚ) (hσ : σ.fs "run.h5" = none) :
    FreshCall2 demoEnv2 { demoArgs2 with end_time := end_time, buffer_length := L, snaps := s, recording_start_time := r } σ
      demoSolver 2 (demoStates (1 / 2) demoStart) where
  path := by simp [demoArgs2, demoArgs]
  fresh := .inl hσ
  buffer := hL
  snaps := hs
  early := by
    refine ⟨end_time / (1 / 2), _, ?_, rfl⟩
    have : (FloatOps.div end_time (1 / 2) : Py ℚ) = .ok (end_time / (1 / 2)) := by
      simp only [FloatOps.div]
      rw [if_neg (by norm_num)]
    exact this
  saves := demo_saves
  nodup := by simp [demoArgs2]
  props := by
    intro name hname
    simp only [demoArgs2, List.mem_singleton] at hname
    subst hname
    exact ⟨_, rfl, fun n p o _ _ _ => ⟨_, rfl⟩⟩
  init := demo_init 10 20 30 _
  solver := rfl
  start := ⟨_, rfl, rfl⟩

theorem demo_time2 (a : Args2 ℚ) (t0 : ℚ) (it : ℕ) : timeAt demoEnv2 a t0 it = t0 + it * a.step_size :=
  exact_timeAt (fun _ _ => rfl) t0 it

theorem demo_round4 (m : ℕ) : FloatOps.round4 ((m : ℚ) * (1 / 2)) = (m : ℚ) * (1 / 2) := by
  have : roundEven ((m : ℚ) * (1 / 2) * 10 ^ 4) = (m * 5000 : ℤ) := by
    have e : (m : ℚ) * (1 / 2) * 10 ^ 4 = ((m * 5000 : ℤ) : ℚ) := by push_cast; ring
    rw [e]
    unfold roundEven
    rw [Int.floor_intCast, if_pos (by norm_num)]
  simp only [FloatOps.round4]
  rw [this]
  push_cast; ring

theorem demo_run2 (end_time : ℚ) (m : ℕ) (he : end_time = m / 2) (hm : m < 90) (r : ℚ) (L s : ℕ) (hL : 1 ≤ L)
    (hs : 1 ≤ s) (σ : St ℚ ℚ) (hσ : σ.fs "run.h5" = none) :
    FreshRun2 demoEnv2 { demoArgs2 with end_time := end_time, buffer_length := L, snaps := s, recording_start_time := r } σ
      demoSolver 2 m (demoStates (1 / 2) demoStart) where
  toFreshCall2 := demo_call2 end_time r L s hL hs σ hσ
  traj := demo_step _ _ _ _
  shaped := fun n _ _ => demo_shaped _ _ demoStart_shaped n
  stops := by
    refine ⟨fun j hj => ?_, fun j h1 h2 _ => ?_, .inl ?_⟩
    · rw [demo_time2]
      have : (j : ℚ) < m := by exact_mod_cast hj
      simp only [demoArgs2, demoArgs, FloatOps.ofInt, Int.cast_zero, zero_add, demo_round4]
      simp only [FloatOps.lt]
      rw [decide_eq_true_eq, he]; linarith
    · have : nanState demoEnv2.toEnv (demoStates (1 / 2) demoStart j) = decide ((10 : ℚ) + j = 100) :=
        demo_noNaN _ _ 10 rfl j
      rw [this, decide_eq_false_iff_not]
      have : (j : ℚ) < 90 := by exact_mod_cast (lt_of_lt_of_le h2 hm.le)
      intro h; linarith
    · rw [demo_time2]
      simp only [demoArgs2, demoArgs, FloatOps.ofInt, Int.cast_zero, zero_add, demo_round4]
      simp only [FloatOps.lt]
      rw [decide_eq_false_iff_not, he]; linarith

/-- four steps, recorded after 0, 2 and 4 steps; buffer of length 2 -/
theorem demo_run2_4 : FreshRun2 demoEnv2 demoArgs2 noFiles demoSolver 2 4 (demoStates (1 / 2) demoStart) :=
  demo_run2 2 4 (by norm_num) (by decide) 0 2 2 (by decide) (by decide) noFiles rfl

theorem demo_end2 : FloatOps.lt demoArgs2.recording_start_time (timeAt demoEnv2 demoArgs2 (FloatOps.ofInt 0) 4) = true := by
  rw [demo_time2]
  simp [FloatOps.lt, FloatOps.ofInt, demoArgs2, demoArgs]

theorem demo_frames2 (end_time : ℚ) (L : ℕ) (S : ℕ → NS (Cell ℚ)) :
    (frames2 demoEnv2 { demoArgs2 with end_time := end_time, buffer_length := L, snaps := 2, recording_start_time := 0 }
      S 4).length = 3 := by
  simp [frames2, stepFrames2, isRecorded2, demo_time2, FloatOps.eq, FloatOps.le, FloatOps.ofInt, demoArgs2, demoArgs,
    List.range']

example := C52_all_written_partial demo_run2_4 (fuel := 5) (by decide) demo_end2

/-- C52: recording starts at the final time: one frame is recorded, nothing is written -/
theorem C52_demo_violated : ∃ f,
    (run2 demoEnv2 { demoArgs2 with recording_start_time := 2 } 5 noFiles).2.fs demoArgs2.output_path = some f ∧
    f.dsets "time" = some (.rows .one []) ∧
    (frames2 demoEnv2 { demoArgs2 with recording_start_time := 2 } (demoStates (1 / 2) demoStart) 4).length = 1 := by
  have hr : FreshRun2 demoEnv2 { demoArgs2 with recording_start_time := 2 } noFiles demoSolver 2 4
      (demoStates (1 / 2) demoStart) :=
    demo_run2 2 4 (by norm_num) (by decide) 2 2 2 (by decide) (by decide) noFiles rfl
  have hl : (frames2 demoEnv2 { demoArgs2 with recording_start_time := 2 } (demoStates (1 / 2) demoStart) 4).length
      = 1 := by
    have hi : ∀ it : ℕ, isRecorded2 demoEnv2 { demoArgs2 with recording_start_time := 2 } (FloatOps.ofInt 0) it
        = (decide ((2 : ℚ) ≤ it * (1 / 2)) && it % 2 == 0) := by
      intro it
      unfold isRecorded2
      rw [demo_time2]
      simp [FloatOps.le, FloatOps.ofInt, demoArgs2, demoArgs]
    have hl : (List.range' 1 4).filter (isRecorded2 demoEnv2 { demoArgs2 with recording_start_time := 2 }
        (FloatOps.ofInt 0)) = [4] := by
      simp only [List.range', List.filter, hi]
      norm_num
    unfold frames2 stepFrames2
    rw [hl]
    simp [FloatOps.eq, FloatOps.ofInt]
  obtain ⟨f, rows, h1, h2, h3⟩ := C52_lost_frames_violated hr (fuel := 5) (by decide) (by
    rw [demo_time2]
    simp [FloatOps.lt, FloatOps.ofInt, demoArgs2, demoArgs]
    norm_num) "time" (by simp) (by simp [demoArgs2])
  refine ⟨f, h1, ?_, hl⟩
  rw [hl] at h3
  have : (1 : ℕ) % ({ demoArgs2 with recording_start_time := 2 } : Args2 ℚ).buffer_length = 1 := by
    simp [demoArgs2, demoArgs]
  rw [this] at h3
  have : rows = [] := List.length_eq_zero_iff.mp (by omega)
  rw [h2, this]
  rfl

example := C45_run2_partial (demo_run2 2 4 (by norm_num) (by decide) (3 / 4) 2 2 (by decide) (by decide) noFiles rfl)
  (fuel := 7) (by decide) (by norm_num [FloatOps.eq, FloatOps.ofInt])
  (by rw [demo_time2]; simp [FloatOps.lt, FloatOps.ofInt, demoArgs2, demoArgs]; norm_num) "phi" (by simp)
  (by simp [demoArgs2])

example := C43_run2_partial (demo_run2 2 4 (by norm_num) (by decide) 0 3 2 (by decide) (by decide) noFiles rfl)
  (fuel := 5) (by decide) (by simp [demoArgs2, demoArgs, Args.saveState])
  (by simp [frames2, FloatOps.eq, FloatOps.ofInt]) (by rw [demo_frames2]) "omega" (by simp [fieldList])
  (by simp [demoArgs2])

example := C43_run2_violated (demo_run2 2 4 (by norm_num) (by decide) 0 2 2 (by decide) (by decide) noFiles rfl)
  (fuel := 5) (by decide) (by simp [demoArgs2, demoArgs, Args.saveState]) (by rw [demo_frames2]; decide) "omega"
  (by simp [fieldList]) (by simp [demoArgs2])

example := C46_run2_violated demo_run2_4 (fuel := 5) (by decide) demo_end2
  (by simp [FloatOps.eq, FloatOps.ofInt, demoArgs2, demoArgs]) (by simp [demoArgs2])

/-- C51: the "NaN" of this demo appears after 3 of 4 steps, which is not recorded; the run makes all 4 steps -/
theorem demo_nan2 : FreshRun2 { demoEnv2 with hasNaN := fun v => match v with
      | .arr a => decide (a.at' 0 0 = 13)
      | .num _ => false }
    demoArgs2 noFiles demoSolver 2 4 (demoStates (1 / 2) demoStart) :=
  { demo_run2_4 with
    saves := ⟨demo_saves.dim, demo_saves.down⟩
    stops := by
      refine ⟨demo_run2_4.stops.before, fun j h1 h2 hr => ?_, demo_run2_4.stops.stop.imp id fun h => ⟨h.1, h.2.1, ?_⟩⟩
      · have key : nanState { demoRunEnv with hasNaN := fun v => match v with
            | .arr a => decide (a.at' 0 0 = 13)
            | .num _ => false } (demoStates (1 / 2) demoStart j) = decide ((10 : ℚ) + j = 13) := by
          unfold nanState
          rw [demoStates_get _ _ 10 _ rfl]
          simp only [demoField_corner]
        refine key.trans ?_
        rw [decide_eq_false_iff_not]
        intro e
        have : (j : ℚ) = 3 := by linarith
        have : j = 3 := by exact_mod_cast this
        subst this
        revert hr
        simp [isRecorded2, demoArgs2, demoArgs]
      · have : nanState demoEnv2.toEnv (demoStates (1 / 2) demoStart 4) = decide ((10 : ℚ) + (4 : ℕ) = 100) :=
          demo_noNaN _ _ 10 rfl 4
        rw [this] at h
        norm_num at h }

example := C51_run2_violated demo_nan2 (fuel := 5) (by decide) 3 (by decide) (by
    unfold nanState
    rw [demoStates_get _ _ 10 _ rfl]
    simp only [demoField_corner]
    norm_num) (by simp [isRecorded2, demoArgs2, demoArgs]) demo_end2 4 (by decide)
  (by
    have : isRecorded2 demoEnv2 demoArgs2 (FloatOps.ofInt 0) 4 = true := by
      simp [isRecorded2, demo_time2, FloatOps.le, FloatOps.ofInt, demoArgs2, demoArgs]
    exact this)
  (by simp [demoArgs2])

example := C50_run2_protected (E := demoEnv2) (a := demoArgs2) (σ := ⟨fun _ => some demoRun, []⟩) (fuel := 5)
  (by simp [demoArgs2, demoArgs]) rfl rfl rfl (by simp [demoArgs2, demoArgs]) demo_run2_4.early

example := C55_run2_violated (E := demoEnv2) (a := { demoArgs2 with output_path := "" }) (σ := noFiles) (fuel := 5) rfl
  (by simp [demoArgs2, demoArgs]) demo_run2_4.early

/-- C53: steps of 1/2 until time 2 -/
example := C53_terminates (E := { demoEnv2 with hasNaN := fun _ => false }) (a := demoArgs2) (σ := noFiles)
  { demo_run2_4.toFreshCall2 with saves := ⟨demo_saves.dim, demo_saves.down⟩ } (by norm_num [demoArgs2, demoArgs])
  (fun _ _ => rfl) (fun _ => rfl) (fun n _ => demo_shaped _ _ demoStart_shaped n)
  (fun n _ => by unfold nanState; split <;> rfl)

example : ∃ m, IsLeast {k : ℕ | demoArgs2.end_time ≤ FloatOps.round4 ((k : ℚ) * demoArgs2.step_size)} m ∧ m = 4 :=
  ⟨4, C53_step_count (a := demoArgs2) 4 20000 (by norm_num [demoArgs2, demoArgs]) (by norm_num [demoArgs2, demoArgs])
    (by norm_num [demoArgs2, demoArgs]), rfl⟩

/-- a solver whose step always fails -/
def failingSolver (e : PyErr) : Solver ℚ := { demoSolver with rk4_step := fun _ _ _ => .error e }

theorem demo_failing (e : PyErr) : FreshCall2 { demoEnv2 with HW := fun _ => .ok (failingSolver e) } demoArgs2 noFiles
    (failingSolver e) 2 (demoStates (1 / 2) demoStart) :=
  { demo_run2_4.toFreshCall2 with
    saves := ⟨demo_saves.dim, demo_saves.down⟩
    solver := rfl
    start := ⟨_, rfl, rfl⟩ }

/-- C54: a step that always raises a `ValueError` -/
example (fuel : ℕ) : (run2 { demoEnv2 with HW := fun _ => .ok (failingSolver .valueError) } demoArgs2 fuel noFiles).1
    = .ok none :=
  C54_never_reported_violated (n := 0) (demo_failing .valueError) (fun j hj => absurd hj (by omega))
    (fun j h1 h2 => absurd h1 (by omega)) (fun j hj => demo_run2_4.stops.before j (by omega))
    (fun j h1 h2 => absurd h1 (by omega)) rfl (by simp) fuel

/-- C54: `KeyboardInterrupt` -/
example : (run2 { demoEnv2 with HW := fun _ => .ok (failingSolver (.baseException "KeyboardInterrupt")) } demoArgs2 1
    noFiles).1 = .error (.baseException "KeyboardInterrupt") :=
  C54_base_exception_partial (n := 0) (demo_failing _) (fun j hj => absurd hj (by omega))
    (fun j h1 h2 => absurd h1 (by omega)) (fun j hj => demo_run2_4.stops.before j (by omega))
    (fun j h1 h2 => absurd h1 (by omega)) rfl (by decide)

example := C49_zonal_violated demo_run2_4 (fuel := 5) (by decide)

/-- C58: the first call shows `gamma_n`, which is in the default list, and given lists do not matter -/
example := C58_independent_partial ["gamma_n", "energy"] [(none, "gamma_n"), (some ["gamma_c"], "gamma_c")] none "energy"
  (.inr (by simp))

/-- C58: the first call shows `enstrophy`, the second one only asks for the default properties -/
example : (propertiesOfCall (defaultAfter ["gamma_n", "energy"] [(none, "enstrophy")]) none "gamma_n").1
    = ["gamma_n", "energy", "enstrophy"] := by decide

/-- C58: the file of a call after one that showed `gamma_n` -/
example := C58_leak_in_file_violated [] "gamma_n" (by simp) [] "gamma_n" (a := demoArgs2) (by
  simp [propertiesOfCall, defaultAfter, withShown, demoArgs2]) demo_run2_4 (fuel := 5) (by decide) (by simp [demoArgs2])

example := C58_leak_violated ["gamma_n", "energy"] "enstrophy" (by decide) [(some ["gamma_c"], "gamma_c")] "gamma_n"

end Verif.Props
