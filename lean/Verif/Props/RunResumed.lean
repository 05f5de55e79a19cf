import Verif.Lemmas.RunResumed
import Verif.Props.BitContinue

/-!
# C140: continuing a file of `run` repeats the interrupted computation bit for bit, under wrong times

No laws of arithmetic are assumed: the numbers may be floating-point numbers.  `RunResumed` (`Spec/RunResumed.lean`)
describes the two calls: a `run` until `T1` that stored its full-resolution states at step `k`, whose last recorded
step is `l`, and a call that continues its file until `T2`.
-/

set_option linter.unusedSectionVars false

namespace Verif.Props

open H5IO H5 Run Run2

section

variable {α β : Type} [Casts α β] [Zero α] [Inhabited α] [Inhabited β] [FloatOps α]
variable {E : Env α β} {a : Args α} {σ : St α β} {hw : Solver α} {ns m1 m2 m3 k l M : ℕ} {steps1 steps2 steps : ℤ}
  {S : ℕ → NS (Cell α)} {T1 T2 : α} {Good : NS (Cell α) → Prop}

/-- **C140.** A call of `run` that continues a file with stored states appends, for `j = 1, 2, …`, the frames of the
steps `k + j` of the interrupted computation, bit for bit and in every arithmetic, where `k` is the step at which the
states were stored.  (Their time stamps, and the decision which steps to record, are those of step `j`.) -/
theorem C140_continue_repeats (h : RunResumed E a σ hw ns steps1 m1 S T1 T2 k l M steps)
    (hF : ArraySolver hw a.step_size a.dx a.grid_pts Good) (hM : k + m3 ≤ M)
    (hstop : StopsAfter E (fun j => S (k + j)) steps.toNat m3) :
    ∃ f g, (run E (a.until T1) σ).2.fs a.output_path = some f ∧
      (run E (a.continued T2) (run E (a.until T1) σ).2).2.fs a.output_path = some g ∧
      (a.properties = [] → (run E (a.continued T2) (run E (a.until T1) σ).2).1 = .ok ()) ∧
      g.attrs = f.attrs ∧
      ∀ key ∈ ["time", "density", "omega", "phi"], ∃ rows,
        g.dsets key = some (.rows (rowShape ns key) (f.rowsOf key ++ rows)) ∧
        List.Forall₂ (fun j row => IsFrameRow E a.downsample_factor key (stepTime a j) (S (k + j)) row)
          ((List.range' 1 m3).filter (isRecorded a)) rows := by
  obtain ⟨f, d, o, p, S', f1, -, -, hC, hsame⟩ := run_resumed h hF hM hstop
  obtain ⟨g, g1, -, g2, g3, g4⟩ := continue_result hC
  refine ⟨f, g, f1, g1, g2, g3, fun key hkey => ?_⟩
  obtain ⟨rows, r1, r2⟩ := g4 key hkey fun hk => (h.names _ hk).1 hkey
  refine ⟨rows, r1, ?_⟩
  unfold continuedFrames at r2
  rw [List.forall₂_map_left_iff] at r2
  have r2 : List.Forall₂ (fun j row => IsFrameRow E a.downsample_factor key (stepTime a j) (S' j) row)
      ((List.range' 1 m3).filter (isRecorded a)) rows := r2
  refine forall₂_congr_left r2 (D := fun x y => x = y ∧ x ≤ m3) ?_ ?_
  · rw [List.forall₂_same]
    intro j hj
    rw [List.mem_filter, List.mem_range'_1] at hj
    exact ⟨rfl, by omega⟩
  · rintro j _ r ⟨rfl, hj⟩ hr
    exact frameRow_same hkey (fun key hk => (hsame j hj key hk).symm) hr

/-- **C140 (full buffer).** If the frames of the first run fill the buffer a whole number of times, everything is
recorded, and the continuing call makes the remaining `m2 - k` steps, then the fields of the continued file are, bit
for bit, those of an uninterrupted run until `T2`; but the time stamps of the appended frames are too small by `k`
steps. -/
theorem C140_same_fields_partial (h : RunResumed E a σ hw ns steps1 m1 S T1 T2 k k m2 steps)
    (h2 : FreshRun E (a.until T2) σ hw ns steps2 m2 S)
    (hF : ArraySolver hw a.step_size a.dx a.grid_pts Good) (hm : m1 ≤ m2) (hsteps : k + steps.toNat = steps2.toNat)
    (hrec : ∀ j, FloatOps.le a.recording_start_time (stepTime a j) = true) :
    ∃ f g, (run E (a.until T2) σ).2.fs a.output_path = some f ∧
      (run E (a.continued T2) (run E (a.until T1) σ).2).2.fs a.output_path = some g ∧
      (∀ k, g.attrs k = f.attrs k) ∧
      (∀ key ∈ ["density", "omega", "phi"], ∃ rows, f.dsets key = some (.rows (rowShape ns key) rows) ∧
        g.dsets key = some (.rows (rowShape ns key) rows) ∧ rows.length = (runSteps a m2).length) ∧
      f.dsets "time" = some (.rows .one ((runSteps a m2).map fun it => .num (Casts.f32 (runStamp a it)))) ∧
      g.dsets "time" = some (.rows .one ((runSteps a m2).map fun it =>
        .num (Casts.f32 (if it ≤ k then runStamp a it else stepTime a (it - k))))) := by
  have hkmem : k ∈ runSteps a m1 := List.mem_of_getLast? h.last
  have hkm : k ≤ m1 := (mem_runSteps hkmem).1
  have hkm2 : k + (m2 - k) = m2 := by omega
  obtain ⟨D, O, P, Q, r1, r2, r3, s1, s2, s3, s4, -⟩ :=
    run_arrays_at h.first hF h.dx h.traj h.shaped (k := k) (by omega)
  have hstop : StopsAfter E (fun j => S (k + j)) steps.toNat (m2 - k) := by
    refine ⟨fun j j1 j2 => h2.stops.before (k + j) (by omega) (by omega), ?_⟩
    rcases h2.stops.stop with q | ⟨i1, i2, i3⟩
    · left; omega
    · right
      by_cases hlt : 1 ≤ m2 - k
      · exact ⟨by omega, hlt, by rw [hkm2]; exact i3⟩
      · have e : m2 = k := by omega
        rw [e] at i3
        unfold nanState at i3
        rw [s1] at i3
        simp only at i3
        rw [h.noNaN.2 _ (by decide) _ r1] at i3
        cases i3
  obtain ⟨f1, g, hf1, g1, -, ga, g4⟩ := C140_continue_repeats h hF (m3 := m2 - k) (by omega) hstop
  obtain ⟨f1', _, _, _, _, hf1', fa1, frows1, -⟩ := run_resumed h hF (m3 := m2 - k) (by omega) hstop
  cases Option.some.inj (hf1'.symm.trans hf1)
  obtain ⟨f, hf, -, -, fa, f4, -⟩ := run_result h2
  have hq : frames (a.until T2) S m2 = (runSteps a m2).map fun it => (runStamp a it, runState a S it) :=
    frames_steps (a.until T2) S m2
  have frows : ∀ key ∈ "time" :: fieldList, ∃ rows, f.dsets key = some (.rows (rowShape ns key) rows) ∧
      List.Forall₂ (fun it row => IsFrameRow E a.downsample_factor key (runStamp a it) (runState a S it) row)
        (runSteps a m2) rows := by
    intro key hkey
    obtain ⟨rows, q1, q2⟩ := f4 key hkey fun hp => (h.names _ hp).1 hkey
    rw [hq, List.forall₂_map_left_iff] at q2
    exact ⟨rows, q1, q2⟩
  have hksn := runSteps_snaps hkmem
  have hfilter : ((List.range' 1 (m2 - k)).filter fun j => isRecorded a (k + j))
      = (List.range' 1 (m2 - k)).filter (isRecorded a) := by
    refine List.filter_congr fun j _ => ?_
    unfold isRecorded
    rw [hrec, hrec, Nat.add_mod, hksn, Nat.zero_add, Nat.mod_mod]
  have e1 : runSteps a m2 = runSteps a m1 ++ ((List.range' 1 (m2 - k)).filter (isRecorded a)).map (k + ·) := by
    rw [runSteps_last h.last, runSteps_split a (by omega : k ≤ m2), hfilter]
  refine ⟨f, g, hf, g1, fun key => ?_, fun key hkey => ?_, ?_, ?_⟩
  · rw [ga, fa1, fa]
    rfl
  · have hk' : key ∈ "time" :: fieldList := List.mem_cons_of_mem _ hkey
    obtain ⟨r, q1, q2⟩ := frows key hk'
    obtain ⟨r', q3, q4⟩ := frows1 key hk'
    obtain ⟨r'', q5, q6⟩ := g4 key hk'
    have hro : f1.rowsOf key = r' := by
      unfold H5.rowsOf
      rw [q3]
    rw [hro] at q5
    have : r = r' ++ r'' := by
      rw [e1] at q2
      obtain ⟨c1, c2, rfl, c3, c4⟩ : ∃ c1 c2, r = c1 ++ c2 ∧
          List.Forall₂ (fun it row => IsFrameRow E a.downsample_factor key (runStamp a it) (runState a S it) row)
            (runSteps a m1) c1 ∧
          List.Forall₂ (fun it row => IsFrameRow E a.downsample_factor key (runStamp a it) (runState a S it) row)
            (((List.range' 1 (m2 - k)).filter (isRecorded a)).map (k + ·)) c2 := by
        refine ⟨_, _, (List.take_append_drop (runSteps a m1).length r).symm, ?_, ?_⟩
        · have := List.forall₂_take (runSteps a m1).length q2
          rwa [List.take_left'  rfl] at this
        · have := List.forall₂_drop (runSteps a m1).length q2
          rwa [List.drop_left' rfl] at this
      congr 1
      · refine rows_unique c3 q4 (List.forall₂_same.mpr fun it _ x y hx hy => ?_)
        exact fieldRow_unique hkey (.refl _) hx hy
      · rw [List.forall₂_map_left_iff] at c4
        refine rows_unique c4 q6 (List.forall₂_same.mpr fun j hj x y hx hy => ?_)
        rw [List.mem_filter, List.mem_range'_1] at hj
        have e : runState a S (k + j) = S (k + j) := if_neg (by omega)
        simp only [e] at hx
        exact fieldRow_unique hkey (.refl _) hx hy
    exact ⟨r, q1, by rw [q5, this], q2.length_eq.symm⟩
  · obtain ⟨r, q1, q2⟩ := frows "time" (by simp)
    rw [q1]
    congr 2
    rw [← List.forall₂_eq_eq_eq, List.forall₂_map_right_iff]
    exact q2.flip.imp fun x y hxy => timeRow hxy
  · obtain ⟨r', q3, q4⟩ := frows1 "time" (by simp)
    obtain ⟨r'', q5, q6⟩ := g4 "time" (by simp)
    have hro : f1.rowsOf "time" = r' := by
      unfold H5.rowsOf
      rw [q3]
    rw [hro] at q5
    rw [q5, e1, List.map_append, List.map_map]
    have t1 : r' = (runSteps a m1).map fun it => Cell.num (Casts.f32
        (if it ≤ k then runStamp a it else stepTime a (it - k)) : β) := by
      have : (runSteps a m1).map (fun it => Cell.num (Casts.f32
          (if it ≤ k then runStamp a it else stepTime a (it - k)) : β))
          = (runSteps a m1).map fun it => Cell.num (Casts.f32 (runStamp a it) : β) :=
        List.map_congr_left fun it hit => by rw [if_pos (runSteps_le_last h.last hit)]
      rw [this, ← List.forall₂_eq_eq_eq, List.forall₂_map_right_iff]
      exact q4.flip.imp fun x y hxy => timeRow hxy
    have t2 : r'' = ((List.range' 1 (m2 - k)).filter (isRecorded a)).map fun j => Cell.num (Casts.f32 (stepTime a j) : β) := by
      rw [← List.forall₂_eq_eq_eq, List.forall₂_map_right_iff]
      exact q6.flip.imp fun x y hxy => timeRow hxy
    rw [t1, t2]
    congr 3
    refine List.map_congr_left fun j hj => ?_
    rw [List.mem_filter, List.mem_range'_1] at hj
    simp only [Function.comp_apply]
    rw [if_neg (by omega), Nat.add_sub_cancel_left]

/-- **C140 is violated** in that the continued file need not be the file of one computation: when the frames of the
first run do not fill the buffer a whole number of times, the rows after the one at which the states were stored (the
`tail`, not empty) are written a second time, bit for bit. -/
theorem C140_repeated_rows_violated (h : RunResumed E a σ hw ns steps1 m1 S T1 T2 k l M steps)
    (hF : ArraySolver hw a.step_size a.dx a.grid_pts Good) (hM : k + m3 ≤ M)
    (hstop : StopsAfter E (fun j => S (k + j)) steps.toNat m3) (hm3 : m1 - k ≤ m3)
    (hd : ¬ a.buffer_length ∣ (runSteps a m1).length)
    (hrec : ∀ j, FloatOps.le a.recording_start_time (stepTime a j) = true) :
    ∃ f g, (run E (a.until T1) σ).2.fs a.output_path = some f ∧
      (run E (a.continued T2) (run E (a.until T1) σ).2).2.fs a.output_path = some g ∧
      ∀ key ∈ ["density", "omega", "phi"], ∃ head tail more,
        f.dsets key = some (.rows (rowShape ns key) (head ++ tail)) ∧
        g.dsets key = some (.rows (rowShape ns key) (head ++ tail ++ (tail ++ more))) ∧
        tail.length = (runSteps a m1).length % a.buffer_length ∧ tail ≠ [] := by
  obtain ⟨f, g, f1, g1, -, -, g4⟩ := C140_continue_repeats h hF hM hstop
  obtain ⟨f', _, _, _, _, f1', -, frows, -⟩ := run_resumed h hF hM hstop
  cases Option.some.inj (f1'.symm.trans f1)
  refine ⟨f, g, f1, g1, fun key hkey => ?_⟩
  have hk' : key ∈ "time" :: fieldList := List.mem_cons_of_mem _ hkey
  obtain ⟨r, r1, r2⟩ := frows key hk'
  obtain ⟨r', r3, r4⟩ := g4 key hk'
  have hro : f.rowsOf key = r := by
    unfold H5.rowsOf
    rw [r1]
  rw [hro] at r3
  have hkmem := List.mem_of_getElem? h.step
  have hkm : k ≤ m1 := (mem_runSteps hkmem).1
  have hksn := runSteps_snaps hkmem
  have hidx := runSteps_index h.step
  have hL : 1 ≤ a.buffer_length := h.first.buffer
  have hq : 1 ≤ (runSteps a m1).length / a.buffer_length := (Nat.one_le_div_iff hL).mpr h.buffer
  have hmul := Nat.mul_le_mul_left a.buffer_length hq
  have hlenk : (runSteps a k).length = a.buffer_length * ((runSteps a m1).length / a.buffer_length) := by omega
  have hfilter : ((List.range' 1 (m1 - k)).filter fun j => isRecorded a (k + j))
      = (List.range' 1 (m1 - k)).filter (isRecorded a) := by
    refine List.filter_congr fun j _ => ?_
    unfold isRecorded
    rw [hrec, hrec, Nat.add_mod, hksn, Nat.zero_add, Nat.mod_mod]
  have hsp := runSteps_split a hkm
  rw [hfilter] at hsp
  rw [hsp] at r2
  obtain ⟨head, tail, hr, h4⟩ := forall₂_cut r2
  rw [List.forall₂_map_left_iff] at h4
  rw [range_split _ _ hm3, List.filter_append] at r4
  obtain ⟨tail', more, hr', h5⟩ := forall₂_cut' r4
  have htail : tail = tail' := by
    refine rows_unique h4 h5 (List.forall₂_same.mpr fun j hj x y hx hy => ?_)
    rw [List.mem_filter, List.mem_range'_1] at hj
    have e : runState a S (k + j) = S (k + j) := if_neg (by omega)
    simp only [e] at hx
    exact fieldRow_unique hkey (.refl _) hx hy
  have hlen : tail.length = (runSteps a m1).length % a.buffer_length := by
    have e1 := h4.length_eq
    have e2 := congrArg List.length hsp
    rw [List.length_append, hlenk, List.length_map] at e2
    have := Nat.div_add_mod (runSteps a m1).length a.buffer_length
    omega
  refine ⟨head, tail, more, by rw [r1, hr], by rw [r3, hr, hr', htail], hlen, fun e => ?_⟩
  rw [e] at hlen
  exact hd (Nat.dvd_of_mod_eq_zero hlen.symm)

/-- **C140 is violated** for a late start of the recording: the continuing call waits for `recording_start_time` again,
counting from 0.  As long as its own `m3` steps do not reach that time, it appends nothing, although the recording had
begun before and the computation goes on. -/
theorem C140_gap_violated (h : RunResumed E a σ hw ns steps1 m1 S T1 T2 k l M steps)
    (hF : ArraySolver hw a.step_size a.dx a.grid_pts Good) (hM : k + m3 ≤ M)
    (hstop : StopsAfter E (fun j => S (k + j)) steps.toNat m3)
    (hwait : ∀ j ≤ m3, FloatOps.le a.recording_start_time (stepTime a j) = false) :
    ∃ f g, (run E (a.until T1) σ).2.fs a.output_path = some f ∧
      (run E (a.continued T2) (run E (a.until T1) σ).2).2.fs a.output_path = some g ∧
      ∀ key ∈ ["time", "density", "omega", "phi"], ∃ rows, rows.length = (runSteps a m1).length ∧
        f.dsets key = some (.rows (rowShape ns key) rows) ∧ g.dsets key = some (.rows (rowShape ns key) rows) := by
  obtain ⟨f, g, f1, g1, -, -, g4⟩ := C140_continue_repeats h hF hM hstop
  obtain ⟨f', _, _, _, _, f1', -, frows, -⟩ := run_resumed h hF hM hstop
  cases Option.some.inj (f1'.symm.trans f1)
  refine ⟨f, g, f1, g1, fun key hkey => ?_⟩
  obtain ⟨r, r1, r2⟩ := frows key hkey
  obtain ⟨r', r3, r4⟩ := g4 key hkey
  have hro : f.rowsOf key = r := by
    unfold H5.rowsOf
    rw [r1]
  have hnil : (List.range' 1 m3).filter (isRecorded a) = [] := by
    rw [List.filter_eq_nil_iff]
    intro j hj hr
    rw [List.mem_range'_1] at hj
    unfold isRecorded at hr
    rw [hwait j (by omega)] at hr
    cases hr
  rw [hnil, List.forall₂_nil_left_iff] at r4
  rw [hro, r4, List.append_nil] at r3
  exact ⟨r, r2.length_eq.symm, r1, r3⟩

end

/-! ## non-vacuity -/

section examples

attribute [local instance] exactOps

/-- the toy call with a buffer of length `L`, recording from time `r` on -/
def recArgs (L : ℕ) (r : ℚ) : Args ℚ := { (bufArgs L).toArgs with recording_start_time := r }

theorem rec_noNaN (j : ℕ) : nanState splitEnv.toEnv (splitStates j) = decide ((10 : ℚ) + j = 100) := by
  unfold nanState
  have : (splitStates j).get? "density" = some (.arr (demoField (10 + j))) := rfl
  rw [this]
  simp only [splitEnv, demoEnv2, demoRunEnv, demoField_corner]

theorem rec_stop {k m : ℕ} (h : k + m < 90) : StopsAfter splitEnv.toEnv (fun j => splitStates (k + j)) (m : ℤ).toNat m := by
  refine ⟨fun j _ h2 => ?_, .inl rfl⟩
  rw [rec_noNaN, decide_eq_false_iff_not]
  have : ((k + j : ℕ) : ℚ) < 90 := by exact_mod_cast (by omega : k + j < 90)
  intro h; linarith

theorem rec_fresh {L : ℕ} (hL : 1 ≤ L) (r end_time : ℚ) (m : ℕ) (he : end_time = m / 2) (hm : m < 90) :
    FreshRun splitEnv.toEnv ((recArgs L r).until end_time) noFiles splitSolver 2 m m splitStates :=
  let h := buf_run hL end_time m he hm
  { path := h.path, fresh := h.fresh, buffer := hL, snaps := h.snaps, saves := h.saves, init := h.init,
    solver := h.solver, start := h.start, traj := h.traj, shaped := h.shaped
    count := by
      refine ⟨m, ?_, ?_⟩
      · have e : ((recArgs L r).until end_time).end_time = m / 2 := he
        have e' : ((recArgs L r).until end_time).step_size = 1 / 2 := rfl
        rw [e, e']
        simp only [FloatOps.div, FloatOps.sub, FloatOps.ofInt]
        rw [if_neg (by norm_num)]
        congr 1; push_cast; ring
      · simp only [FloatOps.toInt, truncZ]
        rw [if_pos (by positivity)]
        simp
    stops := by
      have := rec_stop (k := 0) (m := m) (by omega)
      simpa only [Nat.zero_add] using this }

theorem rec_stamp (L : ℕ) (r : ℚ) (j : ℕ) : stepTime (recArgs L r) j = j * (1 / 2) := by
  rw [exact_time]
  rfl

theorem rec_recorded (L : ℕ) (r : ℚ) (it : ℕ) :
    isRecorded (recArgs L r) it = (decide (r ≤ it * (1 / 2)) && (it % 2 == 0)) := by
  unfold isRecorded
  rw [rec_stamp]
  rfl

theorem rec_steps0 (L : ℕ) : runSteps (recArgs L 0) 4 = [0, 2, 4] := by
  unfold runSteps
  have h0 : FloatOps.eq (recArgs L 0).recording_start_time (FloatOps.ofInt 0 : ℚ) = true := by
    simp [FloatOps.eq, FloatOps.ofInt, recArgs]
  rw [if_pos h0]
  simp [List.range', rec_recorded]

theorem rec_steps_late (L : ℕ) : runSteps (recArgs L (3 / 2)) 4 = [4] := by
  unfold runSteps
  have h0 : ¬ FloatOps.eq (recArgs L (3 / 2)).recording_start_time (FloatOps.ofInt 0 : ℚ) = true := by
    simp [FloatOps.eq, FloatOps.ofInt, recArgs]
  rw [if_neg h0]
  simp only [List.range', List.filter, rec_recorded]
  norm_num
  rfl

/-- the toy run until time 2 and a continuing call that makes `m` steps -/
theorem rec_resumed {L : ℕ} {r : ℚ} {ls : List ℕ} (hL : 1 ≤ L) (hls : runSteps (recArgs L r) 4 = ls) (hb : L ≤ ls.length)
    {k : ℕ} (hk : ls[L * (ls.length / L) - 1]? = some k) (hl : ls.getLast? = some 4) (hk0 : k = 2 ∨ k = 4) {T2 : ℚ}
    {M m : ℕ} (hT : T2 = 2 + m / 2) (hM : M < 80) :
    RunResumed splitEnv.toEnv (recArgs L r) noFiles splitSolver 2 4 4 splitStates 2 T2 k 4 M m where
  first := rec_fresh hL r 2 4 (by norm_num) (by decide)
  stored := rfl
  buffer := by rw [hls]; exact hb
  step := by rw [hls]; exact hk
  last := by rw [hls]; exact hl
  dx := rfl
  names := by
    intro name hn
    have : name = "gamma_n" := by simpa [recArgs, bufArgs, splitArgs, demoArgs2] using hn
    subst this
    exact ⟨by decide, by decide⟩
  count := by
    have e : (Casts.f64 (Casts.f32 (runStamp (recArgs L r) 4) : ℚ) : ℚ) = 2 := by
      unfold runStamp
      rw [if_neg (by decide), rec_stamp]
      have : ((4 : ℕ) : ℚ) * (1 / 2) = 2 := by norm_num
      rw [this]
      exact f32_two
    have e' : (recArgs L r).step_size = 1 / 2 := rfl
    rw [e, e', hT]
    refine ⟨m, ?_, ?_⟩
    · simp only [FloatOps.div, FloatOps.sub]
      rw [if_neg (by norm_num)]
      congr 1; ring
    · simp only [FloatOps.toInt, truncZ]
      rw [if_pos (by positivity)]
      simp
  traj := (buf_resumed (L := 3) (by decide) (by decide) (k := 4) (by decide) (by decide) (T2 := 4) (M := M) hM).traj
  shaped := fun n _ _ => fieldState_shaped _ ⟨rfl, rfl⟩ ⟨rfl, rfl⟩ ⟨rfl, rfl⟩
  noNaN := by
    refine ⟨rfl, fun key hkey A hA => ?_⟩
    have hrs : runState (recArgs L r) splitStates k = splitStates k := if_neg (by omega)
    rw [hrs] at hA
    rcases hk0 with rfl | rfl
    · exact (buf_resumed (L := 2) (by decide) (by decide) (k := 2) (by decide) (by decide) (T2 := 4) (M := M) hM).noNaN.2
        key hkey A hA
    · exact (buf_resumed (L := 3) (by decide) (by decide) (k := 4) (by decide) (by decide) (T2 := 4) (M := M) hM).noNaN.2
        key hkey A hA
  nonzero := by
    intro key hkey A hA
    have hrs : runState (recArgs L r) splitStates k = splitStates k := if_neg (by omega)
    rw [hrs] at hA
    rcases hk0 with rfl | rfl
    · exact (buf_resumed (L := 2) (by decide) (by decide) (k := 2) (by decide) (by decide) (T2 := 4) (M := M) hM).nonzero
        key hkey A hA
    · exact (buf_resumed (L := 3) (by decide) (by decide) (k := 4) (by decide) (by decide) (T2 := 4) (M := M) hM).nonzero
        key hkey A hA

theorem rec_from_start (L j : ℕ) : FloatOps.le (recArgs L 0).recording_start_time (stepTime (recArgs L 0) j) = true := by
  rw [rec_stamp]
  have : (0 : ℚ) ≤ j * (1 / 2) := by positivity
  exact decide_eq_true this

/-- a buffer of length 2: the states are stored at step 2, the last frame is that of step 4; continued until time 4 -/
example := C140_continue_repeats (rec_resumed (L := 2) (by decide) (rec_steps0 2) (by decide) (k := 2) (by decide) rfl
  (by decide) (T2 := 4) (M := 6) (m := 4) (by norm_num) (by decide)) (split_arraySolver _ _) le_rfl (rec_stop (by decide))

example := C140_repeated_rows_violated (rec_resumed (L := 2) (by decide) (rec_steps0 2) (by decide) (k := 2) (by decide) rfl
  (by decide) (T2 := 4) (M := 6) (m := 4) (by norm_num) (by decide)) (split_arraySolver _ _) le_rfl (rec_stop (by decide))
  (by decide) (by rw [rec_steps0]; decide) (rec_from_start 2)

/-- a buffer of length 3: the states are stored at step 4 -/
example := C140_same_fields_partial (rec_resumed (L := 3) (by decide) (rec_steps0 3) (by decide) (k := 4) (by decide) rfl
  (by decide) (T2 := 4) (M := 8) (m := 4) (by norm_num) (by decide)) (rec_fresh (by decide) 0 4 8 (by norm_num) (by decide))
  (split_arraySolver _ _) (by decide) (by decide) (rec_from_start 3)

/-- recording from time 3/2 on: the frame of time 2 is recorded, and nothing of the continuation until time 3 -/
example := C140_gap_violated (rec_resumed (L := 1) (by decide) (rec_steps_late 1) (by decide) (k := 4) (by decide) rfl
  (by decide) (T2 := 3) (M := 6) (m := 2) (by norm_num) (by decide)) (split_arraySolver _ _) le_rfl (rec_stop (by decide))
  (fun j hj => by
    rw [rec_stamp]
    have : ¬ (3 / 2 : ℚ) ≤ j * (1 / 2) := by
      have : (j : ℚ) ≤ 2 := by exact_mod_cast hj
      intro h; linarith
    exact decide_eq_false this)

end examples

end Verif.Props
