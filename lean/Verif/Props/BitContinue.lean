import Verif.Lemmas.BitContinue
import Verif.Model.RunGen
import Verif.Props.Run2Split

/-!
# C136: continuing a file repeats the interrupted computation bit for bit

No laws of arithmetic are assumed: the numbers may be floating-point numbers.
`Resumed` (`Spec/BitContinue.lean`) describes the two calls: a run until `T1` that stored its full-resolution
states at step `k`, whose last recorded step is `l`, and a call that continues its file until `T2`.
-/

set_option linter.unusedSectionVars false

namespace Verif.Props

open H5IO H5 Run Run2

section

variable {α β : Type} [Casts α β] [Zero α] [Inhabited α] [Inhabited β] [FloatOps α]
variable {E : Env2 α β} {a : Args2 α} {σ : St α β} {hw : Solver α} {ns m1 m2 m3 k l M : ℕ} {S : ℕ → NS (Cell α)}
  {T1 T2 : α} {Good : NS (Cell α) → Prop}

/-- **C136.** A call that continues a file with stored states appends the frames of the steps `k + 1`, `k + 2`, … of the
interrupted computation, bit for bit, in every arithmetic, where `k` is the step at which the states were stored; their
time stamps are `t0 + j * step_size` where `t0` is the recorded time of the last frame of the file. -/
theorem C136_continue_repeats (h : Resumed E a σ hw ns m1 S T1 T2 k l M)
    (hF : ArraySolver hw a.step_size a.dx a.grid_pts Good) (hM : k + m3 ≤ M)
    (hstop : StopsAfter2 E (a.continued T2) (restartTime E a l) (fun j => S (k + j)) m3) {fuel1 fuel2 : ℕ}
    (hfuel1 : m1 < fuel1) (hfuel2 : m3 < fuel2) :
    ∃ f g, (run2 E (a.until T1) fuel1 σ).2.fs a.output_path = some f ∧
      (run2 E (a.continued T2) fuel2 (run2 E (a.until T1) fuel1 σ).2).2.fs a.output_path = some g ∧
      (run2 E (a.continued T2) fuel2 (run2 E (a.until T1) fuel1 σ).2).1 ≠ .ok none ∧
      g.attrs = f.attrs ∧
      (∀ key ∈ ["time", "density", "omega", "phi"], ∃ rows,
        g.dsets key = some (.rows (rowShape ns key) (f.rowsOf key ++ rows)) ∧
        List.Forall₂ (fun fr row => IsFrameRow E.toEnv a.downsample_factor key fr.1 fr.2 row)
          (written2 a (timeAt E a (restartTime E a l) m3)
            (stepFrames2 E a (restartTime E a l) (fun j => S (k + j)) m3)) rows) ∧
      (∀ name ∈ a.properties, ∃ rows,
        g.dsets ("fullres_" ++ name) = some (.rows .one (f.rowsOf ("fullres_" ++ name) ++ rows)) ∧
        List.Forall₂ (fun fr row => ∃ x, IsPropValue E a name fr.2 x ∧ row = .num (Casts.f32 x))
          (written2 a (timeAt E a (restartTime E a l) m3)
            (stepFrames2 E a (restartTime E a l) (fun j => S (k + j)) m3)) rows) := by
  obtain ⟨f, d, o, p, S', f1, -, hC, hsame⟩ := resumed_run h hF hM hstop hfuel1
  obtain ⟨g, g1, -, g2, -, g3, g4, g5⟩ := continue2_result hC hfuel2
  have hfr := written2_forall₂ (a := a) (timeAt E a (restartTime E a l) m3)
    (stepFrames2_same (E := E) (a := a) (t0 := restartTime E a l) hsame)
  refine ⟨f, g, f1, g1, g2, g3, fun key hkey => ?_, fun name hn => ?_⟩
  · obtain ⟨rows, r1, r2⟩ := g4 key hkey fun hk => (h.names _ hk).1 hkey
    refine ⟨rows, r1, forall₂_congr_left r2 hfr fun x y r hxy hr => ?_⟩
    rw [← hxy.1]
    exact frameRow_same hkey (fun k hk => (hxy.2 k hk).symm) hr
  · obtain ⟨rows, r1, r2⟩ := g5 name hn fun hk => (h.names _ hk).2.1 _ rfl
    exact ⟨rows, r1, forall₂_congr_left r2 hfr fun x y r hxy ⟨v, v1, v2⟩ =>
      ⟨v, propValue_same (fun k hk => (hxy.2 k hk).symm) v1, v2⟩⟩

/-- **C136 (full buffer).** If the frames of the first run fill the buffer a whole number of times, the fields and
properties of the continued file are, bit for bit, those of an uninterrupted run until `T2` — in every arithmetic in
which the times of the two (which may differ in the last digits, because the file stores single precision) lead to
the same decisions (recorded or not, reached `end_time` or not).  The time stamps differ only as stated. -/
theorem C136_same_fields (h : Resumed E a σ hw ns m1 S T1 T2 k k m2) (h2 : FreshRun2 E (a.until T2) σ hw ns m2 S)
    (hF : ArraySolver hw a.step_size a.dx a.grid_pts Good) (hm : m1 ≤ m2)
    (hround : ∀ j ≤ m2 - k, FloatOps.round4 (timeAt E a (restartTime E a k) j)
      = FloatOps.round4 (timeAt E a (FloatOps.ofInt 0) (k + j)))
    (hrec : ∀ j, 1 ≤ j → j ≤ m2 - k → isRecorded2 E a (restartTime E a k) j = isRecorded2 E a (FloatOps.ofInt 0) (k + j))
    (hend2 : FloatOps.lt a.recording_start_time (timeAt E a (FloatOps.ofInt 0) m2) = true)
    (hend3 : FloatOps.lt a.recording_start_time (timeAt E a (restartTime E a k) (m2 - k)) = true)
    {fuel1 fuel2 fuel3 : ℕ} (hfuel1 : m1 < fuel1) (hfuel2 : m2 < fuel2) (hfuel3 : m2 < fuel3) :
    ∃ f g, (run2 E (a.until T2) fuel2 σ).2.fs a.output_path = some f ∧
      (run2 E (a.continued T2) fuel3 (run2 E (a.until T1) fuel1 σ).2).2.fs a.output_path = some g ∧
      (∀ k, g.attrs k = f.attrs k) ∧
      (∀ key ∈ ["density", "omega", "phi"], ∃ rows, f.dsets key = some (.rows (rowShape ns key) rows) ∧
        g.dsets key = some (.rows (rowShape ns key) rows) ∧ rows.length = (frameSteps E a m2).length) ∧
      (∀ name ∈ a.properties, ∃ rows, f.dsets ("fullres_" ++ name) = some (.rows .one rows) ∧
        g.dsets ("fullres_" ++ name) = some (.rows .one rows) ∧ rows.length = (frameSteps E a m2).length) ∧
      f.dsets "time" = some (.rows .one ((frameSteps E a m2).map fun it =>
        .num (Casts.f32 (timeAt E a (FloatOps.ofInt 0) it)))) ∧
      g.dsets "time" = some (.rows .one ((frameSteps E a m2).map fun it =>
        .num (Casts.f32 (if it ≤ k then timeAt E a (FloatOps.ofInt 0) it else timeAt E a (restartTime E a k) (it - k))))) := by
  have hkm : k ≤ m1 := (mem_frameSteps (List.mem_of_getLast? h.last)).1
  have hkm2 : k + (m2 - k) = m2 := by omega
  obtain ⟨D, O, P, Q, r1, r2, r3, s1, s2, s3, s4, s5, s6, s7⟩ :=
    arrays_at h.first.toFreshCall2 hF h.dx h.traj h.shaped (k := k) (by omega)
  have hstop : StopsAfter2 E (a.continued T2) (restartTime E a k) (fun j => S (k + j)) (m2 - k) := by
    refine ⟨fun j hj => ?_, fun j j1 j2 hr => ?_, ?_⟩
    · exact (congrArg (fun x => FloatOps.lt x T2) (hround j hj.le)).trans (h2.stops.before (k + j) (by omega))
    · exact h2.stops.noNaN (k + j) (by omega) (by omega) ((hrec j j1 j2.le).symm.trans hr)
    · rcases h2.stops.stop with q | ⟨i1, i2, i3⟩
      · left
        refine (congrArg (fun x => FloatOps.lt x T2) (hround (m2 - k) le_rfl)).trans ?_
        rw [hkm2]
        exact q
      · right
        by_cases hlt : 1 ≤ m2 - k
        · refine ⟨hlt, (hrec _ hlt le_rfl).trans ?_, ?_⟩
          · rw [hkm2]; exact i2
          · rw [hkm2]; exact i3
        · have e : m2 = k := by omega
          rw [e] at i3
          unfold nanState at i3
          rw [s1] at i3
          simp only at i3
          rw [h.noNaN.2 _ (by decide) _ r1] at i3
          cases i3
  obtain ⟨f1, d, o, p, S', hf1, hfile, hC, hsame⟩ := resumed_run h hF (m3 := m2 - k) (by omega) hstop hfuel1
  obtain ⟨g, g1, gn, g4, g5⟩ := C52_all_written_continued_partial hC (fuel := fuel3) (by omega) hend3
  obtain ⟨g', g1', -, -, -, ga, -⟩ := continue2_result hC (fuel := fuel3) (by omega)
  obtain ⟨f, f1', -, f4, f5⟩ := C52_all_written_partial h2 hfuel2 hend2
  obtain ⟨f', f1'', -, -, -, fa, -⟩ := run2_result h2 hfuel2
  have eg : g' = g := Option.some.inj (g1'.symm.trans g1)
  have ef : f' = f := Option.some.inj (f1''.symm.trans f1')
  rw [eg] at ga
  rw [ef] at fa
  -- the frames
  have e1 : frameSteps E a m2 = frameSteps E a m1 ++
      ((List.range' 1 (m2 - k)).filter (isRecorded2 E a (restartTime E a k))).map (k + ·) := by
    have hmk : frameSteps E a m1 = frameSteps E a k := by
      have hlen := frameSteps_index (E := E) (a := a) (m := m1) (i := (frameSteps E a m1).length - 1)
        (by rw [← List.getLast?_eq_getElem?]; exact h.last)
      have hpos : 0 < (frameSteps E a m1).length := List.length_pos_iff.mpr (by
        intro e; have := h.last; rw [e] at this; cases this)
      have := frameSteps_split E a hkm
      rw [this] at hlen ⊢
      rw [List.length_append] at hlen
      have hnil : ((List.range' 1 (m1 - k)).filter fun j => isRecorded2 E a (FloatOps.ofInt 0) (k + j)).map (k + ·) = [] :=
        List.length_eq_zero_iff.mp (by rw [this, List.length_append] at hpos; omega)
      rw [hnil, List.append_nil]
    rw [hmk, frameSteps_split E a (by omega : k ≤ m2)]
    congr 2
    refine List.filter_congr fun j hj => ?_
    rw [List.mem_range'_1] at hj
    exact (hrec j (by omega) (by omega)).symm
  have hsplit : List.Forall₂ (fun x y : α × NS (Cell α) => SameArrays x.2 y.2)
      (frames2 E (a.until T2) S m2)
      (frames2 E (a.until T1) S m1 ++ stepFrames2 E (a.continued T2) (restartTime E a k) S' (m2 - k)) := by
    have q1 : frames2 E (a.until T2) S m2 = (frameSteps E a m2).map fun it =>
      (timeAt E a (FloatOps.ofInt 0) it, recordedState a S it) := frames2_steps E (a.until T2) S m2
    have q2 : frames2 E (a.until T1) S m1 = (frameSteps E a m1).map fun it =>
      (timeAt E a (FloatOps.ofInt 0) it, recordedState a S it) := frames2_steps E (a.until T1) S m1
    rw [q1, q2, e1, List.map_append, List.map_map]
    refine List.rel_append (R := fun x y : α × NS (Cell α) => _) ?_ ?_
    · rw [List.forall₂_same]
      exact fun x _ => .refl _
    · unfold stepFrames2
      rw [List.forall₂_map_left_iff, List.forall₂_map_right_iff]
      refine List.forall₂_same.mpr fun j hj => ?_
      rw [List.mem_filter, List.mem_range'_1] at hj
      have : recordedState a S (k + j) = S (k + j) := if_neg (by omega)
      simp only [Function.comp_apply, this]
      exact hsame j (by omega)
  refine ⟨f, g, f1', g1, fun key => ?_, fun key hkey => ?_, fun name hn => ?_, ?_, ?_⟩
  · rw [ga, hfile.attrs, fa]
    rfl
  · have hk' : key ∈ "time" :: fieldList := List.mem_cons_of_mem _ hkey
    have hkp : key ∉ a.properties := fun hp => (h.names _ hp).1 hk'
    obtain ⟨r, r1, r2⟩ := f4 key hk' hkp
    obtain ⟨r', r3, r4⟩ := hfile.rows key hk'
    obtain ⟨r'', r5, r6⟩ := g4 key hk' hkp
    have hro : f1.rowsOf key = r' := by
      unfold H5.rowsOf
      rw [r3]
    rw [hro] at r5
    have := rows_unique (P := fun (fr : α × NS (Cell α)) row => IsFrameRow E.toEnv a.downsample_factor key fr.1 fr.2 row)
      (Q := fun (fr : α × NS (Cell α)) row => IsFrameRow E.toEnv a.downsample_factor key fr.1 fr.2 row)
      r2 (List.rel_append (R := fun (fr : α × NS (Cell α)) row => IsFrameRow E.toEnv a.downsample_factor key fr.1 fr.2 row)
        r4 r6) (hsplit.imp fun x y hxy _ _ p1 p2 => fieldRow_unique hkey hxy p1 p2)
    refine ⟨r, r1, by rw [r5, this], ?_⟩
    rw [← r2.length_eq]
    exact frameSteps_length E (a.until T2) S m2
  · have hkp : "fullres_" ++ name ∉ a.properties := fun hp => (h.names _ hp).2.1 _ rfl
    obtain ⟨r, r1, r2⟩ := f5 name hn hkp
    obtain ⟨r', r3, r4⟩ := hfile.props name hn
    obtain ⟨r'', r5, r6⟩ := g5 name hn hkp
    have hro : f1.rowsOf ("fullres_" ++ name) = r' := by
      unfold H5.rowsOf
      rw [r3]
    rw [hro] at r5
    have := rows_unique (P := fun (fr : α × NS (Cell α)) row => ∃ x, IsPropValue E a name fr.2 x ∧ row = Cell.num (Casts.f32 x : β))
      (Q := fun (fr : α × NS (Cell α)) row => ∃ x, IsPropValue E a name fr.2 x ∧ row = Cell.num (Casts.f32 x : β))
      r2 (List.rel_append (R := fun (fr : α × NS (Cell α)) row => ∃ x, IsPropValue E a name fr.2 x ∧ row = Cell.num (Casts.f32 x : β))
        r4 r6) (hsplit.imp fun x y hxy r r' p1 p2 => by
          obtain ⟨v, v1, rfl⟩ := p1
          obtain ⟨v', v2, rfl⟩ := p2
          rw [propValue_det hxy v1 v2])
    refine ⟨r, r1, by rw [r5, this], ?_⟩
    rw [← r2.length_eq]
    exact frameSteps_length E (a.until T2) S m2
  · obtain ⟨r, r1, r2⟩ := f4 "time" (by simp) fun hp => (h.names _ hp).1 (by simp)
    rw [r1]
    congr 2
    have q1 : frames2 E (a.until T2) S m2 = (frameSteps E a m2).map fun it =>
      (timeAt E a (FloatOps.ofInt 0) it, recordedState a S it) := frames2_steps E (a.until T2) S m2
    rw [q1, List.forall₂_map_left_iff] at r2
    rw [← List.forall₂_eq_eq_eq, List.forall₂_map_right_iff]
    exact r2.flip.imp fun x y hxy => timeRow hxy
  · obtain ⟨r', r3, r4⟩ := hfile.rows "time" (by simp)
    obtain ⟨r'', r5, r6⟩ := g4 "time" (by simp) fun hp => (h.names _ hp).1 (by simp)
    have hro : f1.rowsOf "time" = r' := by
      unfold H5.rowsOf
      rw [r3]
    rw [hro] at r5
    rw [r5, e1, List.map_append, List.map_map]
    have q2 : frames2 E (a.until T1) S m1 = (frameSteps E a m1).map fun it =>
      (timeAt E a (FloatOps.ofInt 0) it, recordedState a S it) := frames2_steps E (a.until T1) S m1
    have t1 : r' = (frameSteps E a m1).map fun it => Cell.num (Casts.f32
        (if it ≤ k then timeAt E a (FloatOps.ofInt 0) it else timeAt E a (restartTime E a k) (it - k)) : β) := by
      rw [q2, List.forall₂_map_left_iff] at r4
      have hle : ∀ it ∈ frameSteps E a m1, it ≤ k := by
        intro it hit
        obtain ⟨i, hi, e⟩ := List.mem_iff_getElem.mp hit
        have hl := h.last
        rw [List.getLast?_eq_getElem?] at hl
        obtain ⟨hlt, e'⟩ := List.getElem?_eq_some_iff.mp hl
        rcases Nat.lt_or_ge i ((frameSteps E a m1).length - 1) with hlt' | hge
        · have := List.pairwise_iff_getElem.mp (frameSteps_sorted E a m1) i _ hi hlt hlt'
          rw [e, e'] at this
          omega
        · have : i = (frameSteps E a m1).length - 1 := by omega
          subst this
          rw [e'] at e
          omega
      have : (frameSteps E a m1).map (fun it => Cell.num (Casts.f32
          (if it ≤ k then timeAt E a (FloatOps.ofInt 0) it else timeAt E a (restartTime E a k) (it - k)) : β))
          = (frameSteps E a m1).map fun it => Cell.num (Casts.f32 (timeAt E a (FloatOps.ofInt 0) it) : β) :=
        List.map_congr_left fun it hit => by rw [if_pos (hle it hit)]
      rw [this, ← List.forall₂_eq_eq_eq, List.forall₂_map_right_iff]
      exact r4.flip.imp fun x y hxy => timeRow hxy
    have t2 : r'' = ((List.range' 1 (m2 - k)).filter (isRecorded2 E a (restartTime E a k))).map
        fun j => Cell.num (Casts.f32 (timeAt E a (restartTime E a k) j) : β) := by
      have r6 : List.Forall₂ (fun (fr : α × NS (Cell α)) row => IsFrameRow E.toEnv a.downsample_factor "time" fr.1 fr.2 row)
        (((List.range' 1 (m2 - k)).filter (isRecorded2 E a (restartTime E a k))).map fun it =>
          (timeAt E a (restartTime E a k) it, S' it)) r'' := r6
      rw [List.forall₂_map_left_iff] at r6
      rw [← List.forall₂_eq_eq_eq, List.forall₂_map_right_iff]
      exact r6.flip.imp fun x y hxy => timeRow hxy
    rw [t1, t2]
    congr 3
    refine List.map_congr_left fun j hj => ?_
    rw [List.mem_filter, List.mem_range'_1] at hj
    simp only [Function.comp_apply]
    rw [if_neg (by omega), Nat.add_sub_cancel_left]

/-- **C136 is violated** in that the continued file need not be the file of one computation: when the frames of the
first run do not fill the buffer a whole number of times, the rows after the one at which the states were stored (the
`tail`, not empty) are written a second time, bit for bit, under later time stamps. -/
theorem C136_repeated_rows_violated (h : Resumed E a σ hw ns m1 S T1 T2 k l M)
    (hF : ArraySolver hw a.step_size a.dx a.grid_pts Good) (hM : k + m3 ≤ M)
    (hstop : StopsAfter2 E (a.continued T2) (restartTime E a l) (fun j => S (k + j)) m3) (hm3 : m1 - k ≤ m3)
    (hd : ¬ a.buffer_length ∣ (frameSteps E a m1).length)
    (hrec : ∀ j, 1 ≤ j → j ≤ m1 - k → isRecorded2 E a (restartTime E a l) j = isRecorded2 E a (FloatOps.ofInt 0) (k + j))
    (hend : FloatOps.lt a.recording_start_time (timeAt E a (restartTime E a l) m3) = true)
    {fuel1 fuel2 : ℕ} (hfuel1 : m1 < fuel1) (hfuel2 : m3 < fuel2) :
    ∃ f g, (run2 E (a.until T1) fuel1 σ).2.fs a.output_path = some f ∧
      (run2 E (a.continued T2) fuel2 (run2 E (a.until T1) fuel1 σ).2).2.fs a.output_path = some g ∧
      ∀ key ∈ ["density", "omega", "phi"], ∃ head tail more,
        f.dsets key = some (.rows (rowShape ns key) (head ++ tail)) ∧
        g.dsets key = some (.rows (rowShape ns key) (head ++ tail ++ (tail ++ more))) ∧
        tail.length = (frameSteps E a m1).length % a.buffer_length ∧ tail ≠ [] := by
  obtain ⟨f, d, o, p, S', f1, hfile, hC, hsame⟩ := resumed_run h hF hM hstop hfuel1
  obtain ⟨g, g1, gn, g4, g5⟩ := C52_all_written_continued_partial hC hfuel2 hend
  refine ⟨f, g, f1, g1, fun key hkey => ?_⟩
  have hk' : key ∈ "time" :: fieldList := List.mem_cons_of_mem _ hkey
  have hkp : key ∉ a.properties := fun hp => (h.names _ hp).1 hk'
  obtain ⟨r, r1, r2⟩ := hfile.rows key hk'
  obtain ⟨r', r3, r4⟩ := g4 key hk' hkp
  have hro : f.rowsOf key = r := by
    unfold H5.rowsOf
    rw [r1]
  rw [hro] at r3
  have hkm : k ≤ m1 := (mem_frameSteps (List.mem_of_getElem? h.step)).1
  have hidx := frameSteps_index h.step
  have hL := h.first.buffer
  have hq : 1 ≤ (frameSteps E a m1).length / a.buffer_length := (Nat.one_le_div_iff hL).mpr h.buffer
  have hmul := Nat.mul_le_mul_left a.buffer_length hq
  have hL : 1 ≤ a.buffer_length := hL
  have hlenk : (frameSteps E a k).length = a.buffer_length * ((frameSteps E a m1).length / a.buffer_length) := by omega
  -- the rows of the first run
  have q2 : frames2 E (a.until T1) S m1 = (frameSteps E a m1).map fun it =>
    (timeAt E a (FloatOps.ofInt 0) it, recordedState a S it) := frames2_steps E (a.until T1) S m1
  rw [q2, frameSteps_split E a hkm, List.map_append, List.map_map] at r2
  obtain ⟨head, tail, hr, h4⟩ := forall₂_cut r2
  -- the rows of the continuation
  have q3 : stepFrames2 E (a.continued T2) (restartTime E a l) S' m3
      = ((List.range' 1 (m1 - k)).filter fun j => isRecorded2 E a (FloatOps.ofInt 0) (k + j)).map
          (fun j => (timeAt E a (restartTime E a l) j, S' j)) ++
        (((List.range' 1 (m3 - (m1 - k))).map ((m1 - k) + ·)).filter (isRecorded2 E a (restartTime E a l))).map
          (fun j => (timeAt E a (restartTime E a l) j, S' j)) := by
    have e0 : stepFrames2 E (a.continued T2) (restartTime E a l) S' m3
      = ((List.range' 1 m3).filter (isRecorded2 E a (restartTime E a l))).map
          (fun j => (timeAt E a (restartTime E a l) j, S' j)) := rfl
    rw [e0, range_split _ _ hm3, List.filter_append, List.map_append]
    congr 2
    refine List.filter_congr fun j hj => ?_
    rw [List.mem_range'_1] at hj
    exact hrec j (by omega) (by omega)
  rw [q3] at r4
  obtain ⟨tail', more, hr', h5⟩ := forall₂_cut' r4
  have htail : tail = tail' := by
    refine rows_unique (P := fun (fr : α × NS (Cell α)) row => IsFrameRow E.toEnv a.downsample_factor key fr.1 fr.2 row)
      (Q := fun (fr : α × NS (Cell α)) row => IsFrameRow E.toEnv a.downsample_factor key fr.1 fr.2 row) h4 h5 ?_
    rw [List.forall₂_map_left_iff, List.forall₂_map_right_iff]
    refine List.forall₂_same.mpr fun j hj _ _ p1 p2 => ?_
    rw [List.mem_filter, List.mem_range'_1] at hj
    have : recordedState a S (k + j) = S (k + j) := if_neg (by omega)
    simp only [Function.comp_apply, this] at p1
    exact fieldRow_unique hkey (hsame j (by omega)) p1 p2
  have hlen : tail.length = (frameSteps E a m1).length % a.buffer_length := by
    have e1 := h4.length_eq
    have e2 := congrArg List.length (frameSteps_split E a hkm)
    rw [List.length_append, hlenk] at e2
    rw [List.length_map] at e1 e2
    have := Nat.div_add_mod (frameSteps E a m1).length a.buffer_length
    omega
  refine ⟨head, tail, more, by rw [r1, hr], by rw [r3, hr, hr', htail], hlen, fun e => ?_⟩
  rw [e] at hlen
  exact hd (Nat.dvd_of_mod_eq_zero hlen.symm)

end

/-! ## the simulation of `model.py` in any arithmetic -/

section

variable {α : Type} [Inhabited α] [Add α] [Sub α] [Mul α] [Div α] [Neg α] [Pow α ℕ] [NatCast α]

/-- states with an age and no entry twice -/
def AgedState (s : NS (Cell α)) : Prop := s.keys.Nodup ∧ ∃ t, s.get? "age" = some (.num t)

/-- the last line of the Runge-Kutta step: the potential is that of the vorticity -/
theorem gen_rk4_phi {A : Gen.Arith α} {P : Gen.Coeffs α} {s r : Gen.State α} {dt dx : α}
    (h : Gen.rk4_step A P s dt dx = .ok r) : Gen.get_phi A r.omega dx = .ok r.phi := by
  unfold Gen.rk4_step at h
  simp only [bind, Except.bind] at h
  repeat' split at h
  all_goals cases h
  next h' => exact h'

/-- **C136 (the simulation of `model.py`).** In every arithmetic, with every scheme whose Poisson solver returns arrays
of the size of the grid, the steps of `model.py` satisfy the assumption of C136. -/
theorem C136_simulation (A : Gen.Arith α) (P : Gen.Coeffs α) (dt dx : α) (n : ℕ)
    (hA : ∀ o p, (o.h = n ∧ o.w = n) → A.poisson_solver o dx = .ok p → p.h = n ∧ p.w = n) :
    ArraySolver (Gen.solver A P) dt dx n AgedState where
  nodup s hs := hs.1
  init d o p t _ _ _ := ⟨by simp [NS.keys, fieldState], t, rfl⟩
  step := by
    rintro s s' r ⟨-, t, ht⟩ ⟨-, t', ht'⟩ hs hr
    have e1 := hs "density" (by decide)
    have e2 := hs "omega" (by decide)
    have e3 := hs "phi" (by decide)
    simp only [Gen.solver] at hr ⊢
    rw [← e1, ← e2, ← e3, ht']
    rw [ht] at hr
    split at hr
    · next d o p x hd ho hp hx =>
      rw [hd, ho, hp]
      simp only
      cases hstep : Gen.rk4_step A P ⟨d, o, p⟩ dt dx with
      | error e => rw [hstep] at hr; cases hr
      | ok q =>
        rw [hstep] at hr
        have hr := (Except.ok.inj hr).symm
        subst hr
        refine ⟨⟨by simp [NS.keys], _, rfl⟩, _, rfl, ⟨by simp [NS.keys], _, rfl⟩, fun key hkey => ?_⟩
        simp only [fieldList, List.mem_cons, List.not_mem_nil, or_false] at hkey
        rcases hkey with rfl | rfl | rfl <;> rfl
    · cases hr
  phi := by
    rintro s r o ⟨-, t, ht⟩ hr ho
    simp only [Gen.solver] at hr
    split at hr
    · next d o' p x hd ho' hp hx =>
      cases hstep : Gen.rk4_step A P ⟨d, o', p⟩ dt dx with
      | error e => rw [hstep] at hr; cases hr
      | ok q =>
        rw [hstep] at hr
        have hr := (Except.ok.inj hr).symm
        subst hr
        have : q.omega = o := Cell.arr.inj (Option.some.inj ho)
        subst this
        refine ⟨.arr q.phi, ?_, rfl⟩
        simp only [Gen.solver]
        rw [gen_rk4_phi hstep]
        rfl
    · cases hr
  get_phi := by
    intro o v ho hv
    simp only [Gen.solver] at hv
    cases hp : Gen.get_phi A o dx with
    | error e => rw [hp] at hv; cases hv
    | ok q =>
      rw [hp] at hv
      refine ⟨q, (Except.ok.inj hv).symm, hA _ q ?_ hp⟩
      exact ho

end

/-! ## non-vacuity -/

section examples

attribute [local instance] exactOps

/-- numbers with a Poisson solver that returns zeros and schemes that do nothing -/
def idleArith : Gen.Arith ℚ where
  half := 1 / 2
  truthy x := decide (x ≠ 0)
  mean _ := 0
  meanRows a := a
  poisson_solver o _ := .ok (o.map fun _ => 0)
  diffuse_N o _ _ := .ok o
  poisson_bracket o _ _ := .ok o
  gradient_func o _ _ := .ok o

example := C136_simulation idleArith ⟨1, 1, 1, 1, 1, false⟩ (1 / 2) 1 2 fun o p ho h => by cases h; exact ho

theorem split_arraySolver (dt dx : ℚ) : ArraySolver splitSolver dt dx 2 SplitGood where
  nodup s hs := ((split_fieldSolver dt dx).shaped s hs).nodup
  init := (split_fieldSolver dt dx).init
  step := by
    rintro s s' r ⟨d, o, p, t, rfl, h1, h2, h3⟩ ⟨d', o', p', t', rfl, -, -, -⟩ hs hr
    rw [splitSolver_step] at hr
    have e1 : d = d' := Cell.arr.inj (Option.some.inj (hs "density" (by decide)))
    have e2 : o = o' := Cell.arr.inj (Option.some.inj (hs "omega" (by decide)))
    subst e1 e2
    rw [← Except.ok.inj hr, splitSolver_step]
    refine ⟨⟨_, _, _, _, rfl, h1, h2, h2⟩, _, rfl, ⟨_, _, _, _, rfl, h1, h2, h2⟩, fun key hkey => ?_⟩
    simp only [fieldList, List.mem_cons, List.not_mem_nil, or_false] at hkey
    rcases hkey with rfl | rfl | rfl <;> rfl
  phi := (split_fieldSolver dt dx).phi
  get_phi := (split_fieldSolver dt dx).get_phi

/-- the toy call with a buffer of length `L` -/
def bufArgs (L : ℕ) : Args2 ℚ := { splitArgs with buffer_length := L }

theorem buf_run {L : ℕ} (hL : 1 ≤ L) (end_time : ℚ) (m : ℕ) (he : end_time = m / 2) (hm : m < 90) :
    FreshRun2 splitEnv ((bufArgs L).until end_time) noFiles splitSolver 2 m splitStates :=
  let h := split_run end_time m he hm
  { path := h.path, fresh := h.fresh, buffer := hL, snaps := h.snaps, early := h.early, saves := h.saves,
    nodup := h.nodup, props := h.props, init := h.init, solver := h.solver, start := h.start, traj := h.traj,
    shaped := h.shaped, stops := ⟨h.stops.before, h.stops.noNaN, h.stops.stop⟩ }

theorem buf_recorded (L : ℕ) {t0 : ℚ} (ht : 0 ≤ t0) (it : ℕ) :
    isRecorded2 splitEnv (bufArgs L) t0 it = (it % 2 == 0) := by
  unfold isRecorded2
  rw [split_time]
  have : FloatOps.le (bufArgs L).recording_start_time (t0 + it * (bufArgs L).step_size) = true := by
    have : (0 : ℚ) ≤ t0 + it * (1 / 2) := by positivity
    exact decide_eq_true this
  rw [this, Bool.true_and]
  rfl

theorem buf_steps (L : ℕ) : frameSteps splitEnv (bufArgs L) 4 = [0, 2, 4] := by
  unfold frameSteps
  have h0 : FloatOps.eq (bufArgs L).recording_start_time (FloatOps.ofInt 0 : ℚ) = true := by
    simp [FloatOps.eq, FloatOps.ofInt, bufArgs, splitArgs, demoArgs2, demoArgs]
  rw [if_pos h0]
  simp only [List.range', List.filter, buf_recorded L (le_refl (FloatOps.ofInt 0 : ℚ))]
  rfl

theorem buf_restart (L : ℕ) : restartTime splitEnv (bufArgs L) 4 = 2 := by
  unfold restartTime
  rw [split_time]
  have : (FloatOps.ofInt 0 : ℚ) + (4 : ℕ) * (bufArgs L).step_size = 2 := by
    have : (((0 : ℤ) : ℚ)) + (4 : ℕ) * (1 / 2) = 2 := by norm_num
    exact this
  rw [this]
  exact f32_two

/-- the toy run until time 2 has 3 frames, of the steps 0, 2 and 4 -/
theorem buf_resumed {L : ℕ} (hL : 1 ≤ L) (hL3 : L ≤ 3) {k : ℕ} (hk : ([0, 2, 4] : List ℕ)[L * (3 / L) - 1]? = some k) (hk0 : k = 2 ∨ k = 4)
    {T2 : ℚ} {M : ℕ} (hM : M < 80) :
    Resumed splitEnv (bufArgs L) noFiles splitSolver 2 4 splitStates 2 T2 k 4 M where
  first := buf_run hL 2 4 (by norm_num) (by decide)
  stored := rfl
  buffer := by rw [buf_steps]; exact hL3
  step := by rw [buf_steps]; exact hk
  last := by rw [buf_steps]; rfl
  flush := by
    rw [split_time]
    have : (0 : ℚ) < ((0 : ℤ) : ℚ) + (4 : ℕ) * (1 / 2) := by norm_num
    exact decide_eq_true this
  solver := rfl
  dx := rfl
  names := by
    intro name hn
    have : name = "gamma_n" := by simpa [bufArgs, splitArgs, demoArgs2] using hn
    subst this
    refine ⟨by decide, fun n' h => ?_, by decide⟩
    have := congrArg String.toList h
    simp at this
  early := (demo_call2 T2 0 3 2 (by decide) (by decide) noFiles rfl).early
  traj := by
    intro n hn
    exact (split_run ((n + 1 : ℕ) / 2) (n + 1) rfl (by omega)).traj n (by omega)
  shaped := fun n _ _ => fieldState_shaped _ ⟨rfl, rfl⟩ ⟨rfl, rfl⟩ ⟨rfl, rfl⟩
  noNaN := by
    refine ⟨rfl, fun key hkey A hA => ?_⟩
    have hrs : recordedState (bufArgs L) splitStates k = splitStates k := if_neg (by omega)
    rw [hrs] at hA
    simp only [fieldList, List.mem_cons, List.not_mem_nil, or_false] at hkey
    rcases hkey with rfl | rfl | rfl
    · rw [← Cell.arr.inj (Option.some.inj hA)]
      simp only [splitEnv, demoEnv2, demoRunEnv, demoField_corner]
      rcases hk0 with rfl | rfl <;> norm_num
    · rw [← Cell.arr.inj (Option.some.inj hA)]
      simp only [splitEnv, demoEnv2, demoRunEnv, demoField_corner]
      rcases hk0 with rfl | rfl <;> norm_num
    · rw [← Cell.arr.inj (Option.some.inj hA)]
      simp only [splitEnv, demoEnv2, demoRunEnv]
      rcases hk0 with rfl | rfl <;> decide +kernel
  nonzero := by
    intro key hkey A hA
    have hrs : recordedState (bufArgs L) splitStates k = splitStates k := if_neg (by omega)
    rw [hrs] at hA
    simp only [List.mem_cons, List.not_mem_nil, or_false] at hkey
    rcases hkey with rfl | rfl
    · rw [← Cell.arr.inj (Option.some.inj hA)]
      simp only [splitEnv, demoEnv2, demoRunEnv, demoField_corner]
      rcases hk0 with rfl | rfl <;> norm_num
    · rw [← Cell.arr.inj (Option.some.inj hA)]
      simp only [splitEnv, demoEnv2, demoRunEnv, demoField_corner]
      rcases hk0 with rfl | rfl <;> norm_num

/-- the continuing call makes 4 steps from time 2 to time 4, whichever state it starts from -/
theorem buf_stops (L : ℕ) {k : ℕ} (hk : k < 10) :
    StopsAfter2 splitEnv ((bufArgs L).continued 4) (restartTime splitEnv (bufArgs L) 4) (fun j => splitStates (k + j)) 4 := by
  rw [buf_restart]
  have ht : ∀ j : ℕ, timeAt splitEnv ((bufArgs L).continued 4) 2 j = ((4 + j : ℕ) : ℚ) * (1 / 2) := by
    intro j
    rw [split_time]
    have : (2 : ℚ) + j * (1 / 2) = ((4 + j : ℕ) : ℚ) * (1 / 2) := by push_cast; ring
    exact this
  refine ⟨fun j hj => ?_, fun j h1 h2 _ => ?_, .inl ?_⟩
  · rw [ht, demo_round4]
    have : ((4 + j : ℕ) : ℚ) * (1 / 2) < 4 := by
      have : (j : ℚ) < 4 := by exact_mod_cast hj
      push_cast; linarith
    exact decide_eq_true this
  · have : nanState splitEnv.toEnv (splitStates (k + j)) = decide ((10 : ℚ) + (k + j : ℕ) = 100) := by
      unfold nanState
      have : (splitStates (k + j)).get? "density" = some (.arr (demoField (10 + (k + j : ℕ)))) := rfl
      rw [this]
      simp only [splitEnv, demoEnv2, demoRunEnv, demoField_corner]
    rw [this, decide_eq_false_iff_not]
    have : ((k + j : ℕ) : ℚ) < 14 := by exact_mod_cast (by omega : k + j < 14)
    intro h; linarith
  · rw [ht, demo_round4]
    have : ¬ ((4 + 4 : ℕ) : ℚ) * (1 / 2) < 4 := by norm_num
    exact decide_eq_false this

/-- a buffer of length 2: the states are stored at step 2, the last frame is that of step 4 -/
example := C136_continue_repeats (buf_resumed (L := 2) (by decide) (by decide) (k := 2) (by decide) (by decide) (T2 := 4)
  (M := 6) (by decide)) (split_arraySolver _ _) le_rfl (buf_stops 2 (by decide)) (fuel1 := 9) (fuel2 := 9) (by decide)
  (by decide)

example := C136_repeated_rows_violated (buf_resumed (L := 2) (by decide) (by decide) (k := 2) (by decide) (by decide)
  (T2 := 4) (M := 6) (by decide)) (split_arraySolver _ _) le_rfl (buf_stops 2 (by decide)) (by decide)
  (by rw [buf_steps]; decide)
  (fun j _ _ => by
    rw [buf_restart, buf_recorded 2 (by norm_num), buf_recorded 2 (le_refl (FloatOps.ofInt 0 : ℚ)), Nat.add_mod_left])
  (by
    rw [buf_restart, split_time]
    have : (0 : ℚ) < 2 + (4 : ℕ) * (1 / 2) := by norm_num
    exact decide_eq_true this) (fuel1 := 9) (fuel2 := 9) (by decide) (by decide)

/-- a buffer of length 3: the states are stored at step 4 -/
example := C136_same_fields (buf_resumed (L := 3) (by decide) (by decide) (k := 4) (by decide) (by decide) (T2 := 4)
  (M := 8) (by decide)) (buf_run (by decide) 4 8 (by norm_num) (by decide)) (split_arraySolver _ _) (by decide)
  (fun j _ => by
    rw [buf_restart, split_time, split_time]
    have : (2 : ℚ) + j * (1 / 2) = ((0 : ℤ) : ℚ) + (4 + j : ℕ) * (1 / 2) := by push_cast; ring
    exact congrArg FloatOps.round4 this)
  (fun j _ _ => by
    rw [buf_restart, buf_recorded 3 (by norm_num), buf_recorded 3 (le_refl (FloatOps.ofInt 0 : ℚ))]
    congr 1
    omega)
  (by
    rw [split_time]
    have : (0 : ℚ) < ((0 : ℤ) : ℚ) + (8 : ℕ) * (1 / 2) := by norm_num
    exact decide_eq_true this)
  (by
    rw [buf_restart, split_time]
    have : (0 : ℚ) < 2 + (8 - 4 : ℕ) * (1 / 2) := by norm_num
    exact decide_eq_true this)
  (fuel1 := 9) (fuel2 := 9) (fuel3 := 9) (by decide) (by decide) (by decide)

end examples

end Verif.Props
