import Verif.Props.RunResumed
import Verif.Props.ContinueFloat
import Verif.Props.StoredFloat

/-!
# Property theorem C141: a continued floating-point file of `run`, compared with the equations

C140 (a continuing call repeats the interrupted computation) and C134 (what that computation approximates) together.
-/

set_option linter.unusedSectionVars false

namespace Verif.Props

open H5IO H5 Run Arr Spec Set Rounding

section
variable {u : ℝ} {R : Rounded u} {β : Type} [Casts (Rd R) β] [Inhabited β]

/-- the number of frames of a call of `run` that records from the start -/
noncomputable def floatFrames (a : Args (Rd R)) : ℕ := floatSteps a / a.snaps + 1

/-- the step at which such a call stores its states: that of the last frame of the last full buffer -/
noncomputable def storedStep (a : Args (Rd R)) : ℕ := (a.buffer_length * (floatFrames a / a.buffer_length) - 1) * a.snaps

/-- the time from which a continuing call counts: the stored time of the last frame of `a` -/
noncomputable def lastTime (β : Type) [Casts (Rd R) β] (a : Args (Rd R)) : ℝ :=
  (Casts.f64 (Casts.f32 (⟨R.mul (((floatFrames a - 1) * a.snaps : ℕ) : ℝ) a.step_size.val⟩ : Rd R) : β) : Rd R).val

/-- number of steps of a call that continues the file of `a` until `T2`: `int((T2 - t) / step_size)`, where `t` is the
stored time of the last frame -/
noncomputable def moreSteps (β : Type) [Casts (Rd R) β] (a : Args (Rd R)) (T2 : ℝ) : ℕ :=
  (truncZ (R.div (R.sub T2 (lastTime β a)) a.step_size.val)).toNat

theorem mul_zero_rd (y : ℝ) : R.mul ((0 : ℕ) : ℝ) y = 0 := by
  have := R.mul_err ((0 : ℕ) : ℝ) y
  simpa using this

theorem stepTime_float (a : Args (Rd R)) (it : ℕ) : stepTime a it = ⟨R.mul it a.step_size.val⟩ := by
  simp [stepTime, FloatOps.mul, FloatOps.ofInt]

theorem runStamp_float (a : Args (Rd R)) (it : ℕ) : runStamp a it = ⟨R.mul it a.step_size.val⟩ := by
  unfold runStamp
  split
  · subst it
    rw [mul_zero_rd]
    simp [FloatOps.ofInt]
  · exact stepTime_float a it

variable {E : Env (Rd R) β} {A : Gen.Arith (Rd R)} {a : Args (Rd R)} {σ : St (Rd R) β} {P : Params} {L : ℝ}
  {F G : ℝ → ℝ → ℝ} {e : ℝ} {m : ℕ} {T1 T2 : Rd R}

theorem recorded_filter (hu : u ≤ 1) (hs : 0 < a.step_size.val) (h0 : a.recording_start_time.val = 0) (n : ℕ) :
    (List.range' 1 n).filter (isRecorded a) = (List.range' 1 (n / a.snaps)).map (· * a.snaps) := by
  rw [← filter_multiples]
  refine List.filter_congr fun it _ => ?_
  unfold isRecorded
  rw [stepTime_float]
  have q := (abs_le.1 (R.mul_err it a.step_size.val)).1
  have q2 : 0 ≤ (it : ℝ) * a.step_size.val := by positivity
  rw [abs_of_nonneg q2] at q
  have : FloatOps.le a.recording_start_time (⟨R.mul it a.step_size.val⟩ : Rd R) = true := by
    simp only [FloatOps.le, h0, decide_eq_true_eq]
    nlinarith
  rw [this, Bool.true_and]

theorem runSteps_float (hu : u ≤ 1) (hs : 0 < a.step_size.val) (h0 : a.recording_start_time.val = 0) (n : ℕ) :
    runSteps a n = (List.range (n / a.snaps + 1)).map (· * a.snaps) := by
  have h0' : FloatOps.eq a.recording_start_time (FloatOps.ofInt 0) = true := by
    simp [FloatOps.eq, FloatOps.ofInt, h0]
  unfold runSteps
  rw [if_pos h0', recorded_filter hu hs h0, List.range_eq_range', List.range'_succ]
  simp

theorem storedStep_eq (hd : a.buffer_length ∣ floatFrames a) :
    storedStep a = (floatFrames a - 1) * a.snaps := by
  unfold storedStep
  rw [Nat.mul_div_cancel' hd]

/-- The two calls, as in C140. -/
theorem resumed_float (H : FloatPoses E A { a.until T1 with properties := [] } σ P L F G e m) (hu : u ≤ 1) (hm : 0 < m)
    {b : Backend} {η : ℝ} (hA : Accurate A b η m m a.dx)
    (hnames : ∀ name ∈ a.properties, name ∉ ["time", "density", "omega", "phi"] ∧ ∀ k ∈ fieldList, name ≠ "state_" ++ k)
    {X Y : Arr (Rd R)} (hX : a.density0 = .arr X) (hX' : X.h = m ∧ X.w = m)
    (hY : a.omega0 = .arr Y) (hY' : Y.h = m ∧ Y.w = m) {Z : Arr (Rd R)} (hZ : Gen.get_phi A Y a.dx = .ok Z)
    {x : ℕ → Gen.State (Rd R)} (x0 : x 0 = ⟨X, Y, Z⟩)
    (x1 : ∀ k, ((x k).density.h = m ∧ (x k).density.w = m) ∧ ((x k).omega.h = m ∧ (x k).omega.w = m) ∧
      ((x k).phi.h = m ∧ (x k).phi.w = m))
    (x2 : ∀ k, Gen.rk4_step A (machineCoeffs R (poseHW b a.dx.val P)) (x k) a.step_size a.dx = .ok (x (k + 1)))
    (hsave : a.saveState = true) (hbuf : a.buffer_length ≤ floatFrames (a.until T1)) :
    ∃ (S : ℕ → NS (Cell (Rd R))) (f : H5 (Rd R) β), (∀ k, (S k).get? "density" = some (.arr (x k).density) ∧
        (S k).get? "omega" = some (.arr (x k).omega) ∧ (S k).get? "phi" = some (.arr (x k).phi)) ∧
      (run E (a.until T1) σ).2.fs a.output_path = some f ∧
      ((∀ key ∈ ["density", "omega"], ∀ X, f.dsets ("state_" ++ key) = some (.full X) → E.allZero (.arr X) = false) →
        ∀ M, RunResumed E a σ (Gen.solver A (machineCoeffs R (poseHW b a.dx.val P))) m
          (truncZ (R.div (R.sub T1.val 0) a.step_size.val)) (floatSteps (a.until T1)) S T1 T2
          (storedStep (a.until T1)) ((floatFrames (a.until T1) - 1) * a.snaps) M
          (truncZ (R.div (R.sub T2.val (lastTime β (a.until T1))) a.step_size.val))) ∧
      ArraySolver (Gen.solver A (machineCoeffs R (poseHW b a.dx.val P))) a.step_size a.dx a.grid_pts AgedState ∧
      ∀ s, nanState E s = false := by
  have hZ' : Z.h = m ∧ Z.w = m := by
    have := (x1 0).2.2
    rw [x0] at this
    exact this
  have hL1 : 1 ≤ a.buffer_length := H.buffer
  have hs : 0 < a.step_size.val := H.step
  have hst : a.recording_start_time.val = 0 := H.start
  obtain ⟨x', S, hx', hS, htraj, hshaped, hF⟩ := fresh_float H hm hA hX hX' hY hY' hZ hZ'
  have hxx : ∀ k, x' k = x k := by
    intro k
    have e1 := hx' k
    have e2 := iterate_of_steps (step := floatStep A (poseHW b a.dx.val P) a.dx.val (.rk4 a.step_size.val)) (x := x) x2 k 0
    rw [x0, Nat.zero_add] at e2
    exact (Except.ok.inj (e2.symm.trans e1)).symm
  obtain rfl : x' = x := funext hxx
  have hF' : FreshRun E (a.until T1) σ (Gen.solver A (machineCoeffs R (poseHW b a.dx.val P))) m
      (truncZ (R.div (R.sub T1.val 0) a.step_size.val)) (floatSteps (a.until T1)) S := { hF with }
  obtain ⟨f, f1, -, -, -, -, f5⟩ := run_result hF'
  have hsteps : runSteps a (floatSteps (a.until T1)) = (List.range (floatFrames (a.until T1))).map (· * a.snaps) :=
    runSteps_float hu hs hst _
  have hlen : (runSteps a (floatSteps (a.until T1))).length = floatFrames (a.until T1) := by
    rw [hsteps, List.length_map, List.length_range]
  have hq : 1 ≤ floatFrames (a.until T1) / a.buffer_length := (Nat.one_le_div_iff hL1).mpr hbuf
  have hmul := Nat.mul_le_mul_left a.buffer_length hq
  have hdm := Nat.mul_div_le (floatFrames (a.until T1)) a.buffer_length
  have hstep : (runSteps a (floatSteps (a.until T1)))[a.buffer_length *
      ((runSteps a (floatSteps (a.until T1))).length / a.buffer_length) - 1]? = some (storedStep (a.until T1)) := by
    rw [hlen, hsteps, List.getElem?_map, List.getElem?_range (by omega)]
    rfl
  have hlast : (runSteps a (floatSteps (a.until T1))).getLast? = some ((floatFrames (a.until T1) - 1) * a.snaps) := by
    rw [List.getLast?_eq_getElem?, hlen, hsteps, List.getElem?_map, List.getElem?_range (by omega)]
    rfl
  refine ⟨S, f, hS, f1, fun hnz M => ?_, ?_, fun s => ?_⟩
  · refine { first := hF', stored := hsave, buffer := by rw [hlen]; exact hbuf, step := hstep, last := hlast,
             dx := H.attr _, names := hnames, count := ?_, traj := htraj _, shaped := fun k h1 _ => hshaped k h1,
             noNaN := ⟨H.nan _, fun _ _ _ _ => H.nan _⟩, nonzero := ?_ }
    · refine ⟨⟨R.div (R.sub T2.val (lastTime β (a.until T1))) a.step_size.val⟩, ?_, rfl⟩
      rw [runStamp_float]
      change (if a.step_size.val = 0 then _ else _) = _
      rw [if_neg hs.ne']
      rfl
    · intro key hkey V hV
      have hkf : key ∈ fieldList := by
        simp only [fieldList, List.mem_cons, List.not_mem_nil, or_false] at hkey ⊢
        rcases hkey with rfl | rfl <;> simp
      have hfr : frames (a.until T1) S (floatSteps (a.until T1)) = (runSteps a (floatSteps (a.until T1))).map fun it =>
        (runStamp a it, runState a S it) := frames_steps (a.until T1) S _
      have hfl : (frames (a.until T1) S (floatSteps (a.until T1))).length
          = (runSteps a (floatSteps (a.until T1))).length := by rw [hfr, List.length_map]
      obtain ⟨V', v1, -, v2⟩ := f5 hsave key hkf fun hp' => (hnames _ hp').2 key hkf rfl
      have := v2 (runStamp a (storedStep (a.until T1)), runState a S (storedStep (a.until T1)))
        (by rw [hfl, hlen]; exact hbuf) (by
          rw [hfl, hfr, List.getElem?_map]
          exact congrArg (Option.map _) hstep)
      simp only at this
      rw [hV] at this
      obtain rfl : V = V' := Cell.arr.inj (Option.some.inj this)
      exact hnz key hkey V v1
  · refine C136_simulation _ _ _ _ _ fun o p ho hop => ?_
    have hg : a.grid_pts = m := H.grid
    rw [hg] at ho ⊢
    have : NeZero m := ⟨hm.ne'⟩
    have e : o = ofField (fun i j => o.at' i.val j.val : Gen.F (Rd R) m m) := (ofField_vals ho.1 ho.2).symm
    rw [e, hA.evals.sol] at hop
    cases hop
    exact ⟨rfl, rfl⟩
  · unfold nanState
    split
    · exact H.nan _
    · rfl

end

/-- **C141.** Let `n, w, p` be a smooth solution of the Hasegawa–Wakatani equations on the box `[0, L]²` and the interval
`[0, T]`.  There is one constant `C` such that for every grid size there is a `δ > 0` with: in every floating-point
arithmetic as in C134, let a call of `run` until `T1` be one that C134 describes, with `add_last_state` and a buffer that
is filled at least once.  Then a second call, with `continue_file`, until `T2` returns normally.  It makes
`int((T2 - t) / step_size)` steps, where `t` is the last stored time, and appends one frame for every `snaps` of them.  Let
`k` be the step at which the first call stored its states.  The frame of step `j` of the second call is within
`C (dx² + v)` of the solution at time `(k + j) step_size` in root mean square, and within `C (dx + v)` at every grid point.
The property fails for the times: the frame is stamped `j step_size`. -/
theorem C141_continued_file_partial (P : Params) (hnu : 0 ≤ P.nu) {L T B : ℝ} {r : ℕ} (hT : 0 ≤ T)
    (hL : 0 < L) (hr : 4 ≤ r) (hr' : 2 * P.N + 2 ≤ r) {nf wf pf : ℝ → ℕ → ℕ → ℝ → ℝ → ℝ}
    (H : HWSolution P L L T r B nf wf pf) :
    ∃ C, 0 ≤ C ∧ ∀ (m : ℕ) (b : Backend), 0 < m → Std b m m →
      ∃ δ, 0 < δ ∧ ∀ (u : ℝ) (R : Rounded u) (A : Gen.Arith (Rd R)) (η v : ℝ), 0 ≤ u → 0 ≤ η → 0 ≤ v →
        ∀ (β : Type) (_ : Casts (Rd R) β) (_ : Inhabited β) (E : Env (Rd R) β) (a : Args (Rd R)) (σ : St (Rd R) β) (T1 T2 : Rd R),
        (∀ x : Rd R, |(Casts.f64 (Casts.f32 x : β) : Rd R).val - x.val| ≤ v * |x.val|) →
        Accurate A b η m m a.dx → FloatPoses E A (a.until T1) σ P L (nf 0 0 0) (wf 0 0 0) (u + η) m →
        a.step_size.val ≤ δ → u + η ≤ δ * a.step_size.val →
        a.saveState = true → a.buffer_length ≤ floatFrames (a.until T1) →
        ∃ f : H5 (Rd R) β, (run E (a.until T1) σ).2.fs a.output_path = some f ∧
          -- the stored states do not vanish
          ((∀ key ∈ ["density", "omega"], ∀ X, f.dsets ("state_" ++ key) = some (.full X) → E.allZero (.arr X) = false) →
          (run E (a.continued T2) (run E (a.until T1) σ).2).1 = .ok () ∧
          ∃ g : H5 (Rd R) β, (run E (a.continued T2) (run E (a.until T1) σ).2).2.fs a.output_path = some g ∧
            g.attrs = f.attrs ∧
            g.dsets "time" = some (.rows .one (f.rowsOf "time" ++
              (List.range' 1 (moreSteps β (a.until T1) T2.val / a.snaps)).map
                fun i : ℕ => .num (Casts.f32 (⟨R.mul ((i * a.snaps : ℕ) : ℝ) a.step_size.val⟩ : Rd R)))) ∧
            ∀ key ∈ ["density", "omega", "phi"], ∃ rows, g.dsets key = some (.rows (.grid m m) (f.rowsOf key ++ rows)) ∧
              rows.length = moreSteps β (a.until T1) T2.val / a.snaps ∧
              ∀ i (hi : i < rows.length) t, t = ((storedStep (a.until T1) + (i + 1) * a.snaps : ℕ) : ℝ) * a.step_size.val →
                t ≤ T → ∃ W : Arr β, rows[i] = .arr W ∧ StoredNear (R := R) m a.dx.val v C (fieldOf nf wf pf key t) W) := by
  obtain ⟨C, hC, HC⟩ := float_core P hnu hT hL hr hr' H
  refine ⟨C, hC, fun m b hm hb => ?_⟩
  obtain ⟨δ, hδ, HC⟩ := HC m b hm hb
  refine ⟨δ, hδ, ?_⟩
  intro u R A η v u0 η0 v0 β _ _ E a σ T1 T2 hcast hA hp hle hprec hsave hbuf
  obtain ⟨X, hX, hX'⟩ := hp.density
  obtain ⟨Y, hY, hY'⟩ := hp.omega
  obtain ⟨s28, Z, x, hZ, x0, x1, x2, hx⟩ := HC u R A η u0 η0 a.dx a.step_size hp.spacing hp.step hA hle hprec X Y hX' hY'
  have hu1 : u ≤ 1 := by linarith
  have hs : 0 < a.step_size.val := hp.step
  have hst : a.recording_start_time.val = 0 := hp.start
  have hprops : a.properties = [] := hp.props
  have hp' : FloatPoses E A { a.until T1 with properties := [] } σ P L (nf 0 0 0) (wf 0 0 0) (u + η) m :=
    { hp with props := rfl }
  obtain ⟨S, f, hS, f1, hres, hsol, hnan⟩ := resumed_float (T2 := T2) hp' hu1 hm hA (by rw [hprops]; simp) hX ⟨hX'.1, hX'.2.1⟩ hY
    ⟨hY'.1, hY'.2.1⟩ hZ x0 x1 x2 hsave hbuf
  refine ⟨f, f1, fun hnz => ?_⟩
  have hR := hres hnz (storedStep (a.until T1) + moreSteps β (a.until T1) T2.val)
  obtain ⟨f', g, f1', g1, g2, g3, g4⟩ := C140_continue_repeats hR hsol (m3 := moreSteps β (a.until T1) T2.val) le_rfl
    ⟨fun j _ _ => hnan _, .inl rfl⟩
  obtain rfl : f' = f := Option.some.inj (f1'.symm.trans f1)
  have hfilter := recorded_filter (a := a) hu1 hs hst (moreSteps β (a.until T1) T2.val)
  rw [hfilter] at g4
  refine ⟨g2 hprops, g, g1, g3, ?_, fun key hkey => ?_⟩
  · obtain ⟨rows, r1, r2⟩ := g4 "time" (by simp)
    rw [r1]
    have : rows = (List.range' 1 (moreSteps β (a.until T1) T2.val / a.snaps)).map
        fun i : ℕ => .num (Casts.f32 (⟨R.mul ((i * a.snaps : ℕ) : ℝ) a.step_size.val⟩ : Rd R)) := by
      rw [List.forall₂_map_left_iff] at r2
      rw [← List.forall₂_eq_eq_eq, List.forall₂_map_right_iff]
      exact r2.flip.imp fun x y hxy => by rw [timeRow hxy, stepTime_float]
    rw [this]
    rfl
  have hk' : key ∈ ["time", "density", "omega", "phi"] := List.mem_cons_of_mem _ hkey
  have hkt : key ≠ "time" := by
    rintro rfl
    exact absurd hkey (by decide)
  obtain ⟨rows, r1, r2⟩ := g4 key hk'
  have hlen : rows.length = moreSteps β (a.until T1) T2.val / a.snaps := by
    rw [← r2.length_eq, List.length_map, List.length_range']
  refine ⟨rows, by rw [r1, rowShape, if_neg hkt], hlen, fun i hi t ht htT => ?_⟩
  rw [List.forall₂_map_left_iff] at r2
  have hil : i < (List.range' 1 (moreSteps β (a.until T1) T2.val / a.snaps)).length := by
    rw [List.length_range', ← hlen]
    exact hi
  have hrow := (List.forall₂_iff_get.mp r2).2 i hil hi
  simp only [List.get_eq_getElem, List.getElem_range', one_mul] at hrow
  rw [Nat.add_comm 1 i] at hrow
  have hj0 : 0 < storedStep (a.until T1) + (i + 1) * a.snaps := by
    have : 0 < (i + 1) * a.snaps := Nat.mul_pos (by omega) hp.snaps
    omega
  change (if key = "time" then _ else _) at hrow
  rw [if_neg hkt] at hrow
  obtain ⟨V, W, w1, w2, w3⟩ := hrow
  have hf : downsampling a.downsample_factor = false := by
    have := hp.full
    change a.downsample_factor.val = 1 at this
    simp [downsampling, FloatOps.eq, FloatOps.ofInt, this]
  unfold recordedValue at w2
  rw [hf] at w2
  simp only [Bool.false_eq_true, if_false] at w2
  injection w2 with w2
  injection w2 with w2
  subst w2
  refine ⟨V.map Casts.f32, w3, ?_⟩
  obtain ⟨b1, b2, b3⟩ := hx β _ _ v v0 hcast _ hj0 t ht htT
  obtain ⟨S1, S2, S3⟩ := hS (storedStep (a.until T1) + (i + 1) * a.snaps)
  simp only [List.mem_cons, List.not_mem_nil, or_false] at hkey
  rcases hkey with rfl | rfl | rfl
  · cases Cell.arr.inj (Option.some.inj (S1.symm.trans w1))
    exact b1
  · cases Cell.arr.inj (Option.some.inj (S2.symm.trans w1))
    exact b2
  · cases Cell.arr.inj (Option.some.inj (S3.symm.trans w1))
    exact b3

/-! ### non-vacuity: the drift wave until time 2, continued until time 4 -/

/-- the growing wave appears in the appended frames, too: with a buffer of one frame, at the times that follow those of the
first call -/
example : ∃ C, ∀ m : ℕ, 0 < m → ∃ dt : ℝ, 0 < dt ∧ ∃ (p : ℕ) (A : Gen.Arith (Rd (Rounded.binary p)))
    (f g : H5 (Rd (Rounded.binary p)) (Rd (Rounded.binary 24))) (rows : List (Cell (Rd (Rounded.binary 24)))),
    let a : Args (Rd (Rounded.binary p)) := { rdArgs (Rounded.binary p) m dt with buffer_length := 1 }
    let a1 := a.until ⟨2⟩
    (run (rdEnv A) a1 ⟨fun _ => none, []⟩).2.fs "run.h5" = some f ∧
    (run (rdEnv A) (a.continued ⟨4⟩) (run (rdEnv A) a1 ⟨fun _ => none, []⟩).2).2.fs "run.h5" = some g ∧
    g.dsets "phi" = some (.rows (.grid m m) (f.rowsOf "phi" ++ rows)) ∧
    rows.length = moreSteps (Rd (Rounded.binary 24)) a1 4 / 3 ∧
    ∀ i (hi : i < rows.length) (k : ℕ), k = (floatSteps a1 / 3 + (i + 1)) * 3 → (k : ℝ) * dt ≤ 5 →
      ∃ W : Arr (Rd (Rounded.binary 24)), rows[i] = .arr W ∧
        rms m m (floatErr (2 * Real.pi / m) (W.map fun y => (⟨y.val⟩ : Rd (Rounded.binary p)))
          fun y _ => amp (k * dt) * Real.cos (y - 4 * (k * dt)))
            ≤ C * ((2 * Real.pi / m) ^ 2 + 2 ^ (-(24 : ℤ))) := by
  obtain ⟨C, -, H⟩ := C141_continued_file_partial _ (by norm_num) (by norm_num) (by positivity) le_rfl (by norm_num)
    (drift_wave 5)
  refine ⟨C, fun m hm => ?_⟩
  obtain ⟨δ, hδ, H⟩ := H m numpyBackend hm (.inl rfl)
  obtain ⟨p, A, η, η0, hp, hA⟩ := C103_arithmetic_exists (hw := HW.init numpyBackend 1 1 1 1 1) (h := m) (w := m) hm hm (.inl rfl)
    (2 * Real.pi / m) (δ * δ) (by positivity)
  have u0 : (0 : ℝ) ≤ 2 ^ (-(p : ℤ)) := by positivity
  have hP := rd_poses A m hm δ (2 ^ (-(p : ℤ)) + η) hδ (by positivity)
  set a : Args (Rd (Rounded.binary p)) := { rdArgs (Rounded.binary p) m δ with buffer_length := 1 } with ha
  have hP' : FloatPoses (rdEnv A) A (a.until ⟨2⟩) ⟨fun _ => none, []⟩ ⟨0, 1, 3, 1 / 10, 1, 40 / 3, false⟩ (2 * Real.pi)
      (modeFam (5 / 3 * amp 0) (4 / 3 * amp 0) (4 * 0) 0 0) (modeFam (- amp 0) 0 (4 * 0) 0 0) (2 ^ (-(p : ℤ)) + η) m :=
    { hP with buffer := le_rfl }
  obtain ⟨f, f1, H⟩ := H _ (Rounded.binary p) A η (2 ^ (-(24 : ℤ))) u0 η0 (by positivity) _ rdSingle inferInstance
    (rdEnv A) a ⟨fun _ => none, []⟩ ⟨2⟩ ⟨4⟩ (fun x => nearest_err 24 x.val) hA hP' le_rfl hp rfl
    (Nat.succ_pos _)
  obtain ⟨-, g, g1, -, -, H⟩ := H fun _ _ _ _ => rfl
  obtain ⟨rows, r1, r2, r3⟩ := H "phi" (by simp)
  refine ⟨δ, hδ, p, A, f, g, rows, f1, g1, r1, r2, fun i hi k hk ht => ?_⟩
  have hk' : k = storedStep (a.until ⟨2⟩) + (i + 1) * 3 := by
    rw [storedStep_eq (a := a.until ⟨2⟩) (one_dvd _), hk]
    unfold floatFrames
    rw [Nat.add_sub_cancel, Nat.add_mul]
    rfl
  obtain ⟨W, w1, w2, -⟩ := r3 i hi _ (by rw [hk']; rfl) ht
  refine ⟨W, w1, ?_⟩
  have e : ∀ t : ℝ, fieldOf (fun t => modeFam (5 / 3 * amp t) (4 / 3 * amp t) (4 * t))
      (fun t => modeFam (- amp t) 0 (4 * t)) (fun t => modeFam (amp t) 0 (4 * t)) "phi" t
      = fun y _ => amp t * Real.cos (y - 4 * t) := by
    intro t
    funext y x
    simp only [fieldOf]
    rw [if_neg (by decide), if_neg (by decide), modeFam_zero]; ring
  rw [e] at w2
  exact w2

end Verif.Props
