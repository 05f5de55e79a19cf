import Verif.Props.RunDemo
import Verif.Lemmas.RunHW
import Verif.Props.HWHistory

/-!
# C43–C46, C50, C51, C55: `run`

`FreshRun E a σ hw ns steps m S` (see `Spec/Run.lean`) describes a call of `run`
that creates the file: `S n` is the state after `n` steps, `steps` the number of
steps the call asks for and `m` the number of steps until the loop is left.
Arithmetic on times, the physics, the downsampling and the storage conversion
are arbitrary, unless exact arithmetic is mentioned.
-/

set_option linter.unusedSectionVars false

namespace Verif.Props

open H5IO H5 Run

section general

variable {α β : Type} [Casts α β] [Zero α] [Inhabited α] [Inhabited β] [FloatOps α]
variable {E : Env α β} {a : Args α} {σ : St α β} {hw : Solver α} {ns m : ℕ} {steps : ℤ} {S : ℕ → NS (Cell α)}

/-- **C44.** A fresh run without NaN that records from the beginning: each of
the datasets `time`, `density`, `omega`, `phi` has exactly `steps / snaps + 1`
rows.  Row `j` belongs to the time `j * snaps * step_size` and to the state
after `j * snaps` steps; only for `j = 0` it is the initial state, which differs
from `S 0` in the potential (C46). -/
theorem C44_frames (h : FreshRun E a σ hw ns steps m S) (hm : m = steps.toNat)
    (h0 : FloatOps.eq a.recording_start_time (FloatOps.ofInt 0) = true)
    (hr : ∀ it, 1 ≤ it → it ≤ m → FloatOps.le a.recording_start_time (stepTime a it) = true)
    (k : String) (hk : k ∈ ["time", "density", "omega", "phi"]) (hp : k ∉ a.properties) :
    ∃ f rows, (run E a σ).2.fs a.output_path = some f ∧ f.dsets k = some (.rows (rowShape ns k) rows) ∧
      rows.length = steps.toNat / a.snaps + 1 ∧
      ∀ j (hj : j < rows.length), IsFrameRow E a.downsample_factor k
        (if j = 0 then FloatOps.ofInt 0 else stepTime a (j * a.snaps))
        (if j = 0 then a.plasma0 else S (j * a.snaps)) rows[j] := by
  obtain ⟨f, h1, -, -, -, h2, -⟩ := run_result h
  obtain ⟨rows, h3, h4⟩ := h2 k hk hp
  rw [frames_from_zero h0 hr] at h4
  have hlen := h4.length_eq
  rw [List.length_map, List.length_range] at hlen
  refine ⟨f, rows, h1, h3, by rw [← hlen, hm], fun j hj => ?_⟩
  rw [List.forall₂_iff_get] at h4
  have := h4.2 j (by rw [List.length_map, List.length_range]; omega) hj
  simp only [List.get_eq_getElem, List.getElem_map, List.getElem_range, frameAt] at this
  by_cases hj0 : j = 0
  · subst hj0
    exact this
  · rw [if_neg hj0] at this
    rw [if_neg hj0, if_neg hj0]
    exact this

/-- In the initial frame everything but the potential is that of `S 0`. -/
theorem C44_first_frame (h : FreshRun E a σ hw ns steps m S) (k : String) (hk : k ≠ "phi") :
    (S 0).get? k = a.plasma0.get? k := by
  obtain ⟨phi, -, h2⟩ := h.start
  rw [h2, NS.get?_set, if_neg hk]

/-- **C45.** With a recording start time other than 0 exactly the states after
the steps `it` with `recording_start_time ≤ it * step_size` and `snaps ∣ it` are
written, in order. -/
theorem C45_recording_start (h : FreshRun E a σ hw ns steps m S)
    (h0 : FloatOps.eq a.recording_start_time (FloatOps.ofInt 0) = false)
    (k : String) (hk : k ∈ ["time", "density", "omega", "phi"]) (hp : k ∉ a.properties) :
    ∃ f rows, (run E a σ).2.fs a.output_path = some f ∧ f.dsets k = some (.rows (rowShape ns k) rows) ∧
      List.Forall₂ (fun it row => IsFrameRow E a.downsample_factor k (stepTime a it) (S it) row)
        ((List.range' 1 m).filter fun it =>
          FloatOps.le a.recording_start_time (stepTime a it) && decide (a.snaps ∣ it)) rows := by
  obtain ⟨f, h1, -, -, -, h2, -⟩ := run_result h
  obtain ⟨rows, h3, h4⟩ := h2 k hk hp
  refine ⟨f, rows, h1, h3, ?_⟩
  unfold frames at h4
  rw [h0] at h4
  simp only [Bool.false_eq_true, if_false, List.nil_append, List.forall₂_map_left_iff] at h4
  convert h4 using 3 with it
  unfold isRecorded
  by_cases hd : it % a.snaps = 0 <;> simp [hd, Nat.dvd_iff_mod_eq_zero]

/-- **C51.** Suppose the density contains a NaN after step `m` and not earlier
(`m` is less than the number of steps asked for).  Then the run stops there,
whatever a further step would do, without an exception; exactly the
recorded states up to step `m` are in the file, and nothing is left in the
buffer. -/
theorem C51_nan_stops (h : FreshRun E a σ hw ns steps m S) (_hm : m < steps.toNat)
    (_hnan : nanState E (S m) = true) :
    ∃ f, (run E a σ).2.fs a.output_path = some f ∧ (a.properties = [] → (run E a σ).1 = .ok ()) ∧
      ∀ k ∈ ["time", "density", "omega", "phi"], k ∉ a.properties →
        ∃ rows, f.dsets k = some (.rows (rowShape ns k) rows) ∧
          List.Forall₂ (fun fr row => IsFrameRow E a.downsample_factor k fr.1 fr.2 row) (frames a S m) rows := by
  obtain ⟨f, h1, -, h2, -, h3, -⟩ := run_result h
  exact ⟨f, h1, h2, h3⟩

/-- **C43 (partial).** If the number of recorded frames is a positive multiple of
`buffer_length`, the `state_*` datasets hold the full-resolution state of the
last recorded frame.  Missing: other numbers of frames, for which this is false
(`C43_stale_state_violated`). -/
theorem C43_last_state_partial (h : FreshRun E a σ hw ns steps m S) (hst : a.saveState = true)
    (hn : frames a S m ≠ []) (hd : a.buffer_length ∣ (frames a S m).length) (k : String) (hk : k ∈ fieldList)
    (hp : "state_" ++ k ∉ a.properties) :
    ∃ f A, (run E a σ).2.fs a.output_path = some f ∧ f.dsets ("state_" ++ k) = some (.full A) ∧
      ((frames a S m).getLast hn).2.get? k = some (.arr A) := by
  obtain ⟨f, h1, -, -, -, -, h2⟩ := run_result h
  obtain ⟨A, h3, -, h4⟩ := h2 hst k hk hp
  refine ⟨f, A, h1, h3, ?_⟩
  have hpos : 0 < (frames a S m).length := List.length_pos_iff.mpr hn
  refine h4 _ (Nat.le_of_dvd hpos hd) ?_
  rw [Nat.mul_div_cancel' hd, List.getElem?_eq_getElem (by omega), List.getLast_eq_getElem]

/-- **C43 is violated** in all other cases: with `n` frames and `n` not a
multiple of `buffer_length`, the `state_*` datasets hold the state of frame
number `buffer_length * (n / buffer_length)` (counted from 1), which is before
the last one, or still zeros if `n < buffer_length`. -/
theorem C43_stale_state_violated (h : FreshRun E a σ hw ns steps m S) (hst : a.saveState = true)
    (hd : ¬ a.buffer_length ∣ (frames a S m).length) (k : String) (hk : k ∈ fieldList)
    (hp : "state_" ++ k ∉ a.properties) :
    ∃ f A, (run E a σ).2.fs a.output_path = some f ∧ f.dsets ("state_" ++ k) = some (.full A) ∧
      ((frames a S m).length < a.buffer_length → A = Arr.tab a.grid_pts a.grid_pts fun _ _ => 0) ∧
      (a.buffer_length ≤ (frames a S m).length → ∃ x,
        (frames a S m)[a.buffer_length * ((frames a S m).length / a.buffer_length) - 1]? = some x ∧
        a.buffer_length * ((frames a S m).length / a.buffer_length) - 1 + 1 < (frames a S m).length ∧
        x.2.get? k = some (.arr A)) := by
  obtain ⟨f, h1, -, -, -, -, h2⟩ := run_result h
  obtain ⟨A, h3, h5, h4⟩ := h2 hst k hk hp
  refine ⟨f, A, h1, h3, h5, fun hle => ?_⟩
  have hL := h.buffer
  have hdm := Nat.div_add_mod (frames a S m).length a.buffer_length
  have hmod : (frames a S m).length % a.buffer_length ≠ 0 := fun e => hd (Nat.dvd_of_mod_eq_zero e)
  have hq : 1 ≤ (frames a S m).length / a.buffer_length := (Nat.one_le_div_iff hL).mpr hle
  have := Nat.mul_le_mul_left a.buffer_length hq
  have hlt : a.buffer_length * ((frames a S m).length / a.buffer_length) - 1 < (frames a S m).length := by omega
  exact ⟨_, List.getElem?_eq_getElem hlt, by omega, h4 _ hle (List.getElem?_eq_getElem hlt)⟩

/-- **C50 (protection).** If the file exists and neither `force_recompute` nor
`continue_file` is set, `run` changes no file, at no moment; unless the size of the saved
frames cannot be computed it returns normally, without creating a simulation
(the result does not depend on `E.HW`). -/
theorem C50_protected (hpath : a.output_path ≠ "") (hf : (σ.fs a.output_path).isSome = true)
    (h1 : a.force_recompute = false) (h2 : a.continue_file = false) :
    (run E a σ).2 = σ ∧ (∀ n, saveDim a.grid_pts a.downsample_factor = .ok n → (run E a σ).1 = .ok ()) := by
  have key : run E a σ = (match saveDim a.grid_pts a.downsample_factor with
      | .ok _ => (.ok (), σ)
      | .error e => (.error e, σ)) := by
    unfold run
    rw [if_neg hpath]
    cases hs : saveDim a.grid_pts a.downsample_factor with
    | error e =>
      have : setup E a σ = (.error e, σ) := by
        unfold setup
        rw [hs]; rfl
      rw [IOM.bind_error this]
    | ok n =>
      have : setup E a σ = (.ok none, σ) := by
        unfold setup
        rw [hs]
        have hl : ∀ {X : Type} (x : X), (IOM.lift (.ok x) : IOM α β X) σ = (.ok x, σ) := fun _ => rfl
        rw [IOM.bind_ok (hl n), IOM.bind_ok (hl n)]
        have hi : (isFile a.output_path : IOM α β Bool) σ = (.ok (σ.fs a.output_path).isSome, σ) := rfl
        rw [IOM.bind_ok hi, hf, h1, h2]
        rfl
      rw [IOM.bind_ok this]
      rfl
  rw [key]
  constructor
  · split <;> rfl
  · intro n hn
    rw [hn]

/-- **C50 (replacement).** With `force_recompute` the old contents do not matter:
the attributes and all recorded rows are the same as if the file had not
existed; if no properties are requested, the whole file system (except other
files, which are unchanged) is the same. -/
theorem C50_replaced (h : FreshRun E a σ hw ns steps m S) (σ0 : St α β) (h0 : σ0.fs a.output_path = none) :
    ∃ f f0, (run E a σ).2.fs a.output_path = some f ∧ (run E a σ0).2.fs a.output_path = some f0 ∧
      (∀ q, q ≠ a.output_path → (run E a σ).2.fs q = σ.fs q) ∧ f.attrs = f0.attrs ∧
      (∀ k, k ∉ a.properties → f.dsets k = f0.dsets k) ∧ (a.properties = [] → f = f0) := by
  have h' : FreshRun E a σ0 hw ns steps m S := { h with fresh := .inl h0 }
  obtain ⟨s1, f1, b1, i1, e1, -, g1, r1⟩ := run_fresh h
  obtain ⟨s2, f2, b2, i2, e2, -, g2, r2⟩ := run_fresh h'
  rw [e1] at e2
  injection e2 with e3 e4
  injection e4 with e4 e5
  subst e3; subst e4; subst e5
  have key : ∀ (s : St α β) (σ : St α β), s.fs = upd σ.fs a.output_path (some (finalFile f1 b1 i1)) →
      run E a σ = (if !a.properties.isEmpty then
        RunProperties.calculate_properties E.props a.output_path a.buffer_length a.properties true
        else pure () : IOM α β Unit) s →
      ∃ g, (run E a σ).2.fs a.output_path = some g ∧
      (∀ q, q ≠ a.output_path → (run E a σ).2.fs q = s.fs q) ∧ g.attrs = (finalFile f1 b1 i1).attrs ∧
      ∀ k, k ∉ a.properties → g.dsets k = (finalFile f1 b1 i1).dsets k := by
    intro s σ hs hr
    have hp : s.fs a.output_path = some (finalFile f1 b1 i1) := by rw [hs, upd_same]
    rw [hr]
    by_cases hpr : a.properties.isEmpty = true
    · simp only [hpr]
      exact ⟨_, hp, fun _ _ => rfl, rfl, fun _ _ => rfl⟩
    · simp only [hpr]
      obtain ⟨l, -, -, hk, -⟩ := keeps_calculate (path := a.output_path) (fs := s.fs) (f0 := finalFile f1 b1 i1)
        (names := a.properties) E.props a.buffer_length true s (Keeps.refl hp)
      obtain ⟨g, h1, h2, h3⟩ := hk.file
      exact ⟨g, h1, hk.other, h2, h3⟩
  obtain ⟨u, u1, u2, u3, u4⟩ := key s1 σ g1 r1
  obtain ⟨v, v1, -, v3, v4⟩ := key s2 σ0 g2 r2
  refine ⟨u, v, u1, v1, fun q hq => by rw [u2 q hq, g1, upd_ne _ _ hq], by rw [u3, v3],
    fun k hk => by rw [u4 k hk, v4 k hk], fun hp => ?_⟩
  refine H5.ext' ?_ (by rw [u3, v3])
  funext k
  rw [u4 k (by rw [hp]; simp), v4 k (by rw [hp]; simp)]

/-- **C55 is violated**: with `output_path=''` every call of `run` fails before
the first step, whatever the other arguments are. -/
theorem C55_no_output_violated (h : a.output_path = "") :
    run E a σ = (.error (.unboundLocalError "save_params"), σ) := by
  unfold run
  rw [if_pos h]
  rfl

/-! ## C46 -/

/-- the potential of the state is the potential of its vorticity -/
def PhiOk (hw : Solver α) (dx : α) (s : NS (Cell α)) : Prop :=
  ∃ o p, s.get? "omega" = some o ∧ hw.get_phi o dx = .ok p ∧ s.get? "phi" = some p

/-- For a solver whose steps return consistent states, every recorded frame
after a step is consistent. -/
theorem later_frames (h : FreshRun E a σ hw ns steps m S)
    (hc : ∀ s s', hw.rk4_step s a.step_size a.dx = .ok s' → PhiOk hw a.dx s')
    (hp : "omega" ∉ a.properties ∧ "phi" ∉ a.properties) :
    ∃ f ro rp, (run E a σ).2.fs a.output_path = some f ∧ f.dsets "omega" = some (.rows (.grid ns ns) ro) ∧
      f.dsets "phi" = some (.rows (.grid ns ns) rp) ∧ ro.length = rp.length ∧
      ∀ j (h1 : j < ro.length) (h2 : j < rp.length),
        (j ≠ 0 ∨ FloatOps.eq a.recording_start_time (FloatOps.ofInt 0) = false) →
        ∃ t s, PhiOk hw a.dx s ∧ IsFrameRow E a.downsample_factor "omega" t s ro[j] ∧
          IsFrameRow E a.downsample_factor "phi" t s rp[j] := by
  obtain ⟨f, h1, -, -, -, h2, -⟩ := run_result h
  obtain ⟨ro, g1, g2⟩ := h2 "omega" (by decide) hp.1
  obtain ⟨rp, g3, g4⟩ := h2 "phi" (by decide) hp.2
  refine ⟨f, ro, rp, h1, g1, g3, by rw [← g2.length_eq, g4.length_eq], fun j j1 j2 hj => ?_⟩
  have l1 : j < (frames a S m).length := by rw [g2.length_eq]; exact j1
  rw [List.forall₂_iff_get] at g2 g4
  refine ⟨(frames a S m)[j].1, (frames a S m)[j].2, ?_, g2.2 j l1 j1, g4.2 j l1 j2⟩
  have hmem : ∃ it, 1 ≤ it ∧ it ≤ m ∧ (frames a S m)[j].2 = S it := by
    have hfr : (frames a S m)[j] ∈
        ((List.range' 1 m).filter (isRecorded a)).map fun it => (stepTime a it, S it) := by
      unfold frames
      by_cases h0 : FloatOps.eq a.recording_start_time (FloatOps.ofInt 0) = true
      · have hj0 : j ≠ 0 := hj.resolve_right (by rw [h0]; simp)
        obtain ⟨j, rfl⟩ := Nat.exists_eq_succ_of_ne_zero hj0
        simp only [h0, if_true, List.singleton_append, List.getElem_cons_succ]
        exact List.getElem_mem _
      · simp only [h0, Bool.false_eq_true, if_false, List.nil_append]
        exact List.getElem_mem _
    obtain ⟨it, hit, e⟩ := List.mem_map.mp hfr
    rw [List.mem_filter, List.mem_range'_1] at hit
    exact ⟨it, by omega, by omega, by rw [← e]⟩
  obtain ⟨it, i1, i2, e⟩ := hmem
  rw [e]
  obtain ⟨it, rfl⟩ : ∃ n, it = n + 1 := ⟨it - 1, by omega⟩
  exact hc _ _ (h.traj it (by omega))

/-- **C46 is violated by the first frame**: it stores the initial potential
`phi0` as it was given (random noise), not the potential of `omega0`. -/
theorem C46_first_frame_violated (h : FreshRun E a σ hw ns steps m S)
    (h0 : FloatOps.eq a.recording_start_time (FloatOps.ofInt 0) = true)
    (hp : "omega" ∉ a.properties ∧ "phi" ∉ a.properties) :
    ∃ f ro rp, (run E a σ).2.fs a.output_path = some f ∧
      f.dsets "omega" = some (.rows (.grid ns ns) ro) ∧ f.dsets "phi" = some (.rows (.grid ns ns) rp) ∧
      ∃ A B A' B' : Arr α, a.omega0 = .arr A ∧ recordedValue E a.downsample_factor (.arr A) = .ok (.arr B) ∧
        ro[0]? = some (.arr (B.map Casts.f32)) ∧
        a.phi0 = .arr A' ∧ recordedValue E a.downsample_factor (.arr A') = .ok (.arr B') ∧
        rp[0]? = some (.arr (B'.map Casts.f32)) := by
  obtain ⟨f, h1, -, -, -, h2, -⟩ := run_result h
  obtain ⟨ro, g1, g2⟩ := h2 "omega" (by decide) hp.1
  obtain ⟨rp, g3, g4⟩ := h2 "phi" (by decide) hp.2
  unfold frames at g2 g4
  rw [if_pos h0, List.singleton_append, List.forall₂_cons_left_iff] at g2 g4
  obtain ⟨r1, l1, p1, -, rfl⟩ := g2
  obtain ⟨r2, l2, p2, -, rfl⟩ := g4
  refine ⟨f, _, _, h1, g1, g3, ?_⟩
  unfold IsFrameRow at p1 p2
  rw [if_neg (by decide)] at p1 p2
  obtain ⟨A, B, q1, q2, rfl⟩ := p1
  obtain ⟨A', B', q3, q4, rfl⟩ := p2
  have e1 : a.plasma0.get? "omega" = some a.omega0 := rfl
  have e2 : a.plasma0.get? "phi" = some a.phi0 := rfl
  rw [e1] at q1
  rw [e2] at q3
  injection q1 with q1
  injection q3 with q3
  exact ⟨A, B, A', B', q1, q2, rfl, q3, q4, rfl⟩

end general

/-! ## exact arithmetic -/

section exact

attribute [local instance] exactOps

variable {K β : Type} [Field K] [LinearOrder K] [IsStrictOrderedRing K] [FloorRing K] [Casts K β] [Inhabited K]
  [Inhabited β]
variable {E : Env K β} {a : Args K} {σ : St K β} {hw : Solver K} {ns m : ℕ} {steps : ℤ} {S : ℕ → NS (Cell K)}

theorem exact_steps (h : FreshRun E a σ hw ns steps m S) (hstep : 0 < a.step_size) (hend : 0 ≤ a.end_time) :
    steps = ⌊a.end_time / a.step_size⌋ := by
  obtain ⟨q, h1, h2⟩ := h.count
  simp only [FloatOps.div, FloatOps.sub, FloatOps.ofInt, Int.cast_zero, sub_zero] at h1
  rw [if_neg hstep.ne'] at h1
  injection h1 with h1
  simp only [FloatOps.toInt, truncZ] at h2
  rw [if_pos (by rw [← h1]; positivity)] at h2
  injection h2 with h2
  rw [← h2, ← h1]

theorem exact_time (it : ℕ) : stepTime a it = it * a.step_size := by
  simp [stepTime, FloatOps.mul, FloatOps.ofInt]

/-- **C44 in exact arithmetic**: `⌊end_time / step_size⌋ / snaps + 1` frames; the
time of frame `j` is `j * snaps * step_size` (as `float32`) and the fields are
those of the state after `j * snaps` steps (initial state for `j = 0`). -/
theorem C44_frames_exact (h : FreshRun E a σ hw ns steps m S) (hm : m = steps.toNat) (hstep : 0 < a.step_size)
    (hend : 0 ≤ a.end_time) (h0 : a.recording_start_time = 0) (hp : a.properties = []) :
    ∃ f times, (run E a σ).1 = .ok () ∧ (run E a σ).2.fs a.output_path = some f ∧
      f.dsets "time" = some (.rows .one times) ∧
      times = (List.range (⌊a.end_time / a.step_size⌋.toNat / a.snaps + 1)).map
        (fun j => .num (Casts.f32 ((j * a.snaps : ℕ) * a.step_size))) ∧
      ∀ k ∈ ["density", "omega", "phi"], ∃ rows, f.dsets k = some (.rows (.grid ns ns) rows) ∧
        rows.length = ⌊a.end_time / a.step_size⌋.toNat / a.snaps + 1 ∧
        ∀ j (hj : j < rows.length), ∃ A B : Arr K,
          (if j = 0 then a.plasma0 else S (j * a.snaps)).get? k = some (.arr A) ∧
          recordedValue E a.downsample_factor (.arr A) = .ok (.arr B) ∧ rows[j] = .arr (B.map Casts.f32) := by
  have hs := exact_steps h hstep hend
  have key := fun k hk => C44_frames h hm (by simp [FloatOps.eq, FloatOps.ofInt, h0])
    (fun it _ _ => by simp only [FloatOps.le, exact_time, h0, decide_eq_true_eq]; positivity) k hk (by rw [hp]; simp)
  obtain ⟨f, times, h1, h2, h3, h4⟩ := key "time" (by simp)
  have hok := (run_result h).choose_spec.2.2.1 hp
  refine ⟨f, times, hok, h1, h2, ?_, fun k hk => ?_⟩
  · refine List.ext_getElem (by rw [List.length_map, List.length_range, h3, hs]) fun j j1 j2 => ?_
    have := h4 j j1
    unfold IsFrameRow at this
    rw [if_pos rfl] at this
    rw [this, List.getElem_map, List.getElem_range]
    by_cases hj : j = 0
    · subst hj
      simp [FloatOps.ofInt]
    · rw [if_neg hj, exact_time]
  · obtain ⟨f', rows, g1, g2, g3, g4⟩ := key k (List.mem_cons_of_mem _ hk)
    rw [h1] at g1
    injection g1 with g1
    subst g1
    have hkt : k ≠ "time" := by rintro rfl; simp at hk
    unfold rowShape at g2
    rw [if_neg hkt] at g2
    refine ⟨rows, g2, by rw [g3, hs], fun j hj => ?_⟩
    have := g4 j hj
    unfold IsFrameRow at this
    rwa [if_neg hkt] at this

/-- **C45 in exact arithmetic** -/
theorem C45_recording_start_exact (h : FreshRun E a σ hw ns steps m S) (hm : m = steps.toNat)
    (hstep : 0 < a.step_size) (hend : 0 ≤ a.end_time) (h0 : 0 < a.recording_start_time)
    (k : String) (hk : k ∈ ["time", "density", "omega", "phi"]) (hp : k ∉ a.properties) :
    ∃ f rows, (run E a σ).2.fs a.output_path = some f ∧ f.dsets k = some (.rows (rowShape ns k) rows) ∧
      List.Forall₂ (fun (it : ℕ) row => IsFrameRow E a.downsample_factor k ((it : K) * a.step_size) (S it) row)
        ((List.range' 1 ⌊a.end_time / a.step_size⌋.toNat).filter fun it : ℕ =>
          decide (a.recording_start_time ≤ (it : K) * a.step_size ∧ a.snaps ∣ it)) rows := by
  obtain ⟨f, rows, h1, h2, h3⟩ := C45_recording_start h
    (by simp [FloatOps.eq, FloatOps.ofInt, h0.ne']) k hk hp
  refine ⟨f, rows, h1, h2, ?_⟩
  rw [hm, exact_steps h hstep hend] at h3
  simp only [exact_time, FloatOps.le] at h3
  convert h3 using 3 with it
  simp

end exact

/-- **C46 (partial).** With the simulation of `model.py`, every recorded frame
that was written after a step stores the vorticity and the potential of one
state in which `phi = get_phi(omega)`.  Missing: the initial frame
(`C46_first_frame_violated`). -/
theorem C46_later_frames_partial {β : Type} [Casts ℝ β] [Inhabited β] [FloatOps ℝ] {E : Env ℝ β} {a : Args ℝ} {σ : St ℝ β}
    {hw : HW} {ns m : ℕ} {steps : ℤ} {S : ℕ → NS (Cell ℝ)} (h : FreshRun E a σ (hwSolver hw) ns steps m S)
    (hp : "omega" ∉ a.properties ∧ "phi" ∉ a.properties) :
    ∃ f ro rp, (run E a σ).2.fs a.output_path = some f ∧ f.dsets "omega" = some (.rows (.grid ns ns) ro) ∧
      f.dsets "phi" = some (.rows (.grid ns ns) rp) ∧ ro.length = rp.length ∧
      ∀ j (h1 : j < ro.length) (h2 : j < rp.length),
        (j ≠ 0 ∨ FloatOps.eq a.recording_start_time (FloatOps.ofInt 0) = false) →
        ∃ t s o p, s.get? "omega" = some o ∧ (hwSolver hw).get_phi o a.dx = .ok p ∧ s.get? "phi" = some p ∧
          IsFrameRow E a.downsample_factor "omega" t s ro[j] ∧ IsFrameRow E a.downsample_factor "phi" t s rp[j] := by
  obtain ⟨f, ro, rp, h1, h2, h3, h4, h5⟩ := later_frames h (fun s s' hs => hwSolver_consistent hw hs) hp
  refine ⟨f, ro, rp, h1, h2, h3, h4, fun j j1 j2 hj => ?_⟩
  obtain ⟨t, s, ⟨o, p, a1, a2, a3⟩, b1, b2⟩ := h5 j j1 j2 hj
  exact ⟨t, s, o, p, a1, a2, a3, b1, b2⟩

/-! ## non-vacuity -/

/-- the file system in which no file exists -/
def noFiles : St ℚ ℚ := ⟨fun _ => none, []⟩

/-- four steps, recorded after 0, 2 and 4 steps; buffer of length 2 -/
theorem demo_fresh4 : FreshRun demoRunEnv demoArgs noFiles demoSolver 2 4 4 (demoStates (1 / 2) demoStart) :=
  demo_fresh 2 4 (by norm_num) (by decide) 0 2 2 (by decide) (by decide) noFiles rfl

example := C44_frames demo_fresh4 (by simp) (by simp [FloatOps.eq, FloatOps.ofInt, demoArgs])
  (by intro it _ _; simp [FloatOps.le, stepTime, FloatOps.mul, FloatOps.ofInt, demoArgs])
  "omega" (by simp) (by simp [demoArgs])

example := C44_frames_exact demo_fresh4 (by simp) (by norm_num [demoArgs]) (by norm_num [demoArgs]) rfl rfl

/-- recording from time 3/4 on: the steps 2 and 4 (times 1 and 2) -/
example := C45_recording_start_exact
  (demo_fresh 2 4 (by norm_num) (by decide) (3 / 4) 2 2 (by decide) (by decide) noFiles rfl)
  (by simp) (by norm_num [demoArgs]) (by norm_num) (by norm_num) "phi" (by simp) (by simp [demoArgs])

example := C45_recording_start
  (demo_fresh 2 4 (by norm_num) (by decide) (3 / 4) 2 2 (by decide) (by decide) noFiles rfl)
  (by norm_num [FloatOps.eq, FloatOps.ofInt]) "phi" (by simp) (by simp [demoArgs])

theorem demo_frames4 (end_time : ℚ) (L : ℕ) (S : ℕ → NS (Cell ℚ)) :
    (frames { demoArgs with end_time := end_time, buffer_length := L, snaps := 2, recording_start_time := 0 } S 4).length
      = 3 := by
  simp [frames, isRecorded, FloatOps.eq, FloatOps.le, FloatOps.ofInt, stepTime, FloatOps.mul, demoArgs, List.range']

theorem demo_frames4' (S : ℕ → NS (Cell ℚ)) : (frames demoArgs S 4).length = 3 := demo_frames4 2 2 S

/-- C43: three frames, buffer of length 3: up to date -/
example := C43_last_state_partial
  (demo_fresh 2 4 (by norm_num) (by decide) 0 3 2 (by decide) (by decide) noFiles rfl)
  (by simp [demoArgs, Args.saveState]) (by simp [frames, FloatOps.eq, FloatOps.ofInt])
  (by rw [demo_frames4]) "omega" (by simp [fieldList]) (by simp [demoArgs])

/-- C43: three frames, buffer of length 2: the stored state is that of the second frame -/
example := C43_stale_state_violated demo_fresh4
  (by simp [demoArgs, Args.saveState]) (by rw [demo_frames4']; decide) "omega" (by simp [fieldList]) (by simp [demoArgs])

/-- C43 concretely: the last recorded density is that after 4 steps, the stored
state that after 2 steps. -/
theorem C43_demo_violated :
    ∃ f, (run demoRunEnv demoArgs noFiles).2.fs demoArgs.output_path = some f ∧
      f.dsets "state_density" = some (.full (demoField 12)) ∧
      (∃ rows, f.dsets "density" = some (.rows (.grid 2 2) rows) ∧
        rows.getLast? = some (.arr ((demoField 14).map Casts.f32))) := by
  have h : FreshRun demoRunEnv demoArgs noFiles demoSolver 2 4 4 (demoStates (1 / 2) demoStart) := demo_fresh4
  have hfr : frames demoArgs (demoStates (1 / 2) demoStart) 4 = [(0, demoArgs.plasma0),
      (stepTime demoArgs 2, demoStates (1 / 2) demoStart 2), (stepTime demoArgs 4, demoStates (1 / 2) demoStart 4)] := by
    simp [frames, isRecorded, FloatOps.eq, FloatOps.le, FloatOps.ofInt, stepTime, FloatOps.mul, demoArgs, List.range']
  obtain ⟨f, h1, -, -, -, h2, h3⟩ := run_result h
  refine ⟨f, h1, ?_, ?_⟩
  · obtain ⟨A, a1, -, a3⟩ := h3 (by simp [demoArgs, Args.saveState]) "density" (by simp [fieldList])
      (by simp [demoArgs])
    have := a3 (stepTime demoArgs 2, demoStates (1 / 2) demoStart 2) (by rw [hfr]; simp [demoArgs])
      (by rw [hfr]; simp [demoArgs])
    rw [demoStates_get _ _ 10 _ rfl] at this
    have this := Cell.arr.inj (Option.some.inj this)
    have e : "state_" ++ "density" = "state_density" := by decide
    rw [e] at a1
    rw [a1, ← this]
    norm_num
  · obtain ⟨rows, r1, r2⟩ := h2 "density" (by decide) (by simp [demoArgs])
    refine ⟨rows, r1, ?_⟩
    rw [hfr] at r2
    rw [List.forall₂_cons_left_iff] at r2
    obtain ⟨_, _, -, r2, rfl⟩ := r2
    rw [List.forall₂_cons_left_iff] at r2
    obtain ⟨_, _, -, r2, rfl⟩ := r2
    rw [List.forall₂_cons_left_iff] at r2
    obtain ⟨_, _, p, r2, rfl⟩ := r2
    rw [List.forall₂_nil_left_iff] at r2
    subst r2
    unfold IsFrameRow at p
    rw [if_neg (by decide)] at p
    obtain ⟨A, B, q1, q2, rfl⟩ := p
    rw [demoStates_get _ _ 10 _ rfl] at q1
    have q1 := Cell.arr.inj (Option.some.inj q1)
    have hd : downsampling demoArgs.downsample_factor = false := by
      simp [downsampling, demoArgs, FloatOps.eq, FloatOps.ofInt]
    simp only [recordedValue, hd, Bool.false_eq_true, if_false] at q2
    have q2 := Cell.arr.inj (Except.ok.inj q2)
    rw [← q2, ← q1]
    simp only [List.getLast?_cons_cons, List.getLast?_singleton]
    norm_num

example := C46_first_frame_violated demo_fresh4 (by simp [FloatOps.eq, FloatOps.ofInt, demoArgs]) (by simp [demoArgs])

/-- C46: in that run `phi0` is not the potential of `omega0` -/
example : demoSolver.get_phi demoArgs.omega0 demoArgs.dx ≠ .ok demoArgs.phi0 := by
  intro h
  simp only [demoSolver, demoArgs] at h
  injection h with h
  injection h with h
  have := congrArg (fun A : Arr ℚ => A.at' 0 0) h
  simp only [demoField_corner] at this
  rw [demoField, Arr.map_tab, Arr.tab_at' _ _ _ (by decide) (by decide)] at this
  norm_num at this

/-- C51: the density is 100 (the "NaN" of the demo) after 5 of 8 steps -/
theorem demo_nan : FreshRun { demoRunEnv with hasNaN := fun v => match v with
      | .arr a => decide (a.at' 0 0 = 15)
      | .num _ => false }
    { demoArgs with end_time := 4 } noFiles demoSolver 2 8 5 (demoStates (1 / 2) demoStart) where
  path := by simp [demoArgs]
  fresh := .inl rfl
  buffer := by simp [demoArgs]
  snaps := by simp [demoArgs]
  saves := ⟨demo_saves.dim, demo_saves.down⟩
  init := demo_init 10 20 30 _
  solver := rfl
  start := ⟨_, rfl, rfl⟩
  count := by
    refine ⟨8, ?_, ?_⟩
    · simp only [FloatOps.div, FloatOps.sub, FloatOps.ofInt, demoArgs]
      norm_num
    · simp only [FloatOps.toInt, truncZ]
      norm_num
  traj := demo_step _ _ _ _
  shaped := fun n _ _ => demo_shaped _ _ demoStart_shaped n
  stops := by
    have key : ∀ n : ℕ, nanState { demoRunEnv with hasNaN := fun v => match v with
        | .arr a => decide (a.at' 0 0 = 15)
        | .num _ => false } (demoStates (1 / 2) demoStart n) = decide ((10 : ℚ) + n = 15) := by
      intro n
      unfold nanState
      rw [demoStates_get _ _ 10 _ rfl]
      simp only [demoField_corner]
    refine ⟨fun j h1 h2 => ?_, .inr ⟨by decide, by decide, ?_⟩⟩
    · rw [key, decide_eq_false_iff_not]
      have : (j : ℚ) < 5 := by exact_mod_cast h2
      intro h; linarith
    · rw [key]; norm_num

example := C51_nan_stops demo_nan (by decide) (by
  unfold nanState
  rw [demoStates_get _ _ 10 _ rfl]
  simp only [demoField_corner]
  norm_num)

/-- C50: an existing file -/
example := C50_protected (E := demoRunEnv) (a := demoArgs) (σ := ⟨fun _ => some demoRun, []⟩)
  (by simp [demoArgs]) rfl rfl rfl

theorem demo_force : FreshRun demoRunEnv { demoArgs with force_recompute := true } ⟨fun _ => some demoRun, []⟩
    demoSolver 2 4 4 (demoStates (1 / 2) demoStart) :=
  { demo_fresh4 with fresh := .inr rfl }

example := C50_replaced demo_force noFiles rfl

example := C55_no_output_violated (E := demoRunEnv) (a := { demoArgs with output_path := "" }) (σ := noFiles) rfl

example := C44_first_frame demo_fresh4 "omega" (by decide)

end Verif.Props
