import Verif.Props.Run2Split
import Mathlib.Algebra.Order.Floor.Semiring
import Mathlib.Tactic.FieldSimp

/-!
# C73: the parameters stored in a file describe its frames
-/

set_option linter.unusedSectionVars false

namespace Verif.Props

open H5IO H5 Run Run2

/-! ### the stored parameters (for every arithmetic) -/

section

variable {α β : Type} [Casts α β] [Zero α] [Inhabited α] [Inhabited β] [FloatOps α]

/-- the parameters every output file contains, besides `zonal` and `adaptive_step_size` -/
structure Describes (f : H5 α β) (a : Args α) (ns : ℕ) : Prop where
  dt : f.attrs "dt" = some (.num a.step_size)
  frame_dt : f.attrs "frame_dt" = some (.num (FloatOps.mul a.step_size (FloatOps.ofInt a.snaps)))
  x : f.attrs "x" = some (.int a.grid_pts)
  y : f.attrs "y" = some (.int a.grid_pts)
  grid_pts : f.attrs "grid_pts" = some (.int a.grid_pts)
  x_save : f.attrs "x_save" = some (.int ns)
  y_save : f.attrs "y_save" = some (.int ns)
  initial_time : f.attrs "initial_time" = some (.num a.recording_start_time)
  dx : f.attrs "dx" = some (.num a.dx)
  N : f.attrs "N" = some (.int a.N)
  c1 : f.attrs "c1" = some (.num a.c1)
  nu : f.attrs "nu" = some (.num a.nu)
  k0 : f.attrs "k0" = some (.num a.k0)
  poisson_bracket_coeff : f.attrs "poisson_bracket_coeff" = some (.num a.poisson_bracket_coeff)
  kappa_coeff : f.attrs "kappa_coeff" = some (.num a.kappa_coeff)

/-- **C73 (parameters, `run`).** The file of a new run contains all parameters of
the call: physics, step size, time between frames `dt * snaps`, size of the grid
and of the stored frames, start of the recording. -/
theorem C73_run_parameters {E : Env α β} {a : Args α} {σ : St α β} {hw : Solver α} {ns m : ℕ} {steps : ℤ}
    {S : ℕ → NS (Cell α)} (h : FreshRun E a σ hw ns steps m S) :
    ∃ f, (run E a σ).2.fs a.output_path = some f ∧ Describes f a ns ∧
      f.attrs "adaptive_step_size" = some (.bool false) ∧ f.attrs "zonal" = none := by
  obtain ⟨f, h1, -, -, h2, -⟩ := run_result h
  have key : ∀ k, f.attrs k = (get_save_params a.physics a.step_size a.snaps a.grid_pts a.grid_pts (some ns) (some ns)
      a.recording_start_time false).get? k := h2
  simp only [get_save_params, NS.get?_set] at key
  refine ⟨f, h1, ?_, ?_, ?_⟩
  · constructor <;> rw [key] <;> simp only [String.reduceEq, if_true, if_false] <;> rfl
  · rw [key]; simp only [if_true]
  · rw [key]; simp only [String.reduceEq, if_false]; rfl

/-- **C73 (parameters, `run2`).** -/
theorem C73_run2_parameters {E : Env2 α β} {a : Args2 α} {σ : St α β} {hw : Solver α} {ns m fuel : ℕ}
    {S : ℕ → NS (Cell α)} (h : FreshRun2 E a σ hw ns m S) (hfuel : m < fuel) :
    ∃ f, (run2 E a fuel σ).2.fs a.output_path = some f ∧ Describes f a.toArgs ns ∧
      f.attrs "adaptive_step_size" = some (.bool a.adaptive_step_size) ∧ f.attrs "zonal" = some (.bool a.zonal) := by
  obtain ⟨f, h1, -, -, -, h2, -⟩ := run2_result h hfuel
  have key : ∀ k, f.attrs k = (get_save_params a.physics2 a.step_size a.snaps a.grid_pts a.grid_pts (some ns) (some ns)
      a.recording_start_time a.adaptive_step_size).get? k := h2
  simp only [get_save_params, NS.get?_set] at key
  refine ⟨f, h1, ?_, ?_, ?_⟩
  · constructor <;> rw [key] <;> simp only [String.reduceEq, if_true, if_false] <;> rfl
  · rw [key]; simp only [if_true]
  · rw [key]; simp only [String.reduceEq, if_false]; rfl

end

/-! ### the times of the frames (exact arithmetic) -/

section

attribute [local instance] exactOps

variable {K β : Type} [Field K] [LinearOrder K] [IsStrictOrderedRing K] [FloorRing K] [Casts K β] [Inhabited K]
  [Inhabited β]

/-- the times a run of `m` steps with recording start `r` and `s` steps per frame records -/
theorem recorded_times {r dt : K} {s m : ℕ} (hdt : 0 < dt) (hs : 1 ≤ s) (hr : 0 ≤ r) :
    (if r = 0 then [(0 : K)] else []) ++
      ((List.range' 1 m).filter fun it : ℕ => decide (r ≤ (it : K) * dt) && it % s == 0).map (fun it : ℕ => (it : K) * dt)
    = (List.range' ⌈r / (dt * s)⌉₊ (m / s + 1 - ⌈r / (dt * s)⌉₊)).map fun q : ℕ => (q : K) * (dt * s) := by
  have hs' : (0 : K) < s := by exact_mod_cast hs
  have hfd : 0 < dt * (s : K) := mul_pos hdt hs'
  have hle : ∀ q : ℕ, r ≤ (q : K) * (dt * s) ↔ ⌈r / (dt * s)⌉₊ ≤ q := by
    intro q
    rw [Nat.ceil_le, div_le_iff₀ hfd]
  set c := ⌈r / (dt * s)⌉₊ with hc
  have h1 : ((List.range' 1 m).filter fun it : ℕ => decide (r ≤ (it : K) * dt) && it % s == 0)
      = ((List.range' 1 (m / s)).filter fun q : ℕ => decide (c ≤ q)).map (· * s) := by
    rw [show (fun it : ℕ => decide (r ≤ (it : K) * dt) && it % s == 0)
        = fun it : ℕ => (decide (r ≤ (it : K) * dt)) && (fun it => it % s == 0) it from rfl, ← List.filter_filter,
      filter_multiples, List.filter_map]
    congr 1
    refine List.filter_congr fun q _ => ?_
    simp only [Function.comp]
    rw [decide_eq_decide, ← hle]
    push_cast
    rw [mul_comm dt, ← mul_assoc]
  have h2 : (if r = 0 then [(0 : K)] else []) = (([0] : List ℕ).filter fun q : ℕ => decide (c ≤ q)).map
      (fun q : ℕ => (q : K) * (dt * s)) := by
    have h0 := hle 0
    rw [Nat.cast_zero, zero_mul] at h0
    by_cases hr0 : r = 0
    · have : c ≤ 0 := h0.mp hr0.le
      simp [hr0, this]
    · have : ¬ c ≤ 0 := fun hh => hr0 (le_antisymm (h0.mpr hh) hr)
      rw [if_neg hr0, List.filter_cons_of_neg (by simpa using this)]
      rfl
  have h3 : ∀ n : ℕ, (List.range n).filter (fun q => decide (c ≤ q)) = List.range' c (n - c) := by
    intro n
    induction n with
    | zero => simp
    | succ n ih =>
      rw [List.range_succ, List.filter_append, ih]
      by_cases hcn : c ≤ n
      · rw [Nat.succ_sub hcn, List.range'_concat]
        simp [hcn]
      · rw [Nat.sub_eq_zero_of_le (by omega), Nat.sub_eq_zero_of_le (by omega)]
        simp [hcn]
  have h4 : List.range (m / s + 1) = [0] ++ List.range' 1 (m / s) := by
    rw [List.range_eq_range', List.range'_succ]
    rfl
  rw [h1, h2, List.map_map, ← h3, h4, List.filter_append, List.map_append]
  congr 1
  refine List.map_congr_left fun q _ => ?_
  simp only [Function.comp]
  push_cast
  ring

/-- **C73 (times, `run`).** Every new run with `recording_start_time ≥ 0`: the
`j`-th frame has the time `(⌈initial_time / frame_dt⌉ + j) * frame_dt`. -/
theorem C73_run_times {E : Env K β} {a : Args K} {σ : St K β} {hw : Solver K} {ns m : ℕ} {steps : ℤ}
    {S : ℕ → NS (Cell K)} (h : FreshRun E a σ hw ns steps m S) (hdt : 0 < a.step_size)
    (hr : 0 ≤ a.recording_start_time) (hp : "time" ∉ a.properties) :
    ∃ f fd rows, (run E a σ).2.fs a.output_path = some f ∧ f.attrs "frame_dt" = some (.num fd) ∧
      f.attrs "initial_time" = some (.num a.recording_start_time) ∧ 0 < fd ∧ f.dsets "time" = some (.rows .one rows) ∧
      rows.length = m / a.snaps + 1 - ⌈a.recording_start_time / fd⌉₊ ∧
      ∀ j (hj : j < rows.length), rows[j] = .num (Casts.f32 (((⌈a.recording_start_time / fd⌉₊ + j : ℕ) : K) * fd)) := by
  obtain ⟨f, h1, hd, -⟩ := C73_run_parameters h
  obtain ⟨f', h1', -, -, -, h3, -⟩ := run_result h
  obtain rfl : f' = f := Option.some.inj (h1'.symm.trans h1)
  obtain ⟨rows, h4, h5⟩ := h3 "time" (by simp) hp
  have ht := recorded_times (m := m) hdt h.snaps hr
  have hfr : (frames a S m).map (·.1) = (List.range' ⌈a.recording_start_time / (a.step_size * a.snaps)⌉₊
      (m / a.snaps + 1 - ⌈a.recording_start_time / (a.step_size * a.snaps)⌉₊)).map
        fun q : ℕ => (q : K) * (a.step_size * a.snaps) := by
    rw [← ht]
    unfold frames
    rw [List.map_append, List.map_map]
    congr 1
    · have : FloatOps.eq a.recording_start_time (FloatOps.ofInt 0) = decide (a.recording_start_time = 0) := by
        simp [FloatOps.eq, FloatOps.ofInt]
      rw [this]
      by_cases h0 : a.recording_start_time = 0
      · simp [h0, FloatOps.ofInt]
      · simp [h0]
    · have : isRecorded a = fun it : ℕ => decide (a.recording_start_time ≤ (it : K) * a.step_size) && it % a.snaps == 0 := by
        funext it
        unfold isRecorded
        rw [exact_time]
        rfl
      rw [this]
      refine List.map_congr_left fun it _ => ?_
      simp only [Function.comp]
      exact exact_time it
  have hlen := congrArg List.length hfr
  rw [List.length_map, List.length_map, List.length_range'] at hlen
  refine ⟨f', a.step_size * a.snaps, rows, h1, by rw [hd.frame_dt]; simp [FloatOps.mul, FloatOps.ofInt], hd.initial_time,
    mul_pos hdt (by exact_mod_cast h.snaps), h4, by rw [← h5.length_eq, hlen], fun j hj => ?_⟩
  rw [List.forall₂_iff_get] at h5
  have := h5.2 j (by rw [h5.1]; exact hj) hj
  unfold IsFrameRow at this
  rw [if_pos rfl] at this
  refine (show rows[j] = _ from this).trans ?_
  have e : (frames a S m)[j].1 = ((frames a S m).map (·.1))[j]'(by rw [List.length_map, h5.1]; exact hj) :=
    (List.getElem_map ..).symm
  simp only [List.get_eq_getElem]
  rw [e]
  simp only [hfr, List.getElem_map, List.getElem_range', one_mul]

/-- **C73 (times, `run2`)**, if the run ends after `recording_start_time` (see C52). -/
theorem C73_run2_times {E : Env2 K β} {a : Args2 K} {σ : St K β} {hw : Solver K} {ns m fuel : ℕ}
    {S : ℕ → NS (Cell K)} (h : FreshRun2 E a σ hw ns m S) (hfuel : m < fuel) (hdt : 0 < a.step_size)
    (hsum : a.adaptive_step_size = true → ∀ l, E.sum l = l.sum)
    (hr : 0 ≤ a.recording_start_time) (hend : a.recording_start_time < m * a.step_size) (hp : "time" ∉ a.properties) :
    ∃ f fd rows, (run2 E a fuel σ).2.fs a.output_path = some f ∧ f.attrs "frame_dt" = some (.num fd) ∧
      f.attrs "initial_time" = some (.num a.recording_start_time) ∧ 0 < fd ∧ f.dsets "time" = some (.rows .one rows) ∧
      rows.length = m / a.snaps + 1 - ⌈a.recording_start_time / fd⌉₊ ∧
      ∀ j (hj : j < rows.length), rows[j] = .num (Casts.f32 (((⌈a.recording_start_time / fd⌉₊ + j : ℕ) : K) * fd)) := by
  have e0 : (FloatOps.ofInt 0 : K) = 0 := by simp [FloatOps.ofInt]
  have htime : ∀ it : ℕ, timeAt E a (FloatOps.ofInt 0) it = (it : K) * a.step_size := fun it => by
    rw [exact_timeAt hsum, e0, zero_add]
  obtain ⟨f, h1, hd, -⟩ := C73_run2_parameters h hfuel
  obtain ⟨f', h1', -, h3, -⟩ := C52_all_written_partial h hfuel
    (by rw [htime]; exact decide_eq_true hend)
  obtain rfl : f' = f := Option.some.inj (h1'.symm.trans h1)
  obtain ⟨rows, h4, h5⟩ := h3 "time" (by simp) hp
  have ht := recorded_times (m := m) hdt h.snaps hr
  have hfr : (frames2 E a S m).map (·.1) = (List.range' ⌈a.recording_start_time / (a.step_size * a.snaps)⌉₊
      (m / a.snaps + 1 - ⌈a.recording_start_time / (a.step_size * a.snaps)⌉₊)).map
        fun q : ℕ => (q : K) * (a.step_size * a.snaps) := by
    rw [← ht]
    unfold frames2 stepFrames2
    rw [List.map_append, List.map_map]
    congr 1
    · have : FloatOps.eq a.recording_start_time (FloatOps.ofInt 0) = decide (a.recording_start_time = 0) := by
        simp [FloatOps.eq, FloatOps.ofInt]
      rw [this]
      by_cases h0 : a.recording_start_time = 0
      · simp [h0, FloatOps.ofInt]
      · simp [h0]
    · have : isRecorded2 E a (FloatOps.ofInt 0)
          = fun it : ℕ => decide (a.recording_start_time ≤ (it : K) * a.step_size) && it % a.snaps == 0 := by
        funext it
        unfold isRecorded2
        rw [htime]
        rfl
      rw [this]
      refine List.map_congr_left fun it _ => ?_
      simp only [Function.comp]
      exact htime it
  have hlen := congrArg List.length hfr
  rw [List.length_map, List.length_map, List.length_range'] at hlen
  refine ⟨f', a.step_size * a.snaps, rows, h1, by rw [hd.frame_dt]; simp [FloatOps.mul, FloatOps.ofInt], hd.initial_time,
    mul_pos hdt (by exact_mod_cast h.snaps), h4, by rw [← h5.length_eq, hlen], fun j hj => ?_⟩
  rw [List.forall₂_iff_get] at h5
  have := h5.2 j (by rw [h5.1]; exact hj) hj
  unfold IsFrameRow at this
  rw [if_pos rfl] at this
  refine (show rows[j] = _ from this).trans ?_
  have e : (frames2 E a S m)[j].1 = ((frames2 E a S m).map (·.1))[j]'(by rw [List.length_map, h5.1]; exact hj) :=
    (List.getElem_map ..).symm
  simp only [List.get_eq_getElem]
  rw [e]
  simp only [hfr, List.getElem_map, List.getElem_range', one_mul]

/-- **C73 (partial).** If `initial_time` is a multiple of `frame_dt`, these times
are the ones the plotting functions assume: `initial_time + j * frame_dt`.
Missing: other values of `initial_time`, for which no frame has that time. -/
theorem C73_time_of_frame_partial {r fd : K} (hfd : 0 < fd) (q : ℕ) (hq : r = q * fd) (j : ℕ) :
    ((⌈r / fd⌉₊ + j : ℕ) : K) * fd = r + j * fd := by
  have : r / fd = q := by rw [hq, mul_div_cancel_right₀ _ hfd.ne']
  rw [this, Nat.ceil_natCast, hq]
  push_cast
  ring

/-- **C73 is violated** if `initial_time` is not a multiple of `frame_dt`: every
frame is later than the time assumed for it. -/
theorem C73_time_of_frame_violated {r fd : K} (hfd : 0 < fd) (hr : ∀ q : ℕ, r ≠ q * fd) (j : ℕ) :
    r + j * fd < ((⌈r / fd⌉₊ + j : ℕ) : K) * fd := by
  have h1 : r / fd ≤ ⌈r / fd⌉₊ := Nat.le_ceil _
  have h2 : r / fd ≠ ⌈r / fd⌉₊ := fun e => hr ⌈r / fd⌉₊ (by rw [← e, div_mul_cancel₀ _ hfd.ne'])
  have h3 := lt_of_le_of_ne h1 h2
  rw [div_lt_iff₀ hfd] at h3
  push_cast
  rw [add_mul]
  exact add_lt_add_of_lt_of_le h3 le_rfl

end

/-! ### non-vacuity -/

example := C73_run_parameters demo_fresh4
example := C73_run2_parameters demo_run2_4 (fuel := 9) (by decide)
example := C73_run2_times demo_run2_4 (fuel := 9) (by decide) (by norm_num [demoArgs2, demoArgs]) (fun _ _ => rfl)
  (by norm_num [demoArgs2, demoArgs]) (by norm_num [demoArgs2, demoArgs]) (by simp [demoArgs2, demoArgs])
/-- `initial_time = 100`, `frame_dt = 1/4` -/
example := C73_time_of_frame_partial (r := (100 : ℚ)) (fd := 1 / 4) (by norm_num) 400 (by norm_num)
/-- `initial_time = 100`, `frame_dt = 3` -/
example := C73_time_of_frame_violated (r := (100 : ℚ)) (fd := 3) (by norm_num) (fun q e => by
  have : (100 : ℤ) = q * 3 := by exact_mod_cast e
  omega)
example := C73_run_times demo_fresh4 (by norm_num [demoArgs]) (by norm_num [demoArgs]) (by simp [demoArgs])

end Verif.Props
