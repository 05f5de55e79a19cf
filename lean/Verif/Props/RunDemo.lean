import Verif.Lemmas.RunContinue
import Verif.Spec.Exact
import Verif.Props.RunProperties

/-!
# A small run for the non-vacuity examples

Exact arithmetic in ℚ, a 2×2 grid; every step adds 1 to all array entries.
-/

namespace Verif.Props

open H5IO H5 Run

instance demoOps : FloatOps ℚ := exactOps ℚ

/-- one step on one entry -/
def bump (dt : ℚ) : Cell ℚ → Cell ℚ
  | .arr a => .arr (a.map (· + 1))
  | .num x => .num (x + dt)

/-- "simulation": adds 1 to the fields; the potential of `omega` is `2 * omega` -/
def demoSolver : Solver ℚ where
  rk4_step p dt _ := .ok (p.map fun q => (q.1, bump dt q.2))
  get_phi v _ := match v with
    | .arr a => .ok (.arr (a.map (2 * ·)))
    | .num _ => .error .typeError

/-- the corner entry plays the role of NaN when it is 100 -/
def demoRunEnv : Env ℚ ℚ where
  HW _ := .ok demoSolver
  hasNaN v := match v with
    | .arr a => decide (a.at' 0 0 = 100)
    | .num _ => false
  allZero v := match v with
    | .arr a => decide (a.at' 0 0 = 0 ∧ a.at' 1 1 = 0)
    | .num _ => false
  downsample v _ := .ok v
  attrNum v := match v with
    | .num x => x
    | _ => 0
  props := demoEnv

/-- initial field -/
def demoField (c : ℚ) : Arr ℚ := Arr.tab 2 2 fun i j => c + i + 2 * j

/-- four steps of size 1/2, every second one is recorded, buffer of length 2 -/
def demoArgs : Args ℚ where
  step_size := 1 / 2
  end_time := 2
  grid_pts := 2
  dx := 1
  k0 := 1
  N := 3
  nu := 1
  c1 := 1
  kappa_coeff := 1
  poisson_bracket_coeff := 1
  density0 := .arr (demoField 10)
  omega0 := .arr (demoField 20)
  phi0 := .arr (demoField 30)
  output_path := "run.h5"
  recording_start_time := 0
  continue_file := false
  buffer_length := 2
  snaps := 2
  downsample_factor := 1
  add_last_state := true
  properties := []
  force_recompute := false

/-- the states of a run that starts from the given fields -/
def demoStates (dt : ℚ) (s0 : NS (Cell ℚ)) : ℕ → NS (Cell ℚ)
  | 0 => s0
  | n + 1 => (demoStates dt s0 n).map fun q => (q.1, bump dt q.2)

theorem demo_step (dt dx : ℚ) (s0 : NS (Cell ℚ)) (m : ℕ) : Trajectory demoSolver dt dx m (demoStates dt s0) :=
  fun _ _ => rfl

theorem get?_bump (dt : ℚ) (s : NS (Cell ℚ)) (k : String) :
    NS.get? (s.map fun q => (q.1, bump dt q.2)) k = (s.get? k).map (bump dt) := by
  induction s with
  | nil => rfl
  | cons p s ih =>
    rw [List.map_cons, NS.get?_cons, NS.get?_cons, ih]
    split <;> rfl

theorem demo_shaped (dt : ℚ) (s0 : NS (Cell ℚ)) (h : Shaped 2 s0) (n : ℕ) : Shaped 2 (demoStates dt s0 n) := by
  induction n with
  | zero => exact h
  | succ n ih =>
    unfold demoStates
    refine ⟨?_, fun k hk => ?_⟩
    · have : NS.keys ((demoStates dt s0 n).map fun q => (q.1, bump dt q.2)) = (demoStates dt s0 n).keys := by
        simp [NS.keys]
      rw [this]; exact ih.nodup
    · obtain ⟨A, h1, h2, h3⟩ := ih.fields k hk
      exact ⟨A.map (· + 1), by rw [get?_bump, h1]; rfl, h2, h3⟩

theorem demo_init (x y z : ℚ) (t : Cell ℚ) :
    Shaped 2 [("density", .arr (demoField x)), ("omega", .arr (demoField y)), ("phi", .arr (demoField z)), ("age", t)] := by
  refine ⟨by simp [NS.keys], fun k hk => ?_⟩
  simp only [fieldList, List.mem_cons, List.not_mem_nil, or_false] at hk
  rcases hk with rfl | rfl | rfl
  · exact ⟨_, rfl, rfl, rfl⟩
  · exact ⟨_, rfl, rfl, rfl⟩
  · exact ⟨_, rfl, rfl, rfl⟩

theorem demo_saves : SavesAs demoRunEnv 1 2 2 := by
  refine ⟨by simp [saveDim, downsampling, FloatOps.eq, FloatOps.ofInt], fun h => ?_⟩
  simp [downsampling, FloatOps.eq, FloatOps.ofInt] at h

/-- state before the first step -/
def demoStart : NS (Cell ℚ) :=
  [("density", .arr (demoField 10)), ("omega", .arr (demoField 20)), ("phi", .arr ((demoField 20).map (2 * ·))),
    ("age", .num (FloatOps.ofInt 0))]

theorem demoStart_shaped : Shaped 2 demoStart := by
  refine ⟨by simp [NS.keys, demoStart], fun k hk => ?_⟩
  simp only [fieldList, List.mem_cons, List.not_mem_nil, or_false] at hk
  rcases hk with rfl | rfl | rfl
  · exact ⟨_, rfl, rfl, rfl⟩
  · exact ⟨_, rfl, rfl, rfl⟩
  · exact ⟨_, rfl, rfl, rfl⟩

theorem demoField_bump (c : ℚ) : (demoField c).map (· + 1) = demoField (c + 1) := by
  unfold demoField
  rw [Arr.map_tab]
  congr 1
  funext i j
  ring

theorem demoStates_get (dt : ℚ) (s0 : NS (Cell ℚ)) (c : ℚ) (k : String) (h0 : s0.get? k = some (.arr (demoField c)))
    (n : ℕ) : (demoStates dt s0 n).get? k = some (.arr (demoField (c + n))) := by
  induction n with
  | zero => rw [Nat.cast_zero, add_zero]; exact h0
  | succ n ih =>
    unfold demoStates
    rw [get?_bump, ih]
    simp only [Option.map_some, bump, demoField_bump]
    push_cast
    rw [add_assoc]

theorem demoField_corner (c : ℚ) : (demoField c).at' 0 0 = c := by
  unfold demoField
  rw [Arr.tab_at' _ _ _ (by decide) (by decide)]
  simp

theorem demo_noNaN (dt : ℚ) (s0 : NS (Cell ℚ)) (c : ℚ) (h0 : s0.get? "density" = some (.arr (demoField c))) (n : ℕ) :
    nanState demoRunEnv (demoStates dt s0 n) = decide (c + n = 100) := by
  unfold nanState
  rw [demoStates_get dt s0 c _ h0]
  simp only [demoRunEnv, demoField_corner]

theorem demo_fresh (end_time : ℚ) (m : ℕ) (he : end_time = m / 2) (hm : m < 90) (r : ℚ) (L s : ℕ) (hL : 1 ≤ L)
    (hs : 1 ≤ s) (σ : St ℚ ℚ) (hσ : σ.fs "run.h5" = none) :
    FreshRun demoRunEnv { demoArgs with end_time := end_time, buffer_length := L, snaps := s, recording_start_time := r } σ
      demoSolver 2 m m (demoStates (1 / 2) demoStart) where
  path := by simp [demoArgs]
  fresh := .inl hσ
  buffer := hL
  snaps := hs
  saves := demo_saves
  init := demo_init 10 20 30 _
  solver := rfl
  start := ⟨_, rfl, rfl⟩
  count := by
    refine ⟨m, ?_, ?_⟩
    · simp only [FloatOps.div, FloatOps.sub, FloatOps.ofInt, demoArgs, he]
      rw [if_neg (by norm_num)]
      congr 1; push_cast; ring
    · simp only [FloatOps.toInt, truncZ]
      rw [if_pos (by positivity)]
      simp
  traj := demo_step _ _ _ _
  shaped := fun n _ _ => demo_shaped _ _ demoStart_shaped n
  stops := by
    refine ⟨fun j h1 h2 => ?_, .inl (by simp)⟩
    rw [demo_noNaN _ _ 10 rfl j, decide_eq_false_iff_not]
    have : (j : ℚ) < 90 := by exact_mod_cast (lt_of_lt_of_le h2 hm.le)
    intro h; linarith

end Verif.Props
