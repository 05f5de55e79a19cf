import Verif.Props.Run

/-!
# C44–C46 with the simulation of `model.py`

In exact arithmetic, with the model of `HW` as simulation, every call of `run`
that creates a file satisfies `FreshRun`: no step fails.
-/

namespace Verif.Props

open H5IO H5 Run Arr Spec

attribute [local instance] exactOps

/-- the state dictionaries of `run` as states of the simulation -/
def toVals (s : NS (Cell ℝ)) : NS Val := s.map fun q => (q.1, q.2.toVal)

/-- and back -/
def toCells (s : NS Val) : NS (Cell ℝ) := s.map fun q => (q.1, q.2.toCell)

theorem toVals_toCells (s : NS Val) : toVals (toCells s) = s := by
  unfold toVals toCells
  rw [List.map_map]
  conv_rhs => rw [← List.map_id s]
  refine List.map_congr_left fun q _ => ?_
  obtain ⟨k, v⟩ := q
  cases v <;> rfl

theorem get?_toCells (s : NS Val) (k : String) : (toCells s).get? k = (s.get? k).map Val.toCell := get?_map _ s k

theorem shaped_toCells {test : Bool} {n : ℕ} {s : NS Val} (h : IsState test n n s) : Shaped n (toCells s) := by
  refine ⟨?_, fun k hk => ?_⟩
  · have : NS.keys (toCells s) = s.keys := by simp [NS.keys, toCells]
    rw [this]; exact h.nodup
  · simp only [fieldList, List.mem_cons, List.not_mem_nil, or_false] at hk
    rcases hk with rfl | rfl | rfl
    · obtain ⟨A, e, h1, h2⟩ := h.density
      exact ⟨A, by rw [get?_toCells, e]; rfl, h1, h2⟩
    · obtain ⟨A, e, h1, h2⟩ := h.omega
      exact ⟨A, by rw [get?_toCells, e]; rfl, h1, h2⟩
    · obtain ⟨A, e, h1, h2⟩ := h.phi
      exact ⟨A, by rw [get?_toCells, e]; rfl, h1, h2⟩

/-- `HW(**physics_params)` for the parameters `run` was called with -/
theorem hwOf_physics (b : Backend) (a : Args ℝ) : hwOf b a.physics =
    .ok (HW.init b a.dx a.N a.c1 a.nu a.k0 a.poisson_bracket_coeff a.kappa_coeff) := by
  rfl

/-- one successful step, independent of the profiling counters -/
def StepsTo (hw : HW) (dt dx : ℝ) (s s' : NS Val) : Prop := ∀ c, ∃ c', hw.rk4_step s dt dx c = .ok (s', c')

theorem step_exists {hw : HW} {n : ℕ} (h0 : 0 < n) (hb : Std hw.backend n n) (dt dx : ℝ) {s : NS Val}
    (hs : IsState hw.TEST_CONSERVATION n n s) :
    ∃ s', IsState hw.TEST_CONSERVATION n n s' ∧ StepsTo hw dt dx s s' := by
  have : NeZero n := ⟨h0.ne'⟩
  obtain ⟨ks, t, hk, hn, rfl⟩ := hs.exists_mk
  refine ⟨_, isState_mk hk.step (nodup_stepKeys hn) (stepS (parOf hw dx) hw.dx (.rk4 dt) t), fun c =>
    ⟨stepCalls (parOf hw dx) hw.TEST_CONSERVATION (.rk4 dt) c, ?_⟩⟩
  have := step_mk hw.backend hb.good (parOf hw dx) hw.dx hw.k0 hw.TEST_CONSERVATION hk (.rk4 dt) t c
  rw [← eq_mkHW] at this
  exact this

theorem states_exist {hw : HW} {n : ℕ} (h0 : 0 < n) (hb : Std hw.backend n n) (dt dx : ℝ) {s : NS Val}
    (hs : IsState hw.TEST_CONSERVATION n n s) :
    ∃ T : ℕ → NS Val, T 0 = s ∧ (∀ k, IsState hw.TEST_CONSERVATION n n (T k)) ∧
      ∀ k, StepsTo hw dt dx (T k) (T (k + 1)) := by
  choose! F hF1 hF2 using fun (s : NS Val) (hs : IsState hw.TEST_CONSERVATION n n s) => step_exists h0 hb dt dx hs
  have hst : ∀ k, IsState hw.TEST_CONSERVATION n n (F^[k] s) := by
    intro k
    induction k with
    | zero => exact hs
    | succ k ih => rw [Function.iterate_succ_apply']; exact hF1 _ ih
  refine ⟨fun k => F^[k] s, rfl, hst, fun k => ?_⟩
  simp only [Function.iterate_succ_apply']
  exact hF2 _ (hst k)

theorem history_of_states {hw : HW} {dt dx : ℝ} {T : ℕ → NS Val} (h : ∀ k, StepsTo hw dt dx (T k) (T (k + 1)))
    (k n : ℕ) (c : Calls) : ∃ c', history hw dx (List.replicate n (.rk4 dt)) (T k) c = .ok (T (k + n), c') := by
  induction n generalizing k c with
  | zero => exact ⟨c, rfl⟩
  | succ n ih =>
    obtain ⟨c1, e1⟩ := h k c
    obtain ⟨c2, e2⟩ := ih (k + 1) c1
    refine ⟨c2, ?_⟩
    rw [List.replicate_succ]
    unfold history
    rw [M.bind_apply]
    change (hw.rk4_step (T k) dt dx c >>= _) = _
    rw [e1, Py.ok_bind, e2, Nat.add_right_comm]
    rfl

theorem hwSolver_step {hw : HW} {dt dx : ℝ} {s s' : NS Val} (h : StepsTo hw dt dx s s') :
    (hwSolver hw).rk4_step (toCells s) dt dx = .ok (toCells s') := by
  obtain ⟨c, e⟩ := h {}
  have e1 : (hwSolver hw).rk4_step (toCells s) dt dx
      = (hw.rk4_step (toVals (toCells s)) dt dx {} >>= fun r => .ok (toCells r.1)) := rfl
  rw [e1, toVals_toCells, e]
  rfl

/-- Arguments of `run` that describe a simulation: the initial fields are
`grid_pts × grid_pts` arrays, the file is new, … -/
structure GoodArgs {β : Type} (E : Env ℝ β) (b : Backend) (a : Args ℝ) (σ : St ℝ β) (ns : ℕ) : Prop where
  grid : 0 < a.grid_pts
  backend : Std b a.grid_pts a.grid_pts
  density : ∃ A : Arr ℝ, a.density0 = .arr A ∧ A.h = a.grid_pts ∧ A.w = a.grid_pts
  omega : ∃ A : Arr ℝ, a.omega0 = .arr A ∧ A.h = a.grid_pts ∧ A.w = a.grid_pts
  phi : ∃ A : Arr ℝ, a.phi0 = .arr A ∧ A.h = a.grid_pts ∧ A.w = a.grid_pts
  path : a.output_path ≠ ""
  fresh : σ.fs a.output_path = none ∨ a.force_recompute = true
  buffer : 1 ≤ a.buffer_length
  snaps : 1 ≤ a.snaps
  step : 0 < a.step_size
  saves : SavesAs E a.downsample_factor a.grid_pts ns
  /-- the simulation is the one of `model.py` -/
  sim : E.HW = fun p => (hwOf b p).map hwSolver
  attr : E.attrNum = attrReal
  /-- real numbers are never NaN -/
  nan : ∀ v, E.hasNaN v = false

/-- The simulation object of such a run -/
noncomputable def theHW (b : Backend) (a : Args ℝ) : HW :=
  HW.init b a.dx a.N a.c1 a.nu a.k0 a.poisson_bracket_coeff a.kappa_coeff

/-- `plasma` when the loop starts: the initial fields with `phi = get_phi(omega)` -/
def startState (A B C : Arr ℝ) : NS Val := [("density", .arr A), ("omega", .arr B), ("phi", .arr C), ("age", .num 0)]

theorem startState_isState (test : Bool) {n : ℕ} {A B C : Arr ℝ} (a1 : A.h = n) (a2 : A.w = n) (b1 : B.h = n)
    (b2 : B.w = n) (c1 : C.h = n) (c2 : C.w = n) : IsState test n n (startState A B C) where
  nodup := by simp [startState, NS.keys]
  keys k hk := by
    left
    simpa [startState, NS.keys] using hk
  density := ⟨_, rfl, a1, a2⟩
  omega := ⟨_, rfl, b1, b2⟩
  phi := ⟨_, rfl, c1, c2⟩
  age := ⟨_, rfl⟩
  dE v e := by
    have : (startState A B C).get? "dE" = none := by simp [startState, NS.get?]
    rw [this] at e; cases e
  dU v e := by
    have : (startState A B C).get? "dU" = none := by simp [startState, NS.get?]
    rw [this] at e; cases e

theorem get_phi_exists {hw : HW} {n : ℕ} (h0 : 0 < n) (hb : Std hw.backend n n) (dx : ℝ) {B : Arr ℝ} (b1 : B.h = n)
    (b2 : B.w = n) : ∃ C : Arr ℝ, C.h = n ∧ C.w = n ∧ ∀ c, ∃ c', hw.get_phi B dx c = .ok (C, c') := by
  have : NeZero n := ⟨h0.ne'⟩
  refine ⟨ofField (phiF dx (toFld B : Fld n n)), rfl, rfl, fun c => ⟨{ c with get_phi := c.get_phi + 1 }, ?_⟩⟩
  have := get_phi_ofField hw hb.good (toFld B : Fld n n) dx c
  rwa [ofField_toFld b1 b2] at this

/-- In exact arithmetic every such call is a `FreshRun` which does all its
steps; its states are those of the simulation. -/
theorem fresh_physics {β : Type} [Casts ℝ β] [Inhabited β] {E : Env ℝ β} {b : Backend} {a : Args ℝ} {σ : St ℝ β} {ns : ℕ}
    (h : GoodArgs E b a σ ns) (he : 0 ≤ a.end_time) :
    ∃ (A B C : Arr ℝ) (T : ℕ → NS Val), a.density0 = .arr A ∧ a.omega0 = .arr B ∧
      (∀ c, ∃ c', (theHW b a).get_phi B a.dx c = .ok (C, c')) ∧
      (∀ n c, ∃ c', history (theHW b a) a.dx (List.replicate n (.rk4 a.step_size)) (startState A B C) c
        = .ok (T n, c')) ∧
      FreshRun E a σ (hwSolver (theHW b a)) ns ⌊a.end_time / a.step_size⌋ ⌊a.end_time / a.step_size⌋.toNat
        (fun n => toCells (T n)) := by
  obtain ⟨A, hA, a1, a2⟩ := h.density
  obtain ⟨B, hB, b1, b2⟩ := h.omega
  obtain ⟨D, hD, d1, d2⟩ := h.phi
  obtain ⟨C, c1, c2, hC⟩ := get_phi_exists (hw := theHW b a) h.grid h.backend a.dx b1 b2
  have hs0 := startState_isState (theHW b a).TEST_CONSERVATION a1 a2 b1 b2 c1 c2
  obtain ⟨T, t0, t1, t2⟩ := states_exist (hw := theHW b a) h.grid h.backend a.step_size a.dx hs0
  refine ⟨A, B, C, T, hA, hB, hC, fun n c => ?_, ?_⟩
  · obtain ⟨c', e⟩ := history_of_states t2 0 n c
    rw [t0, Nat.zero_add] at e
    exact ⟨c', e⟩
  · have hcount : 0 ≤ a.end_time / a.step_size := div_nonneg he h.step.le
    refine { path := h.path, fresh := h.fresh, buffer := h.buffer, snaps := h.snaps, saves := h.saves,
             init := ?_, solver := ?_, start := ?_, count := ?_, traj := ?_, shaped := ?_, stops := ?_ }
    · refine ⟨by simp [NS.keys, Args.plasma0], fun k hk => ?_⟩
      simp only [fieldList, List.mem_cons, List.not_mem_nil, or_false] at hk
      rcases hk with rfl | rfl | rfl
      · exact ⟨A, by rw [← hA]; rfl, a1, a2⟩
      · exact ⟨B, by rw [← hB]; rfl, b1, b2⟩
      · exact ⟨D, by rw [← hD]; rfl, d1, d2⟩
    · rw [h.sim]
      beta_reduce
      rw [hwOf_physics]
      rfl
    · refine ⟨.arr C, ?_, ?_⟩
      · rw [hB, h.attr]
        obtain ⟨c', e⟩ := hC {}
        have e1 : (hwSolver (theHW b a)).get_phi (.arr B) (attrReal (.num a.dx))
          = ((theHW b a).get_phi B a.dx {} >>= fun r => .ok (.arr r.1)) := rfl
        rw [e1, e]
        rfl
      · simp only [t0, Args.plasma0, hA, hB]
        simp [startState, toCells, Val.toCell, NS.set, NS.keys]
        simp [FloatOps.ofInt]
    · refine ⟨a.end_time / a.step_size, ?_, ?_⟩
      · simp only [FloatOps.div, FloatOps.sub, FloatOps.ofInt]
        rw [if_neg h.step.ne']
        simp
      · simp only [FloatOps.toInt, truncZ]
        rw [if_pos hcount]
    · intro n _
      exact hwSolver_step (t2 n)
    · intro n _ _
      exact shaped_toCells (t1 n)
    · refine ⟨fun j _ _ => ?_, .inl rfl⟩
      unfold nanState
      split
      · exact h.nan _
      · rfl

/-- **C44 with the simulation of `model.py`**, in exact arithmetic.  For every
grid size, physics, initial fields, step size, `snaps`, `buffer_length` and
downsampling, a `run` to a new file returns normally and writes exactly
`⌊end_time / step_size⌋ / snaps + 1` frames; frame `j ≥ 1` holds the fields of
the state after `j * snaps` calls of `rk4_step`, started from the initial
density and vorticity and the potential `get_phi` computes. -/
theorem C44_frames_physics {β : Type} [Casts ℝ β] [Inhabited β] {E : Env ℝ β} {b : Backend} {a : Args ℝ} {σ : St ℝ β}
    {ns : ℕ} (h : GoodArgs E b a σ ns) (he : 0 ≤ a.end_time) (h0 : a.recording_start_time = 0)
    (hp : a.properties = []) :
    (run E a σ).1 = .ok () ∧ ∃ (f : H5 ℝ β) (A B C : Arr ℝ) (T : ℕ → NS Val),
      (run E a σ).2.fs a.output_path = some f ∧
      a.density0 = .arr A ∧ a.omega0 = .arr B ∧ (∀ c, ∃ c', (theHW b a).get_phi B a.dx c = .ok (C, c')) ∧
      (∀ n c, ∃ c', history (theHW b a) a.dx (List.replicate n (.rk4 a.step_size)) (startState A B C) c
        = .ok (T n, c')) ∧
      f.dsets "time" = some (.rows .one ((List.range (⌊a.end_time / a.step_size⌋.toNat / a.snaps + 1)).map
        (fun j => .num (Casts.f32 ((j * a.snaps : ℕ) * a.step_size))))) ∧
      ∀ k ∈ ["density", "omega", "phi"], ∃ rows, f.dsets k = some (.rows (.grid ns ns) rows) ∧
        rows.length = ⌊a.end_time / a.step_size⌋.toNat / a.snaps + 1 ∧
        ∀ j (hj : j < rows.length), j ≠ 0 → ∃ V W : Arr ℝ, (T (j * a.snaps)).get? k = some (.arr V) ∧
          recordedValue E a.downsample_factor (.arr V) = .ok (.arr W) ∧ rows[j] = .arr (W.map Casts.f32) := by
  obtain ⟨A, B, C, T, h1, h2, h3, h4, h5⟩ := fresh_physics h he
  obtain ⟨f, times, g1, g2, g3, g4, g5⟩ := C44_frames_exact h5 rfl h.step he h0 hp
  refine ⟨g1, f, A, B, C, T, g2, h1, h2, h3, h4, by rw [g3, g4], fun k hk => ?_⟩
  obtain ⟨rows, r1, r2, r3⟩ := g5 k hk
  refine ⟨rows, r1, r2, fun j hj hj0 => ?_⟩
  obtain ⟨V, W, v1, v2, v3⟩ := r3 j hj
  rw [if_neg hj0, get?_toCells] at v1
  refine ⟨V, W, ?_, v2, v3⟩
  cases hT : (T (j * a.snaps)).get? k with
  | none => rw [hT] at v1; cases v1
  | some v =>
    rw [hT] at v1
    cases v with
    | num x => cases v1
    | arr V' =>
      simp only [Option.map_some, Val.toCell] at v1
      injection v1 with v1
      injection v1 with v1
      rw [v1]

/-! ### non-vacuity -/

noncomputable instance physCasts : Casts ℝ ℝ := ⟨fun x => (⌊2 ^ 24 * x⌋ : ℝ) / 2 ^ 24, id⟩

noncomputable def physEnv : Env ℝ ℝ where
  HW p := (hwOf numpyBackend p).map hwSolver
  hasNaN _ := false
  allZero _ := false
  downsample v _ := .ok v
  attrNum := attrReal
  props := { dx := fun _ _ => 1, value := fun _ _ _ _ _ _ => .ok 0 }

noncomputable def physArgs : Args ℝ where
  step_size := 1 / 40
  end_time := 10
  grid_pts := 8
  dx := 1
  k0 := 1
  N := 3
  nu := 1 / 10
  c1 := 1
  kappa_coeff := 1
  poisson_bracket_coeff := 1
  density0 := .arr (tab 8 8 fun i j => (i * j : ℝ))
  omega0 := .arr (tab 8 8 fun i j => (i : ℝ) - j)
  phi0 := .arr (tab 8 8 fun i _ => (i : ℝ))
  output_path := "run.h5"
  recording_start_time := 0
  continue_file := false
  buffer_length := 100
  snaps := 3
  downsample_factor := 1
  add_last_state := true
  properties := []
  force_recompute := false

theorem phys_good (σ : St ℝ ℝ) (hσ : σ.fs "run.h5" = none) : GoodArgs physEnv numpyBackend physArgs σ 8 where
  grid := by simp [physArgs]
  backend := .inl rfl
  density := ⟨_, rfl, rfl, rfl⟩
  omega := ⟨_, rfl, rfl, rfl⟩
  phi := ⟨_, rfl, rfl, rfl⟩
  path := by simp [physArgs]
  fresh := .inl hσ
  buffer := by simp [physArgs]
  snaps := by simp [physArgs]
  step := by norm_num [physArgs]
  saves := by
    refine ⟨by simp [saveDim, downsampling, FloatOps.eq, FloatOps.ofInt, physArgs], fun h => ?_⟩
    simp [downsampling, FloatOps.eq, FloatOps.ofInt, physArgs] at h
  sim := rfl
  attr := rfl
  nan _ := rfl

example := C44_frames_physics (phys_good ⟨fun _ => none, []⟩ rfl) (by norm_num [physArgs]) rfl rfl

/-- a run of 400 steps with the equations of `model.py` satisfies the hypotheses of C46 -/
example : ∃ S, FreshRun physEnv physArgs ⟨fun _ => none, []⟩ (hwSolver (theHW numpyBackend physArgs)) 8 400 400 S ∧
    "omega" ∉ physArgs.properties ∧ "phi" ∉ physArgs.properties := by
  obtain ⟨_, _, _, T, -, -, -, -, h⟩ := fresh_physics (phys_good ⟨fun _ => none, []⟩ rfl) (by norm_num [physArgs])
  have e : ⌊physArgs.end_time / physArgs.step_size⌋ = 400 := by
    norm_num [physArgs]
  rw [e] at h
  exact ⟨_, h, by simp [physArgs], by simp [physArgs]⟩

end Verif.Props
