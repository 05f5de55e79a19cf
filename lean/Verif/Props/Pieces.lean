import Verif.Lemmas.Run2Chain
import Verif.Props.Run2Physics

/-!
# C128: a run of `run2` in any number of pieces

Exact arithmetic.  `pieces E a fuel T σ n` is a run until `T 0` that is continued
until `T 1`, …, until `T n`.
-/

set_option linter.unusedSectionVars false

namespace Verif.Props

open H5IO H5 Run Run2

section

attribute [local instance] exactOps

variable {K β : Type} [Field K] [LinearOrder K] [IsStrictOrderedRing K] [FloorRing K] [Casts K β] [Inhabited K]
  [Inhabited β]
variable {E : Env2 K β} {a : Args2 K} {σ : St K β} {hw : Solver K} {ns : ℕ} {S : ℕ → NS (Cell K)}

/-- **C128 (partial).** However many times a run is stopped and continued, the
file is the one of a single run: parameters, times, fields, properties and the
stored state.  Hypotheses as in `C47_split_partial`, at every cut; without stored
states (`add_last_state = False`, no downsampling) the last frame may be anywhere,
but has to be recorded exactly.  Missing: stored states and cuts at which the
buffer is not full (`C47_stale_state_violated`). -/
theorem C128_pieces_partial {T : ℕ → K} {m : ℕ → ℕ} {n : ℕ} {Good : NS (Cell K) → Prop}
    (hr : ∀ i ≤ n, FreshRun2 E (a.until (T i)) σ hw ns (m i) S) (hT : ∀ i < n, T i ≤ T (i + 1))
    (hcut : ∀ i < n, GoodCut E a (frames2 E (a.until (T i)) S (m i)))
    (hdt : 0 < a.step_size) (hsum : a.adaptive_step_size = true → ∀ l, E.sum l = l.sum)
    (hF : FieldSolver hw a.step_size a.dx a.grid_pts Good)
    (hend : a.recording_start_time < m 0 * a.step_size) (hz : E.HW a.toArgs.physics = .ok hw)
    (hattr : E.attrNum (.num a.dx) = a.dx)
    (hp : ∀ name ∈ a.properties, name ∉ ["time", "density", "omega", "phi"] ∧ (∀ n', name ≠ "fullres_" ++ n') ∧
      ∀ k ∈ fieldList, name ≠ "state_" ++ k) {fuel : ℕ} (hfuel : ∀ i ≤ n, m i < fuel) :
    ∃ f g, (run2 E (a.until (T n)) fuel σ).2.fs a.output_path = some f ∧
      (pieces E a fuel T σ n).2.fs a.output_path = some g ∧ (pieces E a fuel T σ n).1 ≠ .ok none ∧
      (∀ q, q ≠ a.output_path → (pieces E a fuel T σ n).2.fs q = σ.fs q) ∧
      (∀ k, g.attrs k = f.attrs k) ∧
      (∀ k ∈ ["time", "density", "omega", "phi"], ∃ rows, f.dsets k = some (.rows (rowShape ns k) rows) ∧
        g.dsets k = some (.rows (rowShape ns k) rows) ∧ rows.length = (frames2 E (a.until (T n)) S (m n)).length) ∧
      (∀ name ∈ a.properties, ∃ rows, f.dsets ("fullres_" ++ name) = some (.rows .one rows) ∧
        g.dsets ("fullres_" ++ name) = some (.rows .one rows) ∧
        rows.length = (frames2 E (a.until (T n)) S (m n)).length) ∧
      ∀ k ∈ ["density", "omega", "phi"], g.dsets ("state_" ++ k) = f.dsets ("state_" ++ k) := by
  have hend' : ∀ i ≤ n, a.recording_start_time < m i * a.step_size := by
    intro i
    induction i with
    | zero => exact fun _ => hend
    | succ i ih =>
      intro hi
      have hm := steps_le (hT i (by omega)) (hr i (by omega)) (hr (i + 1) hi)
      have : (m i : K) ≤ m (i + 1) := by exact_mod_cast hm
      exact lt_of_lt_of_le (ih (by omega)) (mul_le_mul_of_nonneg_right this hdt.le)
  have key : ∀ i ≤ n, ∃ g, (pieces E a fuel T σ i).2.fs a.output_path = some g ∧
      (∀ q, q ≠ a.output_path → (pieces E a fuel T σ i).2.fs q = σ.fs q) ∧
      (pieces E a fuel T σ i).1 ≠ .ok none ∧ FileOf E a ns (frames2 E (a.until (T i)) S (m i)) g := by
    intro i
    induction i with
    | zero => exact fun h0 => fileOf_fresh (hr 0 h0) hsum hend hp (hfuel 0 h0)
    | succ i ih =>
      intro hi
      obtain ⟨g, g1, g2, -, g4⟩ := ih (by omega)
      obtain ⟨t, s, c1, c2, c2', c3, c4, c5, c6⟩ := hcut i (by omega)
      obtain ⟨g', e1, e2, e3, e4⟩ := piece_step (hr i (by omega)) (hr (i + 1) hi) (hT i (by omega)) hdt hsum hF c1 c2 c2'
        (hend' i (by omega)) hz hattr c3 ⟨c4, c5⟩ c6 hp g1 g4 (hfuel (i + 1) hi)
      exact ⟨g', e1, fun q hq => (e2 q hq).trans (g2 q hq), e3, e4⟩
  obtain ⟨g, g1, g2, g3, g4⟩ := key n le_rfl
  obtain ⟨f, f1, -, -, f4⟩ := fileOf_fresh (hr n le_rfl) hsum (hend' n le_rfl) hp (hfuel n le_rfl)
  obtain ⟨q1, q2, q3, q4⟩ := FileOf.agree (a := a) (hr n le_rfl).buffer f4 g4
  exact ⟨f, g, f1, g1, g3, g2, q1, q2, q3, q4⟩

end

section physics

attribute [local instance] exactOps

/-- **C128 with the simulation of `model.py` (partial).**  Exact arithmetic and
exact storage, no zonal coupling, recording from the beginning.  A run until
`T 0` that is continued until `T 1`, …, until `T n`, where the number
`m i / snaps + 1` of frames until `T i` is a multiple of `buffer_length` at every
cut `i < n` if states are stored (`add_last_state` or downsampling; any cut will do otherwise), leaves the file of one run until `T n`, unless the simulation
reaches a state with density or vorticity zero everywhere. -/
theorem C128_physics_partial {β : Type} [Casts ℝ β] [Inhabited β] {E : Env2 ℝ β} {b : Backend} {a : Args2 ℝ} {σ : St ℝ β}
    {ns : ℕ} (h : GoodArgs2 E b a σ ns) (hz : a.zonal = false)
    (h0 : a.recording_start_time = 0) (hf : ∀ x : ℝ, Casts.f64 (Casts.f32 x : β) = x)
    (hp : ∀ name ∈ a.properties, name ∉ ["time", "density", "omega", "phi"] ∧ (∀ n', name ≠ "fullres_" ++ n') ∧
      ∀ k ∈ fieldList, name ≠ "state_" ++ k)
    (hzero : ∀ A B C, a.density0 = .arr A → a.omega0 = .arr B →
      (∃ c c', (theHW2 b a).get_phi B a.dx c = .ok (C, c')) →
      ∀ n s c c', history (theHW2 b a) a.dx (List.replicate n (.rk4 a.step_size)) (startState A B C) c = .ok (s, c') →
        ∀ k ∈ ["density", "omega"], ∀ V, s.get? k = some (.arr V) → E.allZero (.arr V) = false)
    {T : ℕ → ℝ} {m : ℕ → ℕ} {n : ℕ} (hT : ∀ i < n, T i ≤ T (i + 1))
    (hm : ∀ i ≤ n, IsLeast {k : ℕ | T i ≤ FloatOps.round4 ((k : ℝ) * a.step_size)} (m i)) (hpos : 0 < m 0)
    (hL : a.saveState = true → ∀ i < n, a.buffer_length ∣ m i / a.snaps + 1) {fuel : ℕ} (hfuel : ∀ i ≤ n, m i < fuel) :
    ∃ f g, (run2 E (a.until (T n)) fuel σ).2.fs a.output_path = some f ∧
      (pieces E a fuel T σ n).2.fs a.output_path = some g ∧ (pieces E a fuel T σ n).1 ≠ .ok none ∧
      (∀ q, q ≠ a.output_path → (pieces E a fuel T σ n).2.fs q = σ.fs q) ∧
      (∀ k, g.attrs k = f.attrs k) ∧
      (∀ k ∈ ["time", "density", "omega", "phi"], ∃ rows, f.dsets k = some (.rows (rowShape ns k) rows) ∧
        g.dsets k = some (.rows (rowShape ns k) rows) ∧ rows.length = m n / a.snaps + 1) ∧
      (∀ name ∈ a.properties, ∃ rows, f.dsets ("fullres_" ++ name) = some (.rows .one rows) ∧
        g.dsets ("fullres_" ++ name) = some (.rows .one rows) ∧ rows.length = m n / a.snaps + 1) ∧
      ∀ k ∈ ["density", "omega", "phi"], g.dsets ("state_" ++ k) = f.dsets ("state_" ++ k) := by
  obtain ⟨A, B, C, P, hA, hB, hC, hH, hR⟩ := fresh2_physics h
  have hr : ∀ i ≤ n, FreshRun2 E (a.until (T i)) σ (hwSolver (theHW2 b a)) ns (m i) (fun n => toCells (P n)) := by
    intro i hi
    obtain ⟨m', e1, hr⟩ := hR (T i)
    obtain rfl := e1.unique (hm i hi)
    exact hr
  have hlen : ∀ (Te : ℝ) (k : ℕ), (frames2 E (a.until Te) (fun n => toCells (P n)) k).length = k / a.snaps + 1 :=
    fun Te k => frames2_length (a := a.until Te) h.sum h.step h0
  have hT0 : P 0 = startState A B C := by
    obtain ⟨c', e⟩ := hH 0 {}
    exact (Prod.ext_iff.mp (Except.ok.inj e)).1.symm
  have hsim : E.HW a.toArgs.physics = .ok (hwSolver (theHW2 b a)) := by
    rw [h.sim]
    unfold theHW2
    rw [hz]
    rfl
  have hpos' : a.recording_start_time < (m 0 : ℝ) * a.step_size := by
    rw [h0]
    have : (0 : ℝ) < m 0 := by exact_mod_cast hpos
    exact mul_pos this h.step
  have := C128_pieces_partial hr hT ?_ h.step h.sum (hw_fieldSolver h.grid h.backend _ _) hpos' hsim
    (by rw [h.attr]; rfl) hp hfuel
  · simpa only [hlen] using this
  intro i hi
  obtain ⟨⟨t, s⟩, hlast⟩ : ∃ x, (frames2 E (a.until (T i)) (fun n => toCells (P n)) (m i)).getLast? = some x := by
    have hl := hlen (T i) (m i)
    generalize frames2 E (a.until (T i)) (fun n => toCells (P n)) (m i) = l at hl
    cases hx : l.getLast? with
    | some x => exact ⟨x, rfl⟩
    | none =>
      rw [List.getLast?_eq_none_iff] at hx
      rw [hx] at hl
      simp at hl
  obtain ⟨-, hs⟩ := frames2_last hlast
  refine ⟨t, s, hlast, fun hst => by rw [hlen]; exact hL hst i hi, fun _ _ _ A _ => by simp [Arr.map, hf], hf t, h.nan _, fun _ _ _ _ => h.nan _, ?_⟩
  intro k hk V hV
  rw [hs] at hV
  have key : ∃ n, (P n).get? k = some (.arr V) := by
    split at hV
    · refine ⟨0, ?_⟩
      rw [hT0]
      simp only [List.mem_cons, List.not_mem_nil, or_false] at hk
      rcases hk with rfl | rfl
      · have e : (a.until (T i)).plasma0.get? "density" = some a.density0 := rfl
        rw [e, hA] at hV
        have := Cell.arr.inj (Option.some.inj hV)
        rw [← this]
        rfl
      · have e : (a.until (T i)).plasma0.get? "omega" = some a.omega0 := rfl
        rw [e, hB] at hV
        have := Cell.arr.inj (Option.some.inj hV)
        rw [← this]
        rfl
    · refine ⟨lastRecorded E (a.until (T i)) (FloatOps.ofInt 0) (m i), ?_⟩
      rw [get?_toCells] at hV
      cases hv : (P (lastRecorded E (a.until (T i)) (FloatOps.ofInt 0) (m i))).get? k with
      | none => rw [hv] at hV; cases hV
      | some v =>
        rw [hv] at hV
        cases v with
        | num x => cases hV
        | arr V' =>
          have := Cell.arr.inj (Option.some.inj hV)
          rw [← this]
  obtain ⟨j, hn⟩ := key
  obtain ⟨c', e⟩ := hH j {}
  exact hzero A B C hA hB ⟨{}, hC {}⟩ j (P j) {} c' e k hk V hn

/-- a run until 10, continued until 20.1 and then until 30 -/
example := by
  let := exactCasts
  refine C128_physics_partial (β := ℝ) phys_good2 rfl rfl (fun _ => rfl) phys_names phys_nonzero
    (T := fun i => if i = 0 then 10 else if i = 1 then 201 / 10 else 30)
    (m := fun i => if i = 0 then 400 else if i = 1 then 804 else 1200) (n := 2) ?_ ?_ (by decide)
    (fun _ => by decide : _ → ∀ i < 2, 101 ∣ (if i = 0 then 400 else if i = 1 then 804 else 1200) / 4 + 1)
    (fuel := 2000) (by decide)
  · intro i hi
    interval_cases i <;> norm_num
  · intro i hi
    interval_cases i
    · refine C53_step_count (a := physArgs2.until 10) 400 100000 ?_ ?_ ?_ <;>
      · simp only [Run2.Args2.until, physArgs2, physArgs]
        norm_num
    · refine C53_step_count (a := physArgs2.until (201 / 10)) 804 201000 ?_ ?_ ?_ <;>
      · simp only [Run2.Args2.until, physArgs2, physArgs]
        norm_num
    · refine C53_step_count (a := physArgs2.until 30) 1200 300000 ?_ ?_ ?_ <;>
      · simp only [Run2.Args2.until, physArgs2, physArgs]
        norm_num

/-- without stored states: a run until 3, continued until 10 and then until 20 -/
noncomputable def rowArgs2 : Args2 ℝ := { physArgs2 with add_last_state := false }

example := by
  let := exactCasts
  have h := phys_good2
  refine C128_physics_partial (β := ℝ) (E := physEnv2) (b := numpyBackend) (a := rowArgs2) (σ := ⟨fun _ => none, []⟩)
    (ns := 8) { h with } rfl rfl (fun _ => rfl) phys_names phys_nonzero
    (T := fun i => if i = 0 then 3 else if i = 1 then 10 else 20)
    (m := fun i => if i = 0 then 120 else if i = 1 then 400 else 800) (n := 2) ?_ ?_ (by decide) ?_
    (fuel := 1000) (by decide)
  · intro i hi
    interval_cases i <;> norm_num
  · intro i hi
    interval_cases i
    · refine C53_step_count (a := rowArgs2.until 3) 120 30000 ?_ ?_ ?_ <;>
      · simp only [Run2.Args2.until, rowArgs2, physArgs2, physArgs]
        norm_num
    · refine C53_step_count (a := rowArgs2.until 10) 400 100000 ?_ ?_ ?_ <;>
      · simp only [Run2.Args2.until, rowArgs2, physArgs2, physArgs]
        norm_num
    · refine C53_step_count (a := rowArgs2.until 20) 800 200000 ?_ ?_ ?_ <;>
      · simp only [Run2.Args2.until, rowArgs2, physArgs2, physArgs]
        norm_num
  · intro hst
    have : downsampling rowArgs2.downsample_factor = false := by
      simp [downsampling, FloatOps.eq, FloatOps.ofInt, rowArgs2, physArgs2, physArgs]
    have h2 : rowArgs2.saveState = false := by
      unfold Run.Args.saveState
      rw [this]
      rfl
    rw [h2] at hst
    cases hst

end physics

end Verif.Props
