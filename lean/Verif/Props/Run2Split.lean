import Verif.Lemmas.Run2Split
import Verif.Props.RunPhysics
import Verif.Props.RunRefuse
import Mathlib.Tactic.Linarith

/-!
# C47: a run of `run2` that is stopped and continued

Exact arithmetic.  `a.until T` is the call with `end_time = T`, `a.continued T`
the same call with `continue_file = True`.
-/

set_option linter.unusedSectionVars false

namespace Verif.Props

open H5IO H5 Run Run2

section

attribute [local instance] exactOps

variable {K β : Type} [Field K] [LinearOrder K] [IsStrictOrderedRing K] [FloorRing K] [Casts K β] [Inhabited K]
  [Inhabited β]
variable {E : Env2 K β} {a : Args2 K} {σ : St K β} {hw : Solver K} {ns m1 m2 : ℕ} {S : ℕ → NS (Cell K)}

/-- **C47 (partial).** A run until `T1` that is continued until `T2` leaves the
same file as one run until `T2`, as far as parameters, times, fields and
properties are concerned.  Hypotheses: the number of frames of the first run is
a multiple of `buffer_length` (so that the stored state is the last one, see
C43); the last frame is recorded exactly, contains no NaN and is not zero; the
file records from before the end of the first run; the simulation created from
the stored parameters is the same one (it is not if `zonal` is used, see C49).
Missing: other numbers of frames, for which the claim is false
(`C47_stale_state_violated`). -/
theorem C47_split_partial {T1 T2 : K} {t : K} {s : NS (Cell K)} {Good : NS (Cell K) → Prop}
    (h1 : FreshRun2 E (a.until T1) σ hw ns m1 S) (h2 : FreshRun2 E (a.until T2) σ hw ns m2 S) (hT : T1 ≤ T2)
    (hdt : 0 < a.step_size) (hsum : a.adaptive_step_size = true → ∀ l, E.sum l = l.sum)
    (hF : FieldSolver hw a.step_size a.dx a.grid_pts Good) (hst : a.saveState = true)
    (hlast : (frames2 E (a.until T1) S m1).getLast? = some (t, s))
    (hL : a.buffer_length ∣ (frames2 E (a.until T1) S m1).length)
    (hend : a.recording_start_time < m1 * a.step_size) (hz : E.HW a.toArgs.physics = .ok hw)
    (hattr : E.attrNum (.num a.dx) = a.dx) (hf : Casts.f64 (Casts.f32 t : β) = t)
    (hnan : E.hasNaN (.num t) = false ∧ ∀ k ∈ fieldList, ∀ A, s.get? k = some (.arr A) → E.hasNaN (.arr A) = false)
    (hzero : ∀ k ∈ ["density", "omega"], ∀ A, s.get? k = some (.arr A) → E.allZero (.arr A) = false)
    (hp : ∀ name ∈ a.properties, name ∉ ["time", "density", "omega", "phi"] ∧ (∀ n', name ≠ "fullres_" ++ n') ∧
      ∀ k ∈ fieldList, name ≠ "state_" ++ k)
    {fuel1 fuel2 fuel3 : ℕ} (hfuel1 : m1 < fuel1) (hfuel2 : m2 < fuel2) (hfuel3 : m2 < fuel3) :
    ∃ f g, (run2 E (a.until T2) fuel2 σ).2.fs a.output_path = some f ∧
      (run2 E (a.continued T2) fuel3 (run2 E (a.until T1) fuel1 σ).2).2.fs a.output_path = some g ∧
      (run2 E (a.continued T2) fuel3 (run2 E (a.until T1) fuel1 σ).2).1 ≠ .ok none ∧
      (∀ k, g.attrs k = f.attrs k) ∧
      (∀ k ∈ ["time", "density", "omega", "phi"], ∃ rows, f.dsets k = some (.rows (rowShape ns k) rows) ∧
        g.dsets k = some (.rows (rowShape ns k) rows) ∧ rows.length = (frames2 E (a.until T2) S m2).length) ∧
      (∀ name ∈ a.properties, ∃ rows, f.dsets ("fullres_" ++ name) = some (.rows .one rows) ∧
        g.dsets ("fullres_" ++ name) = some (.rows .one rows) ∧
        rows.length = (frames2 E (a.until T2) S m2).length) := by
  obtain ⟨f1, d, o, p, S', g1, hC, hsame⟩ := continuation h1 h2 hT hsum hF hst hlast hL hend hz hattr hf hnan hzero hp
    hfuel1
  have hm := steps_le hT h1 h2
  have e0 : (FloatOps.ofInt 0 : K) = 0 := by simp [FloatOps.ofInt]
  have ht : ∀ (t0 : K) (it : ℕ), timeAt E a t0 it = t0 + it * a.step_size := fun t0 it => exact_timeAt hsum t0 it
  set m' := lastRecorded E a 0 m1 with hm'
  have hm1 : m' ≤ m1 := lastRecorded_le _ _ _ _
  have hflush : ∀ T m, m1 ≤ m →
      FloatOps.lt (a.until T).recording_start_time (timeAt E (a.until T) (FloatOps.ofInt 0) m) = true := by
    intro T m hmm
    refine decide_eq_true ?_
    refine lt_of_lt_of_le (b := (m : K) * a.step_size) (lt_of_lt_of_le hend ?_) (le_of_eq ?_)
    · have : (m1 : K) ≤ m := by exact_mod_cast hmm
      exact mul_le_mul_of_nonneg_right this hdt.le
    · refine ((ht _ _).trans ?_).symm
      rw [e0, zero_add]
  have htime : ∀ k : ℕ, timeAt E (a.continued T2) (m' * a.step_size) k
      = timeAt E (a.until T2) (FloatOps.ofInt 0) (m' + k) := by
    intro k
    refine (ht _ _).trans (Eq.trans ?_ (ht _ _).symm)
    rw [e0]; push_cast; ring
  have hrec : ∀ k : ℕ, isRecorded2 E (a.continued T2) (m' * a.step_size) k
      = isRecorded2 E (a.until T2) (FloatOps.ofInt 0) (m' + k) := by
    intro k
    unfold isRecorded2
    rw [htime]
    obtain ⟨c, hc⟩ : a.snaps ∣ m' := lastRecorded_dvd _ _ _ _
    have : (m' + k) % (a.until T2).snaps = k % (a.continued T2).snaps := by
      rw [hc]
      exact Nat.mul_add_mod _ _ _
    rw [this]
    rfl
  have hflush3 : FloatOps.lt (a.continued T2).recording_start_time
      (timeAt E (a.continued T2) (m' * a.step_size) (m2 - m')) = true := by
    rw [htime, Nat.add_sub_cancel' (by omega)]
    exact hflush T2 m2 hm
  obtain ⟨f, f2, -, fa, fb⟩ := C52_all_written_partial h2 hfuel2 (hflush T2 m2 hm)
  obtain ⟨f1', q1, -, qa, qb⟩ := C52_all_written_partial h1 hfuel1 (hflush T1 m1 le_rfl)
  have hff : f1' = f1 := Option.some.inj (q1.symm.trans g1)
  rw [hff] at qa qb
  obtain ⟨g, g2, gn, ga, gb⟩ := C52_all_written_continued_partial hC (fuel := fuel3) (by omega) hflush3
  -- the frames
  have hsplit : List.Forall₂ (fun x y : K × NS (Cell K) => x.1 = y.1 ∧ SameFields x.2 y.2)
      (frames2 E (a.until T2) S m2)
      (frames2 E (a.until T1) S m1 ++ stepFrames2 E (a.continued T2) (m' * a.step_size) S' (m2 - m')) := by
    have e1 : frames2 E (a.until T1) S m1 = (if FloatOps.eq a.recording_start_time (FloatOps.ofInt 0) then
        [(FloatOps.ofInt 0, a.plasma0)] else []) ++ stepFrames2 E (a.until T2) (FloatOps.ofInt 0) S m' := by
      unfold frames2
      rw [stepFrames2_last]
      have : lastRecorded E (a.until T1) (FloatOps.ofInt 0) m1 = m' := by rw [e0]; rfl
      rw [this]
      rfl
    have e2 : frames2 E (a.until T2) S m2 = frames2 E (a.until T1) S m1 ++
        ((List.range' 1 (m2 - m')).filter (isRecorded2 E (a.continued T2) (m' * a.step_size))).map
          (fun k => (timeAt E (a.until T2) (FloatOps.ofInt 0) (m' + k), S (m' + k))) := by
      rw [e1]
      unfold frames2 stepFrames2
      rw [range_split m' m2 (by omega), List.filter_append, List.map_append, List.filter_map, List.map_map,
        List.append_assoc]
      have : (isRecorded2 E (a.until T2) (FloatOps.ofInt 0) ∘ fun x => m' + x)
          = isRecorded2 E (a.continued T2) (m' * a.step_size) := by
        funext k
        exact (hrec k).symm
      rw [this]
      rfl
    rw [e2]
    refine List.rel_append (R := fun x y : K × NS (Cell K) => _) ?_ ?_
    · rw [List.forall₂_same]
      exact fun x _ => ⟨rfl, .refl _⟩
    · unfold stepFrames2
      rw [List.forall₂_map_left_iff, List.forall₂_map_right_iff, List.forall₂_same]
      intro k hk
      rw [List.mem_filter, List.mem_range'_1] at hk
      exact ⟨(htime k).symm, hsame k (by omega) (by omega)⟩
  obtain ⟨f', u1, -, -, -, ua, -⟩ := run2_result h2 hfuel2
  obtain ⟨f1'', v1, -, -, -, va, -⟩ := run2_result h1 hfuel1
  obtain ⟨g', w1, -, -, -, wa, -⟩ := continue2_result hC (fuel := fuel3) (by omega)
  have hf' : f' = f := Option.some.inj (u1.symm.trans f2)
  have hf1 : f1'' = f1 := Option.some.inj (v1.symm.trans g1)
  have hg' : g' = g := Option.some.inj (w1.symm.trans g2)
  rw [hf'] at ua
  rw [hf1] at va
  rw [hg'] at wa
  refine ⟨f, g, f2, g2, gn, fun k => ?_, fun k hk => ?_, fun name hn => ?_⟩
  · rw [wa, va, ua]
    rfl
  · have hkp : k ∉ a.properties := fun h => (hp _ h).1 hk
    obtain ⟨r, r1, r2⟩ := fa k hk hkp
    obtain ⟨r', r3, r4⟩ := qa k hk hkp
    obtain ⟨r'', r5, r6⟩ := ga k hk hkp
    have hro : f1.rowsOf k = r' := by
      unfold H5.rowsOf
      rw [r3]
    rw [hro] at r5
    have := rows_unique (P := fun (fr : K × NS (Cell K)) row => IsFrameRow E.toEnv a.downsample_factor k fr.1 fr.2 row)
      (Q := fun (fr : K × NS (Cell K)) row => IsFrameRow E.toEnv a.downsample_factor k fr.1 fr.2 row)
      r2 (List.rel_append (R := fun (fr : K × NS (Cell K)) row => IsFrameRow E.toEnv a.downsample_factor k fr.1 fr.2 row)
        r4 r6) (hsplit.imp fun x y hxy _ _ p1 p2 => frameRow_unique hk hxy.1 hxy.2 p1 p2)
    exact ⟨r, r1, by rw [r5, this], r2.length_eq.symm⟩
  · have hkp : "fullres_" ++ name ∉ a.properties := fun h => (hp _ h).2.1 _ rfl
    obtain ⟨r, r1, r2⟩ := fb name hn hkp
    obtain ⟨r', r3, r4⟩ := qb name hn hkp
    obtain ⟨r'', r5, r6⟩ := gb name hn hkp
    have hro : f1.rowsOf ("fullres_" ++ name) = r' := by
      unfold H5.rowsOf
      rw [r3]
    rw [hro] at r5
    have := rows_unique (P := fun (fr : K × NS (Cell K)) row => ∃ x, IsPropValue E a name fr.2 x ∧ row = Cell.num (Casts.f32 x : β))
      (Q := fun (fr : K × NS (Cell K)) row => ∃ x, IsPropValue E a name fr.2 x ∧ row = Cell.num (Casts.f32 x : β))
      r2 (List.rel_append (R := fun (fr : K × NS (Cell K)) row => ∃ x, IsPropValue E a name fr.2 x ∧ row = Cell.num (Casts.f32 x : β))
        r4 r6) (hsplit.imp fun x y hxy r r' p1 p2 => by
          obtain ⟨v, v1, rfl⟩ := p1
          obtain ⟨v', v2, rfl⟩ := p2
          rw [propValue_unique hxy.2 v1 v2])
    exact ⟨r, r1, by rw [r5, this], r2.length_eq.symm⟩

end

section violated

variable {α β : Type} [Casts α β] [Zero α] [Inhabited α] [Inhabited β] [FloatOps α]
variable {E : Env2 α β} {a : Args2 α} {σ : St α β} {hw : Solver α} {ns m fuel : ℕ} {S : ℕ → NS (Cell α)}

/-- the last entry of `time` is the time of the last frame -/
theorem last_time (h : FreshRun2 E a σ hw ns m S) (hfuel : m < fuel)
    (hend : FloatOps.lt a.recording_start_time (timeAt E a (FloatOps.ofInt 0) m) = true)
    (hp : "time" ∉ a.properties) {f : H5 α β} (hf : (run2 E a fuel σ).2.fs a.output_path = some f) {y : α × NS (Cell α)}
    (hy : (frames2 E a S m).getLast? = some y) :
    ∃ r, f.dsets "time" = some (.rows .one r) ∧ r.getLast? = some (.num (Casts.f32 y.1)) := by
  obtain ⟨f', g1, -, g2, -⟩ := C52_all_written_partial h hfuel hend
  have : f' = f := Option.some.inj (g1.symm.trans hf)
  subst this
  obtain ⟨r, r1, r2⟩ := g2 "time" (by simp) hp
  refine ⟨r, r1, ?_⟩
  rw [List.getLast?_eq_getElem?] at hy ⊢
  rw [← r2.length_eq]
  obtain ⟨hlt, e⟩ := List.getElem?_eq_some_iff.mp hy
  rw [List.forall₂_iff_get] at r2
  have := r2.2 _ hlt (by rw [← r2.1]; exact hlt)
  simp only [List.get_eq_getElem, e] at this
  unfold IsFrameRow at this
  rw [if_pos rfl] at this
  rw [List.getElem?_eq_getElem (by rw [← r2.1]; exact hlt), this]

/-- **C47 is violated** when full-resolution states are stored (the default) and
the number `n` of frames of the first run is not a multiple of `buffer_length`: a
continuing call loads the fields of frame number `L * (n / L) - 1` (counted from
0), which is not the last frame, together with the time of the last frame. -/
theorem C47_stale_state_violated (h : FreshRun2 E a σ hw ns m S) (hfuel : m < fuel) (hst : a.saveState = true)
    (hend : FloatOps.lt a.recording_start_time (timeAt E a (FloatOps.ofInt 0) m) = true)
    (hd : ¬ a.buffer_length ∣ (frames2 E a S m).length) (hle : a.buffer_length ≤ (frames2 E a S m).length)
    (hp : "time" ∉ a.properties ∧ ∀ k ∈ fieldList, "state_" ++ k ∉ a.properties) :
    ∃ f x y, (run2 E a fuel σ).2.fs a.output_path = some f ∧
      (frames2 E a S m)[a.buffer_length * ((frames2 E a S m).length / a.buffer_length) - 1]? = some x ∧
      a.buffer_length * ((frames2 E a S m).length / a.buffer_length) - 1 + 1 < (frames2 E a S m).length ∧
      (frames2 E a S m).getLast? = some y ∧ (∀ k ∈ fieldList, loadedValue f k = x.2.get? k) ∧
      ∃ r, f.dsets "time" = some (.rows .one r) ∧ r.getLast? = some (.num (Casts.f32 y.1)) := by
  have hne : frames2 E a S m ≠ [] := by
    intro e
    rw [e] at hle
    have := h.buffer
    simp at hle
    omega
  obtain ⟨f, A, g1, -, -, g2⟩ := C43_run2_violated h hfuel hst hd "density" (by decide) (hp.2 _ (by decide))
  obtain ⟨x, x1, x2, -⟩ := g2 hle
  have hy := List.getLast?_eq_some_getLast hne
  refine ⟨f, x, _, g1, x1, x2, hy, fun k hk => ?_, last_time h hfuel hend hp.1 g1 hy⟩
  obtain ⟨f', A, q1, q2, -, q3⟩ := C43_run2_violated h hfuel hst hd k hk (hp.2 _ hk)
  obtain ⟨x', w1, -, w2⟩ := q3 hle
  have e1 : f' = f := Option.some.inj (q1.symm.trans g1)
  have e2 : x' = x := Option.some.inj (w1.symm.trans x1)
  subst e1 e2
  unfold loadedValue
  rw [q2, w2]

/-- **C47 is violated** when the first run has fewer frames than `buffer_length`
(100 by default): the stored state is still zero, and the continuing call raises
instead of continuing. -/
theorem C47_refused_violated {T2 : α} (h : FreshRun2 E a σ hw ns m S) (hfuel : m < fuel) (hst : a.saveState = true)
    (hend : FloatOps.lt a.recording_start_time (timeAt E a (FloatOps.ofInt 0) m) = true)
    (hlt : (frames2 E a S m).length < a.buffer_length) (hne : frames2 E a S m ≠ [])
    (hzero : E.allZero (.arr (Arr.tab a.grid_pts a.grid_pts fun _ _ => 0)) = true)
    (hearly : ∃ q z, FloatOps.div T2 a.step_size = .ok q ∧ FloatOps.toInt q = .ok z)
    (hp : (∀ k ∈ ["time", "density", "omega", "phi"], k ∉ a.properties) ∧ ∀ k ∈ fieldList, "state_" ++ k ∉ a.properties)
    {fuel' : ℕ} :
    (∃ msg, (run2 E (a.continued T2) fuel' (run2 E a fuel σ).2).1 = .error (.baseException msg)) ∧
    (run2 E (a.continued T2) fuel' (run2 E a fuel σ).2).2.fs = (run2 E a fuel σ).2.fs := by
  have hd : ¬ a.buffer_length ∣ (frames2 E a S m).length := fun hd =>
    absurd (Nat.le_of_dvd (List.length_pos_iff.mpr hne) hd) (by omega)
  obtain ⟨f, -, g1, -, -, -⟩ := C43_run2_violated h hfuel hst hd "density" (by decide) (hp.2 _ (by decide))
  have hstate : ∀ k ∈ fieldList, f.dsets ("state_" ++ k) = some (.full (Arr.tab a.grid_pts a.grid_pts fun _ _ => 0)) := by
    intro k hk
    obtain ⟨f', A, q1, q2, q3, -⟩ := C43_run2_violated h hfuel hst hd k hk (hp.2 _ hk)
    have e1 : f' = f := Option.some.inj (q1.symm.trans g1)
    rw [← e1, q2, q3 hlt]
  have hload : ∀ k ∈ fieldList, loadedValue f k = some (.arr (Arr.tab a.grid_pts a.grid_pts fun _ _ => 0)) := by
    intro k hk
    unfold loadedValue
    rw [hstate k hk]
  have hy := List.getLast?_eq_some_getLast hne
  obtain ⟨r, r1, r2⟩ := last_time h hfuel hend (hp.1 _ (by simp)) g1 hy
  obtain ⟨f', q1, -, -, -, q2, -⟩ := run2_result h hfuel
  have e1 : f' = f := Option.some.inj (q1.symm.trans g1)
  subst e1
  obtain ⟨f'', q3, -, q4, -⟩ := C52_all_written_partial h hfuel hend
  have e2 : f'' = f' := Option.some.inj (q3.symm.trans g1)
  subst e2
  refine C71_run2_refuses (E := E) (a := a.continued T2) (σ := (run2 E a fuel σ).2) (f := f'') (n := a.grid_pts) (ns := ns)
    (states := true) (params := a.toArgs.physics) h.path h.snaps hearly h.saves.dim g1 rfl rfl
    ⟨⟨fun k hk => ?_, fun _ k hk => ⟨_, hstate k hk, rfl, rfl⟩⟩, hload _ (by decide), hload _ (by decide),
      hload _ (by decide), ⟨r, _, r1, r2, rfl⟩, restored_physics _ q2⟩ (.inr (.inr (.inr (.inr (.inl hzero)))))
  obtain ⟨rows, q5, -⟩ := q4 k hk (hp.1 k hk)
  exact ⟨rows, q5⟩

end violated

/-! ## non-vacuity -/

/-- a consistent toy simulation: adds 1 to density and vorticity, the potential is
`2 * omega` -/
def splitSolver : Solver ℚ where
  rk4_step s dt _ := match s.get? "density", s.get? "omega", s.get? "age" with
    | some (.arr d), some (.arr o), some (.num t) =>
      .ok (fieldState (d.map (· + 1)) (o.map (· + 1)) ((o.map (· + 1)).map (2 * ·)) (t + dt))
    | _, _, _ => .error .typeError
  get_phi v _ := match v with
    | .arr a => .ok (.arr (a.map (2 * ·)))
    | .num _ => .error .typeError

/-- states of the toy simulation -/
def SplitGood (s : NS (Cell ℚ)) : Prop := ∃ d o p t, s = fieldState d o p t ∧ (d.h = 2 ∧ d.w = 2) ∧ (o.h = 2 ∧ o.w = 2) ∧
  (p.h = 2 ∧ p.w = 2)

theorem splitSolver_step (d o p : Arr ℚ) (t dt dx : ℚ) : splitSolver.rk4_step (fieldState d o p t) dt dx
    = .ok (fieldState (d.map (· + 1)) (o.map (· + 1)) ((o.map (· + 1)).map (2 * ·)) (t + dt)) := rfl

theorem fieldState_shaped {n : ℕ} {d o p : Arr ℚ} (t : ℚ) (h1 : d.h = n ∧ d.w = n) (h2 : o.h = n ∧ o.w = n)
    (h3 : p.h = n ∧ p.w = n) : Shaped n (fieldState d o p t) := by
  refine ⟨by simp [NS.keys, fieldState], fun k hk => ?_⟩
  simp only [fieldList, List.mem_cons, List.not_mem_nil, or_false] at hk
  rcases hk with rfl | rfl | rfl
  · exact ⟨_, rfl, h1⟩
  · exact ⟨_, rfl, h2⟩
  · exact ⟨_, rfl, h3⟩

theorem split_fieldSolver (dt dx : ℚ) : FieldSolver splitSolver dt dx 2 SplitGood where
  shaped := by
    rintro s ⟨d, o, p, t, rfl, h1, h2, h3⟩
    exact fieldState_shaped t h1 h2 h3
  init := fun d o p t h1 h2 h3 => ⟨d, o, p, t, rfl, h1, h2, h3⟩
  step := by
    rintro s s' r ⟨d, o, p, t, rfl, h1, h2, h3⟩ ⟨d', o', p', t', rfl, -, -, -⟩ hs hr
    rw [splitSolver_step] at hr
    have e1 : d = d' := Cell.arr.inj (Option.some.inj (hs "density" (by simp)))
    have e2 : o = o' := Cell.arr.inj (Option.some.inj (hs "omega" (by simp)))
    have e3 : t = t' := Cell.num.inj (Option.some.inj (hs "age" (by simp)))
    subst e1 e2 e3
    rw [← Except.ok.inj hr, splitSolver_step]
    exact ⟨⟨_, _, _, _, rfl, h1, h2, h2⟩, _, rfl, ⟨_, _, _, _, rfl, h1, h2, h2⟩, .refl _⟩
  phi := by
    rintro s r v ⟨d, o, p, t, rfl, h1, h2, h3⟩ hr hv
    rw [splitSolver_step] at hr
    rw [← Except.ok.inj hr] at hv ⊢
    have : o.map (· + 1) = v := Cell.arr.inj (Option.some.inj hv)
    rw [← this]
    exact ⟨_, rfl, rfl⟩
  age := by
    rintro s r x ⟨d, o, p, t, rfl, h1, h2, h3⟩ hx hr
    rw [splitSolver_step] at hr
    have : t = x := Cell.num.inj (Option.some.inj hx)
    rw [← Except.ok.inj hr, ← this]
    rfl
  get_phi := by
    intro o v h hv
    rw [← Except.ok.inj hv]
    exact ⟨_, rfl, h⟩

/-- its states, started from the demo fields -/
def splitStates (n : ℕ) : NS (Cell ℚ) :=
  fieldState (demoField (10 + n)) (demoField (20 + n)) ((demoField (20 + n)).map (2 * ·)) (n * (1 / 2))

/-- the demo environment with this simulation -/
def splitEnv : Env2 ℚ ℚ := { demoEnv2 with HW := fun _ => .ok splitSolver }

/-- a buffer of length 3: the run until time 2 has 3 frames -/
def splitArgs : Args2 ℚ := { demoArgs2 with buffer_length := 3 }

theorem split_time (a : Args2 ℚ) (t0 : ℚ) (it : ℕ) : timeAt splitEnv a t0 it = t0 + it * a.step_size :=
  exact_timeAt (fun _ _ => rfl) t0 it

theorem split_run (end_time : ℚ) (m : ℕ) (he : end_time = m / 2) (hm : m < 90) :
    FreshRun2 splitEnv (splitArgs.until end_time) noFiles splitSolver 2 m splitStates where
  path := (demo_call2 end_time 0 3 2 (by decide) (by decide) noFiles rfl).path
  fresh := .inl rfl
  buffer := (by decide : 1 ≤ 3)
  snaps := (by decide : 1 ≤ 2)
  early := (demo_call2 end_time 0 3 2 (by decide) (by decide) noFiles rfl).early
  saves := ⟨demo_saves.dim, fun h => by simp [downsampling, FloatOps.eq, FloatOps.ofInt, splitArgs, demoArgs2, demoArgs, Run2.Args2.until] at h⟩
  nodup := (demo_call2 end_time 0 3 2 (by decide) (by decide) noFiles rfl).nodup
  props := (demo_call2 end_time 0 3 2 (by decide) (by decide) noFiles rfl).props
  init := demo_init 10 20 30 _
  solver := rfl
  start := by
    refine ⟨_, rfl, ?_⟩
    unfold splitStates
    rw [Nat.cast_zero, add_zero, add_zero, zero_mul]
    rfl
  traj := by
    intro n _
    unfold splitStates
    rw [splitSolver_step, demoField_bump, demoField_bump]
    congr 2
    · push_cast; rw [add_assoc]
    · push_cast; rw [add_assoc]
    · push_cast; rw [add_assoc]
    · push_cast
      show (n : ℚ) * (1 / 2) + 1 / 2 = _
      ring
  shaped := fun n _ _ => fieldState_shaped _ ⟨rfl, rfl⟩ ⟨rfl, rfl⟩ ⟨rfl, rfl⟩
  stops := by
    have hst : (splitArgs.until end_time).step_size = 1 / 2 := rfl
    have hen : (splitArgs.until end_time).end_time = m / 2 := he
    refine ⟨fun j hj => ?_, fun j h1 h2 _ => ?_, .inl ?_⟩
    · rw [split_time, hst, hen]
      have : (j : ℚ) < m := by exact_mod_cast hj
      simp only [FloatOps.ofInt, Int.cast_zero, zero_add, demo_round4]
      simp only [FloatOps.lt]
      rw [decide_eq_true_eq]; linarith
    · have : nanState splitEnv.toEnv (splitStates j) = decide ((10 : ℚ) + j = 100) := by
        unfold nanState
        have : (splitStates j).get? "density" = some (.arr (demoField (10 + j))) := rfl
        rw [this]
        simp only [splitEnv, demoEnv2, demoRunEnv, demoField_corner]
      rw [this, decide_eq_false_iff_not]
      have : (j : ℚ) < 90 := by exact_mod_cast (lt_of_lt_of_le h2 hm.le)
      intro h; linarith
    · rw [split_time, hst, hen]
      simp only [FloatOps.ofInt, Int.cast_zero, zero_add, demo_round4]
      simp only [FloatOps.lt]
      rw [decide_eq_false_iff_not]; linarith

theorem split_frames : frames2 splitEnv (splitArgs.until 2) splitStates 4
    = [(0, splitArgs.plasma0), (1, splitStates 2), (2, splitStates 4)] := by
  have hi : ∀ it : ℕ, isRecorded2 splitEnv (splitArgs.until 2) (FloatOps.ofInt 0) it = (it % 2 == 0) := by
    intro it
    unfold isRecorded2
    rw [split_time]
    have : FloatOps.le (splitArgs.until 2).recording_start_time
        ((FloatOps.ofInt 0 : ℚ) + it * (splitArgs.until 2).step_size) = true := by
      have : (0 : ℚ) ≤ ((0 : ℤ) : ℚ) + it * (1 / 2) := by positivity
      exact decide_eq_true this
    rw [this, Bool.true_and]
    rfl
  have hl : (List.range' 1 4).filter (isRecorded2 splitEnv (splitArgs.until 2) (FloatOps.ofInt 0)) = [2, 4] := by
    simp only [List.range', List.filter, hi]
    rfl
  unfold frames2 stepFrames2
  rw [hl]
  have h0 : FloatOps.eq (splitArgs.until 2).recording_start_time (FloatOps.ofInt 0 : ℚ) = true := by
    simp [FloatOps.eq, FloatOps.ofInt, splitArgs, demoArgs2, demoArgs, Run2.Args2.until]
  rw [if_pos h0]
  simp only [List.map_cons, List.map_nil, split_time, List.cons_append, List.nil_append, FloatOps.ofInt]
  have hst : (splitArgs.until 2).step_size = 1 / 2 := rfl
  rw [hst]
  norm_num
  rfl

theorem f32_two : Casts.f64 (Casts.f32 (2 : ℚ) : ℚ) = (2 : ℚ) := by
  simp only [Casts.f64, Casts.f32, id]
  norm_num

/-- the run until time 4, and the run until time 2 continued until time 4 -/
example := C47_split_partial (split_run 2 4 (by norm_num) (by decide)) (split_run 4 8 (by norm_num) (by decide))
  (by norm_num) (by simp [splitArgs, demoArgs2, demoArgs]) (fun _ _ => rfl) (split_fieldSolver _ _) rfl
  (t := 2) (s := splitStates 4) (by rw [split_frames]; rfl) (by rw [split_frames]; exact dvd_refl 3)
  (by norm_num [splitArgs, demoArgs2, demoArgs]) rfl rfl f32_two
  ⟨rfl, by
    intro k hk A hA
    simp only [fieldList, List.mem_cons, List.not_mem_nil, or_false] at hk
    rcases hk with rfl | rfl | rfl
    · rw [← Cell.arr.inj (Option.some.inj hA)]
      simp only [splitEnv, demoEnv2, demoRunEnv, demoField_corner]
      norm_num
    · rw [← Cell.arr.inj (Option.some.inj hA)]
      simp only [splitEnv, demoEnv2, demoRunEnv, demoField_corner]
      norm_num
    · rw [← Cell.arr.inj (Option.some.inj hA)]
      simp only [splitEnv, demoEnv2, demoRunEnv]
      decide +kernel⟩
  (by
    intro k hk A hA
    simp only [List.mem_cons, List.not_mem_nil, or_false] at hk
    rcases hk with rfl | rfl
    · rw [← Cell.arr.inj (Option.some.inj hA)]
      simp only [splitEnv, demoEnv2, demoRunEnv, demoField_corner]
      norm_num
    · rw [← Cell.arr.inj (Option.some.inj hA)]
      simp only [splitEnv, demoEnv2, demoRunEnv, demoField_corner]
      norm_num)
  (by
    intro name hn
    have : name = "gamma_n" := by simpa [splitArgs, demoArgs2] using hn
    subst this
    refine ⟨by decide, fun n' h => ?_, by decide⟩
    have := congrArg String.toList h
    simp at this)
  (fuel1 := 5) (fuel2 := 9) (fuel3 := 9) (by decide) (by decide) (by decide)

theorem demo_recorded (a : Args2 ℚ) (ha : a.step_size = 1 / 2 ∧ a.recording_start_time = 0 ∧ a.snaps = 2) (t0 : ℚ)
    (ht : 0 ≤ t0) (it : ℕ) : isRecorded2 demoEnv2 a t0 it = (it % 2 == 0) := by
  unfold isRecorded2
  rw [demo_time2, ha.1, ha.2.1, ha.2.2]
  have : FloatOps.le (0 : ℚ) (t0 + it * (1 / 2)) = true := decide_eq_true (by positivity)
  rw [this, Bool.true_and]

theorem demo_frames3 : frames2 demoEnv2 demoArgs2 (demoStates (1 / 2) demoStart) 4
    = [(0, demoArgs2.plasma0), (1, demoStates (1 / 2) demoStart 2), (2, demoStates (1 / 2) demoStart 4)] := by
  have hl : (List.range' 1 4).filter (isRecorded2 demoEnv2 demoArgs2 (FloatOps.ofInt 0)) = [2, 4] := by
    simp only [List.range', List.filter, demo_recorded demoArgs2 ⟨rfl, rfl, rfl⟩ (FloatOps.ofInt 0) le_rfl]
    rfl
  unfold frames2 stepFrames2
  rw [hl]
  have h0 : FloatOps.eq demoArgs2.recording_start_time (FloatOps.ofInt 0 : ℚ) = true := by
    simp [FloatOps.eq, FloatOps.ofInt, demoArgs2, demoArgs]
  rw [if_pos h0]
  simp only [List.map_cons, List.map_nil, demo_time2, List.cons_append, List.nil_append, FloatOps.ofInt]
  have hst : demoArgs2.step_size = 1 / 2 := rfl
  rw [hst]
  norm_num

example := C47_stale_state_violated demo_run2_4 (fuel := 5) (by decide) rfl demo_end2
  (by rw [demo_frames3]; exact (by decide : ¬ 2 ∣ 3)) (by rw [demo_frames3]; exact (by decide : 2 ≤ 3))
  ⟨by simp [demoArgs2], by simp [demoArgs2, fieldList]⟩

/-- `buffer_length = 5` -/
example := C47_refused_violated (T2 := 4) (demo_run2 2 4 (by norm_num) (by decide) 0 5 2 (by decide) (by decide) noFiles rfl)
  (fuel := 5) (fuel' := 9) (by decide) rfl demo_end2
  (by
    refine lt_of_eq_of_lt (congrArg List.length demo_frames3) ?_
    exact (by decide : 3 < 5))
  (by
    intro h
    have := demo_frames3.symm.trans h
    simp at this)
  (by simp only [demoEnv2, demoRunEnv, demoArgs2, demoArgs]; decide +kernel)
  (demo_run2 4 8 (by norm_num) (by decide) 0 5 2 (by decide) (by decide) noFiles rfl).early
  ⟨by simp [demoArgs2], by simp [demoArgs2, fieldList]⟩

theorem demo_rows {fr : List (ℚ × NS (Cell ℚ))} {cs : List ℚ} {rows : List (Cell ℚ)}
    (h : List.Forall₂ (fun x c => x.2.get? "density" = some (.arr (demoField c))) fr cs)
    (h' : List.Forall₂ (fun fr row => IsFrameRow demoEnv2.toEnv 1 "density" fr.1 fr.2 row) fr rows) :
    rows = cs.map fun c : ℚ => .arr ((demoField c).map Casts.f32) := by
  induction h generalizing rows with
  | nil => cases h'; rfl
  | cons h1 _ ih =>
    obtain ⟨row, rows, h2, h3, rfl⟩ := List.forall₂_cons_left_iff.mp h'
    rw [List.map_cons, ← ih h3]
    congr 1
    unfold IsFrameRow at h2
    rw [if_neg (by decide)] at h2
    obtain ⟨A, B, a1, a2, a3⟩ := h2
    rw [h1] at a1
    unfold recordedValue at a2
    rw [if_neg (by simp [downsampling, FloatOps.eq, FloatOps.ofInt])] at a2
    rw [a3, ← Cell.arr.inj (Except.ok.inj a2), ← Cell.arr.inj (Option.some.inj a1)]

/-- the state the continuing call loads: fields of step 2, time of step 4 -/
def staleStart : NS (Cell ℚ) :=
  [("density", .arr (demoField 12)), ("omega", .arr (demoField 22)), ("phi", .arr ((demoField 22).map (2 * ·))),
    ("age", .num 2)]

theorem stale_continued : ∃ f d o p, (run2 demoEnv2 demoArgs2 5 noFiles).2.fs "run.h5" = some f ∧
    ContinuedRun2 demoEnv2 (demoArgs2.continued 4) (run2 demoEnv2 demoArgs2 5 noFiles).2 f demoSolver 2 d o p 2
      demoArgs.physics 4 (demoStates (1 / 2) staleStart) ∧
    f.rowsOf "density" = [10, 12, 14].map fun c : ℚ => .arr ((demoField c).map Casts.f32) := by
  have hL : (2 : ℕ) * ((frames2 demoEnv2 demoArgs2 (demoStates (1 / 2) demoStart) 4).length / 2) - 1 = 1 := by
    rw [demo_frames3]; rfl
  obtain ⟨f, x, y, g1, x1, -, y1, g2, r, r1, r2⟩ := C47_stale_state_violated demo_run2_4 (fuel := 5) (by decide) rfl
    demo_end2 (by rw [demo_frames3]; exact (by decide : ¬ 2 ∣ 3)) (by rw [demo_frames3]; exact (by decide : 2 ≤ 3))
    ⟨by simp [demoArgs2], by simp [demoArgs2, fieldList]⟩
  have hb : demoArgs2.buffer_length = 2 := rfl
  rw [hb, hL, demo_frames3] at x1
  rw [demo_frames3] at y1
  have hx : x = (1, demoStates (1 / 2) demoStart 2) := (Option.some.inj x1).symm
  have hy : y = (2, demoStates (1 / 2) demoStart 4) := (Option.some.inj y1).symm
  rw [hx] at g2
  rw [hy] at r2
  have hd : loadedValue f "density" = some (.arr (demoField 12)) := by
    rw [g2 "density" (by decide), demoStates_get _ _ 10 _ rfl]
    norm_num
  have ho : loadedValue f "omega" = some (.arr (demoField 22)) := by
    rw [g2 "omega" (by decide), demoStates_get _ _ 20 _ rfl]
    norm_num
  obtain ⟨P, hP, -, -⟩ := (demo_shaped (1 / 2) demoStart demoStart_shaped 2).fields "phi" (by decide)
  have hp : loadedValue f "phi" = some (.arr P) := by
    rw [g2 "phi" (by decide)]
    exact hP
  obtain ⟨f', q1, -, -, -, q2, q3, q4, q5⟩ := run2_result demo_run2_4 (fuel := 5) (by decide)
  have e1 : f' = f := Option.some.inj (q1.symm.trans g1)
  subst e1
  have hst : (demoArgs2.continued 4).step_size = 1 / 2 := rfl
  have hen : (demoArgs2.continued 4).end_time = 4 := rfl
  have hround : ∀ j : ℕ, (FloatOps.round4 (2 + (j : ℚ) * (1 / 2)) : ℚ) = 2 + j * (1 / 2) := by
    intro j
    have := demo_round4 (4 + j)
    have e : ((4 + j : ℕ) : ℚ) * (1 / 2) = 2 + j * (1 / 2) := by push_cast; ring
    rwa [e] at this
  have hPnan : demoEnv2.hasNaN (.arr P) = false := by
    have hP2 : demoStates (1 / 2) demoStart 2 = _ := rfl
    rw [demoStates, demoStates, demoStates, get?_bump, get?_bump] at hP
    have : NS.get? demoStart "phi" = some (.arr ((demoField 20).map (2 * ·))) := rfl
    rw [this] at hP
    simp only [Option.map_some, bump] at hP
    rw [← Cell.arr.inj (Option.some.inj hP)]
    simp only [demoEnv2, demoRunEnv]
    decide +kernel
  refine ⟨f', demoField 12, demoField 22, P, g1, ?_, ?_⟩
  · exact {
      path := demo_run2_4.path, file := g1, keep := rfl, cont := rfl, buffer := demo_run2_4.buffer
      snaps := demo_run2_4.snaps
      early := (demo_run2 4 8 (by norm_num) (by decide) 0 5 2 (by decide) (by decide) noFiles rfl).early
      saves := demo_saves, nodup := demo_run2_4.nodup, props := demo_run2_4.props
      output := by
        refine ⟨fun k hk => ?_, fun _ k hk => ?_⟩
        · obtain ⟨rows, h, -⟩ := q3 k hk (by
            simp only [fieldList, List.mem_cons, List.not_mem_nil, or_false] at hk
            rcases hk with rfl | rfl | rfl | rfl <;> simp [demoArgs2])
          exact ⟨rows, h⟩
        · obtain ⟨A, a1, a2, a3, -⟩ := q5 rfl k hk (by
            simp only [fieldList, List.mem_cons, List.not_mem_nil, or_false] at hk
            rcases hk with rfl | rfl | rfl <;> simp [demoArgs2])
          exact ⟨A, a1, a2, a3⟩
      propRows := by
        intro name hn
        obtain ⟨rows, h, -⟩ := q4 name hn (by
          have : name = "gamma_n" := List.mem_singleton.mp hn
          subst this; simp [demoArgs2])
        exact ⟨rows, h⟩
      density := hd, omega := ho, phi := hp
      time := ⟨r, _, r1, r2, f32_two⟩
      restored := restored_physics _ q2
      notNaN := by
        refine ⟨?_, ?_, hPnan, rfl⟩ <;> simp only [demoEnv2, demoRunEnv, demoField_corner] <;> norm_num
      nonzero := by
        constructor <;> simp only [demoEnv2, demoRunEnv, demoField_corner] <;> norm_num
      solver := rfl
      start := ⟨_, _, rfl, rfl, rfl⟩
      traj := demo_step _ _ _ _
      shaped := fun n _ _ => demo_shaped _ _ (fieldState_shaped (n := 2) (d := demoField 12) (o := demoField 22)
        (p := (demoField 22).map (2 * ·)) 2 ⟨rfl, rfl⟩ ⟨rfl, rfl⟩ ⟨rfl, rfl⟩) n
      stops := by
        refine ⟨fun j hj => ?_, fun j h1 h2 _ => ?_, .inl ?_⟩
        · rw [demo_time2, hst, hen, hround]
          have : (j : ℚ) < 4 := by exact_mod_cast hj
          refine decide_eq_true ?_
          linarith
        · have : nanState demoEnv2.toEnv (demoStates (1 / 2) staleStart j) = decide ((12 : ℚ) + j = 100) :=
            demo_noNaN _ _ 12 rfl j
          rw [this, decide_eq_false_iff_not]
          have : (j : ℚ) < 4 := by exact_mod_cast h2
          intro h; linarith
        · rw [demo_time2, hst, hen, hround]
          refine decide_eq_false ?_
          norm_num }
  · obtain ⟨f'', w1, -, w2, -⟩ := C52_all_written_partial demo_run2_4 (fuel := 5) (by decide) demo_end2
    have e1 : f'' = f' := Option.some.inj (w1.symm.trans g1)
    subst e1
    obtain ⟨rows, w3, w4⟩ := w2 "density" (by simp) (by simp [demoArgs2])
    unfold H5.rowsOf
    rw [w3]
    rw [demo_frames3] at w4
    exact demo_rows (.cons rfl (.cons (by rw [demoStates_get _ _ 10 _ rfl]; norm_num)
      (.cons (by rw [demoStates_get _ _ 10 _ rfl]; norm_num) .nil))) w4

/-- **C47 concretely**: recording at the times 0, 1, 2, … with `buffer_length = 2`;
one run until time 4 records the densities 10, 12, 14, 16, 18 (in the corner), a
run until time 2 that is continued until time 4 records 10, 12, 14, 14, 16. -/
theorem C47_demo_violated : ∃ f g, (run2 demoEnv2 (demoArgs2.until 4) 9 noFiles).2.fs "run.h5" = some f ∧
    (run2 demoEnv2 (demoArgs2.continued 4) 9 (run2 demoEnv2 demoArgs2 5 noFiles).2).2.fs "run.h5" = some g ∧
    f.rowsOf "density" = ([10, 12, 14, 16, 18].map fun c : ℚ => .arr ((demoField c).map Casts.f32)) ∧
    g.rowsOf "density" = ([10, 12, 14, 14, 16].map fun c : ℚ => .arr ((demoField c).map Casts.f32)) := by
  obtain ⟨f0, d, o, p, g0, hC, hrows⟩ := stale_continued
  have h2 : FreshRun2 demoEnv2 (demoArgs2.until 4) noFiles demoSolver 2 8 (demoStates (1 / 2) demoStart) :=
    demo_run2 4 8 (by norm_num) (by decide) 0 2 2 (by decide) (by decide) noFiles rfl
  have hlt : ∀ a : Args2 ℚ, a.recording_start_time = 0 → a.step_size = 1 / 2 → ∀ (t0 : ℚ) (m : ℕ), 0 ≤ t0 → 1 ≤ m →
      FloatOps.lt a.recording_start_time (timeAt demoEnv2 a t0 m) = true := by
    intro a h1 h2 t0 m h3 h4
    rw [demo_time2, h1, h2]
    have : (1 : ℚ) ≤ m := by exact_mod_cast h4
    refine decide_eq_true ?_
    linarith
  obtain ⟨f, f1, -, f2, -⟩ := C52_all_written_partial h2 (fuel := 9) (by decide)
    (hlt (demoArgs2.until 4) rfl rfl _ _ le_rfl (by decide))
  obtain ⟨g, g1, -, g2, -⟩ := C52_all_written_continued_partial hC (fuel := 9) (by decide)
    (hlt (demoArgs2.continued 4) rfl rfl _ _ (by norm_num) (by decide))
  obtain ⟨r, r1, r2⟩ := f2 "density" (by simp) (by simp [demoArgs2, Run2.Args2.until])
  obtain ⟨q, q1, q2⟩ := g2 "density" (by simp) (by simp [demoArgs2, Run2.Args2.continued])
  have e1 : frames2 demoEnv2 (demoArgs2.until 4) (demoStates (1 / 2) demoStart) 8
      = (0, demoArgs2.plasma0) :: [2, 4, 6, 8].map fun it : ℕ =>
          (timeAt demoEnv2 (demoArgs2.until 4) (FloatOps.ofInt 0) it, demoStates (1 / 2) demoStart it) := by
    have hl : (List.range' 1 8).filter (isRecorded2 demoEnv2 (demoArgs2.until 4) (FloatOps.ofInt 0)) = [2, 4, 6, 8] := by
      simp only [List.range', List.filter, demo_recorded (demoArgs2.until 4) ⟨rfl, rfl, rfl⟩ (FloatOps.ofInt 0) le_rfl]
      rfl
    unfold frames2 stepFrames2
    rw [hl]
    have h0 : FloatOps.eq (demoArgs2.until 4).recording_start_time (FloatOps.ofInt 0 : ℚ) = true :=
      decide_eq_true (by simp [demoArgs2, demoArgs, Run2.Args2.until, FloatOps.ofInt])
    rw [if_pos h0]
    rfl
  have e2 : stepFrames2 demoEnv2 (demoArgs2.continued 4) 2 (demoStates (1 / 2) staleStart) 4
      = [2, 4].map fun it : ℕ => (timeAt demoEnv2 (demoArgs2.continued 4) 2 it, demoStates (1 / 2) staleStart it) := by
    have hl : (List.range' 1 4).filter (isRecorded2 demoEnv2 (demoArgs2.continued 4) 2) = [2, 4] := by
      simp only [List.range', List.filter, demo_recorded (demoArgs2.continued 4) ⟨rfl, rfl, rfl⟩ 2 (by norm_num)]
      rfl
    unfold stepFrames2
    rw [hl]
  rw [e1] at r2
  rw [e2] at q2
  have hs : ∀ s0 : NS (Cell ℚ), ∀ c e : ℚ, ∀ n : ℕ, s0.get? "density" = some (.arr (demoField c)) → c + n = e →
      (demoStates (1 / 2) s0 n).get? "density" = some (.arr (demoField e)) := by
    intro s0 c e n h1 h2
    rw [demoStates_get _ _ c _ h1, h2]
  have r3 := demo_rows (cs := [10, 12, 14, 16, 18]) (.cons rfl (.cons (hs _ 10 _ _ rfl (by norm_num))
    (.cons (hs _ 10 _ _ rfl (by norm_num)) (.cons (hs _ 10 _ _ rfl (by norm_num))
      (.cons (hs _ 10 _ _ rfl (by norm_num)) .nil))))) r2
  have q3 := demo_rows (cs := [14, 16]) (.cons (hs _ 12 _ _ rfl (by norm_num))
    (.cons (hs _ 12 _ _ rfl (by norm_num)) .nil)) q2
  refine ⟨f, g, f1, g1, ?_, ?_⟩
  · unfold H5.rowsOf
    rw [r1]
    exact r3
  · rw [hrows, q3] at q1
    unfold H5.rowsOf
    rw [q1]
    rfl

end Verif.Props
