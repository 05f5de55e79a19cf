import Verif.Props.Run2Split

/-!
# C47 with the simulation of `model.py`
-/

namespace Verif.Props

open H5IO H5 Run Run2 Arr Spec

attribute [local instance] exactOps

/-- states of the simulation on an `n × n` grid -/
def HWGood (hw : HW) (n : ℕ) (s : NS (Cell ℝ)) : Prop := ∃ T, s = toCells T ∧ IsState hw.TEST_CONSERVATION n n T

theorem rk4S_fields {h w : ℕ} [NeZero h] [NeZero w] (P : Params) (dx0 dt : ℝ) (n o p : Fld h w) (a e u e' u' : ℝ) :
    (rk4S P dx0 dt (n, o, p, a, e, u)).1 = (rk4S P dx0 dt (n, o, p, a, e', u')).1 ∧
    (rk4S P dx0 dt (n, o, p, a, e, u)).2.1 = (rk4S P dx0 dt (n, o, p, a, e', u')).2.1 ∧
    (rk4S P dx0 dt (n, o, p, a, e, u)).2.2.1 = (rk4S P dx0 dt (n, o, p, a, e', u')).2.2.1 ∧
    (rk4S P dx0 dt (n, o, p, a, e, u)).2.2.2.1 = (rk4S P dx0 dt (n, o, p, a, e', u')).2.2.2.1 :=
  ⟨rfl, rfl, rfl, rfl⟩

theorem toCells_mk {h w : ℕ} [NeZero h] [NeZero w] {ks : List String} (t : Sta h w) {k : String} (hk : k ∈ ks) :
    (toCells (NS.mk ks (st t))).get? k = some (st t k).toCell := by
  rw [get?_toCells, NS.get?_mk, if_pos hk]
  rfl

theorem toFld_inj {n : ℕ} [NeZero n] {f g : Fld n n} (h : ofField f = ofField g) : f = g := by
  funext i j
  have := congrArg (fun a => a.at' i.val j.val) h
  rw [ofField_at' f (ZMod.val_lt i) (ZMod.val_lt j), ofField_at' g (ZMod.val_lt i) (ZMod.val_lt j)] at this
  simpa using this

theorem hw_step {hw : HW} {n : ℕ} [NeZero n] (hb : Std hw.backend n n) {ks : List String}
    (hk : GoodKeys ks hw.TEST_CONSERVATION) (t : Sta n n) (dt dx : ℝ) :
    (hwSolver hw).rk4_step (toCells (NS.mk ks (st t))) dt dx
      = .ok (toCells (NS.mk (stepKeys ks) (st (rk4S (parOf hw dx) hw.dx dt t)))) := by
  refine hwSolver_step fun c => ⟨rk4Calls (parOf hw dx) hw.TEST_CONSERVATION c, ?_⟩
  have := rk4_step_mk hw.backend hb.good (parOf hw dx) hw.dx hw.k0 hw.TEST_CONSERVATION hk t dt c
  rw [← eq_mkHW] at this
  exact this

/-- **The simulation of `model.py` has the properties assumed in C47.** -/
theorem hw_fieldSolver {hw : HW} {n : ℕ} (h0 : 0 < n) (hb : Std hw.backend n n) (dt dx : ℝ) :
    FieldSolver (hwSolver hw) dt dx n (HWGood hw n) := by
  have : NeZero n := ⟨h0.ne'⟩
  have hphi : ∀ o : Fld n n, (hwSolver hw).get_phi (.arr (ofField o)) dx = .ok (.arr (ofField (phiF dx o))) := by
    intro o
    have e1 : (hwSolver hw).get_phi (.arr (ofField o)) dx = (hw.get_phi (ofField o) dx {} >>= fun r => .ok (.arr r.1)) := rfl
    rw [e1, get_phi_ofField hw hb.good o dx]
    rfl
  refine { shaped := ?_, init := ?_, step := ?_, phi := ?_, age := ?_, get_phi := ?_ }
  · rintro s ⟨T, rfl, hT⟩
    exact shaped_toCells hT
  · intro d o p t ⟨d1, d2⟩ ⟨o1, o2⟩ ⟨p1, p2⟩
    refine ⟨[("density", .arr d), ("omega", .arr o), ("phi", .arr p), ("age", .num t)], rfl, ?_⟩
    refine { nodup := by simp [NS.keys], keys := ?_, density := ⟨_, rfl, d1, d2⟩, omega := ⟨_, rfl, o1, o2⟩,
             phi := ⟨_, rfl, p1, p2⟩, age := ⟨_, rfl⟩, dE := ?_, dU := ?_ }
    · intro k hk
      left
      simpa [NS.keys] using hk
    · intro v e
      simp [NS.get?] at e
    · intro v e
      simp [NS.get?] at e
  · rintro s s' r ⟨T, rfl, hT⟩ ⟨T', rfl, hT'⟩ hs hr
    obtain ⟨ks, t, hk, hn, rfl⟩ := hT.exists_mk
    obtain ⟨ks', t', hk', hn', rfl⟩ := hT'.exists_mk
    rw [hw_step hb hk] at hr
    have hr := (Except.ok.inj hr).symm
    subst hr
    refine ⟨⟨_, rfl, isState_mk hk.step (nodup_stepKeys hn) _⟩, _, hw_step hb hk' t' dt dx,
      ⟨_, rfl, isState_mk hk'.step (nodup_stepKeys hn') _⟩, ?_⟩
    have q1 := hs "density" (by simp)
    have q2 := hs "omega" (by simp)
    have q3 := hs "phi" (by simp)
    have q4 := hs "age" (by simp)
    rw [toCells_mk _ hk.density, toCells_mk _ hk'.density, st_density, st_density] at q1
    rw [toCells_mk _ hk.omega, toCells_mk _ hk'.omega, st_omega, st_omega] at q2
    rw [toCells_mk _ hk.phi, toCells_mk _ hk'.phi, st_phi, st_phi] at q3
    rw [toCells_mk _ hk.age, toCells_mk _ hk'.age, st_age, st_age] at q4
    obtain ⟨tn, tom, tp, ta, te, tu⟩ := t
    obtain ⟨tn', tom', tp', ta', te', tu'⟩ := t'
    replace q1 := toFld_inj (Cell.arr.inj (Option.some.inj q1))
    replace q2 := toFld_inj (Cell.arr.inj (Option.some.inj q2))
    replace q3 := toFld_inj (Cell.arr.inj (Option.some.inj q3))
    replace q4 := Cell.num.inj (Option.some.inj q4)
    simp only at q1 q2 q3 q4
    subst q1 q2 q3 q4
    obtain ⟨r1, r2, r3, r4⟩ := rk4S_fields (parOf hw dx) hw.dx dt tn tom tp ta te tu te' tu'
    intro k hk0
    simp only [List.mem_cons, List.not_mem_nil, or_false] at hk0
    rcases hk0 with rfl | rfl | rfl | rfl
    · rw [toCells_mk _ hk.step.density, toCells_mk _ hk'.step.density, st_density, st_density, r1]
    · rw [toCells_mk _ hk.step.omega, toCells_mk _ hk'.step.omega, st_omega, st_omega, r2]
    · rw [toCells_mk _ hk.step.phi, toCells_mk _ hk'.step.phi, st_phi, st_phi, r3]
    · rw [toCells_mk _ hk.step.age, toCells_mk _ hk'.step.age, st_age, st_age, r4]
  · rintro s r o ⟨T, rfl, hT⟩ hr ho
    obtain ⟨ks, t, hk, hn, rfl⟩ := hT.exists_mk
    rw [hw_step hb hk] at hr
    have hr := (Except.ok.inj hr).symm
    subst hr
    rw [toCells_mk _ hk.step.omega, st_omega] at ho
    have ho := (Cell.arr.inj (Option.some.inj ho)).symm
    subst ho
    refine ⟨_, hphi _, ?_⟩
    rw [toCells_mk _ hk.step.phi, st_phi]
    rfl
  · rintro s r x ⟨T, rfl, hT⟩ hx hr
    obtain ⟨ks, t, hk, hn, rfl⟩ := hT.exists_mk
    rw [hw_step hb hk] at hr
    have hr := (Except.ok.inj hr).symm
    subst hr
    rw [toCells_mk _ hk.age, st_age] at hx
    have hx := (Cell.num.inj (Option.some.inj hx)).symm
    subst hx
    rw [toCells_mk _ hk.step.age, st_age]
    rfl
  · intro o v ⟨h1, h2⟩ hv
    have e : ofField (toFld o : Fld n n) = o := ofField_toFld h1 h2
    rw [← e, hphi] at hv
    have hv := (Except.ok.inj hv).symm
    subst hv
    exact ⟨_, rfl, rfl, rfl⟩


/-! ### every call of `run2` with this simulation -/

/-- Arguments of `run2` that describe a simulation: those of `GoodArgs`, and
properties that can be computed. -/
structure GoodArgs2 {β : Type} (E : Env2 ℝ β) (b : Backend) (a : Args2 ℝ) (σ : St ℝ β) (ns : ℕ) : Prop
    extends GoodArgs E.toEnv b a.toArgs σ ns where
  nodup : a.properties.Nodup
  props : PropsOk E a
  sum : a.adaptive_step_size = true → ∀ l, E.sum l = l.sum

/-- the simulation object of such a run -/
noncomputable def theHW2 (b : Backend) (a : Args2 ℝ) : HW :=
  HW.init b a.dx a.N a.c1 a.nu a.k0 a.poisson_bracket_coeff a.kappa_coeff a.zonal

theorem hwOf_physics2 (b : Backend) (a : Args2 ℝ) : hwOf b a.physics2 = .ok (theHW2 b a) := rfl

/-- In exact arithmetic every such call is a `FreshRun2`, for every `end_time`;
its states are those of the simulation. -/
theorem fresh2_physics {β : Type} [Casts ℝ β] [Inhabited β] {E : Env2 ℝ β} {b : Backend} {a : Args2 ℝ} {σ : St ℝ β}
    {ns : ℕ} (h : GoodArgs2 E b a σ ns) :
    ∃ (A B C : Arr ℝ) (T : ℕ → NS Val), a.density0 = .arr A ∧ a.omega0 = .arr B ∧
      (∀ c, ∃ c', (theHW2 b a).get_phi B a.dx c = .ok (C, c')) ∧
      (∀ n c, ∃ c', history (theHW2 b a) a.dx (List.replicate n (.rk4 a.step_size)) (startState A B C) c
        = .ok (T n, c')) ∧
      ∀ Te : ℝ, ∃ m, IsLeast {k : ℕ | Te ≤ FloatOps.round4 ((k : ℝ) * a.step_size)} m ∧
        FreshRun2 E (a.until Te) σ (hwSolver (theHW2 b a)) ns m (fun n => toCells (T n)) := by
  obtain ⟨A, hA, a1, a2⟩ := h.density
  obtain ⟨B, hB, b1, b2⟩ := h.omega
  obtain ⟨D, hD, d1, d2⟩ := h.phi
  obtain ⟨C, c1, c2, hC⟩ := get_phi_exists (hw := theHW2 b a) h.grid h.backend a.dx b1 b2
  have hs0 := startState_isState (theHW2 b a).TEST_CONSERVATION a1 a2 b1 b2 c1 c2
  obtain ⟨T, t0, t1, t2⟩ := states_exist (hw := theHW2 b a) h.grid h.backend a.step_size a.dx hs0
  refine ⟨A, B, C, T, hA, hB, hC, fun n c => ?_, fun Te => ?_⟩
  · obtain ⟨c', e⟩ := history_of_states t2 0 n c
    rw [t0, Nat.zero_add] at e
    exact ⟨c', e⟩
  have hcall : FreshCall2 E (a.until Te) σ (hwSolver (theHW2 b a)) ns (fun n => toCells (T n)) := by
    refine { path := h.path, fresh := h.fresh, buffer := h.buffer, snaps := h.snaps, saves := h.saves,
             early := ?_, nodup := h.nodup, props := h.props, init := ?_, solver := ?_, start := ?_ }
    · refine ⟨Te / a.step_size, truncZ (Te / a.step_size), ?_, rfl⟩
      change (if a.step_size = 0 then _ else _) = _
      rw [if_neg h.step.ne']
      rfl
    · refine ⟨by simp [NS.keys, Args.plasma0], fun k hk => ?_⟩
      simp only [fieldList, List.mem_cons, List.not_mem_nil, or_false] at hk
      rcases hk with rfl | rfl | rfl
      · exact ⟨A, by rw [← hA]; rfl, a1, a2⟩
      · exact ⟨B, by rw [← hB]; rfl, b1, b2⟩
      · exact ⟨D, by rw [← hD]; rfl, d1, d2⟩
    · rw [h.sim]
      rfl
    · refine ⟨.arr C, ?_, ?_⟩
      · have : (a.until Te).omega0 = .arr B := hB
        rw [this, h.attr]
        obtain ⟨c', e⟩ := hC {}
        have e1 : (hwSolver (theHW2 b a)).get_phi (.arr B) (attrReal (.num (a.until Te).dx))
          = ((theHW2 b a).get_phi B a.dx {} >>= fun r => .ok (.arr r.1)) := rfl
        rw [e1, e]
        rfl
      · simp only [t0, Args.plasma0, Run2.Args2.until, hA, hB]
        simp [startState, toCells, Val.toCell, NS.set, NS.keys]
        simp [FloatOps.ofInt]
  obtain ⟨m, m1, m2, -⟩ := C53_terminates hcall h.step h.sum (fun n => hwSolver_step (t2 n))
    (fun n _ => shaped_toCells (t1 n)) (fun n _ => by
      unfold nanState
      split
      · exact h.nan _
      · rfl)
  exact ⟨m, m1, m2⟩

/-- the frames of a run that records from the beginning -/
theorem frames2_length {β : Type} [Casts ℝ β] [Inhabited β] {E : Env2 ℝ β} {a : Args2 ℝ} {S : ℕ → NS (Cell ℝ)} {m : ℕ}
    (hsum : a.adaptive_step_size = true → ∀ l, E.sum l = l.sum) (hdt : 0 < a.step_size)
    (h0 : a.recording_start_time = 0) : (frames2 E a S m).length = m / a.snaps + 1 := by
  have hall : (List.range' 1 m).filter (isRecorded2 E a (FloatOps.ofInt 0))
      = (List.range' 1 m).filter (fun it => it % a.snaps == 0) := by
    apply List.filter_congr
    intro it _
    unfold isRecorded2
    rw [exact_timeAt hsum]
    have : FloatOps.le a.recording_start_time ((FloatOps.ofInt 0 : ℝ) + it * a.step_size) = true := by
      refine decide_eq_true ?_
      rw [h0]
      have : (FloatOps.ofInt 0 : ℝ) = 0 := by simp [FloatOps.ofInt]
      rw [this]
      positivity
    rw [this, Bool.true_and]
  unfold frames2 stepFrames2
  rw [hall, filter_multiples, if_pos (by rw [h0]; simp [FloatOps.eq, FloatOps.ofInt])]
  simp

/-- **C47 with the simulation of `model.py` (partial).**  Exact arithmetic and
exact storage, no zonal coupling, recording from the beginning.  Every run until
`T1` whose number of frames `m1 / snaps + 1` is a multiple of `buffer_length`,
continued until `T2`, leaves the same parameters, times, fields and properties
as one run until `T2`, unless the simulation reaches a state with density or
vorticity zero everywhere (which is refused, C71). -/
theorem C47_physics_partial {β : Type} [Casts ℝ β] [Inhabited β] {E : Env2 ℝ β} {b : Backend} {a : Args2 ℝ} {σ : St ℝ β}
    {ns : ℕ} (h : GoodArgs2 E b a σ ns) (hz : a.zonal = false) (hst : a.saveState = true)
    (h0 : a.recording_start_time = 0) (hf : ∀ x : ℝ, Casts.f64 (Casts.f32 x : β) = x)
    (hp : ∀ name ∈ a.properties, name ∉ ["time", "density", "omega", "phi"] ∧ (∀ n', name ≠ "fullres_" ++ n') ∧
      ∀ k ∈ fieldList, name ≠ "state_" ++ k)
    (hzero : ∀ A B C, a.density0 = .arr A → a.omega0 = .arr B →
      (∃ c c', (theHW2 b a).get_phi B a.dx c = .ok (C, c')) →
      ∀ n s c c', history (theHW2 b a) a.dx (List.replicate n (.rk4 a.step_size)) (startState A B C) c = .ok (s, c') →
        ∀ k ∈ ["density", "omega"], ∀ V, s.get? k = some (.arr V) → E.allZero (.arr V) = false)
    {T1 T2 : ℝ} (hT : T1 ≤ T2) {m1 m2 : ℕ}
    (hm1 : IsLeast {k : ℕ | T1 ≤ FloatOps.round4 ((k : ℝ) * a.step_size)} m1)
    (hm2 : IsLeast {k : ℕ | T2 ≤ FloatOps.round4 ((k : ℝ) * a.step_size)} m2) (hpos : 0 < m1)
    (hL : a.buffer_length ∣ m1 / a.snaps + 1)
    {fuel1 fuel2 fuel3 : ℕ} (hfuel1 : m1 < fuel1) (hfuel2 : m2 < fuel2) (hfuel3 : m2 < fuel3) :
    ∃ f g, (run2 E (a.until T2) fuel2 σ).2.fs a.output_path = some f ∧
      (run2 E (a.continued T2) fuel3 (run2 E (a.until T1) fuel1 σ).2).2.fs a.output_path = some g ∧
      (run2 E (a.continued T2) fuel3 (run2 E (a.until T1) fuel1 σ).2).1 ≠ .ok none ∧
      (∀ k, g.attrs k = f.attrs k) ∧
      (∀ k ∈ ["time", "density", "omega", "phi"], ∃ rows, f.dsets k = some (.rows (rowShape ns k) rows) ∧
        g.dsets k = some (.rows (rowShape ns k) rows) ∧ rows.length = m2 / a.snaps + 1) ∧
      (∀ name ∈ a.properties, ∃ rows, f.dsets ("fullres_" ++ name) = some (.rows .one rows) ∧
        g.dsets ("fullres_" ++ name) = some (.rows .one rows) ∧ rows.length = m2 / a.snaps + 1) := by
  obtain ⟨A, B, C, T, hA, hB, hC, hH, hR⟩ := fresh2_physics h
  obtain ⟨m, e1, hr1⟩ := hR T1
  obtain ⟨m', e2, hr2⟩ := hR T2
  obtain rfl := e1.unique hm1
  obtain rfl := e2.unique hm2
  have hlen : ∀ (Te : ℝ) (k : ℕ), (frames2 E (a.until Te) (fun n => toCells (T n)) k).length = k / a.snaps + 1 :=
    fun Te k => frames2_length (a := a.until Te) h.sum h.step h0
  obtain ⟨⟨t, s⟩, hlast⟩ : ∃ x, (frames2 E (a.until T1) (fun n => toCells (T n)) m).getLast? = some x := by
    have hl := hlen T1 m
    generalize frames2 E (a.until T1) (fun n => toCells (T n)) m = l at hl
    cases hx : l.getLast? with
    | some x => exact ⟨x, rfl⟩
    | none =>
      rw [List.getLast?_eq_none_iff] at hx
      rw [hx] at hl
      simp at hl
  obtain ⟨-, hs⟩ := frames2_last hlast
  have hT0 : T 0 = startState A B C := by
    obtain ⟨c', e⟩ := hH 0 {}
    exact (Prod.ext_iff.mp (Except.ok.inj e)).1.symm
  have hsim : E.HW a.toArgs.physics = .ok (hwSolver (theHW2 b a)) := by
    rw [h.sim]
    unfold theHW2
    rw [hz]
    rfl
  have hpos' : a.recording_start_time < (m : ℝ) * a.step_size := by
    rw [h0]
    have : (0 : ℝ) < m := by exact_mod_cast hpos
    exact mul_pos this h.step
  have := C47_split_partial (t := t) (s := s) hr1 hr2 hT h.step h.sum (hw_fieldSolver h.grid h.backend _ _) hst hlast
    (by rw [hlen]; exact hL) hpos' hsim (by rw [h.attr]; rfl) (hf t) ⟨h.nan _, fun _ _ _ _ => h.nan _⟩ ?_ hp
    hfuel1 hfuel2 hfuel3
  · simpa only [hlen] using this
  · intro k hk V hV
    rw [hs] at hV
    have key : ∃ n, (T n).get? k = some (.arr V) := by
      split at hV
      · refine ⟨0, ?_⟩
        rw [hT0]
        simp only [List.mem_cons, List.not_mem_nil, or_false] at hk
        rcases hk with rfl | rfl
        · have e : (a.until T1).plasma0.get? "density" = some a.density0 := rfl
          rw [e, hA] at hV
          have := Cell.arr.inj (Option.some.inj hV)
          rw [← this]
          rfl
        · have e : (a.until T1).plasma0.get? "omega" = some a.omega0 := rfl
          rw [e, hB] at hV
          have := Cell.arr.inj (Option.some.inj hV)
          rw [← this]
          rfl
      · refine ⟨lastRecorded E (a.until T1) (FloatOps.ofInt 0) m, ?_⟩
        rw [get?_toCells] at hV
        cases hv : (T (lastRecorded E (a.until T1) (FloatOps.ofInt 0) m)).get? k with
        | none => rw [hv] at hV; cases hV
        | some v =>
          rw [hv] at hV
          cases v with
          | num x => cases hV
          | arr V' =>
            have := Cell.arr.inj (Option.some.inj hV)
            rw [← this]
    obtain ⟨n, hn⟩ := key
    obtain ⟨c', e⟩ := hH n {}
    exact hzero A B C hA hB ⟨{}, hC {}⟩ n (T n) {} c' e k hk V hn

/-! ### non-vacuity: `c1 = 0`, so that the means of density and vorticity never change -/

/-- exact storage -/
@[instance_reducible] def exactCasts : Casts ℝ ℝ := ⟨id, id⟩

open Classical in
/-- the simulation of `model.py` with the real test for zero arrays -/
noncomputable def physEnv2 : Env2 ℝ ℝ :=
  { physEnv with
    allZero := fun v => match v with
      | .arr A => decide (∀ i < A.h, ∀ j < A.w, A.at' i j = 0)
      | .num x => decide (x = 0)
    propertyFn := fun name => if name = "gamma_c" then some fun _ _ _ _ c1 => .ok c1 else none
    sum := List.sum }

noncomputable def physArgs2 : Args2 ℝ :=
  { physArgs with
    c1 := 0
    density0 := .arr (tab 8 8 fun i j => (1 + i * j : ℝ))
    omega0 := .arr (tab 8 8 fun i _ => (1 + i : ℝ))
    snaps := 4
    buffer_length := 101
    properties := ["gamma_c"]
    adaptive_step_size := true
    zonal := false }

theorem phys_good2 : GoodArgs2 physEnv2 numpyBackend physArgs2 ⟨fun _ => none, []⟩ 8 where
  grid := (by decide : 0 < 8)
  backend := .inl rfl
  density := ⟨_, rfl, rfl, rfl⟩
  omega := ⟨_, rfl, rfl, rfl⟩
  phi := ⟨_, rfl, rfl, rfl⟩
  path := (phys_good ⟨fun _ => none, []⟩ rfl).path
  fresh := .inl rfl
  buffer := (by decide : 1 ≤ 101)
  snaps := (by decide : 1 ≤ 4)
  step := (phys_good ⟨fun _ => none, []⟩ rfl).step
  saves := ⟨(phys_good ⟨fun _ => none, []⟩ rfl).saves.dim, fun h => by
    have e : physArgs2.downsample_factor = 1 := rfl
    simp [downsampling, FloatOps.eq, FloatOps.ofInt, e] at h⟩
  sim := rfl
  attr := rfl
  nan _ := rfl
  nodup := List.nodup_singleton _
  props name hn := by
    obtain rfl := List.mem_singleton.mp hn
    exact ⟨fun _ _ _ _ c1 => .ok c1, by simp [physEnv2], fun _ _ _ _ _ _ => ⟨_, rfl⟩⟩
  sum _ _ := rfl

/-- an array whose mean is not zero is not zero everywhere -/
theorem not_allZero {A : Arr ℝ} (h : amean A ≠ 0) : physEnv2.allZero (.arr A) = false := by
  refine decide_eq_false fun h0 => h ?_
  unfold amean Spec.mean
  rw [Finset.sum_eq_zero fun i hi => Finset.sum_eq_zero fun j hj =>
    h0 i (Finset.mem_range.mp hi) j (Finset.mem_range.mp hj), zero_div]

theorem amean_pos {n : ℕ} {f : ℕ → ℕ → ℝ} (h0 : 0 < n) (h : ∀ i j, 0 < f i j) : amean (tab n n f) ≠ 0 := by
  unfold amean Spec.mean
  refine (div_pos ?_ ?_).ne'
  · refine Finset.sum_pos (fun i hi => Finset.sum_pos (fun j hj => ?_) ⟨0, Finset.mem_range.mpr h0⟩)
      ⟨0, Finset.mem_range.mpr h0⟩
    rw [tab_at' n n f (Finset.mem_range.mp hi) (Finset.mem_range.mp hj)]
    exact h i j
  · have : (0 : ℝ) < n := by exact_mod_cast h0
    exact mul_pos this this

theorem phys_names : ∀ name ∈ physArgs2.properties, name ∉ ["time", "density", "omega", "phi"] ∧
    (∀ n', name ≠ "fullres_" ++ n') ∧ ∀ k ∈ fieldList, name ≠ "state_" ++ k := by
  intro name hn
  obtain rfl := List.mem_singleton.mp hn
  refine ⟨by decide, fun n' e => ?_, by decide⟩
  have := congrArg String.toList e
  simp at this

theorem phys_nonzero : ∀ A B C, physArgs2.density0 = .arr A → physArgs2.omega0 = .arr B →
    (∃ c c', (theHW2 numpyBackend physArgs2).get_phi B physArgs2.dx c = .ok (C, c')) →
    ∀ n s c c', history (theHW2 numpyBackend physArgs2) physArgs2.dx (List.replicate n (.rk4 physArgs2.step_size))
        (startState A B C) c = .ok (s, c') →
      ∀ k ∈ ["density", "omega"], ∀ V, s.get? k = some (.arr V) → physEnv2.allZero (.arr V) = false := by
  intro A B C hA hB hC n s c c' e k hk V hV
  have hA := (Cell.arr.inj hA).symm
  have hB := (Cell.arr.inj hB).symm
  subst hA hB
  obtain ⟨D, d1, d2, hD⟩ := get_phi_exists (hw := theHW2 numpyBackend physArgs2) (n := 8) (by decide) (.inl rfl)
    physArgs2.dx (B := tab 8 8 fun i _ => (1 + i : ℝ)) rfl rfl
  obtain ⟨c1, c2, hC⟩ := hC
  obtain ⟨c3, hD⟩ := hD c1
  have hCD : C = D := (Prod.ext_iff.mp (Except.ok.inj (hC.symm.trans hD))).1
  subst hCD
  have hs := startState_isState (theHW2 numpyBackend physArgs2).TEST_CONSERVATION (n := 8)
    (A := tab 8 8 fun i j => (1 + i * j : ℝ)) (B := tab 8 8 fun i _ => (1 + i : ℝ)) rfl rfl rfl rfl d1 d2
  obtain ⟨s', c4, e', -, hm⟩ := C28_mean_density (theHW2 numpyBackend physArgs2) physArgs2.dx (by decide) (by decide)
    (.inl rfl) (.inl (by decide : 1 ≤ 3)) _ _ hs c
  rw [e'] at e
  have hs' := (Prod.ext_iff.mp (Except.ok.inj e)).1
  simp only at hs'
  subst hs'
  obtain ⟨m1, m2⟩ := hm (.inr rfl)
  refine not_allZero ?_
  simp only [List.mem_cons, List.not_mem_nil, or_false] at hk
  have hV' : ∀ k, s'.get? k = some (.arr V) → arrOf s' k = V := fun k h => by
    unfold arrOf
    rw [h]
  rcases hk with rfl | rfl
  · rw [← hV' _ hV, m1]
    exact amean_pos (by decide) fun i j => by positivity
  · rw [← hV' _ hV, m2]
    exact amean_pos (by decide) fun i j => by positivity

example := by
  let := exactCasts
  refine C47_physics_partial (β := ℝ) phys_good2 rfl rfl rfl (fun _ => rfl) phys_names phys_nonzero (T1 := 10) (T2 := 20) (by norm_num)
    (C53_step_count (a := physArgs2.until 10) 400 100000 ?_ ?_ ?_)
    (C53_step_count (a := physArgs2.until 20) 800 200000 ?_ ?_ ?_) (by decide)
    (by decide : 101 ∣ 400 / 4 + 1) (fuel1 := 1000) (fuel2 := 1000) (fuel3 := 1000) (by decide) (by decide) (by decide)
  all_goals
    simp only [Run2.Args2.until, physArgs2, physArgs]
    norm_num

end Verif.Props
