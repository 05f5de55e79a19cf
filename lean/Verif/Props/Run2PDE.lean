import Verif.Props.Measured
import Verif.Lemmas.Double

/-!
# C87 for `run2`: what its file contains, compared with the equations

The equations may have the modified (`zonal`) coupling, which only `run2` offers.
-/

set_option linter.unusedSectionVars false

namespace Verif.Props

open H5IO H5 Run Run2 RunProperties Arr Spec Set

attribute [local instance] exactOps

/-- the steps `run2` records: 0 if it records from the start, and every multiple of `snaps` among the steps
`1, …, count` whose time is not before `recording_start_time` -/
noncomputable def exactRecorded (a : Args2 ℝ) (count : ℕ) : List ℕ :=
  (if a.recording_start_time = 0 then [0] else []) ++
    (List.range' 1 count).filter fun k : ℕ => decide (a.recording_start_time ≤ k * a.step_size) && k % a.snaps == 0

theorem frames2_exact {β : Type} [Casts ℝ β] [Inhabited β] {E : Env2 ℝ β} {a : Args2 ℝ} {S : ℕ → NS (Cell ℝ)} {m : ℕ}
    (hsum : a.adaptive_step_size = true → ∀ l, E.sum l = l.sum) :
    frames2 E a S m = (exactRecorded a m).map fun k : ℕ => ((k : ℝ) * a.step_size, if k = 0 then a.plasma0 else S k) := by
  have e0 : (FloatOps.ofInt 0 : ℝ) = 0 := by simp [FloatOps.ofInt]
  unfold frames2 stepFrames2 exactRecorded
  rw [List.map_append]
  congr 1
  · by_cases h : a.recording_start_time = 0
    · rw [if_pos (by rw [e0, h]; exact decide_eq_true rfl), if_pos h]
      simp [e0]
    · rw [if_neg (by rw [e0]; simpa [FloatOps.eq] using h), if_neg h]
      rfl
  · have hall : (List.range' 1 m).filter (isRecorded2 E a (FloatOps.ofInt 0))
        = (List.range' 1 m).filter fun k : ℕ => decide (a.recording_start_time ≤ k * a.step_size) && k % a.snaps == 0 := by
      apply List.filter_congr
      intro it _
      unfold isRecorded2
      rw [exact_timeAt hsum, e0, zero_add]
      rfl
    rw [hall]
    apply List.map_congr_left
    intro k hk
    rw [List.mem_filter, List.mem_range'_1] at hk
    rw [exact_timeAt hsum, e0, zero_add, if_neg (by omega)]

/-- the arguments of `run2` describe the equations with the coefficients of `P` on an `m × m` grid of the box
`[0, L]²`, start from the functions `F` (density) and `G` (vorticity), record every field in full resolution,
and end after recording has begun -/
structure RunPoses2From (a : Args2 ℝ) (P : Params) (L : ℝ) (F G : ℝ → ℝ → ℝ) (m : ℕ) : Prop where
  grid : a.grid_pts = m
  spacing : m * a.dx = L
  order : a.N = P.N
  c1 : a.c1 = P.c1
  nu : a.nu = P.nu
  bracket : a.poisson_bracket_coeff = P.pb
  kappa : a.kappa_coeff = P.kappa
  zonal : a.zonal = P.zonal
  density : ∃ A : Arr ℝ, a.density0 = .arr A ∧ Sampled m m a.dx F A
  omega : ∃ A : Arr ℝ, a.omega0 = .arr A ∧ Sampled m m a.dx G A
  full : a.downsample_factor = 1
  names : ∀ k ∈ ["time", "density", "omega", "phi"], k ∉ a.properties
  endpos : a.recording_start_time + 1 / 20000 < a.end_time

/-- rounding to four decimals changes a number by at most `1/20000` -/
theorem round4_le (x : ℝ) : (FloatOps.round4 x : ℝ) ≤ x + 1 / 20000 := by
  have h : (FloatOps.round4 x : ℝ) = (roundEven (x * 10 ^ 4) : ℝ) / 10 ^ 4 := rfl
  have h1 := (abs_le.1 (roundEven_err (x * 10 ^ 4))).2
  rw [h, div_le_iff₀ (by norm_num)]
  norm_num at h1 ⊢
  linarith

/-- **C87, `run2`.** Let `n, w, p` be a smooth solution of the Hasegawa–Wakatani equations, with the original or the
modified (`zonal`) coupling, on the box `[0, L]²` and the interval `[0, T]`.  There is one constant `C` such that for
every grid size there is a largest step size with: every call of `run2` to a new file whose arguments describe these
equations, started from the samples of the solution at time 0 (and any potential), with at most that step size, leaves
its loop after `count` steps, where `count` is the least number of steps whose time, rounded to four decimals, is not
before `end_time`.  The file holds one frame for each recorded step `k`, stamped with the time `t = k * step_size`;
after the start and until `T` the frame consists (up to the rounding to `float32`) of arrays within `C dx²` of `n`, `w`
and `p` at time `t`, in root mean square. -/
theorem C87_run2_file_approximates_pde (P : Params) (hnu : 0 ≤ P.nu) {L T B : ℝ} {r : ℕ} (hT : 0 ≤ T) (hL : 0 < L)
    (hr : 4 ≤ r) (hr' : 2 * P.N + 2 ≤ r) {nf wf pf : ℝ → ℕ → ℕ → ℝ → ℝ → ℝ}
    (H : HWSolution P L L T r B nf wf pf) :
    ∃ C, 0 ≤ C ∧ ∀ (m : ℕ) (b : Backend) (k0 : ℝ), 0 < m → Std b m m →
      ∃ dt0, 0 < dt0 ∧ ∀ (β : Type) (_ : Casts ℝ β) (_ : Inhabited β) (E : Env2 ℝ β) (a : Args2 ℝ) (σ : St ℝ β),
        GoodArgs2 E b a σ m → RunPoses2From a P L (nf 0 0 0) (wf 0 0 0) m → a.k0 = k0 → a.step_size ≤ dt0 →
        ∃ count, IsLeast {k : ℕ | a.end_time ≤ FloatOps.round4 ((k : ℝ) * a.step_size)} count ∧ ∀ fuel, count < fuel →
          (run2 E a fuel σ).1 ≠ .ok none ∧ (a.properties = [] → (run2 E a fuel σ).1 = .ok (some ())) ∧
          ∃ f : H5 ℝ β, (run2 E a fuel σ).2.fs a.output_path = some f ∧
          f.dsets "time" = some (.rows .one ((exactRecorded a count).map
            fun k : ℕ => .num (Casts.f32 ((k : ℝ) * a.step_size)))) ∧
          ∀ key ∈ ["density", "omega", "phi"], ∃ rows, f.dsets key = some (.rows (.grid m m) rows) ∧
            rows.length = (exactRecorded a count).length ∧
            ∀ j (hj : j < rows.length) k, (exactRecorded a count)[j]? = some k → k ≠ 0 →
              ∀ t, t = (k : ℝ) * a.step_size → t ≤ T → ∃ W : Arr ℝ, rows[j] = .arr (W.map Casts.f32) ∧
                rms m m (gridErr a.dx W (fieldOf nf wf pf key t)) ≤ C * a.dx ^ 2 := by
  obtain ⟨C, hC, HC⟩ := C86_converges_to_pde P hnu hT hr hr' H
  refine ⟨C, hC, fun m b k0 hm hb => ?_⟩
  have : NeZero m := ⟨hm.ne'⟩
  have hm' : (0 : ℝ) < m := by exact_mod_cast hm
  set dx := L / m with hdx
  have hdx0 : 0 < dx := by positivity
  have hmd : m * dx = L := by rw [hdx]; field_simp
  set hw := HW.init b dx P.N P.c1 P.nu k0 P.pb P.kappa P.zonal with ehw
  set A0 : Arr ℝ := ofField (samp m m dx (nf 0 0 0))
  set B0 : Arr ℝ := ofField (samp m m dx (wf 0 0 0))
  set C0 : Arr ℝ := ofField (phiF dx (samp m m dx (wf 0 0 0)))
  have hphi : ∀ c, ∃ c', hw.get_phi B0 dx c = .ok (C0, c') := fun c =>
    ⟨_, get_phi_ofField hw (Std.good hb) (samp m m dx (wf 0 0 0)) dx c⟩
  have hs0 : IsState hw.TEST_CONSERVATION m m (startState A0 B0 C0) := startState_isState _ rfl rfl rfl rfl rfl rfl
  obtain ⟨dt0, hdt0, hst⟩ := HC m m dx hm hm hdx0 hmd hmd b dx k0 hw.TEST_CONSERVATION hb hw ehw (startState A0 B0 C0)
    hs0 (fun i j hi hj => samp_at hi hj) (fun i j hi hj => samp_at hi hj)
  refine ⟨dt0, hdt0, fun β _ _ E a σ hg hd hk0 hle => ?_⟩
  have ed : a.dx = dx := by
    have := hd.spacing
    rw [hdx]; field_simp; linarith
  have ehw' : theHW2 b a = hw := by
    unfold theHW2
    rw [ehw, ed, hd.order, hd.c1, hd.nu, hk0, hd.bracket, hd.kappa, hd.zonal]
  obtain ⟨A, B', C', S, hA, hB, hC', hS, hR⟩ := fresh2_physics hg
  obtain ⟨count, hcount, hrun⟩ := hR a.end_time
  have hua : a.until a.end_time = a := rfl
  rw [hua] at hrun
  have eA : A = A0 := by
    obtain ⟨A1, q1, q2⟩ := hd.density
    obtain ⟨A2, q3, q4, q5⟩ := hg.density
    rw [hA] at q1 q3
    injection q1 with q1; injection q3 with q3
    rw [← q1, ed] at q2
    rw [← q3, hd.grid] at q4 q5
    exact sampled_ofField q2 q4 q5
  have eB : B' = B0 := by
    obtain ⟨A1, q1, q2⟩ := hd.omega
    obtain ⟨A2, q3, q4, q5⟩ := hg.omega
    rw [hB] at q1 q3
    injection q1 with q1; injection q3 with q3
    rw [← q1, ed] at q2
    rw [← q3, hd.grid] at q4 q5
    exact sampled_ofField q2 q4 q5
  have eC : C' = C0 := by
    obtain ⟨c1, q1⟩ := hC' {}
    obtain ⟨c2, q2⟩ := hphi {}
    rw [ehw', eB, ed, q2] at q1
    injection q1 with q1
    injection q1 with q1 _
    exact q1.symm
  rw [ehw', eA, eB, eC, ed] at hS
  refine ⟨count, hcount, fun fuel hfuel => ?_⟩
  have hend : FloatOps.lt a.recording_start_time (timeAt E a (FloatOps.ofInt 0) count) = true := by
    rw [exact_timeAt hg.sum]
    refine decide_eq_true ?_
    have e0 : (FloatOps.ofInt 0 : ℝ) = 0 := by simp [FloatOps.ofInt]
    rw [e0, zero_add]
    have h1 : a.end_time ≤ _ := hcount.1
    have := hd.endpos
    have := round4_le ((count : ℝ) * a.step_size)
    linarith
  obtain ⟨f, f1, -, f2, f4, -, f3, -⟩ := run2_result hrun hfuel
  unfold written2 flushes2 at f3
  simp only [hend, if_true] at f3
  rw [frames2_exact hg.sum] at f3
  refine ⟨f2, f4, f, f1, ?_, fun key hk => ?_⟩
  · obtain ⟨rows, r1, r2⟩ := f3 "time" (by simp) (hd.names _ (by simp))
    rw [r1]
    have : rows = (exactRecorded a count).map fun k : ℕ => .num (Casts.f32 ((k : ℝ) * a.step_size)) := by
      rw [List.forall₂_map_left_iff] at r2
      have h3 : List.Forall₂ (fun row (k : ℕ) => row = (.num (Casts.f32 ((k : ℝ) * a.step_size)) : Cell β)) rows
          (exactRecorded a count) := r2.flip.imp fun row k h => by
        change (if "time" = "time" then _ else _) at h
        rw [if_pos rfl] at h
        exact h
      clear r2 r1
      generalize exactRecorded a count = ks at h3 ⊢
      induction h3 with
      | nil => rfl
      | cons h _ ih => rw [List.map_cons, ← h, ih]
    rw [this]
    rfl
  have hk' : key ∈ "time" :: fieldList := List.mem_cons_of_mem _ hk
  have hkt : key ≠ "time" := by
    rintro rfl
    exact absurd hk (by decide)
  obtain ⟨rows, r1, r2⟩ := f3 key hk' (hd.names _ hk')
  have hlen : rows.length = (exactRecorded a count).length := by rw [← r2.length_eq, List.length_map]
  refine ⟨rows, by rw [r1, rowShape, if_neg hkt], hlen, fun j hj k hjk hk0' t ht htT => ?_⟩
  rw [List.forall₂_map_left_iff] at r2
  have hjl : j < (exactRecorded a count).length := hlen ▸ hj
  have hrow := (List.forall₂_iff_get.mp r2).2 j hjl hj
  have hkj : (exactRecorded a count).get ⟨j, hjl⟩ = k := by
    rw [List.getElem?_eq_getElem hjl] at hjk
    exact Option.some.inj hjk
  rw [hkj] at hrow
  have hf : downsampling a.downsample_factor = false := by
    rw [hd.full]; simp [downsampling, FloatOps.eq, FloatOps.ofInt]
  obtain ⟨W, w1, w2⟩ := row_plain hkt hf hrow
  simp only [if_neg hk0'] at w1
  refine ⟨W, w2, ?_⟩
  obtain ⟨s', c', e, e1, e2, e3⟩ := hst a.step_size hg.step.le hle k (by rw [← ht]; exact htT) .rk4 (.inl rfl) {}
  obtain ⟨c2, e'⟩ := hS k {}
  rw [e] at e'
  injection e' with e'
  injection e' with e' _
  have eV : arrOf s' key = W := by rw [e']; exact arrOf_of_toCells w1
  rw [ed, ht]
  simp only [List.mem_cons, List.not_mem_nil, or_false] at hk
  rcases hk with rfl | rfl | rfl
  · rw [eV] at e1; exact e1
  · rw [eV] at e2; exact e2
  · rw [eV] at e3; exact e3 (Nat.pos_of_ne_zero hk0')

/-! ### non-vacuity: the drift wave with the modified coupling, recorded from time 2 -/

theorem modeFam_avg (α β θ x : ℝ) : ∫ y in 0..2 * Real.pi, modeFam α β θ 0 0 y x = 0 := by
  simp only [modeFam_zero]
  rw [intervalIntegral.integral_add, intervalIntegral.integral_const_mul, intervalIntegral.integral_const_mul,
    intervalIntegral.integral_comp_sub_right (fun y => Real.cos y),
    intervalIntegral.integral_comp_sub_right (fun y => Real.sin y), integral_cos, integral_sin]
  · have e1 : Real.sin (2 * Real.pi - θ) = Real.sin (0 - θ) := by
      rw [zero_sub, show 2 * Real.pi - θ = -θ + 2 * Real.pi by ring, Real.sin_add_two_pi]
    have e2 : Real.cos (2 * Real.pi - θ) = Real.cos (0 - θ) := by
      rw [zero_sub, show 2 * Real.pi - θ = -θ + 2 * Real.pi by ring, Real.cos_add_two_pi]
    rw [e1, e2]
    ring
  all_goals exact Continuous.intervalIntegrable (by fun_prop) _ _

/-- a wave without zonal component satisfies the equations with either coupling -/
theorem zonal_wave (T : ℝ) : HWSolution ⟨0, 1, 3, 1 / 10, 1, 40 / 3, true⟩
    (2 * Real.pi) (2 * Real.pi) T 4 (3 * amp T)
    (fun t => modeFam (5 / 3 * amp t) (4 / 3 * amp t) (4 * t))
    (fun t => modeFam (- amp t) 0 (4 * t)) (fun t => modeFam (amp t) 0 (4 * t)) := by
  have H := drift_wave T
  have hc : ∀ α β θ α' β' θ' y x, coupling true (2 * Real.pi) (modeFam α β θ 0 0) (modeFam α' β' θ' 0 0) y x
      = coupling false (2 * Real.pi) (modeFam α β θ 0 0) (modeFam α' β' θ' 0 0) y x := by
    intro α β θ α' β' θ' y x
    simp only [coupling, fluct, modeFam_avg, zero_div, sub_zero, if_true, Bool.false_eq_true, if_false]
  refine ⟨H.smoothN, H.smoothO, H.smoothP, H.periodicN, H.periodicO, H.periodicP, H.poisson, H.meanP,
    fun t ht y x => ?_, fun t ht y x => ?_⟩
  · refine (H.evolN t ht y x).congr_deriv ?_
    simp only [pdeN, hc]
  · refine (H.evolO t ht y x).congr_deriv ?_
    simp only [pdeO, hc]

/-- a call of `run2` for this wave that starts recording at time 2 -/
noncomputable def zonalArgs (m : ℕ) (dt : ℝ) : Args2 ℝ :=
  { waveArgs2 m dt with
    recording_start_time := 2
    adaptive_step_size := true
    zonal := true }

theorem zonalArgs_good (m : ℕ) (hm : 0 < m) (dt : ℝ) (hdt : 0 < dt) :
    GoodArgs2 propsEnv numpyBackend (zonalArgs m dt) ⟨fun _ => none, []⟩ m where
  grid := hm
  backend := .inl rfl
  density := ⟨_, rfl, rfl, rfl⟩
  omega := ⟨_, rfl, rfl, rfl⟩
  phi := ⟨_, rfl, rfl, rfl⟩
  path := (waveArgs2_good m hm dt hdt).path
  fresh := .inl rfl
  buffer := (by decide : 1 ≤ 7)
  snaps := (by decide : 1 ≤ 2)
  step := hdt
  saves := (waveArgs2_good m hm dt hdt).saves
  sim := rfl
  attr := rfl
  nan _ := rfl
  nodup := (waveArgs2_good m hm dt hdt).nodup
  props := (waveArgs2_good m hm dt hdt).props
  sum _ _ := rfl

theorem zonalArgs_poses (m : ℕ) (hm : 0 < m) (dt : ℝ) :
    RunPoses2From (zonalArgs m dt) ⟨0, 1, 3, 1 / 10, 1, 40 / 3, true⟩ (2 * Real.pi)
      (modeFam (5 / 3 * amp 0) (4 / 3 * amp 0) (4 * 0) 0 0) (modeFam (- amp 0) 0 (4 * 0) 0 0) m where
  grid := rfl
  spacing := (wave_describes m hm dt).spacing
  order := rfl
  c1 := rfl
  nu := rfl
  bracket := rfl
  kappa := rfl
  zonal := rfl
  density := (wave_describes m hm dt).density
  omega := (wave_describes m hm dt).omega
  full := rfl
  names := by change ∀ k ∈ _, k ∉ propertyTable; decide
  endpos := (by norm_num : (2 : ℝ) + 1 / 20000 < 5)

/-- the growing wave appears in the file of every fine enough run, from time 2 on -/
example : ∃ C, ∀ m : ℕ, 0 < m → ∃ dt0 : ℝ, 0 < dt0 ∧ ∀ dt, 0 < dt → dt ≤ dt0 → ∃ count, ∀ fuel, count < fuel →
    ∃ (f : H5 ℝ ℝ) (rows : List (Cell ℝ)),
      (run2 propsEnv (zonalArgs m dt) fuel ⟨fun _ => none, []⟩).2.fs "run.h5" = some f ∧
      f.dsets "phi" = some (.rows (.grid m m) rows) ∧ rows.length = (exactRecorded (zonalArgs m dt) count).length ∧
      ∀ j (hj : j < rows.length) k, (exactRecorded (zonalArgs m dt) count)[j]? = some k → k ≠ 0 → (k : ℝ) * dt ≤ 5 →
        ∃ W : Arr ℝ, rows[j] = .arr (W.map Casts.f32) ∧
        rms m m (gridErr (2 * Real.pi / m) W fun y _ => amp (k * dt) * Real.cos (y - 4 * (k * dt)))
          ≤ C * (2 * Real.pi / m) ^ 2 := by
  obtain ⟨C, -, H⟩ := C87_run2_file_approximates_pde _ (by norm_num) (by norm_num) (by positivity) le_rfl (by norm_num)
    (zonal_wave 5)
  refine ⟨C, fun m hm => ?_⟩
  obtain ⟨dt0, hdt0, H⟩ := H m numpyBackend 1 hm (.inl rfl)
  refine ⟨dt0, hdt0, fun dt hdt hle => ?_⟩
  obtain ⟨count, -, H⟩ := H ℝ _ inferInstance propsEnv (zonalArgs m dt) ⟨fun _ => none, []⟩ (zonalArgs_good m hm dt hdt)
    (zonalArgs_poses m hm dt) rfl hle
  refine ⟨count, fun fuel hf => ?_⟩
  obtain ⟨-, -, f, f1, -, H⟩ := H fuel hf
  obtain ⟨rows, r1, r2, r3⟩ := H "phi" (by simp)
  refine ⟨f, rows, f1, r1, r2, fun j hj k hk hk0 ht => ?_⟩
  obtain ⟨W, w1, w2⟩ := r3 j hj k hk hk0 _ rfl ht
  refine ⟨W, w1, ?_⟩
  have e : ∀ t : ℝ, fieldOf (fun t => modeFam (5 / 3 * amp t) (4 / 3 * amp t) (4 * t))
      (fun t => modeFam (- amp t) 0 (4 * t)) (fun t => modeFam (amp t) 0 (4 * t)) "phi" t
      = fun y _ => amp t * Real.cos (y - 4 * t) := by
    intro t
    funext y x
    simp only [fieldOf]
    rw [if_neg (by decide), if_neg (by decide), modeFam_zero]; ring
  rw [e] at w2
  exact w2

end Verif.Props
