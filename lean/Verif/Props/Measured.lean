import Verif.Props.RunPDE
import Verif.Props.PropertyMeaning
import Verif.Lemmas.MeasuredState

/-!
# Property theorem C102: measured quantities converge to those of the equations

`Spec.physical` are the fluxes, energies and enstrophies of a solution of the
partial differential equations: averages over the box.  The theorems compare
them with what the program computes from its states and records in its files.
-/

set_option linter.unusedSectionVars false

namespace Verif.Props

open H5IO H5 Run Run2 RunProperties Arr Spec Set

theorem small_of_rms {h w : ℕ} [NeZero h] [NeZero w] {dx C : ℝ} {f : Fld h w} {F : ℝ → ℝ → ℝ}
    (H : rms h w (gridErr dx (ofField f) F) ≤ C * dx ^ 2) : Small dx C (f - samp h w dx F) := by
  have hc : (0 : ℝ) < (h : ℝ) * w := cardR_pos
  have e : ∑ i ∈ Finset.range h, ∑ j ∈ Finset.range w, gridErr dx (ofField f) F i j ^ 2
      = Q (f - samp h w dx F) := by
    unfold Q
    rw [← sum_range_eq]
    refine Finset.sum_congr rfl fun i hi => Finset.sum_congr rfl fun j hj => ?_
    rw [gridErr_eq dx f F (Finset.mem_range.1 hi) (Finset.mem_range.1 hj)]
  unfold rms at H
  rw [e] at H
  have h0 : 0 ≤ Q (f - samp h w dx F) / ((h : ℝ) * w) := div_nonneg (Q_nonneg _) hc.le
  have := pow_le_pow_left₀ (Real.sqrt_nonneg _) H 2
  rw [Real.sq_sqrt h0, div_le_iff₀ hc] at this
  unfold Small
  linarith

/-- **C102.** Let `n, w, p` be a smooth solution of the Hasegawa–Wakatani equations on the periodic box `[0, L]²` and the
time interval `[0, T]`.  There is one constant `C` such that on every `m × m` grid, started from the samples of density
and vorticity at time 0, after every number `k ≥ 1` of small enough steps up to time `T`, each of the eight property
functions, applied to the state reached, returns a number within `C dx²` of the physical quantity of its name of the
solution at time `k dt`.  (The spectral particle flux: for even `m`.) -/
theorem C102_properties_converge (P : Params) (hnu : 0 ≤ P.nu) {L T B : ℝ} {r : ℕ} (hT : 0 ≤ T) (hr : 4 ≤ r)
    (hr' : 2 * P.N + 2 ≤ r) {nf wf pf : ℝ → ℕ → ℕ → ℝ → ℝ → ℝ} (H : HWSolution P L L T r B nf wf pf) :
    ∃ C, 0 ≤ C ∧ ∀ (m : ℕ) (dx : ℝ), 0 < m → 0 < dx → m * dx = L →
      ∀ (b : Backend) (dx0 k0 : ℝ) (test : Bool), Std b m m →
      ∀ hw, hw = HW.init b dx0 P.N P.c1 P.nu k0 P.pb P.kappa P.zonal test →
      ∀ s, IsState test m m s →
        Sampled m m dx (nf 0 0 0) (arrOf s "density") → Sampled m m dx (wf 0 0 0) (arrOf s "omega") →
      ∃ dt0, 0 < dt0 ∧ ∀ dt, 0 ≤ dt → dt ≤ dt0 → ∀ k : ℕ, 0 < k → k * dt ≤ T →
        ∀ step, step = Step.rk4 ∨ step = Step.euler → ∀ c,
        ∃ s' c', history hw dx (List.replicate k (step dt)) s c = .ok (s', c') ∧
          ∀ name ∈ propertyTable, (name = "gamma_n_spectral" → Even m) →
            ∃ v, propValue name dx P.c1 (arrOf s' "density") (arrOf s' "phi") (arrOf s' "omega") = .ok v ∧
              |v - physical L L P.c1 (nf (k * dt)) (wf (k * dt)) (pf (k * dt)) name| ≤ C * dx ^ 2 := by
  have hB : 0 ≤ B := (H.smoothN 0 ⟨le_rfl, hT⟩).nonneg
  obtain ⟨C, hC, HC⟩ := C86_converges_to_pde P hnu hT hr hr' H
  refine ⟨measK P.c1 C B |L|, ?_, ?_⟩
  · unfold measK
    refine mul_nonneg (by positivity) (prodK_nonneg ?_ (by positivity) _)
    have := errK_nonneg hC B
    have := poin_nonneg |L|
    unfold fieldK
    positivity
  intro m dx hm hdx hL b dx0 k0 test hb hw ehw s hs sn so
  have : NeZero m := ⟨hm.ne'⟩
  have l0 : 0 < L := by rw [← hL]; positivity
  obtain ⟨dt0, hdt0, hst⟩ := HC m m dx hm hm hdx hL hL b dx0 k0 test hb hw ehw s hs sn so
  refine ⟨dt0, hdt0, fun dt hdt hle k hk hkT step hstep c => ?_⟩
  obtain ⟨s', c', e, e1, e2, -⟩ := hst dt hdt hle k hkT step hstep c
  refine ⟨s', c', e, fun name hname hev => ?_⟩
  have hb' : Std hw.backend m m := by rw [ehw]; exact hb
  have hs' : IsState hw.TEST_CONSERVATION m m s := by rw [ehw]; exact hs
  obtain ⟨s2, c2, q1, q2, q3⟩ := C32_phi_consistent hw dx hm hm hb' (List.replicate k (step dt))
    (by simp; omega) s hs' c
  rw [e] at q1
  injection q1 with q1
  injection q1 with q1 _
  subst q1
  obtain ⟨ks, u, hks, -, rfl⟩ := q2.exists_mk
  rw [consistent_mk hw hb'.good dx hks] at q3
  rw [arrOf_density hks] at e1 ⊢
  rw [arrOf_omega hks] at e2 ⊢
  rw [arrOf_phi hks, q3]
  have hkt : k * dt ∈ Icc 0 T := ⟨by positivity, hkT⟩
  have := measured_ofField (c1 := P.c1) hr hC (H.smoothN _ hkt) (H.smoothO _ hkt) (H.smoothP _ hkt)
    (H.periodicN _ hkt) (H.periodicO _ hkt) (H.periodicP _ hkt) (H.poisson _ hkt) (H.meanP _ hkt) hdx hL
    (small_of_rms e1) (small_of_rms e2) hname hev
  rw [abs_of_pos l0]
  exact this

theorem arrOf_of_toCells {s : NS Val} {k : String} {A : Arr ℝ} (h : (toCells s).get? k = some (.arr A)) :
    arrOf s k = A := by
  rw [get?_toCells] at h
  unfold arrOf
  cases hv : s.get? k with
  | none => rw [hv] at h; cases h
  | some v =>
    rw [hv] at h
    cases v with
    | num x => cases h
    | arr V => exact Cell.arr.inj (Option.some.inj h)

/-- the particle flux of the growing drift wave -/
theorem wave_flux (t : ℝ) : physical (2 * Real.pi) (2 * Real.pi) 3 (modeFam (5 / 3 * amp t) (4 / 3 * amp t) (4 * t))
    (modeFam (- amp t) 0 (4 * t)) (modeFam (amp t) 0 (4 * t)) "gamma_n" = 2 / 3 * amp t ^ 2 := by
  have e : ∀ y x : ℝ, modeFam (5 / 3 * amp t) (4 / 3 * amp t) (4 * t) 0 0 y x * modeFam (amp t) 0 (4 * t) 1 0 y x
      = (fun z => -(amp t ^ 2) * (5 / 3 * (Real.sin z * Real.cos z) + 4 / 3 * Real.sin z ^ 2)) (y - 4 * t) := by
    intro y x
    simp only [modeFam, if_true, Nat.cast_zero, Nat.cast_one, zero_mul, one_mul, add_zero, Real.cos_add_pi_div_two]
    ring
  have i1 : ∫ z in (0 - 4 * t)..(2 * Real.pi - 4 * t), Real.sin z * Real.cos z = 0 := by
    rw [integral_sin_mul_cos₁]
    simp [Real.sin_two_pi_sub]
  have i2 : ∫ z in (0 - 4 * t)..(2 * Real.pi - 4 * t), Real.sin z ^ 2 = Real.pi := by
    rw [integral_sin_sq]
    simp [Real.sin_two_pi_sub, Real.cos_two_pi_sub]
  have i3 : ∀ x : ℝ, ∫ y in (0 : ℝ)..(2 * Real.pi), modeFam (5 / 3 * amp t) (4 / 3 * amp t) (4 * t) 0 0 y x
      * modeFam (amp t) 0 (4 * t) 1 0 y x = -(amp t ^ 2) * (4 / 3 * Real.pi) := by
    intro x
    simp only [e]
    rw [intervalIntegral.integral_comp_sub_right
      (fun z => -(amp t ^ 2) * (5 / 3 * (Real.sin z * Real.cos z) + 4 / 3 * Real.sin z ^ 2)),
      intervalIntegral.integral_const_mul, intervalIntegral.integral_add, intervalIntegral.integral_const_mul,
      intervalIntegral.integral_const_mul, i1, i2]
    · ring
    · exact Continuous.intervalIntegrable (by fun_prop) _ _
    · exact Continuous.intervalIntegrable (by fun_prop) _ _
  have := Real.pi_pos
  change -boxMean _ _ _ = _
  unfold boxMean
  simp only [i3]
  rw [intervalIntegral.integral_const, smul_eq_mul]
  field_simp
  ring

/-- the particle flux computed from the states of the growing drift wave is the one of the equations -/
example : ∃ C, ∀ m : ℕ, 0 < m → ∃ dt0 : ℝ, 0 < dt0 ∧ ∀ dt, 0 ≤ dt → dt ≤ dt0 →
    ∀ k : ℕ, 0 < k → k * dt ≤ 5 → ∃ s' c' v,
    history (HW.init numpyBackend 1 1 3 (1 / 10) 1 1 (40 / 3) false true) (2 * Real.pi / m)
      (List.replicate k (.rk4 dt)) (startState (ofField (samp m m (2 * Real.pi / m)
          (modeFam (5 / 3 * amp 0) (4 / 3 * amp 0) (4 * 0) 0 0)))
        (ofField (samp m m (2 * Real.pi / m) (modeFam (- amp 0) 0 (4 * 0) 0 0))) (tab m m fun _ _ => 0)) {}
      = .ok (s', c') ∧
    Properties.get_gamma_n (arrOf s' "density") (arrOf s' "phi") (2 * Real.pi / m) = .ok v ∧
    |v - 2 / 3 * amp (k * dt) ^ 2| ≤ C * (2 * Real.pi / m) ^ 2 := by
  obtain ⟨C, -, H⟩ := C102_properties_converge _ (by norm_num) (by norm_num) le_rfl (by norm_num) (drift_wave 5)
  refine ⟨C, fun m hm => ?_⟩
  have hm' : (0 : ℝ) < m := by exact_mod_cast hm
  have : NeZero m := ⟨hm.ne'⟩
  obtain ⟨dt0, h0, H⟩ := H m (2 * Real.pi / m) hm (by positivity) (by field_simp) numpyBackend 1 1 true (.inl rfl) _ rfl
    (startState (ofField (samp m m (2 * Real.pi / m) (modeFam (5 / 3 * amp 0) (4 / 3 * amp 0) (4 * 0) 0 0)))
        (ofField (samp m m (2 * Real.pi / m) (modeFam (- amp 0) 0 (4 * 0) 0 0))) (tab m m fun _ _ => 0))
    (startState_isState _ rfl rfl rfl rfl rfl rfl) (fun i j hi hj => samp_at hi hj) (fun i j hi hj => samp_at hi hj)
  refine ⟨dt0, h0, fun dt hdt hle k hk hkT => ?_⟩
  obtain ⟨s', c', e, H⟩ := H dt hdt hle k hk hkT .rk4 (.inl rfl) {}
  obtain ⟨v, v1, v2⟩ := H "gamma_n" (by decide) (fun h => absurd h (by decide))
  exact ⟨s', c', v, e, v1, by rw [← wave_flux]; exact v2⟩

section run2
attribute [local instance] exactOps

/-- the arguments of `run2` describe the equations with the coefficients of `P` on an `m × m` grid of the box `[0, L]²`,
start from the functions `F` (density) and `G` (vorticity) and record from the start -/
structure RunPoses2 (a : Args2 ℝ) (P : Params) (L : ℝ) (F G : ℝ → ℝ → ℝ) (m : ℕ) : Prop where
  grid : a.grid_pts = m
  spacing : m * a.dx = L
  order : a.N = P.N
  c1 : a.c1 = P.c1
  nu : a.nu = P.nu
  bracket : a.poisson_bracket_coeff = P.pb
  kappa : a.kappa_coeff = P.kappa
  zonal : a.zonal = P.zonal
  density : ∃ A : Arr ℝ, a.density0 = .arr A ∧ Sampled m m a.dx F A
  omega : ∃ A : Arr ℝ, a.omega0 = .arr A ∧ Sampled m m a.dx G A
  start : a.recording_start_time = 0
  endpos : 0 < a.end_time

theorem frames2_get {β : Type} [Casts ℝ β] [Inhabited β] {E : Env2 ℝ β} {a : Args2 ℝ} {S : ℕ → NS (Cell ℝ)} {m : ℕ}
    (hsum : a.adaptive_step_size = true → ∀ l, E.sum l = l.sum) (hdt : 0 < a.step_size)
    (h0 : a.recording_start_time = 0) {j : ℕ} (hj : j ≠ 0) (hm : j ≤ m / a.snaps) :
    (frames2 E a S m)[j]? = some (((j * a.snaps : ℕ) : ℝ) * a.step_size, S (j * a.snaps)) := by
  have hall : (List.range' 1 m).filter (isRecorded2 E a (FloatOps.ofInt 0))
      = (List.range' 1 m).filter (fun it => it % a.snaps == 0) := by
    apply List.filter_congr
    intro it _
    unfold isRecorded2
    rw [exact_timeAt hsum]
    have : FloatOps.le a.recording_start_time ((FloatOps.ofInt 0 : ℝ) + it * a.step_size) = true := by
      refine decide_eq_true ?_
      rw [h0]
      have : (FloatOps.ofInt 0 : ℝ) = 0 := by simp [FloatOps.ofInt]
      rw [this]
      positivity
    rw [this, Bool.true_and]
  obtain ⟨q, rfl⟩ := Nat.exists_eq_succ_of_ne_zero hj
  unfold frames2 stepFrames2
  rw [hall, filter_multiples, if_pos (by rw [h0]; simp [FloatOps.eq, FloatOps.ofInt])]
  rw [List.singleton_append, List.getElem?_cons_succ, List.map_map, List.getElem?_map, List.getElem?_range' (by omega)]
  have e0 : (FloatOps.ofInt 0 : ℝ) = 0 := by simp [FloatOps.ofInt]
  simp only [Option.map_some, Function.comp, exact_timeAt hsum, e0, zero_add, one_mul]
  rw [add_comm 1 q]

/-- **C102, run2.** Under the same conditions: there is one constant `C` such that for every grid size there is a largest
step size with: every call of `run2` to a new file whose arguments describe these equations, started from the samples of
the solution at time 0, with at most that step size, writes for each property asked for a dataset `fullres_<name>` with
one entry per frame, and entry `j ≥ 1` is (up to the rounding to `float32`) within `C dx²` of the physical
quantity of that name of the solution at the time `j * snaps * step_size` of the frame, as long as this time is at most `T`. -/
theorem C102_recorded_properties (P : Params) (hnu : 0 ≤ P.nu) {L T B : ℝ} {r : ℕ} (hT : 0 ≤ T) (hL : 0 < L)
    (hr : 4 ≤ r) (hr' : 2 * P.N + 2 ≤ r) {nf wf pf : ℝ → ℕ → ℕ → ℝ → ℝ → ℝ}
    (H : HWSolution P L L T r B nf wf pf) :
    ∃ C, 0 ≤ C ∧ ∀ (m : ℕ) (b : Backend) (k0 : ℝ), 0 < m → Std b m m →
      ∃ dt0, 0 < dt0 ∧ ∀ (β : Type) (_ : Casts ℝ β) (_ : Inhabited β) (E : Env2 ℝ β) (a : Args2 ℝ) (σ : St ℝ β) (ns : ℕ),
        GoodArgs2 E b a σ ns → RunPoses2 a P L (nf 0 0 0) (wf 0 0 0) m → a.k0 = k0 → a.step_size ≤ dt0 →
        E.propertyFn = propertyFncs → (∀ name ∈ a.properties, name ∈ propertyTable) →
        ∃ count, IsLeast {k : ℕ | a.end_time ≤ FloatOps.round4 ((k : ℝ) * a.step_size)} count ∧ ∀ fuel, count < fuel →
        (run2 E a fuel σ).1 ≠ .ok none ∧ ∃ f : H5 ℝ β, (run2 E a fuel σ).2.fs a.output_path = some f ∧
          ∀ name ∈ a.properties, ∃ rows, f.dsets ("fullres_" ++ name) = some (.rows .one rows) ∧
            rows.length = count / a.snaps + 1 ∧
            ((name = "gamma_n_spectral" → Even m) →
              ∀ j (hj : j < rows.length), j ≠ 0 → ∀ t, t = ((j * a.snaps : ℕ) : ℝ) * a.step_size → t ≤ T →
                ∃ v : ℝ, rows[j] = .num (Casts.f32 v) ∧
                  |v - physical L L P.c1 (nf t) (wf t) (pf t) name| ≤ C * a.dx ^ 2) := by
  obtain ⟨C, hC, HC⟩ := C102_properties_converge P hnu hT hr hr' H
  refine ⟨C, hC, fun m b k0 hm hb => ?_⟩
  have : NeZero m := ⟨hm.ne'⟩
  have hm' : (0 : ℝ) < m := by exact_mod_cast hm
  set dx := L / m with hdx
  have hdx0 : 0 < dx := by positivity
  have hmd : m * dx = L := by rw [hdx]; field_simp
  set hw := HW.init b dx P.N P.c1 P.nu k0 P.pb P.kappa P.zonal with ehw
  set A0 : Arr ℝ := ofField (samp m m dx (nf 0 0 0))
  set B0 : Arr ℝ := ofField (samp m m dx (wf 0 0 0))
  set C0 : Arr ℝ := ofField (phiF dx (samp m m dx (wf 0 0 0)))
  have hphi : ∀ c, ∃ c', hw.get_phi B0 dx c = .ok (C0, c') := fun c =>
    ⟨_, get_phi_ofField hw (Std.good hb) (samp m m dx (wf 0 0 0)) dx c⟩
  have hs0 : IsState hw.TEST_CONSERVATION m m (startState A0 B0 C0) := startState_isState _ rfl rfl rfl rfl rfl rfl
  obtain ⟨dt0, hdt0, hst⟩ := HC m dx hm hdx0 hmd b dx k0 hw.TEST_CONSERVATION hb hw ehw (startState A0 B0 C0) hs0
    (fun i j hi hj => samp_at hi hj) (fun i j hi hj => samp_at hi hj)
  refine ⟨dt0, hdt0, fun β _ _ E a σ ns hg hd hk0 hle hE hnames => ?_⟩
  have ed : a.dx = dx := by
    have := hd.spacing
    rw [hdx]; field_simp; linarith
  have ehw' : theHW2 b a = hw := by
    unfold theHW2
    rw [ehw, ed, hd.order, hd.c1, hd.nu, hk0, hd.bracket, hd.kappa, hd.zonal]
  obtain ⟨A, B', C', S, hA, hB, hC', hS, hR⟩ := fresh2_physics hg
  obtain ⟨count, hcount, hrun⟩ := hR a.end_time
  have hua : a.until a.end_time = a := rfl
  rw [hua] at hrun
  have eA : A = A0 := by
    obtain ⟨A1, q1, q2⟩ := hd.density
    obtain ⟨A2, q3, q4, q5⟩ := hg.density
    rw [hA] at q1 q3
    injection q1 with q1; injection q3 with q3
    rw [← q1, ed] at q2
    rw [← q3, hd.grid] at q4 q5
    exact sampled_ofField q2 q4 q5
  have eB : B' = B0 := by
    obtain ⟨A1, q1, q2⟩ := hd.omega
    obtain ⟨A2, q3, q4, q5⟩ := hg.omega
    rw [hB] at q1 q3
    injection q1 with q1; injection q3 with q3
    rw [← q1, ed] at q2
    rw [← q3, hd.grid] at q4 q5
    exact sampled_ofField q2 q4 q5
  have eC : C' = C0 := by
    obtain ⟨c1, q1⟩ := hC' {}
    obtain ⟨c2, q2⟩ := hphi {}
    rw [ehw', eB, ed, q2] at q1
    injection q1 with q1
    injection q1 with q1 _
    exact q1.symm
  rw [ehw', eA, eB, eC, ed] at hS
  have hcpos : 0 < count := by
    rcases Nat.eq_zero_or_pos count with rfl | h
    · have := hcount.1
      simp only [mem_ofPred_eq, Nat.cast_zero, zero_mul] at this
      have e0 : (FloatOps.round4 (0 : ℝ)) = 0 := by simp [FloatOps.round4, roundEven]
      rw [e0] at this
      exact absurd hd.endpos (not_lt.mpr this)
    · exact h
  refine ⟨count, hcount, fun fuel hfuel => ?_⟩
  have hend : FloatOps.lt a.recording_start_time (timeAt E a (FloatOps.ofInt 0) count) = true := by
    rw [exact_timeAt hg.sum, hd.start]
    refine decide_eq_true ?_
    have e0 : (FloatOps.ofInt 0 : ℝ) = 0 := by simp [FloatOps.ofInt]
    rw [e0, zero_add]
    have : (0 : ℝ) < count := by exact_mod_cast hcpos
    exact mul_pos this hg.step
  obtain ⟨f, f1, f2, -, f3⟩ := C52_all_written_partial hrun hfuel hend
  refine ⟨f2, f, f1, fun name hname => ?_⟩
  obtain ⟨rows, r1, r2⟩ := f3 name hname fun hc => fullres_not_propertyName name (hnames _ hc)
  have hlen : rows.length = count / a.snaps + 1 := by
    rw [← r2.length_eq, frames2_length hg.sum hg.step hd.start]
  refine ⟨rows, r1, hlen, fun hev j hj hj0 t ht htT => ?_⟩
  have hjc : j ≤ count / a.snaps := by omega
  have hfr := frames2_get (S := fun n => toCells (S n)) hg.sum hg.step hd.start hj0 hjc
  have hjf : j < (frames2 E a (fun n => toCells (S n)) count).length := by rw [r2.length_eq]; exact hj
  obtain ⟨v, ⟨F, n, p, o, v1, v2, v3, v4, v5⟩, v6⟩ := List.forall₂_iff_get.mp r2 |>.2 j hjf hj
  have hget : (frames2 E a (fun n => toCells (S n)) count).get ⟨j, hjf⟩
      = (((j * a.snaps : ℕ) : ℝ) * a.step_size, toCells (S (j * a.snaps))) := by
    rw [List.getElem?_eq_getElem hjf] at hfr
    exact Option.some.inj hfr
  rw [hget] at v2 v3 v4
  refine ⟨v, v6, ?_⟩
  have hjs : 0 < j * a.snaps := Nat.mul_pos (Nat.pos_of_ne_zero hj0) hg.snaps
  obtain ⟨s', c', e, e1⟩ := hst a.step_size hg.step.le hle (j * a.snaps) hjs (by rw [← ht]; exact htT) .rk4 (.inl rfl) {}
  obtain ⟨c2, e'⟩ := hS (j * a.snaps) {}
  rw [e] at e'
  injection e' with e'
  injection e' with e' _
  obtain ⟨v', w1, w2⟩ := e1 name (hnames _ hname) hev
  rw [hE, propertyFncs_eq (hnames _ hname)] at v1
  have v1 := Option.some.inj v1
  subst v1
  have v5' : propValue name dx P.c1 (arrOf s' "density") (arrOf s' "phi") (arrOf s' "omega") = .ok v := by
    rw [ed, hd.c1] at v5
    rw [e']
    cases n with
    | num x => cases v5
    | arr n =>
      cases p with
      | num x => cases v5
      | arr p =>
        cases o with
        | num x => cases v5
        | arr o => rw [arrOf_of_toCells v2, arrOf_of_toCells v3, arrOf_of_toCells v4]; exact v5
  rw [v5'] at w1
  rw [Except.ok.inj w1, ht, ed]
  exact w2

/-- a call of `run2` for the growing drift wave with all properties -/
noncomputable def waveArgs2 (m : ℕ) (dt : ℝ) : Args2 ℝ :=
  { waveArgs m dt with
    snaps := 2
    buffer_length := 7
    properties := propertyTable
    adaptive_step_size := false
    zonal := false }

theorem waveArgs2_good (m : ℕ) (hm : 0 < m) (dt : ℝ) (hdt : 0 < dt) :
    GoodArgs2 propsEnv numpyBackend (waveArgs2 m dt) ⟨fun _ => none, []⟩ m where
  grid := hm
  backend := .inl rfl
  density := ⟨_, rfl, rfl, rfl⟩
  omega := ⟨_, rfl, rfl, rfl⟩
  phi := ⟨_, rfl, rfl, rfl⟩
  path := (wave_good m hm dt hdt ⟨fun _ => none, []⟩ rfl).path
  fresh := .inl rfl
  buffer := (by decide : 1 ≤ 7)
  snaps := (by decide : 1 ≤ 2)
  step := hdt
  saves := ⟨(wave_good m hm dt hdt ⟨fun _ => none, []⟩ rfl).saves.dim, fun h => by
    have e : (waveArgs2 m dt).downsample_factor = 1 := rfl
    simp [downsampling, FloatOps.eq, FloatOps.ofInt, e] at h⟩
  sim := rfl
  attr := rfl
  nan _ := rfl
  nodup := (by decide : propertyTable.Nodup)
  props name hn := ⟨_, propertyFncs_eq hn, fun _ _ _ h1 h2 h3 => propValue_ok hn _ _ hm h1 h2 h3⟩
  sum _ _ := rfl

theorem waveArgs2_poses (m : ℕ) (hm : 0 < m) (dt : ℝ) :
    RunPoses2 (waveArgs2 m dt) ⟨0, 1, 3, 1 / 10, 1, 40 / 3, false⟩ (2 * Real.pi)
      (modeFam (5 / 3 * amp 0) (4 / 3 * amp 0) (4 * 0) 0 0) (modeFam (- amp 0) 0 (4 * 0) 0 0) m where
  grid := rfl
  spacing := (wave_describes m hm dt).spacing
  order := rfl
  c1 := rfl
  nu := rfl
  bracket := rfl
  kappa := rfl
  zonal := rfl
  density := (wave_describes m hm dt).density
  omega := (wave_describes m hm dt).omega
  start := rfl
  endpos := (by norm_num : (0 : ℝ) < 5)

/-- the growing particle flux of the drift wave appears in the file of every fine enough run -/
example : ∃ C, ∀ m : ℕ, 0 < m → ∃ dt0 : ℝ, 0 < dt0 ∧ ∀ dt, 0 < dt → dt ≤ dt0 → ∃ count, ∀ fuel, count < fuel →
    ∃ (f : H5 ℝ ℝ) (rows : List (Cell ℝ)),
      (run2 propsEnv (waveArgs2 m dt) fuel ⟨fun _ => none, []⟩).2.fs "run.h5" = some f ∧
      f.dsets "fullres_gamma_n" = some (.rows .one rows) ∧ rows.length = count / 2 + 1 ∧
      ∀ j (hj : j < rows.length), j ≠ 0 → ((j * 2 : ℕ) : ℝ) * dt ≤ 5 → ∃ v : ℝ, rows[j] = .num (Casts.f32 v) ∧
        |v - 2 / 3 * amp (((j * 2 : ℕ) : ℝ) * dt) ^ 2| ≤ C * (2 * Real.pi / m) ^ 2 := by
  obtain ⟨C, -, H⟩ := C102_recorded_properties _ (by norm_num) (by norm_num) (by positivity) le_rfl (by norm_num)
    (drift_wave 5)
  refine ⟨C, fun m hm => ?_⟩
  obtain ⟨dt0, hdt0, H⟩ := H m numpyBackend 1 hm (.inl rfl)
  refine ⟨dt0, hdt0, fun dt hdt hle => ?_⟩
  obtain ⟨count, -, H⟩ := H ℝ _ inferInstance propsEnv (waveArgs2 m dt) ⟨fun _ => none, []⟩ m (waveArgs2_good m hm dt hdt)
    (waveArgs2_poses m hm dt) rfl hle rfl (fun _ h => h)
  refine ⟨count, fun fuel hf => ?_⟩
  obtain ⟨-, f, f1, H⟩ := H fuel hf
  obtain ⟨rows, r1, r2, r3⟩ := H "gamma_n" (by change _ ∈ propertyTable; decide)
  refine ⟨f, rows, f1, r1, r2, fun j hj hj0 ht => ?_⟩
  obtain ⟨v, v1, v2⟩ := r3 (fun h => absurd h (by decide)) j hj hj0 _ rfl ht
  refine ⟨v, v1, ?_⟩
  have v2 : |v - physical (2 * Real.pi) (2 * Real.pi) 3 _ _ _ "gamma_n"| ≤ _ := v2
  rw [wave_flux] at v2
  exact v2

end run2

end Verif.Props
