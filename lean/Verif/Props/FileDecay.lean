import Verif.Props.FileGrowth
import Verif.Props.Decay

/-!
# C151: viscosity that beats the drive extinguishes the recorded transport
-/

set_option linter.unusedSectionVars false

namespace Verif.Props

open Arr NS Spec Set H5IO Run Run2 RunProperties Properties

attribute [local instance] exactOps

variable {hw : HW} {dx : ℝ} {m : ℕ} {P : Params} {b : Backend} {dx0 k0 : ℝ} {test : Bool}

theorem reported_kinetic [NeZero m] (hdx : dx ≠ 0) (c1 : ℝ) (n o : Fld m m) :
    reportedVal dx c1 n o "kinetic_energy" = -avg (fun i j => phiF dx o i j * o i j) / 2 := by
  have h2 : propValue "kinetic_energy" dx c1 (ofField n) (ofField (phiF dx o)) (ofField o)
      = get_energy_V_spectrally (ofField (phiF dx o)) dx := by
    unfold propValue
    simp only [String.reduceEq, if_false, if_true]
  rw [reportedVal_eq (h2.trans (energy_V_ofField (phiF dx o) dx)), energy_V_phi _ hdx]

/-- the reported kinetic energy and particle flux are bounded by the energy of the fluctuations -/
theorem reported_le_fl [NeZero m] (hdx : dx ≠ 0) (c1 : ℝ) (n o : Fld m m) :
    0 ≤ reportedVal dx c1 n o "kinetic_energy" ∧ reportedVal dx c1 n o "kinetic_energy" ≤ flC dx (n, o) (n, o) ∧
      |reportedVal dx c1 n o "gamma_n"| ≤ flC dx (n, o) (n, o) := by
  rw [reported_kinetic hdx, reported_gamma_n, flC_self]
  have h1 := phi_o_nonpos hdx o
  have h2 : 0 ≤ avg (fun i j => (n i j - avg n) ^ 2) := div_nonneg (S_nonneg fun i j => sq_nonneg _) cardR_pos.le
  refine ⟨by linarith, ?_, gamN_flE hdx n o⟩
  unfold flE
  rw [avg_sub]
  linarith

/-- the reported values along the simulation -/
theorem reported_decay (m0 : 0 < m) (hb : Std b m m)
    (ehw : hw = HW.init b dx0 P.N P.c1 P.nu k0 P.pb P.kappa P.zonal test) (hdx : P.dx ≠ 0) (hN : 1 ≤ P.N)
    (hc1 : 0 ≤ P.c1) (hnu : 0 ≤ P.nu) (s : NS Val) (hs : IsState test m m s) (hc : Consistent hw P.dx s) (T : ℝ) (hT : 0 ≤ T) :
    ∃ C dt0, 0 ≤ C ∧ 0 < dt0 ∧ ∀ dt, 0 ≤ dt → dt ≤ dt0 →
      ∃ (S : ℕ → NS Val) (v : String → ℕ → ℝ), S 0 = s ∧
        (∀ j c, ∃ c', history hw P.dx (List.replicate j (.rk4 dt)) s c = .ok (S j, c')) ∧
        (∀ name ∈ propertyTable, ∀ j,
          propValue name P.dx hw.c1 (arrOf (S j) "density") (arrOf (S j) "phi") (arrOf (S j) "omega") = .ok (v name j)) ∧
        ∀ k : ℕ, k * dt ≤ T →
          0 ≤ v "kinetic_energy" k ∧
          v "kinetic_energy" k ≤ Real.exp ((|P.kappa| - 2 * slowest P m m) * (k * dt))
            * (v "thermal_energy" 0 + v "kinetic_energy" 0 - Spec.mean m m (arrOf s "density").at' ^ 2 / 2) + C * dt ^ 4 ∧
          |v "gamma_n" k| ≤ Real.exp ((|P.kappa| - 2 * slowest P m m) * (k * dt))
            * (v "thermal_energy" 0 + v "kinetic_energy" 0 - Spec.mean m m (arrOf s "density").at' ^ 2 / 2) + C * dt ^ 4 := by
  have : NeZero m := ⟨m0.ne'⟩
  have hb' : hw.backend.Good m m := by rw [ehw]; exact hb.good
  have ep : parOf hw P.dx = P := by rw [ehw]; exact parOf_init ..
  have et : hw.TEST_CONSERVATION = test := by rw [ehw]; rfl
  obtain ⟨ks, u, hk, hn, rfl⟩ := hs.exists_mk
  rw [consistent_mk hw hb' P.dx hk] at hc
  rw [← et] at hk
  obtain ⟨C, d0, hC, hd0, H⟩ := fluct_fields P hw.dx hdx hN hc1 hnu u hc T hT
  refine ⟨C, d0, hC, hd0, fun dt hdt hd => ?_⟩
  let t : ℕ → Sta m m := fun j => histS P hw.dx (List.replicate j (.rk4 dt)) u
  have ht : ∀ j, (t j).2.2.1 = phiF P.dx (t j).2.1 := fun j => histS_phi P hw.dx _ u hc
  have hkj : ∀ j, GoodKeys (histKeys (List.replicate j (.rk4 dt)) ks) hw.TEST_CONSERVATION :=
    fun j => goodKeys_hist _ hk
  let S : ℕ → NS Val := fun j => NS.mk (histKeys (List.replicate j (.rk4 dt)) ks) (st (t j))
  let v : String → ℕ → ℝ := fun name j => reportedVal P.dx hw.c1 (t j).1 (t j).2.1 name
  have hv : ∀ name ∈ propertyTable, ∀ j,
      propValue name P.dx hw.c1 (arrOf (S j) "density") (arrOf (S j) "phi") (arrOf (S j) "omega") = .ok (v name j) := by
    intro name h j
    simp only [S, arrOf_density (hkj j), arrOf_omega (hkj j), arrOf_phi (hkj j), ht j]
    obtain ⟨x, hx⟩ := propValue_ok h P.dx hw.c1 m0 (n := ofField (t j).1) (p := ofField (phiF P.dx (t j).2.1)) (o := ofField (t j).2.1)
      ⟨rfl, rfl⟩ ⟨rfl, rfl⟩ ⟨rfl, rfl⟩
    exact hx.trans (congrArg Except.ok (reportedVal_eq hx).symm)
  have hS : ∀ j c, ∃ c', history hw P.dx (List.replicate j (.rk4 dt)) (NS.mk ks (st u)) c = .ok (S j, c') := by
    intro j c
    have := history_eval hw P.dx hb' hk (List.replicate j (.rk4 dt)) u c
    rw [ep] at this
    exact ⟨_, this⟩
  have em : Spec.mean m m (arrOf (NS.mk ks (st u)) "density").at' = avg u.1 := by
    rw [arrOf_density hk]
    exact spec_mean_of fun i j hi hj => ofField_at' _ hi hj
  have e0 : v "thermal_energy" 0 + v "kinetic_energy" 0 - avg u.1 ^ 2 / 2 = flC P.dx (prj u) (prj u) := by
    have h1 : v "thermal_energy" 0 + v "kinetic_energy" 0 = enC P.dx (prj (t 0)) (prj (t 0)) := reported_energy hdx _ _ _
    have h2 : t 0 = u := rfl
    rw [h1, h2, flC_apply, sq]
    rfl
  refine ⟨S, v, rfl, hS, hv, fun k hkT => ?_⟩
  have R := H dt hdt hd k hkT _ rfl
  obtain ⟨r1, r2, r3⟩ := reported_le_fl hdx hw.c1 (t k).1 (t k).2.1
  rw [em, e0]
  exact ⟨r1, r2.trans R, r3.trans R⟩

/-- **C151.**  For every simulation with `N ≥ 1` and non-negative coupling and viscosity, every initial density `A` and vorticity `B` with
thermal energy `N0` and kinetic energy `V0`, and every time `T`: there are a constant `C` and a largest step size such that for every call
of `run2` to a new file with these data, the recorded kinetic energy and the absolute value of the recorded particle flux of
frame `j ≥ 1`, up to the time `T`, are at most `exp((|kappa| - 2 slowest) t) (N0 + V0 - mean(A)²/2) + C * step_size⁴` at the
time `t` of the frame (up to the rounding to `float32`). -/
theorem C151_recorded_decay (hm : 0 < m) (hb : Std b m m)
    (ehw : hw = HW.init b dx0 P.N P.c1 P.nu k0 P.pb P.kappa P.zonal test) (hdx : P.dx ≠ 0) (hN : 1 ≤ P.N)
    (hc1 : 0 ≤ P.c1) (hnu : 0 ≤ P.nu) (A B : Arr ℝ) (hA : A.h = m ∧ A.w = m) (hB : B.h = m ∧ B.w = m) :
    ∃ (D : Arr ℝ) (N0 V0 : ℝ), (∀ c, ∃ c', hw.get_phi B P.dx c = .ok (D, c')) ∧ get_energy_N_spectrally A = .ok N0 ∧
      get_energy_V_spectrally D P.dx = .ok V0 ∧ ∀ T : ℝ, 0 ≤ T →
    ∃ C dt0, 0 ≤ C ∧ 0 < dt0 ∧
      ∀ (β : Type) (_ : Casts ℝ β) (_ : Inhabited β) (E : Env2 ℝ β) (a : Args2 ℝ) (σ : St ℝ β) (ns : ℕ),
        GoodArgs2 E b a σ ns → theHW2 b a = hw → a.dx = P.dx → a.density0 = .arr A → a.omega0 = .arr B →
        a.recording_start_time = 0 → 0 < a.end_time → a.step_size ≤ dt0 →
        E.propertyFn = propertyFncs → (∀ name ∈ a.properties, name ∈ propertyTable) →
        ∃ count, IsLeast {k : ℕ | a.end_time ≤ FloatOps.round4 ((k : ℝ) * a.step_size)} count ∧ ∀ fuel, count < fuel →
        (run2 E a fuel σ).1 ≠ .ok none ∧ ∃ f : H5 ℝ β, (run2 E a fuel σ).2.fs a.output_path = some f ∧
          ∃ v : String → ℕ → ℝ,
            (∀ name ∈ a.properties, ∃ rows, f.dsets ("fullres_" ++ name) = some (.rows .one rows) ∧ rows.length = count / a.snaps + 1 ∧
              ∀ j, j ≠ 0 → j ≤ count / a.snaps → rows[j]? = some (.num (Casts.f32 (v name j)))) ∧
            ∀ j : ℕ, ∀ t : ℝ, t = ((j * a.snaps : ℕ) : ℝ) * a.step_size → t ≤ T →
              0 ≤ v "kinetic_energy" j ∧
              v "kinetic_energy" j ≤ Real.exp ((|P.kappa| - 2 * slowest P m m) * t) * (N0 + V0 - Spec.mean m m A.at' ^ 2 / 2)
                + C * a.step_size ^ 4 ∧
              |v "gamma_n" j| ≤ Real.exp ((|P.kappa| - 2 * slowest P m m) * t) * (N0 + V0 - Spec.mean m m A.at' ^ 2 / 2)
                + C * a.step_size ^ 4 := by
  have hb' : Std hw.backend m m := by rw [ehw]; exact hb
  have et : hw.TEST_CONSERVATION = test := by rw [ehw]; rfl
  obtain ⟨D, c1, c2, hD⟩ := get_phi_exists (hw := hw) hm hb' P.dx hB.1 hB.2
  have hs0 := startState_isState test hA.1 hA.2 hB.1 hB.2 c1 c2
  have hc : Consistent hw P.dx (startState A B D) := hD
  have val : ∀ name ∈ propertyTable, ∃ x, propValue name P.dx hw.c1 A D B = .ok x := fun name h =>
    propValue_ok h P.dx hw.c1 hm hA ⟨c1, c2⟩ hB
  obtain ⟨N0, hN0⟩ := val "thermal_energy" (by decide)
  obtain ⟨V0, hV0⟩ := val "kinetic_energy" (by decide)
  have hN' : get_energy_N_spectrally A = .ok N0 := by
    unfold propValue at hN0
    simpa only [String.reduceEq, if_false, if_true] using hN0
  have hV' : get_energy_V_spectrally D P.dx = .ok V0 := by
    unfold propValue at hV0
    simpa only [String.reduceEq, if_false, if_true] using hV0
  refine ⟨D, N0, V0, hD, hN', hV', fun T hT => ?_⟩
  obtain ⟨C, dt0, hC, hdt0, H⟩ := reported_decay hm hb ehw hdx hN hc1 hnu _ hs0 hc T hT
  refine ⟨C, dt0, hC, hdt0, fun β _ _ E a σ ns hg eha ed eA eB hstart hendp hle hE hnames => ?_⟩
  obtain ⟨A', B', D', S, qA, qB, qD, hS, count, hcount, hrec⟩ := recorded_frames hg hstart hendp hE hnames
  have eA : A' = A := by rw [eA] at qA; cases qA; rfl
  have eB : B' = B := by rw [eB] at qB; cases qB; rfl
  have eD : D' = D := by
    obtain ⟨c1, q1⟩ := qD {}
    obtain ⟨c2, q2⟩ := hD {}
    rw [eha, eB, ed, q2] at q1
    injection q1 with q1
    injection q1 with q1 _
    exact q1.symm
  rw [eha, eA, eB, eD, ed] at hS
  obtain ⟨S', v, hS0, hS', hv, hbud⟩ := H a.step_size hg.step.le hle
  have eS : ∀ j, S j = S' j := by
    intro j
    obtain ⟨c1, q1⟩ := hS j {}
    obtain ⟨c2, q2⟩ := hS' j {}
    rw [q1] at q2
    injection q2 with q2
    injection q2 with q2 _
  have v0 : ∀ name ∈ propertyTable, propValue name P.dx hw.c1 A D B = .ok (v name 0) := by
    intro name h
    have := hv name h 0
    rw [hS0] at this
    exact this
  have eN : v "thermal_energy" 0 = N0 := Except.ok.inj ((v0 _ (by decide)).symm.trans hN0)
  have eV : v "kinetic_energy" 0 = V0 := Except.ok.inj ((v0 _ (by decide)).symm.trans hV0)
  refine ⟨count, hcount, fun fuel hfuel => ?_⟩
  obtain ⟨r1, f, r2, r3⟩ := hrec fuel hfuel
  refine ⟨r1, f, r2, fun name j => v name (j * a.snaps), fun name hname => ?_, fun j t ht htT => ?_⟩
  · obtain ⟨rows, q1, q2, q3⟩ := r3 name hname
    refine ⟨rows, q1, q2, fun j hj0 hj => ?_⟩
    obtain ⟨x, x1, x2⟩ := q3 j hj0 hj
    have ec : a.c1 = hw.c1 := by rw [← eha]; rfl
    rw [ed, ec, eS, hv name (hnames _ hname)] at x2
    rw [x1]
    exact congrArg (fun y => some (Cell.num (Casts.f32 y))) (Except.ok.inj x2).symm
  · have R := hbud (j * a.snaps) (by rw [← ht]; exact htT)
    rw [eN, eV, ← ht] at R
    exact R

/-- **C151, the transport dies out.**  If the slowest damping rate exceeds `|kappa|/2`, then for every initial density and vorticity and every
`ε > 0` there is a time `T0` such that in the file of every call of `run2` with a small enough step size (depending on the
horizon `T`), the recorded kinetic energy and particle flux of all frames between `T0` and `T` are at most `ε`. -/
theorem C151_transport_dies_out (hm : 0 < m) (hb : Std b m m)
    (ehw : hw = HW.init b dx0 P.N P.c1 P.nu k0 P.pb P.kappa P.zonal test) (hdx : P.dx ≠ 0) (hN : 1 ≤ P.N)
    (hc1 : 0 ≤ P.c1) (hnu : 0 ≤ P.nu) (hk : |P.kappa| < 2 * slowest P m m) (A B : Arr ℝ) (hA : A.h = m ∧ A.w = m)
    (hB : B.h = m ∧ B.w = m) (ε : ℝ) (hε : 0 < ε) :
    ∃ T0 : ℝ, 0 ≤ T0 ∧ ∀ T : ℝ, ∃ dt0 : ℝ, 0 < dt0 ∧
      ∀ (β : Type) (_ : Casts ℝ β) (_ : Inhabited β) (E : Env2 ℝ β) (a : Args2 ℝ) (σ : St ℝ β) (ns : ℕ),
        GoodArgs2 E b a σ ns → theHW2 b a = hw → a.dx = P.dx → a.density0 = .arr A → a.omega0 = .arr B →
        a.recording_start_time = 0 → 0 < a.end_time → a.step_size ≤ dt0 →
        E.propertyFn = propertyFncs → (∀ name ∈ a.properties, name ∈ propertyTable) →
        ∃ count, IsLeast {k : ℕ | a.end_time ≤ FloatOps.round4 ((k : ℝ) * a.step_size)} count ∧ ∀ fuel, count < fuel →
        (run2 E a fuel σ).1 ≠ .ok none ∧ ∃ f : H5 ℝ β, (run2 E a fuel σ).2.fs a.output_path = some f ∧
          ∃ v : String → ℕ → ℝ,
            (∀ name ∈ a.properties, ∃ rows, f.dsets ("fullres_" ++ name) = some (.rows .one rows) ∧ rows.length = count / a.snaps + 1 ∧
              ∀ j, j ≠ 0 → j ≤ count / a.snaps → rows[j]? = some (.num (Casts.f32 (v name j)))) ∧
            ∀ j : ℕ, ∀ t : ℝ, t = ((j * a.snaps : ℕ) : ℝ) * a.step_size → T0 ≤ t → t ≤ T →
              0 ≤ v "kinetic_energy" j ∧ v "kinetic_energy" j ≤ ε ∧ |v "gamma_n" j| ≤ ε := by
  obtain ⟨D, N0, V0, -, -, -, G⟩ := C151_recorded_decay hm hb ehw hdx hN hc1 hnu A B hA hB
  set r := 2 * slowest P m m - |P.kappa| with hr
  have r0 : 0 < r := by linarith
  have er : |P.kappa| - 2 * slowest P m m = -r := by rw [hr]; ring
  rw [er] at G
  generalize N0 + V0 - Spec.mean m m A.at' ^ 2 / 2 = F at G
  obtain ⟨T0, t0, hT0⟩ : ∃ T0 : ℝ, 0 ≤ T0 ∧ ∀ t, T0 ≤ t → Real.exp (-r * t) * F ≤ ε / 2 := by
    refine ⟨2 * |F| / (r * ε), by positivity, fun t ht => ?_⟩
    have t1 : 2 * |F| ≤ t * (r * ε) := (div_le_iff₀ (by positivity)).1 ht
    have e1 : r * t + 1 ≤ Real.exp (r * t) := Real.add_one_le_exp _
    rw [neg_mul, Real.exp_neg, inv_mul_le_iff₀ (Real.exp_pos _)]
    have := le_abs_self F
    nlinarith
  refine ⟨T0, t0, fun T => ?_⟩
  obtain ⟨C, d, hC, hd, H⟩ := G (max T 0) (le_max_right _ _)
  refine ⟨min d (min 1 (ε / (2 * (C + 1)))), by positivity,
    fun β _ _ E a σ ns hg eha ed eA eB hstart hendp hle hE hnames => ?_⟩
  obtain ⟨count, hcount, H⟩ := H β _ _ E a σ ns hg eha ed eA eB hstart hendp (hle.trans (min_le_left _ _)) hE hnames
  refine ⟨count, hcount, fun fuel hfuel => ?_⟩
  obtain ⟨r1, f, r2, v, r3, r4⟩ := H fuel hfuel
  refine ⟨r1, f, r2, v, r3, fun j t ht h1 h2 => ?_⟩
  obtain ⟨a1, a2, a3⟩ := r4 j t ht (h2.trans (le_max_left _ _))
  have hdt := hg.step.le
  have d1 : a.step_size ≤ 1 := hle.trans ((min_le_right _ _).trans (min_le_left _ _))
  have d2 : a.step_size ≤ ε / (2 * (C + 1)) := hle.trans ((min_le_right _ _).trans (min_le_right _ _))
  have d4 : a.step_size ^ 4 ≤ a.step_size := by
    have := pow_le_one₀ (n := 3) hdt d1
    nlinarith
  have d5 : C * a.step_size ^ 4 ≤ ε / 2 := by
    rw [le_div_iff₀ (by positivity)] at d2
    nlinarith [mul_le_mul_of_nonneg_left d4 hC]
  have d6 := hT0 _ h1
  exact ⟨a1, by linarith, by linarith⟩

/-- the wave of the other examples with viscosity 100, recorded up to `Te` -/
noncomputable def dampedArgs (m : ℕ) (dt Te : ℝ) : Args2 ℝ := (waveArgsN m dt 100).until Te

theorem dampedArgs_good (m : ℕ) (hm : 0 < m) (dt Te : ℝ) (hdt : 0 < dt) :
    GoodArgs2 propsEnv numpyBackend (dampedArgs m dt Te) ⟨fun _ => none, []⟩ m :=
  { waveArgsN_good m hm dt 100 hdt with }

/-- the particle flux of the damped wave in the file, every third step recorded, falls below one millionth -/
example (m : ℕ) (hm : 2 ≤ m) : ∃ T0 : ℝ, 0 ≤ T0 ∧ ∀ T : ℝ, T0 < T → ∃ dt0 : ℝ, 0 < dt0 ∧ ∀ dt, 0 < dt → dt ≤ dt0 → ∃ count,
    IsLeast {k : ℕ | T ≤ FloatOps.round4 ((k : ℝ) * dt)} count ∧ ∀ fuel, count < fuel → ∃ (f : H5 ℝ ℝ) (v : String → ℕ → ℝ),
      (run2 propsEnv (dampedArgs m dt T) fuel ⟨fun _ => none, []⟩).2.fs "run.h5" = some f ∧
      (∀ name ∈ propertyTable, ∃ rows, f.dsets ("fullres_" ++ name) = some (.rows .one rows) ∧ rows.length = count / 3 + 1 ∧
        ∀ j, j ≠ 0 → j ≤ count / 3 → rows[j]? = some (.num (Casts.f32 (v name j)))) ∧
      ∀ j : ℕ, T0 ≤ ((j * 3 : ℕ) : ℝ) * dt → ((j * 3 : ℕ) : ℝ) * dt ≤ T →
        v "kinetic_energy" j ≤ 1 / 1000000 ∧ |v "gamma_n" j| ≤ 1 / 1000000 := by
  have m0 : 0 < m := by omega
  have mr : (2 : ℝ) ≤ m := by exact_mod_cast hm
  have hp := Real.pi_pos
  have hp4 := Real.pi_lt_four
  have hgood := dampedArgs_good m m0 1 1 one_pos
  obtain ⟨A, hA, a1, a2⟩ := hgood.density
  obtain ⟨B, hB, b1, b2⟩ := hgood.omega
  obtain ⟨T0, t0, H⟩ := C151_transport_dies_out (m := m) (b := numpyBackend)
    (P := ⟨2 * Real.pi / m, 1, 3, 100, (dampedArgs m 1 1).poisson_bracket_coeff, 40 / 3, false⟩)
    (hw := theHW2 numpyBackend (dampedArgs m 1 1)) m0 (.inl rfl) rfl (by positivity) le_rfl (by norm_num) (by norm_num) (by
      have a := Real.mul_le_sin (x := Real.pi / m) (by positivity) (by
        rw [div_le_div_iff₀ (by positivity) two_pos]; nlinarith)
      have e : 2 / Real.pi * (Real.pi / m) = 2 / m := by field_simp
      rw [e] at a
      have b : (2 / (m : ℝ)) ^ 2 ≤ Real.sin (Real.pi / m) ^ 2 := pow_le_pow_left₀ (by positivity) a 2
      unfold slowest
      simp only [max_self, pow_one]
      have c : (1 : ℝ) / 4 ≤ 4 * Real.sin (Real.pi / m) ^ 2 / (2 * Real.pi / m) ^ 2 := by
        rw [le_div_iff₀ (by positivity)]
        have : (2 * Real.pi / m) ^ 2 = (2 / (m : ℝ)) ^ 2 * Real.pi ^ 2 := by ring
        rw [this]
        have : Real.pi ^ 2 ≤ 16 := by nlinarith
        nlinarith [sq_nonneg (2 / (m : ℝ))]
      rw [abs_of_pos (by norm_num)]
      linarith) A B ⟨a1, a2⟩ ⟨b1, b2⟩ (1 / 1000000) (by norm_num)
  refine ⟨T0, t0, fun T hT => ?_⟩
  obtain ⟨dt0, hdt0, H⟩ := H T
  refine ⟨dt0, hdt0, fun dt hdt hle => ?_⟩
  obtain ⟨count, hcount, H⟩ := H ℝ _ inferInstance propsEnv (dampedArgs m dt T) ⟨fun _ => none, []⟩ m (dampedArgs_good m m0 dt T hdt) rfl
    rfl hA hB rfl (t0.trans_lt hT) hle rfl (fun _ h => h)
  refine ⟨count, hcount, fun fuel hf => ?_⟩
  obtain ⟨-, f, f1, v, h1, h2⟩ := H fuel hf
  exact ⟨f, v, f1, h1, fun j hj1 hj2 => (h2 j _ rfl hj1 hj2).2⟩

end Verif.Props
