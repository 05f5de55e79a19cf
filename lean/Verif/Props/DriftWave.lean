import Verif.Lemmas.DriftWave
import Verif.Props.Modes

/-!
# Property theorems C99: the drift-wave instability

`Unstable`, `Damped` (`Spec/DriftWave.lean`) compare the drive of a mode with its damping.
-/

set_option linter.unusedSectionVars false

namespace Verif.Props

open Arr NS Spec Matrix Complex Filter

variable {h w : ℕ} {P : Params} {hw : HW} {b : Backend} {dx0 k0 : ℝ} {test : Bool}

/-- **C99, threshold.** The linear equations have an exponentially growing wave of mode `(k, l)` exactly if
`(a + 2d)² d (a + d) < b²`, with the damping `a` by the coupling, the damping `d` by the hyperdiffusion and the
drive `b` by the background gradient. -/
theorem C99_growing_mode_iff (hc : 0 ≤ P.c1) (hn : 0 ≤ P.nu) (k l : ℕ) :
    (∃ (g : ℂ) (v : Fin 2 → ℂ), v ≠ 0 ∧ modeMat P h w k l *ᵥ v = g • v ∧ 0 < g.re) ↔ Unstable P h w k l := by
  constructor
  · rintro ⟨g, v, hv, e, hg⟩
    exact eigen_unstable hc hn hv e hg
  · intro hu
    obtain ⟨g, v, v0, -, e, hg⟩ := unstable_eigen hc hn hu
    exact ⟨g, v, fun hv => v0 (by rw [hv]; rfl), e, hg⟩

/-- **C99, the instability.** Without hyperdiffusion every mode that varies along y (and is not the shortest
wave of an even grid) is unstable, as soon as there are a background gradient and a coupling. -/
theorem C99_drift_waves_unstable (hc : 0 < P.c1) (hnu : P.nu = 0) (hκ : P.kappa ≠ 0) (hdx : P.dx ≠ 0) {k l : ℕ}
    (h0 : 0 < k) (hk : k < h) (h2 : 2 * k ≠ h) : Unstable P h w k l := by
  refine unstable_of_drive hnu ?_
  unfold driveSym
  have hh : (0 : ℝ) < h := by exact_mod_cast (by omega : 0 < h)
  have s0 : Real.sin (2 * Real.pi * k / h) ≠ 0 := by
    intro e
    obtain ⟨n, hn⟩ := Real.sin_eq_zero_iff.1 e
    have e1 : (n : ℝ) * h = 2 * k := by
      have := Real.pi_ne_zero
      field_simp at hn
      linarith
    have e2 : n * (h : ℤ) = 2 * k := by exact_mod_cast e1
    have n1 : 0 < n := by
      by_contra hc
      have : n * (h : ℤ) ≤ 0 := mul_nonpos_of_nonpos_of_nonneg (by omega) (by omega)
      omega
    have n2 : n < 2 := by
      by_contra hc
      have : 2 * (h : ℤ) ≤ n * h := mul_le_mul_of_nonneg_right (by omega) (by omega)
      omega
    have : n = 1 := by omega
    subst this
    omega
  have c0 : couSym P k ≠ 0 := by
    unfold couSym
    rw [if_neg (by rintro ⟨-, e⟩; omega)]
    exact hc.ne'
  have p0 : potSym h w P.dx k l ≠ 0 := by
    unfold potSym
    rw [if_neg (by rintro ⟨e, -⟩; omega)]
    have wk : wave h P.dx k ≠ 0 := by
      unfold wave
      have : (if 2 * k < h then (k : ℝ) else (k : ℝ) - h) ≠ 0 := by
        split
        · exact_mod_cast h0.ne'
        · have : (k : ℝ) < h := by exact_mod_cast hk
          linarith
      have := Real.pi_ne_zero
      positivity
    have : 0 < wave h P.dx k ^ 2 + wave w P.dx l ^ 2 := by positivity
    exact div_ne_zero (by norm_num) this.ne'
  exact mul_ne_zero (mul_ne_zero (mul_ne_zero hκ (div_ne_zero s0 hdx)) c0) (neg_ne_zero.2 p0)

theorem evolve_replicate (M : Matrix (Fin 2) (Fin 2) ℂ) (a : Step) (n : ℕ) (v : Fin 2 → ℂ) :
    evolve M (List.replicate n a) v = (amplify a M ^ n) *ᵥ v := by
  induction n generalizing v with
  | zero => simp [evolve]
  | succ n ih =>
    have : evolve M (List.replicate (n + 1) a) v = evolve M (List.replicate n a) (amplify a M *ᵥ v) := rfl
    rw [this, ih, mulVec_mulVec, ← pow_succ]

theorem pow_mulVec {A : Matrix (Fin 2) (Fin 2) ℂ} {v : Fin 2 → ℂ} {q : ℂ} (e : A *ᵥ v = q • v) (n : ℕ) :
    (A ^ n) *ᵥ v = (q ^ n) • v := by
  induction n with
  | zero => simp
  | succ n ih => rw [pow_succ, ← mulVec_mulVec, e, mulVec_smul, ih, smul_smul, pow_succ, mul_comm]

/-- factor of one step -/
noncomputable def stepFactor : Step → ℂ → ℂ
  | .rk4 dt, g => tay (dt * g)
  | .euler dt, g => 1 + dt * g

theorem evolve_eigen {M : Matrix (Fin 2) (Fin 2) ℂ} {v : Fin 2 → ℂ} {g : ℂ} (e : M *ᵥ v = g • v) (a : Step) (n : ℕ) :
    evolve M (List.replicate n a) v = (stepFactor a g ^ n) • v := by
  have := amplify_eigen a e
  rw [evolve_replicate]
  refine pow_mulVec ?_ n
  cases a <;> exact this

/-- **C99, growth in the program.** For an unstable mode `(k, l)` there are a rate `γ > 0` and a largest time step
such that there are arbitrarily small waves of that mode (consistent states) which `n` calls of `rk4_step` or
`euler_step` amplify at least by `(1 + γ dt) ^ n`, for every `n` and whatever the coefficient of the brackets:
such a wave never saturates. -/
theorem C99_unstable_wave_grows (h0 : 0 < h) (w0 : 0 < w) (hb : Std b h w)
    (ehw : hw = HW.init b dx0 P.N P.c1 P.nu k0 P.pb P.kappa P.zonal test) (hc : 0 ≤ P.c1) (hn : 0 ≤ P.nu) {k l : ℕ}
    (hk : k < h) (hl : l < w) (hu : Unstable P h w k l) :
    ∃ γ dt0 : ℝ, 0 < γ ∧ 0 < dt0 ∧ ∀ δ : ℝ, 0 < δ → ∃ s : NS Val, IsState test h w s ∧ Consistent hw P.dx s ∧
      IsWave h w k l (arrOf s "density") ∧ IsWave h w k l (arrOf s "omega") ∧
      (∀ i j, i < h → j < w → |(arrOf s "density").at' i j| ≤ δ ∧ |(arrOf s "omega").at' i j| ≤ δ) ∧
      ∃ η : ℝ, 0 < η ∧ ∀ dt, 0 < dt → dt ≤ dt0 → ∀ a, a = Step.rk4 dt ∨ a = Step.euler dt → ∀ n c,
        ∃ s' c', history hw P.dx (List.replicate n a) s c = .ok (s', c') ∧
          ∃ i j, i < h ∧ j < w ∧ η * (1 + γ * dt) ^ n ≤ |(arrOf s' "density").at' i j| := by
  have : NeZero h := ⟨h0.ne'⟩
  have : NeZero w := ⟨w0.ne'⟩
  obtain ⟨g, v, v0, v1, ev, hg⟩ := unstable_eigen hc hn hu
  -- an unstable mode is not its own mirror image
  have hkk : (k : ZMod h) ≠ -(k : ZMod h) := by
    intro e
    have e2 : ((2 * k : ℕ) : ZMod h) = 0 := by push_cast; linear_combination e
    rw [ZMod.natCast_eq_zero_iff] at e2
    obtain ⟨m, hm⟩ := e2
    have s0 : Real.sin (2 * Real.pi * k / h) = 0 := by
      rw [Real.sin_eq_zero_iff]
      refine ⟨m, ?_⟩
      have hh : (h : ℝ) ≠ 0 := by exact_mod_cast h0.ne'
      have : (2 : ℝ) * k = h * m := by exact_mod_cast hm
      rw [mul_assoc, mul_left_comm, this, eq_div_iff hh]
      push_cast
      ring
    unfold Unstable at hu
    have d0 : driveSym P h w k l = 0 := by unfold driveSym; rw [s0]; ring
    have h1 := dissSym_nonneg (h := h) (w := w) (k := k) (l := l) hn
    have h2 := dampSym_nonneg (h := h) (w := w) (k := k) (l := l) hc
    rw [d0] at hu
    have : 0 ≤ (dampSym P h w k l + 2 * dissSym P h w k l) ^ 2 *
      (dissSym P h w k l * (dampSym P h w k l + dissSym P h w k l)) := by positivity
    norm_num at hu
    linarith
  have g0 : 0 < ‖g‖ := lt_of_lt_of_le hg (Complex.re_le_norm g)
  refine ⟨g.re / 2, min (1 / ‖g‖) (g.re / 2 / ‖g‖ ^ 2), by linarith, by positivity, fun δ hδ => ?_⟩
  set ν : ℝ := ‖v 0‖ + ‖v 1‖ with hν
  have ν0 : 0 < ν := by
    have := norm_pos_iff.2 v0
    have := norm_nonneg (v 1)
    linarith
  set r : ℝ := δ / ν with hr
  have r0 : 0 < r := by positivity
  set t : Sta h w := (oneWave (k : ZMod h) (l : ZMod w) 0 (r * v 0), oneWave (k : ZMod h) (l : ZMod w) 0 (r * v 1),
    phiF P.dx (oneWave (k : ZMod h) (l : ZMod w) 0 (r * v 1)), 0, 0, 0) with ht
  set ks : List String := ["density", "omega", "phi", "age"]
  have hks : GoodKeys ks test := by
    cases test <;> constructor <;> simp [ks, gradKeys]
  have hnd : ks.Nodup := by decide
  have hb' : hw.backend.Good h w := by rw [ehw]; exact hb.good
  have hcons : Consistent hw P.dx (NS.mk ks (st t)) := by
    rw [consistent_mk hw hb' P.dx hks]
  have hwv : IsWave h w k l (arrOf (NS.mk ks (st t)) "density") ∧ IsWave h w k l (arrOf (NS.mk ks (st t)) "omega") := by
    rw [arrOf_density hks, arrOf_omega hks, isWave_iff, isWave_iff]
    exact ⟨supp_oneWave _ _ _ _, supp_oneWave _ _ _ _⟩
  have nr : ∀ i, ‖(r : ℂ) * v i‖ = r * ‖v i‖ := fun i => by
    rw [norm_mul, Complex.norm_real, Real.norm_of_nonneg r0.le]
  have hle : ∀ i, ‖v i‖ ≤ ν → ‖(r : ℂ) * v i‖ ≤ δ := fun i hi => by
    rw [nr, hr, div_mul_eq_mul_div, div_le_iff₀ ν0]
    exact mul_le_mul_of_nonneg_left hi hδ.le
  refine ⟨NS.mk ks (st t), isState_mk hks hnd t, hcons, hwv.1, hwv.2, ?_, r * ‖v 0‖ / 2, ?_, ?_⟩
  · intro i j hi hj
    rw [arrOf_density hks, arrOf_omega hks, ofField_at' _ hi hj, ofField_at' _ hi hj]
    exact ⟨(abs_oneWave_le _ _ _ _ _).trans (hle 0 (by rw [hν]; linarith [norm_nonneg (v 1)])),
      (abs_oneWave_le _ _ _ _ _).trans (hle 1 (by rw [hν]; linarith [norm_nonneg (v 0)]))⟩
  · have := norm_pos_iff.2 v0
    positivity
  intro dt hd0 hd1 a ha n c
  obtain ⟨s', c', e1, -, e2⟩ := C88_simple_states_are_linear h0 w0 hb ehw (NS.mk ks (st t)) (isState_mk hks hnd t) hcons
    (.inl ⟨k, l, hwv⟩) (List.replicate n a) c
  refine ⟨s', c', e1, ?_⟩
  have hs' : IsState test h w s' := by
    have et : hw.TEST_CONSERVATION = test := by rw [ehw]; rfl
    have := history_eval hw P.dx hb' (et ▸ hks) (List.replicate n a) t c
    rw [e1] at this
    injection this with this
    injection this with this _
    rw [this]
    exact isState_mk (goodKeys_hist _ hks) (nodup_hist _ hnd) _
  obtain ⟨ks', t', hk', -, rfl⟩ := hs'.exists_mk
  have e3 := e2 k l hk hl
  rw [amps_mk hk', amps_mk hks] at e3
  have e4 : ampl (k : ZMod h) (l : ZMod w) (prj t) = ((h : ℂ) * w / 2 * r) • v := by
    rw [ampl_apply]
    funext i
    fin_cases i
    · change D (cx (oneWave (k : ZMod h) (l : ZMod w) 0 (r * v 0))) k l = _
      rw [D_oneWave hkk]
      change _ = (h : ℂ) * w / 2 * r * v 0
      ring
    · change D (cx (oneWave (k : ZMod h) (l : ZMod w) 0 (r * v 1))) k l = _
      rw [D_oneWave hkk]
      change _ = (h : ℂ) * w / 2 * r * v 1
      ring
  have ev' : modeMat P h w k l *ᵥ (((h : ℂ) * w / 2 * r) • v) = g • (((h : ℂ) * w / 2 * r) • v) := by
    rw [mulVec_smul, ev, smul_comm]
  rw [e4, evolve_eigen ev'] at e3
  have e5 := congrFun e3 0
  rw [ampl_apply] at e5
  change D (cx t'.1) (k : ZMod h) (l : ZMod w) = _ at e5
  simp only [Pi.smul_apply, smul_eq_mul] at e5
  have hfac : 1 + g.re / 2 * dt ≤ ‖stepFactor a g‖ := by
    have d1 : dt * ‖g‖ ≤ 1 := by
      have := hd1.trans (min_le_left _ _)
      rwa [le_div_iff₀ g0] at this
    have d2 : dt * ‖g‖ ^ 2 ≤ g.re / 2 := by
      have := hd1.trans (min_le_right _ _)
      rwa [le_div_iff₀ (by positivity)] at this
    rcases ha with rfl | rfl
    · have := grow_rk4 hd0.le d1 d2
      rw [mul_comm] at this
      exact this
    · have := grow_euler (g := g) (dt := dt)
      unfold stepFactor
      nlinarith
  obtain ⟨i, j, hij⟩ := exists_large t'.1 (k : ZMod h) (l : ZMod w)
  refine ⟨i.val, j.val, ZMod.val_lt i, ZMod.val_lt j, ?_⟩
  rw [arrOf_density hk', ofField_at' _ (ZMod.val_lt i) (ZMod.val_lt j), ZMod.natCast_zmod_val, ZMod.natCast_zmod_val]
  rw [e5, norm_mul, norm_pow, norm_mul, norm_mul, Complex.norm_real, Real.norm_of_nonneg r0.le] at hij
  have nhw : ‖((h : ℂ) * w / 2)‖ = (h : ℝ) * w / 2 := by simp
  rw [nhw] at hij
  have hw0 : (0 : ℝ) < h * w := by
    have : (0 : ℝ) < h := by exact_mod_cast h0
    have : (0 : ℝ) < w := by exact_mod_cast w0
    positivity
  have hp : (1 + g.re / 2 * dt) ^ n ≤ ‖stepFactor a g‖ ^ n := pow_le_pow_left₀ (by positivity) hfac n
  have h3 : (h * w : ℝ) * (‖stepFactor a g‖ ^ n * (r * ‖v 0‖ / 2)) ≤ (h * w : ℝ) * |t'.1 i j| := by
    refine le_trans (le_of_eq ?_) hij
    ring
  have h4 := le_of_mul_le_mul_left h3 hw0
  refine le_trans ?_ h4
  rw [mul_comm]
  exact mul_le_mul_of_nonneg_right hp (by positivity)

/-- **C99, decay in the program.** A mode whose damping exceeds its drive decays: for every small enough `dt` its
amplitudes in density and vorticity tend to zero over `n` calls of `rk4_step` or `euler_step` without brackets, from
every consistent state. -/
theorem C99_damped_mode_decays (h0 : 0 < h) (w0 : 0 < w) (hb : Std b h w)
    (ehw : hw = HW.init b dx0 P.N P.c1 P.nu k0 P.pb P.kappa P.zonal test) (hpb : P.pb = 0) (hn : 0 ≤ P.nu) {k l : ℕ}
    (hk : k < h) (hl : l < w) (hc : 0 < couSym P k) (hd : Damped P h w k l) :
    ∃ dt0 : ℝ, 0 < dt0 ∧ ∀ dt, 0 < dt → dt ≤ dt0 → ∀ a, a = Step.rk4 dt ∨ a = Step.euler dt →
      ∀ s : NS Val, IsState test h w s → Consistent hw P.dx s → ∀ ε : ℝ, 0 < ε → ∃ n0, ∀ n, n0 ≤ n → ∀ c,
        ∃ s' c', history hw P.dx (List.replicate n a) s c = .ok (s', c') ∧
          ‖coef h w (arrOf s' "density").at' k l‖ ≤ ε ∧ ‖coef h w (arrOf s' "omega").at' k l‖ ≤ ε := by
  obtain ⟨r1, r2, n1, n2, hr⟩ := damped_eigen hc hn hd
  have small : ∀ r : ℂ, r.re < 0 → ∃ d : ℝ, 0 < d ∧ ∀ dt, 0 < dt → dt ≤ d → ∀ a, a = Step.rk4 dt ∨ a = Step.euler dt →
      ‖stepFactor a r‖ < 1 := by
    intro r hr
    have g0 : 0 < ‖r‖ := by
      rw [norm_pos_iff]
      rintro rfl
      simp at hr
    refine ⟨min (1 / ‖r‖) (-r.re / 4 / ‖r‖ ^ 2), lt_min (by positivity) (div_pos (by linarith) (by positivity)),
      fun dt hd0 hd1 a ha => ?_⟩
    have d1 : dt * ‖r‖ ≤ 1 := by
      have := hd1.trans (min_le_left _ _)
      rwa [le_div_iff₀ g0] at this
    have d2 : dt * ‖r‖ ^ 2 ≤ -r.re / 4 := by
      have := hd1.trans (min_le_right _ _)
      rwa [le_div_iff₀ (by positivity)] at this
    have r1 := (abs_le.1 (Complex.abs_re_le_norm r)).1
    rcases ha with rfl | rfl
    · refine (decay_rk4 hd0.le d1 d2).trans_lt ?_
      nlinarith
    · refine (decay_euler (by linarith) (by nlinarith) hd0.le).trans_lt ?_
      nlinarith
  obtain ⟨d1, p1, q1⟩ := small r1 n1
  obtain ⟨d2, p2, q2⟩ := small r2 n2
  refine ⟨min d1 d2, lt_min p1 p2, fun dt hd0 hd1 a ha s hs hcs ε hε => ?_⟩
  obtain ⟨v1, v2, ev, e1, e2⟩ := hr (amps h w s k l)
  have t1 : Tendsto (fun n => (stepFactor a r1 ^ n) • v1 + (stepFactor a r2 ^ n) • v2) atTop
      (nhds ((0 : ℂ) • v1 + (0 : ℂ) • v2)) :=
    ((tendsto_pow_atTop_nhds_zero_of_norm_lt_one (q1 dt hd0 (hd1.trans (min_le_left _ _)) a ha)).smul_const v1).add
      ((tendsto_pow_atTop_nhds_zero_of_norm_lt_one (q2 dt hd0 (hd1.trans (min_le_right _ _)) a ha)).smul_const v2)
  rw [zero_smul, zero_smul, add_zero] at t1
  obtain ⟨n0, H⟩ := (Metric.tendsto_atTop.1 t1) ε hε
  refine ⟨n0, fun n hn0 c => ?_⟩
  obtain ⟨s', c', e3, e4⟩ := C88_modes_evolve_separately h0 w0 hb ehw hpb s hs hcs (List.replicate n a) c
  have e5 := e4 k l hk hl
  rw [ev, evolve_replicate, mulVec_add, ← evolve_replicate, ← evolve_replicate, evolve_eigen e1, evolve_eigen e2] at e5
  have e6 := H n hn0
  rw [dist_zero_right, ← e5] at e6
  have b := fun i => (norm_le_pi_norm (amps h w s' k l) i).trans e6.le
  exact ⟨s', c', e3, b 0, b 1⟩

/-! ### non-vacuity -/

/-- the program with its default coefficients for a turbulent case, but no hyperdiffusion: mode (1, 3) of an 8 × 6 grid -/
example : ∃ γ dt0 : ℝ, 0 < γ ∧ 0 < dt0 ∧ ∀ δ : ℝ, 0 < δ → ∃ s : NS Val, IsState true 8 6 s ∧
    (∀ i j, i < 8 → j < 6 → |(arrOf s "density").at' i j| ≤ δ ∧ |(arrOf s "omega").at' i j| ≤ δ) ∧
    ∃ η : ℝ, 0 < η ∧ ∀ n, ∃ s' c',
      history (HW.init numpyBackend 1 3 1 0 1 1 1 false true) (1 / 10) (List.replicate n (.rk4 dt0)) s {} = .ok (s', c') ∧
      ∃ i j, i < 8 ∧ j < 6 ∧ η * (1 + γ * dt0) ^ n ≤ |(arrOf s' "density").at' i j| := by
  obtain ⟨γ, d, h1, h2, H⟩ := C99_unstable_wave_grows (h := 8) (w := 6) (P := ⟨1 / 10, 3, 1, 0, 1, 1, false⟩) (k := 1)
    (l := 3) (b := numpyBackend) (dx0 := 1) (k0 := 1) (test := true) (by decide) (by decide) (.inl rfl) rfl (by norm_num)
    (by norm_num) (by decide) (by decide)
    (C99_drift_waves_unstable (by norm_num) rfl (by norm_num) (by norm_num) (by decide) (by decide) (by decide))
  refine ⟨γ, d, h1, h2, fun δ hδ => ?_⟩
  obtain ⟨s, hs, -, -, -, hle, η, hη, K⟩ := H δ hδ
  exact ⟨s, hs, hle, η, hη, fun n => K d h2 le_rfl _ (.inl rfl) n {}⟩

/-- mode (1, 0) of a 4 × 6 grid with drive and coupling is damped by diffusion with `nu = 1` -/
example : 0 < couSym ⟨1, 1, 1, 1, 0, 1, false⟩ 1 ∧ Damped ⟨1, 1, 1, 1, 0, 1, false⟩ 4 6 1 0 ∧
    driveSym ⟨1, 1, 1, 1, 0, 1, false⟩ 4 6 1 0 ≠ 0 := by
  have c1 : couSym ⟨1, 1, 1, 1, 0, 1, false⟩ 1 = 1 := by simp [couSym]
  have d2 : dissSym ⟨1, 1, 1, 1, 0, 1, false⟩ 4 6 1 0 = 2 := by
    unfold dissSym hypSym lapSym
    have : Real.pi * (1 : ℕ) / (4 : ℕ) = Real.pi / 4 := by push_cast; ring
    rw [this, Real.sin_pi_div_four]
    norm_num [div_pow]
  have p : potSym 4 6 1 1 0 = -(4 / Real.pi ^ 2) := by
    unfold potSym wave
    have := Real.pi_ne_zero
    norm_num
    field_simp
    norm_num
  have q1 : 4 / Real.pi ^ 2 ≤ 1 := by
    rw [div_le_one (by positivity)]
    nlinarith [Real.two_le_pi]
  have q0 : 0 < 4 / Real.pi ^ 2 := by positivity
  have b : driveSym ⟨1, 1, 1, 1, 0, 1, false⟩ 4 6 1 0 = 4 / Real.pi ^ 2 := by
    unfold driveSym
    rw [c1, p]
    have : 2 * Real.pi * (1 : ℕ) / (4 : ℕ) = Real.pi / 2 := by push_cast; ring
    rw [this, Real.sin_pi_div_two]
    norm_num
  refine ⟨by rw [c1]; norm_num, ?_, by rw [b]; positivity⟩
  unfold Damped dampSym
  rw [c1, d2, b, p]
  generalize 4 / Real.pi ^ 2 = q at q0 q1
  nlinarith [mul_pos q0 q0]

example := C99_growing_mode_iff (P := ⟨1 / 10, 3, 1, 0, 1, 1, false⟩) (h := 8) (w := 6) (by norm_num) (by norm_num) 1 3

end Verif.Props
