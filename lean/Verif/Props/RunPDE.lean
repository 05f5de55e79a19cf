import Verif.Props.PDEConvergence
import Verif.Props.RunPhysics

/-!
# Property theorem C87: what a file of `run` contains, compared with the equations

End to end: arguments of `run`, the file it writes, and the solution of the
partial differential equations.
-/

set_option linter.unusedSectionVars false

namespace Verif.Props

open H5IO H5 Run Arr Spec Set

attribute [local instance] exactOps

/-- the field of the solution a dataset is about -/
def fieldOf (n w p : ℝ → ℕ → ℕ → ℝ → ℝ → ℝ) (k : String) : ℝ → ℝ → ℝ → ℝ := fun t =>
  if k = "density" then n t 0 0 else if k = "omega" then w t 0 0 else p t 0 0

/-- the arguments of `run` describe the equations with the coefficients of `P` on an `m × m` grid of the
box `[0, L]²`, start from the functions `F` (density) and `G` (vorticity), record every field in full
resolution from the start, and end at time `T` or earlier -/
structure RunPoses (a : Args ℝ) (P : Params) (L T : ℝ) (F G : ℝ → ℝ → ℝ) (m : ℕ) : Prop where
  grid : a.grid_pts = m
  spacing : m * a.dx = L
  order : a.N = P.N
  c1 : a.c1 = P.c1
  nu : a.nu = P.nu
  bracket : a.poisson_bracket_coeff = P.pb
  kappa : a.kappa_coeff = P.kappa
  zonal : P.zonal = false
  density : ∃ A : Arr ℝ, a.density0 = .arr A ∧ Sampled m m a.dx F A
  omega : ∃ A : Arr ℝ, a.omega0 = .arr A ∧ Sampled m m a.dx G A
  full : a.downsample_factor = 1
  start : a.recording_start_time = 0
  props : a.properties = []
  endpos : 0 ≤ a.end_time
  endle : a.end_time ≤ T

theorem sampled_ofField {h w : ℕ} [NeZero h] [NeZero w] {dx : ℝ} {F : ℝ → ℝ → ℝ} {A : Arr ℝ}
    (H : Sampled h w dx F A) (e1 : A.h = h) (e2 : A.w = w) : A = ofField (samp h w dx F) := by
  rw [← sampled_eq H]; exact (ofField_toFld e1 e2).symm

/-- **C87.** Let `n, w, p` be a smooth solution of the Hasegawa–Wakatani equations on the box `[0, L]²` and
the interval `[0, T]`.  There is one constant `C` such that for every grid size there is a largest step size
with: every call of `run` to a new file whose arguments describe these equations, started from the samples
of the solution at time 0 (and any potential), with at most that step size, returns normally, and frame `j ≥ 1`
of the file is stamped with the time `t = j * snaps * step_size` and holds (up to the rounding to `float32`)
arrays within `C dx²` of `n`, `w` and `p` at time `t`, in root mean square. -/
theorem C87_file_approximates_pde (P : Params) (hnu : 0 ≤ P.nu) {L T B : ℝ} {r : ℕ} (hT : 0 ≤ T) (hL : 0 < L)
    (hr : 4 ≤ r) (hr' : 2 * P.N + 2 ≤ r) {nf wf pf : ℝ → ℕ → ℕ → ℝ → ℝ → ℝ}
    (H : HWSolution P L L T r B nf wf pf) :
    ∃ C, 0 ≤ C ∧ ∀ (m : ℕ) (b : Backend) (k0 : ℝ), 0 < m → Std b m m →
      ∃ dt0, 0 < dt0 ∧ ∀ (β : Type) (_ : Casts ℝ β) (_ : Inhabited β) (E : Env ℝ β) (a : Args ℝ) (σ : St ℝ β),
        GoodArgs E b a σ m → RunPoses a P L T (nf 0 0 0) (wf 0 0 0) m → a.k0 = k0 → a.step_size ≤ dt0 →
        (run E a σ).1 = .ok () ∧ ∃ (f : H5 ℝ β) (count : ℕ),
          count = ⌊a.end_time / a.step_size⌋.toNat / a.snaps + 1 ∧
          (run E a σ).2.fs a.output_path = some f ∧
          f.dsets "time" = some (.rows .one ((List.range count).map
            (fun j => .num (Casts.f32 ((j * a.snaps : ℕ) * a.step_size))))) ∧
          ∀ k ∈ ["density", "omega", "phi"], ∃ rows, f.dsets k = some (.rows (.grid m m) rows) ∧
            rows.length = count ∧
            ∀ j (hj : j < rows.length), j ≠ 0 → ∃ W : Arr ℝ, rows[j] = .arr (W.map Casts.f32) ∧
              rms m m (gridErr a.dx W (fieldOf nf wf pf k ((j * a.snaps : ℕ) * a.step_size))) ≤ C * a.dx ^ 2 := by
  obtain ⟨C, hC, HC⟩ := C86_converges_to_pde P hnu hT hr hr' H
  refine ⟨C, hC, fun m b k0 hm hb => ?_⟩
  have : NeZero m := ⟨hm.ne'⟩
  have hm' : (0 : ℝ) < m := by exact_mod_cast hm
  set dx := L / m with hdx
  have hdx0 : 0 < dx := by positivity
  have hmd : m * dx = L := by rw [hdx]; field_simp
  set hw := HW.init b dx P.N P.c1 P.nu k0 P.pb P.kappa P.zonal true with ehw
  set A0 : Arr ℝ := ofField (samp m m dx (nf 0 0 0))
  set B0 : Arr ℝ := ofField (samp m m dx (wf 0 0 0))
  set C0 : Arr ℝ := ofField (phiF dx (samp m m dx (wf 0 0 0)))
  have hphi : ∀ c, ∃ c', hw.get_phi B0 dx c = .ok (C0, c') := fun c =>
    ⟨_, get_phi_ofField hw (Std.good hb) (samp m m dx (wf 0 0 0)) dx c⟩
  have hs0 : IsState true m m (startState A0 B0 C0) := startState_isState true rfl rfl rfl rfl rfl rfl
  obtain ⟨dt0, hdt0, hst⟩ := HC m m dx hm hm hdx0 hmd hmd b dx k0 true hb hw ehw (startState A0 B0 C0) hs0
    (fun i j hi hj => samp_at hi hj) (fun i j hi hj => samp_at hi hj)
  refine ⟨dt0, hdt0, fun β _ _ E a σ hg hd hk0 hle => ?_⟩
  have ed : a.dx = dx := by
    have := hd.spacing
    rw [hdx]; field_simp; linarith
  have ehw' : theHW b a = hw := by
    unfold theHW
    rw [ehw, ed, hd.order, hd.c1, hd.nu, hk0, hd.bracket, hd.kappa, hd.zonal]
  obtain ⟨g1, f, A, B', C', S, g2, hA, hB, hC', hS, g3, g4⟩ := C44_frames_physics hg hd.endpos hd.start hd.props
  have eA : A = A0 := by
    obtain ⟨A1, q1, q2⟩ := hd.density
    obtain ⟨A2, q3, q4, q5⟩ := hg.density
    rw [hA] at q1 q3
    injection q1 with q1; injection q3 with q3
    rw [← q1, ed] at q2
    rw [← q3, hd.grid] at q4 q5
    exact sampled_ofField q2 q4 q5
  have eB : B' = B0 := by
    obtain ⟨A1, q1, q2⟩ := hd.omega
    obtain ⟨A2, q3, q4, q5⟩ := hg.omega
    rw [hB] at q1 q3
    injection q1 with q1; injection q3 with q3
    rw [← q1, ed] at q2
    rw [← q3, hd.grid] at q4 q5
    exact sampled_ofField q2 q4 q5
  have eC : C' = C0 := by
    obtain ⟨c1, q1⟩ := hC' {}
    obtain ⟨c2, q2⟩ := hphi {}
    rw [ehw', eB, ed, q2] at q1
    injection q1 with q1
    injection q1 with q1 _
    exact q1.symm
  rw [ehw', eA, eB, eC, ed] at hS
  refine ⟨g1, f, _, rfl, g2, g3, fun k hk => ?_⟩
  obtain ⟨rows, r1, r2, r3⟩ := g4 k hk
  refine ⟨rows, r1, r2, fun j hj hj0 => ?_⟩
  obtain ⟨V, W, v1, v2, v3⟩ := r3 j hj hj0
  have eVW : W = V := by
    have hf : downsampling a.downsample_factor = false := by
      rw [hd.full]; simp [downsampling, FloatOps.eq, FloatOps.ofInt]
    unfold recordedValue at v2
    rw [hf] at v2
    simp only [Bool.false_eq_true, if_false] at v2
    injection v2 with v2
    injection v2 with v2
    exact v2.symm
  refine ⟨W, v3, ?_⟩
  have hsn := hg.snaps
  have hjs : 0 < j * a.snaps := Nat.mul_pos (Nat.pos_of_ne_zero hj0) hsn
  have htime : ((j * a.snaps : ℕ) : ℝ) * a.step_size ≤ T := by
    refine le_trans ?_ hd.endle
    have hfl : j * a.snaps ≤ ⌊a.end_time / a.step_size⌋.toNat := by
      rw [r2] at hj
      have : j ≤ ⌊a.end_time / a.step_size⌋.toNat / a.snaps := by omega
      exact (Nat.mul_le_mul_right _ this).trans (Nat.div_mul_le_self _ _)
    have hq : 0 ≤ a.end_time / a.step_size := div_nonneg hd.endpos hg.step.le
    have h1 : (((j * a.snaps : ℕ) : ℤ) : ℝ) ≤ a.end_time / a.step_size := by
      refine le_trans ?_ (Int.floor_le _)
      have : ((j * a.snaps : ℕ) : ℤ) ≤ ⌊a.end_time / a.step_size⌋ := by
        have := Int.toNat_of_nonneg (Int.floor_nonneg.2 hq)
        omega
      exact_mod_cast this
    rw [le_div_iff₀ hg.step] at h1
    exact_mod_cast h1
  obtain ⟨s', c', e, e1, e2, e3⟩ := hst a.step_size hg.step.le hle (j * a.snaps) htime .rk4 (.inl rfl) {}
  obtain ⟨c2, e'⟩ := hS (j * a.snaps) {}
  rw [e] at e'
  injection e' with e'
  injection e' with e' _
  have eV : arrOf s' k = W := by
    rw [e']; unfold arrOf; rw [v1, eVW]
  rw [ed]
  simp only [List.mem_cons, List.not_mem_nil, or_false] at hk
  rcases hk with rfl | rfl | rfl
  · rw [eV] at e1; exact e1
  · rw [eV] at e2; exact e2
  · rw [eV] at e3; exact e3 hjs

/-! ### non-vacuity: the drift wave -/

/-- arguments of `run` for the drift wave on an `m × m` grid -/
noncomputable def waveArgs (m : ℕ) (dt : ℝ) : Args ℝ :=
  { physArgs with
    step_size := dt
    end_time := 5
    grid_pts := m
    dx := 2 * Real.pi / m
    N := 1
    nu := 1 / 10
    c1 := 3
    kappa_coeff := 40 / 3
    density0 := .arr (tab m m fun i j =>
      modeFam (5 / 3 * amp 0) (4 / 3 * amp 0) (4 * 0) 0 0 (i * (2 * Real.pi / m)) (j * (2 * Real.pi / m)))
    omega0 := .arr (tab m m fun i j =>
      modeFam (- amp 0) 0 (4 * 0) 0 0 (i * (2 * Real.pi / m)) (j * (2 * Real.pi / m)))
    phi0 := .arr (tab m m fun i j => (i : ℝ) - j) }

theorem wave_good (m : ℕ) (hm : 0 < m) (dt : ℝ) (hdt : 0 < dt) (σ : St ℝ ℝ) (hσ : σ.fs "run.h5" = none) :
    GoodArgs physEnv numpyBackend (waveArgs m dt) σ m where
  grid := hm
  backend := .inl rfl
  density := ⟨_, rfl, rfl, rfl⟩
  omega := ⟨_, rfl, rfl, rfl⟩
  phi := ⟨_, rfl, rfl, rfl⟩
  path := by simp [waveArgs, physArgs]
  fresh := .inl hσ
  buffer := by simp [waveArgs, physArgs]
  snaps := by simp [waveArgs, physArgs]
  step := hdt
  saves := by
    refine ⟨by simp [saveDim, downsampling, FloatOps.eq, FloatOps.ofInt, waveArgs, physArgs], fun h => ?_⟩
    simp [downsampling, FloatOps.eq, FloatOps.ofInt, waveArgs, physArgs] at h
  sim := rfl
  attr := rfl
  nan _ := rfl

theorem wave_describes (m : ℕ) (hm : 0 < m) (dt : ℝ) :
    RunPoses (waveArgs m dt) ⟨0, 1, 3, 1 / 10, 1, 40 / 3, false⟩ (2 * Real.pi) 5
      (modeFam (5 / 3 * amp 0) (4 / 3 * amp 0) (4 * 0) 0 0) (modeFam (- amp 0) 0 (4 * 0) 0 0) m where
  grid := rfl
  spacing := by
    have : (m : ℝ) ≠ 0 := by positivity
    simp only [waveArgs]; field_simp
  order := rfl
  c1 := rfl
  nu := rfl
  bracket := rfl
  kappa := rfl
  zonal := rfl
  density := ⟨_, rfl, fun i j hi hj => tab_at' _ _ _ hi hj⟩
  omega := ⟨_, rfl, fun i j hi hj => tab_at' _ _ _ hi hj⟩
  full := rfl
  start := rfl
  props := rfl
  endpos := by norm_num [waveArgs]
  endle := by norm_num [waveArgs]

/-- the growing drift wave appears in the file of every fine enough run -/
example : ∃ C, ∀ m : ℕ, 0 < m → ∃ dt0 : ℝ, 0 < dt0 ∧ ∀ dt, 0 < dt → dt ≤ dt0 →
    ∃ (f : H5 ℝ ℝ) (rows : List (Cell ℝ)),
      (run physEnv (waveArgs m dt) ⟨fun _ => none, []⟩).2.fs "run.h5" = some f ∧
      f.dsets "phi" = some (.rows (.grid m m) rows) ∧ rows.length = ⌊5 / dt⌋.toNat / 3 + 1 ∧
      ∀ j (hj : j < rows.length), j ≠ 0 → ∃ W : Arr ℝ, rows[j] = .arr (W.map Casts.f32) ∧
        rms m m (gridErr (2 * Real.pi / m) W
          fun y _ => amp ((j * 3 : ℕ) * dt) * Real.cos (y - 4 * ((j * 3 : ℕ) * dt))) ≤ C * (2 * Real.pi / m) ^ 2 := by
  obtain ⟨C, -, H⟩ := C87_file_approximates_pde _ (by norm_num) (by norm_num) (by positivity) le_rfl (by norm_num)
    (drift_wave 5)
  refine ⟨C, fun m hm => ?_⟩
  obtain ⟨dt0, hdt0, H⟩ := H m numpyBackend 1 hm (.inl rfl)
  refine ⟨dt0, hdt0, fun dt hdt hle => ?_⟩
  obtain ⟨-, f, count, ec, e1, -, H⟩ := H ℝ _ inferInstance physEnv (waveArgs m dt) ⟨fun _ => none, []⟩
    (wave_good m hm dt hdt _ rfl) (wave_describes m hm dt) rfl hle
  obtain ⟨rows, r1, r2, r3⟩ := H "phi" (by simp)
  refine ⟨f, rows, e1, r1, by rw [r2, ec]; rfl, fun j hj hj0 => ?_⟩
  obtain ⟨W, w1, w2⟩ := r3 j hj hj0
  refine ⟨W, w1, ?_⟩
  have e : ∀ t : ℝ, fieldOf (fun t => modeFam (5 / 3 * amp t) (4 / 3 * amp t) (4 * t))
      (fun t => modeFam (- amp t) 0 (4 * t)) (fun t => modeFam (amp t) 0 (4 * t)) "phi" t
      = fun y _ => amp t * Real.cos (y - 4 * t) := by
    intro t
    funext y x
    simp only [fieldOf]
    rw [if_neg (by decide), if_neg (by decide), modeFam_zero]; ring
  rw [e] at w2
  exact w2

end Verif.Props
