import Verif.Props.Run2First
import Mathlib.Analysis.Real.Pi.Bounds
import Mathlib.Analysis.Real.Pi.Irrational

/-!
# C150: does the sine start fit into the periodic box?
-/

set_option linter.unusedSectionVars false

namespace Verif.Props

open H5IO H5 Run Run2 RunStart Arr Spec

attribute [local instance] exactOps

variable {G β : Type} [Casts ℝ β] [Inhabited β]

/-- the wave of `get_2d_sine` along one axis -/
noncomputable def wave1 (x : ℝ) : ℝ := Real.sin (2 * Real.pi * x + 1)

theorem wave1_sub_le (x y : ℝ) : |wave1 x - wave1 y| ≤ 2 * Real.pi * |x - y| := by
  refine (Real.abs_sin_sub_sin_le _ _).trans (le_of_eq ?_)
  rw [show 2 * Real.pi * x + 1 - (2 * Real.pi * y + 1) = 2 * Real.pi * (x - y) by ring, abs_mul,
    abs_of_pos (by positivity : (0 : ℝ) < 2 * Real.pi)]

theorem abs_wave1_le (x : ℝ) : |wave1 x| ≤ 1 := Real.abs_sin_le_one _

/-- **C150.**  The wave has the period `L` if and only if `L` is an integer … -/
theorem C150_period_iff (L : ℝ) : (∀ x, wave1 (x + L) = wave1 x) ↔ ∃ m : ℤ, L = m := by
  constructor
  · intro h
    have h1 := h (-1 / (2 * Real.pi) + 1 / 4)
    have hpi := Real.pi_pos.ne'
    unfold wave1 at h1
    have e1 : 2 * Real.pi * (-1 / (2 * Real.pi) + 1 / 4 + L) + 1 = L * (2 * Real.pi) + Real.pi / 2 := by field_simp; ring
    have e2 : 2 * Real.pi * (-1 / (2 * Real.pi) + 1 / 4) + 1 = Real.pi / 2 := by field_simp; ring
    rw [e1, e2, Real.sin_add_pi_div_two, Real.sin_pi_div_two, Real.cos_eq_one_iff] at h1
    obtain ⟨m, hm⟩ := h1
    exact ⟨m, (mul_right_cancel₀ (by positivity : (2 * Real.pi) ≠ 0) hm).symm⟩
  · rintro ⟨m, rfl⟩ x
    unfold wave1
    rw [show 2 * Real.pi * (x + m) + 1 = 2 * Real.pi * x + 1 + m * (2 * Real.pi) by ring, Real.sin_add_int_mul_two_pi]

/-- … so it never has the length of the box `2 π / k0`, for any rational `k0`, in particular any floating-point number. -/
theorem C150_never_periodic_violated (k0 : ℚ) (h0 : k0 ≠ 0) : ¬ ∀ x, wave1 (x + 2 * Real.pi / k0) = wave1 x := by
  rw [C150_period_iff]
  rintro ⟨m, hm⟩
  have hk : (k0 : ℝ) ≠ 0 := by exact_mod_cast h0
  rw [div_eq_iff hk] at hm
  refine irrational_pi ⟨m * k0 / 2, ?_⟩
  push_cast
  linarith

/-- frame 0 of a call with the sine start that is not downsampled -/
theorem sine_frame {E : Env ℝ β} {b : Backend} {c : Call ℝ} {σ : St ℝ β} {ns : ℕ} (h : GoodCall E b c σ ns)
    (R : Rng G ℝ) (nan : Arr ℝ) (e g : G) (hc : c.init_type = "sine") (he : 0 ≤ c.end_time)
    (h0 : c.recording_start_time = 0) (hd : c.downsample_factor = 1) :
    ∃ f, (runCall (exactStart R nan) E c e g σ).2.2.fs c.output_path = some f ∧
      ∀ k ∈ ["density", "omega", "phi"], k ∉ c.properties → ∃ (W : Arr ℝ) (rows : List (Cell β)),
        f.dsets k = some (.rows (.grid ns ns) (.arr (W.map Casts.f32) :: rows)) ∧ W.h = c.grid_pts ∧ W.w = c.grid_pts ∧
        ∀ i j, i < c.grid_pts → j < c.grid_pts → W.at' i j = wave1 (j * Call.dx c) * wave1 (i * Call.dx c) * c.init_scale := by
  obtain ⟨f, f1, f2⟩ := C109_sine_first_frame h R nan e g hc he h0
  refine ⟨f, f1, fun k hk hp => ?_⟩
  obtain ⟨W, rows, w1, w2⟩ := f2 k hk hp
  refine ⟨W, rows, w2, ?_⟩
  unfold recordedValue at w1
  rw [if_neg (by rw [hd]; simp [downsampling, FloatOps.eq, FloatOps.ofInt])] at w1
  injection w1 with w1
  injection w1 with w1
  subst w1
  exact ⟨rfl, rfl, fun i j hi hj => tab_at' _ _ _ hi hj⟩

theorem wave_products {x x' y s d : ℝ} (h : |x' - x| ≤ d) : |wave1 x' * wave1 y * s - wave1 x * wave1 y * s| ≤ 2 * Real.pi * d * |s| := by
  rw [← sub_mul, ← sub_mul, abs_mul, abs_mul]
  refine mul_le_mul_of_nonneg_right ?_ (abs_nonneg _)
  have h1 : |wave1 x' - wave1 x| ≤ 2 * Real.pi * d :=
    (wave1_sub_le _ _).trans (mul_le_mul_of_nonneg_left h (by positivity))
  exact (mul_le_of_le_one_right (abs_nonneg _) (abs_wave1_le _)).trans h1

theorem wave_products' {x x' y s d : ℝ} (h : |x' - x| ≤ d) : |wave1 y * wave1 x' * s - wave1 y * wave1 x * s| ≤ 2 * Real.pi * d * |s| := by
  rw [mul_comm (wave1 y), mul_comm (wave1 y)]
  exact wave_products h

/-- **C150 (what holds).**  With `init_type="sine"` the values of density, vorticity and potential in frame 0 at neighbouring grid points
differ by at most `2 π dx init_scale`, for neighbours inside the box; across its edges if the length `2 π / k0` of the box is an integer. -/
theorem C150_neighbours_partial {E : Env ℝ β} {b : Backend} {c : Call ℝ} {σ : St ℝ β} {ns : ℕ} (h : GoodCall E b c σ ns)
    (R : Rng G ℝ) (nan : Arr ℝ) (e g : G) (hc : c.init_type = "sine") (he : 0 ≤ c.end_time)
    (h0 : c.recording_start_time = 0) (hd : c.downsample_factor = 1) :
    ∃ f, (runCall (exactStart R nan) E c e g σ).2.2.fs c.output_path = some f ∧
      ∀ k ∈ ["density", "omega", "phi"], k ∉ c.properties → ∃ (W : Arr ℝ) (rows : List (Cell β)),
        f.dsets k = some (.rows (.grid ns ns) (.arr (W.map Casts.f32) :: rows)) ∧ W.h = c.grid_pts ∧ W.w = c.grid_pts ∧
        (∀ i j, i < c.grid_pts → j + 1 < c.grid_pts →
          |W.at' i (j + 1) - W.at' i j| ≤ 2 * Real.pi * Call.dx c * |c.init_scale| ∧
          |W.at' (j + 1) i - W.at' j i| ≤ 2 * Real.pi * Call.dx c * |c.init_scale|) ∧
        ((∃ m : ℤ, 2 * Real.pi / c.k0 = m) → ∀ i, i < c.grid_pts →
          |W.at' i 0 - W.at' i (c.grid_pts - 1)| ≤ 2 * Real.pi * Call.dx c * |c.init_scale| ∧
          |W.at' 0 i - W.at' (c.grid_pts - 1) i| ≤ 2 * Real.pi * Call.dx c * |c.init_scale|) := by
  obtain ⟨f, f1, f2⟩ := sine_frame h R nan e g hc he h0 hd
  refine ⟨f, f1, fun k hk hp => ?_⟩
  obtain ⟨W, rows, w1, w2, w3, w4⟩ := f2 k hk hp
  have hg : (0 : ℝ) < c.grid_pts := by exact_mod_cast h.grid
  have hdx : 0 < Call.dx c := by
    unfold Call.dx
    have := h.k0
    positivity
  have swap : ∀ x y s : ℝ, wave1 x * wave1 y * s = wave1 y * wave1 x * s := fun x y s => by ring
  refine ⟨W, rows, w1, w2, w3, fun i j hi hj => ?_, fun ⟨m, hm⟩ i hi => ?_⟩
  · have hs : |((j + 1 : ℕ) : ℝ) * Call.dx c - j * Call.dx c| ≤ Call.dx c := by
      rw [← sub_mul]
      push_cast
      rw [add_sub_cancel_left, one_mul, abs_of_pos hdx]
    rw [w4 i (j + 1) hi hj, w4 i j hi (by omega), w4 (j + 1) i hj hi, w4 j i (by omega) hi]
    exact ⟨wave_products hs, wave_products' hs⟩
  · have hL : (c.grid_pts : ℝ) * Call.dx c = m := by
      rw [← hm]
      unfold Call.dx
      field_simp
    have e0 : wave1 ((0 : ℕ) * Call.dx c) = wave1 (c.grid_pts * Call.dx c) := by
      rw [hL, Nat.cast_zero, zero_mul, ← (C150_period_iff m).2 ⟨m, rfl⟩ 0, zero_add]
    have hs : |(c.grid_pts : ℝ) * Call.dx c - ((c.grid_pts - 1 : ℕ) : ℝ) * Call.dx c| ≤ Call.dx c := by
      rw [← sub_mul, Nat.cast_sub h.grid, Nat.cast_one, sub_sub_cancel, one_mul, abs_of_pos hdx]
    have hl : c.grid_pts - 1 < c.grid_pts := by have := h.grid; omega
    rw [w4 i 0 hi h.grid, w4 i _ hi hl, w4 0 i h.grid hi, w4 _ i hl hi, e0]
    exact ⟨wave_products hs, wave_products' hs⟩

theorem wave1_zero : 5 / 6 < wave1 0 := by
  unfold wave1
  rw [mul_zero, zero_add]
  have := Real.sin_gt_sub_cube one_pos
  norm_num at this
  exact this

/-- the last grid point of a row, for `k0 = 0.15` -/
theorem wave1_last {n : ℕ} (hn : 77 ≤ n) : wave1 (2 * Real.pi / (3 / 20) - 2 * Real.pi / (3 / 20) / n) ≤ 0.296 := by
  have hn' : (77 : ℝ) ≤ n := by exact_mod_cast hn
  have p1 := Real.pi_gt_d6
  have p2 := Real.pi_lt_d6
  have q1 : 9.8696 < Real.pi ^ 2 := by nlinarith
  have q2 : Real.pi ^ 2 < 9.86961 := by nlinarith
  unfold wave1
  have e : 2 * Real.pi * (2 * Real.pi / (3 / 20) - 2 * Real.pi / (3 / 20) / n) + 1
      = (80 / 3 * Real.pi ^ 2 + 1 - 84 * Real.pi - 80 / 3 * Real.pi ^ 2 / n) + ((42 : ℤ) : ℝ) * (2 * Real.pi) := by
    push_cast
    ring
  rw [e, Real.sin_add_int_mul_two_pi]
  have d1 : 80 / 3 * Real.pi ^ 2 / n ≤ 80 / 3 * Real.pi ^ 2 / 77 := by gcongr
  have d0 : 0 ≤ 80 / 3 * Real.pi ^ 2 / n := by positivity
  generalize 80 / 3 * Real.pi ^ 2 / (n : ℝ) = d at *
  rcases le_total (80 / 3 * Real.pi ^ 2 + 1 - 84 * Real.pi - d) 0 with h | h
  · refine (Real.sin_nonpos_of_nonpos_of_neg_pi_le h (by linarith)).trans (by norm_num)
  · exact (Real.sin_le h).trans (by linarith)

/-- **C150 (violated).**  With the default `k0 = 0.15` and `init_type="sine"`, on every grid of at least 77 points however fine, the
fields in frame 0 jump by more than `0.44 init_scale` across the edges of the box: they are no smooth periodic fields. -/
theorem C150_seam_violated {E : Env ℝ β} {b : Backend} {c : Call ℝ} {σ : St ℝ β} {ns : ℕ} (h : GoodCall E b c σ ns)
    (R : Rng G ℝ) (nan : Arr ℝ) (e g : G) (hc : c.init_type = "sine") (he : 0 ≤ c.end_time)
    (h0 : c.recording_start_time = 0) (hd : c.downsample_factor = 1) (hk0 : c.k0 = 3 / 20) (hn : 77 ≤ c.grid_pts) :
    ∃ f, (runCall (exactStart R nan) E c e g σ).2.2.fs c.output_path = some f ∧
      ∀ k ∈ ["density", "omega", "phi"], k ∉ c.properties → ∃ (W : Arr ℝ) (rows : List (Cell β)),
        f.dsets k = some (.rows (.grid ns ns) (.arr (W.map Casts.f32) :: rows)) ∧
        0.44 * |c.init_scale| ≤ |W.at' 0 0 - W.at' 0 (c.grid_pts - 1)| ∧
        0.44 * |c.init_scale| ≤ |W.at' 0 0 - W.at' (c.grid_pts - 1) 0| := by
  obtain ⟨f, f1, f2⟩ := sine_frame h R nan e g hc he h0 hd
  refine ⟨f, f1, fun k hk hp => ?_⟩
  obtain ⟨W, rows, w1, w2, w3, w4⟩ := f2 k hk hp
  have hg : (c.grid_pts : ℝ) ≠ 0 := by exact_mod_cast h.grid.ne'
  have hl : c.grid_pts - 1 < c.grid_pts := by omega
  have el : ((c.grid_pts - 1 : ℕ) : ℝ) * Call.dx c = 2 * Real.pi / (3 / 20) - 2 * Real.pi / (3 / 20) / c.grid_pts := by
    rw [Nat.cast_sub h.grid, Nat.cast_one]
    unfold Call.dx
    rw [hk0]
    field_simp
  have hlast := wave1_last hn
  have hfirst := wave1_zero
  have key : 0.44 ≤ wave1 0 * wave1 0 - wave1 (2 * Real.pi / (3 / 20) - 2 * Real.pi / (3 / 20) / c.grid_pts) * wave1 0 := by nlinarith
  have hs : 0.44 * |c.init_scale| ≤ |(wave1 0 * wave1 0
      - wave1 (2 * Real.pi / (3 / 20) - 2 * Real.pi / (3 / 20) / c.grid_pts) * wave1 0) * c.init_scale| := by
    rw [abs_mul]
    exact mul_le_mul_of_nonneg_right (key.trans (le_abs_self _)) (abs_nonneg _)
  refine ⟨W, rows, w1, ?_⟩
  rw [w4 0 0 h.grid h.grid, w4 0 _ h.grid hl, w4 _ 0 hl h.grid, el, Nat.cast_zero, zero_mul]
  exact ⟨hs.trans (le_of_eq (by ring_nf)), hs.trans (le_of_eq (by ring_nf))⟩

theorem sine_noise (R : Rng G ℝ) (nan : Arr ℝ) {c : Call ℝ} (hc : c.init_type = "sine") (g : G) :
    ∃ A g', noise (exactStart R nan) c.init_type (2 * Real.pi / c.k0) (Call.dx c) c.grid_pts g = (.ok A, g') ∧
      A.h = c.grid_pts ∧ A.w = c.grid_pts := by
  rw [hc]
  refine ⟨_, g, by
    unfold noise
    rw [if_neg (by decide), if_pos rfl]
    change (Init.get_2d_sine c.grid_pts c.grid_pts (2 * Real.pi / c.k0), g) = _
    rw [sine_eq], rfl, rfl⟩

/-- **C150 (`run2`, what holds).** -/
theorem C150_neighbours2_partial {E : Env2 ℝ β} {b : Backend} {c : Call ℝ} {ad z : Bool} {σ : St ℝ β} {ns : ℕ} (h : GoodCall2 E b c ad σ ns)
    (R : Rng G ℝ) (nan : Arr ℝ) (e g : G) (hc : c.init_type = "sine") (he : 0 < c.end_time)
    (h0 : c.recording_start_time = 0) (hd : c.downsample_factor = 1) :
    ∃ m, ∀ fuel, m < fuel → ∃ f, (run2Call (exactStart R nan) E c ad z e g fuel σ).2.2.fs c.output_path = some f ∧
      ∀ k ∈ ["density", "omega", "phi"], k ∉ c.properties → ∃ (W : Arr ℝ) (rows : List (Cell β)),
        f.dsets k = some (.rows (.grid ns ns) (.arr (W.map Casts.f32) :: rows)) ∧ W.h = c.grid_pts ∧ W.w = c.grid_pts ∧
        (∀ i j, i < c.grid_pts → j + 1 < c.grid_pts →
          |W.at' i (j + 1) - W.at' i j| ≤ 2 * Real.pi * Call.dx c * |c.init_scale| ∧
          |W.at' (j + 1) i - W.at' j i| ≤ 2 * Real.pi * Call.dx c * |c.init_scale|) ∧
        ((∃ m : ℤ, 2 * Real.pi / c.k0 = m) → ∀ i, i < c.grid_pts →
          |W.at' i 0 - W.at' i (c.grid_pts - 1)| ≤ 2 * Real.pi * Call.dx c * |c.init_scale| ∧
          |W.at' 0 i - W.at' (c.grid_pts - 1) i| ≤ 2 * Real.pi * Call.dx c * |c.init_scale|) := by
  obtain ⟨m, H⟩ := C109_first_frame2 (z := z) h R nan e g he h0 (sine_noise R nan hc)
  obtain ⟨f1, q1, q2⟩ := C150_neighbours_partial h.toGoodCall R nan e g hc he.le h0 hd
  refine ⟨m, fun fuel hf => ?_⟩
  obtain ⟨f, f', r1, r2, r3⟩ := H fuel hf
  have ef : f1 = f := Option.some.inj (q1.symm.trans r1)
  subst ef
  refine ⟨f', r2, fun k hk hp => ?_⟩
  obtain ⟨row, rows, rows', s1, s2⟩ := r3 k hk hp
  obtain ⟨W, rows1, w1, w2⟩ := q2 k hk hp
  rw [w1] at s1
  injection s1 with s1
  injection s1 with _ s1
  injection s1 with s1 _
  subst s1
  exact ⟨W, rows', s2, w2⟩

/-- **C150 (`run2`, violated).** -/
theorem C150_seam2_violated {E : Env2 ℝ β} {b : Backend} {c : Call ℝ} {ad z : Bool} {σ : St ℝ β} {ns : ℕ} (h : GoodCall2 E b c ad σ ns)
    (R : Rng G ℝ) (nan : Arr ℝ) (e g : G) (hc : c.init_type = "sine") (he : 0 < c.end_time)
    (h0 : c.recording_start_time = 0) (hd : c.downsample_factor = 1) (hk0 : c.k0 = 3 / 20) (hn : 77 ≤ c.grid_pts) :
    ∃ m, ∀ fuel, m < fuel → ∃ f, (run2Call (exactStart R nan) E c ad z e g fuel σ).2.2.fs c.output_path = some f ∧
      ∀ k ∈ ["density", "omega", "phi"], k ∉ c.properties → ∃ (W : Arr ℝ) (rows : List (Cell β)),
        f.dsets k = some (.rows (.grid ns ns) (.arr (W.map Casts.f32) :: rows)) ∧
        0.44 * |c.init_scale| ≤ |W.at' 0 0 - W.at' 0 (c.grid_pts - 1)| ∧
        0.44 * |c.init_scale| ≤ |W.at' 0 0 - W.at' (c.grid_pts - 1) 0| := by
  obtain ⟨m, H⟩ := C109_first_frame2 (z := z) h R nan e g he h0 (sine_noise R nan hc)
  obtain ⟨f1, q1, q2⟩ := C150_seam_violated h.toGoodCall R nan e g hc he.le h0 hd hk0 hn
  refine ⟨m, fun fuel hf => ?_⟩
  obtain ⟨f, f', r1, r2, r3⟩ := H fuel hf
  have ef : f1 = f := Option.some.inj (q1.symm.trans r1)
  subst ef
  refine ⟨f', r2, fun k hk hp => ?_⟩
  obtain ⟨row, rows, rows', s1, s2⟩ := r3 k hk hp
  obtain ⟨W, rows1, w1, w2⟩ := q2 k hk hp
  rw [w1] at s1
  injection s1 with s1
  injection s1 with _ s1
  injection s1 with s1 _
  subst s1
  exact ⟨W, rows', s2, w2⟩

example (σ : St ℝ ℝ) (nan : Arr ℝ) (e g : ℕ) := C150_neighbours_partial (demoCall_good "sine" 42 (by norm_num) σ)
  demoRng nan e g rfl (by norm_num [demoCall]) rfl rfl

/-- the default resolution, 512 × 512 points -/
example (σ : St ℝ ℝ) (nan : Arr ℝ) (e g : ℕ) := C150_seam_violated (E := physEnv) (b := numpyBackend)
  (c := { demoCall "sine" (some 42) with grid_pts := 512 }) (σ := σ) (ns := 512)
  { demoCall_good "sine" 42 (by norm_num) σ with
    grid := (by decide : 0 < 512)
    backend := .inl rfl
    saves := by
      refine ⟨by simp [saveDim, downsampling, FloatOps.eq, FloatOps.ofInt, demoCall], fun h => ?_⟩
      simp [downsampling, FloatOps.eq, FloatOps.ofInt, demoCall] at h }
  demoRng nan e g rfl (by norm_num [demoCall]) rfl rfl (by norm_num [demoCall]) (by decide : 77 ≤ 512)

example (σ : St ℝ ℝ) (nan : Arr ℝ) (e g : ℕ) (z : Bool) := C150_neighbours2_partial (z := z) (demoCall_good2 "sine" 42 (by norm_num) true σ)
  demoRng nan e g rfl (by norm_num [demoCall]) rfl rfl

example (σ : St ℝ ℝ) (nan : Arr ℝ) (e g : ℕ) (z : Bool) := C150_seam2_violated (E := physEnv2) (b := numpyBackend)
  (c := { demoCall "sine" (some 42) with grid_pts := 512 }) (ad := true) (z := z) (σ := σ) (ns := 512)
  { demoCall_good2 "sine" 42 (by norm_num) true σ with
    grid := (by decide : 0 < 512)
    backend := .inl rfl
    props := fun _ h => absurd h List.not_mem_nil
    saves := by
      refine ⟨by simp [saveDim, downsampling, FloatOps.eq, FloatOps.ofInt, demoCall], fun h => ?_⟩
      simp [downsampling, FloatOps.eq, FloatOps.ofInt, demoCall] at h }
  demoRng nan e g rfl (by norm_num [demoCall]) rfl rfl (by norm_num [demoCall]) (by decide : 77 ≤ 512)

/-- `k0 = 0.15` and `k0 = 0.0375`, the suggested values -/
example := C150_never_periodic_violated (3 / 20) (by norm_num)
example := C150_never_periodic_violated (3 / 80) (by norm_num)

end Verif.Props
