import Verif.Props.FileMeans

/-!
# C149: the coupling term limits the step size
-/

set_option linter.unusedSectionVars false

namespace Verif.Props

open Arr NS Spec Set H5IO Run Run2

attribute [local instance] exactOps

/-- one Runge-Kutta step of `y' = -y` with step size `z` -/
noncomputable def rkDecay (z : ℝ) : ℝ := 1 - z + z ^ 2 / 2 - z ^ 3 / 6 + z ^ 4 / 24

theorem rkDecay_nonneg (z : ℝ) : 0 ≤ rkDecay z := by
  unfold rkDecay
  nlinarith [sq_nonneg (z ^ 2 - 2 * z + 2), sq_nonneg (z - 1), sq_nonneg z, sq_nonneg (z ^ 2 - 2 * z), sq_nonneg (z - 2)]

theorem rkDecay_le_one {z : ℝ} (h0 : 0 ≤ z) (h1 : z ≤ 2.78) : rkDecay z ≤ 1 := by
  have h : z ^ 3 - 4 * z ^ 2 + 12 * z - 24 ≤ 0 := by
    nlinarith [sq_nonneg (z - 4 / 3), sq_nonneg (z - 2.78), mul_nonneg h0 (sub_nonneg.mpr h1), sq_nonneg z]
  have : rkDecay z - 1 = z / 24 * (z ^ 3 - 4 * z ^ 2 + 12 * z - 24) := by unfold rkDecay; ring
  have h' := mul_nonpos_of_nonneg_of_nonpos (div_nonneg h0 (by norm_num : (0:ℝ) ≤ 24)) h
  linarith

theorem rkDecay_ge {z : ℝ} (h : 2.8 ≤ z) : 1.02 ≤ rkDecay z := by
  have h1 : 0.19 ≤ z ^ 3 - 4 * z ^ 2 + 12 * z - 24 := by
    nlinarith [sq_nonneg (z - 2.8), mul_nonneg (sub_nonneg.mpr h) (sq_nonneg (z - 2.8))]
  have : rkDecay z - 1 = z / 24 * (z ^ 3 - 4 * z ^ 2 + 12 * z - 24) := by unfold rkDecay; ring
  nlinarith

theorem rkDecay_exp {z : ℝ} (h0 : 0 ≤ z) (h1 : z ≤ 1) : |rkDecay z - Real.exp (-z)| ≤ z ^ 5 / 100 := by
  have h := Real.exp_bound (x := -z) (by rw [abs_neg, abs_of_nonneg h0]; exact h1) (n := 5) (by norm_num)
  have e : ∑ m ∈ Finset.range 5, (-z) ^ m / (m.factorial : ℝ) = rkDecay z := by
    simp only [Finset.sum_range_succ, Finset.sum_range_zero, rkDecay, Nat.factorial]
    push_cast
    ring
  rw [e, abs_sub_comm, abs_neg, abs_of_nonneg h0] at h
  refine h.trans (le_of_eq ?_)
  norm_num [Nat.factorial]
  ring

theorem pow_sub_pow_abs {x y : ℝ} (hx0 : 0 ≤ x) (hx : x ≤ 1) (hy0 : 0 ≤ y) (hy : y ≤ 1) (n : ℕ) : |x ^ n - y ^ n| ≤ n * |x - y| := by
  induction n with
  | zero => simp
  | succ n ih =>
    have e : x ^ (n + 1) - y ^ (n + 1) = x * (x ^ n - y ^ n) + (x - y) * y ^ n := by ring
    rw [e]
    refine (abs_add_le _ _).trans ?_
    rw [abs_mul, abs_mul, abs_of_nonneg hx0, abs_of_nonneg (pow_nonneg hy0 n)]
    have h1 : x * |x ^ n - y ^ n| ≤ n * |x - y| :=
      (mul_le_of_le_one_left (abs_nonneg _) hx).trans ih
    have h2 : |x - y| * y ^ n ≤ |x - y| := mul_le_of_le_one_right (abs_nonneg _) (pow_le_one₀ hy0 hy)
    push_cast
    linarith

/-- What is known about the mean `d` of the density after `n` steps of size `dt` without zonal coupling, if it was `d0`
at the beginning. -/
structure CouplingMean (c1 dt d0 : ℝ) (n : ℕ) (d : ℝ) : Prop where
  /-- below the limit it does not grow -/
  bounded : 0 ≤ c1 * dt → c1 * dt ≤ 2.78 → |d| ≤ |d0|
  /-- small steps follow the solution `exp (-c1 t) d0` of the equation, with order 4 -/
  accurate : 0 ≤ c1 * dt → c1 * dt ≤ 1 → |d - Real.exp (-(c1 * (n * dt))) * d0| ≤ c1 * (n * dt) * (c1 * dt) ^ 4 / 100 * |d0|
  /-- above the limit it grows exponentially -/
  unstable : 2.8 ≤ c1 * dt → 1.02 ^ n * |d0| ≤ |d|

theorem MeansAfter.coupling {c1 dt d0 o0 d o : ℝ} {n : ℕ} (h : MeansAfter c1 dt false d0 o0 n d o) : CouplingMean c1 dt d0 n d := by
  have e : d = rkDecay (c1 * dt) ^ n * d0 := h.damped rfl
  have hp := rkDecay_nonneg (c1 * dt)
  refine ⟨fun h0 h1 => ?_, fun h0 h1 => ?_, fun h1 => ?_⟩
  · rw [e, abs_mul, abs_of_nonneg (pow_nonneg hp n)]
    exact mul_le_of_le_one_left (abs_nonneg _) (pow_le_one₀ hp (rkDecay_le_one h0 h1))
  · have ex : Real.exp (-(c1 * (n * dt))) = Real.exp (-(c1 * dt)) ^ n := by
      rw [← Real.exp_nat_mul]
      congr 1
      ring
    rw [ex, e, ← sub_mul, abs_mul]
    refine mul_le_mul_of_nonneg_right ?_ (abs_nonneg _)
    have := pow_sub_pow_abs hp (rkDecay_le_one h0 (h1.trans (by norm_num))) (Real.exp_nonneg (-(c1 * dt)))
      (Real.exp_le_one_iff.mpr (neg_nonpos.mpr h0)) n
    refine this.trans ((mul_le_mul_of_nonneg_left (rkDecay_exp h0 h1) (Nat.cast_nonneg n)).trans (le_of_eq ?_))
    ring
  · rw [e, abs_mul, abs_of_nonneg (pow_nonneg hp n)]
    exact mul_le_mul_of_nonneg_right (pow_le_pow_left₀ (by norm_num) (rkDecay_ge h1) n) (abs_nonneg _)

/-- some value is as large as the mean -/
theorem exists_ge_amean {N : Arr ℝ} {c : ℝ} (hc : 0 < c) (h : c ≤ |amean N|) : ∃ i j, i < N.h ∧ j < N.w ∧ c ≤ |N.at' i j| := by
  by_contra hn
  push Not at hn
  refine absurd h (not_le.mpr ?_)
  unfold amean Spec.mean
  rw [abs_div]
  by_cases h0 : N.h = 0 ∨ N.w = 0
  · rcases h0 with h0 | h0 <;> simp [h0, hc]
  · push Not at h0
    have hh : (0 : ℝ) < N.h := by exact_mod_cast Nat.pos_of_ne_zero h0.1
    have hw : (0 : ℝ) < N.w := by exact_mod_cast Nat.pos_of_ne_zero h0.2
    rw [abs_of_pos (mul_pos hh hw), div_lt_iff₀ (mul_pos hh hw)]
    calc |∑ i ∈ Finset.range N.h, ∑ j ∈ Finset.range N.w, N.at' i j|
        ≤ ∑ i ∈ Finset.range N.h, ∑ j ∈ Finset.range N.w, |N.at' i j| :=
          (Finset.abs_sum_le_sum_abs _ _).trans (Finset.sum_le_sum fun i _ => Finset.abs_sum_le_sum_abs _ _)
      _ < ∑ i ∈ Finset.range N.h, ∑ _j ∈ Finset.range N.w, c := by
          refine Finset.sum_lt_sum_of_nonempty ⟨0, Finset.mem_range.mpr (Nat.pos_of_ne_zero h0.1)⟩ fun i hi => ?_
          exact Finset.sum_lt_sum_of_nonempty ⟨0, Finset.mem_range.mpr (Nat.pos_of_ne_zero h0.2)⟩ fun j hj =>
            hn i j (Finset.mem_range.mp hi) (Finset.mem_range.mp hj)
      _ = c * (N.h * N.w) := by simp; ring

/-- **C149 (`run2`).**  In the file of every call of `run2` without zonal coupling, as in C148: the mean of the recorded density never
exceeds the initial one if `c1 * step_size ≤ 2.78`; it is that of the solution `exp (-c1 t)` of the equation for the mean, up to a multiple of
`step_size⁴`, if `c1 * step_size ≤ 1`; and if `c1 * step_size ≥ 2.8` and the initial mean is not zero, the recorded
density grows exponentially with the number of steps. -/
theorem C149_run2_coupling {β : Type} [Casts ℝ β] [Inhabited β] {E : Env2 ℝ β} {b : Backend} {a : Args2 ℝ} {σ : St ℝ β} {ns : ℕ}
    (hg : GoodArgs2 E b a σ ns) (hd : Downsamples E.toEnv a.downsample_factor) (hN : 1 ≤ a.N ∨ a.nu = 0)
    (hstart : a.recording_start_time = 0) (hendp : 0 < a.end_time) (hz : a.zonal = false)
    (hpd : "density" ∉ a.properties) (hpo : "omega" ∉ a.properties) {A B : Arr ℝ} (hA : a.density0 = .arr A) (hB : a.omega0 = .arr B) :
    ∃ count, IsLeast {k : ℕ | a.end_time ≤ FloatOps.round4 ((k : ℝ) * a.step_size)} count ∧ ∀ fuel, count < fuel →
      ∃ (f : H5 ℝ β) (rd : List (Cell β)), (run2 E a fuel σ).2.fs a.output_path = some f ∧
        f.dsets "density" = some (.rows (.grid ns ns) rd) ∧ rd.length = count / a.snaps + 1 ∧
        ∀ j, j ≤ count / a.snaps → ∃ N : Arr ℝ, rd[j]? = some (.arr (N.map Casts.f32)) ∧
          CouplingMean a.c1 a.step_size (amean A) (j * a.snaps) (amean N) ∧
          (2.8 ≤ a.c1 * a.step_size → amean A ≠ 0 →
            ∃ i k, i < N.h ∧ k < N.w ∧ 1.02 ^ (j * a.snaps) * |amean A| ≤ |N.at' i k|) := by
  obtain ⟨count, hc, H⟩ := C148_run2_means hg hd hN hstart hendp hpd hpo hA hB
  refine ⟨count, hc, fun fuel hfuel => ?_⟩
  obtain ⟨f, rd, ro, f1, f2, -, f3, -, f4⟩ := H fuel hfuel
  refine ⟨f, rd, f1, f2, f3, fun j hj => ?_⟩
  obtain ⟨N, O, n1, -, n2⟩ := f4 j hj
  rw [hz] at n2
  refine ⟨N, n1, n2.coupling, fun h1 h2 => exists_ge_amean ?_ (n2.coupling.unstable h1)⟩
  exact mul_pos (pow_pos (by norm_num) _) (abs_pos.mpr h2)

/-- **C149 (`run`).** -/
theorem C149_run_coupling {β : Type} [Casts ℝ β] [Inhabited β] {E : Env ℝ β} {b : Backend} {a : Args ℝ} {σ : St ℝ β} {ns : ℕ}
    (hg : GoodArgs E b a σ ns) (hd : Downsamples E a.downsample_factor) (hN : 1 ≤ a.N ∨ a.nu = 0)
    (hstart : a.recording_start_time = 0) (he : 0 ≤ a.end_time)
    (hpd : "density" ∉ a.properties) (hpo : "omega" ∉ a.properties) {A B : Arr ℝ} (hA : a.density0 = .arr A) (hB : a.omega0 = .arr B) :
    ∃ (f : H5 ℝ β) (rd : List (Cell β)), (run E a σ).2.fs a.output_path = some f ∧
      f.dsets "density" = some (.rows (.grid ns ns) rd) ∧ rd.length = ⌊a.end_time / a.step_size⌋.toNat / a.snaps + 1 ∧
      ∀ j, j < rd.length → ∃ N : Arr ℝ, rd[j]? = some (.arr (N.map Casts.f32)) ∧
        CouplingMean a.c1 a.step_size (amean A) (j * a.snaps) (amean N) ∧
        (2.8 ≤ a.c1 * a.step_size → amean A ≠ 0 →
          ∃ i k, i < N.h ∧ k < N.w ∧ 1.02 ^ (j * a.snaps) * |amean A| ≤ |N.at' i k|) := by
  obtain ⟨f, rd, ro, f1, f2, -, f3, -, f4⟩ := C148_run_means hg hd hN hstart he hpd hpo hA hB
  refine ⟨f, rd, f1, f2, f3, fun j hj => ?_⟩
  obtain ⟨N, O, n1, -, n2⟩ := f4 j hj
  refine ⟨N, n1, n2.coupling, fun h1 h2 => exists_ge_amean ?_ (n2.coupling.unstable h1)⟩
  exact mul_pos (pow_pos (by norm_num) _) (abs_pos.mpr h2)

/-- the demo run: `c1 = 1`, steps of 1/40 -/
example := C149_run_coupling (phys_good ⟨fun _ => none, []⟩ rfl) (.inl rfl) (.inl (by decide : 1 ≤ 3)) rfl (by norm_num [physArgs])
  (by simp [physArgs]) (by simp [physArgs]) rfl rfl

example := C149_run2_coupling phys_good2 (.inl rfl) (.inl (by decide : 1 ≤ 3)) rfl (by norm_num [physArgs2, physArgs]) rfl
  (by simp [physArgs2]) (by simp [physArgs2]) rfl rfl

/-- the same run with `c1 = 200` and a density of mean 1: the density in frame `j` has a value of at least `1.02 ^ (j * snaps)` -/
example : ∃ (f : H5 ℝ ℝ) (rd : List (Cell ℝ)),
    (run physEnv { physArgs with c1 := 200, density0 := .arr (tab 8 8 fun _ _ => 1) } ⟨fun _ => none, []⟩).2.fs "run.h5" = some f ∧
    f.dsets "density" = some (.rows (.grid 8 8) rd) ∧ rd.length = 400 / physArgs.snaps + 1 ∧
    ∀ j < rd.length, ∃ M : Arr ℝ, rd[j]? = some (.arr (M.map Casts.f32)) ∧
      ∃ i k, i < M.h ∧ k < M.w ∧ 1.02 ^ (j * physArgs.snaps) ≤ |M.at' i k| := by
  have hm : amean (tab 8 8 fun _ _ => (1 : ℝ)) = 1 := by
    unfold amean Spec.mean
    have : ∀ i ∈ Finset.range 8, ∀ j ∈ Finset.range 8, (tab 8 8 fun _ _ => (1 : ℝ)).at' i j = 1 := fun i hi j hj =>
      tab_at' 8 8 _ (Finset.mem_range.mp hi) (Finset.mem_range.mp hj)
    change (∑ i ∈ Finset.range 8, ∑ j ∈ Finset.range 8, (tab 8 8 fun _ _ => (1 : ℝ)).at' i j) / (((8 : ℕ) : ℝ) * ((8 : ℕ) : ℝ)) = 1
    rw [Finset.sum_congr rfl fun i hi => Finset.sum_congr rfl (this i hi)]
    norm_num
  have hg : GoodArgs physEnv numpyBackend { physArgs with c1 := 200, density0 := .arr (tab 8 8 fun _ _ => 1) } ⟨fun _ => none, []⟩ 8 :=
    { phys_good ⟨fun _ => none, []⟩ rfl with density := ⟨_, rfl, rfl, rfl⟩ }
  obtain ⟨f, rd, f1, f2, f3, f4⟩ := C149_run_coupling hg (.inl rfl) (.inl (by decide : 1 ≤ 3)) rfl (by norm_num [physArgs])
    (by simp [physArgs]) (by simp [physArgs]) rfl rfl
  refine ⟨f, rd, f1, f2, ?_, fun j hj => ?_⟩
  · rw [f3]
    have : ⌊physArgs.end_time / physArgs.step_size⌋ = 400 := by
      rw [Int.floor_eq_iff]; norm_num [physArgs]
    simp only [this]
    rfl
  · obtain ⟨M, m1, -, m2⟩ := f4 j hj
    obtain ⟨i, k, hi, hk, hv⟩ := m2 (by norm_num [physArgs]) (by rw [hm]; norm_num)
    rw [hm, abs_one, mul_one] at hv
    exact ⟨M, m1, i, k, hi, hk, hv⟩

end Verif.Props
