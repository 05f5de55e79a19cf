import Verif.Props.BitContinue
import Verif.Props.Run2Float

/-!
# Property theorem C137: a continued floating-point file, compared with the equations

C136 (a continuing call repeats the interrupted computation) and C135 (what that computation approximates) together.
-/

set_option linter.unusedSectionVars false

namespace Verif.Props

open H5IO H5 Run Run2 Arr Spec Set Rounding

section
variable {u : ℝ} {R : Rounded u} {β : Type} [Casts (Rd R) β] [Inhabited β]

/-- the time `run2` computes for step `j` of a continuing call that starts from the time `t0` -/
noncomputable def stampFrom (E : Env2 (Rd R) β) (a : Args2 (Rd R)) (t0 : ℝ) (j : ℕ) : ℝ :=
  if j = 0 then t0
  else if a.adaptive_step_size then R.add t0 (E.sum (List.replicate j a.step_size)).val
  else R.add t0 (R.mul j a.step_size.val)

/-- the time a file with a last frame of step `l` is continued from: the stored time of that frame -/
noncomputable def storedTime (E : Env2 (Rd R) β) (a : Args2 (Rd R)) (l : ℕ) : ℝ :=
  (Casts.f64 (Casts.f32 (⟨stamp E a l⟩ : Rd R) : β) : Rd R).val

/-- the steps a continuing call records: every multiple of `snaps` among its steps `1, …, count` whose computed time is
not before `recording_start_time` -/
noncomputable def continuedSteps (E : Env2 (Rd R) β) (a : Args2 (Rd R)) (t0 : ℝ) (count : ℕ) : List ℕ :=
  (List.range' 1 count).filter fun j : ℕ => decide (a.recording_start_time.val ≤ stampFrom E a t0 j) && j % a.snaps == 0

variable {E : Env2 (Rd R) β} {a : Args2 (Rd R)}

theorem timeAt_stampFrom (E : Env2 (Rd R) β) (a : Args2 (Rd R)) (t0 : Rd R) (j : ℕ) :
    timeAt E a t0 j = ⟨stampFrom E a t0.val j⟩ := by
  unfold timeAt stampFrom
  split
  · rfl
  · split <;> simp [FloatOps.ofInt, FloatOps.add, FloatOps.mul]

theorem restart_stored (E : Env2 (Rd R) β) (a : Args2 (Rd R)) (l : ℕ) : restartTime E a l = ⟨storedTime E a l⟩ := by
  unfold restartTime storedTime
  rw [timeAt_stamp]

theorem frameSteps_float (E : Env2 (Rd R) β) (a : Args2 (Rd R)) (m : ℕ) : frameSteps E a m = floatRecorded E a m := by
  have e0 : (FloatOps.ofInt 0 : Rd R) = ⟨0⟩ := by simp [FloatOps.ofInt]
  unfold frameSteps floatRecorded
  congr 1
  · by_cases h : a.recording_start_time.val = 0
    · rw [if_pos (by rw [e0]; exact decide_eq_true h), if_pos h]
    · rw [if_neg (by rw [e0]; simpa [FloatOps.eq] using h), if_neg h]
  · apply List.filter_congr
    intro it _
    unfold isRecorded2
    rw [timeAt_stamp]
    rfl

theorem stepFrames2_float (E : Env2 (Rd R) β) (a : Args2 (Rd R)) (t0 : ℝ) (S : ℕ → NS (Cell (Rd R))) (m : ℕ) :
    stepFrames2 E a ⟨t0⟩ S m = (continuedSteps E a t0 m).map fun j : ℕ => ((⟨stampFrom E a t0 j⟩ : Rd R), S j) := by
  unfold stepFrames2 continuedSteps
  have hall : (List.range' 1 m).filter (isRecorded2 E a ⟨t0⟩) = (List.range' 1 m).filter fun j : ℕ =>
      decide (a.recording_start_time.val ≤ stampFrom E a t0 j) && j % a.snaps == 0 := by
    apply List.filter_congr
    intro it _
    unfold isRecorded2
    rw [timeAt_stampFrom]
    rfl
  rw [hall]
  exact List.map_congr_left fun j _ => by rw [timeAt_stampFrom]

variable {A : Gen.Arith (Rd R)} {σ : St (Rd R) β} {P : Params} {L : ℝ} {F G : ℝ → ℝ → ℝ} {e θ v : ℝ} {m : ℕ}

theorem storedTime_err (H : FloatPoses2 E A a σ P L F G e θ m) (u0 : 0 ≤ u) (hu : u ≤ θ) (hθ : θ ≤ 1 / 4) (v0 : 0 ≤ v)
    (hcast : ∀ x : Rd R, |(Casts.f64 (Casts.f32 x : β) : Rd R).val - x.val| ≤ v * |x.val|) (l : ℕ) :
    |storedTime E a l - l * a.step_size.val| ≤ (3 * θ + 2 * v) * (l * a.step_size.val) := by
  have hs := H.step
  have h1 := stamp_err H u0 hu hθ l
  have hy0 : 0 ≤ (l : ℝ) * a.step_size.val := by positivity
  have h2 := hcast ⟨stamp E a l⟩
  have h3 : |stamp E a l| ≤ 2 * (l * a.step_size.val) := by
    have := abs_le.1 h1
    exact abs_le.2 ⟨by nlinarith, by nlinarith⟩
  have h4 := mul_le_mul_of_nonneg_left h3 v0
  change |storedTime E a l - stamp E a l| ≤ v * |stamp E a l| at h2
  calc |storedTime E a l - l * a.step_size.val|
      = |(storedTime E a l - stamp E a l) + (stamp E a l - l * a.step_size.val)| := by ring_nf
    _ ≤ |storedTime E a l - stamp E a l| + |stamp E a l - l * a.step_size.val| := abs_add_le _ _
    _ ≤ _ := by linarith

/-- the computed increments `j * step_size` of the time -/
theorem stampFrom_eq (H : FloatPoses2 E A a σ P L F G e θ m) (hu : u ≤ θ) (t0 : ℝ) {j : ℕ} (hj : j ≠ 0) :
    ∃ y, |y - j * a.step_size.val| ≤ θ * (j * a.step_size.val) ∧ stampFrom E a t0 j = R.add t0 y := by
  have hs := H.step
  have hy0 : 0 ≤ (j : ℝ) * a.step_size.val := by positivity
  unfold stampFrom
  rw [if_neg hj]
  split
  · rename_i ha
    exact ⟨_, H.sum ha j, rfl⟩
  · refine ⟨_, (R.mul_err j a.step_size.val).trans ?_, rfl⟩
    rw [abs_of_nonneg hy0]
    exact mul_le_mul_of_nonneg_right hu hy0

theorem stampFrom_err (H : FloatPoses2 E A a σ P L F G e θ m) (u0 : 0 ≤ u) (hu : u ≤ θ) (hθ : θ ≤ 1 / 4) (v0 : 0 ≤ v)
    (hv : v ≤ 1 / 4)
    (hcast : ∀ x : Rd R, |(Casts.f64 (Casts.f32 x : β) : Rd R).val - x.val| ≤ v * |x.val|) (l j : ℕ) :
    |stampFrom E a (storedTime E a l) j - (l + j : ℕ) * a.step_size.val| ≤
      (6 * θ + 2 * v) * ((l + j : ℕ) * a.step_size.val) := by
  have hs := H.step
  have h1 := storedTime_err H u0 hu hθ v0 hcast l
  have θ0 : 0 ≤ θ := u0.trans hu
  have hl0 : 0 ≤ (l : ℝ) * a.step_size.val := by positivity
  have hj0 : 0 ≤ (j : ℝ) * a.step_size.val := by positivity
  push_cast
  rw [add_mul]
  generalize (l : ℝ) * a.step_size.val = X at *
  by_cases hj : j = 0
  · subst hj
    simp only [stampFrom, if_true, Nat.cast_zero, zero_mul, add_zero]
    refine h1.trans ?_
    nlinarith
  obtain ⟨y, y1, y2⟩ := stampFrom_eq H hu (storedTime E a l) hj
  rw [y2]
  generalize (j : ℝ) * a.step_size.val = Y at *
  generalize storedTime E a l = t0 at *
  have h2 := R.add_err t0 y
  have a1 := abs_le.1 h1
  have a2 := abs_le.1 y1
  have b1 : θ * X ≤ 1 / 4 * X := mul_le_mul_of_nonneg_right hθ hl0
  have b2 : v * X ≤ 1 / 4 * X := mul_le_mul_of_nonneg_right hv hl0
  have b3 : θ * Y ≤ 1 / 4 * Y := mul_le_mul_of_nonneg_right hθ hj0
  have b4 : 0 ≤ v * X := by positivity
  have b5 : 0 ≤ v * Y := by positivity
  have b6 : 0 ≤ θ * X := by positivity
  have b7 : 0 ≤ θ * Y := by positivity
  have h3 : |t0 + y| ≤ 9 / 4 * (X + Y) := abs_le.2 ⟨by nlinarith, by nlinarith⟩
  have h4 : u * |t0 + y| ≤ θ * (9 / 4 * (X + Y)) := mul_le_mul hu h3 (abs_nonneg _) θ0
  have a3 := abs_le.1 (h2.trans h4)
  exact abs_le.2 ⟨by nlinarith [a3.1], by nlinarith [a3.2]⟩

theorem storedTime_nonneg (H : FloatPoses2 E A a σ P L F G e θ m) (u0 : 0 ≤ u) (hu : u ≤ θ) (hθ : θ ≤ 1 / 4) (hv : v ≤ 1 / 4)
    (hcast : ∀ x : Rd R, |(Casts.f64 (Casts.f32 x : β) : Rd R).val - x.val| ≤ v * |x.val|) (l : ℕ) :
    0 ≤ storedTime E a l := by
  have hs := H.step
  have h0 : 0 ≤ stamp E a l := le_trans (by positivity) (stamp_ge H u0 hu hθ l)
  have h2 := hcast ⟨stamp E a l⟩
  change |storedTime E a l - stamp E a l| ≤ v * |stamp E a l| at h2
  rw [abs_of_nonneg h0] at h2
  nlinarith [(abs_le.1 h2).1]

theorem stampFrom_ge (H : FloatPoses2 E A a σ P L F G e θ m) (hu : u ≤ θ) (hθ : θ ≤ 1 / 4) {t0 : ℝ} (ht : 0 ≤ t0)
    (j : ℕ) : j * a.step_size.val / 4 ≤ stampFrom E a t0 j := by
  have hs := H.step
  have hj0 : 0 ≤ (j : ℝ) * a.step_size.val := by positivity
  by_cases hj : j = 0
  · subst hj
    simpa [stampFrom] using ht
  obtain ⟨y, y1, y2⟩ := stampFrom_eq H hu t0 hj
  rw [y2]
  generalize (j : ℝ) * a.step_size.val = Y at *
  have a2 := abs_le.1 y1
  have b3 : θ * Y ≤ 1 / 4 * Y := mul_le_mul_of_nonneg_right hθ hj0
  have h2 := R.add_err t0 y
  have h0 : 0 ≤ t0 + y := by linarith
  rw [abs_of_nonneg h0] at h2
  have h3 : u * (t0 + y) ≤ 1 / 4 * (t0 + y) := mul_le_mul_of_nonneg_right (hu.trans hθ) h0
  linarith [(abs_le.1 h2).1]

theorem stampFrom_reaches (H : FloatPoses2 E A a σ P L F G e θ m) (u0 : 0 ≤ u) (hu : u ≤ θ) (hθ : θ ≤ 1 / 4) {t0 : ℝ}
    (ht : 0 ≤ t0) (T : ℝ) : ∃ j : ℕ, T ≤ round4R R (stampFrom E a t0 j) := by
  have hs := H.step
  obtain ⟨k, hk⟩ := exists_nat_gt ((4 * (2 * |T| + 1)) / a.step_size.val)
  rw [div_lt_iff₀ hs] at hk
  refine ⟨k, ?_⟩
  have h1 := stampFrom_ge H hu hθ ht k
  have h0 : 0 ≤ stampFrom E a t0 k := le_trans (by positivity) h1
  have h2 := (round4R_bounds (R := R) u0 (hu.trans hθ) h0).1
  have h3 := abs_nonneg T
  have h4 := le_abs_self T
  have h5 : 2 * |T| + 1 / 2 ≤ stampFrom E a t0 k - 1 / 20000 := by linarith
  have h6 : 1 / 2 * (2 * |T| + 1 / 2) ≤ (1 - u) * (stampFrom E a t0 k - 1 / 20000) :=
    mul_le_mul (by linarith) h5 (by positivity) (by linarith)
  linarith

/-- Such a call and one that continues its file, as in C136: the step `k` at which the states were stored, the last recorded
step `l` and the number of steps of the second call. -/
theorem resumed2_float {T1 T2 : Rd R} (hp : FloatPoses2 E A (a.until T1) σ P L F G e θ m) (u0 : 0 ≤ u) (hu : u ≤ θ)
    (hθ : θ ≤ 1 / 4) (hv : v ≤ 1 / 4)
    (hcast : ∀ x : Rd R, |(Casts.f64 (Casts.f32 x : β) : Rd R).val - x.val| ≤ v * |x.val|) (hm : 0 < m)
    (hzonal : P.zonal = false) {b : Backend} {η : ℝ} (hA : Accurate A b η m m a.dx) {X Y : Arr (Rd R)}
    (hX : a.density0 = .arr X) (hX' : X.h = m ∧ X.w = m) (hY : a.omega0 = .arr Y) (hY' : Y.h = m ∧ Y.w = m)
    {Z : Arr (Rd R)} (hZ : Gen.get_phi A Y a.dx = .ok Z) {x : ℕ → Gen.State (Rd R)} (x0 : x 0 = ⟨X, Y, Z⟩)
    (x1 : ∀ k, ((x k).density.h = m ∧ (x k).density.w = m) ∧ ((x k).omega.h = m ∧ (x k).omega.w = m) ∧
      ((x k).phi.h = m ∧ (x k).phi.w = m))
    (x2 : ∀ k, Gen.rk4_step A (machineCoeffs R (poseHW b a.dx.val P)) (x k) a.step_size a.dx = .ok (x (k + 1)))
    (hsave : a.saveState = true)
    (hnames : ∀ name ∈ a.properties, name ∉ ["time", "density", "omega", "phi"] ∧ (∀ n', name ≠ "fullres_" ++ n') ∧
      ∀ k ∈ ["density", "omega", "phi"], name ≠ "state_" ++ k)
    (hT2 : (1 + u) * (a.recording_start_time.val + 1 / 20000) < T2.val) {count1 : ℕ}
    (hc1 : IsLeast {k : ℕ | T1.val ≤ round4R R (stamp E a k)} count1) {n : ℕ} (hn : n = (floatRecorded E a count1).length)
    (hbuf : a.buffer_length ≤ n) :
    ∃ (S : ℕ → NS (Cell (Rd R))) (k l count2 : ℕ),
      (∀ k, (S k).get? "density" = some (.arr (x k).density) ∧ (S k).get? "omega" = some (.arr (x k).omega) ∧
        (S k).get? "phi" = some (.arr (x k).phi)) ∧
      (floatRecorded E a count1)[a.buffer_length * (n / a.buffer_length) - 1]? = some k ∧
      (floatRecorded E a count1).getLast? = some l ∧ (a.buffer_length ∣ n → k = l) ∧
      IsLeast {j : ℕ | T2.val ≤ round4R R (stampFrom E a (storedTime E a l) j)} count2 ∧
      ArraySolver (Gen.solver A (machineCoeffs R (poseHW b a.dx.val P))) a.step_size a.dx a.grid_pts AgedState ∧
      StopsAfter2 E (a.continued T2) (restartTime E a l) (fun j => S (k + j)) count2 ∧
      FloatOps.lt a.recording_start_time (timeAt E a (restartTime E a l) count2) = true ∧
      ∀ fuel1, count1 < fuel1 → ∃ f : H5 (Rd R) β, (run2 E (a.until T1) fuel1 σ).2.fs a.output_path = some f ∧
        ((∀ key ∈ ["density", "omega"], ∀ X, f.dsets ("state_" ++ key) = some (.full X) → E.allZero (.arr X) = false) →
          Resumed E a σ (Gen.solver A (machineCoeffs R (poseHW b a.dx.val P))) m count1 S T1 T2 k l (k + count2)) := by
  classical
  obtain ⟨count, S, hcount, hS, htraj, hshaped, hrun⟩ :=
    fresh2_float hp u0 hu hθ hA hX hX' hY hY' hZ x0 x1 x2
  obtain rfl : count = count1 := hcount.unique hc1
  have hL1 : 1 ≤ a.buffer_length := hp.buffer
  have hq : 1 ≤ n / a.buffer_length := (Nat.one_le_div_iff hL1).mpr hbuf
  have hmul := Nat.mul_le_mul_left a.buffer_length hq
  have hdm := Nat.mul_div_le n a.buffer_length
  -- the two steps
  have hidx : a.buffer_length * (n / a.buffer_length) - 1 < (floatRecorded E a count).length := by omega
  obtain ⟨k, hk⟩ : ∃ k, (floatRecorded E a count)[a.buffer_length * (n / a.buffer_length) - 1]? = some k :=
    ⟨_, List.getElem?_eq_getElem hidx⟩
  obtain ⟨l, hl⟩ : ∃ l, (floatRecorded E a count).getLast? = some l := by
    rw [List.getLast?_eq_getElem?]
    exact ⟨_, List.getElem?_eq_getElem (by omega)⟩
  have hlast : a.buffer_length ∣ n → k = l := by
    intro hd
    rw [Nat.mul_div_cancel' hd, hn, ← List.getLast?_eq_getElem?, hl] at hk
    exact (Option.some.inj hk).symm
  have ht0 : 0 ≤ storedTime E a l := storedTime_nonneg hp u0 hu hθ hv hcast l
  have hex : ∃ j : ℕ, T2.val ≤ round4R R (stampFrom E a (storedTime E a l) j) :=
    stampFrom_reaches hp u0 hu hθ ht0 T2.val
  have hreach : T2.val ≤ round4R R (stampFrom E a (storedTime E a l) (Nat.find hex)) := Nat.find_spec hex
  -- the first call
  have hendOf : ∀ (c T : ℝ), 0 ≤ c → T ≤ round4R R c → (1 + u) * (a.recording_start_time.val + 1 / 20000) < T →
      a.recording_start_time.val < c := by
    intro c T h0 h1 h3
    have h2 := (round4R_bounds (R := R) u0 (hu.trans hθ) h0).2
    have h4 := lt_of_mul_lt_mul_left (h3.trans_le (h1.trans h2)) (by linarith)
    linarith
  have hs : 0 < a.step_size.val := hp.step
  have hend1 : FloatOps.lt a.recording_start_time (timeAt E a (FloatOps.ofInt 0) count) = true := by
    rw [timeAt_stamp]
    exact decide_eq_true (hendOf _ _ (le_trans (by positivity) (stamp_ge hp u0 hu hθ count)) hc1.1 hp.endpos)
  have hnan : ∀ s, nanState E.toEnv s = false := fun s => by
    unfold nanState
    split
    · exact hp.nan _
    · rfl
  have hsol : ArraySolver (Gen.solver A (machineCoeffs R (poseHW b a.dx.val P))) a.step_size a.dx a.grid_pts AgedState := by
    refine C136_simulation _ _ _ _ _ fun o p ho hop => ?_
    have hg : a.grid_pts = m := hp.grid
    rw [hg] at ho ⊢
    have : NeZero m := ⟨hm.ne'⟩
    have e : o = ofField (fun i j => o.at' i.val j.val : Gen.F (Rd R) m m) := (ofField_vals ho.1 ho.2).symm
    rw [e, hA.evals.sol] at hop
    cases hop
    exact ⟨rfl, rfl⟩
  have hstop : StopsAfter2 E (a.continued T2) (restartTime E a l) (fun j => S (k + j)) (Nat.find hex) := by
    have e : ∀ j, timeAt E (a.continued T2) (restartTime E a l) j = ⟨stampFrom E a (storedTime E a l) j⟩ := fun j => by
      rw [restart_stored]
      exact timeAt_stampFrom E a ⟨storedTime E a l⟩ j
    refine ⟨fun j hj => ?_, fun j _ _ _ => hnan _, .inl ?_⟩
    · rw [e]
      exact decide_eq_true (not_le.1 (Nat.find_min hex hj))
    · rw [e]
      exact decide_eq_false (not_lt.2 (Nat.find_spec hex))
  have hend2 : FloatOps.lt a.recording_start_time (timeAt E a (restartTime E a l) (Nat.find hex)) = true := by
    rw [restart_stored, timeAt_stampFrom]
    exact decide_eq_true (hendOf _ _ (le_trans (by positivity) (stampFrom_ge hp hu hθ ht0 _)) hreach hT2)
  refine ⟨S, k, l, Nat.find hex, hS, hk, hl, hlast, ⟨Nat.find_spec hex, fun j hj => Nat.find_min' hex hj⟩, hsol, hstop, hend2,
    fun fuel1 hf1 => ?_⟩
  obtain ⟨f, f1, -, -, -, -, -, -, f5⟩ := run2_result hrun hf1
  refine ⟨f, f1, fun hnz => ?_⟩
  have hfr : frames2 E (a.until T1) S count = (frameSteps E a count).map fun it =>
  (timeAt E a (FloatOps.ofInt 0) it, recordedState a S it) := frames2_steps E (a.until T1) S count
  refine { first := hrun, stored := hsave, buffer := ?_, step := ?_, last := ?_, flush := hend1, solver := ?_,
           dx := hp.attr _, names := hnames, early := ?_, traj := htraj _, shaped := fun k h1 _ => hshaped k h1,
           noNaN := ⟨hp.nan _, fun _ _ _ _ => hp.nan _⟩, nonzero := ?_ }
  · rw [frameSteps_float, ← hn]
    exact hbuf
  · rw [frameSteps_float, ← hn]
    exact hk
  · rw [frameSteps_float]
    exact hl
  · have e1 := hwOf_pose2 hp hA a.dx.val
    rw [← e1, hp.sim]
    have e2 : A.truthy (E.attrNum (.bool a.zonal)) = false := by
      have hz : a.zonal = false := hp.zonal.trans hzonal
      rw [hz, ← Bool.not_eq_true, hA.truthy, hp.flag]
      simp
    have e3 : Gen.hwOf A E.attrNum (a.until T1).physics2 = .ok (Gen.solver A
      { N := a.N
        c1 := E.attrNum (.num a.c1)
        nu := Gen.signed a.N (E.attrNum (.num a.nu))
        poisson_bracket_coeff := E.attrNum (.num a.poisson_bracket_coeff)
        kappa_coeff := E.attrNum (.num a.kappa_coeff)
        zonal := A.truthy (E.attrNum (.bool a.zonal)) }) := rfl
    rw [e3, e2]
    rfl
  · refine ⟨⟨R.div T2.val a.step_size.val⟩, truncZ (R.div T2.val a.step_size.val), ?_, rfl⟩
    change (if a.step_size.val = 0 then _ else _) = _
    rw [if_neg hs.ne']
  · intro key hkey V hV
    have hkf : key ∈ fieldList := by
      simp only [fieldList, List.mem_cons, List.not_mem_nil, or_false] at hkey ⊢
      rcases hkey with rfl | rfl <;> simp
    obtain ⟨V', v1, -, -, -, v2⟩ := f5 hsave key hkf fun hp' => (hnames _ hp').2.2 key hkf rfl
    have hlen : (frames2 E (a.until T1) S count).length = n := by
      rw [hfr, List.length_map, frameSteps_float, hn]
    have := v2 (timeAt E a (FloatOps.ofInt 0) k, recordedState a S k) (by rw [hlen]; exact hbuf) (by
      rw [hlen, hfr, List.getElem?_map, frameSteps_float]
      change Option.map _ (floatRecorded E a count)[a.buffer_length * (n / a.buffer_length) - 1]? = _
      rw [hk]
      rfl)
    change (recordedState a S k).get? key = _ at this
    rw [hV] at this
    obtain rfl : V = V' := Cell.arr.inj (Option.some.inj this)
    exact hnz key hkey V v1

end

/-- **C137.** Let `n, w, p` be a smooth solution of the Hasegawa–Wakatani equations with the original coupling on the box
`[0, L]²` and the interval `[0, T]`.  There is one constant `C` such that for every grid size there is a `δ > 0` with: in
every floating-point arithmetic as in C135, let a call of `run2` until `T1` be one that C135 describes, with
`add_last_state` and a buffer that is filled at least once.  Then a second call, with `continue_file`, until `T2` appends
one frame for each step it records.  Let `k` be the step at which the first call stored its states and `l` its last
recorded step.  The frame of step `j` of the second call is within `C (dx² + v)` of the solution at time
`(k + j) step_size` in root mean square, and within `C (dx + v)` at every grid point; its time stamp is within
`(6 θ + 2 v) (l + j) step_size` of `(l + j) step_size`.  If the frames of the first call fill the buffer a whole number of
times, `k = l`: the continued file then is as accurate as that of one uninterrupted call.  Otherwise its appended frames
carry time stamps that are too late by `(l - k) step_size`. -/
theorem C137_continued_file_partial (P : Params) (hnu : 0 ≤ P.nu) (hzonal : P.zonal = false) {L T B : ℝ} {r : ℕ} (hT : 0 ≤ T)
    (hL : 0 < L) (hr : 4 ≤ r) (hr' : 2 * P.N + 2 ≤ r) {nf wf pf : ℝ → ℕ → ℕ → ℝ → ℝ → ℝ}
    (H : HWSolution P L L T r B nf wf pf) :
    ∃ C, 0 ≤ C ∧ ∀ (m : ℕ) (b : Backend), 0 < m → Std b m m →
      ∃ δ, 0 < δ ∧ ∀ (u : ℝ) (R : Rounded u) (A : Gen.Arith (Rd R)) (η θ v : ℝ), 0 ≤ u → 0 ≤ η → u ≤ θ → θ ≤ 1 / 4 →
        0 ≤ v → v ≤ 1 / 4 →
        ∀ (β : Type) (_ : Casts (Rd R) β) (_ : Inhabited β) (E : Env2 (Rd R) β) (a : Args2 (Rd R)) (σ : St (Rd R) β) (T1 T2 : Rd R),
        (∀ x : Rd R, |(Casts.f64 (Casts.f32 x : β) : Rd R).val - x.val| ≤ v * |x.val|) →
        Accurate A b η m m a.dx → FloatPoses2 E A (a.until T1) σ P L (nf 0 0 0) (wf 0 0 0) (u + η) θ m →
        a.step_size.val ≤ δ → u + η ≤ δ * a.step_size.val →
        a.saveState = true →
        (∀ name ∈ a.properties, name ∉ ["time", "density", "omega", "phi"] ∧ (∀ n', name ≠ "fullres_" ++ n') ∧
          ∀ k ∈ ["density", "omega", "phi"], name ≠ "state_" ++ k) →
        (1 + u) * (a.recording_start_time.val + 1 / 20000) < T2.val →
        ∀ count1, IsLeast {k : ℕ | T1.val ≤ round4R R (stamp E a k)} count1 →
        ∀ n, n = (floatRecorded E a count1).length → a.buffer_length ≤ n →
        ∃ k l count2, (floatRecorded E a count1)[a.buffer_length * (n / a.buffer_length) - 1]? = some k ∧
          (floatRecorded E a count1).getLast? = some l ∧ (a.buffer_length ∣ n → k = l) ∧
          IsLeast {j : ℕ | T2.val ≤ round4R R (stampFrom E a (storedTime E a l) j)} count2 ∧
          (∀ j : ℕ, |stampFrom E a (storedTime E a l) j - (l + j : ℕ) * a.step_size.val| ≤
            (6 * θ + 2 * v) * ((l + j : ℕ) * a.step_size.val)) ∧
          ∀ fuel1 fuel2, count1 < fuel1 → count2 < fuel2 →
          ∃ f : H5 (Rd R) β, (run2 E (a.until T1) fuel1 σ).2.fs a.output_path = some f ∧
          -- the stored states do not vanish
          ((∀ key ∈ ["density", "omega"], ∀ X, f.dsets ("state_" ++ key) = some (.full X) → E.allZero (.arr X) = false) →
          ∃ g : H5 (Rd R) β,
            (run2 E (a.continued T2) fuel2 (run2 E (a.until T1) fuel1 σ).2).2.fs a.output_path = some g ∧
            (run2 E (a.continued T2) fuel2 (run2 E (a.until T1) fuel1 σ).2).1 ≠ .ok none ∧ g.attrs = f.attrs ∧
            g.dsets "time" = some (.rows .one (f.rowsOf "time" ++
              (continuedSteps E a (storedTime E a l) count2).map
                fun j : ℕ => .num (Casts.f32 (⟨stampFrom E a (storedTime E a l) j⟩ : Rd R)))) ∧
            ∀ key ∈ ["density", "omega", "phi"], ∃ rows, g.dsets key = some (.rows (.grid m m) (f.rowsOf key ++ rows)) ∧
              rows.length = (continuedSteps E a (storedTime E a l) count2).length ∧
              ∀ i (hi : i < rows.length) j, (continuedSteps E a (storedTime E a l) count2)[i]? = some j →
                ∀ t, t = ((k + j : ℕ) : ℝ) * a.step_size.val → t ≤ T → ∃ W : Arr β, rows[i] = .arr W ∧
                  StoredNear (R := R) m a.dx.val v C (fieldOf nf wf pf key t) W) := by
  classical
  obtain ⟨C, hC, HC⟩ := float_core P hnu hT hL hr hr' H
  refine ⟨C, hC, fun m b hm hb => ?_⟩
  obtain ⟨δ, hδ, HC⟩ := HC m b hm hb
  refine ⟨δ, hδ, ?_⟩
  intro u R A η θ v u0 η0 hu hθ v0 hv β _ _ E a σ T1 T2 hcast hA hp hle hprec hsave hnames hT2 count1 hc1 n hn hbuf
  -- the simulation
  obtain ⟨X, hX, hX'⟩ := hp.density
  obtain ⟨Y, hY, hY'⟩ := hp.omega
  obtain ⟨-, Z, x, hZ, x0, x1, x2, hx⟩ := HC u R A η u0 η0 a.dx a.step_size hp.spacing hp.step hA hle hprec X Y hX' hY'
  obtain ⟨S, k, l, count2, hS, hk, hl, hlast, hcount2, hsol, hstop, hend2, H2⟩ := resumed2_float (T2 := T2) hp u0 hu hθ hv hcast hm
    hzonal hA hX ⟨hX'.1, hX'.2.1⟩ hY ⟨hY'.1, hY'.2.1⟩ hZ x0 x1 x2 hsave hnames hT2 hc1 hn hbuf
  refine ⟨k, l, count2, hk, hl, hlast, hcount2, stampFrom_err hp u0 hu hθ v0 hv hcast l, fun fuel1 fuel2 hf1 hf2 => ?_⟩
  obtain ⟨f, f1, hres⟩ := H2 fuel1 hf1
  refine ⟨f, f1, fun hnz => ?_⟩
  obtain ⟨f', g, f1', g1, g2, g3, g4, -⟩ := C136_continue_repeats (hres hnz) hsol le_rfl hstop hf1 hf2
  obtain rfl : f' = f := Option.some.inj (f1'.symm.trans f1)
  unfold written2 flushes2 at g4
  simp only [hend2, if_true] at g4
  rw [restart_stored, stepFrames2_float] at g4
  refine ⟨g, g1, g2, g3, ?_, fun key hkey => ?_⟩
  · obtain ⟨rows, r1, r2⟩ := g4 "time" (by simp)
    rw [r1]
    have : rows = (continuedSteps E a (storedTime E a l) count2).map
        fun j : ℕ => .num (Casts.f32 (⟨stampFrom E a (storedTime E a l) j⟩ : Rd R)) := by
      rw [List.forall₂_map_left_iff] at r2
      rw [← List.forall₂_eq_eq_eq, List.forall₂_map_right_iff]
      exact r2.flip.imp fun x y hxy => timeRow hxy
    rw [this]
    rfl
  have hk' : key ∈ "time" :: fieldList := List.mem_cons_of_mem _ hkey
  have hkt : key ≠ "time" := by
    rintro rfl
    exact absurd hkey (by decide)
  obtain ⟨rows, r1, r2⟩ := g4 key hk'
  have hlen : rows.length = (continuedSteps E a (storedTime E a l) count2).length := by
    rw [← r2.length_eq, List.length_map]
  refine ⟨rows, by rw [r1, rowShape, if_neg hkt], hlen, fun i hi j hij t ht htT => ?_⟩
  rw [List.forall₂_map_left_iff] at r2
  have hil : i < (continuedSteps E a (storedTime E a l) count2).length := hlen ▸ hi
  have hrow := (List.forall₂_iff_get.mp r2).2 i hil hi
  have hji : (continuedSteps E a (storedTime E a l) count2).get ⟨i, hil⟩ = j := by
    rw [List.getElem?_eq_getElem hil] at hij
    exact Option.some.inj hij
  have hj0 : 0 < k + j := by
    have := List.mem_of_getElem? hij
    unfold continuedSteps at this
    rw [List.mem_filter, List.mem_range'_1] at this
    omega
  rw [hji] at hrow
  change (if key = "time" then _ else _) at hrow
  rw [if_neg hkt] at hrow
  obtain ⟨V, W, w1, w2, w3⟩ := hrow
  have hf : downsampling a.downsample_factor = false := by
    have := hp.full
    change a.downsample_factor.val = 1 at this
    simp [downsampling, FloatOps.eq, FloatOps.ofInt, this]
  unfold recordedValue at w2
  rw [hf] at w2
  simp only [Bool.false_eq_true, if_false] at w2
  injection w2 with w2
  injection w2 with w2
  subst w2
  refine ⟨V.map Casts.f32, w3, ?_⟩
  obtain ⟨b1, b2, b3⟩ := hx β _ _ v v0 hcast (k + j) hj0 t ht htT
  obtain ⟨S1, S2, S3⟩ := hS (k + j)
  simp only [List.mem_cons, List.not_mem_nil, or_false] at hkey
  rcases hkey with rfl | rfl | rfl
  · obtain rfl : (x (k + j)).density = V := Cell.arr.inj (Option.some.inj (S1.symm.trans w1))
    exact b1
  · obtain rfl : (x (k + j)).omega = V := Cell.arr.inj (Option.some.inj (S2.symm.trans w1))
    exact b2
  · obtain rfl : (x (k + j)).phi = V := Cell.arr.inj (Option.some.inj (S3.symm.trans w1))
    exact b3

/-! ### non-vacuity: the drift wave until time 2, continued until time 4 -/

noncomputable def rdArgs3 {u : ℝ} (R : Rounded u) (m : ℕ) (dt : ℝ) : Args2 (Rd R) :=
  { rdArgs2 R m dt with
    recording_start_time := ⟨0⟩
    buffer_length := 1
    zonal := false }

theorem rd_poses3 {u : ℝ} {R : Rounded u} (A : Gen.Arith (Rd R)) (m : ℕ) (hm : 0 < m) (dt e : ℝ) (hdt : 0 < dt) (he : 0 ≤ e)
    (hu : u ≤ 1 / 4) :
    FloatPoses2 (rdEnv2 A) A ((rdArgs3 R m dt).until ⟨2⟩) ⟨fun _ => none, []⟩ ⟨0, 1, 3, 1 / 10, 1, 40 / 3, false⟩ (2 * Real.pi)
      (modeFam (5 / 3 * amp 0) (4 / 3 * amp 0) (4 * 0) 0 0) (modeFam (- amp 0) 0 (4 * 0) 0 0) e (1 / 4) m where
  sim := rfl
  attr _ := rfl
  flag _ := rfl
  nan _ := rfl
  sum := (rd_poses2 A m hm dt e hdt he hu).sum
  grid := rfl
  spacing := (rd_poses A m hm dt e hdt he).spacing
  order := rfl
  c1 := rfl
  nu := rfl
  bracket := rfl
  kappa := rfl
  zonal := rfl
  density := (rd_poses A m hm dt e hdt he).density
  omega := (rd_poses A m hm dt e hdt he).omega
  phi := ⟨_, rfl, rfl, rfl⟩
  path := (rd_poses A m hm dt e hdt he).path
  fresh := .inl rfl
  buffer := le_rfl
  snaps := (rd_poses A m hm dt e hdt he).snaps
  step := hdt
  full := rfl
  nodup := List.nodup_singleton _
  props := (rd_poses2 A m hm dt e hdt he hu).props
  names := (rd_poses2 A m hm dt e hdt he hu).names
  endpos := by
    change (1 + u) * ((0 : ℝ) + 1 / 20000) < 2
    nlinarith

/-- the growing wave appears in the appended frames, too -/
example : ∃ C, ∀ m : ℕ, 0 < m → ∃ dt : ℝ, 0 < dt ∧ ∃ (p : ℕ) (A : Gen.Arith (Rd (Rounded.binary p))) (l count1 count2 : ℕ),
    ∀ fuel1 fuel2, count1 < fuel1 → count2 < fuel2 → ∃ (f g : H5 (Rd (Rounded.binary p)) (Rd (Rounded.binary 24)))
      (rows : List (Cell (Rd (Rounded.binary 24)))),
      (run2 (rdEnv2 A) ((rdArgs3 (Rounded.binary p) m dt).until ⟨2⟩) fuel1 ⟨fun _ => none, []⟩).2.fs "run.h5" = some f ∧
      (run2 (rdEnv2 A) ((rdArgs3 (Rounded.binary p) m dt).continued ⟨4⟩) fuel2
        (run2 (rdEnv2 A) ((rdArgs3 (Rounded.binary p) m dt).until ⟨2⟩) fuel1 ⟨fun _ => none, []⟩).2).2.fs "run.h5" = some g ∧
      g.dsets "phi" = some (.rows (.grid m m) (f.rowsOf "phi" ++ rows)) ∧
      ∀ i (hi : i < rows.length), ∃ j, 1 ≤ j ∧ (((l + j : ℕ) : ℝ) * dt ≤ 5 → ∃ W : Arr (Rd (Rounded.binary 24)), rows[i] = .arr W ∧
        rms m m (floatErr (2 * Real.pi / m) (W.map fun y => (⟨y.val⟩ : Rd (Rounded.binary p)))
          fun y _ => amp ((l + j : ℕ) * dt) * Real.cos (y - 4 * ((l + j : ℕ) * dt)))
            ≤ C * ((2 * Real.pi / m) ^ 2 + 2 ^ (-(24 : ℤ)))) := by
  obtain ⟨C, -, H⟩ := C137_continued_file_partial _ (by norm_num) rfl (by norm_num) (by positivity) le_rfl (by norm_num)
    (drift_wave 5)
  refine ⟨C, fun m hm => ?_⟩
  obtain ⟨δ, hδ, H⟩ := H m numpyBackend hm (.inl rfl)
  obtain ⟨p, A, η, η0, hp, hA⟩ := C103_arithmetic_exists (hw := HW.init numpyBackend 1 1 1 1 1) (h := m) (w := m) hm hm (.inl rfl)
    (2 * Real.pi / m) (min (δ * δ) (1 / 4)) (by positivity)
  have u0 : (0 : ℝ) ≤ 2 ^ (-(p : ℤ)) := by positivity
  have hu : (2 : ℝ) ^ (-(p : ℤ)) ≤ 1 / 4 := by linarith [hp.trans (min_le_right _ _)]
  have hP := rd_poses3 A m hm δ (2 ^ (-(p : ℤ)) + η) hδ (by positivity) hu
  classical
  have hex := stamp_reaches hP u0 hu le_rfl
  obtain ⟨k, l, count2, -, -, hkl, -, -, H⟩ := H _ (Rounded.binary p) A η (1 / 4) (2 ^ (-(24 : ℤ))) u0 η0 hu le_rfl (by positivity)
    (by norm_num) _ rdSingle inferInstance (rdEnv2 A) (rdArgs3 (Rounded.binary p) m δ) ⟨fun _ => none, []⟩ ⟨2⟩ ⟨4⟩
    (fun x => nearest_err 24 x.val) hA hP le_rfl (hp.trans (min_le_left _ _)) rfl
    (by
      intro name hn
      obtain rfl := List.mem_singleton.mp hn
      refine ⟨by decide, fun n' h => ?_, by decide⟩
      have := congrArg (fun s => s.toList.head?) h
      simp at this)
    (by change (1 + (2 : ℝ) ^ (-(p : ℤ))) * ((0 : ℝ) + 1 / 20000) < 4; nlinarith)
    (Nat.find hex) ⟨Nat.find_spec hex, fun j hj => Nat.find_min' hex hj⟩ _ rfl
    (by simp [floatRecorded, rdArgs3])
  obtain rfl : k = l := hkl (by simp [rdArgs3])
  refine ⟨δ, hδ, p, A, k, Nat.find hex, count2, fun fuel1 fuel2 h1 h2 => ?_⟩
  obtain ⟨f, f1, H⟩ := H fuel1 fuel2 h1 h2
  obtain ⟨g, g1, -, -, -, H⟩ := H fun _ _ _ _ => rfl
  obtain ⟨rows, r1, r2, r3⟩ := H "phi" (by simp)
  refine ⟨f, g, rows, f1, g1, r1, fun i hi => ?_⟩
  have hi' := r2 ▸ hi
  have hmem := List.getElem_mem hi'
  unfold continuedSteps at hmem
  rw [List.mem_filter, List.mem_range'_1] at hmem
  refine ⟨_, hmem.1.1, fun ht => ?_⟩
  obtain ⟨W, w1, w2, -⟩ := r3 i hi _ (List.getElem?_eq_getElem hi') _ rfl ht
  refine ⟨W, w1, ?_⟩
  have e : ∀ t : ℝ, fieldOf (fun t => modeFam (5 / 3 * amp t) (4 / 3 * amp t) (4 * t))
      (fun t => modeFam (- amp t) 0 (4 * t)) (fun t => modeFam (amp t) 0 (4 * t)) "phi" t
      = fun y _ => amp t * Real.cos (y - 4 * t) := by
    intro t
    funext y x
    simp only [fieldOf]
    rw [if_neg (by decide), if_neg (by decide), modeFam_zero]; ring
  rw [e] at w2
  exact w2

end Verif.Props
