import Verif.Lemmas.Single
import Verif.Props.RunPhysics
import Verif.Props.Run2Physics

/-!
# Property theorem C117: the stored times tell the frames apart
-/

set_option linter.unusedSectionVars false

namespace Verif.Props

open H5IO H5 Run Run2

section
variable {K β : Type} [Field K] [LinearOrder K] [IsStrictOrderedRing K] [FloorRing K] [Casts K β] [Inhabited K]
  [Inhabited β]

/-- the value a reader of the file gets for `x` -/
def readBack (β : Type) [Casts K β] (x : K) : K := Casts.f64 (Casts.f32 x : β)

/-- the times of a file, as read -/
def readTimes (rows : List (Cell β)) : List K := rows.map fun
  | .num x => Casts.f64 x
  | .arr _ => 0

/-- The steps recorded by `run`: 0 if everything is recorded, and those selected by `recording_start_time` and `snaps`. -/
def recordedSteps [FloatOps K] (a : Args K) (m : ℕ) : List ℕ :=
  (if FloatOps.eq a.recording_start_time (FloatOps.ofInt 0) then [0] else []) ++ (List.range' 1 m).filter (isRecorded a)

/-- The steps recorded by `run2`. -/
def recordedSteps2 [FloatOps K] (E : Env2 K β) (a : Args2 K) (m : ℕ) : List ℕ :=
  (if FloatOps.eq a.recording_start_time (FloatOps.ofInt 0) then [0] else [])
    ++ (List.range' 1 m).filter (isRecorded2 E a (FloatOps.ofInt 0))

theorem its_sorted {p : ℕ → Bool} {c : Bool} {m : ℕ} :
    ((if c then [0] else []) ++ (List.range' 1 m).filter p).Pairwise (· < ·) := by
  rw [List.pairwise_append]
  refine ⟨by cases c <;> simp, (List.pairwise_lt_range' (s := 1) (n := m)).filter _, fun x hx y hy => ?_⟩
  have h1 : 1 ≤ y := (List.mem_range'_1.1 (List.mem_filter.1 hy).1).1
  cases c <;> simp at hx
  omega

theorem its_le {p : ℕ → Bool} {c : Bool} {m it : ℕ} (h : it ∈ (if c then [0] else []) ++ (List.range' 1 m).filter p) :
    it ≤ m := by
  rw [List.mem_append] at h
  rcases h with h | h
  · cases c <;> simp at h
    omega
  · have := List.mem_range'_1.1 (List.mem_filter.1 h).1
    omega

theorem its_dvd {p : ℕ → Bool} {c : Bool} {m it s : ℕ} (hp : ∀ it, p it = true → s ∣ it)
    (h : it ∈ (if c then [0] else []) ++ (List.range' 1 m).filter p) : s ∣ it := by
  rw [List.mem_append] at h
  rcases h with h | h
  · cases c <;> simp at h
    rw [h]; exact dvd_zero _
  · exact hp _ (List.mem_filter.1 h).2

/-- total relative error of a stored time -/
def timeErr : K := 1 / 2 ^ 24 + 1 / 2 ^ 50

variable {fl : K → K}

theorem range_of {m : ℕ} {τ : K} (h1 : 1 / 2 ^ 126 ≤ τ) (h2 : m * τ ≤ 2 ^ 126) {it : ℕ} (h : it ≤ m) : (it : K) ≤ 2 ^ 252 := by
  have a : (it : K) ≤ m := by exact_mod_cast h
  have b : (m : K) * (1 / 2 ^ 126) ≤ 2 ^ 126 := (mul_le_mul_of_nonneg_left h1 (Nat.cast_nonneg m)).trans h2
  have c : (m : K) ≤ 2 ^ 126 * 2 ^ 126 := by
    rw [mul_one_div, div_le_iff₀ (by positivity)] at b
    exact b
  exact a.trans (c.trans (by norm_num))

theorem low_le : (1 : K) / 2 ^ 1022 ≤ 1 / 2 ^ 128 :=
  one_div_le_one_div_of_le (by positivity) (pow_le_pow_right₀ one_le_two (by norm_num))

theorem le_high : (2 : K) ^ 252 ≤ 2 ^ 1023 := pow_le_pow_right₀ one_le_two (by norm_num)

/-- the product `it * step_size` -/
theorem mul_err (hf : Spec.RelError fl) {m : ℕ} {τ : K} (h1 : 1 / 2 ^ 126 ≤ τ) (h2 : m * τ ≤ 2 ^ 126) {it : ℕ} (h : it ≤ m)
    (h0 : it ≠ 0) : |fl (fl it * τ) - it * τ| ≤ (1 / 2 ^ 53 + 1 / 2 ^ 53 + 1 / 2 ^ 53 * (1 / 2 ^ 53)) * (it * τ) := by
  have hτ : 0 < τ := lt_of_lt_of_le (by positivity) h1
  have i1 : (1 : K) ≤ it := by exact_mod_cast Nat.one_le_iff_ne_zero.2 h0
  have i2 := range_of h1 h2 h
  have i3 : (it : K) * τ ≤ 2 ^ 126 := (mul_le_mul_of_nonneg_right (by exact_mod_cast h) hτ.le).trans h2
  have i4 : 1 / 2 ^ 126 ≤ (it : K) * τ := h1.trans (le_mul_of_one_le_left hτ.le i1)
  have e1 : |fl it - it| ≤ (it : K) / 2 ^ 53 := by
    have := hf.rel it (by rw [Nat.abs_cast]; exact low_le.trans (le_trans (by norm_num) i1))
      (by rw [Nat.abs_cast]; exact i2.trans le_high)
    rwa [Nat.abs_cast] at this
  have e2 : |fl it * τ - it * τ| ≤ 1 / 2 ^ 53 * (it * τ) := by
    rw [← sub_mul, abs_mul, abs_of_pos hτ]
    calc _ ≤ (it : K) / 2 ^ 53 * τ := mul_le_mul_of_nonneg_right e1 hτ.le
      _ = _ := by ring
  have e3 := abs_le.1 e2
  refine err_step (by positivity) (by positivity) e2 ?_
  have p : 0 < fl it * τ := by linarith [e3.1]
  rw [one_div_mul_eq_div]
  refine hf.rel _ ?_ ?_
  · rw [abs_of_pos p]
    refine low_le.trans ?_
    linarith [e3.1]
  · rw [abs_of_pos p]
    refine le_trans ?_ le_high
    linarith [e3.2]

theorem read_err (hc : Spec.SinglePrec (readBack β : K → K)) {x y a : K} (hy : |y - x| ≤ a * x) (ha : a ≤ 1 / 2 ^ 51)
    (hx : 1 / 2 ^ 126 ≤ x / 2) (hx' : x ≤ 2 ^ 126) : |readBack β y - x| ≤ timeErr * x := by
  have x0 : 0 < x := by
    have : (0 : K) < 1 / 2 ^ 126 := by positivity
    linarith
  have b := abs_le.1 hy
  have c : a * x ≤ x / 2 := by
    have := mul_le_mul_of_nonneg_right ha x0.le
    have e : (1 : K) / 2 ^ 51 * x ≤ x / 2 := by
      have : (1 : K) / 2 ^ 51 ≤ 1 / 2 := by norm_num
      nlinarith
    linarith
  have y0 : 0 < y := by linarith [b.1]
  have := err_step (z := readBack β y) (b := 1 / 2 ^ 24) x0.le (by positivity) hy (by
    rw [one_div_mul_eq_div]
    refine hc.rel y ?_ ?_
    · rw [abs_of_pos y0]; linarith [b.1]
    · rw [abs_of_pos y0]
      have : (2 : K) ^ 126 + 2 ^ 126 = 2 ^ 127 := by norm_num
      linarith [b.2])
  refine this.trans (mul_le_mul_of_nonneg_right ?_ x0.le)
  unfold timeErr
  have e : a + 1 / 2 ^ 24 + a * (1 / 2 ^ 24) = 1 / 2 ^ 24 + a * (1 + 1 / 2 ^ 24) := by ring
  rw [e]
  have f : a * (1 + 1 / 2 ^ 24) ≤ 1 / 2 ^ 51 * (1 + 1 / 2 ^ 24) := mul_le_mul_of_nonneg_right ha (by positivity)
  have g : (1 : K) / 2 ^ 51 * (1 + 1 / 2 ^ 24) ≤ 1 / 2 ^ 50 := by norm_num
  linarith

/-- read-back times of a list of recorded steps -/
theorem times_of (τ : K) (hτ : 0 < τ) {g : ℕ → K} {its : List ℕ} {m s : ℕ} (hs : its.Pairwise (· < ·)) (hle : ∀ it ∈ its, it ≤ m)
    (hd : ∀ it ∈ its, s ∣ it) (h1 : 1 ≤ s) (hm : m ≤ 2 ^ 23 * s) (hg : ∀ it ∈ its, |g it - it * τ| ≤ timeErr * (it * τ)) :
    (its.map g).Pairwise (· < ·) := by
  rw [List.pairwise_map]
  refine hs.imp_of_mem fun {i j} hi hj hij => ?_
  obtain ⟨i', rfl⟩ := hd i hi
  obtain ⟨j', rfl⟩ := hd j hj
  have gi := hg _ hi
  have gj := hg _ hj
  push_cast at gi gj
  have hs0 : (0 : K) < s := by exact_mod_cast h1
  refine grid_lt (τ := s * τ) (v := timeErr) (i := i') (j := j') (mul_pos hs0 hτ) (by unfold timeErr; positivity)
    (Nat.lt_of_mul_lt_mul_left hij) ?_ ?_ ?_
  · have h2 : j' ≤ 2 ^ 23 := by
      have := hle _ hj
      refine Nat.le_of_mul_le_mul_left ?_ h1
      linarith
    have h3 : (j' : K) ≤ 2 ^ 23 := by exact_mod_cast h2
    unfold timeErr
    have : (1 / 2 ^ 24 + 1 / 2 ^ 50) * (2 * (j' : K) - 1) ≤ (1 / 2 ^ 24 + 1 / 2 ^ 50) * (2 * 2 ^ 23 - 1) :=
      mul_le_mul_of_nonneg_left (by linarith) (by positivity)
    refine this.trans_lt ?_
    norm_num
  · rw [← mul_assoc, mul_comm (i' : K)]; exact gi
  · rw [← mul_assoc, mul_comm (j' : K)]; exact gj

variable [F : FloatOps K]

theorem readTimes_of {E : Env K β} {factor : K} {fr : List (K × NS (Cell K))} {rows : List (Cell β)}
    (h : List.Forall₂ (fun fr row => IsFrameRow E factor "time" fr.1 fr.2 row) fr rows) :
    readTimes rows = fr.map fun x => readBack β x.1 := by
  induction h with
  | nil => rfl
  | cons h _ ih =>
    rw [List.map_cons, ← ih]
    unfold IsFrameRow at h
    rw [if_pos rfl] at h
    rw [h]
    rfl

theorem forall2_self {A B : Type} {R : A → B → Prop} {l : List A} {g : A → B} (h : ∀ x ∈ l, R x (g x)) :
    List.Forall₂ R l (l.map g) := by
  induction l with
  | nil => exact .nil
  | cons x l ih => exact .cons (h x (by simp)) (ih fun y hy => h y (by simp [hy]))

/-- **C117, `run`.** Let the times be computed in double precision and stored in single precision. Read back, the time of
every frame differs from `it * step_size` by at most a relative error of `2^-24 + 2^-50`; and as long as at most
`2^23 = 8388608` frames are recorded from time 0 on, the times of the frames increase strictly. -/
theorem C117_run_times_partial {E : Env K β} {a : Args K} {σ : St K β} {hw : Solver K} {ns m : ℕ} {steps : ℤ} {S : ℕ → NS (Cell K)}
    (hF : F = roundedOps fl) (hf : Spec.RelError fl) (hc : Spec.SinglePrec (readBack β : K → K))
    (h : FreshRun E a σ hw ns steps m S) (hp : "time" ∉ a.properties) (h1 : 1 / 2 ^ 125 ≤ a.step_size)
    (h2 : m * a.step_size ≤ 2 ^ 126) :
    ∃ f rows, (run E a σ).2.fs a.output_path = some f ∧ f.dsets "time" = some (.rows .one rows) ∧
      List.Forall₂ (fun (it : ℕ) (t : K) => |t - it * a.step_size| ≤ (1 / 2 ^ 24 + 1 / 2 ^ 50) * (it * a.step_size))
        (recordedSteps a m) (readTimes rows) ∧
      (m ≤ 2 ^ 23 * a.snaps → (readTimes rows : List K).Pairwise (· < ·)) := by
  obtain ⟨f, e1, -, -, -, e2, -⟩ := run_result h
  obtain ⟨rows, e3, e4⟩ := e2 "time" (by simp) hp
  have er := readTimes_of e4
  have hτ : 0 < a.step_size := lt_of_lt_of_le (by positivity) h1
  have h1' : (1 : K) / 2 ^ 126 ≤ a.step_size := le_trans (by norm_num) h1
  have ef : (frames a S m).map (fun x => readBack β x.1)
      = (recordedSteps a m).map fun it => readBack β (if it = 0 then FloatOps.ofInt 0 else stepTime a it) := by
    unfold frames recordedSteps
    rw [List.map_append, List.map_append, List.map_map]
    congr 1
    · split <;> simp
    · refine List.map_congr_left fun it hit => ?_
      have : it ≠ 0 := by
        have := List.mem_range'_1.1 (List.mem_filter.1 hit).1
        omega
      simp [this]
  have hg : ∀ it ∈ recordedSteps a m, |readBack β (if it = 0 then FloatOps.ofInt 0 else stepTime a it) - it * a.step_size|
      ≤ timeErr * (it * a.step_size) := by
    intro it hit
    have hle := its_le hit
    by_cases h0 : it = 0
    · have z : (FloatOps.ofInt 0 : K) = 0 := by
        rw [hF]; change fl ((0 : ℤ) : K) = 0
        rw [Int.cast_zero, hf.zero]
      rw [if_pos h0, h0, z, hc.zero]
      simp
    · rw [if_neg h0]
      have i1 : (1 : K) ≤ it := by exact_mod_cast Nat.one_le_iff_ne_zero.2 h0
      have e : stepTime a it = fl (fl it * a.step_size) := by
        unfold stepTime; rw [hF]; change fl (fl ((it : ℤ) : K) * a.step_size) = _
        rw [Int.cast_natCast]
      rw [e]
      refine read_err hc (mul_err hf h1' h2 hle h0) (by norm_num) ?_ ?_
      · have := le_mul_of_one_le_left hτ.le i1
        have e : (1 : K) / 2 ^ 125 / 2 = 1 / 2 ^ 126 := by norm_num
        linarith
      · exact (mul_le_mul_of_nonneg_right (by exact_mod_cast hle) hτ.le).trans h2
  rw [ef] at er
  refine ⟨f, rows, e1, e3, ?_, fun hm => ?_⟩
  · rw [er]; exact forall2_self hg
  · rw [er]
    exact times_of a.step_size hτ its_sorted (fun it => its_le) (fun it hit => its_dvd (fun it h => by
      unfold isRecorded at h
      rw [Bool.and_eq_true] at h
      exact Nat.dvd_of_mod_eq_zero (by simpa using h.2)) hit) h.snaps hm hg

theorem timeAt_eq (hF : F = roundedOps fl) {E : Env2 K β} {a : Args2 K} (ha : a.adaptive_step_size = false) (t0 : K) {it : ℕ}
    (h0 : it ≠ 0) : timeAt E a t0 it = fl (t0 + fl (fl it * a.step_size)) := by
  unfold timeAt
  rw [if_neg h0, ha, hF]
  change fl (t0 + fl (fl ((it : ℤ) : K) * a.step_size)) = _
  rw [Int.cast_natCast]

/-- **C117, `run2`.** The same for `run2` with fixed steps; frames that are never written (C52) have no time. -/
theorem C117_run2_times_partial {E : Env2 K β} {a : Args2 K} {σ : St K β} {hw : Solver K} {ns m fuel : ℕ} {S : ℕ → NS (Cell K)}
    (hF : F = roundedOps fl) (hf : Spec.RelError fl) (hc : Spec.SinglePrec (readBack β : K → K))
    (h : FreshRun2 E a σ hw ns m S) (hfuel : m < fuel) (ha : a.adaptive_step_size = false) (hp : "time" ∉ a.properties)
    (h1 : 1 / 2 ^ 125 ≤ a.step_size) (h2 : m * a.step_size ≤ 2 ^ 126) :
    ∃ f rows, (run2 E a fuel σ).2.fs a.output_path = some f ∧ f.dsets "time" = some (.rows .one rows) ∧
      List.Forall₂ (fun (it : ℕ) (t : K) => |t - it * a.step_size| ≤ (1 / 2 ^ 24 + 1 / 2 ^ 50) * (it * a.step_size))
        ((recordedSteps2 E a m).take rows.length) (readTimes rows) ∧
      (FloatOps.lt a.recording_start_time (timeAt E a (FloatOps.ofInt 0) m) = true →
        rows.length = (recordedSteps2 E a m).length) ∧
      (m ≤ 2 ^ 23 * a.snaps → (readTimes rows : List K).Pairwise (· < ·)) := by
  obtain ⟨f, e1, -, -, -, -, e2, -, -⟩ := run2_result h hfuel
  obtain ⟨rows, e3, e4⟩ := e2 "time" (by simp) hp
  have er := readTimes_of e4
  have hτ : 0 < a.step_size := lt_of_lt_of_le (by positivity) h1
  have h1' : (1 : K) / 2 ^ 126 ≤ a.step_size := le_trans (by norm_num) h1
  have z : (FloatOps.ofInt 0 : K) = 0 := by
    rw [hF]; change fl ((0 : ℤ) : K) = 0
    rw [Int.cast_zero, hf.zero]
  set g : ℕ → K := fun it => readBack β (timeAt E a (FloatOps.ofInt 0) it) with hgd
  have ef : (frames2 E a S m).map (fun x => readBack β x.1) = (recordedSteps2 E a m).map g := by
    unfold frames2 stepFrames2 recordedSteps2
    rw [List.map_append, List.map_append, List.map_map]
    congr 1
    split <;> simp [hgd, timeAt]
  have hg : ∀ it ∈ recordedSteps2 E a m, |g it - it * a.step_size| ≤ timeErr * (it * a.step_size) := by
    intro it hit
    have hle := its_le hit
    simp only [hgd]
    by_cases h0 : it = 0
    · have : timeAt E a (FloatOps.ofInt 0) 0 = (FloatOps.ofInt 0 : K) := by simp [timeAt]
      rw [h0, this, z, hc.zero]
      simp
    · have i1 : (1 : K) ≤ it := by exact_mod_cast Nat.one_le_iff_ne_zero.2 h0
      rw [timeAt_eq hF ha _ h0, z, zero_add]
      have m1 := mul_err hf h1' h2 hle h0
      have i3 : (it : K) * a.step_size ≤ 2 ^ 126 := (mul_le_mul_of_nonneg_right (by exact_mod_cast hle) hτ.le).trans h2
      have i4 : 1 / 2 ^ 126 ≤ (it : K) * a.step_size := h1'.trans (le_mul_of_one_le_left hτ.le i1)
      have i5 : 0 < (it : K) * a.step_size := mul_pos (by linarith) hτ
      have b := abs_le.1 m1
      have c : (1 / 2 ^ 53 + 1 / 2 ^ 53 + 1 / 2 ^ 53 * (1 / 2 ^ 53) : K) * (it * a.step_size) ≤ 1 / 2 * (it * a.step_size) :=
        mul_le_mul_of_nonneg_right (by norm_num) i5.le
      have p : 0 < fl (fl it * a.step_size) := by linarith [b.1]
      refine read_err hc (err_step (b := 1 / 2 ^ 53) i5.le (by positivity) m1 ?_) (by norm_num) ?_ i3
      · rw [one_div_mul_eq_div]
        refine hf.rel _ ?_ ?_
        · rw [abs_of_pos p]
          refine low_le.trans ?_
          linarith [b.1]
        · rw [abs_of_pos p]
          refine le_trans ?_ le_high
          linarith [b.2]
      · have := le_mul_of_one_le_left hτ.le i1
        have e : (1 : K) / 2 ^ 125 / 2 = 1 / 2 ^ 126 := by norm_num
        linarith
  have hlen := e4.length_eq
  have et : readTimes rows = ((recordedSteps2 E a m).take rows.length).map g := by
    rw [List.map_take, ← ef, ← List.map_take, er]
    congr 1
    rw [← hlen]
    unfold written2
    split
    · rw [List.take_length]
    · rw [List.length_take, List.take_eq_take_min]
  refine ⟨f, rows, e1, e3, ?_, fun hl => ?_, fun hm => ?_⟩
  · rw [et]; exact forall2_self fun it hit => hg it (List.mem_of_mem_take hit)
  · rw [← hlen]
    unfold written2 flushes2
    rw [if_pos hl]
    have := congrArg List.length ef
    simpa using this
  · rw [et, List.map_take]
    refine List.Pairwise.sublist (List.take_sublist _ _) ?_
    exact times_of a.step_size hτ its_sorted (fun it => its_le) (fun it hit => its_dvd (fun it h => by
      unfold isRecorded2 at h
      rw [Bool.and_eq_true] at h
      exact Nat.dvd_of_mod_eq_zero (by simpa using h.2)) hit) h.snaps hm hg

end

/-! ### more frames -/

attribute [local instance] exactOps

/-- **C117 is violated for longer runs**: with `step_size = snaps = 1`, frames `2^24` and `2^24 + 1` of `run` have the same
time if storing rounds `2^24 + 1` as `float32` does. -/
theorem C117_equal_times_violated {K β : Type} [Field K] [LinearOrder K] [IsStrictOrderedRing K] [FloorRing K] [Casts K β]
    [Inhabited K] [Inhabited β] {E : Env K β} {a : Args K} {σ : St K β} {hw : Solver K} {ns m : ℕ} {steps : ℤ}
    {S : ℕ → NS (Cell K)} (h : FreshRun E a σ hw ns steps m S) (hm : m = steps.toNat) (h1 : a.step_size = 1) (hsn : a.snaps = 1)
    (hend : 2 ^ 24 + 1 ≤ a.end_time) (h0 : a.recording_start_time = 0) (hp : a.properties = [])
    (hc : (Casts.f32 (2 ^ 24 + 1 : K) : β) = Casts.f32 (2 ^ 24 : K)) :
    ∃ f rows, (run E a σ).1 = .ok () ∧ (run E a σ).2.fs a.output_path = some f ∧ f.dsets "time" = some (.rows .one rows) ∧
      2 ^ 24 + 1 < rows.length ∧ rows[2 ^ 24]? = rows[2 ^ 24 + 1]? := by
  have he : 0 ≤ a.end_time := le_trans (by positivity) hend
  obtain ⟨f, times, e1, e2, e3, e4, -⟩ := C44_frames_exact h hm (by rw [h1]; exact one_pos) he h0 hp
  have hl : 2 ^ 24 + 1 ≤ ⌊a.end_time / a.step_size⌋.toNat := by
    rw [h1, div_one]
    have : (2 ^ 24 + 1 : ℤ) ≤ ⌊a.end_time⌋ := by rw [Int.le_floor]; exact le_trans (by norm_num) hend
    omega
  rw [hsn, Nat.div_one] at e4
  refine ⟨f, times, e1, e2, e3, by rw [e4, List.length_map, List.length_range]; omega, ?_⟩
  rw [e4, List.getElem?_map, List.getElem?_map, List.getElem?_range (by omega), List.getElem?_range (by omega)]
  simp only [Option.map_some, mul_one, h1]
  norm_num at hc ⊢
  exact hc.symm

/-! ### non-vacuity: a simulation of `model.py`, times in exact arithmetic, storage in single precision -/

/-- a `float32` number -/
structure F32 where
  val : ℝ

noncomputable instance : Inhabited F32 := ⟨⟨0⟩⟩

noncomputable instance f32Casts : Casts ℝ F32 := ⟨fun x => ⟨single x⟩, F32.val⟩

theorem f32_prec : Spec.SinglePrec (readBack F32 : ℝ → ℝ) := single_prec

noncomputable def f32Env : Env ℝ F32 where
  HW p := (hwOf numpyBackend p).map hwSolver
  hasNaN _ := false
  allZero _ := false
  downsample v _ := .ok v
  attrNum := attrReal
  props := { dx := fun _ _ => 1, value := fun _ _ _ _ _ _ => .ok 0 }

noncomputable def f32Args (dt T : ℝ) (s : ℕ) : Args ℝ := { physArgs with step_size := dt, end_time := T, snaps := s }

theorem f32_good {dt T : ℝ} {s : ℕ} (hdt : 0 < dt) (hs : 1 ≤ s) :
    GoodArgs f32Env numpyBackend (f32Args dt T s) ⟨fun _ => none, []⟩ 8 where
  grid := by simp [f32Args, physArgs]
  backend := .inl rfl
  density := ⟨_, rfl, rfl, rfl⟩
  omega := ⟨_, rfl, rfl, rfl⟩
  phi := ⟨_, rfl, rfl, rfl⟩
  path := by simp [f32Args, physArgs]
  fresh := .inl rfl
  buffer := by simp [f32Args, physArgs]
  snaps := hs
  step := hdt
  saves := by
    refine ⟨by simp [saveDim, downsampling, FloatOps.eq, FloatOps.ofInt, f32Args, physArgs], fun h => ?_⟩
    simp [downsampling, FloatOps.eq, FloatOps.ofInt, f32Args, physArgs] at h
  sim := rfl
  attr := rfl
  nan _ := rfl

theorem exact_rounded : (exactOps ℝ) = roundedOps (id : ℝ → ℝ) := rfl

example : ∃ f rows, (run f32Env (f32Args (1 / 40) 1000 3) ⟨fun _ => none, []⟩).2.fs "run.h5" = some f ∧
    f.dsets "time" = some (.rows .one rows) ∧ (readTimes rows : List ℝ).Pairwise (· < ·) := by
  obtain ⟨A, B, C, T, -, -, -, -, h⟩ := fresh_physics (f32_good (dt := 1 / 40) (T := 1000) (s := 3) (by norm_num) (by norm_num))
    (by norm_num [f32Args])
  have e : ⌊(f32Args (1 / 40) 1000 3).end_time / (f32Args (1 / 40) 1000 3).step_size⌋.toNat = 40000 := by
    simp only [f32Args]
    have : (1000 : ℝ) / (1 / 40) = ((40000 : ℤ) : ℝ) := by norm_num
    rw [this, Int.floor_intCast]; rfl
  obtain ⟨f, rows, e1, e2, -, e3⟩ := C117_run_times_partial exact_rounded relError_id f32_prec h (by simp [f32Args, physArgs])
    (by norm_num [f32Args]) (by rw [e]; norm_num [f32Args])
  exact ⟨f, rows, e1, e2, e3 (by rw [e]; norm_num [f32Args])⟩

example : ∃ f rows, (run f32Env (f32Args 1 (2 ^ 25) 1) ⟨fun _ => none, []⟩).2.fs "run.h5" = some f ∧
    f.dsets "time" = some (.rows .one rows) ∧ 2 ^ 24 + 1 < rows.length ∧ rows[2 ^ 24]? = rows[2 ^ 24 + 1]? := by
  obtain ⟨A, B, C, T, -, -, -, -, h⟩ := fresh_physics (f32_good (dt := 1) (T := 2 ^ 25) (s := 1) (by norm_num) (by norm_num))
    (by norm_num [f32Args])
  obtain ⟨f, rows, -, e1, e2, e3, e4⟩ := C117_equal_times_violated h rfl rfl rfl (by norm_num [f32Args]) rfl rfl
    (congrArg F32.mk (single_big.trans single_big'.symm))
  exact ⟨f, rows, e1, e2, e3, e4⟩

noncomputable def f32Env2 : Env2 ℝ F32 :=
  { f32Env with
    propertyFn := fun name => if name = "gamma_c" then some fun _ _ _ _ c1 => .ok c1 else none
    sum := List.sum }

noncomputable def f32Args2 : Args2 ℝ := { physArgs2 with adaptive_step_size := false }

theorem f32_good2 : GoodArgs2 f32Env2 numpyBackend f32Args2 ⟨fun _ => none, []⟩ 8 where
  grid := (by decide : 0 < 8)
  backend := .inl rfl
  density := ⟨_, rfl, rfl, rfl⟩
  omega := ⟨_, rfl, rfl, rfl⟩
  phi := ⟨_, rfl, rfl, rfl⟩
  path := phys_good2.path
  fresh := .inl rfl
  buffer := (by decide : 1 ≤ 101)
  snaps := (by decide : 1 ≤ 4)
  step := phys_good2.step
  saves := by
    have e : f32Args2.downsample_factor = 1 := rfl
    refine ⟨phys_good2.saves.dim, fun h => ?_⟩
    simp [downsampling, FloatOps.eq, FloatOps.ofInt, e] at h
  sim := rfl
  attr := rfl
  nan _ := rfl
  nodup := List.nodup_singleton _
  props name hn := by
    obtain rfl := List.mem_singleton.mp hn
    exact ⟨fun _ _ _ _ c1 => .ok c1, by simp [f32Env2], fun _ _ _ _ _ _ => ⟨_, rfl⟩⟩
  sum _ _ := rfl

example : ∃ f rows, (run2 f32Env2 (f32Args2.until 10) 1000 ⟨fun _ => none, []⟩).2.fs "run.h5" = some f ∧
    f.dsets "time" = some (.rows .one rows) ∧ (readTimes rows : List ℝ).Pairwise (· < ·) := by
  obtain ⟨A, B, C, T, -, -, -, -, hR⟩ := fresh2_physics f32_good2
  obtain ⟨m, hm, h⟩ := hR 10
  have e : m = 400 := hm.unique (C53_step_count (a := f32Args2.until 10) 400 100000
    (by simp only [Run2.Args2.until, f32Args2, physArgs2, physArgs]; norm_num)
    (by simp only [Run2.Args2.until, f32Args2, physArgs2, physArgs]; norm_num)
    (by simp only [Run2.Args2.until, f32Args2, physArgs2, physArgs]; norm_num))
  subst e
  obtain ⟨f, rows, e1, e2, -, -, e3⟩ := C117_run2_times_partial exact_rounded relError_id f32_prec h (fuel := 1000)
    (by norm_num) rfl (by simp [Run2.Args2.until, f32Args2, physArgs2])
    (by simp only [Run2.Args2.until, f32Args2, physArgs2, physArgs]; norm_num)
    (by simp only [Run2.Args2.until, f32Args2, physArgs2, physArgs]; norm_num)
  exact ⟨f, rows, e1, e2, e3 (by simp only [Run2.Args2.until, f32Args2, physArgs2, physArgs]; norm_num)⟩

end Verif.Props
