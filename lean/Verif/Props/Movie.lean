import Verif.Lemmas.Movie
import Mathlib.Tactic.IntervalCases

/-!
# C65, C66, C67: movies
-/

set_option linter.unusedSectionVars false

namespace Verif.Props

open H5IO Movie

variable {K : Type} [Field K] [LinearOrder K] [IsStrictOrderedRing K] [FloorRing K]

/-! ### C65: the frames of a movie -/

set_option exponentiation.threshold 2000 in
theorem step_ne_zero {fl : K → K} (hfl : Spec.RelError fl) (frame_dt speed : K) (m : ℤ) (hm : 0 < m)
    (d1 : 1 / 2 ^ 100 ≤ frame_dt) (s1 : 1 / 2 ^ 100 ≤ speed) (d2 : frame_dt ≤ 2 ^ 100) (s2 : speed ≤ 2 ^ 100) :
    fl ((max 1 ((truncZ (fl (speed / frame_dt))).fdiv m) : ℤ) : K) ≠ 0 := by
  have hdt : 0 < frame_dt := lt_of_lt_of_le (by positivity) d1
  have hsp : 0 < speed := lt_of_lt_of_le (by positivity) s1
  have q1 : speed / frame_dt ≤ 2 ^ 200 := by
    rw [div_le_iff₀ hdt]
    calc speed ≤ 2 ^ 100 := s2
      _ = 2 ^ 200 * (1 / 2 ^ 100) := by norm_num
      _ ≤ _ := mul_le_mul_of_nonneg_left d1 (by positivity)
  have q2 : 1 / 2 ^ 200 ≤ speed / frame_dt := by
    rw [le_div_iff₀ hdt]
    calc (1 : K) / 2 ^ 200 * frame_dt ≤ 1 / 2 ^ 200 * 2 ^ 100 := mul_le_mul_of_nonneg_left d2 (by positivity)
      _ = 1 / 2 ^ 100 := by norm_num
      _ ≤ _ := s1
  obtain ⟨a, b⟩ := fl_half hfl (x := speed / frame_dt)
    ((one_div_le_one_div_of_le (by positivity) (pow_le_pow_two (by norm_num))).trans q2)
    (q1.trans (pow_le_pow_two (by norm_num)))
  generalize fl (speed / frame_dt) = r at a b
  have hr : 0 ≤ r := le_trans (by positivity) a
  have hr2 : r ≤ 2 ^ 201 := by
    calc r ≤ 2 * (speed / frame_dt) := b
      _ ≤ 2 * 2 ^ 200 := mul_le_mul_of_nonneg_left q1 (by norm_num)
      _ = _ := by norm_num
  have hz : truncZ r = ⌊r⌋ := if_pos hr
  have hz0 : 0 ≤ truncZ r := by rw [hz]; exact Int.floor_nonneg.2 hr
  have hz1 : ((truncZ r : ℤ) : K) ≤ r := by rw [hz]; exact Int.floor_le r
  have hle : (truncZ r).fdiv m ≤ truncZ r := by
    rw [Int.fdiv_eq_ediv_of_nonneg _ hm.le]
    exact Int.ediv_le_self _ hz0
  generalize truncZ r = f at *
  have h1 : (1 : K) ≤ ((max 1 (f.fdiv m) : ℤ) : K) := by exact_mod_cast le_max_left _ _
  have h2 : ((max 1 (f.fdiv m) : ℤ) : K) ≤ 2 ^ 1000 := by
    have h3 : ((f.fdiv m : ℤ) : K) ≤ f := by exact_mod_cast hle
    have h4 : (1 : K) ≤ 2 ^ 1000 := one_le_pow₀ (by norm_num)
    have h5 : (2 : K) ^ 201 ≤ 2 ^ 1000 := pow_le_pow_two (by norm_num)
    rw [Int.cast_max, Int.cast_one, max_le_iff]
    exact ⟨h4, h3.trans (hz1.trans (hr2.trans h5))⟩
  have h6 : (1 : K) / 2 ^ 1000 ≤ 1 := by rw [div_le_one (by positivity)]; exact one_le_pow₀ (by norm_num)
  have := (fl_half hfl (h6.trans h1) h2).1
  exact (lt_of_lt_of_le (by positivity) this).ne'

/-- **C65**, files with fixed frame distance that start at time 0 (attribute
`initial_time` 0 or missing): the movie shows the frames `0, s, 2 s, ...` up to
the end of the file for some `s ≥ 1`; every frame shown exists, and they are
shown in order without repetition.  This holds in floating-point arithmetic: the
only assumption is a relative rounding error of at most `2^-53`. -/
theorem C65_equally_spaced_partial {fl : K → K} (hfl : Spec.RelError fl) (n : ℕ) (n1 : 1 ≤ n) (n2 : n ≤ 2 ^ 49)
    (frame_dt speed : K) (d1 : 1 / 2 ^ 100 ≤ frame_dt) (d2 : frame_dt ≤ 2 ^ 100) (s1 : 1 / 2 ^ 100 ≤ speed)
    (s2 : speed ≤ 2 ^ 100) (min_fps : ℤ) (hm : 0 < min_fps) (init : Option K) (hi : init = none ∨ init = some 0) :
    ∃ p s, @equallySpaced K (roundedOps fl) n frame_dt init 0 none speed min_fps = .ok p ∧ 1 ≤ s ∧
      p.frames = (List.range ((n - 1) / s + 1)).map (fun i => ((s * i : ℕ) : ℤ)) ∧
      (∀ f ∈ p.frames, 0 ≤ f ∧ f < n) ∧ p.frames.Pairwise (· < ·) := by
  have hdt : 0 < frame_dt := lt_of_lt_of_le (by positivity) d1
  have hinit : init.getD (fl ((0 : ℤ) : K)) = 0 := by
    rcases hi with rfl | rfl
    · simp [hfl.zero]
    · rfl
  have hs := step_ne_zero hfl frame_dt speed min_fps hm d1 s1 d2 s2
  have h0 : roundEven (fl (fl (0 - 0) / frame_dt)) = 0 := by
    rw [sub_zero, hfl.zero, zero_div, hfl.zero]
    exact roundEven_near 0 0 (by norm_num)
  have h1 : roundEven (fl (fl (fl (fl (((n : ℤ) - 1 : ℤ) : K) * frame_dt) - 0) / frame_dt)) = (n : ℤ) - 1 := by
    have := round_frames hfl (n - 1) (by omega) frame_dt d1 d2
    have e : (((n : ℤ) - 1 : ℤ) : K) = ((n - 1 : ℕ) : K) := by
      rw [Nat.cast_sub n1]; push_cast; ring
    rw [e, this]
    omega
  obtain ⟨s, hs'⟩ : ∃ s : ℕ, max 1 ((truncZ (fl (speed / frame_dt))).fdiv min_fps) = s :=
    ⟨_, (Int.toNat_of_nonneg (le_trans zero_le_one (le_max_left _ _))).symm⟩
  have hs1 : 1 ≤ s := by
    have : (1 : ℤ) ≤ s := by rw [← hs']; exact le_max_left _ _
    exact_mod_cast this
  have hrun : @equallySpaced K (roundedOps fl) n frame_dt init 0 none speed min_fps =
      .ok ⟨pyRange 0 n s, s, fl (fl (truncZ (fl (speed / frame_dt)) : K) / fl (s : K))⟩ := by
    rw [hs'] at hs
    simp only [equallySpaced, time_to_length, rd_ofInt, rd_sub, rd_mul, rd_div, rd_round, rd_toInt, hinit, if_neg hdt.ne', Py.ok_bind, h0, h1, if_neg hm.ne',
      hs', if_neg hs]
    rw [show (n : ℤ) - 1 + 1 = n by ring]
    simp
  refine ⟨_, s, hrun, hs1, pyRange_zero n s n1 hs1, ?_, ?_⟩
  · intro f hf
    simp only at hf
    rw [pyRange_zero n s n1 hs1, List.mem_map] at hf
    obtain ⟨i, hi, rfl⟩ := hf
    rw [List.mem_range] at hi
    have : s * i ≤ n - 1 := le_trans (Nat.mul_le_mul_left s (by omega)) (Nat.mul_div_le _ _)
    constructor
    · positivity
    · have : s * i < n := by omega
      exact_mod_cast this
  · simp only
    rw [pyRange_zero n s n1 hs1, List.pairwise_map]
    exact List.pairwise_lt_range.imp fun h => by
      exact_mod_cast Nat.mul_lt_mul_of_pos_left h hs1

/-- a file with 1000 frames at distance 0.1 in double precision -/
example : ∃ p s, @equallySpaced ℚ doubleOps 1000 (rne (1 / 10)) none 0 none 10 10 = .ok p ∧ 1 ≤ s ∧
      p.frames = (List.range ((1000 - 1) / s + 1)).map (fun i => ((s * i : ℕ) : ℤ)) :=
  let ⟨p, s, h1, h2, h3, _⟩ := C65_equally_spaced_partial relError_rne 1000 (by norm_num) (by norm_num) (rne (1 / 10)) 10
    (by decide +kernel) (by decide +kernel) (by decide +kernel) (by decide +kernel) 10 (by norm_num) none (.inl rfl)
  ⟨p, s, h1, h2, h3⟩

section exact
attribute [local instance] exactOps

/-- the frames of a file that starts at `m * frame_dt`, exact arithmetic -/
theorem frames_offset (n : ℕ) (m : ℤ) (frame_dt speed : K) (hd : 0 < frame_dt) (min_fps : ℤ) (hm : min_fps ≠ 0) :
    ∃ p, equallySpaced n frame_dt (some (m * frame_dt)) 0 none speed min_fps = .ok p ∧ 1 ≤ p.step ∧
      p.frames = pyRange (-m) (n - m) p.step ∧ p.step = max 1 ((truncZ (speed / frame_dt)).fdiv min_fps) ∧
      p.fps = (truncZ (speed / frame_dt) : K) / (p.step : K) := by
  have e1 : (0 - (m : K) * frame_dt) / frame_dt = ((-m : ℤ) : K) := by
    rw [div_eq_iff hd.ne']; push_cast; ring
  have e2 : ((((n : ℤ) - 1 : ℤ) : K) * frame_dt - (m : K) * frame_dt) / frame_dt = (((n : ℤ) - 1 - m : ℤ) : K) := by
    rw [div_eq_iff hd.ne']; push_cast; ring
  have r : ∀ z : ℤ, roundEven (z : K) = z := fun z => roundEven_near _ _ (by rw [sub_self, abs_zero]; norm_num)
  have hs : ((max 1 ((truncZ (speed / frame_dt)).fdiv min_fps) : ℤ) : K) ≠ 0 := by
    have : (1 : K) ≤ ((max 1 ((truncZ (speed / frame_dt)).fdiv min_fps) : ℤ) : K) := by
      exact_mod_cast le_max_left _ _
    exact (lt_of_lt_of_le one_pos this).ne'
  refine ⟨⟨pyRange (-m) (n - m) (max 1 ((truncZ (speed / frame_dt)).fdiv min_fps)),
    max 1 ((truncZ (speed / frame_dt)).fdiv min_fps),
    (truncZ (speed / frame_dt) : K) / ((max 1 ((truncZ (speed / frame_dt)).fdiv min_fps) : ℤ) : K)⟩, ?_,
    le_max_left _ _, rfl, rfl, rfl⟩
  · simp only [equallySpaced, time_to_length, ex_ofInt, ex_sub, ex_mul, ex_div, ex_round, ex_toInt, Option.getD_some, if_neg hd.ne', Py.ok_bind, e1, e2, r, if_neg hm,
      if_neg hs]
    rw [show (n : ℤ) - 1 - m + 1 = n - m by ring]

/-- **C65 is violated for files that do not start at time 0**, which is what
`run` writes with `recording_start_time > 0`: the movie of a file starting at
`m * frame_dt` starts with the index `-m`.  For `m ≤ n` that is the frame `n - m`
counted from the end instead of frame 0, for `m > n` an `IndexError`. -/
theorem C65_initial_time_violated (n : ℕ) (hn : 1 ≤ n) (m : ℕ) (hm : 1 ≤ m) (frame_dt speed : K) (hd : 0 < frame_dt)
    (min_fps : ℤ) (hf : min_fps ≠ 0) :
    ∃ p, equallySpaced n frame_dt (some (m * frame_dt)) 0 none speed min_fps = .ok p ∧
      p.frames.head? = some (-(m : ℤ)) ∧ ∀ {β : Type} (ds : List β), ds.length = n →
        (∀ x, m ≤ n → ds[n - m]? = some x → h5row ds (-(m : ℤ)) = .ok x) ∧
          (n < m → h5row ds (-(m : ℤ)) = .error .indexError) := by
  obtain ⟨p, h1, h2, h3, -⟩ := frames_offset n m frame_dt speed hd min_fps hf
  refine ⟨p, by exact_mod_cast h1, ?_, fun {β} ds hds => ⟨fun x h hx => ?_, fun h => ?_⟩⟩
  · rw [h3]
    exact pyRange_head _ _ _ (by omega) h2
  · unfold h5row
    simp only
    have c : -(m : ℤ) < 0 := by omega
    rw [if_pos c, if_neg (by omega)]
    have e : (-(m : ℤ) + ds.length).toNat = n - m := by omega
    rw [e, hx]
  · unfold h5row
    simp only
    have c : -(m : ℤ) < 0 := by omega
    rw [if_pos c, if_pos (by omega)]

example : ∃ p, equallySpaced 10 (1 / 10 : ℚ) (some ((3 : ℕ) * (1 / 10))) 0 none 10 10 = .ok p ∧
      p.frames.head? = some (-3) :=
  let ⟨p, h1, h2, _⟩ := C65_initial_time_violated (K := ℚ) 10 (by norm_num) 3 (by norm_num) (1 / 10) 10 (by norm_num) 10 (by norm_num)
  ⟨p, h1, h2⟩

/-! Files with adaptive time steps -/

theorem searchsorted_le (times : List K) {u v : K} (h : u ≤ v) : searchsorted times u ≤ searchsorted times v := by
  unfold searchsorted
  apply List.countP_mono_left
  intro x _ hx
  simp only [ex_lt, decide_eq_true_eq] at hx ⊢
  exact lt_of_lt_of_le hx h

theorem searchsorted_lt (times : List K) {u v t : K} (ht : t ∈ times) (h1 : u ≤ t) (h2 : t < v) :
    searchsorted times u < searchsorted times v := by
  obtain ⟨a, b, rfl⟩ := List.append_of_mem ht
  have ha := searchsorted_le a (h1.trans h2.le)
  have hb := searchsorted_le b (h1.trans h2.le)
  unfold searchsorted at *
  rw [List.countP_append, List.countP_append, List.countP_cons_of_neg (by simp [ex_lt, h1]),
    List.countP_cons_of_pos (by simp [ex_lt, h2])]
  omega

theorem unequally_eq (times : List K) (T speed min_fps : K) (hT : times.getLast? = some T) (hT0 : 0 ≤ T)
    (hs : 0 < speed) (hm : 0 < min_fps) : unequallySpaced times none speed min_fps =
      .ok ((List.range (⌊T / (speed / min_fps)⌋₊ + 1)).map fun i : ℕ =>
        (searchsorted times ((i : K) * (speed / min_fps)) : ℤ)) := by
  have htp : 0 < speed / min_fps := div_pos hs hm
  have hq : 0 ≤ T / (speed / min_fps) := div_nonneg hT0 htp.le
  have e : truncZ (T / (speed / min_fps)) + 1 = ((⌊T / (speed / min_fps)⌋₊ + 1 : ℕ) : ℤ) := by
    rw [truncZ, if_pos hq, Nat.cast_add, ← Int.natCast_floor_eq_floor hq]
    rfl
  simp only [unequallySpaced, ex_ofInt, ex_mul, ex_div, ex_toInt, hT, Py.ok_bind, if_neg hm.ne', if_neg htp.ne']
  rw [e, pyRange_one, List.map_map]
  congr 1
  refine List.map_congr_left fun i _ => ?_
  simp only [Function.comp_apply, Int.cast_natCast]

/-- **C65**, files with adaptive steps, exact arithmetic: every frame shown
exists, and they are shown in order. -/
theorem C65_unequally_spaced_partial (times : List K) (T speed min_fps : K) (hT : times.getLast? = some T)
    (hT0 : 0 ≤ T) (hs : 0 < speed) (hm : 0 < min_fps) :
    ∃ frames, unequallySpaced times none speed min_fps = .ok frames ∧
      (∀ f ∈ frames, 0 ≤ f ∧ f < times.length) ∧ frames.Pairwise (· ≤ ·) := by
  have htp : 0 < speed / min_fps := div_pos hs hm
  refine ⟨_, unequally_eq times T speed min_fps hT hT0 hs hm, ?_, ?_⟩
  · intro f hf
    rw [List.mem_map] at hf
    obtain ⟨i, hi, rfl⟩ := hf
    rw [List.mem_range] at hi
    refine ⟨by positivity, ?_⟩
    have h1 : (i : K) * (speed / min_fps) ≤ T := by
      rw [← le_div_iff₀ htp]
      exact le_trans (by exact_mod_cast (by omega : i ≤ ⌊T / (speed / min_fps)⌋₊)) (Nat.floor_le (div_nonneg hT0 htp.le))
    have h2 : searchsorted times ((i : K) * (speed / min_fps)) < times.length := by
      have h3 := searchsorted_lt times (t := T) (v := T + 1) (List.mem_of_getLast? hT) h1 (by linarith)
      exact lt_of_lt_of_le h3 List.countP_le_length
    exact_mod_cast h2
  · rw [List.pairwise_map]
    refine List.pairwise_lt_range.imp fun {a b} h => ?_
    have : (a : K) * (speed / min_fps) ≤ b * (speed / min_fps) :=
      mul_le_mul_of_nonneg_right (by exact_mod_cast h.le) htp.le
    exact_mod_cast searchsorted_le times this

/-- **C65**, adaptive steps, exact arithmetic: no frame is shown twice, if every
interval of the length `speed / min_fps` between two movie frames contains a
recorded time. -/
theorem C65_unequally_spaced_once_partial (times : List K) (T speed min_fps : K) (hT : times.getLast? = some T)
    (hT0 : 0 ≤ T) (hs : 0 < speed) (hm : 0 < min_fps)
    (hd : ∀ i : ℕ, (i + 1 : ℕ) * (speed / min_fps) ≤ T →
      ∃ t ∈ times, i * (speed / min_fps) ≤ t ∧ t < (i + 1 : ℕ) * (speed / min_fps)) :
    ∃ frames, unequallySpaced times none speed min_fps = .ok frames ∧ frames.Pairwise (· < ·) := by
  have htp : 0 < speed / min_fps := div_pos hs hm
  refine ⟨_, unequally_eq times T speed min_fps hT hT0 hs hm, ?_⟩
  rw [List.pairwise_map]
  refine List.pairwise_lt_range.imp_of_mem fun {a b} ha hb h => ?_
  rw [List.mem_range] at hb
  have hbT : (b : K) * (speed / min_fps) ≤ T := by
    rw [← le_div_iff₀ htp]
    exact le_trans (by exact_mod_cast (by omega : b ≤ ⌊T / (speed / min_fps)⌋₊)) (Nat.floor_le (div_nonneg hT0 htp.le))
  have hab : ((a + 1 : ℕ) : K) * (speed / min_fps) ≤ b * (speed / min_fps) :=
    mul_le_mul_of_nonneg_right (by exact_mod_cast h) htp.le
  obtain ⟨t, ht, h1, h2⟩ := hd a (hab.trans hbT)
  exact_mod_cast searchsorted_lt times ht h1 (lt_of_lt_of_le h2 hab)

/-- **C65 is violated for adaptive steps**: whenever no time was recorded between
two movie frames, the same frame is shown twice. -/
theorem C65_unequally_spaced_violated (times : List K) (T speed min_fps : K) (hT : times.getLast? = some T)
    (hT0 : 0 ≤ T) (hs : 0 < speed) (hm : 0 < min_fps) (i : ℕ) (hi : (i + 1 : ℕ) * (speed / min_fps) ≤ T)
    (hd : ∀ t ∈ times, ¬ (i * (speed / min_fps) ≤ t ∧ t < (i + 1 : ℕ) * (speed / min_fps))) :
    ∃ frames, unequallySpaced times none speed min_fps = .ok frames ∧ ¬ frames.Nodup := by
  have htp : 0 < speed / min_fps := div_pos hs hm
  refine ⟨_, unequally_eq times T speed min_fps hT hT0 hs hm, fun hn => ?_⟩
  have hfl : i + 1 ≤ ⌊T / (speed / min_fps)⌋₊ := Nat.le_floor ((le_div_iff₀ htp).2 hi)
  have he : searchsorted times ((i : K) * (speed / min_fps)) = searchsorted times ((i + 1 : ℕ) * (speed / min_fps)) := by
    apply le_antisymm (searchsorted_le _ (mul_le_mul_of_nonneg_right (by exact_mod_cast Nat.le_succ i) htp.le))
    unfold searchsorted
    apply List.countP_mono_left
    intro x hx h
    simp only [ex_lt, decide_eq_true_eq] at h ⊢
    by_contra hc
    exact hd x hx ⟨not_lt.1 hc, h⟩
  have := List.inj_on_of_nodup_map hn (x := i) (List.mem_range.2 (by omega)) (y := i + 1) (List.mem_range.2 (by omega))
    (by rw [he])
  omega

/-- times 0, 1, 5: the frame at time 5 is shown for every movie time from 2 to 5 -/
example : ∃ frames, unequallySpaced [0, 1, (5 : ℚ)] none 10 10 = .ok frames ∧ ¬ frames.Nodup :=
  C65_unequally_spaced_violated _ 5 10 10 rfl (by norm_num) (by norm_num) (by norm_num) 2 (by norm_num) (by
    intro t ht
    simp only [List.mem_cons, List.not_mem_nil, or_false] at ht
    rcases ht with rfl | rfl | rfl <;> norm_num)

example : ∃ frames, unequallySpaced [0, 1, 2, (3 : ℚ)] none 10 10 = .ok frames ∧ frames.Pairwise (· < ·) :=
  C65_unequally_spaced_once_partial _ 3 10 10 rfl (by norm_num) (by norm_num) (by norm_num) (by
    intro i hi
    have : i < 3 := by
      have : ((i + 1 : ℕ) : ℚ) ≤ 3 := by linarith
      have : i + 1 ≤ 3 := by exact_mod_cast this
      omega
    interval_cases i
    · exact ⟨0, by simp, by norm_num, by norm_num⟩
    · exact ⟨1, by simp, by norm_num, by norm_num⟩
    · exact ⟨2, by simp, by norm_num, by norm_num⟩)

end exact

/-- **C65 is violated in double precision for adaptive steps**: with `speed = 1`,
`min_fps = 10` and a file ending at 1.7 the movie asks for a frame after the last
one (`17 * 0.1 > 1.7` although `int(1.7 / 0.1)` is 17), an `IndexError`. -/
theorem C65_unequally_spaced_double_violated : ∃ frames,
    @unequallySpaced ℚ doubleOps [0, rne (17 / 10)] none 1 10 = .ok frames ∧ 2 ∈ frames ∧
      ∀ {β : Type} (x y : β), h5row [x, y] 2 = .error .indexError :=
  ⟨[0, 1, 1, 1, 1, 1, 1, 1, 1, 1, 1, 1, 1, 1, 1, 1, 1, 2], by decide +kernel, by decide, fun _ _ => rfl⟩

/-! ### C66: the frame rate -/

section exact
attribute [local instance] exactOps

/-- **C66.**  If the data provides `min_fps` frames per second at the requested
speed, the movie has at least `min_fps` and less than `2 * min_fps` frames per
second. -/
theorem C66_min_fps (n : ℕ) (frame_dt speed : K) (init : Option K) (t0 : K) (t1 : Option K) (min_fps : ℤ)
    (hd : 0 < frame_dt) (hm : 0 < min_fps) (hdata : (min_fps : K) ≤ speed / frame_dt) :
    ∃ p, equallySpaced n frame_dt init t0 t1 speed min_fps = .ok p ∧ (min_fps : K) ≤ p.fps ∧ p.fps < 2 * min_fps := by
  have hm' : (0 : K) < min_fps := by exact_mod_cast hm
  have hq : 0 ≤ speed / frame_dt := hm'.le.trans hdata
  have ht : truncZ (speed / frame_dt) = ⌊speed / frame_dt⌋ := if_pos hq
  have hf : min_fps ≤ ⌊speed / frame_dt⌋ := Int.le_floor.2 hdata
  generalize hfz : ⌊speed / frame_dt⌋ = f at *
  have hdiv : f.fdiv min_fps = f / min_fps := Int.fdiv_eq_ediv_of_nonneg _ hm.le
  have hq1 : 1 ≤ f / min_fps := Int.le_ediv_of_mul_le hm (by omega)
  have hmax : max 1 (f.fdiv min_fps) = f / min_fps := by rw [hdiv, max_eq_right hq1]
  have hk : (0 : K) < ((f / min_fps : ℤ) : K) := by exact_mod_cast (by omega : (0 : ℤ) < f / min_fps)
  have e1 := Int.mul_ediv_self_le (x := f) hm.ne'
  have e2 := Int.lt_mul_ediv_self_add (x := f) hm
  have b1 : (min_fps : K) * ((f / min_fps : ℤ) : K) ≤ f := by exact_mod_cast e1
  have b2 : (f : K) < 2 * (min_fps : K) * ((f / min_fps : ℤ) : K) := by
    have : f < 2 * min_fps * (f / min_fps) := by nlinarith
    exact_mod_cast this
  refine ⟨_, by
    simp only [equallySpaced, time_to_length, ex_ofInt, ex_sub, ex_mul, ex_div, ex_round, ex_toInt, if_neg hd.ne',
      Py.ok_bind, if_neg hm.ne', ht, hmax, if_neg hk.ne']
    rfl, ?_, ?_⟩
  · exact (le_div_iff₀ hk).2 b1
  · exact (div_lt_iff₀ hk).2 b2

/-- **C66.**  The movie plays at the requested speed up to one frame: the
simulated time per second, `fps * step * frame_dt`, lies between
`speed - frame_dt` and `speed`. -/
theorem C66_speed (n : ℕ) (frame_dt speed : K) (init : Option K) (t0 : K) (t1 : Option K) (min_fps : ℤ)
    (hd : 0 < frame_dt) (hs : 0 ≤ speed) (hm : min_fps ≠ 0) :
    ∃ p, equallySpaced n frame_dt init t0 t1 speed min_fps = .ok p ∧ p.fps * p.step * frame_dt ≤ speed ∧
      speed - frame_dt < p.fps * p.step * frame_dt := by
  have ht : truncZ (speed / frame_dt) = ⌊speed / frame_dt⌋ := if_pos (div_nonneg hs hd.le)
  have hk : ((max 1 (⌊speed / frame_dt⌋.fdiv min_fps) : ℤ) : K) ≠ 0 := by
    have : (1 : K) ≤ ((max 1 (⌊speed / frame_dt⌋.fdiv min_fps) : ℤ) : K) := by exact_mod_cast le_max_left _ _
    exact (lt_of_lt_of_le one_pos this).ne'
  have f1 := Int.floor_le (speed / frame_dt)
  have f2 := Int.lt_floor_add_one (speed / frame_dt)
  refine ⟨_, by
    simp only [equallySpaced, time_to_length, ex_ofInt, ex_sub, ex_mul, ex_div, ex_round, ex_toInt, if_neg hd.ne',
      Py.ok_bind, if_neg hm, ht, if_neg hk]
    rfl, ?_, ?_⟩
  · simp only
    rw [div_mul_cancel₀ _ hk]
    exact (le_div_iff₀ hd).1 f1
  · simp only
    rw [div_mul_cancel₀ _ hk]
    have := (div_lt_iff₀ hd).1 f2
    linarith

example : ∃ p, equallySpaced 100 (1 / 40 : ℚ) none 0 none 1 10 = .ok p ∧ ((10 : ℤ) : ℚ) ≤ p.fps :=
  let ⟨p, h1, h2, _⟩ := C66_min_fps 100 (1 / 40 : ℚ) 1 none 0 none 10 (by norm_num) (by norm_num) (by norm_num)
  ⟨p, h1, h2⟩

end exact

/-! ### C67: colour limits -/

/-- what an axis must show after an animation frame: the data of the frame `arr`
with symmetric limits `(-L, L)` that contain all values and lie between the
largest absolute value of the frame and that of the previous limits -/
structure Shows (before after : Axis K) (arr : Arr K) : Prop where
  data : after.data = arr
  symm : after.clim.1 = -after.clim.2
  inside : ∀ i j, -after.clim.2 ≤ arr.get i j ∧ arr.get i j ≤ after.clim.2
  between : ∃ i j, after.clim.2 ≤ max |arr.get i j| (max |before.clim.1| before.clim.2)

/-- **C67.**  One animation frame, from every previous state of the axes: the new
limits contain all values of the frame, and lie between the new and the previous
maximum. -/
theorem C67_frame (hf : String → Option (List (Arr K))) (zero_omega : Bool) (t : ℤ) (name : String) (ax ax' : Axis K)
    (h : animateAxis hf zero_omega t name ax = .ok ax') :
    ∃ ds arr, hf name = some ds ∧ h5row ds t = .ok arr ∧
      Shows ax ax' (if zero_omega = true ∧ name = "omega" then arr.map (· - arr.mean) else arr) := by
  unfold animateAxis at h
  cases hds : hf name with
  | none => rw [hds] at h; cases h
  | some ds =>
    rw [hds] at h
    cases harr : h5row ds t with
    | error e => simp only [harr, Py.ok_bind, Py.error_bind] at h; cases h
    | ok arr =>
      refine ⟨ds, arr, rfl, harr, ?_⟩
      simp only [harr, Py.ok_bind] at h
      generalize (if zero_omega = true ∧ name = "omega" then arr.map (· - arr.mean) else arr) = a at h ⊢
      cases hM : npMax a with
      | error e => simp only [hM, Py.error_bind] at h; cases h
      | ok vmax =>
        cases hm : npMin a with
        | error e => simp only [hM, hm, Py.ok_bind, Py.error_bind] at h; cases h
        | ok vmin =>
          simp only [hM, hm, Py.ok_bind] at h
          injection h with h
          subst h
          obtain ⟨⟨iM, jM, eM⟩, hM'⟩ := npMax_spec a vmax hM
          obtain ⟨⟨im, jm, em⟩, hm'⟩ := npMin_spec a vmin hm
          obtain ⟨s1, s2⟩ := smooth_le (max |vmin| vmax) (max |ax.clim.1| ax.clim.2)
          refine ⟨rfl, rfl, fun i j => ?_, ?_⟩
          · have h1 := hM' i j
            have h2 := hm' i j
            have h3 : vmax ≤ max |vmin| vmax := le_max_right _ _
            have h4 : -vmin ≤ max |vmin| vmax := (neg_le_abs _).trans (le_max_left _ _)
            constructor <;> linarith
          · rcases le_total |vmin| vmax with h | h
            · refine ⟨iM, jM, s2.trans (max_le_max_right _ ?_)⟩
              rw [max_eq_right h, eM]; exact le_abs_self _
            · refine ⟨im, jm, s2.trans (max_le_max_right _ ?_)⟩
              rw [max_eq_left h, em]

/-- **C67.**  A whole movie: for every sequence of frames and every initial state
of the axes, every axis shows the frame with limits as in `Shows`, relative to
its limits in the frame before. -/
theorem C67_movie (hf : String → Option (List (Arr K))) (zero_omega : Bool) (ts : List ℤ) :
    ∀ (axes : List (String × Axis K)) (states : List (List (String × Axis K))),
      animation hf zero_omega ts axes = .ok states →
      List.Forall₂ (fun (t : ℤ) (s : List (String × Axis K) × List (String × Axis K)) =>
        List.Forall₂ (fun b a => b.1 = a.1 ∧ ∃ ds arr, hf a.1 = some ds ∧ h5row ds t = .ok arr ∧
          Shows b.2 a.2 (if zero_omega = true ∧ a.1 = "omega" then arr.map (· - arr.mean) else arr)) s.1 s.2)
        ts ((axes :: states).zip states) := by
  have one : ∀ (t : ℤ) (axes axes' : List (String × Axis K)), animate hf zero_omega t axes = .ok axes' →
      List.Forall₂ (fun b a => b.1 = a.1 ∧ ∃ ds arr, hf a.1 = some ds ∧ h5row ds t = .ok arr ∧
        Shows b.2 a.2 (if zero_omega = true ∧ a.1 = "omega" then arr.map (· - arr.mean) else arr)) axes axes' := by
    intro t axes
    induction axes with
    | nil => intro axes' h; injection h with h; subst h; exact .nil
    | cons x rest ih =>
      obtain ⟨name, ax⟩ := x
      intro axes' h
      unfold animate at h
      cases h1 : animateAxis hf zero_omega t name ax with
      | error e => rw [h1] at h; cases h
      | ok ax' =>
        cases h2 : animate hf zero_omega t rest with
        | error e => rw [h1, h2] at h; cases h
        | ok rest' =>
          rw [h1, h2] at h
          injection h with h
          subst h
          exact .cons ⟨rfl, C67_frame hf zero_omega t name ax ax' h1⟩ (ih rest' h2)
  induction ts with
  | nil =>
    intro axes states h
    injection h with h
    subst h
    exact .nil
  | cons t ts ih =>
    intro axes states h
    unfold animation at h
    cases h1 : animate hf zero_omega t axes with
    | error e => rw [h1] at h; cases h
    | ok axes' =>
      cases h2 : animation hf zero_omega ts axes' with
      | error e => simp only [h1, h2, Py.ok_bind, Py.error_bind] at h; cases h
      | ok rest =>
        simp only [h1, h2, Py.ok_bind] at h
        injection h with h
        subst h
        exact .cons (one t axes axes' h1) (ih axes' rest h2)

theorem animate_ok (hf : String → Option (List (Arr K))) (zero_omega : Bool) (t : ℤ) (axes : List (String × Axis K))
    (h : ∀ x ∈ axes, ∃ ds arr, hf x.1 = some ds ∧ h5row ds t = .ok arr ∧ 0 < arr.h ∧ 0 < arr.w) :
    ∃ axes', animate hf zero_omega t axes = .ok axes' ∧ axes'.map (·.1) = axes.map (·.1) := by
  induction axes with
  | nil => exact ⟨[], rfl, rfl⟩
  | cons x rest ih =>
    obtain ⟨name, ax⟩ := x
    obtain ⟨r, hr, hr'⟩ := ih fun x hx => h x (List.mem_cons_of_mem _ hx)
    obtain ⟨ds, arr, h1, h2, h3, h4⟩ := h _ List.mem_cons_self
    have : ∃ a, animateAxis hf zero_omega t name ax = .ok a := by
      unfold animateAxis
      simp only at h1
      rw [h1]
      simp only [h2, Py.ok_bind]
      have : 0 < (if zero_omega = true ∧ name = "omega" then arr.map (· - arr.mean) else arr).h ∧
          0 < (if zero_omega = true ∧ name = "omega" then arr.map (· - arr.mean) else arr).w := by
        split_ifs
        exacts [⟨h3, h4⟩, ⟨h3, h4⟩]
      generalize (if zero_omega = true ∧ name = "omega" then arr.map (· - arr.mean) else arr) = a at this ⊢
      obtain ⟨M, hM⟩ := npMax_ok a this.1 this.2
      obtain ⟨m, hm⟩ := npMin_ok a this.1 this.2
      rw [hM, hm]
      exact ⟨_, rfl⟩
    obtain ⟨a, ha⟩ := this
    refine ⟨(name, a) :: r, ?_, ?_⟩
    · unfold animate
      rw [ha, hr]
      rfl
    · simp [hr']

/-- **C65, C67**: the movie of a file whose datasets have `n` non-empty frames
succeeds for every list of frame numbers below `n` (such as those of
`C65_equally_spaced_partial`) and any axes. -/
theorem C65_movie_succeeds (hf : String → Option (List (Arr K))) (zero_omega : Bool) (n : ℕ) (ts : List ℤ)
    (hts : ∀ t ∈ ts, 0 ≤ t ∧ t < n) : ∀ (axes : List (String × Axis K))
    (_ : ∀ x ∈ axes.map (·.1), ∃ ds, hf x = some ds ∧ ds.length = n ∧ ∀ a ∈ ds, 0 < a.h ∧ 0 < a.w),
    ∃ states, animation hf zero_omega ts axes = .ok states ∧ states.length = ts.length := by
  induction ts with
  | nil => exact fun _ _ => ⟨[], rfl, rfl⟩
  | cons t ts ih =>
    intro axes h
    have ht := hts t List.mem_cons_self
    obtain ⟨axes', h1, h2⟩ := animate_ok hf zero_omega t axes (by
      intro x hx
      obtain ⟨ds, e1, e2, e3⟩ := h x.1 (List.mem_map_of_mem hx)
      have hlt : t.toNat < ds.length := by omega
      refine ⟨ds, ds[t.toNat], e1, ?_, e3 _ (List.getElem_mem hlt)⟩
      unfold h5row
      simp only
      rw [if_neg (by omega), if_neg (by omega), List.getElem?_eq_getElem hlt])
    obtain ⟨rest, h3, h4⟩ := ih (fun t ht => hts t (List.mem_cons_of_mem _ ht)) axes' (by rw [h2]; exact h)
    refine ⟨axes' :: rest, ?_, by simp [h4]⟩
    unfold animation
    rw [h1]
    simp only [h3, Py.ok_bind]

/-- a file with two frames of two fields -/
def movieFile : String → Option (List (Arr ℚ)) := fun s =>
  if s = "omega" then some [Arr.tab 2 2 fun i j => (i : ℚ) - 3 * j, Arr.tab 2 2 fun i j => (i : ℚ) + j]
  else if s = "phi" then some [Arr.tab 2 2 fun i j => (i : ℚ) * j, Arr.tab 2 2 fun i _ => (i : ℚ)]
  else none

def demoAxes : List (String × Axis ℚ) :=
  [("omega", ⟨Arr.tab 2 2 fun _ _ => 0, (-7, 5)⟩), ("phi", ⟨Arr.tab 2 2 fun _ _ => 0, (0, 1)⟩)]

example : ∃ states, animation movieFile true [0, 1] demoAxes = .ok states ∧ states.length = 2 :=
  C65_movie_succeeds movieFile true 2 [0, 1] (by simp) demoAxes (by
    intro x hx
    simp only [demoAxes, List.map_cons, List.map_nil, List.mem_cons, List.not_mem_nil, or_false] at hx
    rcases hx with rfl | rfl
    · refine ⟨_, rfl, rfl, ?_⟩
      intro a ha
      simp only [List.mem_cons, List.not_mem_nil, or_false] at ha
      rcases ha with rfl | rfl <;> exact ⟨by decide, by decide⟩
    · refine ⟨_, rfl, rfl, ?_⟩
      intro a ha
      simp only [List.mem_cons, List.not_mem_nil, or_false] at ha
      rcases ha with rfl | rfl <;> exact ⟨by decide, by decide⟩)

/-- 100 frames, one every 1/40, shown with speed 1 -/
example := C66_speed 100 (1 / 40 : ℚ) 1 none 0 none 10 (by norm_num) (by norm_num) (by norm_num)

example := C65_unequally_spaced_partial [0, 1, (5 : ℚ)] 5 10 10 rfl (by norm_num) (by norm_num) (by norm_num)

end Verif.Props
