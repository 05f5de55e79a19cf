import Verif.Model.Plot
import Verif.Lemmas.Double
import Mathlib.Data.Nat.Digits.Lemmas
import Mathlib.Tactic.IntervalCases

/-!
# C68, C70, C80, C81, C82: images, labels, time traces
-/

set_option linter.unusedSectionVars false

namespace Verif.Props

open Plot

/-! ### C68: file names of images -/

theorem decimal_length_le (k t : ℕ) (h1 : 10 ^ k ≤ t) (h2 : t < 10 ^ (k + 1)) : (decimal t).length = k + 1 := by
  have hp : 0 < 10 ^ k := by positivity
  have h0 : t ≠ 0 := by omega
  unfold decimal
  rw [if_neg h0, List.length_reverse, List.length_map]
  have a : k < (Nat.digits 10 t).length := (Nat.lt_digits_length_iff (by norm_num) t).2 h1
  have b : (Nat.digits 10 t).length ≤ k + 1 := (Nat.digits_length_le_iff (by norm_num) t).2 h2
  omega

theorem savePath_eq (file type : List Char) (t : ℕ) : savePath file t type =
    (replaceAll ".h5".toList ".jpg".toList file ++ "_t=".toList ++ decimal t).take
      ((replaceAll ".h5".toList ".jpg".toList file).length + 3 + (decimal t).length - 4) ++ type := by
  unfold savePath
  simp only
  rw [← List.append_assoc, List.length_append, List.length_append]
  rfl

/-- **C68 is violated**: two times below 10000 with the same number of digits
are saved to the same path, for every input file and every file type; the second
image overwrites the first. -/
theorem C68_overwrites_violated (file type : List Char) (k t t' : ℕ) (hk : k < 4) (h1 : 10 ^ k ≤ t) (h2 : t < 10 ^ (k + 1))
    (h1' : 10 ^ k ≤ t') (h2' : t' < 10 ^ (k + 1)) : savePath file t type = savePath file t' type := by
  rw [savePath_eq, savePath_eq, decimal_length_le k t h1 h2, decimal_length_le k t' h1' h2']
  congr 1
  have e3 : "_t=".toList.length = 3 := rfl
  have key : ∀ d : List Char, (replaceAll ".h5".toList ".jpg".toList file ++ "_t=".toList ++ d).take
      ((replaceAll ".h5".toList ".jpg".toList file).length + 3 + (k + 1) - 4) =
      (replaceAll ".h5".toList ".jpg".toList file ++ "_t=".toList).take
        ((replaceAll ".h5".toList ".jpg".toList file).length + 3 + (k + 1) - 4) :=
    fun d => List.take_append_of_le_length (by rw [List.length_append]; omega)
  rw [key, key]

/-- the default `t = 200` and `t = 300` -/
example : savePath "data.h5".toList 200 ".jpg".toList = savePath "data.h5".toList 300 ".jpg".toList :=
  C68_overwrites_violated _ _ 2 200 300 (by norm_num) (by norm_num) (by norm_num) (by norm_num) (by norm_num)

theorem digitChar_inj (a b : List ℕ) (ha : ∀ d ∈ a, d < 10) (hb : ∀ d ∈ b, d < 10)
    (h : a.map Nat.digitChar = b.map Nat.digitChar) : a = b := by
  have key : ∀ l : List ℕ, (∀ d ∈ l, d < 10) → (l.map Nat.digitChar).map (fun c => c.toNat - 48) = l := by
    intro l hl
    rw [List.map_map]
    conv_rhs => rw [← List.map_id l]
    refine List.map_congr_left fun d hd => ?_
    have := hl d hd
    interval_cases d <;> rfl
  rw [← key a ha, ← key b hb, h]

theorem digits_drop_four (t : ℕ) (h : 10 ^ 4 ≤ t) : (Nat.digits 10 t).drop 4 = Nat.digits 10 (t / 10 ^ 4) := by
  have s : ∀ n : ℕ, 0 < n → Nat.digits 10 n = n % 10 :: Nat.digits 10 (n / 10) :=
    fun n hn => Nat.digits_def' (by norm_num) hn
  rw [s t (by omega), s (t / 10) (by omega), s (t / 10 / 10) (by omega), s (t / 10 / 10 / 10) (by omega)]
  simp only [List.drop_succ_cons, List.drop_zero, Nat.div_div_eq_div_mul]
  norm_num

/-- **C68**, what holds: times from 10000 on that differ before their last four
digits are saved to different paths. -/
theorem C68_distinct_partial (file type : List Char) (t t' : ℕ) (h : 10 ^ 4 ≤ t) (h' : 10 ^ 4 ≤ t')
    (hne : t / 10 ^ 4 ≠ t' / 10 ^ 4) : savePath file t type ≠ savePath file t' type := by
  have form : ∀ t : ℕ, 10 ^ 4 ≤ t → savePath file t type =
      replaceAll ".h5".toList ".jpg".toList file ++ "_t=".toList ++
        ((Nat.digits 10 (t / 10 ^ 4)).map Nat.digitChar).reverse ++ type := by
    intro t ht
    have hl : 4 < (Nat.digits 10 t).length := (Nat.lt_digits_length_iff (by norm_num) t).2 ht
    have hd : decimal t = ((Nat.digits 10 t).map Nat.digitChar).reverse := by
      unfold decimal; rw [if_neg (by omega)]
    rw [savePath_eq, hd]
    congr 1
    rw [List.take_append, List.length_append, List.length_reverse, List.length_map]
    have e3 : "_t=".toList.length = 3 := rfl
    rw [List.take_of_length_le (by rw [List.length_append]; omega)]
    congr 1
    rw [← digits_drop_four t ht, List.map_drop, List.reverse_drop, List.length_map]
    congr 1
    omega
  rw [form t h, form t' h']
  intro he
  have he := List.append_cancel_left (List.append_cancel_right he)
  rw [List.reverse_inj] at he
  have := digitChar_inj _ _ (fun d hd => Nat.digits_lt_base (by norm_num) hd)
    (fun d hd => Nat.digits_lt_base (by norm_num) hd) he
  exact hne (Nat.digits_inj_iff.1 this)

example : savePath "data.h5".toList 10000 ".jpg".toList ≠ savePath "data.h5".toList 20000 ".jpg".toList :=
  C68_distinct_partial _ _ _ _ (by norm_num) (by norm_num) (by norm_num)

/-! ### C70: labels -/

/-- **C70.**  `latex_format` never raises: it returns the value of the last
entry for its argument in the table, or the argument itself. -/
theorem C70_latex (s : String) : ∃ r, latex_format s = .ok r ∧
    ((∃ pre post, namesLiteral = pre ++ (s, r) :: post ∧ ∀ e ∈ post, e.1 ≠ s) ∨ ((∀ e ∈ namesLiteral, e.1 ≠ s) ∧ r = s)) := by
  have key : ∀ l : List (String × String), match l.reverse.lookup s with
      | some r => ∃ pre post, l = pre ++ (s, r) :: post ∧ ∀ e ∈ post, e.1 ≠ s
      | none => ∀ e ∈ l, e.1 ≠ s := by
    intro l
    induction l using List.reverseRecOn with
    | nil => simp
    | append_singleton l x ih =>
      obtain ⟨k, v⟩ := x
      rw [List.reverse_append, List.reverse_cons, List.reverse_nil, List.nil_append, List.singleton_append, List.lookup_cons]
      by_cases hk : s = k
      · subst hk
        simp only [beq_self_eq_true]
        exact ⟨l, [], rfl, by simp⟩
      · have : (s == k) = false := by simpa using hk
        simp only [this]
        cases hl : l.reverse.lookup s with
        | none =>
          rw [hl] at ih
          intro e he
          rcases List.mem_append.1 he with h | h
          · exact ih e h
          · rw [List.mem_singleton.1 h]; exact fun h => hk h.symm
        | some r =>
          rw [hl] at ih
          obtain ⟨pre, post, e1, e2⟩ := ih
          refine ⟨pre, post ++ [(k, v)], by rw [e1]; simp, ?_⟩
          intro e he
          rcases List.mem_append.1 he with h | h
          · exact e2 e h
          · rw [List.mem_singleton.1 h]; exact fun h => hk h.symm
  have := key namesLiteral
  unfold latex_format names
  cases hl : namesLiteral.reverse.lookup s with
  | none => rw [hl] at this; exact ⟨s, rfl, .inr ⟨this, rfl⟩⟩
  | some r => rw [hl] at this; exact ⟨r, rfl, .inl this⟩

example : latex_format "gamma_n" = .ok "$\\Gamma_n$" := by decide +kernel
example : latex_format "unknown" = .ok "unknown" := by decide +kernel

section
variable {K : Type} [Field K] [LinearOrder K] [IsStrictOrderedRing K] [FloorRing K]

/-- **C70**, zero in the lower part of the range (not within the fraction `frac`
of the range below the maximum): `is_zero_included` is `True`. -/
theorem C70_zero_partial (vals : List K) (frac lo hi : K) (hf : 0 ≤ frac) (hlo : lo ∈ vals) (hhi : hi ∈ vals)
    (h : ∀ v ∈ vals, lo ≤ v ∧ v ≤ hi) (h0 : lo ≤ 0) (h1 : 0 ≤ hi - frac * (hi - lo)) :
    is_zero_included vals frac = .ok true := by
  have e1 : vals.min? = some lo := List.min?_eq_some_iff.2 ⟨hlo, fun v hv => (h v hv).1⟩
  have e2 : vals.max? = some hi := List.max?_eq_some_iff.2 ⟨hhi, fun v hv => (h v hv).2⟩
  unfold is_zero_included
  rw [e1, e2]
  simp only
  have h3 : 0 ≤ frac * (hi - lo) := mul_nonneg hf (by linarith [(h lo hlo).2])
  rw [decide_eq_true (by linarith), decide_eq_true h1]
  rfl

/-- **C70 is violated** for zero in the upper part of the range: 0 lies between
the minimum and the maximum, but the answer is `False` (the code subtracts the
margin from the maximum instead of adding it). -/
theorem C70_zero_violated (vals : List K) (frac lo hi : K) (hlo : lo ∈ vals) (hhi : hi ∈ vals)
    (h : ∀ v ∈ vals, lo ≤ v ∧ v ≤ hi) (h1 : hi < frac * (hi - lo)) :
    is_zero_included vals frac = .ok false := by
  have e1 : vals.min? = some lo := List.min?_eq_some_iff.2 ⟨hlo, fun v hv => (h v hv).1⟩
  have e2 : vals.max? = some hi := List.max?_eq_some_iff.2 ⟨hhi, fun v hv => (h v hv).2⟩
  unfold is_zero_included
  rw [e1, e2]
  simp only
  rw [decide_eq_false (p := 0 ≤ hi - frac * (hi - lo)) (by rw [not_le]; linarith), Bool.and_false]

/-- -1 ≤ 0 ≤ 0 -/
example : is_zero_included [-1, (0 : ℚ)] (1 / 40) = .ok false :=
  C70_zero_violated [-1, 0] (1 / 40) (-1) 0 (by simp) (by simp) (by simp) (by norm_num)

example : is_zero_included [-1, (1 : ℚ), 0] (1 / 40) = .ok true :=
  C70_zero_partial [-1, 1, 0] (1 / 40) (-1) 1 (by norm_num) (by simp) (by simp) (by simp) (by norm_num) (by norm_num)

/-! ### C80: the frame of an image -/

/-- **C80**, exact arithmetic: `image.main(t)` shows the last frame recorded at or
before `t` (frame `j` has the time `initial_time + j * frame_dt`). -/
theorem C80_frame_partial (t init dt : K) (hd : 0 < dt) (n : ℕ) (h1 : init ≤ t) (h2 : t < init + n * dt) :
    ∃ j : ℕ, frameIndex id t init dt = j ∧ j < n ∧ init + j * dt ≤ t ∧ t < init + (j + 1) * dt := by
  have h0 : 0 ≤ ⌊(t - init) / dt⌋ := Int.floor_nonneg.2 (div_nonneg (by linarith) hd.le)
  obtain ⟨j, hj⟩ := Int.eq_ofNat_of_zero_le h0
  have a := Int.floor_le ((t - init) / dt)
  have b := Int.lt_floor_add_one ((t - init) / dt)
  rw [hj] at a b
  rw [le_div_iff₀ hd] at a
  rw [div_lt_iff₀ hd] at b
  push_cast at a b
  refine ⟨j, hj, ?_, by linarith, by linarith⟩
  have : (j : K) * dt < n * dt := by linarith
  exact_mod_cast lt_of_mul_lt_mul_right this hd.le

end

/-- **C80 is violated in double precision**: for `frame_dt = 0.1` the time of
frame 9 is `9 * 0.1 = 0.9`, but `image.main(0.9)` shows frame 8. -/
theorem C80_double_violated : frameIndex rne (rne (9 * rne (1 / 10))) 0 (rne (1 / 10)) = 8 ∧
    rne (9 * rne (1 / 10)) = rne (9 / 10) := by decide +kernel

section
variable {K : Type} [Field K] [LinearOrder K] [IsStrictOrderedRing K] [FloorRing K]

/-- **C80 is violated for times before the start of the file**: instead of an
error a frame counted from the end is shown. -/
theorem C80_before_start_violated (t init dt : K) (hd : 0 < dt) (h : t < init) : frameIndex id t init dt < 0 := by
  unfold frameIndex
  rw [Int.floor_lt, Int.cast_zero]
  exact div_neg_of_neg_of_pos (by simpa using sub_neg.2 h) hd

example : ∃ j : ℕ, frameIndex id (9 / 10 : ℚ) 0 (1 / 10) = j ∧ j < 20 ∧ 0 + (j : ℚ) * (1 / 10) ≤ 9 / 10 ∧
    9 / 10 < 0 + ((j : ℚ) + 1) * (1 / 10) :=
  C80_frame_partial _ _ _ (by norm_num) 20 (by norm_num) (by norm_num)

/-! ### C81: the time axis of time traces -/

theorem arange_eq (t0 dt : K) (hd : 0 < dt) (n : ℕ) :
    arange t0 (t0 + n * dt) dt = (List.range n).map fun i : ℕ => t0 + i * dt := by
  unfold arange
  rw [add_sub_cancel_left, mul_div_assoc, div_self hd.ne', mul_one, Int.ceil_natCast, Int.toNat_natCast]

/-- **C81.**  `get_uniform_x` returns one time per value, `t0, t0 + dt, ...`. -/
theorem C81_uniform_x (n : ℕ) (dt t0 : K) (hd : 0 < dt) :
    get_uniform_x n dt t0 = (List.range n).map fun i : ℕ => t0 + i * dt := by
  unfold get_uniform_x
  rw [arange_eq t0 dt hd, List.take_of_length_le (by simp)]

theorem points_eq (data : List K) (dt : K) (hd : 0 < dt) (k : ℕ) (hk : k < data.length) :
    timetracePoints data dt (k * dt) = .ok (some (((List.range (data.length - k)).map fun i : ℕ =>
      (k : K) * dt + i * dt).zip (data.drop k))) := by
  unfold timetracePoints
  have e : ⌊(k : K) * dt / dt⌋ = k := by rw [mul_div_assoc, div_self hd.ne', mul_one, Int.floor_natCast]
  simp only [e]
  rw [if_neg (by omega)]
  have e2 : sliceFrom data (k : ℤ) = data.drop k := by
    unfold sliceFrom
    rw [if_neg (by omega), Int.toNat_natCast]
  rw [e2, arange_eq _ _ hd, List.take_of_length_le (by simp)]
  simp only [List.length_map, List.length_range, List.length_drop]
  rw [if_pos trivial]

/-- **C81**, files that start at time 0, `t0` a multiple of the frame distance:
the curve consists of the values from `t0` on, each at its time (value `j` has
the time `j * frame_dt`). -/
theorem C81_time_axis_partial (data : List K) (dt : K) (hd : 0 < dt) (k : ℕ) (hk : k < data.length) :
    ∃ pts, timetracePoints data dt (k * dt) = .ok (some pts) ∧ pts.length = data.length - k ∧
      ∀ i x y, pts[i]? = some (x, y) → data[k + i]? = some y ∧ x = ((k + i : ℕ) : K) * dt := by
  refine ⟨_, points_eq data dt hd k hk, by simp, fun i x y h => ?_⟩
  rw [List.getElem?_zip_eq_some, List.getElem?_map, List.getElem?_drop] at h
  obtain ⟨h1, h2⟩ := h
  refine ⟨h2, ?_⟩
  cases hi : (List.range (data.length - k))[i]? with
  | none => rw [hi] at h1; cases h1
  | some j =>
    rw [hi] at h1
    simp only [Option.map_some, Option.some.injEq] at h1
    have : j = i := by
      rw [List.getElem?_eq_some_iff] at hi
      obtain ⟨hi, hj⟩ := hi
      simpa using hj.symm
    subst this
    rw [← h1]
    push_cast
    ring

/-- **C81 is violated for files that do not start at time 0** (value `j` has the
time `initial_time + j * frame_dt`): `plot_timetraces` draws every value too
early by `initial_time`. -/
theorem C81_initial_time_violated (data : List K) (dt : K) (hd : 0 < dt) (k : ℕ) (hk : k < data.length) (init : K)
    (hi : init ≠ 0) : ∃ pts, timetracePoints data dt (k * dt) = .ok (some pts) ∧ pts ≠ [] ∧
      ∀ i x y, pts[i]? = some (x, y) → data[k + i]? = some y ∧ x ≠ init + ((k + i : ℕ) : K) * dt ∧
        x = init + ((k + i : ℕ) : K) * dt - init := by
  obtain ⟨pts, h1, h2, h3⟩ := C81_time_axis_partial data dt hd k hk
  refine ⟨pts, h1, fun h => by rw [h] at h2; simp at h2; omega, fun i x y h => ?_⟩
  obtain ⟨a, b⟩ := h3 i x y h
  refine ⟨a, fun c => hi ?_, by rw [b]; ring⟩
  rw [b] at c
  linarith

/-- **C81 is violated** by `plot_timetrace_comparison` too: for a file that starts
at `m * frame_dt` the first `m` values are not shown, and the others are drawn
too early by `m * frame_dt`. -/
theorem C81_comparison_violated (data : List K) (dt : K) (hd : 0 < dt) (m : ℕ) (hm : 1 ≤ m) (hk : m < data.length) :
    ∃ pts, comparisonPoints data dt (m * dt) 0 = .ok (some pts) ∧ pts.length = data.length - m ∧
      ∀ i x y, pts[i]? = some (x, y) → data[m + i]? = some y ∧ x = (m * dt + ((m + i : ℕ) : K) * dt) - m * dt := by
  obtain ⟨pts, h1, h2, h3⟩ := C81_time_axis_partial data dt hd m hk
  have : max 0 ((m : K) * dt) = m * dt := max_eq_right (by positivity)
  refine ⟨pts, by unfold comparisonPoints; rw [this]; exact h1, h2, fun i x y h => ?_⟩
  obtain ⟨a, b⟩ := h3 i x y h
  exact ⟨a, by rw [b]; ring⟩

example : ∃ pts, timetracePoints [1, 4, 9, (16 : ℚ)] (1 / 10) ((2 : ℕ) * (1 / 10)) = .ok (some pts) ∧ pts.length = 4 - 2 :=
  let ⟨p, h1, h2, _⟩ := C81_time_axis_partial [1, 4, 9, (16 : ℚ)] (1 / 10) (by norm_num) 2 (by simp)
  ⟨p, h1, h2⟩

/-! ### C82: the limits of the y axis -/

theorem foldl_min_le (l : List K) (a : K) : l.foldl min a ≤ a ∧ ∀ x ∈ l, l.foldl min a ≤ x := by
  induction l generalizing a with
  | nil => simp
  | cons b l ih =>
    obtain ⟨h1, h2⟩ := ih (min a b)
    rw [List.foldl_cons]
    refine ⟨h1.trans (min_le_left _ _), fun x hx => ?_⟩
    rcases List.mem_cons.1 hx with rfl | hx
    · exact h1.trans (min_le_right _ _)
    · exact h2 x hx

/-- **C82**, `plot_timetraces` with values none of which is above the cutoff: if a
value below `-1e-8` is plotted, the limits chosen by matplotlib (which contain all
values) are kept. -/
theorem C82_limits_partial (props : List (List K)) (y_cutoff : K) (ylims : K × K)
    (hcut : 0 ≤ y_cutoff) (hc : ∀ p ∈ props, ∀ v ∈ p, v ≤ y_cutoff) (hneg : ∃ p ∈ props, ∃ v ∈ p, v < -(1 / 10 ^ 8)) :
    timetraceY props y_cutoff ylims = ylims := by
  obtain ⟨p, hp, v, hv, hlt⟩ := hneg
  have hmin : ∃ m, p.min? = some m ∧ m ≤ v := by
    cases hm : p.min? with
    | none => rw [List.min?_eq_none_iff] at hm; rw [hm] at hv; cases hv
    | some m => exact ⟨m, rfl, (List.min?_eq_some_iff.1 hm).2 v hv⟩
  obtain ⟨m, hm, hmv⟩ := hmin
  have hmem : m ∈ props.filterMap (·.min?) := List.mem_filterMap.2 ⟨p, hp, hm⟩
  have h1 := (foldl_min_le (props.filterMap (·.min?)) 0).2 m hmem
  have hmax : (props.filterMap (·.min?)).foldl max 0 ≤ y_cutoff := by
    have : ∀ (l : List K) (a : K), a ≤ y_cutoff → (∀ x ∈ l, x ≤ y_cutoff) → l.foldl max a ≤ y_cutoff := by
      intro l
      induction l with
      | nil => intro a ha _; exact ha
      | cons b l ih =>
        intro a ha hl
        exact ih _ (max_le ha (hl b List.mem_cons_self)) fun x hx => hl x (List.mem_cons_of_mem _ hx)
    refine this _ 0 hcut fun x hx => ?_
    obtain ⟨q, hq, hxq⟩ := List.mem_filterMap.1 hx
    exact hc q hq x (List.min?_eq_some_iff.1 hxq).1
  unfold timetraceY adjustY
  simp only
  generalize (props.filterMap (·.min?)).foldl min 0 = a at *
  have e : (0 : K) < 1 / 10 ^ 8 := by positivity
  have ha : a < -(1 / 10 ^ 8) := by linarith
  rw [if_neg (not_lt.2 hmax), if_neg]
  rintro (h | h)
  · rw [abs_of_neg (by linarith)] at h
    linarith
  · linarith [h.1]

/-- **C82 is violated** by `plot_timetrace_comparison` (the default): the lower
limit is always 0 (for a positive cutoff), so that no negative value of any
property is visible. -/
theorem C82_comparison_violated (props : List (List K)) (y_cutoff : K) (hc : 0 ≤ y_cutoff) (ylims : K × K) :
    comparisonY props y_cutoff ylims = (0, ylims.2) ∧
      ∀ p ∈ props, ∀ v ∈ p, v < 0 → ¬ ((comparisonY props y_cutoff ylims).1 ≤ v) := by
  have : comparisonY props y_cutoff ylims = (0, ylims.2) := by
    unfold comparisonY adjustY
    simp only
    rw [if_neg (not_lt.2 hc), if_pos (.inl (by rw [abs_zero]; positivity))]
  exact ⟨this, fun p _ v _ hv => by rw [this]; exact not_le.2 hv⟩

/-- **C82 is violated**: diverged data, with a value above the cutoff, is not cut
off as long as some value is negative (the code uses `np.min` for
the maximum). -/
theorem C82_cutoff_violated (p : List K) (big small y_cutoff : K) (hb : big ∈ p) (hs : small ∈ p)
    (h1 : y_cutoff < big) (h3 : small < -(1 / 10 ^ 8)) (hc : 0 ≤ y_cutoff) (ylims : K × K) :
    (∃ v ∈ p, y_cutoff < v) ∧ timetraceY [p] y_cutoff ylims = ylims := by
  refine ⟨⟨big, hb, h1⟩, ?_⟩
  cases hm : p.min? with
  | none => rw [List.min?_eq_none_iff] at hm; rw [hm] at hb; cases hb
  | some m =>
    have hms : m ≤ small := (List.min?_eq_some_iff.1 hm).2 small hs
    have e : (0 : K) < 1 / 10 ^ 8 := by positivity
    unfold timetraceY adjustY
    simp only [List.filterMap_cons, hm, List.filterMap_nil, List.foldl_cons, List.foldl_nil]
    rw [min_eq_right (by linarith), max_eq_left (by linarith), if_neg (not_lt.2 hc), if_neg]
    rintro (h | h)
    · rw [abs_of_neg (by linarith)] at h
      linarith
    · linarith [h.1]

example : timetraceY [[-1, (10 ^ 9 : ℚ)]] (10 ^ 5) (-2, 10 ^ 9 + 1) = (-2, 10 ^ 9 + 1) :=
  (C82_cutoff_violated _ (10 ^ 9) (-1) _ (by simp) (by simp) (by norm_num) (by norm_num) (by norm_num) _).2

example : (comparisonY [[-1, (3 : ℚ)]] (10 ^ 5) (-2, 4)) = (0, 4) := (C82_comparison_violated _ _ (by norm_num) _).1

end

example := C80_before_start_violated (1 : ℚ) 2 (1 / 10) (by norm_num) (by norm_num)

example := C81_uniform_x (K := ℚ) 10 (1 / 10) 3 (by norm_num)

example := C81_initial_time_violated [(1 : ℚ), 2, 3, 4] (1 / 10) (by norm_num) 2 (by decide) 5 (by norm_num)

example := C81_comparison_violated [(1 : ℚ), 2, 3, 4] (1 / 10) (by norm_num) 2 (by decide) (by decide)

example := C82_limits_partial [[(1 : ℚ), 2], [-3, 1]] 10 (0, 5) (by norm_num) (by
  intro p hp v hv
  simp only [List.mem_cons, List.not_mem_nil, or_false] at hp
  rcases hp with rfl | rfl <;> simp only [List.mem_cons, List.not_mem_nil, or_false] at hv <;> rcases hv with rfl | rfl <;> norm_num)
  ⟨[-3, 1], by simp, -3, by simp, by norm_num⟩

end Verif.Props
