import Verif.Model.Timetrace
import Verif.Props.Plot
import Verif.Lemmas.Helpers

/-!
# C124: curves and legends of time traces
-/

set_option linter.unusedSectionVars false

namespace Verif.Props

open H5 Plot Timetrace

section

variable {K : Type} [Field K] [LinearOrder K] [IsStrictOrderedRing K] [FloorRing K]

/-- the file has the values `l` of `p`, one per frame, in one of the two layouts the package writes -/
def Records (f : H5 K K) (p : String) (l : List K) : Prop :=
  f.dsets p = some (.flat l) ∨ f.dsets p = some (.rows .one (l.map .num))

private theorem rowNumbers_map (l : List K) : rowNumbers (l.map Cell.num) = some l := by
  induction l with
  | nil => rfl
  | cons x l ih => simp only [List.map_cons, rowNumbers, ih, Option.map_some]

private theorem series_spec {f : H5 K K} {p : String} {l : List K} (h : Records f p l) : series f p = .ok l := by
  unfold series
  rcases h with h | h
  · rw [h]
  · rw [h]
    simp only [rowNumbers_map]

/-- what the legend should say about the values `l`: mean and standard deviation -/
def IsStats (sqrt : K → K) (l : List K) (s : Option (K × K)) : Prop :=
  ∃ m v : K, l ≠ [] ∧ m * l.length = l.sum ∧ v * l.length = (l.map fun x => (x - m) ^ 2).sum ∧ s = some (m, sqrt v)

private theorem stats_spec (sqrt : K → K) {l : List K} (hl : l ≠ []) : IsStats sqrt l (stats sqrt l) := by
  have h0 : (l.length : K) ≠ 0 := by
    exact_mod_cast fun h => hl (List.length_eq_zero_iff.1 h)
  unfold stats
  rw [if_neg hl]
  exact ⟨_, _, hl, div_mul_cancel₀ _ h0, div_mul_cancel₀ _ h0, rfl⟩

private theorem sliceFrom_nat {β : Type} (l : List β) (i : ℕ) : sliceFrom l (i : ℤ) = l.drop i := by
  unfold sliceFrom
  rw [if_neg (by omega), Int.toNat_natCast]

private theorem curve_spec (sqrt : K → K) {f : H5 K K} {adaptive : Bool} {p label : String} {data xs : List K} {t0 fd : K}
    {i0 : ℕ} {istd : ℤ} (h : Records f p data) (hi : i0 < data.length) (hfd : f.attrs "frame_dt" = some (.num fd))
    (hx : xValues f adaptive t0 i0 (data.length - i0) fd = .ok xs) (hxs : xs.length = data.length - i0) :
    ∃ c, curve sqrt f adaptive p label t0 i0 istd = .ok (some c) ∧ c.label = label ∧
      c.stats = stats sqrt (sliceFrom data istd) ∧ c.points = xs.zip (data.drop i0) := by
  have h1 : (data.drop i0).isEmpty = false := by
    rw [List.isEmpty_eq_false_iff]
    intro h
    have := congrArg List.length h
    rw [List.length_drop, List.length_nil] at this
    omega
  cases hl : xs.getLast? with
  | none =>
    rw [List.getLast?_eq_none_iff] at hl
    rw [hl] at hxs
    simp at hxs
    omega
  | some last =>
    refine ⟨⟨label, _, xs.zip (data.drop i0), (t0, t0 + last)⟩, ?_, rfl, rfl, rfl⟩
    unfold curve
    rw [series_spec h]
    simp only [Py.ok_bind, sliceFrom_nat, h1, Bool.false_eq_true, if_false]
    unfold RunProperties.attr
    rw [hfd]
    simp only [Py.ok_bind, Timetrace.value, List.length_drop]
    rw [hx]
    simp only [Py.ok_bind]
    rw [List.take_of_length_le (by omega), if_neg (by simp [hxs]), hl]
    rfl

private theorem maxLength_spec {f : H5 K K} {i0 n : ℕ} (hi : i0 < n) (key : String) (props : List String)
    (h : ∀ p ∈ props, ∃ l, Records f p l ∧ l.length = n) : ∀ m, m ≤ n →
    maxLength f i0 key props m = .ok (some (if props = [] then m else n)) := by
  induction props with
  | nil => intro m _; rfl
  | cons p ps ih =>
    intro m hm
    obtain ⟨l, h1, h2⟩ := h p (by simp)
    unfold maxLength
    rw [series_spec h1]
    simp only [Py.ok_bind, h2]
    rw [if_neg (by omega), ih (fun q hq => h q (by simp [hq])) _ (by omega), max_eq_right hm]
    simp

private theorem curves_spec (sqrt : K → K) {f : H5 K K} {adaptive : Bool} {xs : List K} {t0 fd : K} {n i0 : ℕ} {istd : ℤ}
    (hi : i0 < n) (hfd : f.attrs "frame_dt" = some (.num fd)) (hx : xValues f adaptive t0 i0 (n - i0) fd = .ok xs)
    (hxs : xs.length = n - i0) (props : List String) (h : ∀ p ∈ props, ∃ l, Records f p l ∧ l.length = n) :
    ∃ cs, curves sqrt f adaptive t0 i0 istd props = .ok cs ∧
      List.Forall₂ (fun p c => c.label = "<class 'property'> " ∧ ∃ data, Records f p data ∧ data.length = n ∧
        c.stats = stats sqrt (sliceFrom data istd) ∧ c.points = xs.zip (data.drop i0)) props cs := by
  induction props with
  | nil => exact ⟨[], rfl, .nil⟩
  | cons p ps ih =>
    obtain ⟨l, h1, rfl⟩ := h p (by simp)
    obtain ⟨c, c1, c2, c3, c4⟩ := curve_spec sqrt (label := "<class 'property'> ") (istd := istd) h1 hi hfd hx hxs
    obtain ⟨cs, i1, i2⟩ := ih fun q hq => h q (by simp [hq])
    refine ⟨c :: cs, ?_, .cons ⟨c2, l, h1, rfl, c3, c4⟩ i2⟩
    unfold curves
    rw [c1]
    simp only [Py.ok_bind]
    rw [i1]
    rfl

private theorem panels_spec (sqrt : K → K) {f : H5 K K} {adaptive : Bool} {pre : String} {xs : List K} {t0 fd : K}
    {n i0 : ℕ} {istd : ℤ} (hi : i0 < n) (hfd : f.attrs "frame_dt" = some (.num fd))
    (hx : xValues f adaptive t0 i0 (n - i0) fd = .ok xs)
    (hxs : xs.length = n - i0) (props : List String) (h : ∀ p ∈ props, ∃ l, Records f p l ∧ l.length = n)
    (hpre : ∀ p ∈ props, f.dsets (pre ++ p) = none ∨ ∃ l, Records f (pre ++ p) l ∧ l.length = n) :
    ∃ cs ds, panels sqrt f adaptive pre t0 i0 istd props = .ok (cs, ds) ∧
      List.Forall₂ (fun p c => (∃ name, latex_format p = .ok name ∧ c.label = name ++ " ") ∧ ∃ data, Records f p data ∧ data.length = n ∧
        c.stats = stats sqrt (sliceFrom data istd) ∧ c.points = xs.zip (data.drop i0)) props cs ∧
      List.Forall₂ (fun p c => (∃ name, latex_format p = .ok name ∧ c.label = "Full " ++ name ++ " ") ∧
          ∃ data, Records f (pre ++ p) data ∧ data.length = n ∧ c.stats = stats sqrt (sliceFrom data istd) ∧ c.points = xs.zip (data.drop i0))
        (props.filter fun p => (f.dsets (pre ++ p)).isSome) ds := by
  induction props with
  | nil => exact ⟨[], [], rfl, .nil, .nil⟩
  | cons p ps ih =>
    obtain ⟨l, h1, hl⟩ := h p (by simp)
    obtain ⟨cs, ds, i1, i2, i3⟩ := ih (fun q hq => h q (by simp [hq])) (fun q hq => hpre q (by simp [hq]))
    obtain ⟨name, hname⟩ : ∃ name, latex_format p = .ok name := by
      unfold latex_format
      cases names p with
      | ok v => exact ⟨v, rfl⟩
      | error e => exact ⟨p, rfl⟩
    obtain ⟨c, c1, c2, c3, c4⟩ := curve_spec sqrt (label := name ++ " ") (istd := istd) (i0 := i0) h1 (by omega) hfd (by rw [hl]; exact hx)
      (by rw [hl]; exact hxs)
    rcases hpre p (by simp) with hn | ⟨l', h1', hl'⟩
    · refine ⟨c :: cs, ds, ?_, .cons ⟨⟨name, hname, c2⟩, l, h1, hl, c3, c4⟩ i2, ?_⟩
      · unfold panels
        rw [hname]
        simp only [Py.ok_bind]
        rw [c1]
        simp only [Py.ok_bind]
        unfold fullCurve
        simp only [hn, Option.isSome_none, Bool.false_eq_true, if_false, Py.ok_bind]
        rw [i1]
        rfl
      · rw [List.filter_cons_of_neg (by simp [hn])]
        exact i3
    · obtain ⟨d, d1, d2, d3, d4⟩ := curve_spec sqrt (label := "Full " ++ name ++ " ") (istd := istd) (i0 := i0) h1' (by omega) hfd
        (by rw [hl']; exact hx) (by rw [hl']; exact hxs)
      have hs : (f.dsets (pre ++ p)).isSome = true := by
        rcases h1' with h | h <;> rw [h] <;> rfl
      refine ⟨c :: cs, d :: ds, ?_, .cons ⟨⟨name, hname, c2⟩, l, h1, hl, c3, c4⟩ i2, ?_⟩
      · unfold panels
        rw [hname]
        simp only [Py.ok_bind]
        rw [c1]
        simp only [Py.ok_bind]
        unfold fullCurve
        simp only [hs, if_true]
        rw [d1]
        simp only [Py.ok_bind]
        rw [i1]
        rfl
      · rw [List.filter_cons, if_pos hs]
        exact .cons ⟨⟨name, hname, d2⟩, l', h1', hl', d3, d4⟩ i3

/-- the points of a curve: the values of the frames `0, 1, …` at the times `0, frame_dt, 2 * frame_dt, …` -/
def AtFrameTimes (fd : K) (data : List K) (points : List (K × K)) : Prop :=
  points.length = data.length ∧ ∀ (j : ℕ) (x y : K), points[j]? = some (x, y) → x = j * fd ∧ data[j]? = some y

private theorem atFrameTimes (fd : K) (data : List K) :
    AtFrameTimes fd data (((List.range data.length).map fun i : ℕ => (0 : K) + i * fd).zip (data.drop 0)) := by
  refine ⟨by simp, fun j x y h => ?_⟩
  rw [List.drop_zero, List.getElem?_zip_eq_some, List.getElem?_map] at h
  obtain ⟨h1, h2⟩ := h
  refine ⟨?_, h2⟩
  obtain ⟨hj, -⟩ := List.getElem?_eq_some_iff.1 h2
  rw [List.getElem?_range hj] at h1
  simpa using h1.symm

private theorem xValues_fixed (f : H5 K K) (fd : K) (hd : 0 < fd) (n : ℕ) :
    xValues f false 0 0 n fd = .ok ((List.range n).map fun i : ℕ => (0 : K) + i * fd) := by
  unfold xValues
  rw [if_neg (by simp), arange_eq 0 fd hd]

private theorem timeIndex_fixed (f : H5 K K) (fd : K) (hfd : f.attrs "frame_dt" = some (.num fd)) (hd : 0 < fd) (t : K) :
    timeIndex f false t = .ok ⌊t / fd⌋ := by
  unfold timeIndex
  rw [if_neg (by simp)]
  unfold RunProperties.attr
  rw [hfd]
  simp only [Py.ok_bind, Timetrace.value]
  unfold frameOf
  rw [if_neg hd.ne']

/-- **C124, figures of `plot_timetrace_comparison`, fixed time steps.**  For a file that starts at time 0 the upper panel
has a curve for every property in the given order, the lower panel one for those with a dataset `fullres_…`.  Each label
has the name of the property.  Each curve shows every value at the time of its frame.  The statistics are mean and
standard deviation of the values from the frame `k = ⌊t0_std / frame_dt⌋` on, if there are any; of all values if the
file ends more than one frame before this time.  Missing: `k = n` (`C124_nan_violated`) and files that start later. -/
theorem C124_comparison_partial (sqrt : K → K) (f : H5 K K) (fd : K) (hfd : f.attrs "frame_dt" = some (.num fd)) (hd : 0 < fd)
    (ha : f.attrs "adaptive_step_size" = none ∨ f.attrs "adaptive_step_size" = some (.bool false))
    (hi : f.attrs "initial_time" = none ∨ f.attrs "initial_time" = some (.num 0)) (n : ℕ) (hn : 1 ≤ n)
    (shape : RowShape) (rows : List (Cell K)) (hden : f.dsets "density" = some (.rows shape rows)) (props : List String)
    (hp0 : props ≠ []) (h : ∀ p ∈ props, ∃ l, Records f p l ∧ l.length = n)
    (hpre : ∀ p ∈ props, f.dsets ("fullres_" ++ p) = none ∨ ∃ l, Records f ("fullres_" ++ p) l ∧ l.length = n)
    (t0_std : K) (k : ℕ) (hk : (k : ℤ) = ⌊t0_std / fd⌋) (hkn : k ≠ n) (xtick_interval : ℤ) :
    ∃ upper lower : List (Curve K),
      plot_timetrace_comparison sqrt f props "fullres_" (.int 0) t0_std xtick_interval = .ok (some (upper, lower)) ∧
      List.Forall₂ (fun p c => (∃ name, latex_format p = .ok name ∧ c.label = name ++ " ") ∧ ∃ data, Records f p data ∧
        AtFrameTimes fd data c.points ∧ IsStats sqrt (if k < n then data.drop k else data) c.stats) props upper ∧
      List.Forall₂ (fun p c => (∃ name, latex_format p = .ok name ∧ c.label = "Full " ++ name ++ " ") ∧
          ∃ data, Records f ("fullres_" ++ p) data ∧ AtFrameTimes fd data c.points ∧
            IsStats sqrt (if k < n then data.drop k else data) c.stats)
        (props.filter fun p => (f.dsets ("fullres_" ++ p)).isSome) lower := by
  have h0 : Timetrace.value ((f.attrs "initial_time").getD (.int 0)) = 0 := by
    rcases hi with h | h <;> rw [h] <;> simp [Timetrace.value]
  have hmax : pyMax (.int 0) ((f.attrs "initial_time").getD (.int 0)) = .int 0 := by
    unfold pyMax
    rw [if_neg (by rw [h0]; simp [Timetrace.value])]
  have htr : truth (f.attrs "adaptive_step_size") = false := by rcases ha with ha | ha <;> rw [ha] <;> rfl
  obtain ⟨upper, lower, p1, p2, p3⟩ := panels_spec sqrt (f := f) (adaptive := false) (pre := "fullres_") (t0 := 0) (i0 := 0)
    (istd := if (n : ℤ) < k then (0 : ℕ) else k) (by omega) hfd (xValues_fixed f fd hd (n - 0)) (by simp) props h hpre
  have hst : ∀ data : List K, data.length = n →
      IsStats sqrt (if k < n then data.drop k else data) (stats sqrt (sliceFrom data (if (n : ℤ) < k then (0 : ℕ) else k))) := by
    intro data hl
    by_cases hc : k < n
    · rw [if_pos hc, if_neg (by omega), sliceFrom_nat]
      refine stats_spec sqrt fun h => ?_
      have := congrArg List.length h
      rw [List.length_drop, List.length_nil] at this
      omega
    · rw [if_neg hc, if_pos (by omega), sliceFrom_nat, List.drop_zero]
      refine stats_spec sqrt fun h => ?_
      rw [h] at hl
      simp at hl
      omega
  refine ⟨upper, lower, ?_, ?_, ?_⟩
  · unfold plot_timetrace_comparison
    simp only [htr, hmax, h0, sub_zero]
    rw [timeIndex_fixed f fd hfd hd, show ⌊Timetrace.value (.int 0 : Attr K) / fd⌋ = ((0 : ℕ) : ℤ) by simp [Timetrace.value]]
    simp only [Py.ok_bind]
    have he : endTime f false = .ok (rows.length * fd) := by
      unfold endTime
      rw [if_neg (by simp)]
      unfold RunProperties.attr
      rw [hfd]
      simp only [Py.ok_bind, hden, Timetrace.value]
      rfl
    rw [he]
    simp only [Py.ok_bind]
    rw [maxLength_spec (by omega : 0 < n) "frame_dt" props h 0 (by omega), if_neg hp0]
    simp only [Py.ok_bind]
    rw [timeIndex_fixed f fd hfd hd, ← hk]
    simp only [Py.ok_bind]
    rw [show Timetrace.value (.int 0 : Attr K) = 0 by simp [Timetrace.value], p1]
    simp only [Py.ok_bind]
    unfold ticks
    split_ifs <;> rfl
  · refine p2.imp fun p c => ?_
    rintro ⟨hl, data, r, rfl, s1, s2⟩
    refine ⟨hl, data, r, ?_, ?_⟩
    · rw [s2]
      exact atFrameTimes fd data
    · rw [s1]
      exact hst data rfl
  · refine p3.imp fun p c => ?_
    rintro ⟨hl, data, r, rfl, s1, s2⟩
    refine ⟨hl, data, r, ?_, ?_⟩
    · rw [s2]
      exact atFrameTimes fd data
    · rw [s1]
      exact hst data rfl

private theorem timetraces_spec (sqrt : K → K) {f : H5 K K} {fd : K} (hfd : f.attrs "frame_dt" = some (.num fd)) {n : ℕ}
    {props : List String} (hp0 : props ≠ []) (h : ∀ p ∈ props, ∃ l, Records f p l ∧ l.length = n) {t0_std : K} {i0 : ℕ}
    (hi0 : timeIndex f (truth (f.attrs "adaptive_step_size")) 0 = .ok i0) (hn : i0 < n) {xs : List K}
    (hx : xValues f (truth (f.attrs "adaptive_step_size")) 0 i0 (n - i0) fd = .ok xs) (hxs : xs.length = n - i0) {istd : ℤ}
    (hstd : timeIndex f (truth (f.attrs "adaptive_step_size"))
      (t0_std - Timetrace.value ((f.attrs "initial_time").getD (.int 0))) = .ok istd) :
    ∃ cs : List (Curve K), plot_timetraces sqrt f props 0 t0_std = .ok (some cs) ∧
      List.Forall₂ (fun p c => c.label = "<class 'property'> " ∧ ∃ data, Records f p data ∧ data.length = n ∧
        c.stats = stats sqrt (sliceFrom data (if (n : ℤ) < istd then i0 else istd)) ∧ c.points = xs.zip (data.drop i0))
        props cs := by
  obtain ⟨cs, c1, c2⟩ := curves_spec sqrt (istd := if (n : ℤ) < istd then (i0 : ℤ) else istd) hn hfd hx hxs props h
  refine ⟨cs, ?_, c2⟩
  unfold plot_timetraces
  simp only [Int.cast_zero]
  rw [hi0]
  simp only [Py.ok_bind]
  rw [maxLength_spec hn "dt" props h 0 (by omega), if_neg hp0]
  simp only [Py.ok_bind]
  rw [if_neg (by omega), hstd]
  simp only [Py.ok_bind]
  rw [c1]
  rfl

/-- **C124 is violated**: if `t0_std` is the time one frame after the last one, the statistics in the legend are NaN. -/
theorem C124_nan_violated (sqrt : K → K) (f : H5 K K) (fd : K) (hfd : f.attrs "frame_dt" = some (.num fd)) (hd : 0 < fd)
    (ha : f.attrs "adaptive_step_size" = none ∨ f.attrs "adaptive_step_size" = some (.bool false))
    (hi : f.attrs "initial_time" = none ∨ f.attrs "initial_time" = some (.num 0)) (n : ℕ) (hn : 1 ≤ n)
    (props : List String) (hp0 : props ≠ []) (h : ∀ p ∈ props, ∃ l, Records f p l ∧ l.length = n) :
    ∃ cs : List (Curve K), plot_timetraces sqrt f props 0 (n * fd) = .ok (some cs) ∧
      List.Forall₂ (fun _ c => c.stats = none) props cs := by
  have h0 : Timetrace.value ((f.attrs "initial_time").getD (.int 0)) = 0 := by
    rcases hi with h | h <;> rw [h] <;> simp [Timetrace.value]
  have htr : truth (f.attrs "adaptive_step_size") = false := by rcases ha with ha | ha <;> rw [ha] <;> rfl
  obtain ⟨cs, c1, c2⟩ := timetraces_spec sqrt hfd hp0 h (t0_std := n * fd) (i0 := 0) (istd := n)
    (by rw [htr, timeIndex_fixed f fd hfd hd]; simp) hn (by rw [htr]; exact xValues_fixed f fd hd (n - 0)) (by simp)
    (by rw [htr, h0, sub_zero, timeIndex_fixed f fd hfd hd, mul_div_assoc, div_self hd.ne', mul_one, Int.floor_natCast])
  refine ⟨cs, c1, c2.imp fun p c => ?_⟩
  rintro ⟨-, data, -, hl, hs, -⟩
  rw [hs, if_neg (lt_irrefl _), sliceFrom_nat, ← hl, List.drop_length]
  rfl

/-- **C124 is violated by `plot_timetraces`**: every curve has the same label, whatever its property. -/
theorem C124_label_violated (sqrt : K → K) (f : H5 K K) (fd : K) (hfd : f.attrs "frame_dt" = some (.num fd)) (hd : 0 < fd)
    (ha : f.attrs "adaptive_step_size" = none ∨ f.attrs "adaptive_step_size" = some (.bool false)) (n : ℕ) (hn : 1 ≤ n)
    (props : List String) (hp0 : props ≠ []) (h : ∀ p ∈ props, ∃ l, Records f p l ∧ l.length = n) (t0_std : K) :
    ∃ cs : List (Curve K), plot_timetraces sqrt f props 0 t0_std = .ok (some cs) ∧
      List.Forall₂ (fun p c => (∃ data, Records f p data ∧ AtFrameTimes fd data c.points) ∧ c.label = "<class 'property'> ")
        props cs := by
  have htr : truth (f.attrs "adaptive_step_size") = false := by rcases ha with ha | ha <;> rw [ha] <;> rfl
  obtain ⟨cs, c1, c2⟩ := timetraces_spec sqrt hfd hp0 h (t0_std := t0_std) (i0 := 0)
    (by rw [htr, timeIndex_fixed f fd hfd hd]; simp) hn (by rw [htr]; exact xValues_fixed f fd hd (n - 0)) (by simp)
    (by rw [htr, timeIndex_fixed f fd hfd hd])
  refine ⟨cs, c1, c2.imp fun p c => ?_⟩
  rintro ⟨hl, data, hr, rfl, -, hp⟩
  refine ⟨⟨data, hr, ?_⟩, hl⟩
  rw [hp]
  exact atFrameTimes fd data

/-- **C124 is violated for files that start after `t0_std`**: all values are later than `t0_std`, but the statistics are
those of the last `m - s` values only. -/
theorem C124_late_statistics_violated (sqrt : K → K) (f : H5 K K) (fd : K) (hfd : f.attrs "frame_dt" = some (.num fd))
    (hd : 0 < fd) (ha : f.attrs "adaptive_step_size" = none ∨ f.attrs "adaptive_step_size" = some (.bool false)) (m s n : ℕ) (hsm : s < m) (hmn : m - s ≤ n)
    (hi : f.attrs "initial_time" = some (.num (m * fd)))
    (props : List String) (hp0 : props ≠ []) (h : ∀ p ∈ props, ∃ l, Records f p l ∧ l.length = n) :
    ∃ cs : List (Curve K), plot_timetraces sqrt f props 0 (s * fd) = .ok (some cs) ∧
      List.Forall₂ (fun p c => ∃ data, Records f p data ∧ IsStats sqrt (data.drop (n - (m - s))) c.stats) props cs := by
  have htr : truth (f.attrs "adaptive_step_size") = false := by rcases ha with ha | ha <;> rw [ha] <;> rfl
  have he : ((s : K) * fd - m * fd) / fd = (((s : ℤ) - m : ℤ) : K) := by
    rw [← sub_mul, mul_div_assoc, div_self hd.ne', mul_one]
    push_cast
    rfl
  obtain ⟨cs, c1, c2⟩ := timetraces_spec sqrt hfd hp0 h (t0_std := s * fd) (i0 := 0) (istd := (s : ℤ) - m)
    (by rw [htr, timeIndex_fixed f fd hfd hd]; simp) (by omega) (by rw [htr]; exact xValues_fixed f fd hd (n - 0)) (by simp)
    (by rw [htr, timeIndex_fixed f fd hfd hd, hi]; simp only [Option.getD_some, Timetrace.value]; rw [he, Int.floor_intCast])
  refine ⟨cs, c1, c2.imp fun p c => ?_⟩
  rintro ⟨-, data, hr, rfl, hs, -⟩
  refine ⟨data, hr, ?_⟩
  have e : sliceFrom data ((s : ℤ) - m) = data.drop (data.length - (m - s)) := by
    unfold sliceFrom
    rw [if_pos (by omega)]
    congr 1
    omega
  rw [hs, if_neg (by omega), e]
  refine stats_spec sqrt fun h => ?_
  have := congrArg List.length h
  rw [List.length_drop, List.length_nil] at this
  omega

/-- **C124 is violated by `plot_timetrace_comparison` for files that start later** (a float `initial_time`, as written
for `recording_start_time=2.5`): a file as long as that shows nothing, not even an error; a longer one is refused with
a `TypeError`, unless it has more than 14 tick intervals. -/
theorem C124_late_violated (sqrt : K → K) (f : H5 K K) (fd : K) (hfd : f.attrs "frame_dt" = some (.num fd)) (hd : 0 < fd)
    (ha : f.attrs "adaptive_step_size" = none ∨ f.attrs "adaptive_step_size" = some (.bool false)) (m : ℕ) (hm : 1 ≤ m)
    (hi : f.attrs "initial_time" = some (.num (m * fd))) (n : ℕ)
    (shape : RowShape) (rows : List (Cell K)) (hden : f.dsets "density" = some (.rows shape rows)) (hrows : rows.length = n)
    (props : List String)
    (hp0 : props ≠ []) (h : ∀ p ∈ props, ∃ l, Records f p l ∧ l.length = n)
    (hpre : ∀ p ∈ props, f.dsets ("fullres_" ++ p) = none ∨ ∃ l, Records f ("fullres_" ++ p) l ∧ l.length = n)
    (t0_std : K) (xtick_interval : ℤ) (hx : 0 < xtick_interval) :
    (n ≤ m → plot_timetrace_comparison sqrt f props "fullres_" (.int 0) t0_std xtick_interval = .ok none) ∧
    (m < n → n * fd < 15 * xtick_interval →
      plot_timetrace_comparison sqrt f props "fullres_" (.int 0) t0_std xtick_interval = .error .typeError) := by
  have htr : truth (f.attrs "adaptive_step_size") = false := by rcases ha with ha | ha <;> rw [ha] <;> rfl
  have hpos : (0 : K) < m * fd := mul_pos (by exact_mod_cast hm) hd
  have hmax : pyMax (.int 0) ((f.attrs "initial_time").getD (.int 0)) = .num (m * fd) := by
    rw [hi, Option.getD_some]
    unfold pyMax
    rw [if_pos (by simpa [Timetrace.value] using hpos)]
  have hidx : timeIndex f false (m * fd) = .ok (m : ℤ) := by
    rw [timeIndex_fixed f fd hfd hd, mul_div_assoc, div_self hd.ne', mul_one, Int.floor_natCast]
  have he : endTime f false = .ok (n * fd) := by
    unfold endTime
    rw [if_neg (by simp)]
    unfold RunProperties.attr
    rw [hfd]
    simp only [Py.ok_bind, hden, Timetrace.value, hrows]
    rfl
  constructor
  · intro hmn
    unfold plot_timetrace_comparison
    simp only [htr, hmax, Timetrace.value]
    rw [hidx]
    simp only [Py.ok_bind]
    rw [he]
    simp only [Py.ok_bind]
    have hl : maxLength f m "frame_dt" props 0 = .ok none := by
      cases props with
      | nil => exact absurd rfl hp0
      | cons p ps =>
        obtain ⟨l, h1, h2⟩ := h p (by simp)
        unfold maxLength
        rw [series_spec h1]
        simp only [Py.ok_bind, h2]
        rw [if_pos (by omega)]
        unfold RunProperties.attr
        rw [hfd]
        rfl
    rw [hl]
    rfl
  · intro hmn hend
    obtain ⟨upper, lower, p1, -, -⟩ := panels_spec sqrt (f := f) (adaptive := false) (pre := "fullres_") (t0 := m * fd) (i0 := m)
      (istd := if (n : ℤ) < ⌊(t0_std - m * fd) / fd⌋ then m else ⌊(t0_std - m * fd) / fd⌋) hmn hfd
      (by unfold xValues; rw [if_neg (by simp), arange_eq _ fd hd]) (by simp) props h hpre
    unfold plot_timetrace_comparison
    simp only [htr, hmax, Timetrace.value]
    rw [hidx]
    simp only [Py.ok_bind]
    rw [he]
    simp only [Py.ok_bind]
    rw [maxLength_spec hmn "frame_dt" props h 0 (by omega), if_neg hp0]
    simp only [Py.ok_bind]
    rw [hi, Option.getD_some]
    simp only
    rw [timeIndex_fixed f fd hfd hd]
    simp only [Py.ok_bind]
    rw [p1]
    simp only [Py.ok_bind]
    have hx' : (0 : K) < xtick_interval := by exact_mod_cast hx
    unfold ticks
    rw [if_pos]
    · rfl
    · rw [Int.floor_lt, div_lt_iff₀ hx']
      exact_mod_cast hend

/-- `j` is the frame whose time is nearest to `t`, the first one if there are several -/
def Nearest (times : List K) (t : K) (j : ℕ) : Prop :=
  ∃ x, times[j]? = some x ∧ (∀ y ∈ times, |x - t| ≤ |y - t|) ∧ ∀ i < j, ∀ y, times[i]? = some y → |x - t| < |y - t|

private theorem nearest_spec {times : List K} (h : times ≠ []) (t : K) : ∃ j : ℕ, Timetrace.nearest times t = .ok (j : ℤ) ∧ Nearest times t j := by
  unfold Timetrace.nearest
  simp only
  cases hm : (times.map fun x => |x - t|).min? with
  | none =>
    rw [List.min?_eq_none_iff, List.map_eq_nil_iff] at hm
    exact absurd hm h
  | some d =>
    obtain ⟨h1, h2⟩ := List.min?_eq_some_iff.1 hm
    refine ⟨_, rfl, ?_⟩
    have hlt := List.idxOf_lt_length_of_mem h1
    have hget := List.getElem_idxOf hlt
    rw [List.length_map] at hlt
    rw [List.getElem_map] at hget
    refine ⟨_, List.getElem?_eq_getElem hlt, fun y hy => ?_, fun i hi y hy => ?_⟩
    · rw [hget]
      exact h2 _ (List.mem_map_of_mem hy)
    · rw [hget]
      obtain ⟨hil, rfl⟩ := List.getElem?_eq_some_iff.1 hy
      refine lt_of_le_of_ne (h2 _ (List.mem_map_of_mem (List.getElem_mem hil))) fun he => ?_
      have hi2 : i < (times.map fun x => |x - t|).length := by rw [List.length_map]; exact hil
      have h3 : (times.map fun x => |x - t|)[i] = d := by rw [List.getElem_map]; exact he.symm
      have h4 := List.not_of_lt_findIdx hi
      rw [h3] at h4
      simp at h4

private theorem recordedTimes_spec (f : H5 K K) (times : List K) (h : f.dsets "time" = some (.rows .one (times.map .num))) :
    Movie.recordedTimes f = .ok times := by
  unfold Movie.recordedTimes
  rw [h]
  simp only
  rw [List.mapM_map]
  exact (Helpers.mapM_ok _ id times fun x _ => rfl).trans (by rw [List.map_id])

private theorem timeIndex_adaptive {f : H5 K K} {times : List K} (h : f.dsets "time" = some (.rows .one (times.map .num)))
    (h0 : times ≠ []) (t : K) : ∃ j : ℕ, timeIndex f true t = .ok (j : ℤ) ∧ Nearest times t j ∧ j < times.length := by
  obtain ⟨j, h1, h2⟩ := nearest_spec h0 t
  refine ⟨j, ?_, h2, ?_⟩
  · unfold timeIndex
    rw [if_pos rfl, recordedTimes_spec f times h]
    exact h1
  · obtain ⟨x, h3, -⟩ := h2
    exact (List.getElem?_eq_some_iff.1 h3).1

private theorem xValues_adaptive {f : H5 K K} {times : List K} (h : f.dsets "time" = some (.rows .one (times.map .num)))
    (t0 fd : K) (i n : ℕ) : xValues f true t0 i n fd = .ok (times.drop i) := by
  unfold xValues
  rw [if_pos rfl, recordedTimes_spec f times h]
  simp only [Py.ok_bind, sliceFrom_nat]
  rfl

/-- the points of a curve: the values of the frames from `i` on at the recorded times -/
def AtRecordedTimes (times data : List K) (i : ℕ) (points : List (K × K)) : Prop :=
  points.length = data.length - i ∧ ∀ (j : ℕ) (x y : K), points[j]? = some (x, y) → times[i + j]? = some x ∧ data[i + j]? = some y

private theorem atRecordedTimes (times data : List K) (h : times.length = data.length) (i : ℕ) :
    AtRecordedTimes times data i ((times.drop i).zip (data.drop i)) := by
  refine ⟨by simp [h], fun j x y hp => ?_⟩
  rw [List.getElem?_zip_eq_some, List.getElem?_drop, List.getElem?_drop] at hp
  exact hp

/-- **C124 (and C81), figures of `plot_timetrace_comparison`, adaptive time steps.**  For a file that starts at time 0
every value is drawn at its recorded time, from the frame nearest to time 0 on; the statistics are those of the values
from the frame nearest to `t0_std` on. -/
theorem C124_adaptive_partial (sqrt : K → K) (f : H5 K K) (fd : K) (hfd : f.attrs "frame_dt" = some (.num fd))
    (ha : f.attrs "adaptive_step_size" = some (.bool true))
    (hi : f.attrs "initial_time" = none ∨ f.attrs "initial_time" = some (.num 0)) (times : List K) (ht0 : times ≠ [])
    (ht : f.dsets "time" = some (.rows .one (times.map .num))) (props : List String)
    (hp0 : props ≠ []) (h : ∀ p ∈ props, ∃ l, Records f p l ∧ l.length = times.length)
    (hpre : ∀ p ∈ props, f.dsets ("fullres_" ++ p) = none ∨ ∃ l, Records f ("fullres_" ++ p) l ∧ l.length = times.length)
    (t0_std : K) (xtick_interval : ℤ) :
    ∃ (upper lower : List (Curve K)) (i k : ℕ), Nearest times 0 i ∧ Nearest times t0_std k ∧
      plot_timetrace_comparison sqrt f props "fullres_" (.int 0) t0_std xtick_interval = .ok (some (upper, lower)) ∧
      List.Forall₂ (fun p c => (∃ name, latex_format p = .ok name ∧ c.label = name ++ " ") ∧ ∃ data, Records f p data ∧
        AtRecordedTimes times data i c.points ∧ IsStats sqrt (data.drop k) c.stats) props upper ∧
      List.Forall₂ (fun p c => (∃ name, latex_format p = .ok name ∧ c.label = "Full " ++ name ++ " ") ∧
          ∃ data, Records f ("fullres_" ++ p) data ∧ AtRecordedTimes times data i c.points ∧ IsStats sqrt (data.drop k) c.stats)
        (props.filter fun p => (f.dsets ("fullres_" ++ p)).isSome) lower := by
  have h0 : Timetrace.value ((f.attrs "initial_time").getD (.int 0)) = 0 := by
    rcases hi with h | h <;> rw [h] <;> simp [Timetrace.value]
  have hmax : pyMax (.int 0) ((f.attrs "initial_time").getD (.int 0)) = .int 0 := by
    unfold pyMax
    rw [if_neg (by rw [h0]; simp [Timetrace.value])]
  have htr : truth (f.attrs "adaptive_step_size") = true := by rw [ha]; rfl
  obtain ⟨i, i1, i2, i3⟩ := timeIndex_adaptive ht ht0 0
  obtain ⟨k, k1, k2, k3⟩ := timeIndex_adaptive ht ht0 t0_std
  obtain ⟨upper, lower, p1, p2, p3⟩ := panels_spec sqrt (f := f) (adaptive := true) (pre := "fullres_") (t0 := 0) (i0 := i)
    (istd := k) i3 hfd (xValues_adaptive ht 0 fd i _) (by simp) props h hpre
  have key : ∀ (data : List K) (c : Curve K), data.length = times.length → c.stats = stats sqrt (sliceFrom data k) →
      c.points = (times.drop i).zip (data.drop i) →
      AtRecordedTimes times data i c.points ∧ IsStats sqrt (data.drop k) c.stats := by
    intro data c hl s1 s2
    rw [s1, s2, sliceFrom_nat]
    refine ⟨atRecordedTimes times data hl.symm i, stats_spec sqrt fun h => ?_⟩
    have := congrArg List.length h
    rw [List.length_drop, List.length_nil] at this
    omega
  refine ⟨upper, lower, i, k, i2, k2, ?_, p2.imp fun p c => ?_, p3.imp fun p c => ?_⟩
  · unfold plot_timetrace_comparison
    simp only [htr, hmax, h0, sub_zero]
    rw [show Timetrace.value (.int 0 : Attr K) = 0 by simp [Timetrace.value], i1]
    simp only [Py.ok_bind]
    obtain ⟨T, hT⟩ : ∃ T, times.getLast? = some T := by
      cases hl : times.getLast? with
      | none => exact absurd (List.getLast?_eq_none_iff.1 hl) ht0
      | some T => exact ⟨T, rfl⟩
    have he : endTime f true = .ok T := by
      unfold endTime
      rw [if_pos rfl, recordedTimes_spec f times ht]
      simp only [Py.ok_bind, hT]
      rfl
    rw [he]
    simp only [Py.ok_bind]
    rw [maxLength_spec i3 "frame_dt" props h 0 (by omega), if_neg hp0]
    simp only [Py.ok_bind]
    rw [k1]
    simp only [Py.ok_bind]
    rw [if_neg (by omega), p1]
    simp only [Py.ok_bind]
    unfold ticks
    split_ifs <;> rfl
  · rintro ⟨hl, data, r, hd, s1, s2⟩
    exact ⟨hl, data, r, key data c hd s1 s2⟩
  · rintro ⟨hl, data, r, hd, s1, s2⟩
    exact ⟨hl, data, r, key data c hd s1 s2⟩

/-- **C124 is violated for adaptive files that start later**: `plot_timetraces` takes the statistics from the frame
of time `t0_std - initial_time` on, although there is a frame of time `t0_std`. -/
theorem C124_adaptive_violated (sqrt : K → K) (f : H5 K K) (fd : K) (hfd : f.attrs "frame_dt" = some (.num fd))
    (ha : f.attrs "adaptive_step_size" = some (.bool true)) (init : K)
    (hi : f.attrs "initial_time" = some (.num init)) (times : List K) (ht0 : times ≠ [])
    (ht : f.dsets "time" = some (.rows .one (times.map .num))) (props : List String)
    (hp0 : props ≠ []) (h : ∀ p ∈ props, ∃ l, Records f p l ∧ l.length = times.length) (t0_std : K)
    (hmem : t0_std - init ∈ times) (_ : t0_std ∈ times) (hpos : 0 < init) :
    ∃ (cs : List (Curve K)) (i k : ℕ), Nearest times 0 i ∧ times[k]? = some (t0_std - init) ∧ t0_std - init < t0_std ∧
      plot_timetraces sqrt f props 0 t0_std = .ok (some cs) ∧
      List.Forall₂ (fun p c => ∃ data, Records f p data ∧ AtRecordedTimes times data i c.points ∧
        IsStats sqrt (data.drop k) c.stats) props cs := by
  have htr : truth (f.attrs "adaptive_step_size") = true := by rw [ha]; rfl
  obtain ⟨i, i1, i2, i3⟩ := timeIndex_adaptive ht ht0 0
  obtain ⟨k, k1, k2, k3⟩ := timeIndex_adaptive ht ht0 (t0_std - init)
  obtain ⟨cs, c1, c2⟩ := timetraces_spec sqrt hfd hp0 h (t0_std := t0_std) (i0 := i) (istd := k)
    (by rw [htr]; exact i1) i3 (by rw [htr]; exact xValues_adaptive ht 0 fd i _) (by simp)
    (by rw [htr, hi]; exact k1)
  have hk : times[k]? = some (t0_std - init) := by
    obtain ⟨x, x1, x2, -⟩ := k2
    have := x2 _ hmem
    rw [sub_self, abs_zero, abs_nonpos_iff, sub_eq_zero] at this
    rw [x1, this]
  refine ⟨cs, i, k, i2, hk, by linarith, c1, c2.imp fun p c => ?_⟩
  rintro ⟨-, data, hr, hl, hs, hp⟩
  refine ⟨data, hr, ?_, ?_⟩
  · rw [hp]
    exact atRecordedTimes times data hl.symm i
  · rw [hs, if_neg (by omega), sliceFrom_nat]
    refine stats_spec sqrt fun h => ?_
    have := congrArg List.length h
    rw [List.length_drop, List.length_nil] at this
    omega

/-- **C124 is violated**: with a path given, the second figure of the command line program (`comparison=False`)
overwrites the first one.  -/
theorem C124_overwrites_violated (file_path out_path : List Char) :
    mainPaths file_path (some out_path) = [out_path, out_path] := rfl

/-- without a path the figures have different names -/
theorem C124_paths_partial (file_path : List Char) : (mainPaths file_path none).Nodup := by
  unfold mainPaths figurePath
  simp only [List.nodup_cons, List.mem_singleton, List.not_mem_nil, not_false_eq_true, List.nodup_nil, and_true]
  intro h
  have h := List.append_cancel_left h
  revert h
  decide +kernel

/-! ### Concrete cases -/

/-- a file with three frames -/
def demoTraceFile (adaptive : Bool) (init : ℚ) : H5 ℚ ℚ where
  attrs k :=
    if k = "adaptive_step_size" then some (.bool adaptive) else if k = "frame_dt" then some (.num (1 / 2)) else
    if k = "initial_time" then some (.num init) else none
  dsets k :=
    if k = "time" then some (.rows .one ([init, init + 1 / 2, init + 1].map .num)) else
    if k = "density" then some (.rows (.grid 1 1) ([1, 2, 3].map fun x => .arr (.tab 1 1 fun _ _ => x))) else
    if k = "gamma_n" then some (.flat [1, 2, 4]) else if k = "energy" then some (.flat [5, 6, 7]) else
    if k = "fullres_gamma_n" then some (.rows .one ([1, 2, 5].map .num)) else none

theorem demo_trace (adaptive : Bool) (init : ℚ) : ∀ p ∈ ["gamma_n", "energy"],
    ∃ l, Records (demoTraceFile adaptive init) p l ∧ l.length = 3 := by
  intro p hp
  simp only [List.mem_cons, List.not_mem_nil, or_false] at hp
  rcases hp with rfl | rfl
  · exact ⟨[1, 2, 4], .inl rfl, rfl⟩
  · exact ⟨[5, 6, 7], .inl rfl, rfl⟩

theorem demo_trace_full (adaptive : Bool) (init : ℚ) : ∀ p ∈ ["gamma_n", "energy"],
    (demoTraceFile adaptive init).dsets ("fullres_" ++ p) = none ∨
      ∃ l, Records (demoTraceFile adaptive init) ("fullres_" ++ p) l ∧ l.length = 3 := by
  intro p hp
  simp only [List.mem_cons, List.not_mem_nil, or_false] at hp
  rcases hp with rfl | rfl
  · exact .inr ⟨[1, 2, 5], .inr rfl, rfl⟩
  · exact .inl rfl

example := C124_comparison_partial id (demoTraceFile false 0) (1 / 2) rfl (by norm_num) (.inr rfl) (.inr rfl) 3 (by norm_num) _ _ rfl
  ["gamma_n", "energy"] (by simp) (demo_trace _ _) (demo_trace_full _ _) (1 / 2) 1 (by norm_num) (by norm_num) 100
example := C124_nan_violated id (demoTraceFile false 0) (1 / 2) rfl (by norm_num) (.inr rfl) (.inr rfl) 3 (by norm_num)
  ["gamma_n", "energy"] (by simp) (demo_trace _ _)
example := C124_label_violated id (demoTraceFile false 0) (1 / 2) rfl (by norm_num) (.inr rfl) 3 (by norm_num)
  ["gamma_n", "energy"] (by simp) (demo_trace _ _) 0
example := C124_late_statistics_violated id (demoTraceFile false 1) (1 / 2) rfl (by norm_num) (.inr rfl) 2 1 3 (by norm_num)
  (by norm_num) (by simp only [demoTraceFile, String.reduceEq, if_false, if_true]; norm_num) ["gamma_n", "energy"] (by simp)
  (demo_trace _ _)
example := (C124_late_violated id (demoTraceFile false 1) (1 / 2) rfl (by norm_num) (.inr rfl) 2 (by norm_num)
  (by simp only [demoTraceFile, String.reduceEq, if_false, if_true]; norm_num) 3 _ _ rfl rfl
  ["gamma_n", "energy"] (by simp) (demo_trace _ _) (demo_trace_full _ _) 300 100 (by norm_num)).2 (by norm_num) (by norm_num)
example := (C124_late_violated id (demoTraceFile false 2) (1 / 2) rfl (by norm_num) (.inr rfl) 4 (by norm_num)
  (by simp only [demoTraceFile, String.reduceEq, if_false, if_true]; norm_num) 3 _ _ rfl rfl
  ["gamma_n", "energy"] (by simp) (demo_trace _ _) (demo_trace_full _ _) 300 100 (by norm_num)).1 (by norm_num)
example := C124_adaptive_partial id (demoTraceFile true 0) (1 / 2) rfl rfl (.inr rfl) _ (by simp) rfl
  ["gamma_n", "energy"] (by simp) (demo_trace _ _) (demo_trace_full _ _) (1 / 2) 100
example := C124_adaptive_violated id (demoTraceFile true (1 / 2)) (1 / 2) rfl rfl (1 / 2) rfl _ (by simp) rfl
  ["gamma_n", "energy"] (by simp) (demo_trace _ _) 1 (by norm_num) (by norm_num) (by norm_num)

end

end Verif.Props
