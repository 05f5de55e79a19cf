import Verif.Lemmas.Run2Missing
import Verif.Props.Run2Props

/-!
# C120: continuing a file with another list of properties

The datasets `fullres_<name>` are created with the file.  A later call of `run2` that continues the file uses its own
list of properties.
-/

set_option linter.unusedSectionVars false

namespace Verif.Props

open H5IO H5 Run Run2

variable {α β : Type} [Casts α β] [Zero α] [Inhabited α] [Inhabited β] [FloatOps α] {E : Env2 α β} {a : Args2 α}
  {σ : St α β} {f : H5 α β} {hw : Solver α} {ns m fuel : ℕ} {S : ℕ → NS (Cell α)} {d o p : Arr α} {t0 : α}
  {params : NS (Attr α)}

/-- **C120 (partial).** If the file records every property of the continuing call (in any order, possibly along with
others), then `time`, the fields and the properties of the call all grow by the same number of rows: one for each frame
written. -/
theorem C120_same_list_partial (h : ContinuedRun2 E a σ f hw ns d o p t0 params m S) (hfuel : m < fuel)
    (hnames : ∀ name ∈ a.properties, name ∉ "time" :: fieldList ∧ "fullres_" ++ name ∉ a.properties) :
    ∃ f', (run2 E a fuel σ).2.fs a.output_path = some f' ∧
      ∀ k ∈ ("time" :: fieldList) ++ a.properties.map ("fullres_" ++ ·),
        (f'.rowsOf k).length = (f.rowsOf k).length
          + (written2 a (timeAt E a t0 m) (stepFrames2 E a t0 S m)).length := by
  obtain ⟨f', h1, -, -, -, -, h2, h3⟩ := continue2_result h hfuel
  refine ⟨f', h1, fun k hk => ?_⟩
  rcases List.mem_append.mp hk with hk | hk
  · obtain ⟨rows, r1, r2⟩ := h2 k hk fun hkp => (hnames k hkp).1 hk
    have : f'.rowsOf k = f.rowsOf k ++ rows := by
      conv_lhs => unfold H5.rowsOf
      rw [r1]
    rw [this, List.length_append, r2.length_eq]
  · obtain ⟨name, hn, rfl⟩ := List.mem_map.mp hk
    obtain ⟨rows, r1, r2⟩ := h3 name hn (hnames name hn).2
    have : f'.rowsOf ("fullres_" ++ name) = f.rowsOf ("fullres_" ++ name) ++ rows := by
      conv_lhs => unfold H5.rowsOf
      rw [r1]
    rw [this, List.length_append, r2.length_eq]

/-- **C120 is violated for properties left out.** A property that the file records but the continuing call does not
list is not recorded any more: its dataset (and the one `calculate_properties` made) stays as it is, without any error
caused by this, while `time` and the fields grow.  From then on row `i` of the dataset exists only for old frames. -/
theorem C120_left_out_violated (h : ContinuedRun2 E a σ f hw ns d o p t0 params m S) (hfuel : m < fuel)
    (hnames : ∀ name ∈ a.properties, name ∉ "time" :: fieldList) {name : String} (hname : name ∉ a.properties)
    (hfull : "fullres_" ++ name ∉ a.properties) {r : List (Cell β)}
    (hr : f.dsets ("fullres_" ++ name) = some (.rows .one r)) (hal : (f.rowsOf "time").length = r.length)
    (hw' : written2 a (timeAt E a t0 m) (stepFrames2 E a t0 S m) ≠ []) :
    ∃ f', (run2 E a fuel σ).2.fs a.output_path = some f' ∧
      f'.dsets ("fullres_" ++ name) = some (.rows .one r) ∧
      (name ∉ "time" :: fieldList → (∀ n, name ≠ "fullres_" ++ n) → (∀ k, name ≠ "state_" ++ k) →
        f'.dsets name = f.dsets name) ∧
      ∀ k ∈ "time" :: fieldList, ∃ rows, f'.dsets k = some (.rows (rowShape ns k) (f.rowsOf k ++ rows)) ∧
        rows ≠ [] ∧ (k = "time" → r.length < (f'.rowsOf k).length) := by
  obtain ⟨f', h1, -, -, -, -, h2, -, h3, -⟩ := continue2_all h hfuel
  refine ⟨f', h1, ?_, ?_, fun k hk => ?_⟩
  · rw [h3 _ fullres_not_mem hfull ?_ fun k _ => fullres_ne_state, hr]
    intro n hn e
    exact hname (fullres_inj e ▸ hn)
  · intro g1 g2 g3
    exact h3 _ g1 hname (fun n _ => g2 n) fun k _ => g3 k
  · obtain ⟨rows, r1, r2⟩ := h2 k hk fun hkp => hnames k hkp hk
    have hne : rows ≠ [] := by
      rintro rfl
      exact hw' (List.forall₂_nil_right_iff.mp r2)
    refine ⟨rows, r1, hne, ?_⟩
    rintro rfl
    have : f'.rowsOf "time" = f.rowsOf "time" ++ rows := by
      conv_lhs => unfold H5.rowsOf
      rw [r1]
    rw [this, List.length_append, hal]
    have := List.length_pos_iff.mpr hne
    omega

/-- **C120 is violated for new properties.** If the file lacks a property of the continuing call, then as soon as frames
have to be written `run2` raises `KeyError` (however long the simulation took until then) and leaves a damaged file:
`time`, the fields and the properties listed before the missing one have the frames that were in the buffer, the other
datasets, among them `state_*`, do not.  A later call that continues the file starts with the old state at the time of
the last of the new frames. -/
theorem C120_added_violated (h : ContinuedCall2 E a σ f hw ns d o p t0 params m S) (hfuel : m < fuel)
    {pre post : List String} {bad : String} (hprops : a.properties = pre ++ bad :: post)
    (hpre : ∀ name ∈ pre, ∃ r, f.dsets ("fullres_" ++ name) = some (.rows .one r))
    (hbad : f.dsets ("fullres_" ++ bad) = none) (hne : stepFrames2 E a t0 S m ≠ [])
    (hfl : a.buffer_length ≤ (stepFrames2 E a t0 S m).length ∨ flushes2 a (timeAt E a t0 m) = true) :
    ∃ g σ' fr, run2 E a fuel σ = (.error (.keyError ("fullres_" ++ bad)), σ') ∧
      σ'.fs = upd σ.fs a.output_path (some g) ∧
      ((stepFrames2 E a t0 S m).take a.buffer_length).getLast? = some fr ∧
      Extended2 E a ns pre ((stepFrames2 E a t0 S m).take a.buffer_length) f g ∧
      (g.rowsOf "time").getLast? = some (.num (Casts.f32 fr.1)) ∧
      (∀ name ∈ post, g.dsets ("fullres_" ++ name) = f.dsets ("fullres_" ++ name)) ∧
      ∀ k ∈ fieldList, (f.dsets ("state_" ++ k)).isSome → loadedValue g k = loadedValue f k := by
  obtain ⟨g, σ', h1, h2, h3⟩ := continue2_missing h hfuel hprops hpre hbad hne hfl
  have hnd := h.nodup
  rw [hprops] at hnd
  have hL := h.buffer
  have hne' : (stepFrames2 E a t0 S m).take a.buffer_length ≠ [] := by
    intro e
    rcases List.take_eq_nil_iff.mp e with e | e
    · omega
    · exact hne e
  refine ⟨g, σ', _, h1, h2, List.getLast?_eq_some_getLast hne', h3, ?_, ?_, ?_⟩
  · obtain ⟨rows, r1, r2⟩ := h3.rows "time" (by simp)
    have e : g.rowsOf "time" = f.rowsOf "time" ++ rows := by
      conv_lhs => unfold H5.rowsOf
      rw [r1]
    generalize (stepFrames2 E a t0 S m).take a.buffer_length = fr at hne' r2
    rw [e]
    clear e r1
    induction r2 with
    | nil => exact absurd rfl hne'
    | @cons x row l rows hx hl ih =>
      by_cases hl' : l = []
      · subst hl'
        rw [List.forall₂_nil_left_iff.mp hl, List.getLast?_append]
        simp only [IsFrameRow, if_true] at hx
        simp [hx]
      · have := ih hl'
        rw [List.getLast?_append] at this ⊢
        rw [List.getLast_cons hl', ← this]
        have hr : rows ≠ [] := by
          rintro rfl
          exact hl' (List.forall₂_nil_right_iff.mp hl)
        rw [List.getLast?_eq_some_getLast hr, List.getLast?_eq_some_getLast (List.cons_ne_nil row rows),
          List.getLast_cons hr]
  · intro name hn
    refine h3.other _ fullres_not_mem fun n hn' e => ?_
    have := fullres_inj e
    subst this
    exact (List.nodup_append.mp hnd).2.2 _ hn' _ (by simp [hn]) rfl
  · intro k hk hs
    have hst : g.dsets ("state_" ++ k) = f.dsets ("state_" ++ k) := by
      refine h3.other _ ?_ fun n _ e => fullres_ne_state e.symm
      exact (by decide : ∀ k ∈ fieldList, "state_" ++ k ∉ "time" :: fieldList) k hk
    obtain ⟨D, hD⟩ := Option.isSome_iff_exists.mp hs
    unfold loadedValue
    rw [hst, hD]
    cases D <;> rfl

/-! ### non-vacuity -/

section demo

attribute [local instance] exactOps
attribute [-instance] physCasts
attribute [local instance] exactCasts

theorem propsArgs_time (c : ℝ) (j : ℕ) : timeAt propsEnv (propsArgs c) 0 j = j * (propsArgs c).step_size := by
  rw [exact_timeAt (fun _ _ => rfl), zero_add]

theorem propsArgs_flush (c : ℝ) : flushes2 (propsArgs c) (timeAt propsEnv (propsArgs c) 0 8) = true := by
  unfold flushes2
  rw [propsArgs_time]
  refine decide_eq_true ?_
  have h0 : (propsArgs c).recording_start_time = 0 := rfl
  have := (props_good c).step
  rw [h0]
  positivity

theorem propsArgs_frames (c : ℝ) (S : ℕ → NS (Cell ℝ)) : stepFrames2 propsEnv (propsArgs c) 0 S 8 ≠ [] := by
  intro e
  have hm : (timeAt propsEnv (propsArgs c) 0 2, S 2) ∈ stepFrames2 propsEnv (propsArgs c) 0 S 8 := by
    unfold stepFrames2
    refine List.mem_map.mpr ⟨2, List.mem_filter.mpr ⟨by decide, ?_⟩, rfl⟩
    unfold isRecorded2
    rw [propsArgs_time, Bool.and_eq_true]
    refine ⟨decide_eq_true ?_, (by decide : (2 % 2 == 0) = true)⟩
    have h0 : (propsArgs c).recording_start_time = 0 := rfl
    have := (props_good c).step
    rw [h0]
    positivity
  rw [e] at hm
  cases hm

example : ∃ f', (run2 propsEnv (propsArgs 1) 9 ⟨fun q => if q = "run.h5" then some propsFile else none, []⟩).2.fs
      "run.h5" = some f' ∧ ∃ w, w ≠ 0 ∧ (f'.rowsOf "time").length = 1 + w ∧ (f'.rowsOf "fullres_energy").length = 1 + w := by
  obtain ⟨d, o, p, S, h⟩ := props_continued 1
  obtain ⟨f', h1, h2⟩ := C120_same_list_partial h (by decide : 8 < 9)
    (by change ∀ name ∈ ["gamma_c", "energy", "kinetic_energy"], _; decide)
  refine ⟨f', h1, _, ?_, h2 "time" (by simp), h2 "fullres_energy" (by simp [propsArgs])⟩
  unfold written2
  rw [propsArgs_flush, if_pos rfl, Ne, List.length_eq_zero_iff]
  exact propsArgs_frames 1 S

/-- `propsFile` with one more property -/
noncomputable def moreFile : H5 ℝ ℝ :=
  { propsFile with dsets := upd propsFile.dsets "fullres_enstrophy" (some (.rows .one [.num 3])) }

/-- `propsFile` without `fullres_energy` -/
noncomputable def lessFile : H5 ℝ ℝ := { propsFile with dsets := upd propsFile.dsets "fullres_energy" none }

theorem more_dsets {k : String} (h : k ≠ "fullres_enstrophy") : moreFile.dsets k = propsFile.dsets k := upd_ne _ _ h
theorem less_dsets {k : String} (h : k ≠ "fullres_energy") : lessFile.dsets k = propsFile.dsets k := upd_ne _ _ h

theorem more_new : moreFile.dsets ("fullres_" ++ "enstrophy") = some (.rows .one [.num 3]) := by
  rw [show "fullres_" ++ "enstrophy" = "fullres_enstrophy" by decide]
  exact upd_same propsFile.dsets "fullres_enstrophy" (some (.rows .one [.num 3]))

theorem less_none : lessFile.dsets ("fullres_" ++ "energy") = none := by
  rw [show "fullres_" ++ "energy" = "fullres_energy" by decide]
  exact upd_same propsFile.dsets "fullres_energy" none

theorem loadedValue_congr {f g : H5 ℝ ℝ} {k : String} (h1 : f.dsets k = g.dsets k)
    (h2 : f.dsets ("state_" ++ k) = g.dsets ("state_" ++ k)) : loadedValue f k = loadedValue g k := by
  unfold loadedValue
  rw [h1, h2]

theorem continued_congr {c : ℝ} {g : H5 ℝ ℝ} (hg : ∀ k, (∀ name, k ≠ "fullres_" ++ name) → g.dsets k = propsFile.dsets k)
    (ha : g.attrs = propsFile.attrs) : ∃ d o p S, ContinuedCall2 propsEnv (propsArgs c)
    ⟨fun q => if q = "run.h5" then some g else none, []⟩ g
    (hwSolver (theHW2 numpyBackend (propsArgs 1))) 8 d o p 0 (propsArgs 1).toArgs.physics 8 S := by
  obtain ⟨d, o, p, S, h⟩ := props_continued c
  have hk : ∀ k ∈ "time" :: fieldList, g.dsets k = propsFile.dsets k := fun k hk =>
    hg k fun name e => fullres_ne hk e.symm
  have hs : ∀ k, g.dsets ("state_" ++ k) = propsFile.dsets ("state_" ++ k) := fun k =>
    hg _ fun name e => fullres_ne_state e.symm
  have hl : ∀ k ∈ fieldList, loadedValue g k = loadedValue propsFile k := fun k hf =>
    loadedValue_congr (hk k (List.mem_cons_of_mem _ hf)) (hs k)
  refine ⟨d, o, p, S, { h.toContinuedCall2 with
    file := rfl
    output := ⟨fun k hk' => by rw [hk k hk']; exact h.output.rows k hk',
      fun hst k hk' => by rw [hs k]; exact h.output.states hst k hk'⟩
    density := by rw [hl _ (by decide)]; exact h.density
    omega := by rw [hl _ (by decide)]; exact h.omega
    phi := by rw [hl _ (by decide)]; exact h.phi
    time := by rw [hk "time" (by simp)]; exact h.time
    restored := by rw [ha]; exact h.restored }⟩

example : ∃ f', (run2 propsEnv (propsArgs 1) 9 ⟨fun q => if q = "run.h5" then some moreFile else none, []⟩).2.fs
      "run.h5" = some f' ∧ f'.dsets "fullres_enstrophy" = some (.rows .one [.num 3]) ∧ 1 < (f'.rowsOf "time").length := by
  obtain ⟨d, o, p, S, h⟩ := continued_congr (c := 1) (g := moreFile)
    (fun k hk => more_dsets (hk "enstrophy")) rfl
  have h' : ContinuedRun2 propsEnv (propsArgs 1) ⟨fun q => if q = "run.h5" then some moreFile else none, []⟩ moreFile
      (hwSolver (theHW2 numpyBackend (propsArgs 1))) 8 d o p 0 (propsArgs 1).toArgs.physics 8 S := by
    refine ⟨h, ?_⟩
    intro name hn
    change name ∈ ["gamma_c", "energy", "kinetic_energy"] at hn
    simp only [List.mem_cons, List.not_mem_nil, or_false] at hn
    rcases hn with rfl | rfl | rfl <;> exact ⟨_, more_dsets (by decide)⟩
  obtain ⟨f', h1, h2, -, h3⟩ := C120_left_out_violated h' (by decide : 8 < 9)
    (by change ∀ name ∈ ["gamma_c", "energy", "kinetic_energy"], _; decide) (name := "enstrophy")
    (by change _ ∉ ["gamma_c", "energy", "kinetic_energy"]; decide)
    (by change _ ∉ ["gamma_c", "energy", "kinetic_energy"]; decide) more_new rfl
    (by unfold written2; rw [propsArgs_flush, if_pos rfl]; exact propsArgs_frames 1 S)
  obtain ⟨rows, -, -, r⟩ := h3 "time" (by simp)
  exact ⟨f', h1, h2, r rfl⟩

example : ∃ g σ', run2 propsEnv (propsArgs 1) 9 ⟨fun q => if q = "run.h5" then some lessFile else none, []⟩
      = (.error (.keyError "fullres_energy"), σ') ∧ σ'.fs "run.h5" = some g ∧
      g.dsets "fullres_kinetic_energy" = some (.rows .one [.num 7]) ∧ 1 < (g.rowsOf "time").length := by
  obtain ⟨d, o, p, S, h⟩ := continued_congr (c := 1) (g := lessFile) (fun k hk => less_dsets (hk "energy")) rfl
  obtain ⟨g, σ', fr, h1, h2, h3, h4, h5, h6, -⟩ := C120_added_violated h (by decide : 8 < 9) (pre := ["gamma_c"])
    (bad := "energy") (post := ["kinetic_energy"]) rfl
    (by
      intro name hn
      rw [List.mem_singleton.mp hn]
      exact ⟨_, less_dsets (by decide)⟩)
    less_none (propsArgs_frames 1 S) (.inr (propsArgs_flush 1))
  refine ⟨g, σ', h1, by rw [h2]; exact upd_same _ _ _, ?_, ?_⟩
  · refine (h6 "kinetic_energy" (by simp)).trans ?_
    exact less_dsets (by decide)
  · obtain ⟨rows, r1, r2⟩ := h4.rows "time" (by simp)
    have e : g.rowsOf "time" = lessFile.rowsOf "time" ++ rows := by
      conv_lhs => unfold H5.rowsOf
      rw [r1]
    have e' : lessFile.rowsOf "time" = [.num 0] := rfl
    rw [e, e', List.length_append, ← r2.length_eq]
    have : (stepFrames2 propsEnv (propsArgs 1) 0 S 8).take (propsArgs 1).buffer_length ≠ [] := by
      intro e
      rw [e] at h3
      cases h3
    have := List.length_pos_iff.mpr this
    simp only [List.length_singleton]
    omega

end demo

end Verif.Props
