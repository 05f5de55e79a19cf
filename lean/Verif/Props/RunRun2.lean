import Verif.Props.Run2Physics
import Verif.Lemmas.RunResult
import Verif.Lemmas.Double

/-!
# C105: `run` and `run2` record the same frames
-/

set_option linter.unusedSectionVars false

namespace Verif.Props

open H5IO H5 Run Run2 Spec

section general

variable {α β : Type} [Casts α β] [Zero α] [Inhabited α] [Inhabited β] [FloatOps α]
variable {E : Env2 α β} {a : Args2 α} {σ : St α β} {hw : Solver α} {ns m fuel : ℕ} {steps : ℤ} {S : ℕ → NS (Cell α)}

theorem IsFrameRow.unique {E : Env α β} {factor : α} {k : String} {t : α} {plasma : NS (Cell α)} {r r' : Cell β}
    (h : IsFrameRow E factor k t plasma r) (h' : IsFrameRow E factor k t plasma r') : r = r' := by
  unfold IsFrameRow at h h'
  split at h
  · rw [if_pos ‹_›] at h'
    rw [h, h']
  · rw [if_neg ‹_›] at h'
    obtain ⟨A, B, h1, h2, h3⟩ := h
    obtain ⟨A', B', h1', h2', h3'⟩ := h'
    obtain rfl : A = A' := Cell.arr.inj (Option.some.inj (h1.symm.trans h1'))
    obtain rfl : B = B' := Cell.arr.inj (Except.ok.inj (h2.symm.trans h2'))
    rw [h3, h3']

theorem rows_unique {P : α × NS (Cell α) → Cell β → Prop} (hP : ∀ x r r', P x r → P x r' → r = r')
    {l : List (α × NS (Cell α))} {r r' : List (Cell β)} (h : List.Forall₂ P l r) (h' : List.Forall₂ P l r') : r = r' := by
  induction h generalizing r' with
  | nil => cases h'; rfl
  | cons h1 _ ih =>
    cases h' with
    | cons h1' h2' => rw [hP _ _ _ h1 h1', ih h2']

/-- the same frames if the times are the same -/
theorem frames_eq (ht : ∀ it, 1 ≤ it → it ≤ m → timeAt E a (FloatOps.ofInt 0) it = stepTime a.toArgs it) :
    frames2 E a S m = frames a.toArgs S m := by
  unfold frames2 frames stepFrames2
  congr 1
  have hf : (List.range' 1 m).filter (isRecorded2 E a (FloatOps.ofInt 0)) = (List.range' 1 m).filter (isRecorded a.toArgs) := by
    refine List.filter_congr fun it hit => ?_
    rw [List.mem_range'_1] at hit
    unfold isRecorded2 isRecorded
    rw [ht it (by omega) (by omega)]
  rw [hf]
  refine List.map_congr_left fun it hit => ?_
  rw [List.mem_filter, List.mem_range'_1] at hit
  rw [ht it (by omega) (by omega)]

/-- **C105 (files).** In any arithmetic: if both functions take the same number `m` of steps and compute the same times
(`0 + it * step_size` is `it * step_size`), the two files hold the same times, the same fields and the same
states for continuing. -/
theorem C105_same_frames_partial (h : FreshRun E.toEnv a.toArgs σ hw ns steps m S) (h2 : FreshRun2 E a σ hw ns m S)
    (hfuel : m < fuel) (ht : ∀ it, 1 ≤ it → it ≤ m → timeAt E a (FloatOps.ofInt 0) it = stepTime a.toArgs it)
    (hend : FloatOps.lt a.recording_start_time (timeAt E a (FloatOps.ofInt 0) m) = true) :
    ∃ f g, (run E.toEnv a.toArgs σ).2.fs a.output_path = some f ∧ (run2 E a fuel σ).2.fs a.output_path = some g ∧
      (∀ k ∈ ["time", "density", "omega", "phi"], k ∉ a.properties →
        ∃ rows, f.dsets k = some (.rows (rowShape ns k) rows) ∧ g.dsets k = some (.rows (rowShape ns k) rows)) ∧
      (a.saveState = true → ∀ k ∈ ["density", "omega", "phi"], "state_" ++ k ∉ a.properties →
        ∃ A, f.dsets ("state_" ++ k) = some (.full A) ∧ g.dsets ("state_" ++ k) = some (.full A)) := by
  obtain ⟨f, f1, -, -, -, f2, f3⟩ := run_result h
  obtain ⟨g, g1, -, -, -, -, g2, -, g3⟩ := run2_result h2 hfuel
  rw [frames_eq ht] at g2 g3
  refine ⟨f, g, f1, g1, fun k hk hp => ?_, fun hs k hk hp => ?_⟩
  · obtain ⟨r, r1, r2⟩ := f2 k hk hp
    obtain ⟨r', r1', r2'⟩ := g2 k hk hp
    unfold written2 flushes2 at r2'
    simp only [hend, if_true] at r2'
    obtain rfl : r' = r := rows_unique
      (P := fun fr row => IsFrameRow E.toEnv a.downsample_factor k fr.1 fr.2 row) (fun _ _ _ => IsFrameRow.unique) r2' r2
    exact ⟨r', r1, r1'⟩
  · obtain ⟨A, a1, a2, a3⟩ := f3 hs k hk hp
    obtain ⟨B, b1, -, -, b2, b3⟩ := g3 hs k hk hp
    refine ⟨A, a1, ?_⟩
    by_cases hl : (frames a.toArgs S m).length < a.buffer_length
    · rw [b1, b2 hl, a2 hl]
    · push Not at hl
      have hb := h.buffer
      have hlt : a.buffer_length * ((frames a.toArgs S m).length / a.buffer_length) - 1 < (frames a.toArgs S m).length := by
        have h1 := Nat.mul_div_le (frames a.toArgs S m).length a.buffer_length
        have h2 : 1 ≤ a.buffer_length := hb
        omega
      have e := List.getElem?_eq_getElem hlt
      have := (a3 _ hl e).symm.trans (b3 _ hl e)
      rw [b1, Cell.arr.inj (Option.some.inj this)]

end general

/-! ### real numbers -/

section real

attribute [local instance] exactOps

variable {β : Type} [Casts ℝ β] [Inhabited β] {E : Env2 ℝ β} {b : Backend} {a : Args2 ℝ} {σ : St ℝ β} {ns : ℕ}

/-- both functions compute the same states -/
theorem same_states (h : GoodArgs2 E b a σ ns) (hz : a.zonal = false) (he : 0 ≤ a.end_time) :
    ∃ S, FreshRun E.toEnv a.toArgs σ (hwSolver (theHW2 b a)) ns ⌊a.end_time / a.step_size⌋
        ⌊a.end_time / a.step_size⌋.toNat S ∧
      ∃ m, IsLeast {k : ℕ | a.end_time ≤ FloatOps.round4 ((k : ℝ) * a.step_size)} m ∧
        FreshRun2 E a σ (hwSolver (theHW2 b a)) ns m S := by
  have hhw : theHW b a.toArgs = theHW2 b a := by unfold theHW theHW2; rw [hz]
  obtain ⟨A, B, C, T, hA, hB, hC, hT, h1⟩ := fresh_physics h.toGoodArgs he
  obtain ⟨A', B', C', T', hA', hB', hC', hT', h2⟩ := fresh2_physics h
  obtain rfl : A' = A := Cell.arr.inj (hA'.symm.trans hA)
  obtain rfl : B' = B := Cell.arr.inj (hB'.symm.trans hB)
  rw [hhw] at hC hT h1
  obtain rfl : C' = C := by
    obtain ⟨c1, e1⟩ := hC {}
    obtain ⟨c2, e2⟩ := hC' {}
    exact congrArg Prod.fst (Except.ok.inj (e2.symm.trans e1))
  obtain rfl : T' = T := by
    funext n
    obtain ⟨c1, e1⟩ := hT n {}
    obtain ⟨c2, e2⟩ := hT' n {}
    exact congrArg Prod.fst (Except.ok.inj (e2.symm.trans e1))
  exact ⟨_, h1, h2 a.end_time⟩

/-- **C105.** In exact arithmetic `run` and `run2` (with `zonal=False`) record the same frames if `end_time` is a
multiple of `step_size`, has at most four decimals and is later than `recording_start_time`, and `step_size`
is at least `1e-4`. -/
theorem C105_run_and_run2_partial (h : GoodArgs2 E b a σ ns) (hz : a.zonal = false) {M : ℕ} {z : ℤ}
    (hM : a.end_time = M * a.step_size) (hdec : a.end_time = z / 10 ^ 4) (hst : 1 / 10 ^ 4 ≤ a.step_size)
    (hrec : a.recording_start_time < a.end_time) {fuel : ℕ} (hfuel : M < fuel) :
    ∃ f g, (run E.toEnv a.toArgs σ).2.fs a.output_path = some f ∧ (run2 E a fuel σ).2.fs a.output_path = some g ∧
      (∀ k ∈ ["time", "density", "omega", "phi"], k ∉ a.properties →
        ∃ rows, f.dsets k = some (.rows (rowShape ns k) rows) ∧ g.dsets k = some (.rows (rowShape ns k) rows)) ∧
      (a.saveState = true → ∀ k ∈ ["density", "omega", "phi"], "state_" ++ k ∉ a.properties →
        ∃ A, f.dsets ("state_" ++ k) = some (.full A) ∧ g.dsets ("state_" ++ k) = some (.full A)) := by
  have hpos := h.step
  have he : 0 ≤ a.end_time := by rw [hM]; positivity
  obtain ⟨S, h1, m, hm, h2⟩ := same_states h hz he
  have e0 : (FloatOps.ofInt 0 : ℝ) = 0 := by simp [FloatOps.ofInt]
  have htime : ∀ it : ℕ, timeAt E a (FloatOps.ofInt 0) it = (it : ℝ) * a.step_size := fun it => by
    rw [exact_timeAt h.sum, e0, zero_add]
  have hdiv : a.end_time / a.step_size = (M : ℕ) := by rw [hM, mul_div_cancel_right₀ _ hpos.ne']
  have hsteps : ⌊a.end_time / a.step_size⌋.toNat = M := by rw [hdiv]; simp
  have hmM : m = M := by
    apply le_antisymm
    · refine hm.2 ?_
      change a.end_time ≤ (roundEven ((M : ℝ) * a.step_size * 10 ^ 4) : ℝ) / 10 ^ 4
      rw [← hM, hdec, div_mul_cancel₀ _ (by norm_num), roundEven_near (z : ℝ) z (by simp)]
    · by_contra hlt
      push Not at hlt
      have h3 : a.end_time ≤ (roundEven ((m : ℝ) * a.step_size * 10 ^ 4) : ℝ) / 10 ^ 4 := hm.1
      have h4 : (m : ℝ) + 1 ≤ M := by exact_mod_cast hlt
      have h5 : roundEven ((m : ℝ) * a.step_size * 10 ^ 4) ≤ z - 1 := by
        refine roundEven_le_int ?_
        push_cast
        have h6 : (m : ℝ) * a.step_size + a.step_size ≤ z / 10 ^ 4 := by rw [← hdec, hM]; nlinarith
        have h7 : (z : ℝ) = z / 10 ^ 4 * 10 ^ 4 := by field_simp
        nlinarith
      have h6 : (roundEven ((m : ℝ) * a.step_size * 10 ^ 4) : ℝ) ≤ z - 1 := by exact_mod_cast h5
      rw [hdec, div_le_div_iff_of_pos_right (by norm_num)] at h3
      linarith
  subst hmM
  rw [hsteps] at h1
  refine C105_same_frames_partial h1 h2 hfuel (fun it _ _ => ?_) ?_
  · rw [htime]
    rfl
  · rw [htime, ← hM]
    exact decide_eq_true hrec

/-- **C105 is violated** if `end_time` is not a multiple of `step_size`: `run` stops before `end_time`, `run2` after it, so
(with `snaps=1` and recording from the start) the file of `run2` has more frames. -/
theorem C105_run_and_run2_violated (h : GoodArgs2 E b a σ ns) (hz : a.zonal = false) (he : 0 < a.end_time) {z : ℤ}
    (hdec : a.end_time = z / 10 ^ 4) (hno : ⌊a.end_time / a.step_size⌋ * a.step_size + 1 / 10 ^ 4 < a.end_time)
    (hsn : a.snaps = 1) (hrec : a.recording_start_time = 0) (hp : "time" ∉ a.properties) :
    ∃ M, ∀ fuel, M < fuel → ∃ f g rows rows', (run E.toEnv a.toArgs σ).2.fs a.output_path = some f ∧
      (run2 E a fuel σ).2.fs a.output_path = some g ∧ f.dsets "time" = some (.rows .one rows) ∧
      g.dsets "time" = some (.rows .one rows') ∧ rows.length < rows'.length := by
  have hpos := h.step
  obtain ⟨S, h1, m, hm, h2⟩ := same_states h hz he.le
  have e0 : (FloatOps.ofInt 0 : ℝ) = 0 := by simp [FloatOps.ofInt]
  have htime : ∀ it : ℕ, timeAt E a (FloatOps.ofInt 0) it = (it : ℝ) * a.step_size := fun it => by
    rw [exact_timeAt h.sum, e0, zero_add]
  have hfl : 0 ≤ ⌊a.end_time / a.step_size⌋ := Int.floor_nonneg.mpr (by positivity)
  have hlt : ⌊a.end_time / a.step_size⌋.toNat < m := by
    by_contra hle
    push Not at hle
    have h3 : a.end_time ≤ (roundEven ((m : ℝ) * a.step_size * 10 ^ 4) : ℝ) / 10 ^ 4 := hm.1
    have h4 : (m : ℝ) ≤ (⌊a.end_time / a.step_size⌋ : ℝ) := by
      have : (m : ℤ) ≤ ⌊a.end_time / a.step_size⌋ := by omega
      exact_mod_cast this
    have h5 : roundEven ((m : ℝ) * a.step_size * 10 ^ 4) ≤ z - 1 := by
      refine roundEven_le_int ?_
      push_cast
      have h6 : (m : ℝ) * a.step_size + 1 / 10 ^ 4 ≤ z / 10 ^ 4 := by
        rw [← hdec]
        have := mul_le_mul_of_nonneg_right h4 hpos.le
        linarith
      have h7 : (z : ℝ) = z / 10 ^ 4 * 10 ^ 4 := by field_simp
      nlinarith
    have h6 : (roundEven ((m : ℝ) * a.step_size * 10 ^ 4) : ℝ) ≤ z - 1 := by exact_mod_cast h5
    rw [hdec, div_le_div_iff_of_pos_right (by norm_num)] at h3
    linarith
  refine ⟨m, fun fuel hfuel => ?_⟩
  obtain ⟨f, f1, -, -, -, f2, -⟩ := run_result h1
  obtain ⟨g, g1, -, g2, -⟩ := C52_all_written_partial h2 hfuel (by
    rw [htime, hrec]
    refine decide_eq_true ?_
    have : (0 : ℝ) < m := by exact_mod_cast (by omega : 0 < m)
    positivity)
  obtain ⟨r, r1, r2⟩ := f2 "time" (by simp) hp
  obtain ⟨r', r1', r2'⟩ := g2 "time" (by simp) hp
  refine ⟨f, g, r, r', f1, g1, r1, r1', ?_⟩
  rw [← r2.length_eq, ← r2'.length_eq, frames2_length h.sum hpos hrec, hsn]
  have hfr : frames2 E a S ⌊a.end_time / a.step_size⌋.toNat = frames a.toArgs S ⌊a.end_time / a.step_size⌋.toNat :=
    frames_eq fun it _ _ => by rw [htime]; rfl
  rw [← hfr, frames2_length h.sum hpos hrec, hsn]
  simp only [Nat.div_one]
  omega

end real

/-! ### non-vacuity -/

section demo

attribute [local instance] exactOps
attribute [-instance] physCasts
attribute [local instance] exactCasts

example : ∃ f g, (run physEnv2.toEnv physArgs2.toArgs ⟨fun _ => none, []⟩).2.fs "run.h5" = some f ∧
    (run2 physEnv2 physArgs2 1000 ⟨fun _ => none, []⟩).2.fs "run.h5" = some g ∧
    ∃ rows, f.dsets "density" = some (.rows (.grid 8 8) rows) ∧ g.dsets "density" = some (.rows (.grid 8 8) rows) := by
  obtain ⟨f, g, h1, h2, h3, -⟩ := C105_run_and_run2_partial phys_good2 rfl (M := 400) (z := 100000)
    (by norm_num [physArgs2, physArgs]) (by norm_num [physArgs2, physArgs]) (by norm_num [physArgs2, physArgs])
    (by norm_num [physArgs2, physArgs]) (fuel := 1000) (by norm_num)
  exact ⟨f, g, h1, h2, h3 "density" (by decide) (by decide : "density" ∉ ["gamma_c"])⟩

/-- `end_time` between two steps -/
noncomputable def oddArgs2 : Args2 ℝ := { physArgs2 with end_time := 1001 / 100, snaps := 1 }

theorem odd_good2 : GoodArgs2 physEnv2 numpyBackend oddArgs2 ⟨fun _ => none, []⟩ 8 where
  grid := phys_good2.grid
  backend := phys_good2.backend
  density := phys_good2.density
  omega := phys_good2.omega
  phi := phys_good2.phi
  path := phys_good2.path
  fresh := phys_good2.fresh
  buffer := phys_good2.buffer
  snaps := le_rfl
  step := phys_good2.step
  saves := phys_good2.saves
  sim := phys_good2.sim
  attr := phys_good2.attr
  nan := phys_good2.nan
  nodup := phys_good2.nodup
  props := phys_good2.props
  sum := phys_good2.sum

example : ∃ M, ∀ fuel, M < fuel → ∃ f g rows rows',
    (run physEnv2.toEnv oddArgs2.toArgs ⟨fun _ => none, []⟩).2.fs "run.h5" = some f ∧
    (run2 physEnv2 oddArgs2 fuel ⟨fun _ => none, []⟩).2.fs "run.h5" = some g ∧
    f.dsets "time" = some (.rows .one rows) ∧ g.dsets "time" = some (.rows .one rows') ∧ rows.length < rows'.length := by
  refine C105_run_and_run2_violated odd_good2 rfl (by norm_num [oddArgs2]) (z := 100100) (by norm_num [oddArgs2]) ?_ rfl rfl
    (by decide : "time" ∉ ["gamma_c"])
  have e : ⌊oddArgs2.end_time / oddArgs2.step_size⌋ = 400 := by
    rw [Int.floor_eq_iff]
    norm_num [oddArgs2, physArgs2, physArgs]
  rw [e]
  norm_num [oddArgs2, physArgs2, physArgs]

end demo

end Verif.Props
