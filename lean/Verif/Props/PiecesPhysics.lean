import Verif.Props.Pieces
import Verif.Props.FileMeans
import Verif.Props.FileRelations

/-!
# C146 and C148 for files that are written in pieces
-/

set_option linter.unusedSectionVars false

namespace Verif.Props

open Arr NS Spec H5IO Run Run2 RunProperties

attribute [local instance] exactOps

variable {β : Type} [Casts ℝ β] [Inhabited β] {E : Env2 ℝ β} {b : Backend} {a : Args2 ℝ} {σ : St ℝ β} {ns : ℕ}

/-- **C148 for a file written in pieces (conditions as in C128).**  A run until `T 0` that is continued until `T 1`, …, until `T n`, under the
conditions of C128: the means of the density and of the vorticity in frame `j` of its file are those after `j * snaps` steps,
also in the frames behind the cuts. -/
theorem C148_pieces (h : GoodArgs2 E b a σ ns) (hd : Downsamples E.toEnv a.downsample_factor) (hN : 1 ≤ a.N ∨ a.nu = 0)
    (hz : a.zonal = false) (h0 : a.recording_start_time = 0) (hf : ∀ x : ℝ, Casts.f64 (Casts.f32 x : β) = x)
    (hp : ∀ name ∈ a.properties, name ∉ ["time", "density", "omega", "phi"] ∧ (∀ n', name ≠ "fullres_" ++ n') ∧
      ∀ k ∈ fieldList, name ≠ "state_" ++ k)
    (hzero : ∀ A B C, a.density0 = .arr A → a.omega0 = .arr B →
      (∃ c c', (theHW2 b a).get_phi B a.dx c = .ok (C, c')) →
      ∀ n s c c', history (theHW2 b a) a.dx (List.replicate n (.rk4 a.step_size)) (startState A B C) c = .ok (s, c') →
        ∀ k ∈ ["density", "omega"], ∀ V, s.get? k = some (.arr V) → E.allZero (.arr V) = false)
    {T : ℕ → ℝ} {m : ℕ → ℕ} {n : ℕ} (hT : ∀ i < n, T i ≤ T (i + 1)) (hTn : 0 < T n)
    (hm : ∀ i ≤ n, IsLeast {k : ℕ | T i ≤ FloatOps.round4 ((k : ℝ) * a.step_size)} (m i)) (hpos : 0 < m 0)
    (hL : a.saveState = true → ∀ i < n, a.buffer_length ∣ m i / a.snaps + 1) {fuel : ℕ} (hfuel : ∀ i ≤ n, m i < fuel)
    {A B : Arr ℝ} (hA : a.density0 = .arr A) (hB : a.omega0 = .arr B) :
    ∃ (g : H5 ℝ β) (rd ro : List (Cell β)), (pieces E a fuel T σ n).2.fs a.output_path = some g ∧
      (pieces E a fuel T σ n).1 ≠ .ok none ∧
      g.dsets "density" = some (.rows (.grid ns ns) rd) ∧ g.dsets "omega" = some (.rows (.grid ns ns) ro) ∧
      rd.length = m n / a.snaps + 1 ∧ ro.length = m n / a.snaps + 1 ∧
      ∀ j, j ≤ m n / a.snaps → ∃ N O : Arr ℝ, rd[j]? = some (.arr (N.map Casts.f32)) ∧ ro[j]? = some (.arr (O.map Casts.f32)) ∧
        MeansAfter a.c1 a.step_size false (amean A) (amean B) (j * a.snaps) (amean N) (amean O) := by
  obtain ⟨f, g, f1, g1, g2, -, -, hrows, -, -⟩ := C128_physics_partial h hz h0 hf hp hzero hT hm hpos hL hfuel
  have hg : GoodArgs2 E b (a.until (T n)) σ ns := { h with }
  have hnp : ∀ k ∈ ["time", "density", "omega", "phi"], k ∉ a.properties := fun k hk hk' => (hp k hk').1 hk
  obtain ⟨count, hcount, H⟩ := C148_run2_means hg hd hN h0 hTn (hnp _ (by decide)) (hnp _ (by decide)) hA hB
  have ec : count = m n := hcount.unique (hm n le_rfl)
  subst ec
  obtain ⟨f', rd, ro, f1', d1, o1, ld, lo, hj⟩ := H fuel (hfuel n le_rfl)
  have ef : f' = f := Option.some.inj (f1'.symm.trans f1)
  subst ef
  have same : ∀ k ∈ ["time", "density", "omega", "phi"], g.dsets k = f'.dsets k := by
    intro k hk
    obtain ⟨rows, r1, r2, -⟩ := hrows k hk
    exact r2.trans r1.symm
  refine ⟨g, rd, ro, g1, g2, (same _ (by decide)).trans d1, (same _ (by decide)).trans o1, ld, lo, fun j hjle => ?_⟩
  obtain ⟨N, O, r1, r2, r3⟩ := hj j hjle
  have ez : (a.until (T n)).zonal = false := hz
  rw [ez] at r3
  exact ⟨N, O, r1, r2, r3⟩

/-- **C146 for a file written in pieces (conditions as in C128).**  The recorded properties of every frame are related as those of
C146, also in the frames behind the cuts. -/
theorem C146_pieces (h : GoodArgs2 E b a σ ns) (hE : E.propertyFn = propertyFncs) (hnames : ∀ name ∈ a.properties, name ∈ propertyTable)
    (hz : a.zonal = false) (h0 : a.recording_start_time = 0) (hf : ∀ x : ℝ, Casts.f64 (Casts.f32 x : β) = x)
    (hzero : ∀ A B C, a.density0 = .arr A → a.omega0 = .arr B →
      (∃ c c', (theHW2 b a).get_phi B a.dx c = .ok (C, c')) →
      ∀ n s c c', history (theHW2 b a) a.dx (List.replicate n (.rk4 a.step_size)) (startState A B C) c = .ok (s, c') →
        ∀ k ∈ ["density", "omega"], ∀ V, s.get? k = some (.arr V) → E.allZero (.arr V) = false)
    {T : ℕ → ℝ} {m : ℕ → ℕ} {n : ℕ} (hT : ∀ i < n, T i ≤ T (i + 1))
    (hm : ∀ i ≤ n, IsLeast {k : ℕ | T i ≤ FloatOps.round4 ((k : ℝ) * a.step_size)} (m i)) (hpos : 0 < m 0)
    (hL : a.saveState = true → ∀ i < n, a.buffer_length ∣ m i / a.snaps + 1) {fuel : ℕ} (hfuel : ∀ i ≤ n, m i < fuel) :
    ∃ g, (pieces E a fuel T σ n).2.fs a.output_path = some g ∧ (pieces E a fuel T σ n).1 ≠ .ok none ∧
      ∃ rows : String → List (Cell β),
        (∀ name ∈ a.properties, g.dsets ("fullres_" ++ name) = some (.rows .one (rows name)) ∧
          (rows name).length = m n / a.snaps + 1) ∧
        ∀ j < m n / a.snaps + 1, ∃ v : String → ℝ, Related a.grid_pts a.c1 v ∧
          ∀ name ∈ a.properties, (rows name)[j]? = some (.num (Casts.f32 (v name))) := by
  have hp : ∀ name ∈ a.properties, name ∉ ["time", "density", "omega", "phi"] ∧ (∀ n', name ≠ "fullres_" ++ n') ∧
      ∀ k ∈ fieldList, name ≠ "state_" ++ k := by
    intro name hn
    have ht := hnames name hn
    simp only [propertyTable, List.mem_cons, List.not_mem_nil, or_false] at ht
    rcases ht with rfl | rfl | rfl | rfl | rfl | rfl | rfl | rfl <;>
    · refine ⟨by decide, fun n' e => ?_, by decide⟩
      have := congrArg String.toList e
      simp at this
  obtain ⟨f, g, f1, g1, g2, -, -, -, hprops, -⟩ := C128_physics_partial h hz h0 hf hp hzero hT hm hpos hL hfuel
  obtain ⟨A, B, C, P, -, -, -, -, hR⟩ := fresh2_physics h
  obtain ⟨m', e1, hr⟩ := hR (T n)
  obtain rfl := e1.unique (hm n le_rfl)
  obtain ⟨f', f1', rows, count, r1, r2⟩ := C146_recorded hr hE hnames h.grid (hfuel n le_rfl)
  have ef : f' = f := Option.some.inj (f1'.symm.trans f1)
  subst ef
  have key : ∀ name ∈ a.properties, g.dsets ("fullres_" ++ name) = some (.rows .one (rows name)) ∧
      (rows name).length = m n / a.snaps + 1 := by
    intro name hn
    obtain ⟨rs, q1, q2, q3⟩ := hprops name hn
    have e : f'.dsets ("fullres_" ++ name) = some (.rows .one (rows name)) := (r1 name hn).1
    rw [q1] at e
    have e : rs = rows name := by injection e with e; injection e
    rw [← e]
    exact ⟨q2, q3⟩
  refine ⟨g, g1, g2, rows, key, fun j hj => ?_⟩
  by_cases hl : ∃ name, name ∈ a.properties
  · obtain ⟨name, hn⟩ := hl
    refine r2 j ?_
    have e : (rows name).length = count := (r1 name hn).2
    rw [← e, (key name hn).2]
    exact hj
  · exact ⟨fun _ => 0, by constructor <;> simp, fun name hn => absurd ⟨name, hn⟩ hl⟩

/-- a run until 10, continued until 20.1 and then until 30: the means of all frames -/
example := by
  let := exactCasts
  refine C148_pieces (β := ℝ) phys_good2 (.inl rfl) (.inl (by decide)) rfl rfl (fun _ => rfl) phys_names phys_nonzero
    (T := fun i => if i = 0 then 10 else if i = 1 then 201 / 10 else 30)
    (m := fun i => if i = 0 then 400 else if i = 1 then 804 else 1200) (n := 2) ?_ (by norm_num) ?_ (by decide)
    (fun _ => by decide : _ → ∀ i < 2, 101 ∣ (if i = 0 then 400 else if i = 1 then 804 else 1200) / 4 + 1)
    (fuel := 2000) (by decide) rfl rfl
  · intro i hi
    interval_cases i <;> norm_num
  · intro i hi
    interval_cases i
    · refine C53_step_count (a := physArgs2.until 10) 400 100000 ?_ ?_ ?_ <;>
      · simp only [Run2.Args2.until, physArgs2, physArgs]
        norm_num
    · refine C53_step_count (a := physArgs2.until (201 / 10)) 804 201000 ?_ ?_ ?_ <;>
      · simp only [Run2.Args2.until, physArgs2, physArgs]
        norm_num
    · refine C53_step_count (a := physArgs2.until 30) 1200 300000 ?_ ?_ ?_ <;>
      · simp only [Run2.Args2.until, physArgs2, physArgs]
        norm_num

/-- all properties of this run are recorded -/
noncomputable def allEnv2 : Env2 ℝ ℝ := { physEnv2 with propertyFn := propertyFncs }

noncomputable def allArgs2 : Args2 ℝ := { physArgs2 with properties := propertyTable }

example := by
  let := exactCasts
  have h := phys_good2
  refine C146_pieces (β := ℝ) (E := allEnv2) (b := numpyBackend) (a := allArgs2) (σ := ⟨fun _ => none, []⟩) (ns := 8)
    { h with
      saves := ⟨h.saves.dim, h.saves.down⟩
      nodup := (by decide : propertyTable.Nodup)
      props := fun name hn => ⟨_, propertyFncs_eq hn, fun _ _ _ h1 h2 h3 => propValue_ok hn _ _ (by decide : 0 < 8) h1 h2 h3⟩ }
    rfl (fun _ h => h) rfl rfl (fun _ => rfl) phys_nonzero
    (T := fun i => if i = 0 then 10 else if i = 1 then 201 / 10 else 30)
    (m := fun i => if i = 0 then 400 else if i = 1 then 804 else 1200) (n := 2) ?_ ?_ (by decide)
    (fun _ => by decide : _ → ∀ i < 2, 101 ∣ (if i = 0 then 400 else if i = 1 then 804 else 1200) / 4 + 1)
    (fuel := 2000) (by decide)
  · intro i hi
    interval_cases i <;> norm_num
  · intro i hi
    interval_cases i
    · refine C53_step_count (a := physArgs2.until 10) 400 100000 ?_ ?_ ?_ <;>
      · simp only [Run2.Args2.until, physArgs2, physArgs]
        norm_num
    · refine C53_step_count (a := physArgs2.until (201 / 10)) 804 201000 ?_ ?_ ?_ <;>
      · simp only [Run2.Args2.until, physArgs2, physArgs]
        norm_num
    · refine C53_step_count (a := physArgs2.until 30) 1200 300000 ?_ ?_ ?_ <;>
      · simp only [Run2.Args2.until, physArgs2, physArgs]
        norm_num

end Verif.Props
