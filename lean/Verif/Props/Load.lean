import Verif.Props.RunMeta

/-!
# C121: `load_h5_data` returns what was recorded
-/

set_option linter.unusedSectionVars false

namespace Verif.Props

open H5IO H5 Run Run2

section

variable {α β : Type} [Casts α β] [Zero α] [Inhabited α] [Inhabited β]

private theorem dset_some {σ : St α β} {path : String} {f : H5 α β} (hf : σ.fs path = some f) {k : String}
    {d : Dset α β} (hk : f.dsets k = some d) : (dset path k : IOM α β _) σ = (.ok d, σ) := by
  unfold dset
  rw [IOM.bind_ok (x := f) (σ' := σ) (by unfold content; simp only [hf])]
  simp only [hk]
  rfl

private theorem dset_none {σ : St α β} {path : String} {f : H5 α β} (hf : σ.fs path = some f) {k : String}
    (hk : f.dsets k = none) : (dset path k : IOM α β _) σ = (.error (.keyError k), σ) := by
  unfold dset
  rw [IOM.bind_ok (x := f) (σ' := σ) (by unfold content; simp only [hf])]
  simp only [hk]
  rfl

private theorem loadDsets_ok {σ : St α β} {path : String} {f : H5 α β} (hf : σ.fs path = some f) (names : List String) :
    ∀ data : NS (Dset α β), (∀ k ∈ names, (f.dsets k).isSome) →
      ∃ res, loadDsets path names data σ = (.ok res, σ) ∧
        ∀ k, res.get? k = if k ∈ names then f.dsets k else data.get? k := by
  induction names with
  | nil => exact fun data _ => ⟨data, rfl, fun k => by simp⟩
  | cons n rest ih =>
    intro data h
    obtain ⟨d, hd⟩ := Option.isSome_iff_exists.1 (h n (by simp))
    obtain ⟨res, h1, h2⟩ := ih (data.set n d) fun k hk => h k (by simp [hk])
    refine ⟨res, ?_, fun k => ?_⟩
    · unfold loadDsets
      rw [IOM.bind_ok (dset_some hf hd), h1]
    · rw [h2 k, NS.get?_set]
      by_cases hr : k ∈ rest
      · simp [hr]
      · by_cases hk : k = n
        · subst hk; simp [hr, hd]
        · simp [hr, hk]

private theorem loadDsets_missing {σ : St α β} {path : String} {f : H5 α β} (hf : σ.fs path = some f) {k : String}
    (hk : f.dsets k = none) (post : List String) (pre : List String) :
    ∀ data : NS (Dset α β), (∀ q ∈ pre, (f.dsets q).isSome) →
      loadDsets path (pre ++ k :: post) data σ = (.error (.keyError k), σ) := by
  induction pre with
  | nil =>
    intro data _
    show loadDsets path (k :: post) data σ = _
    unfold loadDsets
    rw [IOM.bind_error (dset_none hf hk)]
  | cons n rest ih =>
    intro data h
    obtain ⟨d, hd⟩ := Option.isSome_iff_exists.1 (h n (by simp))
    show loadDsets path (n :: (rest ++ k :: post)) data σ = _
    unfold loadDsets
    rw [IOM.bind_ok (dset_some hf hd), ih _ fun q hq => h q (by simp [hq])]

/-- **C121 (contents).** If the file has all requested datasets, `load_h5_data`
returns exactly these, complete, and all attributes of the file, and changes
nothing. -/
theorem C121_contents (path : String) (names : List String) (σ : St α β) (f : H5 α β) (hf : σ.fs path = some f)
    (h : ∀ k ∈ names, (f.dsets k).isSome) :
    ∃ data, load_h5_data path names σ = (.ok (data, f.attrs), σ) ∧
      ∀ k, data.get? k = if k ∈ names then f.dsets k else none := by
  obtain ⟨data, h1, h2⟩ := loadDsets_ok hf names [] h
  refine ⟨data, ?_, fun k => (h2 k).trans rfl⟩
  unfold load_h5_data
  rw [IOM.bind_ok (x := ()) (σ' := σ) (by unfold openR; simp only [hf]), IOM.bind_ok h1,
    IOM.bind_ok (x := f) (σ' := σ) (by unfold content; simp only [hf])]
  rfl

/-- **C121 (errors).** A missing file raises; of the requested datasets the first
one that is missing raises `KeyError`.  Nothing is changed. -/
theorem C121_errors (path : String) (σ : St α β) :
    (σ.fs path = none → ∀ names, load_h5_data path names σ = (.error .fileError, σ)) ∧
    (∀ f pre k post, σ.fs path = some f → (∀ q ∈ pre, (f.dsets q).isSome) → f.dsets k = none →
      load_h5_data path (pre ++ k :: post) σ = (.error (.keyError k), σ)) := by
  refine ⟨fun hf names => ?_, fun f pre k post hf hpre hk => ?_⟩
  · unfold load_h5_data
    rw [IOM.bind_error (σ' := σ) (e := .fileError) (by unfold openR; simp only [hf])]
  · unfold load_h5_data
    rw [IOM.bind_ok (x := ()) (σ' := σ) (by unfold openR; simp only [hf]),
      IOM.bind_error (loadDsets_missing hf hk post pre [] hpre)]

/-! ### files of fixed length -/

private theorem does_createFixed (path : String) (time y x : ℕ) (names : List String) :
    ∀ f : H5 α β, names.Nodup → (∀ k ∈ names, f.dsets k = none) →
      Does path (createFixed path time y x names) f ()
        ⟨fun k => if k ∈ names then
            some (.rows (.grid y x) (List.replicate time ((RowShape.grid y x).zero (Casts.f32 (0 : α)))))
          else f.dsets k, f.attrs⟩ := by
  induction names with
  | nil =>
    intro f _ _
    simp only [List.not_mem_nil, if_false]
    exact Does.pure ()
  | cons n rest ih =>
    intro f hn h
    unfold createFixed
    refine Does.bind (Does.createDset _ (h n (by simp))) ?_
    rw [List.nodup_cons] at hn
    convert ih _ hn.2 (fun k hk => ?_) using 2
    · funext k
      simp only [List.mem_cons]
      by_cases hr : k ∈ rest
      · simp [hr]
      · by_cases hk : k = n
        · subst hk; simp [hr]
        · simp [hr, hk, upd_ne]
    · refine (upd_ne _ _ ?_).trans (h k (by simp [hk]))
      rintro rfl
      exact hn.1 hk

/-- **C121 (`create_fixed_h5`).** For different names the file made by
`create_fixed_h5` — whether or not there was one — holds for each name `time` frames of `y × x` zeros
and nothing else, which is what `load_h5_data` returns; other files are untouched. -/
theorem C121_fixed (path : String) (time y x : ℕ) (names : List String) (hn : names.Nodup) (σ : St α β) :
    ∃ σ' data, (create_fixed_h5 path time y x names : IOM α β Unit) σ = (.ok (), σ') ∧
      (∀ q, q ≠ path → σ'.fs q = σ.fs q) ∧
      load_h5_data path names σ' = (.ok (data, fun _ => none), σ') ∧
      ∀ k, data.get? k = if k ∈ names then
        some (.rows (.grid y x) (List.replicate time (.arr (Arr.tab y x fun _ _ => Casts.f32 (0 : α))))) else none := by
  have h1 : (openW path : IOM α β Unit) σ = (.ok (), ⟨upd σ.fs path (some H5.empty), σ.past ++ [σ.fs]⟩) := rfl
  obtain ⟨σ', h2, h3⟩ := does_createFixed (α := α) (β := β) path time y x names H5.empty hn (fun _ _ => rfl)
    ⟨upd σ.fs path (some H5.empty), σ.past ++ [σ.fs]⟩ (upd_same _ _ _)
  have hfs : σ'.fs path = some _ := (congrFun h3 path).trans (upd_same _ _ _)
  obtain ⟨data, h4, h5⟩ := C121_contents path names σ' _ hfs (fun k hk => by simp [hk])
  refine ⟨σ', data, ?_, fun q hq => ?_, h4, fun k => ?_⟩
  · unfold create_fixed_h5
    rw [IOM.bind_ok h1, h2]
  · rw [h3, upd_ne _ _ hq]
    exact upd_ne _ _ hq
  · rw [h5 k]
    by_cases hk : k ∈ names
    · simp only [hk, if_true]
      rfl
    · simp only [hk, if_false]

end

/-! ### the files of the two run functions -/

section

variable {α β : Type} [Casts α β] [Zero α] [Inhabited α] [Inhabited β] [FloatOps α]

/-- **C121 (`run`).** After a new run `load_h5_data` returns for each of `time`,
`density`, `omega`, `phi` all frames of the run in order, and with them the
parameters of the run; it changes nothing. -/
theorem C121_run {E : Env α β} {a : Args α} {σ : St α β} {hw : Solver α} {ns m : ℕ} {steps : ℤ}
    {S : ℕ → NS (Cell α)} (h : FreshRun E a σ hw ns steps m S) (names : List String)
    (hn : ∀ k ∈ names, k ∈ ["time", "density", "omega", "phi"] ∧ k ∉ a.properties) :
    ∃ f data, (run E a σ).2.fs a.output_path = some f ∧
      load_h5_data a.output_path names (run E a σ).2 = (.ok (data, f.attrs), (run E a σ).2) ∧ Describes f a ns ∧
      ∀ k ∈ names, ∃ rows, data.get? k = some (.rows (rowShape ns k) rows) ∧
        List.Forall₂ (fun fr row => IsFrameRow E a.downsample_factor k fr.1 fr.2 row) (frames a S m) rows := by
  obtain ⟨f, h1, hd, -⟩ := C73_run_parameters h
  obtain ⟨f', h1', -, -, -, h2, -⟩ := run_result h
  obtain rfl : f' = f := Option.some.inj (h1'.symm.trans h1)
  obtain ⟨data, h3, h4⟩ := C121_contents a.output_path names _ f' h1 fun k hk => by
    obtain ⟨rows, h5, -⟩ := h2 k (hn k hk).1 (hn k hk).2
    rw [h5]; rfl
  refine ⟨f', data, h1, h3, hd, fun k hk => ?_⟩
  obtain ⟨rows, h5, h6⟩ := h2 k (hn k hk).1 (hn k hk).2
  exact ⟨rows, by rw [h4 k, if_pos hk, h5], h6⟩

/-- **C121 (`run2`).** The same for `run2` when the recording starts before the end of the run, which
includes every way of ending early; besides the fields the `fullres_*` values of the requested
properties can be loaded. -/
theorem C121_run2 {E : Env2 α β} {a : Args2 α} {σ : St α β} {hw : Solver α} {ns m fuel : ℕ}
    {S : ℕ → NS (Cell α)} (h : FreshRun2 E a σ hw ns m S) (hfuel : m < fuel)
    (hend : FloatOps.lt a.recording_start_time (timeAt E a (FloatOps.ofInt 0) m) = true)
    (names props : List String) (hn : ∀ k ∈ names, k ∈ ["time", "density", "omega", "phi"] ∧ k ∉ a.properties)
    (hq : ∀ q ∈ props, q ∈ a.properties ∧ "fullres_" ++ q ∉ a.properties) :
    ∃ f data, (run2 E a fuel σ).2.fs a.output_path = some f ∧
      load_h5_data a.output_path (names ++ props.map ("fullres_" ++ ·)) (run2 E a fuel σ).2 =
        (.ok (data, f.attrs), (run2 E a fuel σ).2) ∧ Describes f a.toArgs ns ∧
      (∀ k ∈ names, ∃ rows, data.get? k = some (.rows (rowShape ns k) rows) ∧
        List.Forall₂ (fun fr row => IsFrameRow E.toEnv a.downsample_factor k fr.1 fr.2 row) (frames2 E a S m) rows) ∧
      ∀ q ∈ props, ∃ rows, data.get? ("fullres_" ++ q) = some (.rows .one rows) ∧
        List.Forall₂ (fun fr row => ∃ x, IsPropValue E a q fr.2 x ∧ row = .num (Casts.f32 x)) (frames2 E a S m) rows := by
  obtain ⟨f, h1, hd, -⟩ := C73_run2_parameters h hfuel
  obtain ⟨f', h1', -, h2, h2'⟩ := C52_all_written_partial h hfuel hend
  obtain rfl : f' = f := Option.some.inj (h1'.symm.trans h1)
  obtain ⟨data, h3, h4⟩ := C121_contents a.output_path (names ++ props.map ("fullres_" ++ ·)) _ f' h1 fun k hk => by
    rcases List.mem_append.1 hk with hk | hk
    · obtain ⟨rows, h5, -⟩ := h2 k (hn k hk).1 (hn k hk).2
      rw [h5]; rfl
    · obtain ⟨q, hq1, rfl⟩ := List.mem_map.1 hk
      obtain ⟨rows, h5, -⟩ := h2' q (hq q hq1).1 (hq q hq1).2
      simp only [h5]; rfl
  refine ⟨f', data, h1, h3, hd, fun k hk => ?_, fun q hq1 => ?_⟩
  · obtain ⟨rows, h5, h6⟩ := h2 k (hn k hk).1 (hn k hk).2
    exact ⟨rows, by rw [h4 k, if_pos (List.mem_append_left _ hk), h5], h6⟩
  · obtain ⟨rows, h5, h6⟩ := h2' q (hq q hq1).1 (hq q hq1).2
    exact ⟨rows, by rw [h4, if_pos (List.mem_append_right _ (List.mem_map_of_mem hq1)), h5], h6⟩

end

/-! ### examples -/

attribute [local instance] exactOps demoCasts

example := C121_run demo_fresh4 ["time", "phi", "density"] (by simp [demoArgs])
example := C121_run2 demo_run2_4 (fuel := 9) (by decide) (by decide +kernel) ["time", "omega"] []
  (by simp [demoArgs2, demoArgs]) (by simp)
/-- a file with 3 frames of `2 × 2` zeros for two fields -/
example := C121_fixed (α := ℚ) (β := ℚ) "fixed.h5" 3 2 2 ["density", "phi"] (by simp) noFiles
/-- the file of the crash examples: `time` is there, `gamma_n` is not -/
example := (C121_errors "run.h5" oldFiles).2 demoOld ["time"] "gamma_n" ["phi"] rfl (by decide) rfl

example := C121_contents "run.h5" ["time", "phi"] oldFiles demoOld rfl (by decide)

end Verif.Props
