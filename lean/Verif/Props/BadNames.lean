import Verif.Props.Run2Props
import Verif.Lemmas.RunCrash2

/-!
# C104: property names `run2` cannot compute
-/

set_option linter.unusedSectionVars false

namespace Verif.Props

open H5IO H5 Run Run2 RunProperties Spec

/-- The error of asking `run2` for a property other than the eight of `propertyTable`: four names are known but
their functions need arguments that are not passed, all others are unknown. -/
def nameError (name : String) : PyErr :=
  if name ∈ ["DE", "DU", "dE_dt", "dU_dt"] then .typeError else .keyError name

section general

variable {β : Type} [Casts ℝ β] [Inhabited β] [FloatOps ℝ]

theorem propertyFncs_bad {name : String} (h : name ∉ propertyTable) :
    (nameError name = .keyError name ∧ propertyFncs name = none) ∨
    ∃ F, propertyFncs name = some F ∧ ∀ n p o dx c1, F n p o dx c1 = .error (nameError name) := by
  simp only [propertyTable, List.mem_cons, List.not_mem_nil, or_false, not_or] at h
  obtain ⟨h1, h2, h3, h4, h5, h6, h7, h8⟩ := h
  unfold propertyFncs nameError
  simp only [h1, h2, h3, h4, h5, h6, h7, h8, if_false, List.mem_cons, List.not_mem_nil, or_false]
  by_cases hd : name = "DE" ∨ name = "DU" ∨ name = "dE_dt" ∨ name = "dU_dt"
  · right
    rw [if_pos hd, if_pos hd]
    exact ⟨_, rfl, fun _ _ _ _ _ => rfl⟩
  · left
    rw [if_neg hd, if_neg hd]
    exact ⟨rfl, rfl⟩

theorem propLoop_bad {E : Env2 ℝ β} {a : Args2 ℝ} (hE : E.propertyFn = propertyFncs) (hg : 0 < a.grid_pts)
    {plasma : NS (Cell ℝ)} (hp : Shaped a.grid_pts plasma) (props : List String) (hbad : ∃ name ∈ props, name ∉ propertyTable)
    (nv : NS (Cell ℝ)) :
    ∃ name ∈ props, name ∉ propertyTable ∧ propLoop E a.dx a.c1 plasma props nv = .error (nameError name) := by
  induction props generalizing nv with
  | nil => simp at hbad
  | cons x props ih =>
    obtain ⟨n, hn, n1⟩ := hp.fields "density" (by decide)
    obtain ⟨p, hpp, p1⟩ := hp.fields "phi" (by decide)
    obtain ⟨o, ho, o1⟩ := hp.fields "omega" (by decide)
    by_cases hx : x ∈ propertyTable
    · obtain ⟨v, hv⟩ := propValue_ok hx a.dx a.c1 hg n1 p1 o1
      obtain ⟨y, hy, hyb⟩ := hbad
      have hy' : y ∈ props := by
        rcases List.mem_cons.1 hy with rfl | h
        · exact absurd hx hyb
        · exact h
      obtain ⟨name, h1, h2, h3⟩ := ih ⟨y, hy', hyb⟩ (nv.set ("fullres_" ++ x) (.num v))
      refine ⟨name, List.mem_cons_of_mem _ h1, h2, ?_⟩
      unfold propLoop
      rw [hE, propertyFncs_eq hx]
      simp only [NS.getItem_of_get? hn, NS.getItem_of_get? hpp, NS.getItem_of_get? ho, Py.ok_bind, hv]
      exact h3
    · refine ⟨x, List.mem_cons_self .., hx, ?_⟩
      unfold propLoop
      rw [hE]
      rcases propertyFncs_bad hx with ⟨e1, e2⟩ | ⟨F, e1, e2⟩
      · rw [e2, e1]
      · rw [e1]
        simp only [NS.getItem_of_get? hn, NS.getItem_of_get? hpp, NS.getItem_of_get? ho, Py.ok_bind, e2]
        rfl

/-- A call of `run2` that creates a new file and asks for a property it cannot compute. -/
structure BadNames (E : Env2 ℝ β) (a : Args2 ℝ) (σ : St ℝ β) (ns : ℕ) : Prop where
  path : a.output_path ≠ ""
  fresh : σ.fs a.output_path = none ∨ a.force_recompute = true
  snaps : 1 ≤ a.snaps
  early : ∃ q z, FloatOps.div a.end_time a.step_size = .ok q ∧ FloatOps.toInt q = .ok z
  saves : SavesAs E.toEnv a.downsample_factor a.grid_pts ns
  nodup : a.properties.Nodup
  grid : 0 < a.grid_pts
  init : Shaped a.grid_pts a.plasma0
  fns : E.propertyFn = propertyFncs
  bad : ∃ name ∈ a.properties, name ∉ propertyTable

/-- the file has its datasets, but no frame -/
def NoFrames (a : Args2 ℝ) (ns : ℕ) (f : H5 ℝ β) : Prop :=
  (∀ k ∈ ["time", "density", "omega", "phi"], f.dsets k = some (.rows (rowShape ns k) [])) ∧
  ∀ name ∈ a.properties, f.dsets ("fullres_" ++ name) = some (.rows .one [])

theorem noFrames_created (a : Args2 ℝ) (ns : ℕ) : NoFrames a ns (runFile2 a ns : H5 ℝ β) := by
  refine ⟨fun k hk => runFile2_rows a ns (by simpa [fieldList] using hk), fun name hn => runFile2_fullres a ns hn⟩

/-- `setup2` up to the first frame -/
theorem setup2_created {E : Env2 ℝ β} {a : Args2 ℝ} {σ : St ℝ β} {ns : ℕ} (h : BadNames E a σ ns) :
    ∃ σ', σ'.fs = upd σ.fs a.output_path (some (runFile2 a ns)) ∧ setup2 E a σ = (do
        if FloatOps.eq a.recording_start_time (FloatOps.ofInt 0) then do
          let (new_val, last_state) ← IOM.lift
            (frameLoop E.toEnv a.downsample_factor a.saveState a.plasma0 (fieldsOf a.plasma0) [])
          let new_val ← IOM.lift (propLoop E a.dx a.c1 a.plasma0 a.properties new_val)
          let new_val := new_val.set "time" (.num (FloatOps.ofInt 0))
          let (buffer, i) ← save_to_buffered_h5 (zeroBuffer2 (α := ℝ) a.buffer_length ns ns a.properties) a.buffer_length
            0 new_val a.output_path last_state
          return some (⟨a.plasma0, buffer, i⟩, a.physics2, FloatOps.ofInt 0)
        else return some (⟨a.plasma0, zeroBuffer2 (α := ℝ) a.buffer_length ns ns a.properties, 0⟩, a.physics2,
          FloatOps.ofInt 0) : IOM ℝ β (Option (RunState ℝ β × NS (Attr ℝ) × ℝ))) σ' := by
  obtain ⟨σ', e2, e3⟩ := makes_runFile2 (β := β) a ns h.nodup σ
  refine ⟨σ', e3, ?_⟩
  unfold setup2
  rw [h.saves.dim]
  have hfile : ((σ.fs a.output_path).isSome && !a.force_recompute) = false := by
    rcases h.fresh with h | h <;> simp [h]
  have hl : ∀ {X : Type} (x : X), (IOM.lift (.ok x) : IOM ℝ β X) σ = (.ok x, σ) := fun _ => rfl
  rw [IOM.bind_ok (hl ns), IOM.bind_ok (hl ns)]
  have hf : (isFile a.output_path : IOM ℝ β Bool) σ = (.ok (σ.fs a.output_path).isSome, σ) := rfl
  rw [IOM.bind_ok hf]
  simp only [hfile, Bool.false_eq_true, if_false]
  exact IOM.bind_ok e2

/-- **C104.** With `recording_start_time=0` the call raises before the first time step.  It leaves a file
with parameters and datasets but without a frame. -/
theorem C104_raises_at_once {E : Env2 ℝ β} {a : Args2 ℝ} {σ : St ℝ β} {ns fuel : ℕ} (h : BadNames E a σ ns)
    (hrec : FloatOps.eq a.recording_start_time (FloatOps.ofInt 0) = true) :
    (∃ name ∈ a.properties, name ∉ propertyTable ∧ (run2 E a fuel σ).1 = .error (nameError name)) ∧
    (∃ f, (run2 E a fuel σ).2.fs a.output_path = some f ∧ NoFrames a ns f) ∧
    ∀ q, q ≠ a.output_path → (run2 E a fuel σ).2.fs q = σ.fs q := by
  obtain ⟨σ', e3, hset⟩ := setup2_created h
  obtain ⟨v, hv, -⟩ := frameLoop_save h.saves a.saveState h.init (fieldsOf a.plasma0) (by
    intro k hk
    rw [get?_fieldsOf, if_pos (isField_iff.mpr hk)])
  obtain ⟨name, n1, n2, n3⟩ := propLoop_bad h.fns h.grid h.init a.properties h.bad v.1
  have hset' : setup2 E a σ = (.error (nameError name), σ') := by
    rw [hset, hrec, if_pos rfl, hv]
    have e1 : (IOM.lift (.ok v) : IOM ℝ β _) σ' = (.ok v, σ') := rfl
    rw [IOM.bind_ok e1]
    simp only
    rw [n3]
    rfl
  have hrun : run2 E a fuel σ = (.error (nameError name), σ') := by
    obtain ⟨q, z, hq, hz⟩ := h.early
    have hl : ∀ {X : Type} (x : X), (IOM.lift (.ok x) : IOM ℝ β X) σ = (.ok x, σ) := fun _ => rfl
    unfold run2
    rw [hq, IOM.bind_ok (hl q), hz, IOM.bind_ok (hl z), if_neg (by have := h.snaps; omega), if_neg h.path,
      IOM.bind_error hset']
  rw [hrun]
  refine ⟨⟨name, n1, n2, rfl⟩, ⟨_, by rw [e3, upd_same], noFrames_created a ns⟩, fun q hq => by rw [e3, upd_ne _ _ hq]⟩

/-- one iteration of the loop, up to the recording -/
theorem loop2_once {E : Env2 ℝ β} {hw : Solver ℝ} {a : Args2 ℝ} {t0 : ℝ} {S : ℕ → NS (Cell ℝ)} {c : ℕ}
    (hT : hw.rk4_step (S c) a.step_size a.dx = .ok (S (c + 1)))
    (hB : FloatOps.lt (FloatOps.round4 (timeAt E a t0 c)) a.end_time = true) (buf : NS (Buf β)) (i fuel : ℕ) :
    loop2 E hw a t0 (fuel + 1) (loopState E a t0 S c buf i) = (do
      let (s, snapshot) ← record2 E a (loopState E a t0 S (c + 1) buf i)
      if snapshot then do
        let density ← IOM.lift (s.plasma.getItem "density")
        if E.hasNaN density then return some s
        else loop2 E hw a t0 fuel s
      else loop2 E hw a t0 fuel s) := by
  rw [loop2]
  rw [if_pos (by simp only [loopState]; exact hB)]
  have hrk : hw.rk4_step (loopState E a t0 S c buf i).plasma a.step_size a.dx = .ok (S (c + 1)) := hT
  rw [hrk]
  simp only [loopState, usedAt_succ, nextTime_eq]

/-- the loop up to the first frame -/
theorem loop2_bad {E : Env2 ℝ β} {hw : Solver ℝ} {a : Args2 ℝ} {t0 : ℝ} (hE : E.propertyFn = propertyFncs)
    (hg : 0 < a.grid_pts) (hbad : ∃ name ∈ a.properties, name ∉ propertyTable) {S : ℕ → NS (Cell ℝ)} {c : ℕ}
    (hT : Trajectory hw a.step_size a.dx c S) (hS : Shaped a.grid_pts (S c))
    (hB : ∀ j < c, FloatOps.lt (FloatOps.round4 (timeAt E a t0 j)) a.end_time = true)
    (hfirst : ∀ j, 1 ≤ j → j < c → isRecorded2 E a t0 j = false) (hc : isRecorded2 E a t0 c = true)
    (buf : NS (Buf β)) (i : ℕ) (σ : St ℝ β) :
    ∃ name ∈ a.properties, name ∉ propertyTable ∧ ∀ d j fuel, j + (d + 1) = c → d + 1 ≤ fuel →
      loop2 E hw a t0 fuel (loopState E a t0 S j buf i) σ = (.error (nameError name), σ) := by
  obtain ⟨name, n1, n2, n3⟩ := propLoop_bad hE hg hS a.properties hbad
    ((fieldsOf (S c)).set "time" (.num (timeAt E a t0 c)))
  refine ⟨name, n1, n2, fun d => ?_⟩
  induction d with
  | zero =>
    intro j fuel hj hf
    obtain ⟨fuel, rfl⟩ : ∃ k, fuel = k + 1 := ⟨fuel - 1, by omega⟩
    subst hj
    rw [loop2_once (hT j (by omega)) (hB j (by omega))]
    refine IOM.bind_error ?_
    unfold record2
    rw [if_pos (show (FloatOps.le a.recording_start_time (loopState E a t0 S (j + 1) buf i).current_time &&
        (loopState E a t0 S (j + 1) buf i).iteration_count % a.snaps == 0) = true from hc)]
    refine IOM.bind_error ?_
    change IOM.lift (propLoop E a.dx a.c1 (S (j + (0 + 1))) a.properties
      ((fieldsOf (S (j + (0 + 1)))).set "time" (.num (timeAt E a t0 (j + (0 + 1)))))) σ = _
    rw [n3]
    rfl
  | succ d ih =>
    intro j fuel hj hf
    obtain ⟨fuel, rfl⟩ : ∃ k, fuel = k + 1 := ⟨fuel - 1, by omega⟩
    rw [loop2_once (hT j (by omega)) (hB j (by omega))]
    have hr := hfirst (j + 1) (by omega) (by omega)
    have e : record2 E a (loopState E a t0 S (j + 1) buf i) σ = (.ok (loopState E a t0 S (j + 1) buf i, false), σ) := by
      unfold record2
      have hr' : ¬ isRecorded2 E a t0 (j + 1) = true := by rw [hr]; decide
      rw [if_neg (show ¬ (FloatOps.le a.recording_start_time (loopState E a t0 S (j + 1) buf i).current_time &&
        (loopState E a t0 S (j + 1) buf i).iteration_count % a.snaps == 0) = true from hr')]
      rfl
    rw [IOM.bind_ok e]
    simp only [Bool.false_eq_true, if_false]
    exact ih (j + 1) fuel (by omega) (by omega)

/-- **C104.** With another `recording_start_time` the call raises at the first step `c` that is to be recorded
(all steps before are computed in vain).  The file has no frame. -/
theorem C104_raises_at_first_frame {E : Env2 ℝ β} {a : Args2 ℝ} {σ : St ℝ β} {ns c fuel : ℕ} (h : BadNames E a σ ns)
    (hrec : FloatOps.eq a.recording_start_time (FloatOps.ofInt 0) = false) {hw : Solver ℝ} {S : ℕ → NS (Cell ℝ)}
    (hsolver : E.HW a.physics2 = .ok hw)
    (hstart : ∃ phi, hw.get_phi a.omega0 (E.attrNum (.num a.dx)) = .ok phi ∧ S 0 = a.plasma0.set "phi" phi)
    (hT : Trajectory hw a.step_size a.dx c S) (hS : Shaped a.grid_pts (S c)) (h1 : 1 ≤ c)
    (hB : ∀ j < c, FloatOps.lt (FloatOps.round4 (timeAt E a (FloatOps.ofInt 0) j)) a.end_time = true)
    (hfirst : ∀ j, 1 ≤ j → j < c → isRecorded2 E a (FloatOps.ofInt 0) j = false)
    (hc : isRecorded2 E a (FloatOps.ofInt 0) c = true) (hfuel : c ≤ fuel) :
    (∃ name ∈ a.properties, name ∉ propertyTable ∧ (run2 E a fuel σ).1 = .error (nameError name)) ∧
    (∃ f, (run2 E a fuel σ).2.fs a.output_path = some f ∧ NoFrames a ns f) ∧
    ∀ q, q ≠ a.output_path → (run2 E a fuel σ).2.fs q = σ.fs q := by
  obtain ⟨σ', e3, hset⟩ := setup2_created h
  obtain ⟨name, n1, n2, n3⟩ := loop2_bad (t0 := FloatOps.ofInt 0) h.fns h.grid h.bad hT hS hB hfirst hc
    (zeroBuffer2 (α := ℝ) a.buffer_length ns ns a.properties) 0 σ'
  obtain ⟨phi, p1, p2⟩ := hstart
  have hset' : setup2 E a σ = (.ok (some (⟨a.plasma0, zeroBuffer2 (α := ℝ) a.buffer_length ns ns a.properties, 0⟩,
      a.physics2, FloatOps.ofInt 0)), σ') := by
    rw [hset, hrec]
    rfl
  have hsim : simulate2 E a ⟨a.plasma0, zeroBuffer2 (α := ℝ) a.buffer_length ns ns a.properties, 0⟩ a.physics2
      (FloatOps.ofInt 0) fuel σ' = (.error (nameError name), σ') := by
    have hl : ∀ {X : Type} (x : X), (IOM.lift (.ok x) : IOM ℝ β X) σ' = (.ok x, σ') := fun _ => rfl
    have o1 : a.plasma0.getItem "omega" = .ok a.omega0 := rfl
    have o2 : a.physics2.getItem "dx" = .ok (.num a.dx) := rfl
    unfold simulate2
    rw [hsolver, IOM.bind_ok (hl hw)]
    simp only
    rw [o1, IOM.bind_ok (hl _), o2, IOM.bind_ok (hl _), p1, IOM.bind_ok (hl _)]
    have h0 : (⟨⟨a.plasma0.set "phi" phi, zeroBuffer2 (α := ℝ) a.buffer_length ns ns a.properties, 0⟩, 0, [],
        FloatOps.ofInt 0⟩ : LoopState ℝ β) = loopState E a (FloatOps.ofInt 0) S 0
          (zeroBuffer2 (α := ℝ) a.buffer_length ns ns a.properties) 0 := by
      unfold loopState
      rw [p2]
      simp [usedAt, timeAt]
    rw [h0]
    exact IOM.bind_error (n3 (c - 1) 0 fuel (by omega) (by omega))
  have hrun : run2 E a fuel σ = (.error (nameError name), σ') := by
    obtain ⟨q, z, hq, hz⟩ := h.early
    have hl : ∀ {X : Type} (x : X), (IOM.lift (.ok x) : IOM ℝ β X) σ = (.ok x, σ) := fun _ => rfl
    unfold run2
    rw [hq, IOM.bind_ok (hl q), hz, IOM.bind_ok (hl z), if_neg (by have := h.snaps; omega), if_neg h.path,
      IOM.bind_ok hset']
    simp only
    rw [IOM.bind_error hsim]
  rw [hrun]
  refine ⟨⟨name, n1, n2, rfl⟩, ⟨_, by rw [e3, upd_same], noFrames_created a ns⟩, fun q hq => by rw [e3, upd_ne _ _ hq]⟩

/-- **C104.** The file that such a call leaves behind cannot be used: without `force_recompute` every later call
with `continue_file=True` raises and changes no file, whatever its other arguments.  (With
`continue_file=False` it does nothing, `C50_run2_protected`.) -/
theorem C104_file_is_stuck {E : Env2 ℝ β} {a b : Args2 ℝ} {σ : St ℝ β} {f : H5 ℝ β} {ns fuel : ℕ}
    (hf : σ.fs b.output_path = some f) (h : NoFrames a ns f) (h1 : b.force_recompute = false)
    (h2 : b.continue_file = true) (hpath : b.output_path ≠ "") (hsn : 1 ≤ b.snaps) :
    (∃ e, (run2 E b fuel σ).1 = .error e) ∧ (run2 E b fuel σ).2 = σ := by
  have hl : ∀ {X : Type} (x : X), (IOM.lift (.ok x) : IOM ℝ β X) σ = (.ok x, σ) := fun _ => rfl
  have hle : ∀ {X : Type} (e : PyErr), (IOM.lift (.error e) : IOM ℝ β X) σ = (.error e, σ) := fun _ => rfl
  have hcont : ∃ e, (continue_h5_file b.output_path fieldList : IOM ℝ β _) σ = (.error e, σ) := by
    have h0 := read_continue (α := ℝ) (β := β) (path := b.output_path) fieldList σ
    suffices ∃ e, ((continue_h5_file b.output_path fieldList : IOM ℝ β _) σ).1 = .error e by
      obtain ⟨e, he⟩ := this
      exact ⟨e, Prod.ext he h0⟩
    have o1 : (openR b.output_path : IOM ℝ β Unit) σ = (.ok (), σ) := by unfold openR; rw [hf]
    have o2 : (content b.output_path : IOM ℝ β _) σ = (.ok f, σ) := by unfold content; rw [hf]
    unfold continue_h5_file
    rw [IOM.bind_ok o1, IOM.bind_ok o2]
    have o3 := read_loadFields (α := ℝ) (β := β) (path := b.output_path) fieldList σ
    cases hd : (loadFields b.output_path fieldList : IOM ℝ β _) σ with
    | mk r σ' =>
      rw [hd] at o3
      rw [show σ' = σ from o3] at hd
      cases r with
      | error e => rw [IOM.bind_error hd]; exact ⟨e, rfl⟩
      | ok data =>
        rw [IOM.bind_ok hd]
        have o4 : (dset b.output_path "time" : IOM ℝ β _) σ = (.ok (.rows (rowShape ns "time") []), σ) := by
          unfold dset
          rw [IOM.bind_ok o2, h.1 "time" (by simp)]
          rfl
        rw [IOM.bind_ok o4]
        exact ⟨_, rfl⟩
  have key : ∃ e, run2 E b fuel σ = (.error e, σ) := by
    unfold run2
    cases hq : FloatOps.div b.end_time b.step_size with
    | error e => exact ⟨e, IOM.bind_error (hle e)⟩
    | ok q =>
      rw [IOM.bind_ok (hl q)]
      cases hz : FloatOps.toInt q with
      | error e => exact ⟨e, IOM.bind_error (hle e)⟩
      | ok z =>
        rw [IOM.bind_ok (hl z), if_neg (by omega), if_neg hpath]
        have : ∃ e, setup2 E b σ = (.error e, σ) := by
          unfold setup2
          cases hs : saveDim b.grid_pts b.downsample_factor with
          | error e => exact ⟨e, IOM.bind_error (hle e)⟩
          | ok n =>
            have hi : (isFile b.output_path : IOM ℝ β Bool) σ = (.ok (σ.fs b.output_path).isSome, σ) := rfl
            rw [IOM.bind_ok (hl n), IOM.bind_ok (hl n), IOM.bind_ok hi, hf, h1, h2]
            simp only [Option.isSome_some, Bool.not_false, Bool.and_self, if_true]
            obtain ⟨e, he⟩ := hcont
            exact ⟨e, IOM.bind_error he⟩
        obtain ⟨e, he⟩ := this
        exact ⟨e, IOM.bind_error he⟩
  obtain ⟨e, he⟩ := key
  rw [he]
  exact ⟨⟨e, rfl⟩, rfl⟩

end general

/-! ### non-vacuity -/

section demo

attribute [local instance] exactOps
attribute [-instance] physCasts
attribute [local instance] exactCasts

/-- `energy` and `DE` are asked for, recording starts at `t` -/
noncomputable def badArgs (t : ℝ) : Args2 ℝ :=
  { propsArgs 1 with recording_start_time := t, properties := ["energy", "DE"] }

theorem badArgs_bad (t : ℝ) : BadNames propsEnv (badArgs t) ⟨fun _ => none, []⟩ 8 := by
  obtain ⟨A, B, C, T, -, -, -, -, hT⟩ := fresh2_physics (props_good 1)
  obtain ⟨m, -, h⟩ := hT (1 / 5)
  exact
  { path := h.path
    fresh := .inl rfl
    snaps := h.snaps
    early := h.early
    saves := ⟨h.saves.dim, h.saves.down⟩
    nodup := (by decide : ["energy", "DE"].Nodup)
    grid := (by decide : 0 < 8)
    init := h.init
    fns := rfl
    bad := ⟨"DE", (by decide : "DE" ∈ ["energy", "DE"]), by decide⟩ }

example : (run2 propsEnv (badArgs 0) 100 ⟨fun _ => none, []⟩).1 = .error .typeError ∧
    ∃ f, (run2 propsEnv (badArgs 0) 100 ⟨fun _ => none, []⟩).2.fs "run.h5" = some f ∧
      f.dsets "time" = some (.rows .one []) := by
  obtain ⟨⟨name, n1, n2, n3⟩, ⟨f, h1, h2⟩, -⟩ := C104_raises_at_once (fuel := 100) (badArgs_bad 0) (by
    simp [badArgs, FloatOps.eq, FloatOps.ofInt])
  refine ⟨?_, f, h1, h2.1 "time" (by decide)⟩
  have n1 : name = "energy" ∨ name = "DE" := by simpa [badArgs] using n1
  rcases n1 with rfl | rfl
  · exact absurd (by decide) n2
  · exact n3

/-- the run that records from `1/20` on raises at its second step -/
theorem badArgs_late : ∃ f, (run2 propsEnv (badArgs (1 / 20)) 100 ⟨fun _ => none, []⟩).2.fs "run.h5" = some f ∧
    NoFrames (badArgs (1 / 20)) 8 f := by
  obtain ⟨A, B, C, T, -, -, -, -, hT⟩ := fresh2_physics (props_good 1)
  obtain ⟨m, hm, h⟩ := hT (1 / 5)
  have ht : ∀ n : ℕ, timeAt propsEnv (badArgs (1 / 20)) (FloatOps.ofInt 0) n = (n : ℝ) * (1 / 40) := by
    intro n
    rw [exact_timeAt fun _ _ => rfl]
    simp [FloatOps.ofInt, badArgs, propsArgs, physArgs2, physArgs]
  have hm2 : 2 ≤ m := by
    by_contra hlt
    have h1 : (1 / 5 : ℝ) ≤ (roundEven ((m : ℝ) * (1 / 40) * 10 ^ 4) : ℝ) / 10 ^ 4 := hm.1
    have h2 : (m : ℝ) ≤ 1 := by exact_mod_cast (by omega : m ≤ 1)
    have h3 : roundEven ((m : ℝ) * (1 / 40) * 10 ^ 4) ≤ 250 := roundEven_le_int (by norm_num; linarith)
    have h4 : (roundEven ((m : ℝ) * (1 / 40) * 10 ^ 4) : ℝ) ≤ 250 := by exact_mod_cast h3
    linarith [div_le_div_of_nonneg_right h4 (by norm_num : (0 : ℝ) ≤ 10 ^ 4)]
  refine (C104_raises_at_first_frame (S := fun n => toCells (T n)) (c := 2) (fuel := 100) (badArgs_bad (1 / 20)) ?_ h.solver h.start
    (fun j hj => h.traj j (by omega)) (h.shaped 2 (by omega) hm2) (by norm_num) ?_ ?_ ?_ (by norm_num)).2.1
  · simp [badArgs, FloatOps.eq, FloatOps.ofInt]
  · exact fun j hj => h.stops.before j (by omega)
  · intro j h1 h2
    obtain rfl : j = 1 := by omega
    unfold isRecorded2
    simp [badArgs, propsArgs]
  · unfold isRecorded2
    rw [ht]
    simp [badArgs, propsArgs, FloatOps.le]
    norm_num

example : ∃ σ : St ℝ ℝ, (∃ e, (run2 propsEnv (propsArgs 1) 100 σ).1 = .error e) ∧
    (run2 propsEnv (propsArgs 1) 100 σ).2 = σ := by
  obtain ⟨f, h1, h2⟩ := badArgs_late
  exact ⟨_, C104_file_is_stuck h1 h2 rfl rfl (by decide : "run.h5" ≠ "") (by decide : 1 ≤ 2)⟩

end demo

end Verif.Props
