import Verif.Lemmas.Run2

/-!
# Contents of the file after `run2`
-/

set_option linter.unusedSectionVars false

namespace Verif

open H5IO H5 Run Run2

variable {α β : Type} [Casts α β] [Zero α] [Inhabited α] [Inhabited β] [FloatOps α]

theorem lastFile2_attrs (a : Args2 α) (t : α) (f : H5 α β) (buf : NS (Buf β)) (i : ℕ) :
    (lastFile2 a t f buf i).attrs = f.attrs := by
  unfold lastFile2
  split
  · exact finalFile_attrs _ _ _
  · rfl

theorem lastFile2_state {a : Args2 α} {t : α} {f : H5 α β} {buf : NS (Buf β)} {i ns : ℕ} {props : List String}
    (hb : FrameBuf ns props buf) {k : String} (hk : k ∈ fieldList) :
    (lastFile2 a t f buf i).dsets ("state_" ++ k) = f.dsets ("state_" ++ k) := by
  unfold lastFile2
  split
  · exact finalFile_state hb hk
  · rfl

theorem lastFile2_other {a : Args2 α} {t : α} {f : H5 α β} {buf : NS (Buf β)} {i : ℕ} {k : String}
    (hk : k ∉ buf.keys) : (lastFile2 a t f buf i).dsets k = f.dsets k := by
  unfold lastFile2
  split
  · unfold finalFile
    split
    · unfold appendedRows
      simp only [get?_eq_none_of_not_mem hk]
    · rfl
  · rfl

/-- rows of one dataset at the end -/
theorem last_rows2 {a : Args2 α} {n ns : ℕ} {f : H5 α β} {buf : NS (Buf β)} (hI : Inv a.toArgs a.properties n ns f buf 0)
    {saves : List (NS (Cell α) × NS (Cell α))} {fr : List (α × NS (Cell α))} {R : α × NS (Cell α) → Cell β → Prop}
    {k : String} {b : Buf β} (hb : buf.get? k = some b)
    (hR : List.Forall₂ (fun x v => R x (stored b.shape v.1 k)) fr saves) {f' : H5 α β} {buf' : NS (Buf β)} {i' : ℕ}
    (e : afterSaves a.buffer_length f buf 0 saves = (f', buf', i')) (t : α) :
    ∃ rows, (lastFile2 a t f' buf' i').dsets k = some (.rows b.shape (f.rowsOf k ++ rows)) ∧
      List.Forall₂ R (written2 a t fr) rows := by
  have hok := afterSaves_bufOk (i := 0) saves f hI.ok
  obtain ⟨b', h1, h2⟩ := afterSaves_get? (L := a.buffer_length) saves f buf 0 hb
  have hlog := logical_afterSaves saves f hI.lt hI.ok hb
  have hidx := afterSaves_index (L := a.buffer_length) saves f buf hI.lt
  rw [e] at hok h1 hlog hidx
  simp only at hok h1 hlog hidx
  have h0 : logical f buf 0 k = f.rowsOf k := by
    unfold logical
    rw [hb]
    simp
  rw [h0] at hlog
  rw [Nat.zero_add] at hidx
  have hR' : List.Forall₂ R fr (saves.map fun v => stored b.shape v.1 k) := by
    rw [List.forall₂_map_right_iff]; exact hR
  unfold lastFile2 written2
  split
  · have := rowsOf_finalFile (i := i') hok h1
    rw [hlog, h2] at this
    exact ⟨_, this, hR'⟩
  · obtain ⟨r, hr⟩ := hok.dset _ (mem_of_get? h1)
    simp only at hr
    have hlen := hok.len _ (mem_of_get? h1)
    simp only at hlen
    have hL : 0 < a.buffer_length := hI.lt
    have hmod := Nat.mod_lt saves.length hL
    have hdm := Nat.div_add_mod saves.length a.buffer_length
    have hl : logical f' buf' i' k = r ++ b'.rows.take i' := by
      unfold logical H5.rowsOf
      rw [hr, h1]
      rfl
    rw [hl] at hlog
    have hlens := congrArg List.length hlog
    simp only [List.length_append, List.length_take, List.length_map, hlen] at hlens
    rw [Nat.min_eq_left (by rw [hidx]; omega)] at hlens
    have hrl : r.length = (f.rowsOf k).length + a.buffer_length * (saves.length / a.buffer_length) := by
      rw [hidx] at hlens; omega
    have hrr : r = f.rowsOf k ++
        (saves.map fun v => stored b.shape v.1 k).take (a.buffer_length * (saves.length / a.buffer_length)) := by
      have h3 := congrArg (List.take r.length) hlog
      rw [List.take_left, List.take_append, hrl, Nat.add_sub_cancel_left,
        List.take_of_length_le (Nat.le_add_right _ _)] at h3
      exact h3
    refine ⟨_, by rw [hr, h2, hrr], ?_⟩
    rw [hR.length_eq]
    exact List.forall₂_take _ hR'

/-! ### the end of a run -/

/-- the call of `calculate_properties` at the end of `run2` -/
def finalProps (E : Env2 α β) (a : Args2 α) : IOM α β (Option Unit) := do
  if !a.properties.isEmpty then
    RunProperties.calculate_properties E.props a.output_path a.buffer_length a.properties true
  return some ()

/-- the state in which `run2` calls `calculate_properties` -/
theorem run2_before {E : Env2 α β} {hw : Solver α} {a : Args2 α} {ns : ℕ} {σ σ1 : St α β} (hpath : a.output_path ≠ "")
    (hsn : 1 ≤ a.snaps) (hearly : ∃ q z, FloatOps.div a.end_time a.step_size = .ok q ∧ FloatOps.toInt q = .ok z)
    (hs : SavesAs E.toEnv a.downsample_factor a.grid_pts ns) (hok : PropsOk E a) {S : ℕ → NS (Cell α)} {m fuel : ℕ}
    (hfuel : m < fuel) {p : NS (Cell α)} {params : NS (Attr α)} {t0 : α} {om phi : Cell α} {dxa : Attr α}
    (h1 : E.HW params = .ok hw) (h2 : p.get? "omega" = some om) (h3 : params.get? "dx" = some dxa)
    (h4 : hw.get_phi om (E.attrNum dxa) = .ok phi) (h5 : S 0 = p.set "phi" phi)
    (hT : Trajectory hw a.step_size a.dx m S) (hS : ∀ n, 1 ≤ n → n ≤ m → Shaped a.grid_pts (S n))
    (hst : StopsAfter2 E a t0 S m) {f : H5 α β} {buf : NS (Buf β)} {i : ℕ}
    (hI : Inv a.toArgs a.properties a.grid_pts ns f buf i) (hσ : σ1.fs a.output_path = some f)
    (hset : setup2 E a σ = (.ok (some (⟨p, buf, i⟩, params, t0)), σ1)) :
    ∃ f' buf' i' σ2, afterSaves a.buffer_length f buf i (loopSaves2 E a t0 S 0 m) = (f', buf', i') ∧
      Inv a.toArgs a.properties a.grid_pts ns f' buf' i' ∧ run2 E a fuel σ = finalProps E a σ2 ∧
      σ2.fs a.output_path = some (lastFile2 a (timeAt E a t0 m) f' buf' i') ∧
      (∀ q, q ≠ a.output_path → σ2.fs q = σ1.fs q) ∧
      simulate2 E a ⟨p, buf, i⟩ params t0 fuel σ1 = (.ok (some ()), σ2) := by
  obtain ⟨f', buf', i', e, hI', hd⟩ := does_simulate2 (t0 := t0) hs hok hfuel h1 h2 h3 h4 h5 hT hS hst hI
  obtain ⟨σ2, r1, r2⟩ := hd σ1 hσ
  obtain ⟨q, z, hq, hz⟩ := hearly
  have hrun : run2 E a fuel σ = finalProps E a σ2 := by
    unfold run2
    have hl : ∀ {X : Type} (x : X), (IOM.lift (.ok x) : IOM α β X) σ = (.ok x, σ) := fun _ => rfl
    rw [hq, IOM.bind_ok (hl q), hz, IOM.bind_ok (hl z), if_neg (by omega), if_neg hpath, IOM.bind_ok hset]
    simp only
    rw [IOM.bind_ok r1]
    rfl
  have hp : σ2.fs a.output_path = some (lastFile2 a (timeAt E a t0 m) f' buf' i') := by rw [r2, upd_same]
  exact ⟨f', buf', i', σ2, e, hI', hrun, hp, fun q hq => by rw [r2, upd_ne _ _ hq], r1⟩

theorem run2_finish {E : Env2 α β} {hw : Solver α} {a : Args2 α} {ns : ℕ} {σ σ1 : St α β} (hpath : a.output_path ≠ "")
    (hsn : 1 ≤ a.snaps) (hearly : ∃ q z, FloatOps.div a.end_time a.step_size = .ok q ∧ FloatOps.toInt q = .ok z)
    (hs : SavesAs E.toEnv a.downsample_factor a.grid_pts ns) (hok : PropsOk E a) {S : ℕ → NS (Cell α)} {m fuel : ℕ}
    (hfuel : m < fuel) {p : NS (Cell α)} {params : NS (Attr α)} {t0 : α} {om phi : Cell α} {dxa : Attr α}
    (h1 : E.HW params = .ok hw) (h2 : p.get? "omega" = some om) (h3 : params.get? "dx" = some dxa)
    (h4 : hw.get_phi om (E.attrNum dxa) = .ok phi) (h5 : S 0 = p.set "phi" phi)
    (hT : Trajectory hw a.step_size a.dx m S) (hS : ∀ n, 1 ≤ n → n ≤ m → Shaped a.grid_pts (S n))
    (hst : StopsAfter2 E a t0 S m) {f : H5 α β} {buf : NS (Buf β)} {i : ℕ}
    (hI : Inv a.toArgs a.properties a.grid_pts ns f buf i) (hσ : σ1.fs a.output_path = some f)
    (hset : setup2 E a σ = (.ok (some (⟨p, buf, i⟩, params, t0)), σ1)) :
    ∃ f' buf' i' g, afterSaves a.buffer_length f buf i (loopSaves2 E a t0 S 0 m) = (f', buf', i') ∧
      Inv a.toArgs a.properties a.grid_pts ns f' buf' i' ∧ (run2 E a fuel σ).2.fs a.output_path = some g ∧
      (∀ q, q ≠ a.output_path → (run2 E a fuel σ).2.fs q = σ1.fs q) ∧ (run2 E a fuel σ).1 ≠ .ok none ∧
      g.attrs = f'.attrs ∧
      (∀ k, k ∉ a.properties → g.dsets k = (lastFile2 a (timeAt E a t0 m) f' buf' i').dsets k) ∧
      (a.properties = [] → (run2 E a fuel σ).1 = .ok (some ())) := by
  obtain ⟨f', buf', i', σ2, e, hI', hrun, hp, hother2, -⟩ := run2_before hpath hsn hearly hs hok hfuel h1 h2 h3 h4 h5 hT hS
    hst hI hσ hset
  refine ⟨f', buf', i', ?_⟩
  rw [hrun]
  unfold finalProps
  by_cases hpr : a.properties.isEmpty = true
  · simp only [hpr]
    exact ⟨_, e, hI', hp, hother2, (by intro h; cases h), lastFile2_attrs _ _ _ _ _, fun _ _ => rfl, fun _ => rfl⟩
  · simp only [hpr]
    obtain ⟨l, -, -, hk, -⟩ := keeps_calculate (path := a.output_path) (fs := σ2.fs)
      (f0 := lastFile2 a (timeAt E a t0 m) f' buf' i')
      (names := a.properties) E.props a.buffer_length true σ2 (Keeps.refl hp)
    obtain ⟨g, k1, k2, k3⟩ := hk.file
    have hst : ∀ (M : IOM α β Unit), ((do M; return some ()) σ2 : Py (Option Unit) × St α β).2 = (M σ2).2 ∧
        ((do M; return some ()) σ2 : Py (Option Unit) × St α β).1 ≠ .ok none := by
      intro M
      rcases hM : M σ2 with ⟨x | x, s⟩
      · rw [IOM.bind_error hM]; exact ⟨rfl, by intro h; cases h⟩
      · rw [IOM.bind_ok hM]; exact ⟨rfl, by intro h; cases h⟩
    have := hst (RunProperties.calculate_properties E.props a.output_path a.buffer_length a.properties true)
    refine ⟨g, e, hI', ?_, ?_, this.2, ?_, k3, ?_⟩
    · exact (congrArg (fun s : St α β => s.fs a.output_path) this.1).trans k1
    · intro q hq
      rw [← hother2 q hq, ← hk.other q hq]
      exact congrArg (fun s : St α β => s.fs q) this.1
    · rw [k2, lastFile2_attrs]
    · intro hn; rw [hn] at hpr; exact absurd rfl hpr

/-! ### new files -/

/-- all saves of a run that creates a new file -/
def allSaves2 (E : Env2 α β) (a : Args2 α) (S : ℕ → NS (Cell α)) (m : ℕ) : List (NS (Cell α) × NS (Cell α)) :=
  (if FloatOps.eq a.recording_start_time (FloatOps.ofInt 0) then
    [firstSave2 E a (FloatOps.ofInt 0) a.plasma0] else []) ++ loopSaves2 E a (FloatOps.ofInt 0) S 0 m

/-- the attributes of a new file -/
def runParams2 (a : Args2 α) (ns : ℕ) : NS (Attr α) :=
  get_save_params a.physics2 a.step_size a.snaps a.grid_pts a.grid_pts (some ns) (some ns) a.recording_start_time
    a.adaptive_step_size

/-- the new file -/
def runFile2 (a : Args2 α) (ns : ℕ) : H5 α β :=
  createdFile (runParams2 a ns) ns ns a.grid_pts a.grid_pts fieldList ("time" :: a.properties.map ("fullres_" ++ ·))
    a.saveState

theorem runParams2_nodup (a : Args2 α) (ns : ℕ) : (runParams2 a ns).keys.Nodup := by
  unfold runParams2 get_save_params
  iterate 9 refine NS.nodup_set ?_ _ _
  simp [Args2.physics2, Args.physics, NS.keys]

theorem stateNames_mem {k : String} (h : k ∈ stateNames) : ∃ k' ∈ fieldList, k = "state_" ++ k' := by
  revert k; decide

theorem makes_runFile2 (a : Args2 α) (ns : ℕ) (hn : a.properties.Nodup) :
    Makes a.output_path (create_appendable_h5 a.output_path (runParams2 a ns) ns ns a.grid_pts a.grid_pts fieldList
      ("time" :: a.properties.map ("fullres_" ++ ·)) a.saveState : IOM α β Unit) () (runFile2 a ns) := by
  refine makes_create _ (runParams2_nodup a ns) _ _ _ _ _ _ (by decide) ?_ ?_ ?_ _
  · rw [List.nodup_cons]
    refine ⟨?_, hn.map fun _ _ h => fullres_inj h⟩
    intro h
    obtain ⟨name, -, e⟩ := List.mem_map.mp h
    exact fullres_ne (by simp) e
  · intro k hk
    rcases List.mem_cons.mp hk with rfl | hk
    · decide
    · obtain ⟨name, -, rfl⟩ := List.mem_map.mp hk
      exact fun h => fullres_not_mem (List.mem_cons_of_mem _ h)
  · intro k hk
    refine ⟨(by decide : ∀ k ∈ stateNames, k ∉ fieldList) k hk, fun h => ?_⟩
    rcases List.mem_cons.mp h with rfl | h
    · exact absurd hk (by decide)
    · obtain ⟨k', -, rfl⟩ := stateNames_mem hk
      obtain ⟨name, -, e⟩ := List.mem_map.mp h
      exact fullres_ne_state e

theorem runFile2_rows (a : Args2 α) (ns : ℕ) {k : String} (hk : k ∈ "time" :: fieldList) :
    (runFile2 a ns : H5 α β).dsets k = some (.rows (rowShape ns k) []) := by
  have hst : k ∉ stateNames := fun h => by
    rcases List.mem_cons.mp hk with rfl | hk
    · exact absurd h (by decide)
    · exact absurd hk ((by decide : ∀ k ∈ stateNames, k ∉ fieldList) k h)
  unfold runFile2 createdFile
  simp only
  rw [if_neg fun h => hst h.2]
  rcases List.mem_cons.mp hk with rfl | hk
  · rw [if_pos (by simp)]; rfl
  · rw [if_neg, if_pos hk]
    · unfold rowShape; rw [if_neg (fieldList_ne_time hk)]
    · intro h
      rcases List.mem_cons.mp h with h | h
      · exact fieldList_ne_time hk h
      · obtain ⟨name, -, e⟩ := List.mem_map.mp h
        exact fullres_ne (List.mem_cons_of_mem _ hk) e

theorem runFile2_fullres (a : Args2 α) (ns : ℕ) {name : String} (hn : name ∈ a.properties) :
    (runFile2 a ns : H5 α β).dsets ("fullres_" ++ name) = some (.rows .one []) := by
  unfold runFile2 createdFile
  simp only
  rw [if_neg, if_pos]
  · exact List.mem_cons_of_mem _ (List.mem_map.mpr ⟨name, hn, rfl⟩)
  · rintro ⟨-, h⟩
    obtain ⟨k', -, e⟩ := stateNames_mem h
    exact fullres_ne_state e

theorem runFile2_state (a : Args2 α) (ns : ℕ) (hs : a.saveState = true) {k : String} (hk : k ∈ fieldList) :
    (runFile2 a ns : H5 α β).dsets ("state_" ++ k) = some (.full (Arr.tab a.grid_pts a.grid_pts fun _ _ => 0)) := by
  unfold runFile2 createdFile
  simp only
  rw [if_pos]
  exact ⟨hs, (by decide : ∀ k ∈ fieldList, "state_" ++ k ∈ stateNames) k hk⟩

theorem runFile2_noState (a : Args2 α) (ns : ℕ) (hs : a.saveState = false) {k : String} (hk : k ∈ fieldList) :
    (runFile2 a ns : H5 α β).dsets ("state_" ++ k) = none := by
  unfold runFile2 createdFile
  simp only
  rw [if_neg (by rw [hs]; simp), if_neg, if_neg]
  · exact (by decide : ∀ k ∈ fieldList, "state_" ++ k ∉ fieldList) k hk
  · intro h
    rcases List.mem_cons.mp h with h | h
    · exact (by decide : ∀ k ∈ fieldList, "state_" ++ k ≠ "time") k hk h
    · obtain ⟨name, -, e⟩ := List.mem_map.mp h
      exact fullres_ne_state e

theorem runFile2_output (a : Args2 α) (ns : ℕ) : OutputFile (runFile2 a ns : H5 α β) a.grid_pts ns a.saveState :=
  ⟨fun _ hk => ⟨[], runFile2_rows a ns hk⟩, fun hs _ hk => ⟨_, runFile2_state a ns hs hk, rfl, rfl⟩⟩

theorem inv_runFile2 (a : Args2 α) (ns : ℕ) (hL : 1 ≤ a.buffer_length) :
    Inv a.toArgs a.properties a.grid_pts ns (runFile2 a ns : H5 α β)
      (zeroBuffer2 (α := α) a.buffer_length ns ns a.properties) 0 :=
  inv2_of hL (runFile2_output a ns) fun _ h => ⟨[], runFile2_fullres a ns h⟩

theorem runFile2_attrs (a : Args2 α) (ns : ℕ) (k : String) :
    (runFile2 a ns : H5 α β).attrs k = (runParams2 a ns).get? k := by
  simp -implicitDefEqProofs only [runFile2, createdFile]

/-- `setup2` for a new file -/
theorem setup2_fresh {E : Env2 α β} {a : Args2 α} {ns : ℕ} {σ : St α β}
    (hfresh : σ.fs a.output_path = none ∨ a.force_recompute = true) (hL : 1 ≤ a.buffer_length)
    (hs : SavesAs E.toEnv a.downsample_factor a.grid_pts ns) (hn : a.properties.Nodup) (hok : PropsOk E a)
    (hi : Shaped a.grid_pts a.plasma0) :
    ∃ σ' f buf i,
      afterSaves a.buffer_length (runFile2 a ns) (zeroBuffer2 (α := α) a.buffer_length ns ns a.properties) 0
        (if FloatOps.eq a.recording_start_time (FloatOps.ofInt 0) then
          [firstSave2 E a (FloatOps.ofInt 0) a.plasma0] else []) = (f, buf, i) ∧
      Inv a.toArgs a.properties a.grid_pts ns f buf i ∧
      setup2 E a σ = (.ok (some (⟨a.plasma0, buf, i⟩, a.physics2, FloatOps.ofInt 0)), σ') ∧
      σ'.fs = upd σ.fs a.output_path (some f) := by
  have hI := inv_runFile2 (β := β) a ns hL
  have key : ∃ f buf i,
      afterSaves a.buffer_length (runFile2 a ns) (zeroBuffer2 (α := α) a.buffer_length ns ns a.properties) 0
        (if FloatOps.eq a.recording_start_time (FloatOps.ofInt 0) then
          [firstSave2 E a (FloatOps.ofInt 0) a.plasma0] else []) = (f, buf, i) ∧
      Inv a.toArgs a.properties a.grid_pts ns f buf i ∧
      Makes a.output_path (do
        create_appendable_h5 a.output_path (runParams2 a ns) ns ns a.grid_pts a.grid_pts fieldList
          ("time" :: a.properties.map ("fullres_" ++ ·)) a.saveState
        if FloatOps.eq a.recording_start_time (FloatOps.ofInt 0) then do
          let (new_val, last_state) ← IOM.lift
            (frameLoop E.toEnv a.downsample_factor a.saveState a.plasma0 (fieldsOf a.plasma0) [])
          let new_val ← IOM.lift (propLoop E a.dx a.c1 a.plasma0 a.properties new_val)
          let new_val := new_val.set "time" (.num (FloatOps.ofInt 0))
          let (buffer, i) ← save_to_buffered_h5 (zeroBuffer2 (α := α) a.buffer_length ns ns a.properties) a.buffer_length
            0 new_val a.output_path last_state
          return some (⟨a.plasma0, buffer, i⟩, a.physics2, FloatOps.ofInt 0)
        else return some (⟨a.plasma0, zeroBuffer2 (α := α) a.buffer_length ns ns a.properties, 0⟩, a.physics2,
          FloatOps.ofInt 0) : IOM α β (Option (RunState α β × NS (Attr α) × α)))
        (some (⟨a.plasma0, buf, i⟩, a.physics2, FloatOps.ofInt 0)) f := by
    by_cases hr : FloatOps.eq a.recording_start_time (FloatOps.ofInt 0) = true
    · simp only [hr, if_true]
      obtain ⟨v, nv, e, e1, e', hsv⟩ := firstSave2_ok hs hok hi (FloatOps.ofInt 0)
      rw [e'] at hsv ⊢
      refine ⟨_, _, _, rfl, hI.save _ _, ?_⟩
      refine (makes_runFile2 a ns hn).bind ?_
      refine (Does.lift e).bind ?_
      refine (Does.lift e1).bind ?_
      refine (does_save hI.lt hI.ok (hsv.fits hs hi hI.buf) (hsv.toIsSave.statesFit hi hI.states)).bind ?_
      exact Does.pure _
    · simp only [hr]
      refine ⟨_, _, _, rfl, hI, ?_⟩
      exact (makes_runFile2 a ns hn).bind (Does.pure _)
  obtain ⟨f, buf, i, e1, hI', hm⟩ := key
  obtain ⟨σ', e2, e3⟩ := hm σ
  refine ⟨σ', f, buf, i, e1, hI', ?_, e3⟩
  unfold setup2
  rw [hs.dim]
  have hfile : ((σ.fs a.output_path).isSome && !a.force_recompute) = false := by
    rcases hfresh with h | h <;> simp [h]
  have hl : ∀ {X : Type} (x : X), (IOM.lift (.ok x) : IOM α β X) σ = (.ok x, σ) := fun _ => rfl
  rw [IOM.bind_ok (hl ns), IOM.bind_ok (hl ns)]
  have hf : (isFile a.output_path : IOM α β Bool) σ = (.ok (σ.fs a.output_path).isSome, σ) := rfl
  rw [IOM.bind_ok hf]
  simp only [hfile]
  exact e2

/-! ### saves and frames -/

theorem loopSaves2_ok {E : Env2 α β} {a : Args2 α} {ns m : ℕ} {t0 : α} {S : ℕ → NS (Cell α)}
    (hs : SavesAs E.toEnv a.downsample_factor a.grid_pts ns) (hok : PropsOk E a)
    (hS : ∀ n, 1 ≤ n → n ≤ m → Shaped a.grid_pts (S n)) :
    List.Forall₂ (fun fr v => IsSave2 E a fr.1 fr.2 v ∧ Shaped a.grid_pts fr.2)
      (stepFrames2 E a t0 S m) (loopSaves2 E a t0 S 0 m) := by
  unfold stepFrames2 loopSaves2
  rw [List.forall₂_map_left_iff, List.forall₂_map_right_iff, Nat.zero_add, List.forall₂_same]
  intro it hit
  rw [List.mem_filter, List.mem_range'_1] at hit
  have hS := hS it (by omega) (by omega)
  obtain ⟨_, _, _, h⟩ := theSave2_ok hs hok hS (timeAt E a t0 it)
  exact ⟨h, hS⟩

theorem allSaves2_ok {E : Env2 α β} {a : Args2 α} {σ : St α β} {hw : Solver α} {ns m : ℕ}
    {S : ℕ → NS (Cell α)} (h : FreshRun2 E a σ hw ns m S) :
    List.Forall₂ (fun fr v => IsSave2 E a fr.1 fr.2 v ∧ Shaped a.grid_pts fr.2) (frames2 E a S m) (allSaves2 E a S m) := by
  unfold frames2 allSaves2
  refine List.rel_append (R := fun (fr : α × NS (Cell α)) (v : NS (Cell α) × NS (Cell α)) => _) ?_
    (loopSaves2_ok h.saves h.props h.shaped)
  split
  · obtain ⟨v, nv, -, -, -, hs⟩ := firstSave2_ok h.saves h.props h.init (FloatOps.ofInt 0)
    exact .cons ⟨hs, h.init⟩ .nil
  · exact .nil

/-- the rows of a file after a run whose saves are `saves` -/
theorem rows2_of {E : Env2 α β} {a : Args2 α} {ns : ℕ} (hs : SavesAs E.toEnv a.downsample_factor a.grid_pts ns)
    {f : H5 α β} (hI : Inv a.toArgs a.properties a.grid_pts ns f (zeroBuffer2 (α := α) a.buffer_length ns ns a.properties) 0)
    {saves : List (NS (Cell α) × NS (Cell α))} {fr : List (α × NS (Cell α))}
    (hfr : List.Forall₂ (fun fr v => IsSave2 E a fr.1 fr.2 v ∧ Shaped a.grid_pts fr.2) fr saves)
    {f' : H5 α β} {buf' : NS (Buf β)} {i' : ℕ}
    (e : afterSaves a.buffer_length f (zeroBuffer2 (α := α) a.buffer_length ns ns a.properties) 0 saves = (f', buf', i'))
    (t : α) :
    (∀ k ∈ "time" :: fieldList, ∃ rows,
      (lastFile2 a t f' buf' i').dsets k = some (.rows (rowShape ns k) (f.rowsOf k ++ rows)) ∧
      List.Forall₂ (fun fr row => IsFrameRow E.toEnv a.downsample_factor k fr.1 fr.2 row) (written2 a t fr) rows) ∧
    (∀ name ∈ a.properties, ∃ rows,
      (lastFile2 a t f' buf' i').dsets ("fullres_" ++ name) = some (.rows .one (f.rowsOf ("fullres_" ++ name) ++ rows)) ∧
      List.Forall₂ (fun fr row => ∃ x, IsPropValue E a name fr.2 x ∧ row = .num (Casts.f32 x)) (written2 a t fr) rows) := by
  constructor
  · intro k hk
    obtain ⟨b, hb, hsh⟩ := zeroBuffer_get (α := α) (β := β) a.buffer_length ns hk
    have hb2 : (zeroBuffer2 (α := α) a.buffer_length ns ns a.properties : NS (Buf β)).get? k = some b := by
      rw [zeroBuffer2_get?, if_neg, hb]
      intro h
      obtain ⟨name, -, e⟩ := List.mem_map.mp h
      exact fullres_ne hk e
    rw [← hsh]
    refine last_rows2 hI hb2 (hfr.imp fun fr v hv => ?_) e t
    refine hv.1.toIsSave.row hs hv.2 ?_
    rw [hsh]
    unfold rowShape
    rcases List.mem_cons.mp hk with rfl | hk
    · left; simp
    · right; exact ⟨hk, if_neg (fieldList_ne_time hk)⟩
  · intro name hn
    have hb2 : (zeroBuffer2 (α := α) a.buffer_length ns ns a.properties : NS (Buf β)).get? ("fullres_" ++ name)
        = some ⟨.one, List.replicate a.buffer_length (RowShape.one.zero (Casts.f32 (0 : α)))⟩ := by
      rw [zeroBuffer2_get?, if_pos (List.mem_map.mpr ⟨name, hn, rfl⟩)]
    refine last_rows2 hI hb2 (hfr.imp fun fr v hv => ?_) e t
    obtain ⟨x, h1, h2⟩ := hv.1.props name hn
    exact ⟨x, h2, stored_eq h1 rfl⟩

theorem state_not_mem {a : Args2 α} {ns : ℕ} {k : String} (hk : k ∈ fieldList) :
    "state_" ++ k ∉ (zeroBuffer2 (α := α) a.buffer_length ns ns a.properties : NS (Buf β)).keys := by
  intro h
  obtain ⟨q, hq, e⟩ := List.mem_map.mp h
  rcases (zeroBuffer2_mem hq).2 with ⟨e', -⟩ | ⟨e', -⟩ | ⟨name, -, e', -⟩
  · rw [e'] at e
    exact (by decide : ∀ k ∈ fieldList, "time" ≠ "state_" ++ k) k hk e
  · exact (by decide : ∀ k ∈ fieldList, ∀ k' ∈ fieldList, k' ≠ "state_" ++ k) k hk _ e' e
  · rw [e'] at e
    exact fullres_ne_state e

/-- **What a fresh run leaves behind.** -/
theorem run2_result {E : Env2 α β} {a : Args2 α} {σ : St α β} {hw : Solver α} {ns m fuel : ℕ}
    {S : ℕ → NS (Cell α)} (h : FreshRun2 E a σ hw ns m S) (hfuel : m < fuel) :
    ∃ f, (run2 E a fuel σ).2.fs a.output_path = some f ∧
      (∀ q, q ≠ a.output_path → (run2 E a fuel σ).2.fs q = σ.fs q) ∧
      (run2 E a fuel σ).1 ≠ .ok none ∧ (a.properties = [] → (run2 E a fuel σ).1 = .ok (some ())) ∧
      (∀ k, f.attrs k = (runParams2 a ns).get? k) ∧
      (∀ k ∈ "time" :: fieldList, k ∉ a.properties → ∃ rows, f.dsets k = some (.rows (rowShape ns k) rows) ∧
        List.Forall₂ (fun fr row => IsFrameRow E.toEnv a.downsample_factor k fr.1 fr.2 row)
          (written2 a (timeAt E a (FloatOps.ofInt 0) m) (frames2 E a S m)) rows) ∧
      (∀ name ∈ a.properties, "fullres_" ++ name ∉ a.properties → ∃ rows,
        f.dsets ("fullres_" ++ name) = some (.rows .one rows) ∧
        List.Forall₂ (fun fr row => ∃ x, IsPropValue E a name fr.2 x ∧ row = .num (Casts.f32 x))
          (written2 a (timeAt E a (FloatOps.ofInt 0) m) (frames2 E a S m)) rows) ∧
      (a.saveState = true → ∀ k ∈ fieldList, "state_" ++ k ∉ a.properties →
        ∃ A, f.dsets ("state_" ++ k) = some (.full A) ∧ A.h = a.grid_pts ∧ A.w = a.grid_pts ∧
        ((frames2 E a S m).length < a.buffer_length → A = Arr.tab a.grid_pts a.grid_pts fun _ _ => 0) ∧
        (∀ x, a.buffer_length ≤ (frames2 E a S m).length →
          (frames2 E a S m)[a.buffer_length * ((frames2 E a S m).length / a.buffer_length) - 1]? = some x →
          x.2.get? k = some (.arr A))) := by
  obtain ⟨σ1, f1, buf1, i1, e1, hI1, e2, e3⟩ := setup2_fresh h.fresh h.buffer h.saves h.nodup h.props h.init
  obtain ⟨phi, hphi, hS0⟩ := h.start
  obtain ⟨f', buf', i', g, g1, g2, g3, g4, g5, g6, g7, g8⟩ := run2_finish h.path h.snaps h.early h.saves h.props hfuel
    h.solver (p := a.plasma0) (om := a.omega0) (by rfl) (dxa := .num a.dx) (by rfl) hphi hS0 h.traj h.shaped h.stops hI1
    (by rw [e3, upd_same]) e2
  have hall : afterSaves a.buffer_length (runFile2 a ns) (zeroBuffer2 (α := α) a.buffer_length ns ns a.properties) 0
      (allSaves2 E a S m) = (f', buf', i') := by
    unfold allSaves2
    rw [afterSaves_append, e1, g1]
  have hfr := allSaves2_ok h
  have hI := inv_runFile2 (β := β) a ns h.buffer
  obtain ⟨r1, r2⟩ := rows2_of h.saves hI hfr hall (timeAt E a (FloatOps.ofInt 0) m)
  refine ⟨g, g3, fun q hq => by rw [g4 q hq, e3, upd_ne _ _ hq], g5, g8, ?_, ?_, ?_, ?_⟩
  · intro k
    rw [g6]
    have := afterSaves_attrs (L := a.buffer_length) (allSaves2 E a S m) (runFile2 a ns : H5 α β)
      (zeroBuffer2 (α := α) a.buffer_length ns ns a.properties) 0
    rw [hall] at this
    simp only at this
    rw [this, runFile2_attrs]
  · intro k hk hkp
    obtain ⟨rows, q1, q2⟩ := r1 k hk
    refine ⟨rows, ?_, q2⟩
    rw [g7 k hkp, q1]
    unfold H5.rowsOf
    rw [runFile2_rows a ns hk]
    rfl
  · intro name hn hkp
    obtain ⟨rows, q1, q2⟩ := r2 name hn
    refine ⟨rows, ?_, q2⟩
    rw [g7 _ hkp, q1]
    unfold H5.rowsOf
    rw [runFile2_fullres a ns hn]
    rfl
  · intro hst k hk hkp
    obtain ⟨A, h1, a1, a2, -, h2, h3⟩ := final_states (E := E.toEnv) (a := a.toArgs) hst hI hk
      (allSaves2 E a S m) (frames2 E a S m) (hfr.imp fun _ _ h => ⟨h.1.toIsSave, h.2⟩)
    rw [hall] at h1
    refine ⟨A, by rw [g7 _ hkp, lastFile2_state g2.buf hk]; exact h1, a1, a2, ?_, h3⟩
    intro hlt
    have h4 := h2 hlt
    rw [runFile2_state a ns hst hk] at h4
    injection h4 with h4
    injection h4 with h4
    exact h4.symm

/-- a fresh run without `add_last_state` stores no state -/
theorem run2_noState {E : Env2 α β} {a : Args2 α} {σ : St α β} {hw : Solver α} {ns m fuel : ℕ}
    {S : ℕ → NS (Cell α)} (h : FreshRun2 E a σ hw ns m S) (hfuel : m < fuel) (hst : a.saveState = false)
    {f : H5 α β} (hf : (run2 E a fuel σ).2.fs a.output_path = some f) {k : String} (hk : k ∈ fieldList)
    (hkp : "state_" ++ k ∉ a.properties) : f.dsets ("state_" ++ k) = none := by
  obtain ⟨σ1, f1, buf1, i1, e1, hI1, e2, e3⟩ := setup2_fresh h.fresh h.buffer h.saves h.nodup h.props h.init
  obtain ⟨phi, hphi, hS0⟩ := h.start
  obtain ⟨f', buf', i', g, g1, g2, g3, g4, g5, g6, g7, g8⟩ := run2_finish h.path h.snaps h.early h.saves h.props hfuel
    h.solver (p := a.plasma0) (om := a.omega0) (by rfl) (dxa := .num a.dx) (by rfl) hphi hS0 h.traj h.shaped h.stops hI1
    (by rw [e3, upd_same]) e2
  have hall : afterSaves a.buffer_length (runFile2 a ns) (zeroBuffer2 (α := α) a.buffer_length ns ns a.properties) 0
      (allSaves2 E a S m) = (f', buf', i') := by
    unfold allSaves2
    rw [afterSaves_append, e1, g1]
  have hfr := allSaves2_ok h
  have hoth := afterSaves_other (L := a.buffer_length) (allSaves2 E a S m) (runFile2 a ns : H5 α β) _ 0 (state_not_mem (a := a) (ns := ns) hk)
    fun v hv => by
      obtain ⟨fr, -, hs, -⟩ := forall₂_right hfr hv
      rw [hs.toIsSave.stateOff hst]
      rfl
  rw [hall] at hoth
  have : g = f := Option.some.inj (g3.symm.trans hf)
  rw [← this, g7 _ hkp, lastFile2_state g2.buf hk]
  refine hoth.trans ?_
  exact runFile2_noState a ns hst hk

/-! ### continued files -/

theorem setup2_continue {E : Env2 α β} {a : Args2 α} {σ : St α β} {f : H5 α β} {hw : Solver α} {ns m : ℕ}
    {S : ℕ → NS (Cell α)} {d o p : Arr α} {t0 : α} {params : NS (Attr α)}
    (h : ContinuedCall2 E a σ f hw ns d o p t0 params m S) :
    ∃ σ', setup2 E a σ = (.ok (some
      (⟨[("density", .arr d), ("omega", .arr o), ("phi", .arr p), ("age", .num t0)],
        zeroBuffer2 (α := α) a.buffer_length ns ns a.properties, 0⟩, params, t0)), σ') ∧ σ'.fs = σ.fs := by
  obtain ⟨r, x, t1, t2, t3⟩ := h.time
  have hd := does_continue (path := a.output_path) h.output h.density h.omega h.phi t1 t2 h.restored
  rw [t3] at hd
  obtain ⟨σ', e1, e2⟩ := hd σ h.file
  have e2' : σ'.fs = σ.fs := by
    rw [e2]; funext q
    by_cases hq : q = a.output_path
    · subst hq; rw [upd_same, h.file]
    · rw [upd_ne _ _ hq]
  refine ⟨σ', ?_, e2'⟩
  unfold setup2
  rw [h.saves.dim]
  have hl : ∀ {X : Type} (x : X) (σ : St α β), (IOM.lift (.ok x) : IOM α β X) σ = (.ok x, σ) := fun _ _ => rfl
  rw [IOM.bind_ok (hl ns _), IOM.bind_ok (hl ns _)]
  have hf : (isFile a.output_path : IOM α β Bool) σ = (.ok (σ.fs a.output_path).isSome, σ) := rfl
  rw [IOM.bind_ok hf, h.file, h.keep, h.cont]
  simp only [Option.isSome_some, Bool.not_false, Bool.and_self, if_true]
  rw [IOM.bind_ok e1]
  simp only
  have hage : NS.getItem [("density", Cell.arr d), ("omega", .arr o), ("phi", .arr p), ("age", .num t0)] "age"
      = .ok (.num t0) := rfl
  rw [hage, IOM.bind_ok (hl (Cell.num t0) _)]
  simp only
  have hck : checkLoaded E.toEnv [("density", Cell.arr d), ("omega", .arr o), ("phi", .arr p), ("age", .num t0)]
      = .ok () := by
    simp [checkLoaded, h.notNaN.1, h.notNaN.2.1, h.notNaN.2.2.1, h.notNaN.2.2.2, h.nonzero.1, h.nonzero.2]
  have hp : ∀ {X : Type} (x : X) (σ : St α β), (pure x : IOM α β X) σ = (.ok x, σ) := fun _ _ => rfl
  rw [IOM.bind_ok (hp t0 _), hck, IOM.bind_ok (hl () _)]
  rfl

/-- what a continued run leaves behind, including the datasets it does not know -/
theorem continue2_all {E : Env2 α β} {a : Args2 α} {σ : St α β} {f : H5 α β} {hw : Solver α} {ns m fuel : ℕ}
    {S : ℕ → NS (Cell α)} {d o p : Arr α} {t0 : α} {params : NS (Attr α)}
    (h : ContinuedRun2 E a σ f hw ns d o p t0 params m S) (hfuel : m < fuel) :
    ∃ f', (run2 E a fuel σ).2.fs a.output_path = some f' ∧
      (∀ q, q ≠ a.output_path → (run2 E a fuel σ).2.fs q = σ.fs q) ∧
      (run2 E a fuel σ).1 ≠ .ok none ∧ (a.properties = [] → (run2 E a fuel σ).1 = .ok (some ())) ∧
      f'.attrs = f.attrs ∧
      (∀ k ∈ "time" :: fieldList, k ∉ a.properties → ∃ rows,
        f'.dsets k = some (.rows (rowShape ns k) (f.rowsOf k ++ rows)) ∧
        List.Forall₂ (fun fr row => IsFrameRow E.toEnv a.downsample_factor k fr.1 fr.2 row)
          (written2 a (timeAt E a t0 m) (stepFrames2 E a t0 S m)) rows) ∧
      (∀ name ∈ a.properties, "fullres_" ++ name ∉ a.properties → ∃ rows,
        f'.dsets ("fullres_" ++ name) = some (.rows .one (f.rowsOf ("fullres_" ++ name) ++ rows)) ∧
        List.Forall₂ (fun fr row => ∃ x, IsPropValue E a name fr.2 x ∧ row = .num (Casts.f32 x))
          (written2 a (timeAt E a t0 m) (stepFrames2 E a t0 S m)) rows) ∧
      (∀ k, k ∉ "time" :: fieldList → k ∉ a.properties → (∀ name ∈ a.properties, k ≠ "fullres_" ++ name) →
        (∀ k' ∈ fieldList, k ≠ "state_" ++ k') → f'.dsets k = f.dsets k) ∧
      (a.saveState = true → ∀ k ∈ fieldList, "state_" ++ k ∉ a.properties →
        ∃ A, f'.dsets ("state_" ++ k) = some (.full A) ∧ A.h = a.grid_pts ∧ A.w = a.grid_pts ∧
        ((stepFrames2 E a t0 S m).length < a.buffer_length → f.dsets ("state_" ++ k) = some (.full A)) ∧
        (∀ x, a.buffer_length ≤ (stepFrames2 E a t0 S m).length →
          (stepFrames2 E a t0 S m)[a.buffer_length * ((stepFrames2 E a t0 S m).length / a.buffer_length) - 1]? = some x →
          x.2.get? k = some (.arr A))) ∧
      (a.saveState = false → ∀ k ∈ fieldList, "state_" ++ k ∉ a.properties →
        f'.dsets ("state_" ++ k) = f.dsets ("state_" ++ k)) := by
  obtain ⟨σ1, e1, e2⟩ := setup2_continue h.toContinuedCall2
  obtain ⟨phi, dxa, hdx, hphi, hS0⟩ := h.start
  have hI := inv2_of h.buffer h.output h.propRows
  obtain ⟨f', buf', i', g, g1, g2, g3, g4, g5, g6, g7, g8⟩ := run2_finish h.path h.snaps h.early h.saves h.props hfuel
    h.solver (p := [("density", .arr d), ("omega", .arr o), ("phi", .arr p), ("age", .num t0)]) (om := .arr o) (by rfl)
    hdx hphi (by rw [hS0]; rfl) h.traj h.shaped h.stops hI
    (by rw [e2, h.file]) e1
  have hfr := loopSaves2_ok (t0 := t0) h.saves h.props h.shaped
  obtain ⟨r1, r2⟩ := rows2_of h.saves hI hfr g1 (timeAt E a t0 m)
  refine ⟨g, g3, fun q hq => by rw [g4 q hq, e2], g5, g8, ?_, ?_, ?_, ?_, ?_, ?_⟩
  · rw [g6]
    have := afterSaves_attrs (L := a.buffer_length) (loopSaves2 E a t0 S 0 m) f
      (zeroBuffer2 (α := α) a.buffer_length ns ns a.properties) 0
    rw [g1] at this
    exact this
  · intro k hk hkp
    obtain ⟨rows, q1, q2⟩ := r1 k hk
    exact ⟨rows, by rw [g7 k hkp, q1], q2⟩
  · intro name hn hkp
    obtain ⟨rows, q1, q2⟩ := r2 name hn
    exact ⟨rows, by rw [g7 _ hkp, q1], q2⟩
  · intro k k1 k2 k3 k4
    have hbuf : k ∉ (zeroBuffer2 (α := α) a.buffer_length ns ns a.properties : NS (Buf β)).keys := by
      intro hk
      obtain ⟨q, hq, rfl⟩ := List.mem_map.mp hk
      rcases (zeroBuffer2_mem hq).2 with ⟨e, -⟩ | ⟨e, -⟩ | ⟨name, hn, e, -⟩
      · exact k1 (by rw [e]; simp)
      · exact k1 (List.mem_cons_of_mem _ e)
      · exact k3 name hn e
    have hoth := afterSaves_other (L := a.buffer_length) (loopSaves2 E a t0 S 0 m) f _ 0 hbuf (by
      intro v hv
      obtain ⟨fr, -, hs, -⟩ := forall₂_right hfr hv
      refine get?_eq_none_of_not_mem fun hk => ?_
      obtain ⟨k', h1, h2⟩ := hs.toIsSave.keys k hk
      exact k4 k' h1 h2)
    have hkeys := afterSaves_keys (L := a.buffer_length) (loopSaves2 E a t0 S 0 m) f
      (zeroBuffer2 (α := α) a.buffer_length ns ns a.properties : NS (Buf β)) 0
    rw [g1] at hoth hkeys
    rw [g7 k k2, lastFile2_other (by rw [hkeys]; exact hbuf)]
    exact hoth
  · intro hst k hk hkp
    obtain ⟨A, h1, a1, a2, -, h2, h3⟩ := final_states (E := E.toEnv) (a := a.toArgs) hst hI hk
      (loopSaves2 E a t0 S 0 m) (stepFrames2 E a t0 S m) (hfr.imp fun _ _ h => ⟨h.1.toIsSave, h.2⟩)
    rw [g1] at h1
    exact ⟨A, by rw [g7 _ hkp, lastFile2_state g2.buf hk]; exact h1, a1, a2, h2, h3⟩
  · intro hst k hk hkp
    have hoth := afterSaves_other (L := a.buffer_length) (loopSaves2 E a t0 S 0 m) f _ 0 (state_not_mem (a := a) (ns := ns) hk)
      fun v hv => by
        obtain ⟨fr, -, hs, -⟩ := forall₂_right hfr hv
        rw [hs.toIsSave.stateOff hst]
        rfl
    rw [g1] at hoth
    rw [g7 _ hkp, lastFile2_state g2.buf hk]
    exact hoth

/-- **What a continued run leaves behind.** -/
theorem continue2_result {E : Env2 α β} {a : Args2 α} {σ : St α β} {f : H5 α β} {hw : Solver α} {ns m fuel : ℕ}
    {S : ℕ → NS (Cell α)} {d o p : Arr α} {t0 : α} {params : NS (Attr α)}
    (h : ContinuedRun2 E a σ f hw ns d o p t0 params m S) (hfuel : m < fuel) :
    ∃ f', (run2 E a fuel σ).2.fs a.output_path = some f' ∧
      (∀ q, q ≠ a.output_path → (run2 E a fuel σ).2.fs q = σ.fs q) ∧
      (run2 E a fuel σ).1 ≠ .ok none ∧ (a.properties = [] → (run2 E a fuel σ).1 = .ok (some ())) ∧
      f'.attrs = f.attrs ∧
      (∀ k ∈ "time" :: fieldList, k ∉ a.properties → ∃ rows,
        f'.dsets k = some (.rows (rowShape ns k) (f.rowsOf k ++ rows)) ∧
        List.Forall₂ (fun fr row => IsFrameRow E.toEnv a.downsample_factor k fr.1 fr.2 row)
          (written2 a (timeAt E a t0 m) (stepFrames2 E a t0 S m)) rows) ∧
      (∀ name ∈ a.properties, "fullres_" ++ name ∉ a.properties → ∃ rows,
        f'.dsets ("fullres_" ++ name) = some (.rows .one (f.rowsOf ("fullres_" ++ name) ++ rows)) ∧
        List.Forall₂ (fun fr row => ∃ x, IsPropValue E a name fr.2 x ∧ row = .num (Casts.f32 x))
          (written2 a (timeAt E a t0 m) (stepFrames2 E a t0 S m)) rows) := by
  obtain ⟨f', h1, h2, h3, h4, h5, h6, h7, -⟩ := continue2_all h hfuel
  exact ⟨f', h1, h2, h3, h4, h5, h6, h7⟩

/-! ### runs that do not come to an end -/

/-- a fresh run whose first `n` steps do not leave the loop -/
theorem run2_reach {E : Env2 α β} {a : Args2 α} {σ : St α β} {hw : Solver α} {ns n : ℕ} {S : ℕ → NS (Cell α)}
    (h : FreshCall2 E a σ hw ns S) (hT : Trajectory hw a.step_size a.dx n S)
    (hS : ∀ j, 1 ≤ j → j ≤ n → Shaped a.grid_pts (S j))
    (hB : ∀ j < n, FloatOps.lt (FloatOps.round4 (timeAt E a (FloatOps.ofInt 0) j)) a.end_time = true)
    (hN : ∀ j, 1 ≤ j → j ≤ n → isRecorded2 E a (FloatOps.ofInt 0) j = true → nanState E.toEnv (S j) = false)
    (fuel : ℕ) :
    ∃ (σ' : St α β) (buf : NS (Buf β)) (i : ℕ), ∀ x σ'',
      loop2 E hw a (FloatOps.ofInt 0) fuel (loopState E a (FloatOps.ofInt 0) S n buf i) σ' = (x, σ'') →
      (x = .ok none → run2 E a (fuel + n) σ = (.ok none, σ'')) ∧
      (∀ e, x = .error e → run2 E a (fuel + n) σ = (.error e, σ'')) := by
  obtain ⟨σ1, f1, buf1, i1, e1, hI1, e2, e3⟩ := setup2_fresh h.fresh h.buffer h.saves h.nodup h.props h.init
  obtain ⟨phi, hphi, hS0⟩ := h.start
  obtain ⟨f', buf', i', e, hI', hd⟩ := steps_loop2 (hw := hw) (t0 := FloatOps.ofInt 0) h.saves h.props (S := S) n 0 f1
    buf1 i1 (fun j hj => by rw [Nat.zero_add]; exact hT j (by omega))
    (fun j hj => by rw [Nat.zero_add]; exact hS (j + 1) (by omega) (by omega))
    (fun j hj => by rw [Nat.zero_add]; exact hB j (by omega))
    (fun j hj => by rw [Nat.zero_add]; exact hN (j + 1) (by omega) (by omega)) hI1
  obtain ⟨σ', -, hσ'⟩ := hd fuel σ1 (by rw [e3, upd_same])
  rw [Nat.zero_add] at hσ'
  refine ⟨σ', buf', i', fun x σ'' hx => ?_⟩
  obtain ⟨q, z, hq, hz⟩ := h.early
  have hl : ∀ {X : Type} (x : X) (σ : St α β), (IOM.lift (.ok x) : IOM α β X) σ = (.ok x, σ) := fun _ _ => rfl
  have h0 : (⟨⟨a.plasma0.set "phi" phi, buf1, i1⟩, 0, [], FloatOps.ofInt 0⟩ : LoopState α β)
      = loopState E a (FloatOps.ofInt 0) S 0 buf1 i1 := by
    unfold loopState
    rw [hS0]
    simp [usedAt, timeAt]
  rw [hx] at hσ'
  have g2 : a.plasma0.getItem "omega" = .ok a.omega0 := rfl
  have g3 : a.physics2.getItem "dx" = .ok (.num a.dx) := rfl
  constructor
  · rintro rfl
    have hsim : simulate2 E a ⟨a.plasma0, buf1, i1⟩ a.physics2 (FloatOps.ofInt 0) (fuel + n) σ1 = (.ok none, σ'') := by
      unfold simulate2
      rw [h.solver, IOM.bind_ok (hl hw _)]
      simp only
      rw [g2, IOM.bind_ok (hl _ _), g3, IOM.bind_ok (hl _ _), hphi, IOM.bind_ok (hl _ _)]
      simp only [h0]
      rw [IOM.bind_ok hσ']
      rfl
    unfold run2
    rw [hq, IOM.bind_ok (hl q _), hz, IOM.bind_ok (hl z _), if_neg (by have := h.snaps; omega), if_neg h.path,
      IOM.bind_ok e2]
    simp only
    rw [IOM.bind_ok hsim]
    rfl
  · rintro e rfl
    have hsim : simulate2 E a ⟨a.plasma0, buf1, i1⟩ a.physics2 (FloatOps.ofInt 0) (fuel + n) σ1 = (.error e, σ'') := by
      unfold simulate2
      rw [h.solver, IOM.bind_ok (hl hw _)]
      simp only
      rw [g2, IOM.bind_ok (hl _ _), g3, IOM.bind_ok (hl _ _), hphi, IOM.bind_ok (hl _ _)]
      simp only [h0]
      rw [IOM.bind_error hσ']
    unfold run2
    rw [hq, IOM.bind_ok (hl q _), hz, IOM.bind_ok (hl z _), if_neg (by have := h.snaps; omega), if_neg h.path,
      IOM.bind_ok e2]
    simp only
    rw [IOM.bind_error hsim]

end Verif
