import Verif.Lemmas.RunResult

/-!
# Continuing a file with `run`
-/

set_option linter.unusedSectionVars false

namespace Verif

open H5IO H5 Run

variable {α β : Type} [Casts α β] [Zero α] [Inhabited α] [Inhabited β] [FloatOps α]

variable {path : String} {f : H5 α β}

theorem does_dset {k : String} {d : Dset α β} (h : f.dsets k = some d) : Does path (dset path k : IOM α β _) f d f := by
  unfold dset
  refine Does.content.bind ?_
  rw [h]
  exact Does.pure _

theorem does_hasKey (k : String) : Does path (hasKey path k : IOM α β _) f (f.dsets k).isSome f := by
  unfold hasKey
  exact Does.content.bind (Does.pure _)

theorem does_len {k : String} {s : RowShape} {r : List (Cell β)} (h : f.dsets k = some (.rows s r)) :
    Does path (len path k : IOM α β _) f r.length f := by
  unfold len
  refine (does_dset h).bind ?_
  exact Does.pure _

theorem does_loadField {k : String} {v : Cell α} (h : loadedValue f k = some v) :
    Does path (loadField path k : IOM α β _) f v f := by
  unfold loadField
  refine (does_hasKey _).bind ?_
  unfold loadedValue at h
  cases hs : f.dsets ("state_" ++ k) with
  | some d =>
    rw [hs] at h
    simp only [Option.isSome_some, if_true]
    refine (does_dset hs).bind ?_
    cases d with
    | full A => simp only at h ⊢; injection h with h; subst h; exact Does.pure _
    | rows _ _ => simp at h
    | flat _ => simp at h
  | none =>
    rw [hs] at h
    simp only at h
    simp only [Option.isSome_none]
    cases hd : f.dsets k with
    | none => rw [hd] at h; simp at h
    | some d =>
      rw [hd] at h
      refine (does_dset hd).bind ?_
      cases d with
      | full A => simp at h
      | flat _ => simp at h
      | rows s r =>
        simp only at h ⊢
        cases hl : r.getLast? with
        | none => rw [hl] at h; simp at h
        | some c =>
          rw [hl] at h
          cases c with
          | arr A => simp only at h ⊢; injection h with h; subst h; exact Does.pure _
          | num x => simp only at h ⊢; injection h with h; subst h; exact Does.pure _

theorem does_loadFields {n ns : ℕ} {flag : Bool} (hO : OutputFile f n ns flag) (vals : String → Cell α) :
    ∀ fields : List String, (∀ k ∈ fields, k ∈ fieldList) → (∀ k ∈ fields, loadedValue f k = some (vals k)) →
      Does path (loadFields path fields : IOM α β _) f (fields.map fun k => (k, vals k)) f := by
  intro fields
  induction fields with
  | nil => intro _ _; exact Does.pure _
  | cons k fields ih =>
    intro h1 h2
    unfold loadFields
    refine (does_loadField (h2 k (by simp))).bind ?_
    obtain ⟨r, hr⟩ := hO.rows k (List.mem_cons_of_mem _ (h1 k (by simp)))
    refine (does_len hr).bind ?_
    refine (ih (fun k hk => h1 k (by simp [hk])) (fun k hk => h2 k (by simp [hk]))).bind ?_
    exact Does.pure _

theorem does_continue {n ns : ℕ} {flag : Bool} (hO : OutputFile f n ns flag) {d o p : Cell α}
    (h1 : loadedValue f "density" = some d) (h2 : loadedValue f "omega" = some o) (h3 : loadedValue f "phi" = some p)
    {r : List (Cell β)} {x : β} (h4 : f.dsets "time" = some (.rows .one r)) (h5 : r.getLast? = some (.num x))
    {params : NS (Attr α)} (h6 : restoreParams f.attrs restoredKeys = .ok params) :
    Does path (continue_h5_file path fieldList : IOM α β _) f
      ([("density", d), ("omega", o), ("phi", p), ("age", .num (Casts.f64 x))], params) f := by
  unfold continue_h5_file
  refine Does.openR.bind ?_
  refine Does.content.bind ?_
  refine (does_loadFields (path := path) hO
    (fun k => if k = "density" then d else if k = "omega" then o else p) fieldList (fun _ h => h) ?_).bind ?_
  · intro k hk
    simp only [fieldList, List.mem_cons, List.not_mem_nil, or_false] at hk
    rcases hk with rfl | rfl | rfl
    · exact h1
    · exact h2
    · exact h3
  refine (does_dset h4).bind ?_
  simp only [h5]
  refine (Does.pure (Casts.f64 x)).bind ?_
  refine (Does.lift h6).bind ?_
  exact Does.pure _

theorem zeroBuffer_ok {n ns L : ℕ} {flag : Bool} (hO : OutputFile f n ns flag) :
    BufOk f L (zeroBuffer (α := α) L ns ns) := by
  refine ⟨by simp [NS.keys, zeroBuffer, fieldList], ?_, ?_, ?_⟩
  · intro p hp
    simp only [zeroBuffer, fieldList, List.map_cons, List.map_nil, List.cons_append, List.nil_append, List.mem_cons,
      List.not_mem_nil, or_false] at hp
    rcases hp with rfl | rfl | rfl | rfl <;> simp
  · intro p hp c hc
    simp only [zeroBuffer, fieldList, List.map_cons, List.map_nil, List.cons_append, List.nil_append, List.mem_cons,
      List.not_mem_nil, or_false] at hp
    rcases hp with rfl | rfl | rfl | rfl <;> simp only [List.mem_replicate] at hc <;> rw [hc.2] <;>
      exact RowShape.zero_ok _ _
  · intro p hp
    simp only [zeroBuffer, fieldList, List.map_cons, List.map_nil, List.cons_append, List.nil_append, List.mem_cons,
      List.not_mem_nil, or_false] at hp
    rcases hp with rfl | rfl | rfl | rfl
    · exact hO.rows "density" (by decide)
    · exact hO.rows "omega" (by decide)
    · exact hO.rows "phi" (by decide)
    · exact hO.rows "time" (by decide)

theorem inv_output (a : Args α) {n ns : ℕ} (hL : 1 ≤ a.buffer_length) (hO : OutputFile f n ns a.saveState) :
    Inv a [] n ns f (zeroBuffer (α := α) a.buffer_length ns ns) 0 :=
  ⟨hL, zeroBuffer_ok hO, frameBuf_zero _ _, hO.states⟩

theorem setup_continue {E : Env α β} {a : Args α} {σ : St α β} {hw : Solver α} {ns m : ℕ} {steps : ℤ}
    {S : ℕ → NS (Cell α)} {d o p : Arr α} {t0 : α} {params : NS (Attr α)}
    (h : ContinuedRun E a σ f hw ns d o p t0 params steps m S) :
    ∃ σ', setup E a σ = (.ok (some
      (⟨[("density", .arr d), ("omega", .arr o), ("phi", .arr p), ("age", .num t0)],
        zeroBuffer (α := α) a.buffer_length ns ns, 0⟩, params, t0)), σ') ∧ σ'.fs = σ.fs := by
  obtain ⟨r, x, t1, t2, t3⟩ := h.time
  have hd := does_continue (path := a.output_path) h.output h.density h.omega h.phi t1 t2 h.restored
  rw [t3] at hd
  obtain ⟨σ', e1, e2⟩ := hd σ h.file
  have e2' : σ'.fs = σ.fs := by
    rw [e2]; funext q
    by_cases hq : q = a.output_path
    · subst hq; rw [upd_same, h.file]
    · rw [upd_ne _ _ hq]
  refine ⟨σ', ?_, e2'⟩
  unfold setup
  rw [h.saves.dim]
  have hl : ∀ {X : Type} (x : X) (σ : St α β), (IOM.lift (.ok x) : IOM α β X) σ = (.ok x, σ) := fun _ _ => rfl
  rw [IOM.bind_ok (hl ns _), IOM.bind_ok (hl ns _)]
  have hf : (isFile a.output_path : IOM α β Bool) σ = (.ok (σ.fs a.output_path).isSome, σ) := rfl
  rw [IOM.bind_ok hf, h.file, h.keep, h.cont]
  simp only [Option.isSome_some, Bool.not_false, Bool.and_self, if_true]
  rw [IOM.bind_ok e1]
  simp only
  have hage : NS.getItem [("density", Cell.arr d), ("omega", .arr o), ("phi", .arr p), ("age", .num t0)] "age"
      = .ok (.num t0) := rfl
  rw [hage, IOM.bind_ok (hl (Cell.num t0) _)]
  simp only
  have hck : checkLoaded E [("density", Cell.arr d), ("omega", .arr o), ("phi", .arr p), ("age", .num t0)] = .ok () := by
    simp [checkLoaded, h.noNaN.1, h.noNaN.2.1, h.noNaN.2.2.1, h.noNaN.2.2.2, h.nonzero.1, h.nonzero.2]
  have hp : ∀ {X : Type} (x : X) (σ : St α β), (pure x : IOM α β X) σ = (.ok x, σ) := fun _ _ => rfl
  rw [IOM.bind_ok (hp t0 _), hck, IOM.bind_ok (hl () _)]
  rfl

theorem run_continue {E : Env α β} {a : Args α} {σ : St α β} {hw : Solver α} {ns m : ℕ} {steps : ℤ}
    {S : ℕ → NS (Cell α)} {d o p : Arr α} {t0 : α} {params : NS (Attr α)}
    (h : ContinuedRun E a σ f hw ns d o p t0 params steps m S) :
    ∃ σ' f' buf' i',
      afterSaves a.buffer_length f (zeroBuffer (α := α) a.buffer_length ns ns) 0 (loopSaves E a S 0 m) = (f', buf', i') ∧
      Inv a [] a.grid_pts ns f' buf' i' ∧ σ'.fs = upd σ.fs a.output_path (some (finalFile f' buf' i')) ∧
      run E a σ = (if !a.properties.isEmpty then
        RunProperties.calculate_properties E.props a.output_path a.buffer_length a.properties true
        else pure () : IOM α β Unit) σ' := by
  obtain ⟨σ1, e1, e2⟩ := setup_continue h
  obtain ⟨phi, dxa, hdx, hphi, hS0⟩ := h.start
  obtain ⟨q, hq, hst⟩ := h.count
  obtain ⟨f', buf', i', g1, g2, g3⟩ := does_simulate (S := S) h.saves h.solver
    (p := [("density", .arr d), ("omega", .arr o), ("phi", .arr p), ("age", .num t0)]) (om := .arr o) (by rfl)
    hdx hphi (by rw [hS0]; rfl) hq hst h.snaps h.traj h.shaped h.stops (inv_output a h.buffer h.output)
  obtain ⟨σ2, r1, r2⟩ := g3 σ1 (by rw [e2, h.file])
  refine ⟨σ2, f', buf', i', g1, g2, by rw [r2, e2], ?_⟩
  unfold run
  rw [if_neg h.path, IOM.bind_ok e1]
  simp only
  rw [IOM.bind_ok r1]

theorem loopSaves_ok {E : Env α β} {a : Args α} {ns m : ℕ} {S : ℕ → NS (Cell α)}
    (hs : SavesAs E a.downsample_factor a.grid_pts ns) (hS : ∀ n, 1 ≤ n → n ≤ m → Shaped a.grid_pts (S n)) :
    List.Forall₂ (fun fr v => IsSave E a.downsample_factor a.saveState fr.1 fr.2 v ∧ Shaped a.grid_pts fr.2)
      (continuedFrames a S m) (loopSaves E a S 0 m) := by
  unfold continuedFrames loopSaves
  rw [List.forall₂_map_left_iff, List.forall₂_map_right_iff, Nat.zero_add, List.forall₂_same]
  intro it hit
  rw [List.mem_filter, List.mem_range'_1] at hit
  have hS := hS it (by omega) (by omega)
  exact ⟨(theSave_ok hs a.saveState hS _).2, hS⟩

/-- The file of a continued run before its properties are computed. -/
theorem continue_before {E : Env α β} {a : Args α} {σ : St α β} {hw : Solver α} {ns m : ℕ} {steps : ℤ}
    {S : ℕ → NS (Cell α)} {d o p : Arr α} {t0 : α} {params : NS (Attr α)}
    (h : ContinuedRun E a σ f hw ns d o p t0 params steps m S) :
    ∃ σ' g, run E a σ = (if !a.properties.isEmpty then
        RunProperties.calculate_properties E.props a.output_path a.buffer_length a.properties true
        else pure () : IOM α β Unit) σ' ∧
      σ'.fs a.output_path = some g ∧ (∀ q, q ≠ a.output_path → σ'.fs q = σ.fs q) ∧ g.attrs = f.attrs ∧
      ∀ k ∈ "time" :: fieldList, ∃ rows, g.dsets k = some (.rows (rowShape ns k) (f.rowsOf k ++ rows)) ∧
        List.Forall₂ (fun fr row => IsFrameRow E a.downsample_factor k fr.1 fr.2 row) (continuedFrames a S m) rows := by
  obtain ⟨σ', f1, buf1, i1, e1, hI, e2, e3⟩ := run_continue h
  refine ⟨σ', finalFile f1 buf1 i1, e3, by rw [e2, upd_same], fun q hq => by rw [e2, upd_ne _ _ hq], ?_, ?_⟩
  · rw [finalFile_attrs]
    have := afterSaves_attrs (L := a.buffer_length) (loopSaves E a S 0 m) f
      (zeroBuffer (α := α) a.buffer_length ns ns) 0
    rw [e1] at this
    exact this
  · intro k hk
    obtain ⟨b, hb, hsh⟩ := zeroBuffer_get (α := α) (β := β) a.buffer_length ns hk
    have hI0 := inv_output a h.buffer h.output
    obtain ⟨b', h1, h2⟩ := afterSaves_get? (L := a.buffer_length) (loopSaves E a S 0 m) f _ 0 hb
    have hlog := logical_afterSaves (loopSaves E a S 0 m) f hI0.lt hI0.ok hb
    rw [e1] at h1 hlog
    simp only at h1 hlog
    have := rowsOf_finalFile (i := i1) hI.ok h1
    rw [hlog, h2, hsh] at this
    have h0 : logical f (zeroBuffer (α := α) a.buffer_length ns ns) 0 k = f.rowsOf k := by
      unfold logical
      rw [hb]
      simp
    rw [h0] at this
    refine ⟨_, this, ?_⟩
    rw [List.forall₂_map_right_iff]
    refine (loopSaves_ok h.saves h.shaped).imp fun fr v hv => ?_
    refine hv.1.row h.saves hv.2 ?_
    unfold rowShape
    rcases List.mem_cons.mp hk with rfl | hk
    · left; simp
    · right; exact ⟨hk, if_neg (fieldList_ne_time hk)⟩

/-- What a continued run leaves behind. -/
theorem continue_result {E : Env α β} {a : Args α} {σ : St α β} {hw : Solver α} {ns m : ℕ} {steps : ℤ}
    {S : ℕ → NS (Cell α)} {d o p : Arr α} {t0 : α} {params : NS (Attr α)}
    (h : ContinuedRun E a σ f hw ns d o p t0 params steps m S) :
    ∃ f', (run E a σ).2.fs a.output_path = some f' ∧ (∀ q, q ≠ a.output_path → (run E a σ).2.fs q = σ.fs q) ∧
      (a.properties = [] → (run E a σ).1 = .ok ()) ∧ f'.attrs = f.attrs ∧
      (∀ k ∈ "time" :: fieldList, k ∉ a.properties → ∃ rows,
        f'.dsets k = some (.rows (rowShape ns k) (f.rowsOf k ++ rows)) ∧
        List.Forall₂ (fun fr row => IsFrameRow E a.downsample_factor k fr.1 fr.2 row) (continuedFrames a S m) rows) := by
  obtain ⟨σ', g0, e1, e2, e3, e4, e5⟩ := continue_before h
  obtain ⟨g, hg, hother, hattrs, hds⟩ : ∃ g, (run E a σ).2.fs a.output_path = some g ∧
      (∀ q, q ≠ a.output_path → (run E a σ).2.fs q = σ'.fs q) ∧ g.attrs = g0.attrs ∧
      ∀ k, k ∉ a.properties → g.dsets k = g0.dsets k := by
    rw [e1]
    by_cases hpr : a.properties.isEmpty = true
    · simp only [hpr]
      exact ⟨_, e2, fun _ _ => rfl, rfl, fun _ _ => rfl⟩
    · simp only [hpr]
      obtain ⟨l, -, -, hk, -⟩ := keeps_calculate (path := a.output_path) (fs := σ'.fs) (f0 := g0)
        (names := a.properties) E.props a.buffer_length true σ' (Keeps.refl e2)
      obtain ⟨g, h1, h2, h3⟩ := hk.file
      exact ⟨g, h1, hk.other, h2, h3⟩
  refine ⟨g, hg, fun q hq => by rw [hother q hq, e3 q hq], ?_, by rw [hattrs, e4], fun k hk hkp => ?_⟩
  · intro hn
    rw [e1, hn]
    rfl
  · rw [hds k hkp]
    exact e5 k hk

end Verif
