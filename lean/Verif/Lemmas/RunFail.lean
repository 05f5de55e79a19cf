import Verif.Lemmas.RunCrash2

/-!
# A step of `run` raises
-/

set_option linter.unusedSectionVars false

namespace Verif

open H5IO H5 Run

variable {α β : Type} [Casts α β] [Zero α] [Inhabited α] [Inhabited β] [FloatOps α]

/-- like `Does`, for a computation that raises -/
def Fails {X : Type} (path : String) (m : IOM α β X) (f : H5 α β) (e : PyErr) (f' : H5 α β) : Prop :=
  ∀ σ : St α β, σ.fs path = some f → ∃ σ', m σ = (.error e, σ') ∧ σ'.fs = upd σ.fs path (some f')

theorem Fails.lift {X Y : Type} {path : String} {f : H5 α β} {x : Py X} {e : PyErr} {k : X → IOM α β Y}
    (h : x = .error e) : Fails path (IOM.lift x >>= k) f e f := by
  subst h
  intro σ hσ
  exact ⟨σ, rfl, by rw [← hσ, upd_self]⟩

theorem Does.fails {X Y : Type} {path : String} {f f' f'' : H5 α β} {m : IOM α β X} {k : X → IOM α β Y} {x : X} {e : PyErr}
    (h1 : Does path m f x f') (h2 : Fails path (k x) f' e f'') : Fails path (m >>= k) f e f'' := by
  intro σ h
  obtain ⟨σ1, e1, g1⟩ := h1 σ h
  obtain ⟨σ2, e2, g2⟩ := h2 σ1 (by rw [g1, upd_same])
  exact ⟨σ2, by rw [IOM.bind_ok e1, e2], by rw [g2, g1, upd_upd]⟩

theorem Fails.bind {X Y : Type} {path : String} {f f' : H5 α β} {m : IOM α β X} {k : X → IOM α β Y} {e : PyErr}
    (h : Fails path m f e f') : Fails path (m >>= k) f e f' := by
  intro σ hσ
  obtain ⟨σ', e1, e2⟩ := h σ hσ
  exact ⟨σ', IOM.bind_error e1, e2⟩

/-- the record step -/
theorem does_record {E : Env α β} {a : Args α} {ns : ℕ} (hs : SavesAs E a.downsample_factor a.grid_pts ns)
    {S : ℕ → NS (Cell α)} {c : ℕ} (hS : Shaped a.grid_pts (S (c + 1))) {f : H5 α β} {buf : NS (Buf β)} {i : ℕ}
    (hI : Inv a [] a.grid_pts ns f buf i) :
    ∃ f1 buf1 i1, afterSaves a.buffer_length f buf i (loopSaves E a S c 1) = (f1, buf1, i1) ∧
      Inv a [] a.grid_pts ns f1 buf1 i1 ∧
      Does a.output_path (record E a (stepTime a (c + 1)) (c + 1) ⟨S (c + 1), buf, i⟩) f ⟨S (c + 1), buf1, i1⟩ f1 := by
  obtain ⟨hsv, hIs⟩ := theSave_ok hs a.saveState hS (stepTime a (c + 1))
  unfold record
  by_cases hr : isRecorded a (c + 1) = true
  · have hl : loopSaves E a S c 1
        = [theSave E a.downsample_factor a.saveState (stepTime a (c + 1)) (S (c + 1))] := by
      simp [loopSaves, List.range'_one, hr]
    rw [hl]
    refine ⟨_, _, _, rfl, hI.save _ _, ?_⟩
    unfold isRecorded at hr
    simp only [hr, if_true]
    refine (Does.lift hsv).bind ?_
    refine (does_save hI.lt hI.ok (hIs.fits hs hS (by simp) hI.buf) (hIs.statesFit hS hI.states)).bind ?_
    exact Does.pure _
  · have hl : loopSaves E a S c 1 = [] := by simp [loopSaves, List.range'_one, hr]
    rw [hl]
    refine ⟨_, _, _, rfl, hI, ?_⟩
    unfold isRecorded at hr
    simp only [hr]
    exact Does.pure _

theorem fails_loop {E : Env α β} {hw : Solver α} {a : Args α} {ns : ℕ} {e : PyErr}
    (hs : SavesAs E a.downsample_factor a.grid_pts ns) {S : ℕ → NS (Cell α)} (m : ℕ) :
    ∀ (k c : ℕ) (f : H5 α β) (buf : NS (Buf β)) (i : ℕ),
    (∀ j < m, hw.rk4_step (S (c + j)) a.step_size a.dx = .ok (S (c + j + 1))) →
    (∀ j < m, Shaped a.grid_pts (S (c + j + 1))) →
    (∀ j < m, nanState E (S (c + j + 1)) = false) → m < k →
    hw.rk4_step (S (c + m)) a.step_size a.dx = .error e →
    Inv a [] a.grid_pts ns f buf i →
    Fails a.output_path (loop E hw a k (c + 1) ⟨S c, buf, i⟩) f e
      (afterSaves a.buffer_length f buf i (loopSaves E a S c m)).1 := by
  induction m with
  | zero =>
    intro k c f buf i _ _ _ hk he _
    obtain ⟨k, rfl⟩ : ∃ k', k = k' + 1 := ⟨k - 1, by omega⟩
    unfold loop
    exact Fails.lift he
  | succ m ih =>
    intro k c f buf i hT hS hN hk he hI
    obtain ⟨k, rfl⟩ : ∃ k', k = k' + 1 := ⟨k - 1, by omega⟩
    have hS1 := hS 0 (by omega)
    rw [Nat.add_zero] at hS1
    obtain ⟨f1, buf1, i1, e1, hI1, hd1⟩ := does_record hs hS1 hI
    have hsplit : loopSaves E a S c (m + 1) = loopSaves E a S c 1 ++ loopSaves E a S (c + 1) m := by
      unfold loopSaves
      rw [← List.map_append, ← List.filter_append, show m + 1 = 1 + m by omega, ← List.range'_append_1]
    rw [hsplit, afterSaves_append, e1]
    simp only
    obtain ⟨A, hA, -⟩ := hS1.fields "density" (by decide)
    have hnan : nanState E (S (c + 1)) = E.hasNaN (.arr A) := by unfold nanState; rw [hA]
    have hT0 := hT 0 (by omega)
    have hN0 := hN 0 (by omega)
    rw [Nat.add_zero] at hT0 hN0
    unfold loop
    refine (Does.lift hT0).fails ?_
    refine hd1.fails ?_
    refine (Does.lift (NS.getItem_of_get? hA)).fails ?_
    rw [hnan] at hN0
    simp only [hN0]
    exact ih k (c + 1) f1 buf1 i1
      (fun j hj => by have := hT (j + 1) (by omega); rwa [show c + (j + 1) = c + 1 + j by omega] at this)
      (fun j hj => by have := hS (j + 1) (by omega); rwa [show c + (j + 1) = c + 1 + j by omega] at this)
      (fun j hj => by have := hN (j + 1) (by omega); rwa [show c + (j + 1) = c + 1 + j by omega] at this)
      (by omega) (by rwa [show c + (m + 1) = c + 1 + m by omega] at he) hI1

theorem run_failing {E : Env α β} {a : Args α} {σ : St α β} {hw : Solver α} {ns m : ℕ} {steps : ℤ}
    {S : ℕ → NS (Cell α)} {e : PyErr} (h : FailingRun E a σ hw ns steps m S e) :
    ∃ σ' f', run E a σ = (.error e, σ') ∧ σ'.fs = upd σ.fs a.output_path (some f') ∧
      f' = (afterSaves a.buffer_length (runFile a ns : H5 α β) (zeroBuffer (α := α) a.buffer_length ns ns) 0
        (allSaves E a S m)).1 := by
  obtain ⟨σ1, f1, buf1, i1, e1, hI1, e2, e3⟩ := setup_fresh (E := E) h.fresh h.buffer h.saves h.init
  obtain ⟨phi, hphi, hS0⟩ := h.start
  obtain ⟨q, hq, hst⟩ := h.count
  have hl := fails_loop (hw := hw) (e := e) h.saves (S := S) m steps.toNat 0 f1 buf1 i1
    (fun j hj => by rw [Nat.zero_add]; exact h.traj j hj)
    (fun j hj => by rw [Nat.zero_add]; exact h.shaped (j + 1) (by omega) (by omega))
    (fun j hj => by rw [Nat.zero_add]; exact h.noNaN (j + 1) (by omega) (by omega))
    h.early (by rw [Nat.zero_add]; exact h.error) hI1
  have hsim : Fails a.output_path (simulate E a ⟨a.plasma0, buf1, i1⟩ a.physics (FloatOps.ofInt 0)) f1 e
      (afterSaves a.buffer_length f1 buf1 i1 (loopSaves E a S 0 m)).1 := by
    unfold simulate
    refine (Does.lift h.solver).fails ?_
    refine (Does.lift (NS.getItem_of_get? (v := a.omega0) rfl)).fails ?_
    refine (Does.lift (NS.getItem_of_get? (v := .num a.dx) rfl)).fails ?_
    refine (Does.lift hphi).fails ?_
    refine (Does.lift hq).fails ?_
    refine (Does.lift hst).fails ?_
    have := h.snaps
    rw [if_neg (by omega)]
    simp only [← hS0]
    exact hl.bind
  obtain ⟨σ2, r1, r2⟩ := hsim σ1 (by rw [e3, upd_same])
  refine ⟨σ2, _, ?_, by rw [r2, e3, upd_upd], ?_⟩
  · unfold run
    rw [if_neg h.path, IOM.bind_ok e2]
    simp only
    rw [IOM.bind_error r1]
  · unfold allSaves
    rw [afterSaves_append, e1]

theorem failingSaves_ok {E : Env α β} {a : Args α} {σ : St α β} {hw : Solver α} {ns m : ℕ} {steps : ℤ}
    {S : ℕ → NS (Cell α)} {e : PyErr} (h : FailingRun E a σ hw ns steps m S e) :
    List.Forall₂ (fun fr v => IsSave E a.downsample_factor a.saveState fr.1 fr.2 v ∧ Shaped a.grid_pts fr.2)
      (frames a S m) (allSaves E a S m) := by
  unfold frames allSaves
  refine List.rel_append (R := fun (fr : α × NS (Cell α)) (v : NS (Cell α) × NS (Cell α)) => _) ?_ ?_
  · split
    · obtain ⟨v, -, -, hs⟩ := firstSave_ok h.saves a.saveState h.init (FloatOps.ofInt 0)
      exact .cons ⟨hs, h.init⟩ .nil
    · exact .nil
  · unfold loopSaves
    rw [List.forall₂_map_left_iff, List.forall₂_map_right_iff, Nat.zero_add]
    rw [List.forall₂_same]
    intro it hit
    rw [List.mem_filter, List.mem_range'_1] at hit
    have hS := h.shaped it (by omega) (by omega)
    exact ⟨(theSave_ok h.saves a.saveState hS _).2, hS⟩

/-- the rows in the file, without those in the buffer -/
theorem flushed_rows {E : Env α β} {a : Args α} {ns : ℕ} {saves : List (NS (Cell α) × NS (Cell α))}
    {fr : List (α × NS (Cell α))} (hL : 1 ≤ a.buffer_length) (hs : SavesAs E a.downsample_factor a.grid_pts ns)
    (hfr : List.Forall₂ (fun fr v => IsSave E a.downsample_factor a.saveState fr.1 fr.2 v ∧ Shaped a.grid_pts fr.2)
      fr saves) {k : String} (hk : k ∈ "time" :: fieldList) :
    ∃ rows, (afterSaves a.buffer_length (runFile a ns : H5 α β) (zeroBuffer (α := α) a.buffer_length ns ns) 0
        saves).1.dsets k = some (.rows (rowShape ns k) rows) ∧
      List.Forall₂ (fun fr row => IsFrameRow E a.downsample_factor k fr.1 fr.2 row)
        (fr.take (a.buffer_length * (fr.length / a.buffer_length))) rows := by
  obtain ⟨b, hb, hsh⟩ := zeroBuffer_get (α := α) (β := β) a.buffer_length ns hk
  have hI := inv_runFile (β := β) a (ns := ns) hL
  have hok := afterSaves_bufOk (i := 0) saves (runFile a ns) hI.ok
  have hidx := afterSaves_index (L := a.buffer_length) saves (runFile a ns : H5 α β)
    (zeroBuffer (α := α) a.buffer_length ns ns) hI.lt
  obtain ⟨b', h1, h2⟩ := afterSaves_get? (L := a.buffer_length) saves (runFile a ns : H5 α β) _ 0 hb
  have hlog := logical_afterSaves saves (runFile a ns : H5 α β) hI.lt hI.ok hb
  generalize afterSaves a.buffer_length (runFile a ns : H5 α β) (zeroBuffer (α := α) a.buffer_length ns ns) 0
    saves = R at *
  obtain ⟨f, buf, i⟩ := R
  simp only at hok h1 hlog hidx ⊢
  have h0 : logical (runFile a ns : H5 α β) (zeroBuffer (α := α) a.buffer_length ns ns) 0 k = [] := by
    unfold logical H5.rowsOf
    rw [runFile_rows a ns hk, hb]
    simp
  rw [h0, List.nil_append] at hlog
  unfold logical at hlog
  rw [h1] at hlog
  simp only [Option.map_some, Option.getD_some] at hlog
  refine ⟨f.rowsOf k, by rw [hok.rows_eq h1, h2, hsh], ?_⟩
  have hall : List.Forall₂ (fun fr row => IsFrameRow E a.downsample_factor k fr.1 fr.2 row) fr
      (saves.map fun v => stored b.shape v.1 k : List (Cell β)) := by
    rw [List.forall₂_map_right_iff]
    refine hfr.imp fun fr v hv => ?_
    refine hv.1.row hs hv.2 ?_
    rw [hsh]
    unfold rowShape
    rcases List.mem_cons.mp hk with rfl | hk
    · left; simp
    · right; exact ⟨hk, if_neg (fieldList_ne_time hk)⟩
  have hlen := hok.len _ (mem_of_get? h1)
  simp only at hlen
  have hl : (f.rowsOf k).length = a.buffer_length * (fr.length / a.buffer_length) := by
    have := congrArg List.length hlog
    rw [List.length_append, List.length_take, List.length_map, hlen, ← hfr.length_eq] at this
    rw [Nat.zero_add, ← hfr.length_eq] at hidx
    have hlt := Nat.mod_lt fr.length (show 0 < a.buffer_length by omega)
    have hdm := Nat.div_add_mod fr.length a.buffer_length
    rw [hidx, Nat.min_eq_left hlt.le] at this
    omega
  have := List.forall₂_take (a.buffer_length * (fr.length / a.buffer_length)) hall
  rwa [← hlog, List.take_left' hl] at this

end Verif
