import Verif.Lemmas.RunFile

/-!
# The loop of `run.py`
-/

set_option linter.unusedSectionVars false

namespace Verif

open H5IO H5 Run

variable {α β : Type} [Casts α β] [Zero α] [Inhabited α] [Inhabited β] [FloatOps α]

/-- the saves of the steps `c+1, …, c+m` -/
def loopSaves (E : Env α β) (a : Args α) (S : ℕ → NS (Cell α)) (c m : ℕ) : List (NS (Cell α) × NS (Cell α)) :=
  ((List.range' (c + 1) m).filter (isRecorded a)).map fun it =>
    theSave E a.downsample_factor a.saveState (stepTime a it) (S it)

theorem afterSaves_append {L : ℕ} (l l' : List (NS (Cell α) × NS (Cell α))) (f : H5 α β) (buf : NS (Buf β)) (i : ℕ) :
    afterSaves L f buf i (l ++ l') = afterSaves L (afterSaves L f buf i l).1 (afterSaves L f buf i l).2.1
      (afterSaves L f buf i l).2.2 l' := by
  induction l generalizing f buf i with
  | nil => rfl
  | cons v l ih => exact ih _ _ _

/-- invariant between saves -/
structure Inv (a : Args α) (props : List String) (n ns : ℕ) (f : H5 α β) (buf : NS (Buf β)) (i : ℕ) : Prop where
  lt : i < a.buffer_length
  ok : BufOk f a.buffer_length buf
  buf : FrameBuf ns props buf
  states : a.saveState = true → HasStates f n

theorem fullres_ne {name k : String} (hk : k ∈ "time" :: fieldList) : "fullres_" ++ name ≠ k := by
  intro h
  have := congrArg String.toList h
  rw [String.toList_append] at this
  simp only [fieldList, List.mem_cons, List.not_mem_nil, or_false] at hk
  rcases hk with rfl | rfl | rfl | rfl <;> simp at this

theorem fullres_ne_state {name k : String} : "fullres_" ++ name ≠ "state_" ++ k := by
  intro h
  have := congrArg String.toList h
  rw [String.toList_append, String.toList_append] at this
  simp at this

theorem state_not_buffered {k : String} (hk : k ∈ fieldList) {ns : ℕ} {props : List String} {buf : NS (Buf β)}
    (hb : FrameBuf ns props buf) : "state_" ++ k ∉ buf.keys := by
  intro hm
  obtain ⟨p, hp, e⟩ := List.mem_map.mp hm
  have : p.1 ∈ "time" :: fieldList := by
    rcases hb.keys p hp with ⟨h, -⟩ | ⟨h, -⟩ | ⟨name, -, h, -⟩
    · rw [h]; simp
    · exact List.mem_cons_of_mem _ h
    · rw [e] at h; exact absurd h.symm fullres_ne_state
  rw [e] at this
  simp only [fieldList, List.mem_cons, List.not_mem_nil, or_false] at this hk
  rcases hk with rfl | rfl | rfl <;> revert this <;> decide

theorem hasStates_save {n L i : ℕ} {f : H5 α β} {buf : NS (Buf β)} {ns : ℕ} {props : List String}
    (hb : FrameBuf ns props buf)
    {new_val last : NS (Cell α)} (h : HasStates f n) : HasStates (savedFile f L i buf new_val last) n := by
  intro k hk
  obtain ⟨a, ha, h1, h2⟩ := h k hk
  have hnk := state_not_buffered hk hb
  unfold savedFile
  split
  · unfold withStates
    have : (appendedRows f (filled i new_val buf) L).dsets ("state_" ++ k) = some (.full a) := by
      unfold appendedRows
      simp only [get?_filled, get?_eq_none_of_not_mem hnk, Option.map_none, ha]
    simp only [this]
    cases last.get? ("state_" ++ k) with
    | none => exact ⟨a, rfl, h1, h2⟩
    | some v => exact ⟨_, rfl, by rw [fitState_h, h1], by rw [fitState_w, h2]⟩
  · exact ⟨a, ha, h1, h2⟩

theorem frameBuf_filled {ns i : ℕ} {props : List String} {buf : NS (Buf β)} {new_val : NS (Cell α)}
    (hb : FrameBuf ns props buf) : FrameBuf ns props (filled i new_val buf) := by
  refine ⟨fun p hp => ?_⟩
  unfold filled at hp
  obtain ⟨q, hq, rfl⟩ := List.mem_map.mp hp
  exact hb.keys q hq

theorem Inv.save {a : Args α} {props : List String} {n ns i : ℕ} {f : H5 α β} {buf : NS (Buf β)}
    (h : Inv a props n ns f buf i)
    (new_val last : NS (Cell α)) :
    Inv a props n ns (savedFile f a.buffer_length i buf new_val last) (filled i new_val buf) (nextIndex a.buffer_length i) :=
  ⟨nextIndex_lt h.lt, bufOk_save h.ok _ _, frameBuf_filled h.buf, fun hs => hasStates_save h.buf (h.states hs)⟩

theorem does_loop {E : Env α β} {hw : Solver α} {a : Args α} {ns : ℕ}
    (hs : SavesAs E a.downsample_factor a.grid_pts ns) {S : ℕ → NS (Cell α)} (m : ℕ) :
    ∀ (k c : ℕ) (f : H5 α β) (buf : NS (Buf β)) (i : ℕ),
    (∀ j < m, hw.rk4_step (S (c + j)) a.step_size a.dx = .ok (S (c + j + 1))) →
    (∀ j < m, Shaped a.grid_pts (S (c + j + 1))) →
    (∀ j, j + 1 < m → nanState E (S (c + j + 1)) = false) →
    (m = k ∨ (m < k ∧ 0 < m ∧ nanState E (S (c + m)) = true)) →
    Inv a [] a.grid_pts ns f buf i →
    ∃ f' buf' i', afterSaves a.buffer_length f buf i (loopSaves E a S c m) = (f', buf', i') ∧
      Inv a [] a.grid_pts ns f' buf' i' ∧
      Does a.output_path (loop E hw a k (c + 1) ⟨S c, buf, i⟩) f ⟨S (c + m), buf', i'⟩ f' := by
  induction m with
  | zero =>
    intro k c f buf i _ _ _ hk hI
    have hk0 : k = 0 := by omega
    subst hk0
    exact ⟨f, buf, i, rfl, hI, Does.pure _⟩
  | succ m ih =>
    intro k c f buf i hT hS hN hk hI
    obtain ⟨k, rfl⟩ : ∃ k', k = k' + 1 := ⟨k - 1, by omega⟩
    have hS1 := hS 0 (by omega)
    rw [Nat.add_zero] at hS1
    obtain ⟨hsv, hIs⟩ := theSave_ok hs a.saveState hS1 (stepTime a (c + 1))
    -- the record step
    have hrec : ∃ f1 buf1 i1, afterSaves a.buffer_length f buf i (loopSaves E a S c 1) = (f1, buf1, i1) ∧
        Inv a [] a.grid_pts ns f1 buf1 i1 ∧
        Does a.output_path (record E a (stepTime a (c + 1)) (c + 1) ⟨S (c + 1), buf, i⟩) f ⟨S (c + 1), buf1, i1⟩ f1 := by
      unfold record
      by_cases hr : isRecorded a (c + 1) = true
      · have hl : loopSaves E a S c 1
            = [theSave E a.downsample_factor a.saveState (stepTime a (c + 1)) (S (c + 1))] := by
          simp [loopSaves, List.range'_one, hr]
        rw [hl]
        refine ⟨_, _, _, rfl, hI.save _ _, ?_⟩
        unfold isRecorded at hr
        simp only [hr, if_true]
        refine (Does.lift hsv).bind ?_
        refine (does_save hI.lt hI.ok (hIs.fits hs hS1 (by simp) hI.buf) (hIs.statesFit hS1 hI.states)).bind ?_
        exact Does.pure _
      · have hl : loopSaves E a S c 1 = [] := by simp [loopSaves, List.range'_one, hr]
        rw [hl]
        refine ⟨_, _, _, rfl, hI, ?_⟩
        unfold isRecorded at hr
        simp only [hr]
        exact Does.pure _
    obtain ⟨f1, buf1, i1, e1, hI1, hd1⟩ := hrec
    have hsplit : loopSaves E a S c (m + 1) = loopSaves E a S c 1 ++ loopSaves E a S (c + 1) m := by
      unfold loopSaves
      rw [← List.map_append, ← List.filter_append, show m + 1 = 1 + m by omega, ← List.range'_append_1]
    rw [hsplit, afterSaves_append, e1]
    simp only
    obtain ⟨A, hA, -⟩ := hS1.fields "density" (by decide)
    have hnan : nanState E (S (c + 1)) = E.hasNaN (.arr A) := by unfold nanState; rw [hA]
    have hT0 := hT 0 (by omega)
    rw [Nat.add_zero] at hT0
    by_cases hm : nanState E (S (c + 1)) = true
    · have hm0 : m = 0 := by
        by_contra h
        have := hN 0 (by omega)
        rw [Nat.add_zero, hm] at this; cases this
      subst hm0
      refine ⟨f1, buf1, i1, rfl, hI1, ?_⟩
      unfold loop
      refine (Does.lift hT0).bind ?_
      refine hd1.bind ?_
      refine (Does.lift (NS.getItem_of_get? hA)).bind ?_
      rw [hnan] at hm
      simp only [hm, if_true]
      exact Does.pure _
    · obtain ⟨f', buf', i', e, hI', hd⟩ := ih k (c + 1) f1 buf1 i1
        (fun j hj => by have := hT (j + 1) (by omega); rwa [show c + (j + 1) = c + 1 + j by omega] at this)
        (fun j hj => by have := hS (j + 1) (by omega); rwa [show c + (j + 1) = c + 1 + j by omega] at this)
        (fun j hj => by have := hN (j + 1) (by omega); rwa [show c + (j + 1) = c + 1 + j by omega] at this)
        (by
          rcases hk with h | ⟨h1, h2, h3⟩
          · left; omega
          · right
            have : m ≠ 0 := by rintro rfl; exact hm h3
            refine ⟨by omega, by omega, ?_⟩
            rwa [show c + (m + 1) = c + 1 + m by omega] at h3) hI1
      refine ⟨f', buf', i', e, hI', ?_⟩
      unfold loop
      refine (Does.lift hT0).bind ?_
      refine hd1.bind ?_
      refine (Does.lift (NS.getItem_of_get? hA)).bind ?_
      rw [hnan] at hm
      simp only [hm]
      rw [show c + (m + 1) = c + 1 + m by omega]
      exact hd

/-- the rest of the function, after `setup` -/
theorem does_simulate {E : Env α β} {hw : Solver α} {a : Args α} {ns : ℕ}
    (hs : SavesAs E a.downsample_factor a.grid_pts ns) {S : ℕ → NS (Cell α)} {m : ℕ} {p : NS (Cell α)}
    {params : NS (Attr α)} {t0 q : α} {steps : ℤ} {om phi : Cell α} {dxa : Attr α} (h1 : E.HW params = .ok hw)
    (h2 : p.get? "omega" = some om) (h3 : params.get? "dx" = some dxa) (h4 : hw.get_phi om (E.attrNum dxa) = .ok phi)
    (h5 : S 0 = p.set "phi" phi) (h6 : FloatOps.div (FloatOps.sub a.end_time t0) a.step_size = .ok q)
    (h7 : FloatOps.toInt q = .ok steps) (hsn : 1 ≤ a.snaps)
    (hT : Trajectory hw a.step_size a.dx m S) (hS : ∀ n, 1 ≤ n → n ≤ m → Shaped a.grid_pts (S n))
    (hst : StopsAfter E S steps.toNat m) {f : H5 α β} {buf : NS (Buf β)} {i : ℕ} (hI : Inv a [] a.grid_pts ns f buf i) :
    ∃ f' buf' i', afterSaves a.buffer_length f buf i (loopSaves E a S 0 m) = (f', buf', i') ∧
      Inv a [] a.grid_pts ns f' buf' i' ∧
      Does a.output_path (simulate E a ⟨p, buf, i⟩ params t0) f () (finalFile f' buf' i') := by
  obtain ⟨f', buf', i', e, hI', hd⟩ := does_loop (hw := hw) hs (S := S) m steps.toNat 0 f buf i
    (fun j hj => by rw [Nat.zero_add]; exact hT j hj)
    (fun j hj => by rw [Nat.zero_add]; exact hS (j + 1) (by omega) (by omega))
    (fun j hj => by rw [Nat.zero_add]; exact hst.before (j + 1) (by omega) hj)
    (by rw [Nat.zero_add]; exact hst.stop) hI
  refine ⟨f', buf', i', e, hI', ?_⟩
  unfold simulate
  refine (Does.lift h1).bind ?_
  refine (Does.lift (NS.getItem_of_get? h2)).bind ?_
  refine (Does.lift (NS.getItem_of_get? h3)).bind ?_
  refine (Does.lift h4).bind ?_
  refine (Does.lift h6).bind ?_
  refine (Does.lift h7).bind ?_
  rw [if_neg (by omega)]
  simp only [← h5]
  refine hd.bind ?_
  unfold finalFile
  simp only
  split
  · next h => exact does_append_h5 h hI'.lt.le buf' hI'.ok
  · exact Does.pure _

/-- all saves of a run that creates a new file -/
def allSaves (E : Env α β) (a : Args α) (S : ℕ → NS (Cell α)) (m : ℕ) : List (NS (Cell α) × NS (Cell α)) :=
  (if FloatOps.eq a.recording_start_time (FloatOps.ofInt 0) then
    [firstSave E a.downsample_factor a.saveState (FloatOps.ofInt 0) a.plasma0] else []) ++ loopSaves E a S 0 m

/-- the attributes of a new file -/
def runParams (a : Args α) (ns : ℕ) : NS (Attr α) :=
  get_save_params a.physics a.step_size a.snaps a.grid_pts a.grid_pts (some ns) (some ns) a.recording_start_time false

/-- the new file -/
def runFile (a : Args α) (ns : ℕ) : H5 α β :=
  createdFile (runParams a ns) ns ns a.grid_pts a.grid_pts fieldList ["time"] a.saveState

theorem runParams_nodup (a : Args α) (ns : ℕ) : (runParams a ns).keys.Nodup := by
  unfold runParams get_save_params
  iterate 9 refine NS.nodup_set ?_ _ _
  simp [Args.physics, NS.keys]

theorem makes_runFile (a : Args α) (ns : ℕ) :
    Makes a.output_path (create_appendable_h5 a.output_path (runParams a ns) ns ns a.grid_pts a.grid_pts fieldList
      ["time"] a.saveState : IOM α β Unit) () (runFile a ns) :=
  makes_create _ (runParams_nodup a ns) _ _ _ _ _ _ (by decide) (by decide) (by decide) (by decide) _

theorem inv_runFile (a : Args α) {ns : ℕ} (hL : 1 ≤ a.buffer_length) :
    Inv a [] a.grid_pts ns (runFile a ns : H5 α β) (zeroBuffer (α := α) a.buffer_length ns ns) 0 := by
  refine ⟨hL, ⟨by simp [NS.keys, zeroBuffer, fieldList], ?_, ?_, ?_⟩, frameBuf_zero _ _, ?_⟩
  · intro p hp
    simp only [zeroBuffer, fieldList, List.map_cons, List.map_nil, List.cons_append, List.nil_append, List.mem_cons,
      List.not_mem_nil, or_false] at hp
    rcases hp with rfl | rfl | rfl | rfl <;> simp
  · intro p hp c hc
    simp only [zeroBuffer, fieldList, List.map_cons, List.map_nil, List.cons_append, List.nil_append, List.mem_cons,
      List.not_mem_nil, or_false] at hp
    rcases hp with rfl | rfl | rfl | rfl <;> simp only [List.mem_replicate] at hc <;> rw [hc.2] <;>
      exact RowShape.zero_ok _ _
  · intro p hp
    simp only [zeroBuffer, fieldList, List.map_cons, List.map_nil, List.cons_append, List.nil_append, List.mem_cons,
      List.not_mem_nil, or_false] at hp
    rcases hp with rfl | rfl | rfl | rfl <;> refine ⟨[], ?_⟩ <;> unfold runFile createdFile <;> simp only <;>
      rw [if_neg (by rintro ⟨-, h⟩; revert h; decide)] <;> rfl
  · intro hs k hk
    refine ⟨Arr.tab a.grid_pts a.grid_pts fun _ _ => 0, ?_, rfl, rfl⟩
    unfold runFile createdFile
    simp only
    rw [if_pos]
    refine ⟨hs, ?_⟩
    revert k; decide

/-- `setup` for a new file -/
theorem setup_fresh {E : Env α β} {a : Args α} {ns : ℕ} {σ : St α β}
    (hfresh : σ.fs a.output_path = none ∨ a.force_recompute = true) (hL : 1 ≤ a.buffer_length)
    (hs : SavesAs E a.downsample_factor a.grid_pts ns) (hi : Shaped a.grid_pts a.plasma0) :
    ∃ σ' f buf i,
      afterSaves a.buffer_length (runFile a ns) (zeroBuffer (α := α) a.buffer_length ns ns) 0
        (if FloatOps.eq a.recording_start_time (FloatOps.ofInt 0) then
          [firstSave E a.downsample_factor a.saveState (FloatOps.ofInt 0) a.plasma0] else []) = (f, buf, i) ∧
      Inv a [] a.grid_pts ns f buf i ∧
      setup E a σ = (.ok (some (⟨a.plasma0, buf, i⟩, a.physics, FloatOps.ofInt 0)), σ') ∧
      σ'.fs = upd σ.fs a.output_path (some f) := by
  have hI := inv_runFile (β := β) a (ns := ns) hL
  have key : ∃ f buf i,
      afterSaves a.buffer_length (runFile a ns) (zeroBuffer (α := α) a.buffer_length ns ns) 0
        (if FloatOps.eq a.recording_start_time (FloatOps.ofInt 0) then
          [firstSave E a.downsample_factor a.saveState (FloatOps.ofInt 0) a.plasma0] else []) = (f, buf, i) ∧
      Inv a [] a.grid_pts ns f buf i ∧
      Makes a.output_path (do
        create_appendable_h5 a.output_path (runParams a ns) ns ns a.grid_pts a.grid_pts fieldList ["time"] a.saveState
        if FloatOps.eq a.recording_start_time (FloatOps.ofInt 0) then do
          let (new_val, last_state) ← IOM.lift
            (frameLoop E a.downsample_factor a.saveState a.plasma0 (fieldsOf a.plasma0) [])
          let new_val := new_val.set "time" (.num (FloatOps.ofInt 0))
          let (buffer, i) ← save_to_buffered_h5 (zeroBuffer (α := α) a.buffer_length ns ns) a.buffer_length 0 new_val
            a.output_path last_state
          return some (⟨a.plasma0, buffer, i⟩, a.physics, FloatOps.ofInt 0)
        else return some (⟨a.plasma0, zeroBuffer (α := α) a.buffer_length ns ns, 0⟩, a.physics, FloatOps.ofInt 0) :
          IOM α β (Option (RunState α β × NS (Attr α) × α)))
        (some (⟨a.plasma0, buf, i⟩, a.physics, FloatOps.ofInt 0)) f := by
    by_cases hr : FloatOps.eq a.recording_start_time (FloatOps.ofInt 0) = true
    · simp only [hr, if_true]
      obtain ⟨v, e, e', hsv⟩ := firstSave_ok hs a.saveState hi (FloatOps.ofInt 0)
      rw [e'] at hsv ⊢
      refine ⟨_, _, _, rfl, hI.save _ _, ?_⟩
      refine (makes_runFile a ns).bind ?_
      refine (Does.lift e).bind ?_
      refine (does_save hI.lt hI.ok (hsv.fits hs hi (by simp) hI.buf) (hsv.statesFit hi hI.states)).bind ?_
      exact Does.pure _
    · simp only [hr]
      refine ⟨_, _, _, rfl, hI, ?_⟩
      exact (makes_runFile a ns).bind (Does.pure _)
  obtain ⟨f, buf, i, e1, hI', hm⟩ := key
  obtain ⟨σ', e2, e3⟩ := hm σ
  refine ⟨σ', f, buf, i, e1, hI', ?_, e3⟩
  unfold setup
  rw [hs.dim]
  have hfile : ((σ.fs a.output_path).isSome && !a.force_recompute) = false := by
    rcases hfresh with h | h <;> simp [h]
  have hl : ∀ {X : Type} (x : X), (IOM.lift (.ok x) : IOM α β X) σ = (.ok x, σ) := fun _ => rfl
  rw [IOM.bind_ok (hl ns), IOM.bind_ok (hl ns)]
  have hf : (isFile a.output_path : IOM α β Bool) σ = (.ok (σ.fs a.output_path).isSome, σ) := rfl
  rw [IOM.bind_ok hf]
  simp only [hfile]
  exact e2

theorem run_fresh {E : Env α β} {a : Args α} {σ : St α β} {hw : Solver α} {ns m : ℕ} {steps : ℤ}
    {S : ℕ → NS (Cell α)} (h : FreshRun E a σ hw ns steps m S) :
    ∃ σ' f' buf' i',
      afterSaves a.buffer_length (runFile a ns) (zeroBuffer (α := α) a.buffer_length ns ns) 0 (allSaves E a S m)
        = (f', buf', i') ∧
      Inv a [] a.grid_pts ns f' buf' i' ∧ σ'.fs = upd σ.fs a.output_path (some (finalFile f' buf' i')) ∧
      run E a σ = (if !a.properties.isEmpty then
        RunProperties.calculate_properties E.props a.output_path a.buffer_length a.properties true
        else pure () : IOM α β Unit) σ' := by
  obtain ⟨σ1, f1, buf1, i1, e1, hI1, e2, e3⟩ := setup_fresh (E := E) h.fresh h.buffer h.saves h.init
  obtain ⟨phi, hphi, hS0⟩ := h.start
  obtain ⟨q, hq, hst⟩ := h.count
  obtain ⟨f', buf', i', g1, g2, g3⟩ := does_simulate (S := S) h.saves h.solver (p := a.plasma0) (om := a.omega0) (by rfl)
    (dxa := .num a.dx) (by rfl) hphi hS0 hq hst h.snaps h.traj h.shaped h.stops hI1
  obtain ⟨σ2, r1, r2⟩ := g3 σ1 (by rw [e3, upd_same])
  refine ⟨σ2, f', buf', i', ?_, g2, by rw [r2, e3, upd_upd], ?_⟩
  · unfold allSaves
    rw [afterSaves_append, e1, g1]
  · unfold run
    rw [if_neg h.path, IOM.bind_ok e2]
    simp only
    rw [IOM.bind_ok r1]

end Verif
