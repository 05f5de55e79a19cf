import Verif.Lemmas.Run2File

/-!
# `run2` continuing a file that lacks a dataset of a requested property
-/

set_option linter.unusedSectionVars false

namespace Verif

open H5IO H5 Run Run2

variable {α β : Type} [Casts α β] [Zero α] [Inhabited α] [Inhabited β] [FloatOps α]

/-- running `m` with file contents `f` raises `e` and leaves the contents `f'` -/
def Raises {X : Type} (path : String) (m : IOM α β X) (f : H5 α β) (e : PyErr) (f' : H5 α β) : Prop :=
  ∀ σ : St α β, σ.fs path = some f → ∃ σ', m σ = (.error e, σ') ∧ σ'.fs = upd σ.fs path (some f')

theorem Raises.bind {X Y : Type} {path : String} {m : IOM α β X} {k : X → IOM α β Y} {f f' : H5 α β} {e : PyErr}
    (h : Raises path m f e f') : Raises path (m >>= k) f e f' := by
  intro σ hσ
  obtain ⟨σ', h1, h2⟩ := h σ hσ
  exact ⟨σ', IOM.bind_error h1, h2⟩

theorem Does.raises {X Y : Type} {path : String} {m : IOM α β X} {k : X → IOM α β Y} {f f' f'' : H5 α β} {x : X}
    {e : PyErr} (h : Does path m f x f') (hk : Raises path (k x) f' e f'') : Raises path (m >>= k) f e f'' := by
  intro σ hσ
  obtain ⟨σ', h1, h2⟩ := h σ hσ
  obtain ⟨σ'', h3, h4⟩ := hk σ' (by rw [h2, upd_same])
  exact ⟨σ'', by rw [IOM.bind_ok h1, h3], by rw [h4, h2, upd_upd]⟩

theorem Steps.raises {X : Type} {path : String} {m m' : IOM α β X} {f f' f'' : H5 α β} {e : PyErr}
    (h : Steps path m f m' f') (hk : Raises path m' f' e f'') : Raises path m f e f'' := by
  intro σ hσ
  obtain ⟨σ', h1, h2⟩ := h σ hσ
  obtain ⟨σ'', h3, h4⟩ := hk σ' (by rw [h1, upd_same])
  exact ⟨σ'', by rw [h2, h3], by rw [h4, h1, upd_upd]⟩

/-! ### appending -/

theorem IOM.assoc {X Y Z : Type} (m : IOM α β X) (k : X → IOM α β Y) (k' : Y → IOM α β Z) :
    ((m >>= k) >>= k') = m >>= fun x => k x >>= k' := by
  funext σ
  rcases hm : m σ with ⟨r, σ'⟩
  cases r with
  | error e =>
    have h1 : (m >>= k) σ = (.error e, σ') := IOM.bind_error hm
    rw [IOM.bind_error h1, IOM.bind_error hm]
  | ok x =>
    rw [IOM.bind_ok hm, IOM.bind_apply, IOM.bind_apply, hm]
    rfl

theorem appendFields_append (path : String) (n : ℕ) (l l' : NS (Buf β)) :
    (appendFields path n (l ++ l') : IOM α β Unit) = (do appendFields path n l; appendFields path n l') := by
  induction l with
  | nil => rfl
  | cons p rest ih =>
    obtain ⟨name, b⟩ := p
    simp only [List.cons_append, appendFields, ih, IOM.assoc]

theorem raises_appendFields_head {path : String} {f : H5 α β} {n : ℕ} {p : String × Buf β} {rest : NS (Buf β)}
    (h : f.dsets p.1 = none) : Raises path (appendFields path n (p :: rest)) f (.keyError p.1) f := by
  obtain ⟨name, b⟩ := p
  intro σ hσ
  refine ⟨σ, ?_, by rw [← hσ, upd_self]⟩
  have : (H5.len path name : IOM α β ℕ) σ = (.error (.keyError name), σ) := by
    have hc : (H5.content path : IOM α β (H5 α β)) σ = (.ok f, σ) := by
      unfold H5.content
      rw [hσ]
    have h' : f.dsets name = none := h
    have hd : (H5.dset path name : IOM α β (Dset α β)) σ = (.error (.keyError name), σ) := by
      unfold H5.dset
      rw [IOM.bind_ok hc, h']
      rfl
    unfold H5.len
    rw [IOM.bind_error hd]
  unfold appendFields
  rw [IOM.bind_error this]

/-- `append_h5` when the datasets of `pre` exist and the next one does not -/
theorem raises_append_h5 {path : String} {f : H5 α β} {n L : ℕ} (hn : 1 ≤ n) (hL : n ≤ L) {pre rest : NS (Buf β)}
    {p : String × Buf β} (hb : BufOk f L pre) (h : f.dsets p.1 = none) (hp : p.1 ∉ pre.keys) :
    Raises path (append_h5 path (pre ++ p :: rest) n) f (.keyError p.1) (appendedRows f pre n) := by
  unfold append_h5
  refine Does.openA.raises ?_
  rw [appendFields_append]
  refine (does_appendFields hn hL pre hb).raises (raises_appendFields_head ?_)
  unfold appendedRows
  simp only [get?_eq_none_of_not_mem hp]
  exact h

/-! ### the buffer -/

/-- `f` with an empty dataset for each of the properties `names` -/
def completed (f : H5 α β) (names : List String) : H5 α β :=
  { f with dsets := fun k => if k ∈ names.map ("fullres_" ++ ·) then some (.rows .one []) else f.dsets k }

theorem completed_other {f : H5 α β} {names : List String} {k : String} (h : ∀ name ∈ names, k ≠ "fullres_" ++ name) :
    (completed f names).dsets k = f.dsets k := by
  unfold completed
  refine if_neg fun hk => ?_
  obtain ⟨name, hn, e⟩ := List.mem_map.mp hk
  exact h name hn e.symm

theorem completed_rows {f : H5 α β} {names : List String} {name : String} (h : name ∈ names) :
    (completed f names).dsets ("fullres_" ++ name) = some (.rows .one []) := by
  unfold completed
  exact if_pos (List.mem_map.mpr ⟨name, h, rfl⟩)

theorem zeroBuffer2_keys (L ns : ℕ) {props : List String} (hn : props.Nodup) :
    (zeroBuffer2 (α := α) L ns ns props : NS (Buf β)).keys = (fieldList ++ ["time"]) ++ props.map ("fullres_" ++ ·) := by
  unfold zeroBuffer2
  have h0 : (zeroBuffer (α := α) L ns ns : NS (Buf β)).keys = fieldList ++ ["time"] := by
    simp [NS.keys, zeroBuffer, fieldList]
  have h1 : ∀ name ∈ props, "fullres_" ++ name ∉ (zeroBuffer (α := α) L ns ns : NS (Buf β)).keys := by
    intro name _ h
    rw [h0] at h
    refine fullres_not_mem (name := name) ?_
    simpa [or_comm, or_left_comm, or_assoc] using h
  rw [← h0]
  generalize (zeroBuffer (α := α) L ns ns : NS (Buf β)) = b at h1
  clear h0
  induction props generalizing b with
  | nil => simp
  | cons name props ih =>
    rw [List.nodup_cons] at hn
    have hk : ∀ v, (b.set ("fullres_" ++ name) v).keys = b.keys ++ ["fullres_" ++ name] := by
      intro v
      unfold NS.set
      rw [if_neg (h1 name (by simp))]
      simp [NS.keys]
    rw [List.foldl_cons, ih hn.2, hk, List.append_assoc]
    · rfl
    · intro name' h' h''
      rw [hk, List.mem_append, List.mem_singleton] at h''
      rcases h'' with h'' | h''
      · exact h1 name' (by simp [h']) h''
      · exact hn.1 (fullres_inj h'' ▸ h')

/-- saves that do not fill the buffer -/
theorem afterSaves_quiet {L : ℕ} (saves : List (NS (Cell α) × NS (Cell α))) (f : H5 α β) (buf : NS (Buf β)) (i : ℕ)
    (h : i + saves.length < L) :
    (afterSaves L f buf i saves).1 = f ∧ (afterSaves L f buf i saves).2.2 = i + saves.length := by
  induction saves generalizing f buf i with
  | nil => exact ⟨rfl, rfl⟩
  | cons v rest ih =>
    unfold afterSaves
    rw [List.length_cons] at h ⊢
    have h1 : savedFile f L i buf v.1 v.2 = f := by unfold savedFile; rw [if_neg (by omega)]
    have h2 : nextIndex L i = i + 1 := by unfold nextIndex; rw [if_neg (by omega)]
    rw [h1, h2]
    obtain ⟨e1, e2⟩ := ih f (filled i v.1 buf) (i + 1) (by omega)
    exact ⟨e1, by rw [e2]; omega⟩

/-- recording a step that does not fill the buffer -/
theorem does_record_quiet {E : Env2 α β} {a : Args2 α} {ns : ℕ} {t0 : α}
    (hs : SavesAs E.toEnv a.downsample_factor a.grid_pts ns) (hok : PropsOk E a) {S : ℕ → NS (Cell α)} {c : ℕ}
    {f : H5 α β} {buf : NS (Buf β)} {i : ℕ} (hS1 : Shaped a.grid_pts (S (c + 1)))
    (hI : Inv a.toArgs a.properties a.grid_pts ns f buf i)
    (hq : i + (loopSaves2 E a t0 S c 1).length < a.buffer_length) (g : H5 α β) :
    ∃ buf1, afterSaves a.buffer_length f buf i (loopSaves2 E a t0 S c 1)
        = (f, buf1, i + (loopSaves2 E a t0 S c 1).length) ∧
      Inv a.toArgs a.properties a.grid_pts ns f buf1 (i + (loopSaves2 E a t0 S c 1).length) ∧
      Does a.output_path (record2 E a (loopState E a t0 S (c + 1) buf i)) g
        (loopState E a t0 S (c + 1) buf1 (i + (loopSaves2 E a t0 S c 1).length), isRecorded2 E a t0 (c + 1)) g := by
  obtain ⟨nv, hpl, hsv, hIs⟩ := theSave2_ok hs hok hS1 (timeAt E a t0 (c + 1))
  unfold record2
  by_cases hr : isRecorded2 E a t0 (c + 1) = true
  · have hl : loopSaves2 E a t0 S c 1 = [theSave2 E a (timeAt E a t0 (c + 1)) (S (c + 1))] := by
      simp [loopSaves2, List.range'_one, hr]
    rw [hl] at hq ⊢
    rw [List.length_singleton] at hq ⊢
    have h1 := hI.save (theSave2 E a (timeAt E a t0 (c + 1)) (S (c + 1))).1 (theSave2 E a (timeAt E a t0 (c + 1)) (S (c + 1))).2
    have e1 : savedFile f a.buffer_length i buf (theSave2 E a (timeAt E a t0 (c + 1)) (S (c + 1))).1
        (theSave2 E a (timeAt E a t0 (c + 1)) (S (c + 1))).2 = f := by unfold savedFile; rw [if_neg (by omega)]
    have e2 : nextIndex a.buffer_length i = i + 1 := by unfold nextIndex; rw [if_neg (by omega)]
    rw [e1, e2] at h1
    refine ⟨_, ?_, h1, ?_⟩
    · simp only [afterSaves, e1, e2]
    · rw [hr]
      unfold isRecorded2 at hr
      simp only [loopState, hr, if_true]
      refine (Does.lift hpl).bind ?_
      refine (Does.lift hsv).bind ?_
      refine Does.bind (x := (filled i (theSave2 E a (timeAt E a t0 (c + 1)) (S (c + 1))).1 buf, i + 1)) (f' := g) ?_
        (Does.pure _)
      unfold save_to_buffered_h5
      refine (Does.lift (fillBuffer_eq hI.lt _ buf hI.ok.len (hIs.fits hs hS1 hI.buf))).bind ?_
      simp only [if_neg (show ¬ i + 1 = a.buffer_length by omega)]
      exact Does.pure _
  · have hl : loopSaves2 E a t0 S c 1 = [] := by simp [loopSaves2, List.range'_one, hr]
    rw [hl]
    refine ⟨buf, rfl, hI, ?_⟩
    have hr' : isRecorded2 E a t0 (c + 1) = false := by simpa using hr
    rw [hr']
    unfold isRecorded2 at hr'
    simp only [loopState, hr']
    exact Does.pure _

/-- `m` iterations that do not fill the buffer -/
theorem steps_quiet {E : Env2 α β} {hw : Solver α} {a : Args2 α} {ns : ℕ} {t0 : α}
    (hs : SavesAs E.toEnv a.downsample_factor a.grid_pts ns) (hok : PropsOk E a) {S : ℕ → NS (Cell α)} (g : H5 α β)
    {f : H5 α β} (m : ℕ) :
    ∀ (c : ℕ) (buf : NS (Buf β)) (i : ℕ),
    (∀ j < m, hw.rk4_step (S (c + j)) a.step_size a.dx = .ok (S (c + j + 1))) →
    (∀ j < m, Shaped a.grid_pts (S (c + j + 1))) →
    (∀ j < m, FloatOps.lt (FloatOps.round4 (timeAt E a t0 (c + j))) a.end_time = true) →
    (∀ j < m, isRecorded2 E a t0 (c + j + 1) = true → nanState E.toEnv (S (c + j + 1)) = false) →
    Inv a.toArgs a.properties a.grid_pts ns f buf i →
    i + (loopSaves2 E a t0 S c m).length < a.buffer_length →
    ∃ buf', afterSaves a.buffer_length f buf i (loopSaves2 E a t0 S c m)
        = (f, buf', i + (loopSaves2 E a t0 S c m).length) ∧
      Inv a.toArgs a.properties a.grid_pts ns f buf' (i + (loopSaves2 E a t0 S c m).length) ∧
      ∀ fuel, Steps a.output_path (loop2 E hw a t0 (fuel + m) (loopState E a t0 S c buf i)) g
        (loop2 E hw a t0 fuel (loopState E a t0 S (c + m) buf' (i + (loopSaves2 E a t0 S c m).length))) g := by
  induction m with
  | zero => exact fun c buf i _ _ _ _ hI _ => ⟨buf, rfl, hI, fun _ => Steps.refl _ _⟩
  | succ m ih =>
    intro c buf i hT hS hB hN hI hq
    rw [loopSaves2_split, List.length_append] at hq
    obtain ⟨buf1, e1, hI1, h1⟩ := does_record_quiet (t0 := t0) hs hok (hS 0 (by omega)) hI
      (show i + (loopSaves2 E a t0 S (c + 0) 1).length < a.buffer_length by rw [Nat.add_zero]; omega) g
    obtain ⟨buf', e, hI', hd⟩ := ih (c + 1) buf1 (i + (loopSaves2 E a t0 S c 1).length)
      (fun j hj => by have := hT (j + 1) (by omega); rwa [show c + (j + 1) = c + 1 + j by omega] at this)
      (fun j hj => by have := hS (j + 1) (by omega); rwa [show c + (j + 1) = c + 1 + j by omega] at this)
      (fun j hj => by have := hB (j + 1) (by omega); rwa [show c + (j + 1) = c + 1 + j by omega] at this)
      (fun j hj => by have := hN (j + 1) (by omega); rwa [show c + (j + 1) = c + 1 + j by omega] at this) hI1
      (by omega)
    rw [loopSaves2_split, afterSaves_append, e1, List.length_append, ← Nat.add_assoc]
    refine ⟨buf', e, hI', fun fuel => ?_⟩
    have h2 := steps_of_record (t0 := t0) (hT 0 (by omega)) (hS 0 (by omega)) (hB 0 (by omega)) h1 (fuel + m)
    rw [if_neg] at h2
    · rw [show c + (m + 1) = c + 1 + m by omega]
      exact h2.trans (hd fuel)
    · rintro ⟨hr, hn⟩
      have := hN 0 (by omega) (by rw [Nat.add_zero]; exact hr)
      rw [Nat.add_zero] at this hn
      rw [hn] at this
      cases this

/-- the whole loop, if it does not fill the buffer -/
theorem does_loop2_quiet {E : Env2 α β} {hw : Solver α} {a : Args2 α} {ns : ℕ} {t0 : α}
    (hs : SavesAs E.toEnv a.downsample_factor a.grid_pts ns) (hok : PropsOk E a) {S : ℕ → NS (Cell α)} {m fuel : ℕ}
    (hfuel : m < fuel) (hT : Trajectory hw a.step_size a.dx m S) (hS : ∀ n, 1 ≤ n → n ≤ m → Shaped a.grid_pts (S n))
    (hst : StopsAfter2 E a t0 S m) {f : H5 α β} {buf : NS (Buf β)}
    (hI : Inv a.toArgs a.properties a.grid_pts ns f buf 0)
    (hq : (loopSaves2 E a t0 S 0 m).length < a.buffer_length) (g : H5 α β) :
    ∃ buf', afterSaves a.buffer_length f buf 0 (loopSaves2 E a t0 S 0 m) = (f, buf', (loopSaves2 E a t0 S 0 m).length) ∧
      Inv a.toArgs a.properties a.grid_pts ns f buf' (loopSaves2 E a t0 S 0 m).length ∧
      Does a.output_path (loop2 E hw a t0 fuel (loopState E a t0 S 0 buf 0)) g
        (some (loopState E a t0 S m buf' (loopSaves2 E a t0 S 0 m).length)) g := by
  by_cases hk : 1 ≤ m ∧ isRecorded2 E a t0 m = true ∧ nanState E.toEnv (S m) = true
  · obtain ⟨m, rfl⟩ : ∃ m', m = m' + 1 := ⟨m - 1, by omega⟩
    have hsplit : loopSaves2 E a t0 S 0 (m + 1) = loopSaves2 E a t0 S 0 m ++ loopSaves2 E a t0 S m 1 := by
      unfold loopSaves2
      rw [← List.map_append, ← List.filter_append, Nat.zero_add, Nat.add_comm m 1, List.range'_append_1, Nat.add_comm 1 m]
    rw [hsplit, List.length_append] at hq
    obtain ⟨buf1, e1, hI1, h1⟩ := steps_quiet (hw := hw) (t0 := t0) hs hok (S := S) g m 0 buf 0
      (fun j hj => by rw [Nat.zero_add]; exact hT j (by omega))
      (fun j hj => by rw [Nat.zero_add]; exact hS (j + 1) (by omega) (by omega))
      (fun j hj => by rw [Nat.zero_add]; exact hst.before j (by omega))
      (fun j hj => by rw [Nat.zero_add]; exact hst.noNaN (j + 1) (by omega) (by omega)) hI (by omega)
    rw [Nat.zero_add] at e1 hI1
    obtain ⟨buf', e, hI', h2⟩ := does_record_quiet (t0 := t0) hs hok (hS (m + 1) (by omega) (by omega)) hI1
      (by omega) g
    have h4 := steps_of_record (t0 := t0) (hT m (by omega)) (hS (m + 1) (by omega) (by omega)) (hst.before m (by omega)) h2
    rw [hsplit, afterSaves_append, e1, List.length_append]
    refine ⟨buf', e, hI', ?_⟩
    have h3 := h1 (fuel - m)
    rw [Nat.sub_add_cancel (by omega), Nat.zero_add, Nat.zero_add] at h3
    obtain ⟨r, hr⟩ : ∃ r, fuel - m = r + 1 := ⟨fuel - m - 1, by omega⟩
    rw [hr] at h3
    have h4 := h4 r
    rw [if_pos hk.2] at h4
    exact (h3.trans h4).does (Does.pure _)
  · have hlt := hst.stop.resolve_right hk
    have hN : ∀ j, 1 ≤ j → j ≤ m → isRecorded2 E a t0 j = true → nanState E.toEnv (S j) = false := by
      intro j h1 h2 h3
      rcases Nat.lt_or_ge j m with h | h
      · exact hst.noNaN j h1 h h3
      · have : j = m := by omega
        subst this
        by_contra hn
        exact hk ⟨h1, h3, by simpa using hn⟩
    obtain ⟨buf1, e1, hI1, h1⟩ := steps_quiet (hw := hw) (t0 := t0) hs hok (S := S) g m 0 buf 0
      (fun j hj => by rw [Nat.zero_add]; exact hT j (by omega))
      (fun j hj => by rw [Nat.zero_add]; exact hS (j + 1) (by omega) (by omega))
      (fun j hj => by rw [Nat.zero_add]; exact hst.before j (by omega))
      (fun j hj => by rw [Nat.zero_add]; exact hN (j + 1) (by omega) (by omega)) hI (by omega)
    rw [Nat.zero_add] at e1 hI1
    refine ⟨buf1, e1, hI1, ?_⟩
    have h3 := h1 (fuel - m)
    rw [Nat.sub_add_cancel (by omega), Nat.zero_add, Nat.zero_add] at h3
    obtain ⟨r, hr⟩ : ∃ r, fuel - m = r + 1 := ⟨fuel - m - 1, by omega⟩
    rw [hr] at h3
    refine h3.does ?_
    rw [loop2, if_neg (by simp only [loopState]; rw [hlt]; simp)]
    exact Does.pure _

/-! ### the flush -/

/-- The buffer `B` holds the rows of the saves `saves`. -/
structure Buffered2 (a : Args2 α) (ns : ℕ) (f : H5 α β) (saves : List (NS (Cell α) × NS (Cell α))) (B : NS (Buf β)) :
    Prop where
  ok : BufOk f a.buffer_length B
  keys : B.keys = (zeroBuffer2 (α := α) a.buffer_length ns ns a.properties : NS (Buf β)).keys
  rows : ∀ k b0, (zeroBuffer2 (α := α) a.buffer_length ns ns a.properties : NS (Buf β)).get? k = some b0 →
    ∃ b, B.get? k = some b ∧ b.shape = b0.shape ∧ b.rows.take saves.length = saves.map fun v => stored b0.shape v.1 k

theorem buffered2_quiet {a : Args2 α} {ns : ℕ} {f : H5 α β} {saves : List (NS (Cell α) × NS (Cell α))} {B : NS (Buf β)}
    (hI : Inv a.toArgs a.properties a.grid_pts ns f (zeroBuffer2 (α := α) a.buffer_length ns ns a.properties) 0)
    (e : afterSaves a.buffer_length f (zeroBuffer2 (α := α) a.buffer_length ns ns a.properties) 0 saves
      = (f, B, saves.length)) : Buffered2 a ns f saves B := by
  have hok := afterSaves_bufOk (i := 0) saves f hI.ok
  have hk := afterSaves_keys (L := a.buffer_length) saves f
    (zeroBuffer2 (α := α) a.buffer_length ns ns a.properties : NS (Buf β)) 0
  rw [e] at hok hk
  refine ⟨hok, hk, fun k b0 hb => ?_⟩
  obtain ⟨b, h1, h2⟩ := afterSaves_get? (L := a.buffer_length) saves f _ 0 hb
  have hlog := logical_afterSaves saves f hI.lt hI.ok hb
  rw [e] at h1 hlog
  simp only at h1 hlog
  refine ⟨b, h1, h2, ?_⟩
  unfold logical at hlog
  rw [h1, hb] at hlog
  simpa using hlog

theorem buffered2_save {a : Args2 α} {ns : ℕ} {f : H5 α β} {saves : List (NS (Cell α) × NS (Cell α))} {B : NS (Buf β)}
    (h : Buffered2 a ns f saves B) (hlt : saves.length < a.buffer_length) (v : NS (Cell α) × NS (Cell α)) :
    Buffered2 a ns f (saves ++ [v]) (filled saves.length v.1 B) := by
  refine ⟨bufOk_filled h.ok _, by rw [keys_filled, h.keys], fun k b0 hb => ?_⟩
  obtain ⟨b, h1, h2, h3⟩ := h.rows k b0 hb
  have hl := h.ok.len _ (mem_of_get? h1)
  simp only at hl
  refine ⟨{ b with rows := b.rows.set saves.length (stored b.shape v.1 k) }, by rw [get?_filled, h1]; rfl, h2, ?_⟩
  simp only
  rw [List.length_append, List.length_singleton, take_set_succ _ _ (by omega), h3, h2]
  simp

theorem get?_append_left {V : Type} {l l' : NS V} {k : String} (h : k ∈ NS.keys l) :
    NS.get? (l ++ l') k = NS.get? l k := by
  unfold NS.get?
  rw [List.find?_append]
  obtain ⟨p, hp, e⟩ := List.mem_map.mp h
  have : (l.find? fun q => q.1 = k).isSome := by
    rw [List.find?_isSome]
    exact ⟨p, hp, by simpa using e⟩
  obtain ⟨q, hq⟩ := Option.isSome_iff_exists.mp this
  rw [hq]
  rfl

/-- emptying a buffer into a file that lacks the dataset of `bad` -/
theorem raises_flush {E : Env2 α β} {a : Args2 α} {ns : ℕ} (hs : SavesAs E.toEnv a.downsample_factor a.grid_pts ns)
    {f : H5 α β} {pre post : List String} {bad : String}
    (hprops : a.properties = pre ++ bad :: post) (hn : a.properties.Nodup)
    (hbad : f.dsets ("fullres_" ++ bad) = none)
    {saves : List (NS (Cell α) × NS (Cell α))} {fr : List (α × NS (Cell α))}
    (hfr : List.Forall₂ (fun fr v => IsSave2 E a fr.1 fr.2 v ∧ Shaped a.grid_pts fr.2) fr saves)
    {B : NS (Buf β)} (hB : Buffered2 a ns (completed f (bad :: post)) saves B) (h1 : 1 ≤ saves.length)
    (h2 : saves.length ≤ a.buffer_length) :
    ∃ g, Raises a.output_path (append_h5 a.output_path B saves.length) f (.keyError ("fullres_" ++ bad)) g ∧
      Extended2 E a ns pre fr f g := by
  have hkeys := hB.keys
  rw [zeroBuffer2_keys _ _ hn, hprops, List.map_append, List.map_cons, ← List.append_assoc] at hkeys
  obtain ⟨B1, B', rfl, k1, k2⟩ := List.map_eq_append_iff.mp hkeys
  obtain ⟨⟨kb, bb⟩, B2, rfl, k3, k4⟩ := List.map_eq_cons_iff.mp k2
  simp only at k3
  subst k3
  have hnd := hB.ok.nodup
  rw [hprops] at hn
  have hcomp : ∀ k ∈ NS.keys B1, (completed f (bad :: post)).dsets k = f.dsets k := by
    intro k hk
    refine completed_other fun name hname e => ?_
    have hk : k ∈ B1.map Prod.fst := hk
    rw [k1, e, List.mem_append] at hk
    rcases hk with hk | hk
    · refine fullres_not_mem (name := name) ?_
      simpa [or_comm, or_left_comm, or_assoc] using hk
    · obtain ⟨name', h', e'⟩ := List.mem_map.mp hk
      have := fullres_inj e'
      subst this
      exact (List.nodup_append.mp hn).2.2 _ h' _ hname rfl
  have hok1 : BufOk f a.buffer_length B1 := by
    refine ⟨?_, fun p hp => hB.ok.len p (List.mem_append_left _ hp), fun p hp => hB.ok.ok p (List.mem_append_left _ hp), ?_⟩
    · unfold NS.keys at hnd ⊢
      rw [List.map_append] at hnd
      exact (List.nodup_append.mp hnd).1
    · intro p hp
      obtain ⟨r, hr⟩ := hB.ok.dset p (List.mem_append_left _ hp)
      rw [hcomp p.1 (List.mem_map.mpr ⟨p, hp, rfl⟩)] at hr
      exact ⟨r, hr⟩
  have hmem : ∀ k, k ∈ NS.keys B1 ↔ k ∈ "time" :: fieldList ∨ ∃ name ∈ pre, k = "fullres_" ++ name := by
    intro k
    have : NS.keys B1 = (fieldList ++ ["time"]) ++ pre.map ("fullres_" ++ ·) := k1
    rw [this, List.mem_append, List.mem_map]
    constructor
    · rintro (h | ⟨n, hn, e⟩)
      · left; simpa [or_comm, or_left_comm, or_assoc] using h
      · exact .inr ⟨n, hn, e.symm⟩
    · rintro (h | ⟨n, hn, e⟩)
      · left; simpa [or_comm, or_left_comm, or_assoc] using h
      · exact .inr ⟨n, hn, e.symm⟩
  have hnb : "fullres_" ++ bad ∉ NS.keys B1 := by
    unfold NS.keys at hnd ⊢
    rw [List.map_append, List.map_cons] at hnd
    exact fun h => (List.nodup_append.mp hnd).2.2 _ h _ (by simp) rfl
  refine ⟨appendedRows f B1 saves.length, raises_append_h5 h1 h2 hok1 hbad hnb, ?_⟩
  have hrow : ∀ {k : String} {b0 : Buf β}, k ∈ NS.keys B1 →
      (zeroBuffer2 (α := α) a.buffer_length ns ns a.properties : NS (Buf β)).get? k = some b0 →
      (appendedRows f B1 saves.length).dsets k
        = some (.rows b0.shape (f.rowsOf k ++ saves.map fun v => stored b0.shape v.1 k)) := by
    intro k b0 hk hb0
    obtain ⟨b, g1, g2, g3⟩ := hB.rows k b0 hb0
    rw [get?_append_left hk] at g1
    unfold appendedRows
    simp only [g1, g2, g3]
  refine ⟨rfl, ?_, ?_, ?_⟩
  · intro k hk
    obtain ⟨b, hb, hsh⟩ := zeroBuffer_get (α := α) (β := β) a.buffer_length ns hk
    have hb2 : (zeroBuffer2 (α := α) a.buffer_length ns ns a.properties : NS (Buf β)).get? k = some b := by
      rw [zeroBuffer2_get?, if_neg, hb]
      intro h
      obtain ⟨name, -, e⟩ := List.mem_map.mp h
      exact fullres_ne hk e
    refine ⟨_, by rw [hrow ((hmem k).mpr (.inl hk)) hb2, hsh], ?_⟩
    rw [List.forall₂_map_right_iff]
    refine hfr.imp fun fr v hv => ?_
    rw [← hsh]
    refine hv.1.toIsSave.row hs hv.2 ?_
    rw [hsh]
    unfold rowShape
    rcases List.mem_cons.mp hk with rfl | hk
    · left; simp
    · right; exact ⟨hk, if_neg (fieldList_ne_time hk)⟩
  · intro name hname
    have hin : name ∈ a.properties := by rw [hprops]; exact List.mem_append_left _ hname
    have hb2 : (zeroBuffer2 (α := α) a.buffer_length ns ns a.properties : NS (Buf β)).get? ("fullres_" ++ name)
        = some ⟨.one, List.replicate a.buffer_length (RowShape.one.zero (Casts.f32 (0 : α)))⟩ := by
      rw [zeroBuffer2_get?, if_pos (List.mem_map.mpr ⟨name, hin, rfl⟩)]
    refine ⟨_, hrow ((hmem _).mpr (.inr ⟨name, hname, rfl⟩)) hb2, ?_⟩
    rw [List.forall₂_map_right_iff]
    refine hfr.imp fun fr v hv => ?_
    obtain ⟨x, h1, h2⟩ := hv.1.props name hin
    exact ⟨x, h2, stored_eq h1 rfl⟩
  · intro k hk hk'
    unfold appendedRows
    have : k ∉ NS.keys B1 := by
      rw [hmem]
      rintro (h | ⟨name, hname, e⟩)
      · exact hk h
      · exact hk' name hname e
    simp only [get?_eq_none_of_not_mem this]

/-! ### the run -/

/-- a step that fills the buffer -/
theorem exists_full {P : ℕ → Bool} (L m : ℕ) (h : L + 1 ≤ ((List.range' 1 m).filter P).length) :
    ∃ n < m, ((List.range' 1 n).filter P).length = L ∧ P (n + 1) = true := by
  induction m with
  | zero => simp at h
  | succ m ih =>
    by_cases h' : L + 1 ≤ ((List.range' 1 m).filter P).length
    · obtain ⟨n, h1, h2⟩ := ih h'
      exact ⟨n, by omega, h2⟩
    · rw [List.range'_1_concat, List.filter_append, List.length_append] at h
      have hp : P (1 + m) = true := by
        by_contra hp
        simp [hp] at h
        omega
      simp [hp] at h
      exact ⟨m, by omega, by omega, by rw [Nat.add_comm]; exact hp⟩

theorem stepFrames2_prefix (E : Env2 α β) (a : Args2 α) (t0 : α) (S : ℕ → NS (Cell α)) {n m : ℕ} (h : n ≤ m) :
    stepFrames2 E a t0 S n = (stepFrames2 E a t0 S m).take (stepFrames2 E a t0 S n).length := by
  obtain ⟨r, rfl⟩ := Nat.exists_eq_add_of_le h
  unfold stepFrames2
  rw [← List.range'_append_1, List.filter_append, List.map_append, List.take_left]

theorem continue2_missing {E : Env2 α β} {a : Args2 α} {σ : St α β} {f : H5 α β} {hw : Solver α} {ns m fuel : ℕ}
    {S : ℕ → NS (Cell α)} {d o p : Arr α} {t0 : α} {params : NS (Attr α)}
    (h : ContinuedCall2 E a σ f hw ns d o p t0 params m S) (hfuel : m < fuel) {pre post : List String} {bad : String}
    (hprops : a.properties = pre ++ bad :: post)
    (hpre : ∀ name ∈ pre, ∃ r, f.dsets ("fullres_" ++ name) = some (.rows .one r))
    (hbad : f.dsets ("fullres_" ++ bad) = none) (hne : stepFrames2 E a t0 S m ≠ [])
    (hfl : a.buffer_length ≤ (stepFrames2 E a t0 S m).length ∨ flushes2 a (timeAt E a t0 m) = true) :
    ∃ g σ', run2 E a fuel σ = (.error (.keyError ("fullres_" ++ bad)), σ') ∧
      σ'.fs = upd σ.fs a.output_path (some g) ∧
      Extended2 E a ns pre ((stepFrames2 E a t0 S m).take a.buffer_length) f g := by
  obtain ⟨σ1, e1, e2⟩ := setup2_continue h
  obtain ⟨phi, dxa, hdx, hphi, hS0⟩ := h.start
  have hnd := h.nodup
  rw [hprops] at hnd
  have hI : Inv a.toArgs a.properties a.grid_pts ns (completed f (bad :: post))
      (zeroBuffer2 (α := α) a.buffer_length ns ns a.properties) 0 := by
    refine inv2_of h.buffer ⟨fun k hk => ?_, fun hst k hk => ?_⟩ fun name hname => ?_
    · rw [completed_other fun name _ => (fullres_ne hk).symm]
      exact h.output.rows k hk
    · rw [completed_other fun name _ e => fullres_ne_state e.symm]
      exact h.output.states hst k hk
    · rw [hprops, List.mem_append] at hname
      rcases hname with hname | hname
      · rw [completed_other fun name' h' e => ?_]
        · exact hpre name hname
        · have := fullres_inj e
          subst this
          exact (List.nodup_append.mp hnd).2.2 _ hname _ h' rfl
      · exact ⟨[], completed_rows hname⟩
  -- reduction to the simulation
  suffices hsim : ∃ g, Raises a.output_path (simulate2 E a
      ⟨[("density", .arr d), ("omega", .arr o), ("phi", .arr p), ("age", .num t0)],
        zeroBuffer2 (α := α) a.buffer_length ns ns a.properties, 0⟩ params t0 fuel) f (.keyError ("fullres_" ++ bad)) g ∧
      Extended2 E a ns pre ((stepFrames2 E a t0 S m).take a.buffer_length) f g by
    obtain ⟨g, hr, hx⟩ := hsim
    obtain ⟨σ2, r1, r2⟩ := hr σ1 (by rw [e2, h.file])
    refine ⟨g, σ2, ?_, by rw [r2, e2], hx⟩
    obtain ⟨q, z, hq, hz⟩ := h.early
    have hl : ∀ {X : Type} (x : X), (IOM.lift (.ok x) : IOM α β X) σ = (.ok x, σ) := fun _ => rfl
    unfold run2
    rw [hq, IOM.bind_ok (hl q), hz, IOM.bind_ok (hl z), if_neg (by have := h.snaps; omega), if_neg h.path, IOM.bind_ok e1]
    simp only
    rw [IOM.bind_error r1]
  have hfrm : ∀ n, n ≤ m → List.Forall₂ (fun fr v => IsSave2 E a fr.1 fr.2 v ∧ Shaped a.grid_pts fr.2)
      (stepFrames2 E a t0 S n) (loopSaves2 E a t0 S 0 n) := fun n hn =>
    loopSaves2_ok (t0 := t0) h.saves h.props fun j h1 h2 => h.shaped j h1 (by omega)
  have hred : ∀ {e g}, Raises a.output_path (do
      match ← loop2 E hw a t0 fuel (loopState E a t0 S 0
        (zeroBuffer2 (α := α) a.buffer_length ns ns a.properties) 0) with
      | none => return none
      | some s => do
        if FloatOps.lt a.recording_start_time s.current_time && decide (0 < s.buffer_index) then
          append_h5 a.output_path s.buffer s.buffer_index
        return some () : IOM α β (Option Unit)) f e g →
      Raises a.output_path (simulate2 E a
      ⟨[("density", .arr d), ("omega", .arr o), ("phi", .arr p), ("age", .num t0)],
        zeroBuffer2 (α := α) a.buffer_length ns ns a.properties, 0⟩ params t0 fuel) f e g := by
    intro e g hr
    unfold simulate2
    refine (Does.lift h.solver).raises ?_
    have g2 : NS.getItem [("density", Cell.arr d), ("omega", .arr o), ("phi", .arr p), ("age", .num t0)] "omega"
      = .ok (.arr o) := rfl
    refine (Does.lift g2).raises ?_
    refine (Does.lift (NS.getItem_of_get? hdx)).raises ?_
    refine (Does.lift hphi).raises ?_
    have h0 : (⟨⟨NS.set [("density", Cell.arr d), ("omega", .arr o), ("phi", .arr p), ("age", .num t0)] "phi" phi,
        zeroBuffer2 (α := α) a.buffer_length ns ns a.properties, 0⟩, 0, [], t0⟩ : LoopState α β)
        = loopState E a t0 S 0 (zeroBuffer2 (α := α) a.buffer_length ns ns a.properties) 0 := by
      unfold loopState
      rw [hS0]
      simp only [usedAt, timeAt, List.replicate_zero, ite_self, if_true]
      rfl
    simp only [h0]
    exact hr
  have hlen : ∀ n, (stepFrames2 E a t0 S n).length = (loopSaves2 E a t0 S 0 n).length := by
    intro n
    unfold stepFrames2 loopSaves2
    simp
  by_cases hfull : a.buffer_length ≤ (stepFrames2 E a t0 S m).length
  · -- the buffer becomes full
    obtain ⟨n, hnm, hn1, hn2⟩ := exists_full (P := isRecorded2 E a t0) (a.buffer_length - 1) m (by
      have := h.buffer
      rw [show stepFrames2 E a t0 S m = _ from rfl] at hfull
      unfold stepFrames2 at hfull
      rw [List.length_map] at hfull
      omega)
    have hq : (loopSaves2 E a t0 S 0 n).length = a.buffer_length - 1 := by
      unfold loopSaves2
      rw [List.length_map, Nat.zero_add]
      exact hn1
    have hb := h.buffer
    obtain ⟨buf, b1, b2, b3⟩ := steps_quiet (hw := hw) (t0 := t0) h.saves h.props (S := S) f n 0
      (zeroBuffer2 (α := α) a.buffer_length ns ns a.properties) 0
      (fun j hj => by rw [Nat.zero_add]; exact h.traj j (by omega))
      (fun j hj => by rw [Nat.zero_add]; exact h.shaped (j + 1) (by omega) (by omega))
      (fun j hj => by rw [Nat.zero_add]; exact h.stops.before j (by omega))
      (fun j hj => by rw [Nat.zero_add]; exact h.stops.noNaN (j + 1) (by omega) (by omega)) hI (by omega)
    rw [Nat.zero_add] at b1 b2
    have hS1 := h.shaped (n + 1) (by omega) (by omega)
    obtain ⟨nv, hpl, hsv, hIs⟩ := theSave2_ok h.saves h.props hS1 (timeAt E a t0 (n + 1))
    have hh := buffered2_save (buffered2_quiet hI b1) (by omega) (theSave2 E a (timeAt E a t0 (n + 1)) (S (n + 1)))
    have hsv1 : loopSaves2 E a t0 S 0 n ++ [theSave2 E a (timeAt E a t0 (n + 1)) (S (n + 1))]
        = loopSaves2 E a t0 S 0 (n + 1) := by
      unfold loopSaves2
      rw [Nat.zero_add, List.range'_1_concat, List.filter_append, List.map_append]
      simp [Nat.add_comm 1 n, hn2]
    rw [hsv1] at hh
    have hl1 : (loopSaves2 E a t0 S 0 (n + 1)).length = a.buffer_length := by
      rw [← hsv1, List.length_append, List.length_singleton]
      omega
    obtain ⟨g, hr, hx⟩ := raises_flush h.saves hprops h.nodup hbad (hfrm (n + 1) (by omega)) hh (by omega) (by omega)
    refine ⟨g, hred (Raises.bind ?_), ?_⟩
    · have b4 := b3 (fuel - n)
      rw [Nat.sub_add_cancel (by omega), Nat.zero_add, Nat.zero_add] at b4
      refine b4.raises ?_
      obtain ⟨r, hr'⟩ : ∃ r, fuel - n = r + 1 := ⟨fuel - n - 1, by omega⟩
      rw [hr']
      intro σ' hσ'
      have hrec : Raises a.output_path (record2 E a (loopState E a t0 S (n + 1) buf (loopSaves2 E a t0 S 0 n).length)) f
          (.keyError ("fullres_" ++ bad)) g := by
        unfold record2
        unfold isRecorded2 at hn2
        simp only [loopState, hn2, if_true]
        refine (Does.lift hpl).raises ?_
        refine (Does.lift hsv).raises ?_
        refine Raises.bind ?_
        unfold save_to_buffered_h5
        refine (Does.lift (fillBuffer_eq b2.lt _ buf b2.ok.len (hIs.fits h.saves hS1 b2.buf))).raises ?_
        simp only [if_pos (show (loopSaves2 E a t0 S 0 n).length + 1 = a.buffer_length by omega)]
        refine Raises.bind ?_
        rw [show (loopSaves2 E a t0 S 0 n).length + 1 = (loopSaves2 E a t0 S 0 (n + 1)).length by omega]
        exact hr
      obtain ⟨σ'', r1, r2⟩ := hrec σ' hσ'
      exact ⟨σ'', loop2_record_error (h.traj n (by omega)) (h.stops.before n (by omega)) r1 r, r2⟩
    · have := stepFrames2_prefix E a t0 S (n := n + 1) (m := m) (by omega)
      rw [hlen, hl1] at this
      rw [← this]
      exact hx
  · -- the buffer is emptied at the end
    have hfl := hfl.resolve_left hfull
    rw [List.take_of_length_le (by omega)]
    obtain ⟨buf, b1, b2, b3⟩ := does_loop2_quiet (t0 := t0) h.saves h.props hfuel h.traj h.shaped h.stops hI
      (by rw [← hlen]; omega) f
    have hpos : 0 < (loopSaves2 E a t0 S 0 m).length := by
      rw [← hlen]
      exact List.length_pos_iff.mpr hne
    obtain ⟨g, hr, hx⟩ := raises_flush h.saves hprops h.nodup hbad (hfrm m le_rfl) (buffered2_quiet hI b1) hpos
      b2.lt.le
    refine ⟨g, hred (b3.raises ?_), hx⟩
    simp only
    have hct : (loopState E a t0 S m buf (loopSaves2 E a t0 S 0 m).length : LoopState α β).current_time
        = timeAt E a t0 m := rfl
    have hbi : (loopState E a t0 S m buf (loopSaves2 E a t0 S 0 m).length : LoopState α β).buffer_index
        = (loopSaves2 E a t0 S 0 m).length := rfl
    unfold flushes2 at hfl
    rw [hct, hbi, hfl]
    simp only [hpos, decide_true, Bool.and_self, if_true]
    exact Raises.bind hr

end Verif
