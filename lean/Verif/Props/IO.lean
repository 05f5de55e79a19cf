import Verif.Lemmas.Crash
import Mathlib.Data.Rat.Floor

/-!
# C39–C42: buffered saving and appending
-/

set_option linter.unusedSectionVars false

namespace Verif.Props

open H5IO H5

variable {α β : Type} [Casts α β] [Zero α] [Inhabited α] [Inhabited β]

/-- the row that `new_val` must produce for field `k`: its value, converted to
`float32` and broadcast to the row shape -/
def IsRowOf (shape : RowShape) (k : String) (new_val : NS (Cell α)) (row : Cell β) : Prop :=
  ∃ v, new_val.get? k = some v ∧ shape.assign (Casts.f32 : α → β) v = some row

theorem isRowOf_stored {buf : NS (Buf β)} {new_val : NS (Cell α)} (hf : Fits buf new_val) {k : String} {b : Buf β}
    (hk : buf.get? k = some b) : IsRowOf b.shape k new_val (stored b.shape new_val k : Cell β) := by
  obtain ⟨v, c, h1, h2⟩ := hf _ (mem_of_get? hk)
  exact ⟨v, h1, by rw [stored_eq h1 h2]; exact h2⟩

theorem forall₂_map {A B : Type} {R : A → B → Prop} (F : A → B) (l : List A) (h : ∀ a ∈ l, R a (F a)) :
    List.Forall₂ R l (l.map F) := by
  induction l with
  | nil => exact .nil
  | cons a l ih => exact .cons (h a (by simp)) (ih fun a ha => h a (by simp [ha]))

/-- **C39.** Any sequence of saves, starting with any file, any buffer contents
and any buffer index: no row of any buffered field is lost, duplicated or
reordered.  `rows` are the rows of the saves in order.  Afterwards the file
rows followed by the waiting buffer rows are the old ones followed by `rows`;
the final `append_h5` moves the waiting rows to the file.  All other datasets
(except the `state_*` entries of the saves), the attributes and all other
files are unchanged. -/
theorem C39_nothing_lost (path : String) (L i : ℕ) (hi : i < L) (buf : NS (Buf β)) (σ : St α β) (f : H5 α β)
    (hσ : σ.fs path = some f) (hb : BufOk f L buf) (saves : List (NS (Cell α) × NS (Cell α)))
    (hf : ∀ v ∈ saves, Fits buf v.1 ∧ StatesFit f v.2) :
    ∃ buf' i' σ' f', saveAll path L buf i saves σ = (.ok (buf', i'), σ') ∧ σ'.fs path = some f' ∧
      (∀ q, q ≠ path → σ'.fs q = σ.fs q) ∧ f'.attrs = f.attrs ∧
      (∀ k, k ∉ buf.keys → (∀ v ∈ saves, v.2.get? k = none) → f'.dsets k = f.dsets k) ∧
      (∀ k b, buf.get? k = some b → ∃ rows r' b',
        List.Forall₂ (fun v row => IsRowOf b.shape k v.1 row) saves rows ∧
        f'.dsets k = some (.rows b.shape r') ∧ buf'.get? k = some b' ∧
        r' ++ b'.rows.take i' = f.rowsOf k ++ b.rows.take i ++ rows) ∧
      (0 < i' → ∃ σ'' f'', append_h5 path buf' i' σ' = (.ok (), σ'') ∧ σ''.fs path = some f'' ∧
        (∀ k, k ∉ buf.keys → f''.dsets k = f'.dsets k) ∧ f''.attrs = f.attrs ∧
        ∀ k b, buf.get? k = some b → ∃ rows,
          List.Forall₂ (fun v row => IsRowOf b.shape k v.1 row) saves rows ∧
          f''.dsets k = some (.rows b.shape (f.rowsOf k ++ b.rows.take i ++ rows))) := by
  obtain ⟨σ', e1, e2⟩ := does_saveAll (path := path) saves f hi hb hf σ hσ
  have hlt : (afterSaves L f buf i saves).2.2 < L := by
    rw [afterSaves_index saves f buf hi]; exact Nat.mod_lt _ (by omega)
  have hb' := afterSaves_bufOk (i := i) saves f hb
  have hkeys : ∀ k, k ∉ buf.keys → (afterSaves L f buf i saves).2.1.get? k = none := by
    intro k hk
    have : ∀ (saves : List (NS (Cell α) × NS (Cell α))) (f : H5 α β) (buf : NS (Buf β)) (i : ℕ), k ∉ buf.keys →
        (afterSaves L f buf i saves).2.1.get? k = none := by
      intro saves
      induction saves with
      | nil => intro f buf i hk; exact get?_eq_none_of_not_mem hk
      | cons v rest ih => intro f buf i hk; exact ih _ _ _ (by rw [keys_filled]; exact hk)
    exact this saves f buf i hk
  generalize hA : afterSaves L f buf i saves = A at *
  obtain ⟨f', buf', i'⟩ := A
  simp only at e1 e2 hlt hb' hkeys
  have hlog := fun k b hk => logical_afterSaves saves f hi hb (k := k) (b := b) hk
  have hget := fun k b hk => afterSaves_get? (L := L) saves f buf i (k := k) (b := b) hk
  rw [hA] at hlog hget
  simp only at hlog hget
  have hp : σ'.fs path = some f' := by rw [e2, upd_same]
  refine ⟨buf', i', σ', f', e1, hp, fun q hq => by rw [e2, upd_ne _ _ hq], ?_, ?_, ?_, ?_⟩
  · have := afterSaves_attrs (L := L) saves f buf i; rw [hA] at this; exact this
  · intro k hk hl
    have := afterSaves_other (L := L) saves f buf i hk hl
    rw [hA] at this; exact this
  · intro k b hk
    obtain ⟨b', h1, h2⟩ := hget k b hk
    refine ⟨saves.map fun v => stored b.shape v.1 k, f'.rowsOf k, b',
      forall₂_map _ _ fun v hv => isRowOf_stored (hf v hv).1 hk, ?_, h1, ?_⟩
    · rw [← h2]; exact hb'.rows_eq h1
    · have := hlog k b hk
      unfold logical at this
      rw [h1, hk] at this
      exact this
  · intro h0
    obtain ⟨σ'', g1, g2⟩ := does_append_h5 (path := path) (n := i') h0 hlt.le buf' hb' σ' hp
    refine ⟨σ'', appendedRows f' buf' i', g1, by rw [g2, upd_same], ?_, ?_, ?_⟩
    · intro k hk
      unfold appendedRows
      simp only [hkeys k hk]
    · have := afterSaves_attrs (L := L) saves f buf i; rw [hA] at this; exact this
    · intro k b hk
      obtain ⟨b', h1, h2⟩ := hget k b hk
      refine ⟨saves.map fun v => stored b.shape v.1 k, forall₂_map _ _ fun v hv => isRowOf_stored (hf v hv).1 hk, ?_⟩
      have h3 := rowsOf_finalFile (i := i') hb' h1
      rw [hlog k b hk] at h3
      unfold finalFile logical at h3
      rw [if_pos h0, hk] at h3
      rw [h3, h2]
      rfl

/-! A concrete case: fields `density` (2×3) and `time`, buffer of length 2 that
already holds one row, three saves (so one flush happens in between), storage
rounding to two decimals. -/

/-- storage that rounds down to two decimals -/
instance demoCasts : Casts ℚ ℚ := ⟨fun x => (⌊100 * x⌋ : ℚ) / 100, id⟩

/-- a frame -/
def demoFrame (t : ℚ) : Arr ℚ := Arr.tab 2 3 fun i j => i + 10 * j + t

/-- file with one old row in each dataset and a `state_density` -/
def demoFile : H5 ℚ ℚ where
  dsets k :=
    if k = "density" then some (.rows (.grid 2 3) [.arr (demoFrame 7)])
    else if k = "time" then some (.rows .one [.num 7])
    else if k = "state_density" then some (.full (Arr.tab 2 3 fun _ _ => 0))
    else none
  attrs k := if k = "dx" then some (.num 1) else none

/-- buffer of length 2 -/
def demoBuf : NS (Buf ℚ) :=
  [("density", ⟨.grid 2 3, [.arr (demoFrame 8), .arr (demoFrame 0)]⟩), ("time", ⟨.one, [.num 8, .num 0]⟩)]

theorem demoBuf_ok : BufOk demoFile 2 demoBuf := by
  refine ⟨by simp [NS.keys, demoBuf], ?_, ?_, ?_⟩
  · intro p hp; simp [demoBuf] at hp; rcases hp with rfl | rfl <;> rfl
  · intro p hp c hc
    simp [demoBuf] at hp
    rcases hp with rfl | rfl <;> simp at hc <;> rcases hc with rfl | rfl <;> simp [RowShape.Ok, demoFrame]
  · intro p hp; simp [demoBuf] at hp
    rcases hp with rfl | rfl
    · exact ⟨_, rfl⟩
    · exact ⟨_, rfl⟩

/-- three saves -/
def demoSaves : List (NS (Cell ℚ) × NS (Cell ℚ)) :=
  [9, 10, 11].map fun t =>
    ([("density", .arr (demoFrame t)), ("time", .num t)], [("state_density", .arr (demoFrame t))])

theorem demoSaves_ok : ∀ v ∈ demoSaves, Fits demoBuf v.1 ∧ StatesFit demoFile v.2 := by
  intro v hv
  unfold demoSaves at hv
  rw [List.mem_map] at hv
  obtain ⟨t, -, rfl⟩ := hv
  refine ⟨?_, by simp [NS.keys], ?_⟩
  · intro p hp; simp [demoBuf] at hp
    rcases hp with rfl | rfl
    · exact ⟨_, _, rfl, RowShape.assign_grid _ (demoFrame t)⟩
    · exact ⟨_, _, rfl, rfl⟩
  · intro p hp; simp at hp; subst hp
    exact ⟨_, _, rfl, RowShape.assign_grid _ (demoFrame t)⟩

example := C39_nothing_lost "out.h5" 2 1 (by decide) demoBuf ⟨fun _ => some demoFile, []⟩ demoFile rfl demoBuf_ok
  demoSaves demoSaves_ok

/-- **C40.** The buffer index is the number of saves modulo `buffer_length`, in
particular smaller than `buffer_length`. -/
theorem C40_index (path : String) (L i : ℕ) (hi : i < L) (buf : NS (Buf β)) (σ : St α β) (f : H5 α β)
    (hσ : σ.fs path = some f) (hb : BufOk f L buf) (saves : List (NS (Cell α) × NS (Cell α)))
    (hf : ∀ v ∈ saves, Fits buf v.1 ∧ StatesFit f v.2) :
    ∃ buf' i' σ', saveAll path L buf i saves σ = (.ok (buf', i'), σ') ∧ i' = (i + saves.length) % L ∧ i' < L := by
  obtain ⟨σ', e1, -⟩ := does_saveAll (path := path) saves f hi hb hf σ hσ
  refine ⟨_, _, σ', e1, afterSaves_index saves f buf hi, ?_⟩
  rw [afterSaves_index saves f buf hi]; exact Nat.mod_lt _ (by omega)

example := C40_index "out.h5" 2 1 (by decide) demoBuf ⟨fun _ => some demoFile, []⟩ demoFile rfl demoBuf_ok
  demoSaves demoSaves_ok

/-- **C40 (`buffer_length = 0`).** With buffers of length 0 the first save that
has a value for some buffered field raises; nothing is written. -/
theorem C40_zero_length (path : String) (L : ℕ) (buf : NS (Buf β)) (hb : ∀ p ∈ buf, p.2.rows = [])
    (new_val last : NS (Cell α)) (i : ℕ) (hv : ∃ p ∈ buf, (new_val.get? p.1).isSome) (σ : St α β) :
    save_to_buffered_h5 buf L i new_val path last σ = (.error .indexError, σ) := by
  have : fillBuffer i new_val buf = .error .indexError := by
    induction buf with
    | nil => obtain ⟨p, hp, -⟩ := hv; cases hp
    | cons p rest ih =>
      obtain ⟨k, b⟩ := p
      have hb0 : b.rows = [] := hb (k, b) (by simp)
      unfold fillBuffer fillRow
      cases hk : new_val.get? k with
      | some v => simp only [hb0, List.length_nil, Nat.not_lt_zero, if_false]; rfl
      | none =>
        have : ∃ p ∈ rest, (new_val.get? p.1).isSome := by
          obtain ⟨p, hp, h⟩ := hv
          rcases List.mem_cons.mp hp with rfl | hp
          · rw [hk] at h; cases h
          · exact ⟨p, hp, h⟩
        rw [ih (fun p hp => hb p (by simp [hp])) this]
        rfl
  unfold save_to_buffered_h5
  rw [this]
  rfl

example := C40_zero_length "out.h5" 0 [("time", (⟨.one, []⟩ : Buf ℚ))] (by simp) [("time", Cell.num (1 : ℚ))] [] 0
  ⟨_, List.mem_singleton.mpr rfl, rfl⟩ ⟨fun _ => some demoFile, []⟩

/-! ## C41 -/

/-- **C41 (partial).** A field that is missing in `new_val` does not disturb the
other fields: their row is the new value.  Missing: the row of the absent field
itself, see `C41_stale_row_violated`. -/
theorem C41_other_fields_partial (i : ℕ) (new_val : NS (Cell α)) (buf buf' : NS (Buf β))
    (h : fillBuffer i new_val buf = .ok buf') (k : String) (b : Buf β) (hk : buf.get? k = some b) (v : Cell α)
    (hv : new_val.get? k = some v) :
    ∃ b' row, buf'.get? k = some b' ∧ IsRowOf b.shape k new_val row ∧ b'.rows = b.rows.set i row ∧
      i < b.rows.length := by
  induction buf generalizing buf' with
  | nil => cases hk
  | cons p rest ih =>
    obtain ⟨k0, b0⟩ := p
    unfold fillBuffer at h
    rw [NS.get?_cons] at hk
    cases h1 : fillRow i new_val k0 b0 with
    | error e => rw [h1] at h; cases h
    | ok b0' =>
      rw [h1, Py.ok_bind] at h
      cases hr : fillBuffer i new_val rest with
      | error e => rw [hr] at h; cases h
      | ok rest' =>
        rw [hr, Py.ok_bind, Py.pure_eq] at h
        injection h with h
        subst h
        by_cases hkk : k0 = k
        · subst hkk
          rw [if_pos rfl] at hk
          injection hk with hk
          simp only at hk
          subst hk
          unfold fillRow at h1
          rw [hv] at h1
          simp only at h1
          split at h1
          · next hlt =>
            cases ha : b0.shape.assign (Casts.f32 : α → β) v with
            | none => rw [ha] at h1; cases h1
            | some c =>
              rw [ha] at h1
              injection h1 with h1
              subst h1
              exact ⟨_, c, by rw [NS.get?_cons, if_pos rfl], ⟨v, hv, ha⟩, rfl, hlt⟩
          · cases h1
        · rw [if_neg hkk] at hk
          obtain ⟨b', row, g1, g2⟩ := ih rest' hr hk
          exact ⟨b', row, by rw [NS.get?_cons, if_neg hkk]; exact g1, g2⟩

example := C41_other_fields_partial 1 [("time", Cell.num (9 : ℚ))] demoBuf _ rfl "time" _ rfl (.num 9) rfl

/-- **C41 is violated**: when a save lacks a buffered field, the row written for
it is whatever the buffer still holds at that index.  With `buffer_length = 1`:
the second save has no `omega`; the file gets `omega` of the first save a second
time. -/
theorem C41_stale_row_violated (x y z : α) (path : String) (σ : St α β) (f : H5 α β) (hσ : σ.fs path = some f)
    (hd : f.dsets "density" = some (.rows .one [])) (ho : f.dsets "omega" = some (.rows .one [])) (c0 : Cell β)
    (hc0 : RowShape.one.Ok c0) :
    ∃ buf' σ' f', saveAll path 1 [("density", ⟨.one, [c0]⟩), ("omega", ⟨.one, [c0]⟩)] 0
        [([("density", .num x), ("omega", .num y)], []), ([("density", .num z)], [])] σ = (.ok (buf', 0), σ') ∧
      σ'.fs path = some f' ∧
      f'.dsets "density" = some (.rows .one [.num (Casts.f32 x), .num (Casts.f32 z)]) ∧
      f'.dsets "omega" = some (.rows .one [.num (Casts.f32 y), .num (Casts.f32 y)]) := by
  -- first save
  have hb1 : BufOk f 1 [("density", ⟨.one, [c0]⟩), ("omega", ⟨.one, [c0]⟩)] := by
    refine ⟨by simp [NS.keys], ?_, ?_, ?_⟩
    · intro p hp; simp at hp; rcases hp with rfl | rfl <;> rfl
    · intro p hp c hc; simp at hp; rcases hp with rfl | rfl <;> (simp at hc; subst hc; exact hc0)
    · intro p hp; simp at hp; rcases hp with rfl | rfl
      · exact ⟨_, hd⟩
      · exact ⟨_, ho⟩
  have hf1 : Fits (α := α) (β := β) [("density", ⟨.one, [c0]⟩), ("omega", ⟨.one, [c0]⟩)]
      [("density", .num x), ("omega", .num y)] := by
    intro p hp; simp at hp; rcases hp with rfl | rfl
    · exact ⟨_, _, rfl, rfl⟩
    · exact ⟨_, _, rfl, rfl⟩
  obtain ⟨σ1, e1, g1⟩ := does_save (path := path) (i := 0) (by decide) hb1 hf1 (last := []) ⟨by simp [NS.keys], by simp⟩ σ hσ
  -- second save
  set buf1 : NS (Buf β) := [("density", ⟨.one, [.num (Casts.f32 x)]⟩), ("omega", ⟨.one, [.num (Casts.f32 y)]⟩)]
    with hbuf1
  have hfill1 : filled 0 [("density", Cell.num x), ("omega", .num y)]
      [("density", (⟨.one, [c0]⟩ : Buf β)), ("omega", ⟨.one, [c0]⟩)] = buf1 := rfl
  rw [hfill1] at e1
  set f1 := savedFile f 1 0 [("density", (⟨.one, [c0]⟩ : Buf β)), ("omega", ⟨.one, [c0]⟩)]
    [("density", Cell.num x), ("omega", .num y)] [] with hf1
  set buf2 : NS (Buf β) := [("density", ⟨.one, [.num (Casts.f32 z)]⟩), ("omega", ⟨.one, [.num (Casts.f32 y)]⟩)]
    with hbuf2
  have hfill2 : fillBuffer 0 [("density", Cell.num z)] buf1 = .ok buf2 := rfl
  have hr1 : f1.dsets "density" = some (.rows .one [.num (Casts.f32 x)]) := by
    rw [hf1, rowsOf_savedFile (k := "density") hb1 rfl, if_pos rfl]
    simp only [H5.rowsOf, hd]; rfl
  have hr2 : f1.dsets "omega" = some (.rows .one [.num (Casts.f32 y)]) := by
    rw [hf1, rowsOf_savedFile (k := "omega") hb1 rfl, if_pos rfl]
    simp only [H5.rowsOf, ho]; rfl
  have hb2 : BufOk f1 1 buf2 := by
    refine ⟨by simp [hbuf2, NS.keys], ?_, ?_, ?_⟩
    · intro p hp; simp [hbuf2] at hp; rcases hp with rfl | rfl <;> rfl
    · intro p hp c hc; simp [hbuf2] at hp; rcases hp with rfl | rfl <;> (simp at hc; subst hc; trivial)
    · intro p hp; simp [hbuf2] at hp; rcases hp with rfl | rfl
      · exact ⟨_, hr1⟩
      · exact ⟨_, hr2⟩
  have hp1 : σ1.fs path = some f1 := by rw [g1, upd_same]
  obtain ⟨σ2, e2, g2⟩ := does_append_h5 (path := path) (n := 1) (by decide) (by decide) buf2 hb2 σ1 hp1
  refine ⟨buf2, σ2, appendedRows f1 buf2 1, ?_, by rw [g2, upd_same], ?_, ?_⟩
  · unfold saveAll
    rw [IOM.bind_ok e1]
    simp only [nextIndex, Nat.reduceAdd, if_true]
    unfold saveAll
    have : save_to_buffered_h5 buf1 1 0 [("density", Cell.num z)] path [] σ1 = (.ok (buf2, 0), σ2) := by
      unfold save_to_buffered_h5
      rw [hfill2]
      have e0 : (IOM.lift (.ok buf2) : IOM α β _) σ1 = (.ok buf2, σ1) := rfl
      rw [IOM.bind_ok e0]
      simp only [Nat.reduceAdd, if_true]
      rw [IOM.bind_ok e2]
      rfl
    rw [IOM.bind_ok this]
    rfl
  · unfold appendedRows
    simp only [H5.rowsOf, hr1]; rfl
  · unfold appendedRows
    simp only [H5.rowsOf, hr2]; rfl

example := C41_stale_row_violated (α := ℚ) (β := ℚ) 1 2 3 "out.h5" ⟨fun _ => some
  { dsets := fun _ => some (.rows .one []), attrs := fun _ => none }, []⟩ _ rfl rfl rfl (.num 0) trivial

/-! ## C42 -/

/-- **C42.** Whatever happens during `append_h5` — normal return, any exception,
or death of the process between two file operations — every file system `g`
that can be left behind has: all other files unchanged; all attributes and all
non-resizable datasets unchanged; every resizable dataset begins with its old
rows and has grown by 0 or `buffer_index` rows. -/
theorem C42_crash_safe (path : String) (buf : NS (Buf β)) (hn : buf.keys.Nodup) (n : ℕ) (fs : FS α β) (f : H5 α β)
    (hf : fs path = some f) (g : FS α β)
    (hg : g ∈ IOM.crashStates (append_h5 path buf n : IOM α β Unit) fs) :
    (∀ q, q ≠ path → g q = fs q) ∧ ∃ f', g path = some f' ∧ f'.attrs = f.attrs ∧
      (∀ k s r, f.dsets k = some (.rows s r) →
        ∃ e, f'.dsets k = some (.rows s (r ++ e)) ∧ (e.length = 0 ∨ e.length = n)) ∧
      (∀ k, (∀ s r, f.dsets k ≠ some (.rows s r)) → f'.dsets k = f.dsets k) := by
  have h := (tr_append_h5 (path := path) (fs := fs) (f0 := f) (n := n) buf hn).crashStates (grown_refl hf _) g hg
  obtain ⟨f', h1, h2, h3, h4⟩ := h.file
  refine ⟨h.other, f', h1, h2, ?_, h4⟩
  intro k s r hk
  obtain ⟨e, a, b, -⟩ := h3 k s r hk
  exact ⟨e, a, b⟩

/-- the crash states include half-done ones: after the first dataset has grown
and the second has not -/
example : (IOM.crashStates (append_h5 "out.h5" demoBuf 2 : IOM ℚ ℚ Unit) fun _ => some demoFile).length = 5 := rfl

example := C42_crash_safe "out.h5" demoBuf (by simp [NS.keys, demoBuf]) 2 (fun _ => some demoFile) demoFile rfl

end Verif.Props
