import Verif.Spec.IO
import Verif.Lemmas.Namespace

/-!
# Evaluation of `utils/io.py` on well-formed files
-/

set_option linter.unusedSectionVars false

namespace Verif

open H5IO H5

variable {α β X Y : Type}

/-- Started with file content `f` at `path`, `m` returns `x`, leaves content
`f'` at `path` and touches no other file. -/
def Does (path : String) (m : IOM α β X) (f : H5 α β) (x : X) (f' : H5 α β) : Prop :=
  ∀ σ : St α β, σ.fs path = some f → ∃ σ', m σ = (.ok x, σ') ∧ σ'.fs = upd σ.fs path (some f')

theorem upd_self {V : Type} (f : String → V) (k : String) : upd f k (f k) = f := by
  funext k'; unfold upd; split
  · next h => rw [h]
  · rfl
@[simp] theorem upd_same {V : Type} (f : String → V) (k : String) (v : V) : upd f k v k = v := by simp [upd]
theorem upd_ne {V : Type} (f : String → V) {k k' : String} (v : V) (h : k' ≠ k) : upd f k v k' = f k' := by
  simp [upd, h]
@[simp] theorem upd_upd {V : Type} (f : String → V) (k : String) (u v : V) : upd (upd f k u) k v = upd f k v := by
  funext k'; unfold upd; split <;> rfl

namespace Does

variable {path : String} {f f' f'' : H5 α β}

theorem pure (x : X) : Does path (Pure.pure x : IOM α β X) f x f := by
  intro σ h
  exact ⟨σ, rfl, by rw [← h, upd_self]⟩

theorem bind {m : IOM α β X} {k : X → IOM α β Y} {x : X} {y : Y} (h1 : Does path m f x f')
    (h2 : Does path (k x) f' y f'') : Does path (m >>= k) f y f'' := by
  intro σ h
  obtain ⟨σ1, e1, g1⟩ := h1 σ h
  obtain ⟨σ2, e2, g2⟩ := h2 σ1 (by rw [g1, upd_same])
  refine ⟨σ2, ?_, ?_⟩
  · rw [IOM.bind_ok e1, e2]
  · rw [g2, g1, upd_upd]

theorem lift {x : Py X} {a : X} (h : x = .ok a) : Does path (IOM.lift x : IOM α β X) f a f := by
  subst h; exact Does.pure a

theorem content : Does path (H5.content path : IOM α β _) f f f := by
  intro σ h
  refine ⟨σ, ?_, by rw [← h, upd_self]⟩
  unfold H5.content
  rw [h]

theorem openA : Does path (H5.openA path : IOM α β _) f () f := by
  intro σ h
  refine ⟨σ, ?_, by rw [← h, upd_self]⟩
  unfold H5.openA
  rw [h]

theorem openR : Does path (H5.openR path : IOM α β _) f () f := by
  intro σ h
  refine ⟨σ, ?_, by rw [← h, upd_self]⟩
  unfold H5.openR
  rw [h]

theorem openW : Does path (H5.openW path : IOM α β _) f () H5.empty := by
  intro σ _
  exact ⟨_, rfl, rfl⟩

theorem write (g : H5 α β) : Does path (H5.write path g) f () g := by
  intro σ _
  exact ⟨_, rfl, rfl⟩

theorem hasKey (name : String) : Does path (H5.hasKey path name) f (f.dsets name).isSome f :=
  content.bind (Does.pure _)

theorem dset {name : String} {d : Dset α β} (h : f.dsets name = some d) : Does path (H5.dset path name) f d f := by
  refine content.bind ?_
  simp only [h]
  exact Does.pure _

theorem putDset (name : String) (d : Dset α β) :
    Does path (H5.putDset path name d) f () { f with dsets := upd f.dsets name (some d) } :=
  content.bind (write _)

theorem createDset {name : String} (d : Dset α β) (h : f.dsets name = none) :
    Does path (H5.createDset path name d) f () { f with dsets := upd f.dsets name (some d) } := by
  refine (hasKey name).bind ?_
  simp only [h, Option.isSome_none, Bool.false_eq_true, if_false]
  exact putDset _ _

theorem delDset {name : String} {d : Dset α β} (h : f.dsets name = some d) :
    Does path (H5.delDset path name) f () { f with dsets := upd f.dsets name none } :=
  (dset h).bind (content.bind (write _))

theorem setAttr (key : String) (v : Attr α) :
    Does path (H5.setAttr path key v) f () { f with attrs := upd f.attrs key (some v) } :=
  content.bind (write _)

theorem len_rows {name : String} {s : RowShape} {r : List (Cell β)} (h : f.dsets name = some (.rows s r)) :
    Does path (H5.len path name) f r.length f :=
  (dset h).bind (Does.pure _)

end Does

/-! ### rows -/

theorem RowShape.zero_ok (s : RowShape) (z : β) : s.Ok (s.zero z) := by
  cases s
  · trivial
  · exact ⟨rfl, rfl⟩

theorem RowShape.assign_ok [Inhabited α] (cast : α → β) {s : RowShape} {v : Cell α} {c : Cell β}
    (h : s.assign cast v = some c) : s.Ok c := by
  cases s <;> cases v <;> simp only [RowShape.assign] at h
  · injection h with h; subst h; trivial
  · split at h
    · injection h with h; subst h; trivial
    · cases h
  · injection h with h; subst h; exact ⟨rfl, rfl⟩
  · split at h
    · injection h with h; subst h; exact ⟨rfl, rfl⟩
    · cases h

/-- an array of the right shape is stored element by element -/
theorem RowShape.assign_grid [Inhabited α] (cast : α → β) (a : Arr α) :
    (RowShape.grid a.h a.w).assign cast (.arr a) = some (.arr (a.map cast)) := by
  simp only [RowShape.assign]
  rw [if_pos ⟨.inl trivial, .inl trivial⟩]
  conv_rhs => rw [Arr.eq_tab a, Arr.map_tab]
  congr 2
  refine Arr.tab_congr rfl rfl fun i j hi hj => ?_
  rw [Arr.bidx_lt hi, Arr.bidx_lt hj]

theorem Arr.map_id (a : Arr α) : a.map id = a := rfl

theorem RowShape.assign_self [Inhabited β] {s : RowShape} {c : Cell β} (h : s.Ok c) : s.assign id c = some c := by
  cases s <;> cases c
  · rfl
  · cases h
  · cases h
  · obtain ⟨rfl, rfl⟩ := h
    rw [RowShape.assign_grid, Arr.map_id]

theorem fit_ok [Inhabited β] {s : RowShape} {c : Cell β} (h : s.Ok c) : H5.fit s c = .ok c := by
  unfold H5.fit; rw [RowShape.assign_self h]

theorem mapM_fit [Inhabited β] {s : RowShape} {l : List (Cell β)} (h : ∀ c ∈ l, s.Ok c) :
    l.mapM (H5.fit s) = .ok l := by
  induction l with
  | nil => rfl
  | cons c l ih =>
    rw [List.mapM_cons, fit_ok (h c (by simp)), Py.ok_bind, ih fun c hc => h c (by simp [hc]), Py.ok_bind]
    rfl

section append

variable [Casts α β] [Zero α] [Inhabited α] [Inhabited β] {path : String} {f : H5 α β}

theorem does_appendOne {name : String} {s : RowShape} {r data : List (Cell β)} {n : ℕ}
    (h : f.dsets name = some (.rows s r)) (hd : ∀ c ∈ data, s.Ok c) (hl : data.length = n) (hn : 1 ≤ n)
    {k : IOM α β Y} {y : Y} {f' : H5 α β}
    (hk : Does path k { f with dsets := upd f.dsets name (some (.rows s (r ++ data))) } y f') :
    Does path (do
      let m ← H5.len path name
      H5.resize path name (m + n)
      let n' ← H5.len path name
      let start := if n = 0 then 0 else n' - n
      H5.writeFrom path name start data
      k) f y f' := by
  refine (Does.len_rows h).bind ?_
  have hr : Does path (H5.resize path name (r.length + n)) f ()
      { f with dsets := upd f.dsets name (some (.rows s (r ++ List.replicate n (s.zero (Casts.f32 (0 : α)))))) } := by
    unfold H5.resize
    refine (Does.dset h).bind ?_
    have := Does.putDset (path := path) (f := f) name
      (.rows s (r.take (r.length + n) ++ List.replicate (r.length + n - r.length) (s.zero (Casts.f32 (0 : α)))))
    rw [List.take_of_length_le (by omega), Nat.add_sub_cancel_left] at this
    simp only [List.take_of_length_le (show r.length ≤ r.length + n by omega), Nat.add_sub_cancel_left]
    exact this
  refine hr.bind ?_
  refine (Does.len_rows (upd_same _ _ _)).bind ?_
  have hs : (if n = 0 then 0 else (r ++ List.replicate n (s.zero (Casts.f32 (0 : α)))).length - n) = r.length := by
    rw [if_neg (by omega)]; simp
  simp only [hs]
  refine Does.bind (f' := { f with dsets := upd f.dsets name (some (.rows s (r ++ data))) }) (x := ()) ?_ hk
  unfold H5.writeFrom
  refine (Does.dset (upd_same _ _ _)).bind ?_
  refine (Does.lift (mapM_fit hd)).bind ?_
  have hlen : data.length = (r ++ List.replicate n (s.zero (Casts.f32 (0 : α)))).length - r.length := by
    simp [hl]
  simp only [if_pos hlen, List.take_left']
  have := Does.putDset (path := path)
    (f := { f with dsets := upd f.dsets name (some (.rows s (r ++ List.replicate n (s.zero (Casts.f32 (0 : α)))))) })
    name (.rows s (r ++ data))
  simp only [upd_upd] at this
  exact this

/-- append the first `n` buffer rows to every buffered dataset -/
def appendedRows (f : H5 α β) (buf : NS (Buf β)) (n : ℕ) : H5 α β :=
  { f with dsets := fun k => match buf.get? k with
    | some b => some (.rows b.shape (f.rowsOf k ++ b.rows.take n))
    | none => f.dsets k }

omit [Casts α β] [Zero α] [Inhabited α] [Inhabited β] in
theorem get?_eq_none_of_not_mem {V : Type} {ns : NS V} {k : String} (h : k ∉ ns.keys) : ns.get? k = none := by
  unfold NS.get?
  rw [List.find?_eq_none.mpr]; · rfl
  intro p hp hk
  simp only [decide_eq_true_eq] at hk
  exact h (by unfold NS.keys; rw [List.mem_map]; exact ⟨p, hp, hk⟩)

theorem does_appendFields {n L : ℕ} (hn : 1 ≤ n) (hL : n ≤ L) (buf : NS (Buf β)) (hb : BufOk f L buf) :
    Does path (appendFields path n buf) f () (appendedRows f buf n) := by
  induction buf generalizing f with
  | nil => exact Does.pure ()
  | cons p rest ih =>
    obtain ⟨name, b⟩ := p
    obtain ⟨r, hr⟩ := hb.dset (name, b) (by simp)
    have hnd := hb.nodup
    simp only [NS.keys, List.map_cons, List.nodup_cons] at hnd
    have hnm : name ∉ NS.keys rest := hnd.1
    refine does_appendOne (path := path) (n := n) hr (data := b.rows.take n)
      (fun c hc => hb.ok (name, b) (by simp) c (List.mem_of_mem_take hc)) ?_ hn ?_
    · rw [List.length_take, hb.len (name, b) (by simp)]; omega
    · have hb' : BufOk { f with dsets := upd f.dsets name (some (.rows b.shape (r ++ b.rows.take n))) } L rest := by
        refine ⟨hnd.2, fun p hp => hb.len p (by simp [hp]), fun p hp => hb.ok p (by simp [hp]), ?_⟩
        intro p hp
        obtain ⟨r', h'⟩ := hb.dset p (by simp [hp])
        refine ⟨r', ?_⟩
        refine (upd_ne _ _ ?_).trans h'
        intro e; exact hnm (e ▸ List.mem_map.mpr ⟨p, hp, rfl⟩)
      have := ih hb'
      convert this using 1
      unfold appendedRows
      congr 1
      funext k
      by_cases hk : k = name
      · subst hk
        rw [NS.get?_cons, if_pos rfl, get?_eq_none_of_not_mem hnm]
        simp only [H5.rowsOf, hr, upd_same]
      · rw [NS.get?_cons, if_neg (Ne.symm hk)]
        simp only [H5.rowsOf, upd_ne _ _ hk]

theorem does_append_h5 {n L : ℕ} (hn : 1 ≤ n) (hL : n ≤ L) (buf : NS (Buf β)) (hb : BufOk f L buf) :
    Does path (append_h5 path buf n) f () (appendedRows f buf n) :=
  Does.openA.bind (does_appendFields hn hL buf hb)

/-! ### saving -/

/-- what `new_val` puts into a row of field `k` (0 if it does not fit) -/
def stored (s : RowShape) (new_val : NS (Cell α)) (k : String) : Cell β :=
  match new_val.get? k with
  | some v => (s.assign (Casts.f32 : α → β) v).getD (s.zero (Casts.f32 (0 : α)))
  | none => s.zero (Casts.f32 (0 : α))

theorem stored_eq {s : RowShape} {new_val : NS (Cell α)} {k : String} {v : Cell α} {c : Cell β}
    (h1 : new_val.get? k = some v) (h2 : s.assign (Casts.f32 : α → β) v = some c) : stored s new_val k = c := by
  unfold stored; rw [h1]; simp only [h2, Option.getD_some]

theorem stored_ok (s : RowShape) (new_val : NS (Cell α)) (k : String) : s.Ok (stored s new_val k : Cell β) := by
  unfold stored
  cases new_val.get? k with
  | none => exact s.zero_ok _
  | some v =>
    cases h : s.assign (Casts.f32 : α → β) v with
    | none => simp only [h]; exact s.zero_ok _
    | some c => simp only [h]; exact RowShape.assign_ok _ h

/-- the buffer after writing row `i` -/
def filled (i : ℕ) (new_val : NS (Cell α)) (buf : NS (Buf β)) : NS (Buf β) :=
  buf.map fun p => (p.1, { p.2 with rows := p.2.rows.set i (stored p.2.shape new_val p.1) })

theorem fillBuffer_eq {i L : ℕ} (hi : i < L) (new_val : NS (Cell α)) (buf : NS (Buf β))
    (hl : ∀ p ∈ buf, p.2.rows.length = L) (hf : Fits buf new_val) :
    fillBuffer i new_val buf = .ok (filled i new_val buf) := by
  induction buf with
  | nil => rfl
  | cons p rest ih =>
    obtain ⟨k, b⟩ := p
    obtain ⟨v, c, h1, h2⟩ := hf (k, b) (by simp)
    have e := ih (fun p hp => hl p (by simp [hp])) (fun p hp => hf p (by simp [hp]))
    have hb : i < b.rows.length := by rw [hl (k, b) (by simp)]; exact hi
    simp only at h1 h2
    simp only [fillBuffer, fillRow, h1, hb, if_true, h2, Py.ok_bind, e, Py.pure_eq, filled, List.map_cons, stored_eq h1 h2]

theorem keys_filled (i : ℕ) (new_val : NS (Cell α)) (buf : NS (Buf β)) : (filled i new_val buf).keys = buf.keys := by
  unfold filled NS.keys; rw [List.map_map]; rfl

theorem get?_filled (i : ℕ) (new_val : NS (Cell α)) (buf : NS (Buf β)) (k : String) :
    (filled i new_val buf).get? k
      = (buf.get? k).map fun b => { b with rows := b.rows.set i (stored b.shape new_val k) } := by
  induction buf with
  | nil => rfl
  | cons p rest ih =>
    unfold filled at ih ⊢
    rw [List.map_cons, NS.get?_cons, NS.get?_cons]
    simp only
    split
    · next h => subst h; rfl
    · exact ih

theorem bufOk_filled {L i : ℕ} {buf : NS (Buf β)} (hb : BufOk f L buf) (new_val : NS (Cell α)) :
    BufOk f L (filled i new_val buf) := by
  refine ⟨by rw [keys_filled]; exact hb.nodup, ?_, ?_, ?_⟩
  all_goals
    intro p hp
    unfold filled at hp
    rw [List.mem_map] at hp
    obtain ⟨q, hq, rfl⟩ := hp
    simp only
  · rw [List.length_set]; exact hb.len q hq
  · intro c hc
    rcases List.mem_or_eq_of_mem_set hc with h | h
    · exact hb.ok q hq c h
    · rw [h]; exact stored_ok _ _ _
  · exact hb.dset q hq

/-- what `update_last_state` puts into the dataset `a` -/
def fitState (a : Arr α) (v : Cell α) : Arr α := match (RowShape.grid a.h a.w).assign id v with
  | some (.arr a') => a'
  | _ => a

/-- contents after `update_last_state` -/
def withStates (f : H5 α β) (last : NS (Cell α)) : H5 α β :=
  { f with dsets := fun k => match last.get? k, f.dsets k with
    | some v, some (.full a) => some (.full (fitState a v))
    | _, d => d }

theorem does_writeStates (last : NS (Cell α)) (h : StatesFit f last) :
    Does path (writeStates path last) f () (withStates f last) := by
  induction last generalizing f with
  | nil => exact Does.pure ()
  | cons p rest ih =>
    obtain ⟨k, v⟩ := p
    obtain ⟨a, a', h1, h2⟩ := h.2 (k, v) (by simp)
    have hnd := h.1
    simp only [NS.keys, List.map_cons, List.nodup_cons] at hnd
    have hnm : k ∉ NS.keys rest := hnd.1
    unfold writeStates
    refine (Does.dset h1).bind ?_
    simp only at h2
    simp only [h2]
    refine (Does.putDset k (.full a')).bind ?_
    have h' : StatesFit { f with dsets := upd f.dsets k (some (.full a')) } rest := by
      refine ⟨hnd.2, fun p hp => ?_⟩
      obtain ⟨b, b', g1, g2⟩ := h.2 p (by simp [hp])
      refine ⟨b, b', ?_, g2⟩
      refine (upd_ne _ _ ?_).trans g1
      intro e; exact hnm (e ▸ List.mem_map.mpr ⟨p, hp, rfl⟩)
    convert ih h' using 1
    unfold withStates
    congr 1
    funext k'
    by_cases hk : k' = k
    · subst hk
      rw [NS.get?_cons, if_pos rfl, get?_eq_none_of_not_mem hnm]
      simp only at h1
      simp only [upd_same, h1, fitState, h2]
    · rw [NS.get?_cons, if_neg (Ne.symm hk)]
      simp only [upd_ne _ _ hk]

theorem does_update_last_state (last : NS (Cell α)) (h : StatesFit f last) :
    Does path (update_last_state path last) f () (withStates f last) :=
  Does.openR.bind (does_writeStates last h)

/-- Reading a resizable dataset after `update_last_state`. -/
theorem withStates_rows {last : NS (Cell α)} {k : String} {s : RowShape} {r : List (Cell β)}
    (h : f.dsets k = some (.rows s r)) : (withStates f last).dsets k = some (.rows s r) := by
  unfold withStates
  simp only [h]
  cases last.get? k <;> rfl

theorem withStates_nil : withStates f [] = f := rfl

/-- file after one save -/
def savedFile (f : H5 α β) (L i : ℕ) (buf : NS (Buf β)) (new_val last : NS (Cell α)) : H5 α β :=
  if i + 1 = L then withStates (appendedRows f (filled i new_val buf) L) last else f

/-- buffer index after one save -/
def nextIndex (L i : ℕ) : ℕ := if i + 1 = L then 0 else i + 1

theorem statesFit_appendedRows {L : ℕ} {buf : NS (Buf β)} (hb : BufOk f L buf) (n : ℕ) {last : NS (Cell α)}
    (h : StatesFit f last) : StatesFit (appendedRows f buf n) last := by
  refine ⟨h.1, fun p hp => ?_⟩
  obtain ⟨a, a', h1, h2⟩ := h.2 p hp
  refine ⟨a, a', ?_, h2⟩
  unfold appendedRows
  simp only
  rw [get?_eq_none_of_not_mem]
  · exact h1
  · intro hk
    obtain ⟨q, hq, e⟩ := List.mem_map.mp hk
    obtain ⟨r, hr⟩ := hb.dset q hq
    rw [e, h1] at hr
    cases hr

theorem does_save {L i : ℕ} (hi : i < L) {buf : NS (Buf β)} (hb : BufOk f L buf) {new_val last : NS (Cell α)}
    (hf : Fits buf new_val) (hs : StatesFit f last) :
    Does path (save_to_buffered_h5 buf L i new_val path last) f (filled i new_val buf, nextIndex L i)
      (savedFile f L i buf new_val last) := by
  unfold save_to_buffered_h5
  refine (Does.lift (fillBuffer_eq hi new_val buf hb.len hf)).bind ?_
  unfold savedFile nextIndex
  by_cases h : i + 1 = L
  · simp only [if_pos h]
    have hb' := bufOk_filled (i := i) hb new_val
    refine (does_append_h5 (by omega) (by omega) _ hb').bind ?_
    rw [h]
    cases last with
    | nil => exact Does.pure _
    | cons p rest =>
      simp only [List.isEmpty_cons, Bool.not_false, if_true]
      exact (does_update_last_state _ (statesFit_appendedRows hb' _ hs)).bind (Does.pure _)
  · simp only [if_neg h]
    exact Does.pure _

/-- rows of a field: in the file, followed by those waiting in the buffer -/
def logical (f : H5 α β) (buf : NS (Buf β)) (i : ℕ) (k : String) : List (Cell β) :=
  f.rowsOf k ++ ((buf.get? k).map fun b => b.rows.take i).getD []

theorem mem_of_get? {V : Type} {ns : NS V} {k : String} {v : V} (h : ns.get? k = some v) : (k, v) ∈ ns := by
  unfold NS.get? at h
  rw [Option.map_eq_some_iff] at h
  obtain ⟨p, hp, rfl⟩ := h
  have h1 := List.mem_of_find?_eq_some hp
  have h2 := List.find?_some hp
  simp only [decide_eq_true_eq] at h2
  subst h2
  exact h1

theorem rowsOf_savedFile {L i : ℕ} {buf : NS (Buf β)} (hb : BufOk f L buf)
    {new_val last : NS (Cell α)} {k : String} {b : Buf β} (hk : buf.get? k = some b) :
    (savedFile f L i buf new_val last).dsets k = some (.rows b.shape
      (if i + 1 = L then f.rowsOf k ++ b.rows.set i (stored b.shape new_val k) else f.rowsOf k)) := by
  unfold savedFile
  have hl := hb.len _ (mem_of_get? hk)
  split
  · apply withStates_rows
    unfold appendedRows
    simp only [get?_filled, hk, Option.map_some]
    rw [List.take_of_length_le]
    rw [List.length_set]; simp only at hl; omega
  · obtain ⟨r, hr⟩ := hb.dset _ (mem_of_get? hk)
    simp only at hr
    rw [hr]; simp only [H5.rowsOf, hr]

theorem rowsOf_savedFile' {L i : ℕ} {buf : NS (Buf β)} (hb : BufOk f L buf)
    {new_val last : NS (Cell α)} {k : String} {b : Buf β} (hk : buf.get? k = some b) :
    (savedFile f L i buf new_val last).rowsOf k =
      if i + 1 = L then f.rowsOf k ++ b.rows.set i (stored b.shape new_val k) else f.rowsOf k := by
  unfold H5.rowsOf
  rw [rowsOf_savedFile hb hk]
  rfl

theorem nextIndex_lt {L i : ℕ} (hi : i < L) : nextIndex L i < L := by
  unfold nextIndex; split <;> omega

theorem take_set_succ (l : List (Cell β)) (i : ℕ) (h : i < l.length) (c : Cell β) :
    (l.set i c).take (i + 1) = l.take i ++ [c] := by
  rw [List.take_add_one, List.take_set_of_le (by omega)]
  simp [h]

/-- One save appends exactly the saved row. -/
theorem logical_save {L i : ℕ} (hi : i < L) {buf : NS (Buf β)} (hb : BufOk f L buf)
    (new_val last : NS (Cell α)) {k : String} {b : Buf β} (hk : buf.get? k = some b) :
    logical (savedFile f L i buf new_val last) (filled i new_val buf) (nextIndex L i) k
      = logical f buf i k ++ [stored b.shape new_val k] := by
  have hl := hb.len _ (mem_of_get? hk)
  simp only at hl
  unfold logical
  rw [rowsOf_savedFile' hb hk, get?_filled, hk]
  simp only [Option.map_some, Option.getD_some]
  have ht := take_set_succ b.rows i (by omega) (stored b.shape new_val k)
  unfold nextIndex
  split
  · next h =>
    rw [List.take_zero, List.append_nil, List.append_assoc, ← ht]
    congr 1
    rw [List.take_of_length_le]
    rw [List.length_set]; omega
  · rw [ht, List.append_assoc]

/-- the buffer stays well-formed -/
theorem bufOk_save {L i : ℕ} {buf : NS (Buf β)} (hb : BufOk f L buf) (new_val last : NS (Cell α)) :
    BufOk (savedFile f L i buf new_val last) L (filled i new_val buf) := by
  have h := bufOk_filled (i := i) hb new_val
  refine ⟨h.nodup, h.len, h.ok, ?_⟩
  intro p hp
  unfold filled at hp
  rw [List.mem_map] at hp
  obtain ⟨q, hq, rfl⟩ := hp
  have : buf.get? q.1 = some q.2 := by
    have hn := hb.nodup
    clear * - hq hn
    induction buf with
    | nil => cases hq
    | cons p rest ih =>
      simp only [NS.keys, List.map_cons, List.nodup_cons] at hn
      rw [NS.get?_cons]
      rcases List.mem_cons.mp hq with rfl | h
      · rw [if_pos rfl]
      · rw [if_neg, ih h hn.2]
        intro e; exact hn.1 (e ▸ List.mem_map.mpr ⟨q, h, rfl⟩)
  have h := rowsOf_savedFile (i := i) hb (new_val := new_val) (last := last) this
  exact ⟨_, h⟩

/-! ### sequences of saves -/

theorem fitState_h (a : Arr α) (v : Cell α) : (fitState a v).h = a.h := by
  unfold fitState
  split
  · next a' h => exact (RowShape.assign_ok _ h).1
  · rfl

theorem fitState_w (a : Arr α) (v : Cell α) : (fitState a v).w = a.w := by
  unfold fitState
  split
  · next a' h => exact (RowShape.assign_ok _ h).2
  · rfl

theorem fitState_arr (a b : Arr α) (hh : b.h = a.h) (hw : b.w = a.w) : fitState a (.arr b) = b := by
  unfold fitState
  rw [← hh, ← hw, RowShape.assign_grid]
  rfl

theorem statesFit_withStates {last last' : NS (Cell α)} (h : StatesFit f last') : StatesFit (withStates f last) last' := by
  refine ⟨h.1, fun p hp => ?_⟩
  obtain ⟨a, a', h1, h2⟩ := h.2 p hp
  unfold withStates
  simp only [h1]
  cases last.get? p.1 with
  | none => exact ⟨a, a', rfl, h2⟩
  | some v => exact ⟨_, a', rfl, by rw [fitState_h, fitState_w]; exact h2⟩

theorem statesFit_save {L i : ℕ} {buf : NS (Buf β)} (hb : BufOk f L buf) {new_val last last' : NS (Cell α)}
    (h : StatesFit f last') : StatesFit (savedFile f L i buf new_val last) last' := by
  unfold savedFile
  split
  · exact statesFit_withStates (statesFit_appendedRows (bufOk_filled hb new_val) _ h)
  · exact h

/-- file, buffer, index after consecutive saves -/
def afterSaves (L : ℕ) : H5 α β → NS (Buf β) → ℕ → List (NS (Cell α) × NS (Cell α)) → H5 α β × NS (Buf β) × ℕ
  | f, buf, i, [] => (f, buf, i)
  | f, buf, i, (new_val, last) :: rest =>
    afterSaves L (savedFile f L i buf new_val last) (filled i new_val buf) (nextIndex L i) rest

theorem fits_filled {i : ℕ} {buf : NS (Buf β)} {v : NS (Cell α)} (new_val : NS (Cell α)) (h : Fits buf v) :
    Fits (filled i new_val buf) v := by
  intro p hp
  unfold filled at hp
  rw [List.mem_map] at hp
  obtain ⟨q, hq, rfl⟩ := hp
  exact h q hq

theorem does_saveAll {L : ℕ} (saves : List (NS (Cell α) × NS (Cell α))) (f : H5 α β) {buf : NS (Buf β)} {i : ℕ}
    (hi : i < L) (hb : BufOk f L buf) (hf : ∀ v ∈ saves, Fits buf v.1 ∧ StatesFit f v.2) :
    Does path (saveAll path L buf i saves) f (afterSaves L f buf i saves).2 (afterSaves L f buf i saves).1 := by
  induction saves generalizing f buf i with
  | nil => exact Does.pure _
  | cons v rest ih =>
    obtain ⟨new_val, last⟩ := v
    have h := hf (new_val, last) (by simp)
    refine (does_save hi hb h.1 h.2).bind ?_
    refine ih _ (nextIndex_lt hi) (bufOk_save hb new_val last) fun v hv => ?_
    have h' := hf v (by simp [hv])
    exact ⟨fits_filled new_val h'.1, statesFit_save hb h'.2⟩

theorem afterSaves_bufOk {L : ℕ} (saves : List (NS (Cell α) × NS (Cell α))) (f : H5 α β) {buf : NS (Buf β)} {i : ℕ}
    (hb : BufOk f L buf) : BufOk (afterSaves L f buf i saves).1 L (afterSaves L f buf i saves).2.1 := by
  induction saves generalizing f buf i with
  | nil => exact hb
  | cons v rest ih => exact ih _ (bufOk_save hb v.1 v.2)

theorem afterSaves_index {L : ℕ} (saves : List (NS (Cell α) × NS (Cell α))) (f : H5 α β) (buf : NS (Buf β)) {i : ℕ}
    (hi : i < L) : (afterSaves L f buf i saves).2.2 = (i + saves.length) % L := by
  induction saves generalizing f buf i with
  | nil => exact (Nat.mod_eq_of_lt hi).symm
  | cons v rest ih =>
    have := ih (savedFile f L i buf v.1 v.2) (filled i v.1 buf) (nextIndex_lt hi)
    unfold afterSaves
    rw [this, List.length_cons]
    unfold nextIndex
    split
    · next h =>
      rw [show i + (rest.length + 1) = L + rest.length by omega, Nat.add_mod_left, Nat.zero_add]
    · congr 1; omega

theorem afterSaves_get? {L : ℕ} (saves : List (NS (Cell α) × NS (Cell α))) (f : H5 α β) (buf : NS (Buf β)) (i : ℕ)
    {k : String} {b : Buf β} (hk : buf.get? k = some b) :
    ∃ b', (afterSaves L f buf i saves).2.1.get? k = some b' ∧ b'.shape = b.shape := by
  induction saves generalizing f buf i b with
  | nil => exact ⟨b, hk, rfl⟩
  | cons v rest ih =>
    unfold afterSaves
    obtain ⟨b', h1, h2⟩ := ih (savedFile f L i buf v.1 v.2) (filled i v.1 buf) (nextIndex L i)
      (b := { b with rows := b.rows.set i (stored b.shape v.1 k) }) (by rw [get?_filled, hk]; rfl)
    exact ⟨b', h1, h2⟩

theorem logical_afterSaves {L : ℕ} (saves : List (NS (Cell α) × NS (Cell α))) (f : H5 α β) {buf : NS (Buf β)} {i : ℕ}
    (hi : i < L) (hb : BufOk f L buf) {k : String} {b : Buf β} (hk : buf.get? k = some b) :
    logical (afterSaves L f buf i saves).1 (afterSaves L f buf i saves).2.1 (afterSaves L f buf i saves).2.2 k
      = logical f buf i k ++ saves.map fun v => stored b.shape v.1 k := by
  induction saves generalizing f buf i b with
  | nil => simp [afterSaves]
  | cons v rest ih =>
    unfold afterSaves
    rw [ih _ (nextIndex_lt hi) (bufOk_save hb v.1 v.2)
      (b := { b with rows := b.rows.set i (stored b.shape v.1 k) }) (by rw [get?_filled, hk]; rfl),
      logical_save hi hb _ _ hk, List.map_cons, List.append_assoc]
    rfl

/-- Nothing but the buffered datasets and the `state_*` datasets changes. -/
theorem savedFile_other {L i : ℕ} {buf : NS (Buf β)} {new_val last : NS (Cell α)} {k : String}
    (hk : k ∉ buf.keys) (hl : last.get? k = none) : (savedFile f L i buf new_val last).dsets k = f.dsets k := by
  unfold savedFile
  split
  · unfold withStates
    simp only [hl]
    unfold appendedRows
    simp only [get?_filled, get?_eq_none_of_not_mem hk, Option.map_none]
  · rfl

theorem savedFile_attrs {L i : ℕ} {buf : NS (Buf β)} {new_val last : NS (Cell α)} :
    (savedFile f L i buf new_val last).attrs = f.attrs := by
  unfold savedFile; split <;> rfl

theorem afterSaves_attrs {L : ℕ} (saves : List (NS (Cell α) × NS (Cell α))) (f : H5 α β) (buf : NS (Buf β)) (i : ℕ) :
    (afterSaves L f buf i saves).1.attrs = f.attrs := by
  induction saves generalizing f buf i with
  | nil => rfl
  | cons v rest ih => unfold afterSaves; rw [ih, savedFile_attrs]

theorem afterSaves_keys {L : ℕ} (saves : List (NS (Cell α) × NS (Cell α))) (f : H5 α β) (buf : NS (Buf β)) (i : ℕ) :
    (afterSaves L f buf i saves).2.1.keys = buf.keys := by
  induction saves generalizing f buf i with
  | nil => rfl
  | cons v rest ih => unfold afterSaves; rw [ih, keys_filled]

theorem forall₂_right {X Y : Type} {R : X → Y → Prop} {l : List X} {l' : List Y} (h : List.Forall₂ R l l') {y : Y}
    (hy : y ∈ l') : ∃ x ∈ l, R x y := by
  induction h with
  | nil => cases hy
  | cons h _ ih =>
    rcases List.mem_cons.mp hy with rfl | hy
    · exact ⟨_, by simp, h⟩
    · obtain ⟨x, hx, hr⟩ := ih hy
      exact ⟨x, List.mem_cons_of_mem _ hx, hr⟩

theorem afterSaves_other {L : ℕ} (saves : List (NS (Cell α) × NS (Cell α))) (f : H5 α β) (buf : NS (Buf β)) (i : ℕ)
    {k : String} (hk : k ∉ buf.keys) (hl : ∀ v ∈ saves, v.2.get? k = none) :
    (afterSaves L f buf i saves).1.dsets k = f.dsets k := by
  induction saves generalizing f buf i with
  | nil => rfl
  | cons v rest ih =>
    unfold afterSaves
    rw [ih _ _ _ (by rw [keys_filled]; exact hk) (fun v hv => hl v (by simp [hv])),
      savedFile_other hk (hl v (by simp))]

/-- the rows of a buffered dataset, in a form fit for rewriting -/
theorem BufOk.rows_eq {L : ℕ} {buf : NS (Buf β)} (hb : BufOk f L buf) {k : String} {b : Buf β}
    (hk : buf.get? k = some b) : f.dsets k = some (.rows b.shape (f.rowsOf k)) := by
  obtain ⟨r, hr⟩ := hb.dset _ (mem_of_get? hk)
  simp only at hr
  rw [hr]; simp only [H5.rowsOf, hr]

/-- the final `append_h5` of the run functions: done only if the buffer is not empty -/
def finalFile (f : H5 α β) (buf : NS (Buf β)) (i : ℕ) : H5 α β := if 0 < i then appendedRows f buf i else f

theorem rowsOf_finalFile {L i : ℕ} {buf : NS (Buf β)} (hb : BufOk f L buf) {k : String} {b : Buf β}
    (hk : buf.get? k = some b) : (finalFile f buf i).dsets k = some (.rows b.shape (logical f buf i k)) := by
  unfold finalFile logical
  rw [hk]
  simp only [Option.map_some, Option.getD_some]
  split
  · unfold appendedRows
    simp only [hk]
  · next h =>
    have : i = 0 := by omega
    subst this
    rw [List.take_zero, List.append_nil, hb.rows_eq hk]

end append

end Verif
