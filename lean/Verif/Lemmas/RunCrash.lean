import Verif.Lemmas.RunResult

/-!
# Crash points of `run`
-/

set_option linter.unusedSectionVars false

namespace Verif

open H5IO H5 Run

variable {α β X Y : Type}

/-- like `Does`; moreover all contents the file `path` has before the last change
satisfy `Q`, and no other file changes at any moment -/
def DoesP (path : String) (Q : H5 α β → Prop) (m : IOM α β X) (f : H5 α β) (x : X) (f' : H5 α β) : Prop :=
  ∀ σ : St α β, σ.fs path = some f → ∃ σ' l, m σ = (.ok x, σ') ∧ σ'.fs = upd σ.fs path (some f') ∧
    σ'.past = σ.past ++ l ∧ ∀ g ∈ l, ∃ f'', g = upd σ.fs path (some f'') ∧ Q f''

namespace DoesP

variable {path : String} {Q : H5 α β → Prop} {f f' f'' : H5 α β}

/-- computations that only read -/
theorem read {m : IOM α β X} {x : X} (h : ∀ σ : St α β, σ.fs path = some f → m σ = (.ok x, σ)) :
    DoesP path Q m f x f := by
  intro σ hσ
  exact ⟨σ, [], h σ hσ, by rw [← hσ, upd_self], by simp, by simp⟩

theorem pure (x : X) : DoesP path Q (Pure.pure x : IOM α β X) f x f := read fun _ _ => rfl

theorem bind {m : IOM α β X} {k : X → IOM α β Y} {x : X} {y : Y} (h1 : DoesP path Q m f x f')
    (h2 : DoesP path Q (k x) f' y f'') : DoesP path Q (m >>= k) f y f'' := by
  intro σ h
  obtain ⟨σ1, l1, e1, g1, p1, q1⟩ := h1 σ h
  obtain ⟨σ2, l2, e2, g2, p2, q2⟩ := h2 σ1 (by rw [g1, upd_same])
  refine ⟨σ2, l1 ++ l2, ?_, ?_, ?_, ?_⟩
  · rw [IOM.bind_ok e1, e2]
  · rw [g2, g1, upd_upd]
  · rw [p2, p1, List.append_assoc]
  · intro g hg
    rcases List.mem_append.mp hg with hg | hg
    · exact q1 g hg
    · obtain ⟨h, e, hq⟩ := q2 g hg
      exact ⟨h, by rw [e, g1, upd_upd], hq⟩

theorem lift {x : Py X} {a : X} (h : x = .ok a) : DoesP path Q (IOM.lift x : IOM α β X) f a f := by
  subst h; exact DoesP.pure a

theorem content : DoesP path Q (H5.content path : IOM α β _) f f f :=
  read fun σ h => by unfold H5.content; rw [h]

theorem openA : DoesP path Q (H5.openA path : IOM α β _) f () f :=
  read fun σ h => by unfold H5.openA; rw [h]

theorem openR : DoesP path Q (H5.openR path : IOM α β _) f () f :=
  read fun σ h => by unfold H5.openR; rw [h]

theorem write (hQ : Q f) (g : H5 α β) : DoesP path Q (H5.write path g) f () g := by
  intro σ h
  refine ⟨_, [σ.fs], rfl, rfl, rfl, ?_⟩
  intro g' hg
  rw [List.mem_singleton] at hg
  exact ⟨f, by rw [hg, ← h, upd_self], hQ⟩

theorem dset {name : String} {d : Dset α β} (h : f.dsets name = some d) :
    DoesP path Q (H5.dset path name) f d f := by
  refine content.bind ?_
  simp only [h]
  exact DoesP.pure _

theorem putDset (hQ : Q f) (name : String) (d : Dset α β) :
    DoesP path Q (H5.putDset path name d) f () { f with dsets := upd f.dsets name (some d) } :=
  content.bind (write hQ _)

theorem len_rows {name : String} {s : RowShape} {r : List (Cell β)} (h : f.dsets name = some (.rows s r)) :
    DoesP path Q (H5.len path name) f r.length f :=
  (dset h).bind (DoesP.pure _)

/-- as a statement about all file systems during the call -/
theorem tr {m : IOM α β X} {x : X} (h : DoesP path Q m f x f') {fs : FS α β} {P : FS α β → Prop}
    (hP : ∀ f, Q f → P (upd fs path (some f))) (hf : P (upd fs path (some f'))) :
    Tr (fun g => g = upd fs path (some f)) P m fun y g => y = x ∧ g = upd fs path (some f') := by
  intro σ hσ
  obtain ⟨σ', l, e, g1, p1, q1⟩ := h σ (by rw [hσ, upd_same])
  rw [hσ, upd_upd] at g1
  rw [e]
  refine ⟨l, p1, ?_, by rw [g1]; exact hf, ?_⟩
  · intro g hg
    obtain ⟨f'', e', hq⟩ := q1 g hg
    rw [e', hσ, upd_upd]
    exact hP _ hq
  · intro y hy
    injection hy with hy
    exact ⟨hy.symm, g1⟩

end DoesP

section append

variable [Casts α β] [Zero α] [Inhabited α] [Inhabited β] {path : String} {Q : H5 α β → Prop} {f : H5 α β}

/-- contents during `append_h5`: every dataset is as before or completely
extended, except at most one, whose new rows may still be 0 -/
def MidAppend (f : H5 α β) (buf : NS (Buf β)) (n : ℕ) (f' : H5 α β) : Prop :=
  ∃ k0, ∀ k, f'.dsets k = f.dsets k ∨ ∃ b, buf.get? k = some b ∧
    (f'.dsets k = some (.rows b.shape (f.rowsOf k ++ b.rows.take n)) ∨
      k = k0 ∧ f'.dsets k = some (.rows b.shape (f.rowsOf k ++ List.replicate n (b.shape.zero (Casts.f32 (0 : α))))))

theorem doesP_appendOne {name : String} {s : RowShape} {r data : List (Cell β)} {n : ℕ}
    (h : f.dsets name = some (.rows s r)) (hd : ∀ c ∈ data, s.Ok c) (hl : data.length = n) (hn : 1 ≤ n)
    (hQ : Q f)
    (hQ' : Q { f with dsets := upd f.dsets name (some (.rows s (r ++ List.replicate n (s.zero (Casts.f32 (0 : α)))))) })
    {k : IOM α β Y} {y : Y} {f' : H5 α β}
    (hk : DoesP path Q k { f with dsets := upd f.dsets name (some (.rows s (r ++ data))) } y f') :
    DoesP path Q (do
      let m ← H5.len path name
      H5.resize path name (m + n)
      let n' ← H5.len path name
      let start := if n = 0 then 0 else n' - n
      H5.writeFrom path name start data
      k) f y f' := by
  refine (DoesP.len_rows h).bind ?_
  have hr : DoesP path Q (H5.resize path name (r.length + n)) f ()
      { f with dsets := upd f.dsets name (some (.rows s (r ++ List.replicate n (s.zero (Casts.f32 (0 : α)))))) } := by
    unfold H5.resize
    refine (DoesP.dset h).bind ?_
    have := DoesP.putDset (path := path) hQ name
      (.rows s (r.take (r.length + n) ++ List.replicate (r.length + n - r.length) (s.zero (Casts.f32 (0 : α)))))
    rw [List.take_of_length_le (by omega), Nat.add_sub_cancel_left] at this
    simp only [List.take_of_length_le (show r.length ≤ r.length + n by omega), Nat.add_sub_cancel_left]
    exact this
  refine hr.bind ?_
  refine (DoesP.len_rows (upd_same _ _ _)).bind ?_
  have hs : (if n = 0 then 0 else (r ++ List.replicate n (s.zero (Casts.f32 (0 : α)))).length - n) = r.length := by
    rw [if_neg (by omega)]; simp
  simp only [hs]
  refine DoesP.bind (f' := { f with dsets := upd f.dsets name (some (.rows s (r ++ data))) }) (x := ()) ?_ hk
  unfold H5.writeFrom
  refine (DoesP.dset (upd_same _ _ _)).bind ?_
  refine (DoesP.lift (mapM_fit hd)).bind ?_
  have hlen : data.length = (r ++ List.replicate n (s.zero (Casts.f32 (0 : α)))).length - r.length := by
    simp [hl]
  simp only [if_pos hlen, List.take_left']
  have := DoesP.putDset (path := path) hQ' name (.rows s (r ++ data))
  simp only [upd_upd] at this
  exact this

theorem doesP_appendFields {n L : ℕ} (hn : 1 ≤ n) (hL : n ≤ L) (buf : NS (Buf β)) (hb : BufOk f L buf)
    (hQ : ∀ f', MidAppend f buf n f' → Q f') :
    DoesP path Q (appendFields path n buf) f () (appendedRows f buf n) := by
  induction buf generalizing f with
  | nil => exact DoesP.pure ()
  | cons p rest ih =>
    obtain ⟨name, b⟩ := p
    obtain ⟨r, hr⟩ := hb.dset (name, b) (by simp)
    have hnd := hb.nodup
    simp only [NS.keys, List.map_cons, List.nodup_cons] at hnd
    have hnm : name ∉ NS.keys rest := hnd.1
    simp only at hr
    have hro : f.rowsOf name = r := by simp only [H5.rowsOf, hr]
    have hget : NS.get? ((name, b) :: rest) name = some b := by rw [NS.get?_cons, if_pos rfl]
    refine doesP_appendOne (path := path) (n := n) hr (data := b.rows.take n)
      (fun c hc => hb.ok (name, b) (by simp) c (List.mem_of_mem_take hc)) ?_ hn ?_ ?_ ?_
    · rw [List.length_take, hb.len (name, b) (by simp)]; omega
    · exact hQ f ⟨name, fun k => .inl rfl⟩
    · refine hQ _ ⟨name, fun k => ?_⟩
      by_cases hk : k = name
      · subst hk
        refine .inr ⟨b, hget, .inr ⟨rfl, ?_⟩⟩
        rw [hro]; exact upd_same _ _ _
      · exact .inl (upd_ne _ _ hk)
    · have hb' : BufOk { f with dsets := upd f.dsets name (some (.rows b.shape (r ++ b.rows.take n))) } L rest := by
        refine ⟨hnd.2, fun p hp => hb.len p (by simp [hp]), fun p hp => hb.ok p (by simp [hp]), ?_⟩
        intro p hp
        obtain ⟨r', h'⟩ := hb.dset p (by simp [hp])
        refine ⟨r', ?_⟩
        refine (upd_ne _ _ ?_).trans h'
        intro e; exact hnm (e ▸ List.mem_map.mpr ⟨p, hp, rfl⟩)
      have := ih hb' (fun f' ⟨k0, h0⟩ => hQ f' ⟨k0, fun k => ?_⟩)
      · convert this using 1
        unfold appendedRows
        congr 1
        funext k
        by_cases hk : k = name
        · subst hk
          rw [NS.get?_cons, if_pos rfl, get?_eq_none_of_not_mem hnm]
          simp only [H5.rowsOf, hr, upd_same]
        · rw [NS.get?_cons, if_neg (Ne.symm hk)]
          simp only [H5.rowsOf, upd_ne _ _ hk]
      · by_cases hk : k = name
        · subst hk
          rcases h0 k with h | ⟨b', h, -⟩
          · refine .inr ⟨b, hget, .inl ?_⟩
            rw [h, hro]; exact upd_same _ _ _
          · rw [get?_eq_none_of_not_mem hnm] at h; cases h
        · rcases h0 k with h | ⟨b', h, h'⟩
          · exact .inl (h.trans (upd_ne _ _ hk))
          · refine .inr ⟨b', by rw [NS.get?_cons, if_neg (Ne.symm hk), h], ?_⟩
            simp only [H5.rowsOf, upd_ne _ _ hk] at h' ⊢
            exact h'

theorem doesP_append_h5 {n L : ℕ} (hn : 1 ≤ n) (hL : n ≤ L) (buf : NS (Buf β)) (hb : BufOk f L buf)
    (hQ : ∀ f', MidAppend f buf n f' → Q f') : DoesP path Q (append_h5 path buf n) f () (appendedRows f buf n) :=
  DoesP.openA.bind (doesP_appendFields hn hL buf hb hQ)

theorem doesP_writeStates (last : NS (Cell α)) (h : StatesFit f last)
    (hQ : ∀ f' : H5 α β, (∀ k s r, f.dsets k = some (.rows s r) → f'.dsets k = some (.rows s r)) → Q f') :
    DoesP path Q (writeStates path last) f () (withStates f last) := by
  induction last generalizing f with
  | nil => exact DoesP.pure ()
  | cons p rest ih =>
    obtain ⟨k, v⟩ := p
    obtain ⟨a, a', h1, h2⟩ := h.2 (k, v) (by simp)
    have hnd := h.1
    simp only [NS.keys, List.map_cons, List.nodup_cons] at hnd
    have hnm : k ∉ NS.keys rest := hnd.1
    unfold writeStates
    refine (DoesP.dset h1).bind ?_
    simp only at h1 h2
    simp only [h2]
    refine (DoesP.putDset (hQ f fun _ _ _ h => h) k (.full a')).bind ?_
    have h' : StatesFit { f with dsets := upd f.dsets k (some (.full a')) } rest := by
      refine ⟨hnd.2, fun p hp => ?_⟩
      obtain ⟨b, b', g1, g2⟩ := h.2 p (by simp [hp])
      refine ⟨b, b', ?_, g2⟩
      refine (upd_ne _ _ ?_).trans g1
      intro e; exact hnm (e ▸ List.mem_map.mpr ⟨p, hp, rfl⟩)
    have := ih h' fun f' hf' => hQ f' fun k' s r hk' => hf' k' s r <| by
      refine (upd_ne _ _ ?_).trans hk'
      rintro rfl
      rw [h1] at hk'; cases hk'
    convert this using 1
    unfold withStates
    congr 1
    funext k'
    by_cases hk : k' = k
    · subst hk
      rw [NS.get?_cons, if_pos rfl, get?_eq_none_of_not_mem hnm]
      simp only [upd_same, h1, fitState, h2]
    · rw [NS.get?_cons, if_neg (Ne.symm hk)]
      simp only [upd_ne _ _ hk]

theorem doesP_save {L i : ℕ} (hi : i < L) {buf : NS (Buf β)} (hb : BufOk f L buf) {new_val last : NS (Cell α)}
    (hf : Fits buf new_val) (hs : StatesFit f last)
    (hQ : i + 1 = L → ∀ f', MidAppend f (filled i new_val buf) L f' → Q f')
    (hQ' : ∀ F f' : H5 α β, (∀ k s r, F.dsets k = some (.rows s r) → f'.dsets k = some (.rows s r)) → Q F → Q f') :
    DoesP path Q (save_to_buffered_h5 buf L i new_val path last) f (filled i new_val buf, nextIndex L i)
      (savedFile f L i buf new_val last) := by
  unfold save_to_buffered_h5
  refine (DoesP.lift (fillBuffer_eq hi new_val buf hb.len hf)).bind ?_
  unfold savedFile nextIndex
  by_cases h : i + 1 = L
  · simp only [if_pos h]
    have hb' := bufOk_filled (i := i) hb new_val
    rw [h]
    refine (doesP_append_h5 (by omega) le_rfl _ hb' (hQ h)).bind ?_
    have hF : Q (appendedRows f (filled i new_val buf) L) := by
      refine hQ h _ ⟨"", fun k => ?_⟩
      unfold appendedRows
      simp only
      cases hk : NS.get? (filled i new_val buf) k with
      | none => exact .inl rfl
      | some b => exact .inr ⟨b, rfl, .inl rfl⟩
    cases last with
    | nil => exact DoesP.pure _
    | cons p rest =>
      simp only [List.isEmpty_cons, Bool.not_false, if_true]
      refine DoesP.bind (x := ()) (DoesP.openR.bind ?_) (DoesP.pure _)
      exact doesP_writeStates _ (statesFit_appendedRows hb' _ hs) fun f' hf' => hQ' _ f' hf' hF
  · simp only [if_neg h]
    exact DoesP.pure _

end append

end Verif
