import Verif.Spec.Run
import Verif.Lemmas.NSSet

/-!
# Evaluation of `run.py`
-/

set_option linter.unusedSectionVars false

namespace Verif

open H5IO H5 Run

variable {α β : Type} [Casts α β] [Zero α] [Inhabited α] [Inhabited β] [FloatOps α]

theorem isField_iff {k : String} : isField k = true ↔ k ∈ fieldList := by
  simp only [isField, fieldList, decide_eq_true_eq, List.mem_cons, List.not_mem_nil, or_false]
  tauto

theorem state_inj {k k' : String} (h : "state_" ++ k = "state_" ++ k') : k = k' := by
  have := congrArg String.toList h
  rw [String.toList_append, String.toList_append] at this
  exact String.toList_injective (List.append_cancel_left this)

theorem frameLoop_ok {E : Env α β} {factor : α} {n ns : ℕ} (hs : SavesAs E factor n ns) (flag : Bool)
    (rest nv last : NS (Cell α)) (hn : rest.keys.Nodup)
    (hA : ∀ p ∈ rest, isField p.1 = true → ∃ A : Arr α, p.2 = .arr A ∧ A.h = n ∧ A.w = n) :
    ∃ nv' last', frameLoop E factor flag rest nv last = .ok (nv', last') ∧
      (∀ k, isField k = false ∨ k ∉ rest.keys → nv'.get? k = nv.get? k) ∧
      (∀ k v w, isField k = true → rest.get? k = some v → nv.get? k = some v → recordedValue E factor v = .ok w →
        nv'.get? k = some w) ∧
      (∀ k, k ∉ rest.keys → last'.get? ("state_" ++ k) = last.get? ("state_" ++ k)) ∧
      (∀ k v, isField k = true → flag = true → rest.get? k = some v → last'.get? ("state_" ++ k) = some v) ∧
      (last.keys.Nodup → last'.keys.Nodup) ∧
      (∀ key ∈ last'.keys, key ∈ last.keys ∨ (flag = true ∧ ∃ k ∈ rest.keys, isField k = true ∧ key = "state_" ++ k)) := by
  induction rest generalizing nv last with
  | nil =>
    exact ⟨nv, last, rfl, fun _ _ => rfl, fun _ _ _ _ h => by simp [NS.get?_nil] at h, fun _ _ => rfl,
      fun _ _ _ _ h => by simp [NS.get?_nil] at h, id, fun _ h => .inl h⟩
  | cons p rest ih =>
    obtain ⟨k0, v0⟩ := p
    simp only [NS.keys, List.map_cons, List.nodup_cons] at hn
    have hk0 : k0 ∉ NS.keys rest := hn.1
    have hA' := fun p (hp : p ∈ rest) => hA p (List.mem_cons_of_mem _ hp)
    have hmem : ∀ k, k ∉ NS.keys ((k0, v0) :: rest) ↔ k ≠ k0 ∧ k ∉ NS.keys rest := by
      intro k; simp [NS.keys]
    unfold frameLoop
    by_cases hf : isField k0 = true
    · rw [if_pos hf]
      obtain ⟨A, rfl, hAh, hAw⟩ := hA (k0, v0) (by simp) hf
      -- the new `new_val`
      have hstep : ∃ nv1, putDown E factor k0 (.arr A) nv = .ok nv1 ∧ (∀ k, k ≠ k0 → nv1.get? k = nv.get? k) ∧
          (∀ w, nv.get? k0 = some (.arr A) → recordedValue E factor (.arr A) = .ok w → nv1.get? k0 = some w) := by
        by_cases hd : downsampling factor = true
        · obtain ⟨B, hB, -⟩ := hs.down hd A hAh hAw
          refine ⟨nv.set k0 (.arr B), by unfold putDown; rw [if_pos hd, hB]; rfl, fun k hk => by rw [NS.get?_set, if_neg hk], ?_⟩
          intro w _ hw
          unfold recordedValue at hw
          rw [if_pos hd, hB] at hw
          injection hw with hw
          rw [NS.get?_set, if_pos rfl, hw]
        · refine ⟨nv, by unfold putDown; rw [if_neg hd], fun _ _ => rfl, ?_⟩
          intro w h hw
          unfold recordedValue at hw
          rw [if_neg hd] at hw
          injection hw with hw
          rw [h, hw]
      obtain ⟨nv1, e1, g1, g2⟩ := hstep
      rw [e1, Py.ok_bind]
      generalize hl1 : (if flag = true then last.set ("state_" ++ k0) (.arr A) else last) = last1
      obtain ⟨nv', last', e, p1, p2, p3, p4, p5, p6⟩ := ih nv1 last1 hn.2 hA'
      refine ⟨nv', last', e, ?_, ?_, ?_, ?_, ?_, ?_⟩
      · intro k hk
        have hk' : k ≠ k0 := by
          rcases hk with hk | hk
          · intro e; rw [e, hf] at hk; cases hk
          · exact ((hmem k).mp hk).1
        rw [p1 k (hk.imp id fun h => ((hmem k).mp h).2), g1 k hk']
      · intro k v w hkf hkr hkn hw
        rw [NS.get?_cons] at hkr
        by_cases hk : k0 = k
        · subst hk
          rw [if_pos rfl] at hkr
          injection hkr with hkr; subst hkr
          rw [p1 k0 (.inr hk0)]
          exact g2 w hkn hw
        · rw [if_neg hk] at hkr
          exact p2 k v w hkf hkr (by rw [g1 k (Ne.symm hk), hkn]) hw
      · intro k hk
        obtain ⟨h1, h2⟩ := (hmem k).mp hk
        rw [p3 k h2, ← hl1]
        split
        · rw [NS.get?_set, if_neg]
          intro e; exact h1 (state_inj e)
        · rfl
      · intro k v hkf hfl hkr
        rw [NS.get?_cons] at hkr
        by_cases hk : k0 = k
        · subst hk
          rw [if_pos rfl] at hkr
          injection hkr with hkr; subst hkr
          rw [p3 k0 hk0, ← hl1, if_pos hfl, NS.get?_set, if_pos rfl]
        · rw [if_neg hk] at hkr
          exact p4 k v hkf hfl hkr
      · intro hl
        apply p5
        rw [← hl1]
        split
        · exact NS.nodup_set hl _ _
        · exact hl
      · intro key hkey
        rcases p6 key hkey with h | ⟨h1, k, h2, h3, h4⟩
        · rw [← hl1] at h
          by_cases hfl : flag = true
          · rw [if_pos hfl, NS.mem_keys_set] at h
            rcases h with h | h
            · exact .inr ⟨hfl, k0, by simp [NS.keys], hf, h⟩
            · exact .inl h
          · rw [if_neg hfl] at h
            exact .inl h
        · exact .inr ⟨h1, k, by simp only [NS.keys, List.map_cons]; exact List.mem_cons_of_mem _ h2, h3, h4⟩
    · rw [if_neg hf]
      obtain ⟨nv', last', e, p1, p2, p3, p4, p5, p6⟩ := ih nv last hn.2 hA'
      have hf' : isField k0 = false := by simpa using hf
      refine ⟨nv', last', e, ?_, ?_, ?_, ?_, p5, ?_⟩
      · intro k hk
        exact p1 k (hk.imp id fun h => ((hmem k).mp h).2)
      · intro k v w hkf hkr hkn hw
        rw [NS.get?_cons, if_neg] at hkr
        · exact p2 k v w hkf hkr hkn hw
        · intro e; simp only at e; rw [e] at hf; exact hf hkf
      · intro k hk
        exact p3 k ((hmem k).mp hk).2
      · intro k v hkf hfl hkr
        rw [NS.get?_cons, if_neg] at hkr
        · exact p4 k v hkf hfl hkr
        · intro e; simp only at e; rw [e] at hf; exact hf hkf
      · intro key hkey
        rcases p6 key hkey with h | ⟨h1, k, h2, h3, h4⟩
        · exact .inl h
        · exact .inr ⟨h1, k, by simp only [NS.keys, List.map_cons]; exact List.mem_cons_of_mem _ h2, h3, h4⟩

/-! ### one frame -/

/-- `(new_val, last_state)` is a correct save of the state `plasma` at time `t` -/
structure IsSave (E : Env α β) (factor : α) (flag : Bool) (t : α) (plasma : NS (Cell α))
    (v : NS (Cell α) × NS (Cell α)) : Prop where
  time : v.1.get? "time" = some (.num t)
  field : ∀ k ∈ fieldList, ∀ u w, plasma.get? k = some u → recordedValue E factor u = .ok w → v.1.get? k = some w
  stateOn : flag = true → ∀ k ∈ fieldList, v.2.get? ("state_" ++ k) = plasma.get? k
  stateOff : flag = false → v.2 = []
  nodup : v.2.keys.Nodup
  keys : ∀ key ∈ v.2.keys, ∃ k ∈ fieldList, key = "state_" ++ k

theorem Shaped.mem {n : ℕ} {plasma : NS (Cell α)} (h : Shaped n plasma) :
    ∀ p ∈ plasma, isField p.1 = true → ∃ A : Arr α, p.2 = .arr A ∧ A.h = n ∧ A.w = n := by
  intro p hp hf
  obtain ⟨A, hA, h1, h2⟩ := h.fields p.1 (isField_iff.mp hf)
  rw [NS.get?_of_mem h.nodup hp] at hA
  injection hA with hA
  exact ⟨A, hA, h1, h2⟩

theorem not_field_time : isField "time" = false := by simp [isField]

/-- the frame of the loop (`time` is entered before the downsampled values) -/
theorem frameLoop_save {E : Env α β} {factor : α} {n ns : ℕ} (hs : SavesAs E factor n ns) (flag : Bool)
    {plasma : NS (Cell α)} (hp : Shaped n plasma) (nv : NS (Cell α))
    (hnv : ∀ k ∈ fieldList, nv.get? k = plasma.get? k) :
    ∃ v, frameLoop E factor flag plasma nv [] = .ok v ∧ (∀ k ∉ fieldList, v.1.get? k = nv.get? k) ∧
      ∀ (t : α) (nv' : NS (Cell α)), nv'.get? "time" = some (.num t) → (∀ k ∈ fieldList, nv'.get? k = v.1.get? k) →
        IsSave E factor flag t plasma (nv', v.2) := by
  obtain ⟨nv', last', e, p1, p2, p3, p4, p5, p6⟩ := frameLoop_ok hs flag plasma nv [] hp.nodup hp.mem
  refine ⟨(nv', last'), e, ?_, ?_⟩
  · intro k hk
    exact p1 k (.inl (by rw [← Bool.not_eq_true, isField_iff]; exact hk))
  · intro t nv'' ht hf
    refine ⟨ht, ?_, ?_, ?_, p5 (by simp [NS.keys]), ?_⟩
    · intro k hk u w hu hw
      simp only
      rw [hf k hk]
      exact p2 k u w (isField_iff.mpr hk) hu (by rw [hnv k hk, hu]) hw
    · intro hfl k hk
      obtain ⟨A, hA, -⟩ := hp.fields k hk
      rw [hA]
      exact p4 k _ (isField_iff.mpr hk) hfl hA
    · intro hfl
      simp only
      cases last' with
      | nil => rfl
      | cons q r =>
        rcases p6 q.1 (by simp [NS.keys]) with h | ⟨h, -⟩
        · simp [NS.keys] at h
        · rw [hfl] at h; cases h
    · intro key hkey
      rcases p6 key hkey with h | ⟨-, k, -, h3, h4⟩
      · simp [NS.keys] at h
      · exact ⟨k, isField_iff.mp h3, h4⟩

theorem get?_fieldsOf (plasma : NS (Cell α)) (k : String) :
    (fieldsOf plasma).get? k = if isField k then plasma.get? k else none := NS.get?_filter plasma isField k

/-- what `run` saves for the state `plasma` at time `t` -/
def theSave (E : Env α β) (factor : α) (flag : Bool) (t : α) (plasma : NS (Cell α)) : NS (Cell α) × NS (Cell α) :=
  match frameLoop E factor flag plasma ((fieldsOf plasma).set "time" (.num t)) [] with
  | .ok v => v
  | .error _ => ([], [])

theorem fieldList_ne_time {k : String} (h : k ∈ fieldList) : k ≠ "time" := by
  rintro rfl; revert h; decide

theorem theSave_ok {E : Env α β} {factor : α} {n ns : ℕ} (hs : SavesAs E factor n ns) (flag : Bool)
    {plasma : NS (Cell α)} (hp : Shaped n plasma) (t : α) :
    frameLoop E factor flag plasma ((fieldsOf plasma).set "time" (.num t)) [] = .ok (theSave E factor flag t plasma) ∧
      IsSave E factor flag t plasma (theSave E factor flag t plasma) := by
  obtain ⟨v, e, h1, h2⟩ := frameLoop_save hs flag hp ((fieldsOf plasma).set "time" (.num t)) (by
    intro k hk
    rw [NS.get?_set, if_neg (fieldList_ne_time hk), get?_fieldsOf, if_pos (isField_iff.mpr hk)])
  have : theSave E factor flag t plasma = v := by unfold theSave; rw [e]
  rw [this]
  refine ⟨e, ?_⟩
  have := h2 t v.1 (by rw [h1 "time" (by decide), NS.get?_set, if_pos rfl]) fun _ _ => rfl
  exact this

/-- the initial save of `run` (`time` is entered last) -/
def firstSave (E : Env α β) (factor : α) (flag : Bool) (t : α) (plasma : NS (Cell α)) : NS (Cell α) × NS (Cell α) :=
  match frameLoop E factor flag plasma (fieldsOf plasma) [] with
  | .ok v => (v.1.set "time" (.num t), v.2)
  | .error _ => ([], [])

theorem firstSave_ok {E : Env α β} {factor : α} {n ns : ℕ} (hs : SavesAs E factor n ns) (flag : Bool)
    {plasma : NS (Cell α)} (hp : Shaped n plasma) (t : α) :
    ∃ v, frameLoop E factor flag plasma (fieldsOf plasma) [] = .ok v ∧
      firstSave E factor flag t plasma = (v.1.set "time" (.num t), v.2) ∧
      IsSave E factor flag t plasma (firstSave E factor flag t plasma) := by
  obtain ⟨v, e, h1, h2⟩ := frameLoop_save hs flag hp (fieldsOf plasma) (by
    intro k hk
    rw [get?_fieldsOf, if_pos (isField_iff.mpr hk)])
  have : firstSave E factor flag t plasma = (v.1.set "time" (.num t), v.2) := by unfold firstSave; rw [e]
  rw [this]
  refine ⟨v, e, rfl, ?_⟩
  refine h2 t _ (by rw [NS.get?_set, if_pos rfl]) fun k hk => ?_
  rw [NS.get?_set, if_neg (fieldList_ne_time hk)]

end Verif
