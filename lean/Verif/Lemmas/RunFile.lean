import Verif.Lemmas.Run

/-!
# The file `run.py` writes
-/

set_option linter.unusedSectionVars false

namespace Verif

open H5IO H5 Run

variable {α β X Y : Type}

/-- like `Does`, for a computation that starts by creating or truncating the file -/
def Makes (path : String) (m : IOM α β X) (x : X) (f' : H5 α β) : Prop :=
  ∀ σ : St α β, ∃ σ', m σ = (.ok x, σ') ∧ σ'.fs = upd σ.fs path (some f')

theorem Makes.bind {path : String} {f' f'' : H5 α β} {m : IOM α β X} {k : X → IOM α β Y} {x : X} {y : Y}
    (h1 : Makes path m x f') (h2 : Does path (k x) f' y f'') : Makes path (m >>= k) y f'' := by
  intro σ
  obtain ⟨σ1, e1, g1⟩ := h1 σ
  obtain ⟨σ2, e2, g2⟩ := h2 σ1 (by rw [g1, upd_same])
  exact ⟨σ2, by rw [IOM.bind_ok e1, e2], by rw [g2, g1, upd_upd]⟩

theorem Makes.after {path : String} {f' : H5 α β} {x : Py X} {k : X → IOM α β Y} {a : X} {y : Y} (h : x = .ok a)
    (h2 : Makes path (k a) y f') : Makes path (IOM.lift x >>= k) y f' := by
  subst h
  exact h2

theorem makes_openW (path : String) : Makes path (openW path : IOM α β Unit) () H5.empty := fun _ => ⟨_, rfl, rfl⟩

variable [Casts α β] [Zero α] [Inhabited α] [Inhabited β]

theorem H5.ext' {f g : H5 α β} (h1 : f.dsets = g.dsets) (h2 : f.attrs = g.attrs) : f = g := by
  cases f; cases g; simp_all

theorem does_createRows {path : String} (shape : RowShape) (names : List String) (hn : names.Nodup) (f : H5 α β)
    (hf : ∀ k ∈ names, f.dsets k = none) :
    Does path (createRows path shape names) f ()
      { f with dsets := fun k => if k ∈ names then some (.rows shape []) else f.dsets k } := by
  induction names generalizing f with
  | nil => exact Does.pure ()
  | cons k0 names ih =>
    rw [List.nodup_cons] at hn
    unfold createRows
    refine (Does.createDset _ (hf k0 (by simp))).bind ?_
    convert ih hn.2 _ (fun k hk => ?_) using 1
    · refine H5.ext' ?_ rfl
      funext k
      by_cases h : k = k0
      · subst h; simp [hn.1]
      · simp [h, upd_ne]
    · refine (upd_ne _ _ ?_).trans (hf k (by simp [hk]))
      rintro rfl; exact hn.1 hk

theorem does_createStates {path : String} (y x : ℕ) (names : List String) (hn : names.Nodup) (f : H5 α β)
    (hf : ∀ k ∈ names, f.dsets ("state_" ++ k) = none) :
    Does path (createStates path y x names) f ()
      { f with dsets := fun k => if k ∈ names.map ("state_" ++ ·) then some (.full (Arr.tab y x fun _ _ => 0))
          else f.dsets k } := by
  induction names generalizing f with
  | nil => exact Does.pure ()
  | cons k0 names ih =>
    rw [List.nodup_cons] at hn
    unfold createStates
    refine (Does.createDset _ (hf k0 (by simp))).bind ?_
    convert ih hn.2 _ (fun k hk => ?_) using 1
    · refine H5.ext' ?_ rfl
      funext k
      by_cases h : k = "state_" ++ k0
      · subst h
        simp only [List.map_cons, List.mem_cons, true_or, if_true, upd_same]
        rw [if_neg]
        intro hm
        obtain ⟨k', hk', e⟩ := List.mem_map.mp hm
        exact hn.1 (state_inj e ▸ hk')
      · simp only [List.map_cons, List.mem_cons, h, false_or, upd_ne _ _ h]
    · refine (upd_ne _ _ ?_).trans (hf k (by simp [hk]))
      intro e; exact hn.1 (state_inj e ▸ hk)

theorem does_setAttrs {path : String} (params : NS (Attr α)) (hn : params.keys.Nodup) (f : H5 α β) :
    Does path (setAttrs path params) f ()
      { f with attrs := fun k => (params.get? k).or (f.attrs k) } := by
  induction params generalizing f with
  | nil => exact Does.pure ()
  | cons p params ih =>
    obtain ⟨k0, v⟩ := p
    simp only [NS.keys, List.map_cons, List.nodup_cons] at hn
    unfold setAttrs
    refine (Does.setAttr _ _).bind ?_
    convert ih hn.2 _ using 1
    refine H5.ext' rfl ?_
    funext k
    simp only [NS.get?_cons]
    by_cases h : k = k0
    · subst h
      simp [get?_eq_none_of_not_mem (ns := params) hn.1]
    · simp [Ne.symm h, upd_ne _ _ h]

/-- names of the state datasets -/
def stateNames : List String := ["density", "phi", "omega"].map ("state_" ++ ·)

/-- contents of a new file -/
def createdFile (params : NS (Attr α)) (y_save x_save y x : ℕ) (field_list properties : List String)
    (add_last_state : Bool) : H5 α β where
  dsets k :=
    if add_last_state = true ∧ k ∈ stateNames then some (.full (Arr.tab y x fun _ _ => 0))
    else if k ∈ properties then some (.rows .one [])
    else if k ∈ field_list then some (.rows (.grid y_save x_save) [])
    else none
  attrs k := params.get? k

theorem makes_create {path : String} (params : NS (Attr α)) (hp : params.keys.Nodup) (y_save x_save y x : ℕ)
    (field_list properties : List String) (hf : field_list.Nodup) (hpr : properties.Nodup)
    (hd : ∀ k ∈ properties, k ∉ field_list) (hs : ∀ k ∈ stateNames, k ∉ field_list ∧ k ∉ properties) (flag : Bool) :
    Makes path (create_appendable_h5 path params y_save x_save y x field_list properties flag : IOM α β Unit) ()
      (createdFile params y_save x_save y x field_list properties flag) := by
  unfold create_appendable_h5
  refine (makes_openW path).bind ?_
  refine (does_createRows _ _ hf _ fun k _ => rfl).bind ?_
  refine (does_createRows _ _ hpr _ ?_).bind ?_
  · intro k hk
    simp only [hd k hk, if_false]; rfl
  · have hattr : ∀ (f f' : H5 α β), f'.dsets = f.dsets → f.attrs = (fun _ => none) →
        (fun k => params.get? k) = f'.attrs → Does path (setAttrs path params) f () f' := by
      intro f f' h1 h2 h3
      convert does_setAttrs params hp f using 1
      refine H5.ext' h1 ?_
      rw [← h3]; funext k; simp [h2]
    cases flag
    · refine hattr _ _ ?_ rfl rfl
      unfold createdFile
      funext k
      simp only [Bool.false_eq_true, false_and, if_false]; rfl
    · refine (does_createStates _ _ _ (by decide) _ ?_).bind ?_
      · intro k hk
        have := hs ("state_" ++ k) (List.mem_map.mpr ⟨k, hk, rfl⟩)
        simp only [this.1, this.2, if_false]; rfl
      · refine hattr _ _ ?_ rfl rfl
        unfold createdFile
        funext k
        simp only [true_and]; rfl

/-! ### buffers and saves -/

variable [FloatOps α]

/-- everything that stays fixed while frames are saved: the buffers have one entry
per field, one for the time and (`run2`) one for every name in `props` -/
structure FrameBuf (ns : ℕ) (props : List String) (buf : NS (Buf β)) : Prop where
  keys : ∀ p ∈ buf, (p.1 = "time" ∧ p.2.shape = .one) ∨ (p.1 ∈ fieldList ∧ p.2.shape = .grid ns ns) ∨
    (∃ name ∈ props, p.1 = "fullres_" ++ name ∧ p.2.shape = .one)

theorem frameBuf_zero (L ns : ℕ) : FrameBuf ns [] (zeroBuffer (α := α) L ns ns : NS (Buf β)) := by
  refine ⟨fun p hp => ?_⟩
  simp only [zeroBuffer, fieldList, List.map_cons, List.map_nil, List.cons_append, List.nil_append, List.mem_cons,
    List.not_mem_nil, or_false] at hp
  rcases hp with rfl | rfl | rfl | rfl <;> simp [fieldList]

theorem recorded_arr {E : Env α β} {factor : α} {n ns : ℕ} (hs : SavesAs E factor n ns) {A : Arr α}
    (h1 : A.h = n) (h2 : A.w = n) :
    ∃ B : Arr α, recordedValue E factor (.arr A) = .ok (.arr B) ∧ B.h = ns ∧ B.w = ns := by
  unfold recordedValue
  by_cases hd : downsampling factor = true
  · rw [if_pos hd]; exact hs.down hd A h1 h2
  · rw [if_neg hd]
    have := hs.dim
    unfold saveDim at this
    rw [if_neg hd] at this
    injection this with this
    exact ⟨A, rfl, by rw [h1, this], by rw [h2, this]⟩

theorem IsSave.fits {E : Env α β} {factor : α} {flag : Bool} {t : α} {plasma : NS (Cell α)}
    {v : NS (Cell α) × NS (Cell α)} (h : IsSave E factor flag t plasma v) {n ns : ℕ} (hs : SavesAs E factor n ns)
    (hp : Shaped n plasma) {props : List String} (hpr : ∀ name ∈ props, ∃ x, v.1.get? ("fullres_" ++ name) = some (.num x))
    {buf : NS (Buf β)} (hb : FrameBuf ns props buf) : Fits buf v.1 := by
  intro p hpb
  rcases hb.keys p hpb with ⟨h1, h2⟩ | ⟨h1, h2⟩ | ⟨name, h1, h2, h3⟩
  · exact ⟨.num t, .num (Casts.f32 t), by rw [h1, h.time], by rw [h2]; rfl⟩
  · obtain ⟨A, hA, a1, a2⟩ := hp.fields p.1 h1
    obtain ⟨B, hB, b1, b2⟩ := recorded_arr hs a1 a2
    refine ⟨.arr B, .arr (B.map Casts.f32), h.field p.1 h1 _ _ hA hB, ?_⟩
    rw [h2, ← b1]
    nth_rw 2 [b1]
    rw [← b2]
    exact RowShape.assign_grid _ B
  · obtain ⟨x, hx⟩ := hpr name h1
    exact ⟨.num x, .num (Casts.f32 x), by rw [h2, hx], by rw [h3]; rfl⟩

/-- the stored row is the row the specification asks for -/
theorem IsSave.row {E : Env α β} {factor : α} {flag : Bool} {t : α} {plasma : NS (Cell α)}
    {v : NS (Cell α) × NS (Cell α)} (h : IsSave E factor flag t plasma v) {n ns : ℕ} (hs : SavesAs E factor n ns)
    (hp : Shaped n plasma) {k : String} {s : RowShape}
    (hk : (k = "time" ∧ s = .one) ∨ (k ∈ fieldList ∧ s = .grid ns ns)) :
    IsFrameRow E factor k t plasma (stored s v.1 k : Cell β) := by
  unfold IsFrameRow
  rcases hk with ⟨rfl, rfl⟩ | ⟨h1, rfl⟩
  · rw [if_pos rfl]
    exact stored_eq h.time rfl
  · rw [if_neg (fieldList_ne_time h1)]
    obtain ⟨A, hA, a1, a2⟩ := hp.fields k h1
    obtain ⟨B, hB, b1, b2⟩ := recorded_arr hs a1 a2
    refine ⟨A, B, hA, hB, stored_eq (h.field k h1 _ _ hA hB) ?_⟩
    rw [← b1]
    nth_rw 2 [b1]
    rw [← b2]
    exact RowShape.assign_grid _ B

/-- the `state_*` datasets exist (if they are written at all) -/
def HasStates (f : H5 α β) (n : ℕ) : Prop :=
  ∀ k ∈ fieldList, ∃ a : Arr α, f.dsets ("state_" ++ k) = some (.full a) ∧ a.h = n ∧ a.w = n

theorem IsSave.statesFit {E : Env α β} {factor : α} {flag : Bool} {t : α} {plasma : NS (Cell α)}
    {v : NS (Cell α) × NS (Cell α)} (h : IsSave E factor flag t plasma v) {n : ℕ} (hp : Shaped n plasma) {f : H5 α β}
    (hf : flag = true → HasStates f n) : StatesFit f v.2 := by
  refine ⟨h.nodup, fun p hpv => ?_⟩
  cases hfl : flag with
  | false => rw [h.stateOff hfl] at hpv; cases hpv
  | true =>
    obtain ⟨k, hk, e⟩ := h.keys p.1 (List.mem_map.mpr ⟨p, hpv, rfl⟩)
    obtain ⟨a, ha, a1, a2⟩ := hf hfl k hk
    obtain ⟨A, hA, b1, b2⟩ := hp.fields k hk
    have h2 := h.stateOn hfl k hk
    rw [← e, NS.get?_of_mem h.nodup hpv, hA] at h2
    injection h2 with h2
    refine ⟨a, A, by rw [e, ha], ?_⟩
    rw [h2, a1, a2, ← b1]
    nth_rw 2 [b1]
    rw [← b2, RowShape.assign_grid]
    rfl

end Verif
