import Verif.Lemmas.IO

/-!
# Crash points

`Tr pre P m post`: started in a file system satisfying `pre`, every file system
that exists during `m` satisfies `P`, and after a normal return `post` holds.
-/

set_option linter.unusedSectionVars false

namespace Verif

open H5IO H5

variable {α β X Y : Type}

/-- see the head of the file -/
def Tr (pre P : FS α β → Prop) (m : IOM α β X) (post : X → FS α β → Prop) : Prop :=
  ∀ σ : St α β, pre σ.fs → ∃ l, (m σ).2.past = σ.past ++ l ∧ (∀ g ∈ l, P g) ∧ P (m σ).2.fs ∧
    ∀ x, (m σ).1 = .ok x → post x (m σ).2.fs

namespace Tr

variable {pre P : FS α β → Prop}

theorem weaken {m : IOM α β X} {post : X → FS α β → Prop} (h : Tr pre P m post) {pre' P' : FS α β → Prop}
    {post' : X → FS α β → Prop} (h1 : ∀ g, pre' g → pre g) (h2 : ∀ g, P g → P' g)
    (h3 : ∀ x g, post x g → post' x g) : Tr pre' P' m post' := by
  intro σ hσ
  obtain ⟨l, e, a, b, c⟩ := h σ (h1 _ hσ)
  exact ⟨l, e, fun g hg => h2 g (a g hg), h2 _ b, fun x hx => h3 x _ (c x hx)⟩

theorem bind {m : IOM α β X} {k : X → IOM α β Y} {mid : X → FS α β → Prop} {post : Y → FS α β → Prop}
    (h1 : Tr pre P m mid) (h2 : ∀ x, Tr (mid x) P (k x) post) : Tr pre P (m >>= k) post := by
  intro σ hσ
  obtain ⟨l, e, a, b, c⟩ := h1 σ hσ
  rcases hm : m σ with ⟨r, σ'⟩
  rw [hm] at e b c
  cases r with
  | error er =>
    rw [IOM.bind_error hm]
    exact ⟨l, e, a, b, fun x hx => by cases hx⟩
  | ok x =>
    rw [IOM.bind_ok hm]
    obtain ⟨l', e', a', b', c'⟩ := h2 x σ' (c x rfl)
    refine ⟨l ++ l', ?_, ?_, b', c'⟩
    · rw [e']; simp only at e; rw [e, List.append_assoc]
    · intro g hg
      rcases List.mem_append.mp hg with h | h
      · exact a g h
      · exact a' g h

/-- computations that do not change the file system -/
theorem read {m : IOM α β X} (hm : ∀ σ, (m σ).2 = σ) (h : ∀ g, pre g → P g) {post : X → FS α β → Prop}
    (hp : ∀ σ x, pre σ.fs → (m σ).1 = .ok x → post x σ.fs) : Tr pre P m post := by
  intro σ hσ
  refine ⟨[], by rw [hm, List.append_nil], by simp, by rw [hm]; exact h _ hσ, ?_⟩
  intro x hx
  rw [hm]; exact hp σ x hσ hx

theorem pure (x : X) (h : ∀ g, pre g → P g) {post : X → FS α β → Prop} (hp : ∀ g, pre g → post x g) :
    Tr pre P (Pure.pure x : IOM α β X) post := by
  refine read (fun σ => rfl) h ?_
  intro σ y hσ e
  injection e with e
  subst e; exact hp _ hσ

theorem raise (e : PyErr) (h : ∀ g, pre g → P g) {post : X → FS α β → Prop} :
    Tr pre P (IOM.raise e : IOM α β X) post :=
  read (fun σ => rfl) h fun σ y hσ e => by cases e

theorem lift (y : Py X) (h : ∀ g, pre g → P g) {post : X → FS α β → Prop}
    (hp : ∀ g x, pre g → y = .ok x → post x g) : Tr pre P (IOM.lift y : IOM α β X) post :=
  read (fun _ => rfl) h fun _ x hσ e => hp _ x hσ e

theorem content (path : String) (h : ∀ g, pre g → P g) :
    Tr pre P (H5.content path : IOM α β _) fun f g => pre g ∧ g path = some f := by
  refine read (fun σ => ?_) h ?_
  · unfold H5.content; cases σ.fs path <;> rfl
  · intro σ x hσ e
    unfold H5.content at e
    cases hf : σ.fs path with
    | none => rw [hf] at e; cases e
    | some f =>
      rw [hf] at e; injection e with e; subst e
      exact ⟨hσ, rfl⟩

theorem mutate (F : FS α β → FS α β) (h : ∀ g, pre g → P g) {post : Unit → FS α β → Prop}
    (hp : ∀ g, pre g → P (F g) ∧ post () (F g)) : Tr pre P (IOM.mutate F : IOM α β Unit) post := by
  intro σ hσ
  refine ⟨[σ.fs], rfl, ?_, (hp _ hσ).1, fun x _ => (hp _ hσ).2⟩
  intro g hg
  rw [List.mem_singleton] at hg
  subst hg; exact h _ hσ

theorem dset (path name : String) (h : ∀ g, pre g → P g) :
    Tr pre P (H5.dset path name : IOM α β _) fun d g => pre g ∧ ∃ f, g path = some f ∧ f.dsets name = some d := by
  refine (content path h).bind fun f => ?_
  cases hd : f.dsets name with
  | none => exact raise _ fun g hg => h g hg.1
  | some d =>
    exact pure d (fun g hg => h g hg.1) fun g hg => ⟨hg.1, f, hg.2, hd⟩

theorem putDset (path name : String) (d : Dset α β) (h : ∀ g, pre g → P g) {post : Unit → FS α β → Prop}
    (hp : ∀ g f, pre g → g path = some f →
      P (upd g path (some { f with dsets := upd f.dsets name (some d) })) ∧
      post () (upd g path (some { f with dsets := upd f.dsets name (some d) }))) :
    Tr pre P (H5.putDset path name d : IOM α β Unit) post := by
  refine (content path h).bind fun f => ?_
  exact mutate _ (fun g hg => h g hg.1) fun g hg => hp g f hg.1 hg.2

theorem openA (path : String) (h : ∀ g, pre g → P g) (hex : ∀ g, pre g → ∃ f, g path = some f) :
    Tr pre P (H5.openA path : IOM α β Unit) fun _ g => pre g := by
  intro σ hσ
  obtain ⟨f, hf⟩ := hex _ hσ
  have e : H5.openA path σ = (.ok (), σ) := by unfold H5.openA; rw [hf]
  rw [e]
  exact ⟨[], by simp, by simp, h _ hσ, fun _ _ => hσ⟩

theorem crashStates {m : IOM α β X} {post : X → FS α β → Prop} (h : Tr pre P m post) {fs : FS α β} (hf : pre fs) :
    ∀ g ∈ IOM.crashStates m fs, P g := by
  obtain ⟨l, e, a, b, -⟩ := h ⟨fs, []⟩ hf
  intro g hg
  unfold IOM.crashStates at hg
  simp only [e, List.nil_append, List.mem_append, List.mem_singleton] at hg
  rcases hg with hg | rfl
  · exact a g hg
  · exact b

end Tr

section append

variable [Casts α β] [Zero α] [Inhabited α] [Inhabited β]

/-- `g` is `fs` with 0 or `n` rows appended to the datasets of `path`, none to
those in `todo` -/
structure Grown (path : String) (fs : FS α β) (f0 : H5 α β) (n : ℕ) (todo : List String) (g : FS α β) : Prop where
  other : ∀ q, q ≠ path → g q = fs q
  file : ∃ f, g path = some f ∧ f.attrs = f0.attrs ∧
    (∀ k s r, f0.dsets k = some (.rows s r) →
      ∃ e, f.dsets k = some (.rows s (r ++ e)) ∧ (e.length = 0 ∨ e.length = n) ∧ (k ∈ todo → e = [])) ∧
    (∀ k, (∀ s r, f0.dsets k ≠ some (.rows s r)) → f.dsets k = f0.dsets k)

variable {path : String} {fs : FS α β} {f0 : H5 α β} {n : ℕ}

theorem Grown.mono {todo todo' : List String} {g : FS α β} (h : Grown path fs f0 n todo g) (hs : todo' ⊆ todo) :
    Grown path fs f0 n todo' g := by
  obtain ⟨f, h1, h2, h3, h4⟩ := h.file
  refine ⟨h.other, f, h1, h2, ?_, h4⟩
  intro k s r hk
  obtain ⟨e, a, b, c⟩ := h3 k s r hk
  exact ⟨e, a, b, fun hk' => c (hs hk')⟩

/-- storing `r0 ++ e` in the dataset `name` -/
theorem Grown.put {todo : List String} {g : FS α β} (h : Grown path fs f0 n todo g) {f : H5 α β} (hf : g path = some f)
    {name : String} {s : RowShape} {r0 e : List (Cell β)} (hd : f0.dsets name = some (.rows s r0))
    (he : e.length = 0 ∨ e.length = n) (hnt : name ∉ todo) :
    Grown path fs f0 n todo (upd g path (some { f with dsets := upd f.dsets name (some (.rows s (r0 ++ e))) })) := by
  obtain ⟨f', h1, h2, h3, h4⟩ := h.file
  have : f' = f := by rw [hf] at h1; exact (Option.some.inj h1).symm
  subst this
  refine ⟨fun q hq => by rw [upd_ne _ _ hq]; exact h.other q hq, _, upd_same _ _ _, h2, ?_, ?_⟩
  · intro k s' r hk
    by_cases hkn : k = name
    · subst hkn
      rw [hd] at hk
      injection hk with hk; injection hk with hk1 hk2
      subst hk1; subst hk2
      exact ⟨e, upd_same _ _ _, he, fun hk => absurd hk hnt⟩
    · obtain ⟨e', a, b, c⟩ := h3 k s' r hk
      exact ⟨e', (upd_ne _ _ hkn).trans a, b, c⟩
  · intro k hk
    have hkn : k ≠ name := by rintro rfl; exact hk s r0 hd
    exact (upd_ne _ _ hkn).trans (h4 k hk)

theorem tr_len (name : String) {pre P : FS α β → Prop} (h : ∀ g, pre g → P g) :
    Tr pre P (H5.len path name : IOM α β ℕ) fun m g => pre g ∧ ∃ f, g path = some f ∧
      ∀ s r, f.dsets name = some (.rows s r) → m = r.length := by
  refine (Tr.dset path name h).bind fun d => ?_
  cases d with
  | rows s r =>
    refine Tr.pure _ (fun g hg => h g hg.1) fun g hg => ⟨hg.1, ?_⟩
    obtain ⟨f, h1, h2⟩ := hg.2
    refine ⟨f, h1, fun s' r' h3 => ?_⟩
    rw [h2] at h3; injection h3 with h3; injection h3 with _ h3; rw [h3]
  | full a =>
    refine Tr.pure _ (fun g hg => h g hg.1) fun g hg => ⟨hg.1, ?_⟩
    obtain ⟨f, h1, h2⟩ := hg.2
    exact ⟨f, h1, fun s' r' h3 => by rw [h2] at h3; cases h3⟩
  | flat a =>
    refine Tr.pure _ (fun g hg => h g hg.1) fun g hg => ⟨hg.1, ?_⟩
    obtain ⟨f, h1, h2⟩ := hg.2
    exact ⟨f, h1, fun s' r' h3 => by rw [h2] at h3; cases h3⟩

/-- shape of a dataset that is resizable now -/
theorem Grown.rows_now {todo : List String} {g : FS α β} (h : Grown path fs f0 n todo g) {f : H5 α β}
    (hf : g path = some f) {name : String} {s : RowShape} {r : List (Cell β)} (hd : f.dsets name = some (.rows s r)) :
    ∃ r0 e, f0.dsets name = some (.rows s r0) ∧ r = r0 ++ e ∧ (e.length = 0 ∨ e.length = n) ∧
      (name ∈ todo → e = []) := by
  obtain ⟨f', h1, h2, h3, h4⟩ := h.file
  have : f' = f := by rw [hf] at h1; exact (Option.some.inj h1).symm
  subst this
  by_cases hk : ∃ s r, f0.dsets name = some (.rows s r)
  · obtain ⟨s', r0, hk⟩ := hk
    obtain ⟨e, a, b, c⟩ := h3 _ _ _ hk
    rw [hd] at a; injection a with a; injection a with a1 a2
    subst a1
    exact ⟨r0, e, hk, a2, b, c⟩
  · push Not at hk
    have := h4 name hk
    rw [hd] at this
    exact absurd this.symm (hk s r)

theorem length_mapM {A B : Type} (F : A → Py B) (l : List A) (l' : List B) (h : l.mapM F = .ok l') :
    l'.length = l.length := by
  induction l generalizing l' with
  | nil => injection h with h; subst h; rfl
  | cons a l ih =>
    rw [List.mapM_cons] at h
    cases ha : F a with
    | error e => rw [ha] at h; cases h
    | ok b =>
      rw [ha, Py.ok_bind] at h
      cases hl : l.mapM F with
      | error e => rw [hl] at h; cases h
      | ok bs =>
        rw [hl, Py.ok_bind] at h
        injection h with h; subst h
        simp [ih bs hl]

theorem tr_appendFields (buf : NS (Buf β)) (hn : buf.keys.Nodup) :
    Tr (Grown path fs f0 n buf.keys) (Grown path fs f0 n []) (appendFields path n buf : IOM α β Unit)
      (fun _ => Grown path fs f0 n []) := by
  induction buf with
  | nil => exact Tr.pure () (fun g h => h) fun g h => h
  | cons p rest ih =>
    obtain ⟨name, b⟩ := p
    simp only [NS.keys, List.map_cons, List.nodup_cons] at hn
    have hnm : name ∉ NS.keys rest := hn.1
    have up : ∀ {todo : List String} g, Grown path fs f0 n todo g → Grown path fs f0 n [] g :=
      fun g h => h.mono (by simp)
    unfold appendFields
    -- n ← len
    refine (tr_len name fun g h => up g h).bind fun m => ?_
    -- resize
    refine Tr.bind (mid := fun _ g => Grown path fs f0 n (NS.keys rest) g ∧
      ∃ f s r e, g path = some f ∧ f0.dsets name = some (.rows s r) ∧ f.dsets name = some (.rows s (r ++ e)) ∧
        e.length = n) ?_ fun _ => ?_
    · unfold H5.resize
      refine (Tr.dset path name fun g h => up g h.1).bind fun d => ?_
      cases d with
      | full a => exact Tr.raise _ fun g h => up g h.1.1
      | flat a => exact Tr.raise _ fun g h => up g h.1.1
      | rows s r =>
        refine Tr.putDset path name _ (fun g h => up g h.1.1) fun g f h hf => ?_
        obtain ⟨⟨hg, f1, hf1, hm⟩, f2, hf2, hd⟩ := h
        have e1 : f1 = f := Option.some.inj (hf1.symm.trans hf)
        have e2 : f2 = f := Option.some.inj (hf2.symm.trans hf)
        subst e1; subst e2
        obtain ⟨r0, e, hd0, hre, -, he⟩ := hg.rows_now hf hd
        have he := he (by simp [NS.keys])
        subst he
        rw [List.append_nil] at hre
        subst hre
        have hm' := hm s r hd
        subst hm'
        have e3 : r.take (r.length + n) ++ List.replicate (r.length + n - r.length) (s.zero (Casts.f32 (0 : α)))
            = r ++ List.replicate n (s.zero (Casts.f32 (0 : α))) := by
          rw [List.take_of_length_le (by omega), Nat.add_sub_cancel_left]
        rw [e3]
        have hg' : Grown path fs f0 n (NS.keys rest) g := hg.mono (by simp [NS.keys])
        have := hg'.put hf hd0 (e := List.replicate n (s.zero (Casts.f32 (0 : α)))) (.inr (by simp)) hnm
        exact ⟨up _ this, this, _, s, r, _, upd_same _ _ _, hd0, upd_same _ _ _, by simp⟩
    -- n' ← len
    refine (tr_len name fun g h => up g h.1).bind fun n' => ?_
    -- write
    refine Tr.bind (mid := fun _ => Grown path fs f0 n (NS.keys rest)) ?_ fun _ => ih hn.2
    unfold H5.writeFrom
    refine (Tr.dset path name fun g h => up g h.1.1).bind fun d => ?_
    cases d with
    | full a => exact Tr.raise _ fun g h => up g h.1.1.1
    | flat a => exact Tr.raise _ fun g h => up g h.1.1.1
    | rows s r =>
      simp only
      generalize hst : (if n = 0 then 0 else n' - n) = st
      refine (Tr.lift (post := fun data' g => _ ∧ (List.take n b.rows).mapM (H5.fit s) = .ok data') _
        (fun g h => up g h.1.1.1) (fun g x h e => ⟨h, e⟩)).bind fun data' => ?_
      -- facts available at the write
      have key : ∀ g f, ((Grown path fs f0 n (NS.keys rest) g ∧ ∃ f s r e, g path = some f ∧
          f0.dsets name = some (.rows s r) ∧ f.dsets name = some (.rows s (r ++ e)) ∧ e.length = n) ∧
          ∃ f, g path = some f ∧ ∀ s r, f.dsets name = some (.rows s r) → n' = r.length) →
          g path = some f → f.dsets name = some (.rows s r) →
          ∃ r0 e, f0.dsets name = some (.rows s r0) ∧ r = r0 ++ e ∧ e.length = n ∧ n' = r.length := by
        rintro g f ⟨⟨hg, f1, s1, r1, e1, a1, a2, a3, a4⟩, f2, b1, b2⟩ hf hd
        have e1 : f1 = f := Option.some.inj (a1.symm.trans hf)
        have e2 : f2 = f := Option.some.inj (b1.symm.trans hf)
        subst e1; subst e2
        rw [hd] at a3
        injection a3 with a3; injection a3 with a31 a32
        subst a31
        exact ⟨r1, _, a2, a32, a4, b2 _ _ hd⟩
      split
      · next hl =>
        refine Tr.putDset path name _ (fun g h => up g h.1.1.1.1) fun g f h hf => ?_
        obtain ⟨⟨h1, f', hf', hd⟩, hdata⟩ := h
        have e1 : f' = f := Option.some.inj (hf'.symm.trans hf)
        subst e1
        obtain ⟨r0, e, hd0, rfl, hel, hn'⟩ := key g f' h1 hf hd
        have hlen : n' = r0.length + n := by rw [hn', List.length_append, hel]
        by_cases hz : n = 0
        · subst hz
          rw [if_pos rfl] at hst
          subst hst
          simp only [List.take_zero, List.nil_append, Nat.sub_zero] at hl ⊢
          rw [List.take_zero, List.mapM_nil, Py.pure_eq] at hdata
          injection hdata with hdata
          subst hdata
          have : r0 = [] := by
            have : r0.length = 0 := by simp only [List.length_nil, List.length_append] at hl; omega
            exact List.length_eq_zero_iff.mp this
          subst this
          have := h1.1.1.put hf hd0 (e := ([] : List (Cell β))) (.inl rfl) hnm
          rw [List.append_nil] at this
          exact ⟨up _ this, this⟩
        · rw [if_neg hz, hlen, Nat.add_sub_cancel] at hst
          subst hst
          rw [List.take_left' rfl]
          have hd' : data'.length = n := by
            rw [List.length_append, hel] at hl; omega
          have := h1.1.1.put hf hd0 (e := data') (.inr hd') hnm
          exact ⟨up _ this, this⟩
      · split
        · next hl0 hl =>
          refine Tr.putDset path name _ (fun g h => up g h.1.1.1.1) fun g f h hf => ?_
          obtain ⟨⟨h1, f', hf', hd⟩, hdata⟩ := h
          have e1 : f' = f := Option.some.inj (hf'.symm.trans hf)
          subst e1
          obtain ⟨r0, e, hd0, rfl, hel, hn'⟩ := key g f' h1 hf hd
          have hlen : n' = r0.length + n := by rw [hn', List.length_append, hel]
          have hz : n ≠ 0 := by
            rintro rfl
            rw [List.take_zero, List.mapM_nil, Py.pure_eq] at hdata
            injection hdata with hdata
            subst hdata
            cases hl
          rw [if_neg hz, hlen, Nat.add_sub_cancel] at hst
          subst hst
          rw [List.take_left' rfl, List.length_append, hel, Nat.add_sub_cancel_left]
          have := h1.1.1.put hf hd0 (e := (List.replicate n data').flatten)
            (.inr (by simp [hl])) hnm
          exact ⟨up _ this, this⟩
        · exact Tr.raise _ fun g h => up g h.1.1.1.1

theorem grown_refl (hf : fs path = some f0) (todo : List String) : Grown path fs f0 n todo fs where
  other _ _ := rfl
  file := ⟨f0, hf, rfl, fun _ _ _ h => ⟨[], by rw [List.append_nil]; exact h, .inl rfl, fun _ => rfl⟩, fun _ _ => rfl⟩

theorem tr_append_h5 (buf : NS (Buf β)) (hn : buf.keys.Nodup) :
    Tr (Grown path fs f0 n buf.keys) (Grown path fs f0 n []) (append_h5 path buf n : IOM α β Unit)
      (fun _ => Grown path fs f0 n []) := by
  refine (Tr.openA path (fun g h => h.mono (by simp)) fun g h => ?_).bind fun _ => tr_appendFields buf hn
  obtain ⟨f, h1, -⟩ := h.file
  exact ⟨f, h1⟩

end append

end Verif
