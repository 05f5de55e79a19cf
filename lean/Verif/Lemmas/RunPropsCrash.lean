import Verif.Lemmas.RunProps

/-!
# Crash points of `calculate_properties`
-/

set_option linter.unusedSectionVars false

namespace Verif

open H5IO H5 RunProperties

variable {α β X Y : Type}

/-! ### the state at the start of a computation is one of its crash states -/

/-- the file systems recorded during `m`, with the final one, include the one at its start -/
def Honest (m : IOM α β X) : Prop :=
  ∀ σ : St α β, ∃ l, (m σ).2.past = σ.past ++ l ∧ σ.fs ∈ l ++ [(m σ).2.fs]

theorem Honest.read {m : IOM α β X} (hm : ∀ σ, (m σ).2 = σ) : Honest m := by
  intro σ
  rw [hm]
  exact ⟨[], by simp, by simp⟩

theorem Honest.pure (x : X) : Honest (Pure.pure x : IOM α β X) := .read fun _ => rfl

theorem Honest.raise (e : PyErr) : Honest (IOM.raise e : IOM α β X) := .read fun _ => rfl

theorem Honest.mutate (F : FS α β → FS α β) : Honest (IOM.mutate F : IOM α β Unit) :=
  fun σ => ⟨[σ.fs], rfl, by simp⟩

theorem Honest.bind {m : IOM α β X} {k : X → IOM α β Y} (h1 : Honest m) (h2 : ∀ x, Honest (k x)) :
    Honest (m >>= k) := by
  intro σ
  obtain ⟨l, e, hl⟩ := h1 σ
  rcases hm : m σ with ⟨r, σ'⟩
  rw [hm] at e hl
  cases r with
  | error e' =>
    rw [IOM.bind_error hm]
    exact ⟨l, e, hl⟩
  | ok x =>
    rw [IOM.bind_ok hm]
    obtain ⟨l', e', hl'⟩ := h2 x σ'
    refine ⟨l ++ l', by rw [e', e, List.append_assoc], ?_⟩
    rw [List.append_assoc, List.mem_append]
    rcases List.mem_append.mp hl with h | h
    · exact .inl h
    · rw [List.mem_singleton] at h
      rw [h]
      exact .inr hl'

/-- a state reached on the way is a crash state of the whole -/
theorem mem_crashStates_honest {m : IOM α β X} {k : X → IOM α β Y} {fs : FS α β} {x : X} {σ' : St α β}
    (hm : m ⟨fs, []⟩ = (.ok x, σ')) (hk : Honest (k x)) : σ'.fs ∈ IOM.crashStates (m >>= k) fs := by
  obtain ⟨l, e, hl⟩ := hk σ'
  show _ ∈ ((m >>= k) ⟨fs, []⟩).2.past ++ [((m >>= k) ⟨fs, []⟩).2.fs]
  rw [IOM.bind_ok hm, e]
  simp only [List.mem_append, List.mem_singleton] at hl ⊢
  tauto

section

variable [Casts α β] [Zero α] [Inhabited α] [Inhabited β] {path : String}

theorem honest_putDset (name : String) (d : Dset α β) : Honest (H5.putDset path name d : IOM α β Unit) :=
  (Honest.read read_content).bind fun _ => Honest.mutate _

theorem honest_add_data (i b : ℕ) (name : String) (data : Py (List α)) (sel : List String) :
    Honest (add_data path i b name data sel : IOM α β Unit) := by
  unfold add_data
  by_cases h : name ∈ sel
  · rw [if_pos h]
    refine (Honest.read fun _ => rfl).bind fun d => (Honest.read (read_dset name)).bind fun d' => ?_
    cases d' with
    | rows _ _ => exact .raise _
    | full _ => exact .raise _
    | flat v =>
      simp only
      split
      · exact honest_putDset _ _
      · exact .raise _
  · rw [if_neg h]
    exact .pure _

theorem honest_addAll (E : PropEnv α β) (dx : α) (c1 : Attr α) (i b : ℕ) (n p o : List (Cell β)) (sel l : List String) :
    Honest (addAll E path dx c1 i b n p o sel l : IOM α β Unit) := by
  induction l with
  | nil => exact .pure _
  | cons name l ih => exact (honest_add_data _ _ _ _ _).bind fun _ => ih

theorem honest_batchLoop (E : PropEnv α β) (dx : α) (c1 : Attr α) (steps b : ℕ) (sel : List String) (k i : ℕ) :
    Honest (batchLoop E path dx c1 steps b sel k i : IOM α β Unit) := by
  induction k generalizing i with
  | zero => exact .pure _
  | succ k ih =>
    unfold batchLoop
    split
    · exact (Honest.read (read_readRows _ _ _)).bind fun _ => (Honest.read (read_readRows _ _ _)).bind fun _ =>
        (Honest.read (read_readRows _ _ _)).bind fun _ => (honest_addAll _ _ _ _ _ _ _ _ _ _).bind fun _ => ih _
    · exact .pure _

/-! ### what the datasets look like on the way -/

/-- the file system `fs` with content `f` at `path` -/
def At (fs : FS α β) (path : String) (f : H5 α β) (g : FS α β) : Prop := g = upd fs path (some f)

theorem tr_does {fs : FS α β} {f f' : H5 α β} {m : IOM α β X} {x : X} {pre P : FS α β → Prop}
    {post : X → FS α β → Prop} (ht : Tr pre P m post) (hp : pre (upd fs path (some f)))
    (hd : Does path m f x f') : Tr (At fs path f) P m fun y g => y = x ∧ At fs path f' g := by
  intro σ hσ
  have hσ' : σ.fs = upd fs path (some f) := hσ
  obtain ⟨l, e, a, b, -⟩ := ht σ (by rw [hσ']; exact hp)
  obtain ⟨σ', e1, e2⟩ := hd σ (by rw [hσ', upd_same])
  refine ⟨l, e, a, b, fun y hy => ?_⟩
  rw [e1] at hy ⊢
  injection hy with hy
  refine ⟨hy.symm, ?_⟩
  show σ'.fs = _
  rw [e2, hσ', upd_upd]

theorem tr_read_does {fs : FS α β} {f : H5 α β} {m : IOM α β X} {x : X} {P : FS α β → Prop}
    (hm : ∀ σ, (m σ).2 = σ) (hP : P (upd fs path (some f))) (hd : Does path m f x f) :
    Tr (At fs path f) P m fun y g => y = x ∧ At fs path f g :=
  tr_does (pre := At fs path f) (post := fun _ _ => True)
    (Tr.read hm (fun g hg => by rw [show g = _ from hg]; exact hP) fun _ _ _ _ => trivial) rfl hd

/-- only the start and the end of `add_data` are visible -/
theorem past_add_data (i b : ℕ) (name : String) (data : Py (List α)) (sel : List String) (σ : St α β) :
    ((add_data path i b name data sel : IOM α β Unit) σ).2.past = σ.past ∨
      ((add_data path i b name data sel : IOM α β Unit) σ).2.past = σ.past ++ [σ.fs] := by
  unfold add_data
  by_cases h : name ∈ sel
  · rw [if_pos h]
    cases data with
    | error e => exact .inl rfl
    | ok d =>
      rw [IOM.bind_ok (show (IOM.lift (.ok d) : IOM α β _) σ = (.ok d, σ) from rfl)]
      have hr := read_dset (path := path) name σ
      rcases hm : (H5.dset path name : IOM α β _) σ with ⟨r, σ'⟩
      rw [hm] at hr
      simp only at hr
      subst hr
      cases r with
      | error e => rw [IOM.bind_error hm]; exact .inl rfl
      | ok d' =>
        rw [IOM.bind_ok hm]
        cases d' with
        | rows _ _ => exact .inl rfl
        | full _ => exact .inl rfl
        | flat v =>
          simp only
          split
          · unfold H5.putDset
            have hr := read_content (path := path) σ'
            rcases hm : (H5.content path : IOM α β _) σ' with ⟨r, σ''⟩
            rw [hm] at hr
            simp only at hr
            subst hr
            cases r with
            | error e => rw [IOM.bind_error hm]; exact .inl rfl
            | ok f => rw [IOM.bind_ok hm]; exact .inr rfl
          · exact .inl rfl
  · rw [if_neg h]
    exact .inl rfl

/-- some of the batches are done -/
def InProgress (fs : FS α β) (path : String) (base : H5 α β) (sel : List String) (N b : ℕ) (vals : String → List α)
    (g : FS α β) : Prop :=
  ∃ prog : String → ℕ, (∀ k, ∃ j, prog k = min N (j * b)) ∧ At fs path (propFile base sel N vals prog) g

theorem tr_addAll {fs : FS α β} {E : PropEnv α β} {dx : α} {c1 : Attr α} {base : H5 α β} {sel : List String}
    {N j b : ℕ} {vals : String → List α} {n p o : List (Cell β)} (hi : j * b < N)
    (hvl : ∀ k ∈ propertyNames, (vals k).length = N)
    (hv : ∀ k ∈ propertyNames, k ∈ sel → batchValues (E.value k dx c1) n p o = .ok (((vals k).drop (j * b)).take b))
    (l : List String) (hl : l ⊆ propertyNames) (hn : l.Nodup) (prog : String → ℕ)
    (hg : ∀ k, ∃ j, prog k = min N (j * b)) (hp : ∀ k ∈ l, prog k = j * b) :
    Tr (At fs path (propFile base sel N vals prog)) (InProgress fs path base sel N b vals)
      (addAll E path dx c1 (j * b) b n p o sel l)
      fun _ => At fs path (propFile base sel N vals fun k => if k ∈ l then min N (j * b + b) else prog k) := by
  induction l generalizing prog with
  | nil => exact Tr.pure () (fun g h => ⟨prog, hg, h⟩) fun g h => by simpa using h
  | cons name l ih =>
    rw [List.nodup_cons] at hn
    have hmem : name ∈ propertyNames := hl (by simp)
    have hd := does_add_data (path := path) (base := base) (prog := prog) hi hvl hv hmem (hp name (by simp))
    have hg' : ∀ k, ∃ j', (if k = name then min N (j * b + b) else prog k) = min N (j' * b) := by
      intro k
      by_cases hk : k = name
      · exact ⟨j + 1, by rw [if_pos hk]; ring_nf⟩
      · rw [if_neg hk]; exact hg k
    unfold addAll
    have hstep : Tr (At fs path (propFile base sel N vals prog)) (InProgress fs path base sel N b vals)
        (add_data path (j * b) b name (batchValues (E.value name dx c1) n p o) sel)
        fun _ => At fs path (propFile base sel N vals fun k => if k = name then min N (j * b + b) else prog k) := by
      intro σ hσ
      have hσ' : σ.fs = _ := hσ
      obtain ⟨σ', e1, e2⟩ := hd σ (by rw [hσ', upd_same])
      have hfin : At fs path (propFile base sel N vals fun k => if k = name then min N (j * b + b) else prog k) σ'.fs := by
        show σ'.fs = _
        rw [e2, hσ', upd_upd]
      rcases past_add_data (path := path) (j * b) b name (batchValues (E.value name dx c1) n p o) sel σ with h | h
      · refine ⟨[], by rw [h, List.append_nil], by simp, ?_, ?_⟩ <;> rw [e1]
        · exact ⟨_, hg', hfin⟩
        · exact fun _ _ => hfin
      · refine ⟨[σ.fs], h, ?_, ?_, ?_⟩
        · intro g hg0
          rw [List.mem_singleton] at hg0
          subst hg0
          exact ⟨prog, hg, hσ⟩
        · rw [e1]; exact ⟨_, hg', hfin⟩
        · rw [e1]; exact fun _ _ => hfin
    refine hstep.bind fun _ => ?_
    refine (ih (fun x hx => hl (by simp [hx])) hn.2 _ hg' ?_).weaken (fun _ h => h) (fun _ h => h) ?_
    · intro k hk
      rw [if_neg (by rintro rfl; exact hn.1 hk)]
      exact hp k (by simp [hk])
    · intro _ g h
      convert h using 3
      rename_i k
      by_cases hk : k = name
      · subst hk; simp
      · simp [hk]

theorem tr_batchLoop {fs : FS α β} {E : PropEnv α β} {dx : α} {c1 : Attr α} {base : H5 α β} {sel : List String}
    {N b : ℕ} {vals : String → List α} (hvl : ∀ k ∈ propertyNames, (vals k).length = N)
    {n p o : List (Cell β)} {sn sp so : RowShape} (hn : base.dsets "density" = some (.rows sn n))
    (hp : base.dsets "phi" = some (.rows sp p)) (ho : base.dsets "omega" = some (.rows so o))
    (ln : n.length = N) (lp : p.length = N) (lo : o.length = N)
    (hv : ∀ k ∈ propertyNames, k ∈ sel → List.Forall₂
      (fun (t : Cell β × Cell β × Cell β) v => E.value k dx c1 t.1 t.2.1 t.2.2 = .ok v) (n.zip (p.zip o)) (vals k))
    (k j : ℕ) :
    Tr (At fs path (propFile base sel N vals fun _ => min N (j * b))) (InProgress fs path base sel N b vals)
      (batchLoop E path dx c1 N b sel k (j * b)) fun _ _ => True := by
  induction k generalizing j with
  | zero => exact Tr.pure () (fun g h => ⟨_, fun _ => ⟨j, rfl⟩, h⟩) fun _ _ => trivial
  | succ k ih =>
    unfold batchLoop
    split
    · next hi =>
      have hin : ∀ j, InProgress fs path base sel N b vals
          (upd fs path (some (propFile base sel N vals fun _ => min N (j * b)))) :=
        fun j => ⟨_, fun _ => ⟨j, rfl⟩, rfl⟩
      have hnot : ∀ {k : String}, k ∉ propertyNames → ∀ P, (propFile base sel N vals P).dsets k = base.dsets k := by
        intro k hk P
        unfold propFile
        simp only [hk, and_false, if_false]
      refine (tr_read_does (read_readRows _ _ _) (hin j)
        (does_readRows ((hnot (by decide) _).trans hn) (j * b) b)).bind fun n' => ?_
      refine Tr.weaken (pre := fun g => At fs path (propFile base sel N vals fun _ => min N (j * b)) g ∧
        n' = (n.drop (j * b)).take b) ?_ (fun g h => ⟨h.2, h.1⟩) (fun _ h => h) fun _ _ h => h
      by_cases hn' : n' = (n.drop (j * b)).take b
      swap
      · intro σ hσ; exact absurd hσ.2 hn'
      subst hn'
      refine Tr.weaken (pre := At fs path (propFile base sel N vals fun _ => min N (j * b))) ?_ (fun g h => h.1)
        (fun _ h => h) fun _ _ h => h
      refine (tr_read_does (read_readRows _ _ _) (hin j)
        (does_readRows ((hnot (by decide) _).trans hp) (j * b) b)).bind fun p' => ?_
      by_cases hp' : p' = (p.drop (j * b)).take b
      swap
      · intro σ hσ; exact absurd hσ.1 hp'
      subst hp'
      refine Tr.weaken (pre := At fs path (propFile base sel N vals fun _ => min N (j * b))) ?_ (fun g h => h.2)
        (fun _ h => h) fun _ _ h => h
      refine (tr_read_does (read_readRows _ _ _) (hin j)
        (does_readRows ((hnot (by decide) _).trans ho) (j * b) b)).bind fun o' => ?_
      by_cases ho' : o' = (o.drop (j * b)).take b
      swap
      · intro σ hσ; exact absurd hσ.1 ho'
      subst ho'
      refine Tr.weaken (pre := At fs path (propFile base sel N vals fun _ => min N (j * b))) ?_ (fun g h => h.2)
        (fun _ h => h) fun _ _ h => h
      have hba : ∀ k ∈ propertyNames, k ∈ sel → batchValues (E.value k dx c1) ((n.drop (j * b)).take b)
          ((p.drop (j * b)).take b) ((o.drop (j * b)).take b) = .ok (((vals k).drop (j * b)).take b) := by
        intro k hk hs
        apply batchValues_ok
        · have := forall₂_drop_take (hv k hk hs) (j * b) b
          simp only [List.zip_eq_zipWith, List.drop_zipWith, List.take_zipWith] at this ⊢
          exact this
        · simp [ln, lp]
        · simp [ln, lo]
      refine (tr_addAll hi hvl hba propertyNames (fun _ h => h) (by decide) (fun _ => min N (j * b))
        (fun _ => ⟨j, rfl⟩) fun _ _ => min_eq_right hi.le).bind fun _ => ?_
      have hj : j * b + b = (j + 1) * b := by ring
      rw [hj]
      refine (ih (j + 1)).weaken ?_ (fun _ h => h) fun _ _ h => h
      intro g h
      refine Eq.trans h (congrArg (fun f => upd fs path (some f)) ?_)
      unfold propFile
      refine congrArg₂ H5.mk ?_ rfl
      funext k
      by_cases hk : k ∈ sel ∧ k ∈ propertyNames
      · simp only [hk, and_self, if_true]
      · simp only [hk, if_false]
    · exact Tr.pure () (fun g h => ⟨_, fun _ => ⟨j, rfl⟩, h⟩) fun _ _ => trivial

/-- the requested datasets are as before, removed, or filled with zeros -/
structure Preparing (path : String) (fs : FS α β) (f0 : H5 α β) (names : List String) (N : ℕ) (g : FS α β) : Prop where
  other : ∀ q, q ≠ path → g q = fs q
  file : ∃ f, g path = some f ∧ f.attrs = f0.attrs ∧ (∀ k, k ∉ names → f.dsets k = f0.dsets k) ∧
    ∀ k, f.dsets k = f0.dsets k ∨ f.dsets k = none ∨
      f.dsets k = some (.flat (List.replicate N (Casts.f32 (0 : α))))

variable {fs : FS α β} {f0 : H5 α β} {names : List String} {N : ℕ}

theorem Preparing.put {g : FS α β} (h : Preparing path fs f0 names N g) {f : H5 α β} (hf : g path = some f)
    {name : String} (hn : name ∈ names) {d : Option (Dset α β)}
    (hd : d = none ∨ d = some (.flat (List.replicate N (Casts.f32 (0 : α))))) :
    Preparing path fs f0 names N (upd g path (some { f with dsets := upd f.dsets name d })) := by
  obtain ⟨f', h1, h2, h3, h4⟩ := h.file
  rw [hf] at h1
  injection h1 with h1
  subst h1
  refine ⟨fun q hq => by rw [upd_ne _ _ hq]; exact h.other q hq, _, upd_same _ _ _, h2, fun k hk => ?_, fun k => ?_⟩
  · refine (upd_ne _ _ ?_).trans (h3 k hk)
    rintro rfl; exact hk hn
  · by_cases hk : k = name
    · subst hk
      simp only [upd_same]
      exact .inr hd
    · simp only [upd_ne _ _ hk]
      exact h4 k

theorem tr_createLoop (force : Bool) (l : List String) (hl : l ⊆ names) :
    Tr (Preparing path fs f0 names N) (Preparing path fs f0 names N)
      (createLoop path N force l : IOM α β (List String)) fun _ => Preparing path fs f0 names N := by
  induction l with
  | nil => exact Tr.pure _ (fun _ h => h) fun _ h => h
  | cons name l ih =>
    have hn : name ∈ names := hl (by simp)
    have hl' : l ⊆ names := fun x hx => hl (by simp [hx])
    have hkey : Tr (Preparing path fs f0 names N) (Preparing path fs f0 names N) (hasKey path name : IOM α β Bool)
        fun _ => Preparing path fs f0 names N := Tr.read (read_hasKey name) (fun _ h => h) fun _ _ h _ => h
    have hcreate : Tr (Preparing path fs f0 names N) (Preparing path fs f0 names N)
        (H5.createDset path name (.flat (List.replicate N (Casts.f32 (0 : α)))) : IOM α β Unit)
        fun _ => Preparing path fs f0 names N := by
      refine hkey.bind fun b => ?_
      cases b
      · exact Tr.putDset path name _ (fun _ h => h) fun _ _ h hf => ⟨h.put hf hn (.inr rfl), h.put hf hn (.inr rfl)⟩
      · exact Tr.raise _ fun _ h => h
    have hdel : Tr (Preparing path fs f0 names N) (Preparing path fs f0 names N)
        (H5.delDset path name : IOM α β Unit) fun _ => Preparing path fs f0 names N := by
      refine (Tr.read (read_dset name) (fun _ h => h) (post := fun _ => Preparing path fs f0 names N)
        fun _ _ h _ => h).bind fun _ => ?_
      refine (Tr.content path fun _ h => h).bind fun f => ?_
      exact Tr.mutate _ (fun _ h => h.1) fun g h => ⟨h.1.put h.2 hn (.inl rfl), h.1.put h.2 hn (.inl rfl)⟩
    have hrest : Tr (Preparing path fs f0 names N) (Preparing path fs f0 names N) (do
        if ← hasKey path name then createLoop path N force l
        else do
          createDset path name (.flat (List.replicate N (Casts.f32 (0 : α))))
          let sel ← createLoop path N force l
          return name :: sel : IOM α β (List String)) fun _ => Preparing path fs f0 names N := by
      refine hkey.bind fun b => ?_
      cases b
      · simp only [Bool.false_eq_true, if_false]
        exact hcreate.bind fun _ => (ih hl').bind fun _ => Tr.pure _ (fun _ h => h) fun _ h => h
      · exact ih hl'
    unfold createLoop
    refine hkey.bind fun b => ?_
    cases b
    · exact hrest
    · simp only [if_true]
      cases force
      · exact hrest
      · simp only [if_true]
        exact hdel.bind fun _ => hrest

end

end Verif
