import Verif.Model.RunProperties
import Verif.Lemmas.Crash
import Verif.Lemmas.NSSet

/-!
# `calculate_properties`
-/

set_option linter.unusedSectionVars false

namespace Verif

open H5IO H5 RunProperties

variable {α β : Type} [Casts α β] [Zero α] [Inhabited α] [Inhabited β]

/-! ### what never changes -/

/-- only datasets in `names` of the file `path` differ from `fs` -/
structure Keeps (path : String) (fs : FS α β) (f0 : H5 α β) (names : List String) (g : FS α β) : Prop where
  other : ∀ q, q ≠ path → g q = fs q
  file : ∃ f, g path = some f ∧ f.attrs = f0.attrs ∧ ∀ k, k ∉ names → f.dsets k = f0.dsets k

section keeps

variable {path : String} {fs : FS α β} {f0 : H5 α β} {names : List String}

theorem Keeps.refl (h : fs path = some f0) : Keeps path fs f0 names fs := ⟨fun _ _ => rfl, f0, h, rfl, fun _ _ => rfl⟩

theorem Keeps.put {g : FS α β} (h : Keeps path fs f0 names g) {f : H5 α β} (hf : g path = some f) {name : String}
    (hn : name ∈ names) (d : Option (Dset α β)) :
    Keeps path fs f0 names (upd g path (some { f with dsets := upd f.dsets name d })) := by
  obtain ⟨f', h1, h2, h3⟩ := h.file
  rw [hf] at h1
  injection h1 with h1
  subst h1
  refine ⟨fun q hq => by rw [upd_ne _ _ hq]; exact h.other q hq, _, upd_same _ _ _, h2, fun k hk => ?_⟩
  refine (upd_ne _ _ ?_).trans (h3 k hk)
  rintro rfl; exact hk hn

/-- every state during and after `m` keeps, and the result satisfies `Q` -/
abbrev KeepsTr {X : Type} (path : String) (fs : FS α β) (f0 : H5 α β) (names : List String) (m : IOM α β X)
    (Q : X → Prop) : Prop :=
  Tr (Keeps path fs f0 names) (Keeps path fs f0 names) m fun x g => Keeps path fs f0 names g ∧ Q x

theorem KeepsTr.bind {X Y : Type} {m : IOM α β X} {k : X → IOM α β Y} {Q : X → Prop} {R : Y → Prop}
    (h1 : KeepsTr path fs f0 names m Q) (h2 : ∀ x, Q x → KeepsTr path fs f0 names (k x) R) :
    KeepsTr path fs f0 names (m >>= k) R := by
  refine Tr.bind h1 fun x => ?_
  by_cases hq : Q x
  · exact (h2 x hq).weaken (fun g hg => hg.1) (fun _ h => h) (fun _ _ h => h)
  · intro σ hσ
    exact absurd hσ.2 hq

theorem KeepsTr.pure {X : Type} (x : X) {Q : X → Prop} (hq : Q x) :
    KeepsTr path fs f0 names (Pure.pure x : IOM α β X) Q := Tr.pure x (fun _ h => h) fun _ h => ⟨h, hq⟩

theorem KeepsTr.read {X : Type} {m : IOM α β X} (hm : ∀ σ, (m σ).2 = σ) :
    KeepsTr path fs f0 names m fun _ => True :=
  Tr.read hm (fun _ h => h) fun _ _ h _ => ⟨h, trivial⟩

theorem KeepsTr.raise {X : Type} (e : PyErr) {Q : X → Prop} :
    KeepsTr path fs f0 names (IOM.raise e : IOM α β X) Q := Tr.raise e fun _ h => h

theorem read_content (σ : St α β) : ((H5.content path : IOM α β _) σ).2 = σ := by
  unfold H5.content; cases σ.fs path <;> rfl

theorem read_bind {X Y : Type} {m : IOM α β X} {k : X → IOM α β Y} (h1 : ∀ σ, (m σ).2 = σ)
    (h2 : ∀ x σ, (k x σ).2 = σ) (σ : St α β) : ((m >>= k) σ).2 = σ := by
  rcases hm : m σ with ⟨r, σ'⟩
  have := h1 σ
  rw [hm] at this
  simp only at this
  subst this
  cases r with
  | error e => rw [IOM.bind_error hm]
  | ok x => rw [IOM.bind_ok hm]; exact h2 x _

theorem read_dset (name : String) (σ : St α β) : ((H5.dset path name : IOM α β _) σ).2 = σ := by
  refine read_bind (fun σ => read_content σ) (fun f σ => ?_) σ
  cases f.dsets name <;> rfl

theorem read_hasKey (name : String) (σ : St α β) : ((H5.hasKey path name : IOM α β _) σ).2 = σ :=
  read_bind (fun σ => read_content σ) (fun _ _ => rfl) σ

theorem read_len (name : String) (σ : St α β) : ((H5.len path name : IOM α β _) σ).2 = σ := by
  refine read_bind (fun σ => read_dset name σ) (fun d σ => ?_) σ
  cases d <;> rfl

theorem read_readRows (name : String) (i b : ℕ) (σ : St α β) : ((readRows path name i b : IOM α β _) σ).2 = σ := by
  refine read_bind (fun σ => read_dset name σ) (fun d σ => ?_) σ
  cases d <;> rfl

theorem read_openR (σ : St α β) : ((H5.openR path : IOM α β _) σ).2 = σ := by
  unfold H5.openR; cases σ.fs path <;> rfl

theorem keeps_putDset {name : String} (hn : name ∈ names) (d : Dset α β) :
    KeepsTr path fs f0 names (H5.putDset path name d : IOM α β Unit) fun _ => True :=
  Tr.putDset path name d (fun _ h => h) fun _ _ h hf => ⟨h.put hf hn _, h.put hf hn _, trivial⟩

theorem keeps_delDset {name : String} (hn : name ∈ names) :
    KeepsTr path fs f0 names (H5.delDset path name : IOM α β Unit) fun _ => True := by
  refine KeepsTr.bind (KeepsTr.read (read_dset name)) fun _ _ => ?_
  refine (Tr.content path fun _ h => h).bind fun f => ?_
  exact Tr.mutate _ (fun _ h => h.1) fun g h => ⟨h.1.put h.2 hn _, h.1.put h.2 hn _, trivial⟩

theorem keeps_createDset {name : String} (hn : name ∈ names) (d : Dset α β) :
    KeepsTr path fs f0 names (H5.createDset path name d : IOM α β Unit) fun _ => True := by
  refine KeepsTr.bind (KeepsTr.read (read_hasKey name)) fun b _ => ?_
  cases b
  · exact keeps_putDset hn d
  · exact KeepsTr.raise _

theorem keeps_createLoop (steps : ℕ) (force : Bool) (l : List String) (hl : l ⊆ names) :
    KeepsTr path fs f0 names (createLoop path steps force l : IOM α β (List String)) fun sel => sel ⊆ names := by
  induction l with
  | nil => exact KeepsTr.pure _ (by simp)
  | cons name l ih =>
    have hn : name ∈ names := hl (by simp)
    have hl' : l ⊆ names := fun x hx => hl (by simp [hx])
    unfold createLoop
    have hrest : KeepsTr path fs f0 names (do
        if ← hasKey path name then createLoop path steps force l
        else do
          createDset path name (.flat (List.replicate steps (Casts.f32 (0 : α))))
          let sel ← createLoop path steps force l
          return name :: sel : IOM α β (List String)) fun sel => sel ⊆ names := by
      refine KeepsTr.bind (KeepsTr.read (read_hasKey name)) fun b _ => ?_
      cases b
      · simp only [Bool.false_eq_true, if_false]
        refine KeepsTr.bind (keeps_createDset hn _) fun _ _ => ?_
        refine KeepsTr.bind (ih hl') fun sel hsel => KeepsTr.pure _ ?_
        intro x hx
        rcases List.mem_cons.mp hx with rfl | hx
        · exact hn
        · exact hsel hx
      · exact ih hl'
    refine KeepsTr.bind (KeepsTr.read (read_hasKey name)) fun b _ => ?_
    cases b
    · exact hrest
    · simp only [if_true]
      cases force
      · exact hrest
      · simp only [if_true]
        exact KeepsTr.bind (keeps_delDset hn) fun _ _ => hrest

theorem keeps_add_data (i b : ℕ) (name : String) (data : Py (List α)) (sel : List String) (hs : sel ⊆ names) :
    KeepsTr path fs f0 names (add_data path i b name data sel : IOM α β Unit) fun _ => True := by
  unfold add_data
  by_cases h : name ∈ sel
  · rw [if_pos h]
    refine KeepsTr.bind (KeepsTr.read fun _ => rfl) fun d _ => ?_
    refine KeepsTr.bind (KeepsTr.read (read_dset name)) fun d' _ => ?_
    cases d' with
    | rows _ _ => exact KeepsTr.raise _
    | full _ => exact KeepsTr.raise _
    | flat v =>
      simp only
      split
      · exact keeps_putDset (hs h) _
      · exact KeepsTr.raise _
  · rw [if_neg h]
    exact KeepsTr.pure _ trivial

theorem keeps_addAll (E : PropEnv α β) (dx : α) (c1 : Attr α) (i b : ℕ) (n p o : List (Cell β)) (sel : List String)
    (hs : sel ⊆ names) (l : List String) :
    KeepsTr path fs f0 names (addAll E path dx c1 i b n p o sel l : IOM α β Unit) fun _ => True := by
  induction l with
  | nil => exact KeepsTr.pure _ trivial
  | cons name l ih => exact KeepsTr.bind (keeps_add_data _ _ _ _ _ hs) fun _ _ => ih

theorem keeps_batchLoop (E : PropEnv α β) (dx : α) (c1 : Attr α) (steps b : ℕ) (sel : List String)
    (hs : sel ⊆ names) (k i : ℕ) :
    KeepsTr path fs f0 names (batchLoop E path dx c1 steps b sel k i : IOM α β Unit) fun _ => True := by
  induction k generalizing i with
  | zero => exact KeepsTr.pure _ trivial
  | succ k ih =>
    unfold batchLoop
    split
    · refine KeepsTr.bind (KeepsTr.read (read_readRows _ _ _)) fun _ _ => ?_
      refine KeepsTr.bind (KeepsTr.read (read_readRows _ _ _)) fun _ _ => ?_
      refine KeepsTr.bind (KeepsTr.read (read_readRows _ _ _)) fun _ _ => ?_
      exact KeepsTr.bind (keeps_addAll _ _ _ _ _ _ _ _ _ hs _) fun _ _ => ih _
    · exact KeepsTr.pure _ trivial

theorem keeps_calculate (E : PropEnv α β) (b : ℕ) (force : Bool) :
    KeepsTr path fs f0 names (calculate_properties E path b names force : IOM α β Unit) fun _ => True := by
  unfold calculate_properties
  refine KeepsTr.bind (KeepsTr.read read_openR) fun _ _ => ?_
  refine KeepsTr.bind (KeepsTr.read read_content) fun _ _ => ?_
  refine KeepsTr.bind (KeepsTr.read fun _ => rfl) fun _ _ => ?_
  refine KeepsTr.bind (KeepsTr.read fun _ => rfl) fun _ _ => ?_
  refine KeepsTr.bind (KeepsTr.read fun _ => rfl) fun _ _ => ?_
  refine KeepsTr.bind (KeepsTr.read fun _ => rfl) fun _ _ => ?_
  refine KeepsTr.bind (KeepsTr.read (read_len _)) fun _ _ => ?_
  refine KeepsTr.bind (keeps_createLoop _ _ _ fun _ h => h) fun sel hsel => ?_
  split
  · exact KeepsTr.raise _
  · exact keeps_batchLoop _ _ _ _ _ _ hsel _ _

/-- the names that have no dataset yet -/
def missing (f0 : H5 α β) (names : List String) : List String := names.filter fun k => (f0.dsets k).isNone

theorem keeps_createLoop_false (steps : ℕ) (l : List String) (hl : l ⊆ names) :
    KeepsTr path fs f0 (missing f0 names) (createLoop path steps false l : IOM α β (List String))
      fun sel => sel ⊆ missing f0 names := by
  induction l with
  | nil => exact KeepsTr.pure _ (by simp)
  | cons name l ih =>
    have hn : name ∈ names := hl (by simp)
    have hl' : l ⊆ names := fun x hx => hl (by simp [hx])
    have hkey : KeepsTr path fs f0 (missing f0 names) (hasKey path name : IOM α β Bool)
        fun b => b = false → name ∈ missing f0 names := by
      refine Tr.read (read_hasKey name) (fun _ h => h) fun σ b hσ hb => ⟨hσ, fun hb' => ?_⟩
      obtain ⟨f, hf, -, h3⟩ := hσ.file
      have : (H5.hasKey path name : IOM α β Bool) σ = (.ok (f.dsets name).isSome, σ) := by
        unfold H5.hasKey
        rw [IOM.bind_ok (show (H5.content path : IOM α β _) σ = (.ok f, σ) by unfold H5.content; rw [hf])]
        rfl
      rw [this] at hb
      injection hb with hb
      rw [hb'] at hb
      by_contra hm
      have h4 := h3 name hm
      apply hm
      unfold missing
      rw [List.mem_filter]
      refine ⟨hn, ?_⟩
      rw [← h4]
      cases hd : f.dsets name with
      | none => rfl
      | some d => rw [hd] at hb; cases hb
    have hrest : KeepsTr path fs f0 (missing f0 names) (do
        if ← hasKey path name then createLoop path steps false l
        else do
          createDset path name (.flat (List.replicate steps (Casts.f32 (0 : α))))
          let sel ← createLoop path steps false l
          return name :: sel : IOM α β (List String)) fun sel => sel ⊆ missing f0 names := by
      refine KeepsTr.bind hkey fun b hb => ?_
      cases b
      · simp only [Bool.false_eq_true, if_false]
        refine KeepsTr.bind (keeps_createDset (hb rfl) _) fun _ _ => ?_
        refine KeepsTr.bind (ih hl') fun sel hsel => KeepsTr.pure _ ?_
        intro x hx
        rcases List.mem_cons.mp hx with rfl | hx
        · exact hb rfl
        · exact hsel hx
      · exact ih hl'
    unfold createLoop
    refine KeepsTr.bind (KeepsTr.read (read_hasKey name)) fun b _ => ?_
    cases b
    · exact hrest
    · exact hrest

theorem keeps_calculate_false (E : PropEnv α β) (b : ℕ) :
    KeepsTr path fs f0 (missing f0 names) (calculate_properties E path b names false : IOM α β Unit) fun _ => True := by
  unfold calculate_properties
  refine KeepsTr.bind (KeepsTr.read read_openR) fun _ _ => ?_
  refine KeepsTr.bind (KeepsTr.read read_content) fun _ _ => ?_
  refine KeepsTr.bind (KeepsTr.read fun _ => rfl) fun _ _ => ?_
  refine KeepsTr.bind (KeepsTr.read fun _ => rfl) fun _ _ => ?_
  refine KeepsTr.bind (KeepsTr.read fun _ => rfl) fun _ _ => ?_
  refine KeepsTr.bind (KeepsTr.read fun _ => rfl) fun _ _ => ?_
  refine KeepsTr.bind (KeepsTr.read (read_len _)) fun _ _ => ?_
  refine KeepsTr.bind (keeps_createLoop_false _ _ fun _ h => h) fun sel hsel => ?_
  split
  · exact KeepsTr.raise _
  · exact keeps_batchLoop _ _ _ _ _ _ hsel _ _

end keeps

/-! ### what is computed -/

section values

variable {path : String}

/-- `calculate_properties` deletes (with `force_recompute`) and creates datasets -/
def createdProps (f : H5 α β) (steps : ℕ) (force : Bool) (l : List String) : H5 α β :=
  { f with dsets := fun k =>
      if k ∈ l ∧ (force = true ∨ f.dsets k = none) then some (.flat (List.replicate steps (Casts.f32 (0 : α))))
      else f.dsets k }

theorem does_createLoop (steps : ℕ) (force : Bool) (l : List String) (f : H5 α β) :
    ∃ sel, (∀ k, k ∈ sel ↔ k ∈ l ∧ (force = true ∨ f.dsets k = none)) ∧
      Does path (createLoop path steps force l) f sel (createdProps f steps force l) := by
  induction l generalizing f with
  | nil => exact ⟨[], by simp, by
    unfold createdProps; simp only [List.not_mem_nil, false_and, if_false]; exact Does.pure _⟩
  | cons name l ih =>
    -- one dataset
    have hone : ∀ (g : H5 α β), g.dsets name = none → g.attrs = f.attrs → (∀ k, k ≠ name → g.dsets k = f.dsets k) →
        (force = true ∨ f.dsets name = none) →
        ∃ sel, (∀ k, k ∈ sel ↔ k ∈ name :: l ∧ (force = true ∨ f.dsets k = none)) ∧
          Does path (do
            if ← hasKey path name then createLoop path steps force l
            else do
              createDset path name (.flat (List.replicate steps (Casts.f32 (0 : α))))
              let sel ← createLoop path steps force l
              return name :: sel : IOM α β (List String)) g sel (createdProps f steps force (name :: l)) := by
      intro g hg hga hgd hc
      let d : Dset α β := .flat (List.replicate steps (Casts.f32 (0 : α)))
      obtain ⟨sel, hs, hd⟩ := ih { g with dsets := upd g.dsets name (some d) }
      refine ⟨name :: sel, ?_, ?_⟩
      · intro k
        rw [List.mem_cons, hs, List.mem_cons]
        by_cases hk : k = name
        · subst hk; simp [hc]
        · simp only [hk, false_or]
          simp only [upd_ne _ _ hk, hgd k hk]
      · refine (Does.hasKey name).bind ?_
        rw [hg]
        simp only [Option.isSome_none, Bool.false_eq_true, if_false]
        refine (Does.createDset _ hg).bind (hd.bind ?_)
        convert Does.pure (path := path) (name :: sel) using 1
        unfold createdProps
        refine congrArg₂ H5.mk ?_ hga.symm
        funext k
        by_cases hk : k = name
        · subst hk
          simp [hc, d]
        · simp only [List.mem_cons, hk, false_or, upd_ne _ _ hk, hgd k hk]
    unfold createLoop
    cases hd : f.dsets name with
    | none =>
      obtain ⟨sel, hs, h⟩ := hone f hd rfl (fun _ _ => rfl) (.inr hd)
      refine ⟨sel, hs, ?_⟩
      refine (Does.hasKey name).bind ?_
      rw [hd]
      exact h
    | some d =>
      cases hfo : force with
      | true =>
        subst hfo
        obtain ⟨sel, hs, h⟩ := hone { f with dsets := upd f.dsets name none } (upd_same _ _ _) rfl
          (fun k hk => upd_ne _ _ hk) (.inl rfl)
        refine ⟨sel, hs, ?_⟩
        refine (Does.hasKey name).bind ?_
        rw [hd]
        simp only [Option.isSome_some, if_true]
        exact (Does.delDset hd).bind h
      | false =>
        subst hfo
        obtain ⟨sel, hs, h⟩ := ih f
        refine ⟨sel, ?_, ?_⟩
        · intro k
          rw [hs, List.mem_cons]
          by_cases hk : k = name
          · subst hk; simp [hd]
          · simp [hk]
        · refine (Does.hasKey name).bind ?_
          rw [hd]
          simp only [Option.isSome_some, if_true, Bool.false_eq_true, if_false]
          refine (Does.hasKey name).bind ?_
          rw [hd]
          simp only [Option.isSome_some, if_true]
          convert h using 1
          unfold createdProps
          congr 1
          funext k
          by_cases hk : k = name
          · subst hk; simp [hd]
          · simp [hk]

/-- file in which the datasets `sel` hold the first `prog k` values, then zeros -/
def propFile (base : H5 α β) (sel : List String) (N : ℕ) (vals : String → List α) (prog : String → ℕ) : H5 α β :=
  { base with
    dsets := fun k =>
      if k ∈ sel ∧ k ∈ propertyNames then
        some (.flat (((vals k).map Casts.f32).take (prog k) ++ List.replicate (N - prog k) (Casts.f32 (0 : α))))
      else base.dsets k }

theorem batchValues_ok {F : Cell β → Cell β → Cell β → Py α} (n p o : List (Cell β)) (vs : List α)
    (h : List.Forall₂ (fun (t : Cell β × Cell β × Cell β) v => F t.1 t.2.1 t.2.2 = .ok v) (n.zip (p.zip o)) vs)
    (h1 : p.length = n.length) (h2 : o.length = n.length) : batchValues F n p o = .ok vs := by
  induction n generalizing p o vs with
  | nil =>
    cases p <;> cases o <;> simp at h1 h2
    cases h; rfl
  | cons a n ih =>
    cases p with
    | nil => simp at h1
    | cons b p =>
      cases o with
      | nil => simp at h2
      | cons c o =>
        simp only [List.zip_cons_cons] at h
        cases h with
        | cons h3 h4 =>
          simp only at h3
          unfold batchValues
          rw [h3, Py.ok_bind, ih p o _ h4 (by simpa using h1) (by simpa using h2)]
          rfl

theorem forall₂_drop_take {A B : Type} {R : A → B → Prop} {l : List A} {l' : List B} (h : List.Forall₂ R l l')
    (i b : ℕ) : List.Forall₂ R ((l.drop i).take b) ((l'.drop i).take b) :=
  List.forall₂_take b (List.forall₂_drop i h)

theorem progress (vs : List β) (z : β) (N i b : ℕ) (hl : vs.length = N) (hi : i < N) :
    vs.take (min N (i + b)) ++ List.replicate (N - min N (i + b)) z
      = (vs.take i ++ List.replicate (N - i) z).take i ++ (vs.drop i).take b
        ++ (vs.take i ++ List.replicate (N - i) z).drop (i + min b (N - i)) := by
  have hti : (vs.take i).length = i := by rw [List.length_take]; omega
  have h1 : (vs.take i ++ List.replicate (N - i) z).take i = vs.take i := by
    rw [List.take_append_of_le_length (by omega), List.take_of_length_le (by omega)]
  have h2 : (vs.take i ++ List.replicate (N - i) z).drop (i + min b (N - i))
      = List.replicate (N - min N (i + b)) z := by
    rw [List.drop_append, hti, List.drop_eq_nil_of_le (by omega), List.nil_append, List.drop_replicate]
    congr 1; omega
  have h3 : vs.take (min N (i + b)) = vs.take i ++ (vs.drop i).take b := by
    rw [← List.take_add, ← hl]
    by_cases h : i + b ≤ vs.length
    · rw [min_eq_right h]
    · rw [min_eq_left (by omega), List.take_of_length_le (le_refl _), List.take_of_length_le (by omega)]
  rw [h1, h2, h3]

theorem does_add_data {E : PropEnv α β} {dx : α} {c1 : Attr α} {base : H5 α β} {sel : List String} {N i b : ℕ}
    {vals : String → List α} {n p o : List (Cell β)} (hi : i < N) (hvl : ∀ k ∈ propertyNames, (vals k).length = N)
    (hv : ∀ k ∈ propertyNames, k ∈ sel → batchValues (E.value k dx c1) n p o = .ok (((vals k).drop i).take b))
    {name : String} (hmem : name ∈ propertyNames) {prog : String → ℕ} (hpi : prog name = i) :
    Does path (add_data path i b name (batchValues (E.value name dx c1) n p o) sel)
      (propFile base sel N vals prog) ()
      (propFile base sel N vals fun k => if k = name then min N (i + b) else prog k) := by
  have hlen : (((vals name).drop i).take b).length = min b (N - i) := by
    rw [List.length_take, List.length_drop, hvl name hmem]
  unfold add_data
  by_cases hs : name ∈ sel
  · rw [if_pos hs]
    refine (Does.lift (hv name hmem hs)).bind ?_
    have hd : (propFile base sel N vals prog).dsets name = some (.flat (((vals name).map Casts.f32).take i ++
        List.replicate (N - i) (Casts.f32 (0 : α)))) := by
      unfold propFile
      simp only [hs, hmem, and_self, if_true, hpi]
    refine (Does.dset hd).bind ?_
    have hvl' : (((vals name).map (Casts.f32 : α → β)).take i ++
        List.replicate (N - i) (Casts.f32 (0 : α))).length = N := by
      rw [List.length_append, List.length_take, List.length_map, hvl name hmem, List.length_replicate]; omega
    simp only [hvl', hlen, if_true]
    convert Does.putDset (path := path) (f := propFile base sel N vals prog) name _ using 1
    unfold propFile
    refine congrArg₂ H5.mk ?_ rfl
    funext k
    by_cases hk : k = name
    · subst hk
      simp only [hs, hmem, and_self, if_true, upd_same]
      congr 2
      have := progress ((vals k).map (Casts.f32 : α → β)) (Casts.f32 (0 : α)) N i b
        (by rw [List.length_map, hvl k hmem]) hi
      rw [this, List.map_take, List.map_drop]
    · simp only [hk, if_false, upd_ne _ _ hk]
  · rw [if_neg hs]
    convert Does.pure (path := path) (f := propFile base sel N vals prog) () using 1
    unfold propFile
    refine congrArg₂ H5.mk ?_ rfl
    funext k
    by_cases hk : k = name
    · subst hk; simp only [hs, false_and, if_false]
    · simp only [hk, if_false]

theorem does_addAll {E : PropEnv α β} {dx : α} {c1 : Attr α} {base : H5 α β} {sel : List String} {N i b : ℕ}
    {vals : String → List α} {n p o : List (Cell β)} (hi : i < N) (hvl : ∀ k ∈ propertyNames, (vals k).length = N)
    (hv : ∀ k ∈ propertyNames, k ∈ sel → batchValues (E.value k dx c1) n p o = .ok (((vals k).drop i).take b))
    (l : List String) (hl : l ⊆ propertyNames) (hn : l.Nodup) (prog : String → ℕ) (hp : ∀ k ∈ l, prog k = i) :
    Does path (addAll E path dx c1 i b n p o sel l) (propFile base sel N vals prog) ()
      (propFile base sel N vals fun k => if k ∈ l then min N (i + b) else prog k) := by
  induction l generalizing prog with
  | nil => exact Does.pure ()
  | cons name l ih =>
    rw [List.nodup_cons] at hn
    have hmem : name ∈ propertyNames := hl (by simp)
    have hpi : prog name = i := hp name (by simp)
    unfold addAll
    have hstep := does_add_data (path := path) (base := base) (prog := prog) hi hvl hv hmem hpi
    refine hstep.bind ?_
    convert ih (fun x hx => hl (by simp [hx])) hn.2 (fun k => if k = name then min N (i + b) else prog k) ?_ using 1
    · congr 1
      funext k
      by_cases hk : k = name
      · subst hk; simp
      · simp [hk]
    · intro k hk
      rw [if_neg (by rintro rfl; exact hn.1 hk)]
      exact hp k (by simp [hk])

theorem does_readRows {f : H5 α β} {name : String} {s : RowShape} {r : List (Cell β)}
    (h : f.dsets name = some (.rows s r)) (i b : ℕ) :
    Does path (readRows path name i b) f ((r.drop i).take b) f :=
  (Does.dset h).bind (Does.pure _)

theorem does_batchLoop {E : PropEnv α β} {dx : α} {c1 : Attr α} {base : H5 α β} {sel : List String} {N b : ℕ}
    (hb : 1 ≤ b) {vals : String → List α} (hvl : ∀ k ∈ propertyNames, (vals k).length = N)
    {n p o : List (Cell β)} {sn sp so : RowShape} (hn : base.dsets "density" = some (.rows sn n))
    (hp : base.dsets "phi" = some (.rows sp p)) (ho : base.dsets "omega" = some (.rows so o))
    (ln : n.length = N) (lp : p.length = N) (lo : o.length = N)
    (hv : ∀ k ∈ propertyNames, k ∈ sel → List.Forall₂
      (fun (t : Cell β × Cell β × Cell β) v => E.value k dx c1 t.1 t.2.1 t.2.2 = .ok v) (n.zip (p.zip o)) (vals k))
    (k i : ℕ) (hk : N ≤ k + i) :
    Does path (batchLoop E path dx c1 N b sel k i) (propFile base sel N vals fun _ => min N i) ()
      (propFile base sel N vals fun _ => N) := by
  induction k generalizing i with
  | zero =>
    rw [min_eq_left (by omega)]
    exact Does.pure ()
  | succ k ih =>
    unfold batchLoop
    split
    · next hi =>
      rw [min_eq_right hi.le]
      have hnot : ∀ {k : String}, k ∉ propertyNames → ∀ P, (propFile base sel N vals P).dsets k = base.dsets k := by
        intro k hk P
        unfold propFile
        simp only [hk, and_false, if_false]
      refine (does_readRows ((hnot (by decide) _).trans hn) i b).bind ?_
      refine (does_readRows ((hnot (by decide) _).trans hp) i b).bind ?_
      refine (does_readRows ((hnot (by decide) _).trans ho) i b).bind ?_
      have hba : ∀ k ∈ propertyNames, k ∈ sel → batchValues (E.value k dx c1) ((n.drop i).take b) ((p.drop i).take b)
          ((o.drop i).take b) = .ok (((vals k).drop i).take b) := by
        intro k hk hs
        apply batchValues_ok
        · have := forall₂_drop_take (hv k hk hs) i b
          simp only [List.zip_eq_zipWith, List.drop_zipWith, List.take_zipWith] at this ⊢
          exact this
        · simp [ln, lp]
        · simp [ln, lo]
      refine (does_addAll hi hvl hba propertyNames (fun _ h => h) (by decide) (fun _ => i) fun _ _ => rfl).bind ?_
      have := ih (i + b) (by omega)
      convert this using 1
      unfold propFile
      refine congrArg₂ H5.mk ?_ rfl
      funext k
      by_cases hk : k ∈ sel ∧ k ∈ propertyNames
      · simp only [hk, and_self, if_true]
      · simp only [hk, if_false]
    · next hi =>
      rw [min_eq_left (by omega)]
      exact Does.pure ()

end values

end Verif
