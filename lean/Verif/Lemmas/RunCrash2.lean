import Verif.Lemmas.RunCrash
import Verif.Lemmas.RunContinue
import Verif.Spec.RunCrash

/-!
# Crash points of `run`: the whole function
-/

set_option linter.unusedSectionVars false

namespace Verif

open H5IO H5 Run

variable {α β : Type} [Casts α β] [Zero α] [Inhabited α] [Inhabited β] [FloatOps α]

/-- a crash-state predicate together with an exactly known result -/
theorem Tr.makes {X : Type} {pre P : FS α β → Prop} {m : IOM α β X} {post : X → FS α β → Prop} (h : Tr pre P m post)
    {path : String} {x : X} {f' : H5 α β} (hm : Makes path m x f') {fs : FS α β} (hpre : pre fs) :
    Tr (fun g => g = fs) P m fun y g => y = x ∧ g = upd fs path (some f') := by
  intro σ hσ
  obtain ⟨l, e1, e2, e3, -⟩ := h σ (by rw [hσ]; exact hpre)
  refine ⟨l, e1, e2, e3, ?_⟩
  obtain ⟨σ', e, e'⟩ := hm σ
  rw [e]
  intro y hy
  injection hy with hy
  exact ⟨hy.symm, by rw [e', hσ]⟩

theorem Tr.assume {X : Type} {p : Prop} {pre P : FS α β → Prop} {m : IOM α β X} {post : X → FS α β → Prop}
    (h : p → Tr pre P m post) : Tr (fun g => p ∧ pre g) P m post := fun σ hσ => h hσ.1 σ hσ.2

/-- make the content of the file explicit -/
theorem Tr.split {X : Type} {fs : FS α β} {path : String} {R : H5 α β → Prop} {P : FS α β → Prop} {m : IOM α β X}
    {post : X → FS α β → Prop}
    (h : ∀ f, R f → Tr (fun g => g = upd fs path (some f)) P m post) :
    Tr (fun g => ∃ f, g = upd fs path (some f) ∧ R f) P m post := by
  intro σ hσ
  obtain ⟨f, hf, hr⟩ := hσ
  exact h f hr σ hf

/-- the same, with a further parameter -/
theorem Tr.split' {X : Type} {fs : FS α β} {path : String} {C : ℕ → Prop} {R : ℕ → H5 α β → Prop} {P : FS α β → Prop}
    {m : IOM α β X} {post : X → FS α β → Prop}
    (h : ∀ c, C c → ∀ f, R c f → Tr (fun g => g = upd fs path (some f)) P m post) :
    Tr (fun g => ∃ c, C c ∧ ∃ f, g = upd fs path (some f) ∧ R c f) P m post := by
  intro σ hσ
  obtain ⟨c, hc, f, hf, hr⟩ := hσ
  exact h c hc f hr σ hf

variable {E : Env α β} {a : Args α} {fs : FS α β} {hw : Solver α} {ns M : ℕ} {S : ℕ → NS (Cell α)}
  {f0 : H5 α β} {sv0 : List (NS (Cell α) × NS (Cell α))} {old : String → List (Cell β)} {fr : List (α × NS (Cell α))}
  {p : NS (Cell α)} {params : NS (Attr α)} {t0 : α}

/-- the saves up to step `c`, `sv0` before the first step -/
def savesTo (E : Env α β) (a : Args α) (S : ℕ → NS (Cell α)) (sv0 : List (NS (Cell α) × NS (Cell α))) (c : ℕ) :
    List (NS (Cell α) × NS (Cell α)) := sv0 ++ loopSaves E a S 0 c

/-- what fresh and continued runs have in common: the loop starts with the state
`p`; the file was `f0`, with the rows `old`, and `sv0` has been saved -/
structure Base (E : Env α β) (a : Args α) (hw : Solver α) (ns M : ℕ) (S : ℕ → NS (Cell α))
    (f0 : H5 α β) (sv0 : List (NS (Cell α) × NS (Cell α))) (old : String → List (Cell β)) (fr : List (α × NS (Cell α)))
    (p : NS (Cell α)) (params : NS (Attr α)) (t0 : α) : Prop where
  buffer : 1 ≤ a.buffer_length
  saves : SavesAs E a.downsample_factor a.grid_pts ns
  inv0 : Inv a [] a.grid_pts ns f0 (zeroBuffer (α := α) a.buffer_length ns ns) 0
  rows0 : ∀ k ∈ "time" :: fieldList, f0.dsets k = some (.rows (rowShape ns k) (old k))
  frames : List.Forall₂ (fun fr v => IsSave E a.downsample_factor a.saveState fr.1 fr.2 v ∧ Shaped a.grid_pts fr.2)
      fr (savesTo E a S sv0 M)
  solver : ∀ hw', E.HW params = .ok hw' → hw' = hw
  start : ∀ om dxa phi, p.getItem "omega" = .ok om → params.getItem "dx" = .ok dxa →
    hw.get_phi om (E.attrNum dxa) = .ok phi → S 0 = p.set "phi" phi
  steps : ∀ n p, n < M → hw.rk4_step (S n) a.step_size a.dx = .ok p → p = S (n + 1)
  count : ∀ q s, FloatOps.div (FloatOps.sub a.end_time t0) a.step_size = .ok q →
    FloatOps.toInt q = .ok s → s.toNat ≤ M
  shaped : ∀ n, 1 ≤ n → n ≤ M → Shaped a.grid_pts (S n)

/-- the file systems of interest -/
def CrashOk (E : Env α β) (a : Args α) (fs : FS α β) (ns : ℕ) (old : String → List (Cell β))
    (fr : List (α × NS (Cell α))) (g : FS α β) : Prop :=
  g = fs ∨ ∃ f, g = upd fs a.output_path (some f) ∧ Truncated E a ns old fr f

/-! ### creation of the file -/

variable {K : List String} {sh : String → RowShape}

/-- every dataset of the list is missing or empty -/
def Blank (K : List String) (sh : String → RowShape) (f : H5 α β) : Prop :=
  ∀ k ∈ K, f.dsets k = none ∨ f.dsets k = some (.rows (sh k) [])

theorem Blank.truncated {f : H5 α β} (h : Blank ("time" :: fieldList) (rowShape ns) f) (fr : List (α × NS (Cell α))) :
    Truncated E a ns (fun _ => []) fr f := by
  refine ⟨"", 0, 0, Nat.zero_le _, fun k hk _ => ?_⟩
  rcases h k hk with h | h
  · exact .inl ⟨h, rfl, rfl, rfl⟩
  · exact .inr ⟨[], 0, by rw [h]; rfl, .nil, .inl rfl, .inl rfl⟩

/-- a blank file at `path` -/
def BlankAt (path : String) (fs : FS α β) (K : List String) (sh : String → RowShape) (g : FS α β) : Prop :=
  ∃ f, g = upd fs path (some f) ∧ Blank K sh f

theorem BlankAt.content {path : String} {g : FS α β} (h : BlankAt path fs K sh g) {f : H5 α β} (hf : g path = some f) :
    g = upd fs path (some f) ∧ Blank K sh f := by
  obtain ⟨f', e, hb⟩ := h
  rw [e, upd_same] at hf
  injection hf with hf
  subst hf
  exact ⟨e, hb⟩

theorem tr_createDset {path name : String} {d : Dset α β}
    (hd : name ∈ K → d = .rows (sh name) []) :
    Tr (BlankAt path fs K sh) (BlankAt path fs K sh) (createDset path name d : IOM α β Unit)
      fun _ => BlankAt path fs K sh := by
  unfold createDset
  refine Tr.bind (mid := fun _ => BlankAt path fs K sh) ?_ fun b => ?_
  · refine (Tr.content path fun _ h => h).bind fun f => ?_
    exact Tr.pure _ (fun _ h => h.1) fun _ h => h.1
  · split
    · exact Tr.raise _ fun _ h => h
    · refine Tr.putDset path name d (fun _ h => h) fun g f hg hf => ?_
      obtain ⟨e, hb⟩ := hg.content hf
      have : BlankAt path fs K sh (upd g path (some { f with dsets := upd f.dsets name (some d) })) := by
        refine ⟨_, by rw [e, upd_upd], fun k hk => ?_⟩
        by_cases hkn : k = name
        · subst hkn
          right
          simp only [upd_same, hd hk]
        · simp only [upd_ne _ _ hkn]
          exact hb k hk
      exact ⟨this, this⟩

theorem tr_createRows {path : String} (shape : RowShape) (names : List String)
    (hn : ∀ k ∈ names, k ∈ K → shape = sh k) :
    Tr (BlankAt path fs K sh) (BlankAt path fs K sh) (createRows path shape names : IOM α β Unit)
      fun _ => BlankAt path fs K sh := by
  induction names with
  | nil => exact Tr.pure _ (fun _ h => h) fun _ h => h
  | cons k names ih =>
    refine (tr_createDset fun hk => ?_).bind fun _ => ih fun k hk => hn k (by simp [hk])
    rw [hn k (by simp) hk]

theorem tr_createStates {path : String} (y x : ℕ) (names : List String)
    (hn : ∀ k ∈ names, "state_" ++ k ∉ K) :
    Tr (BlankAt path fs K sh) (BlankAt path fs K sh) (createStates path y x names : IOM α β Unit)
      fun _ => BlankAt path fs K sh := by
  induction names with
  | nil => exact Tr.pure _ (fun _ h => h) fun _ h => h
  | cons k names ih =>
    refine (tr_createDset fun hk => absurd hk (hn k (by simp))).bind fun _ => ih fun k hk => hn k (by simp [hk])

theorem tr_setAttrs {path : String} (params : NS (Attr α)) :
    Tr (BlankAt path fs K sh) (BlankAt path fs K sh) (setAttrs path params : IOM α β Unit)
      fun _ => BlankAt path fs K sh := by
  induction params with
  | nil => exact Tr.pure _ (fun _ h => h) fun _ h => h
  | cons p params ih =>
    obtain ⟨k, v⟩ := p
    refine Tr.bind ?_ fun _ => ih
    refine (Tr.content path fun _ h => h).bind fun f => ?_
    refine Tr.mutate _ (fun _ h => h.1) fun g hg => ?_
    obtain ⟨e, hb⟩ := hg.1.content hg.2
    have : BlankAt path fs K sh (upd g path (some { f with attrs := upd f.attrs k (some v) })) :=
      ⟨{ f with attrs := upd f.attrs k (some v) }, by rw [e, upd_upd], hb⟩
    exact ⟨this, this⟩

theorem tr_create (a : Args α) (ns : ℕ) (fs : FS α β) (P : FS α β → Prop) (h0 : P fs)
    (hP : ∀ f, Blank ("time" :: fieldList) (rowShape ns) f → P (upd fs a.output_path (some f))) :
    Tr (fun g => g = fs) P (create_appendable_h5 a.output_path (runParams a ns) ns ns a.grid_pts a.grid_pts fieldList
      ["time"] a.saveState : IOM α β Unit) fun _ g => g = upd fs a.output_path (some (runFile a ns)) := by
  have hB : ∀ g, BlankAt a.output_path fs ("time" :: fieldList) (rowShape ns) g → P g := by
    rintro g ⟨f, rfl, hf⟩; exact hP f hf
  have h : Tr (fun g => g = fs) P (create_appendable_h5 a.output_path (runParams a ns) ns ns a.grid_pts a.grid_pts
      fieldList ["time"] a.saveState : IOM α β Unit) fun _ => BlankAt a.output_path fs ("time" :: fieldList) (rowShape ns) := by
    unfold create_appendable_h5
    refine Tr.bind (mid := fun _ => BlankAt a.output_path fs ("time" :: fieldList) (rowShape ns)) ?_ fun _ => ?_
    · refine Tr.mutate _ (fun g hg => by rw [hg]; exact h0) fun g hg => ?_
      have : BlankAt a.output_path fs ("time" :: fieldList) (rowShape ns) (upd g a.output_path (some H5.empty)) :=
        ⟨_, by rw [hg], fun k _ => .inl rfl⟩
      exact ⟨hB _ this, this⟩
    · refine Tr.weaken (P := BlankAt a.output_path fs ("time" :: fieldList) (rowShape ns)) (pre := BlankAt a.output_path fs ("time" :: fieldList) (rowShape ns))
        (post := fun _ => BlankAt a.output_path fs ("time" :: fieldList) (rowShape ns)) ?_ (fun _ h => h) hB fun _ _ h => h
      refine (tr_createRows _ _ ?_).bind fun _ => (tr_createRows _ _ ?_).bind fun _ => ?_
      · intro k hk _
        exact (if_neg (fieldList_ne_time hk)).symm
      · intro k hk _
        rw [List.mem_singleton] at hk
        exact (if_pos hk).symm
      · split
        · exact (tr_createStates _ _ _ (by decide)).bind fun _ => tr_setAttrs _
        · exact tr_setAttrs _
  exact (h.makes (makes_runFile a ns) rfl).weaken (fun _ h => h) (fun _ h => h) fun _ _ h => h.2

/-! ### the saves -/

theorem savesTo_succ (c : ℕ) : savesTo E a S sv0 (c + 1) = savesTo E a S sv0 c ++ loopSaves E a S c 1 := by
  unfold savesTo loopSaves
  rw [List.append_assoc, ← List.map_append, ← List.filter_append, Nat.zero_add, Nat.add_comm c 1,
    List.range'_append_1, Nat.add_comm 1 c]

theorem savesTo_prefix {c : ℕ} (hc : c ≤ M) : savesTo E a S sv0 c <+: savesTo E a S sv0 M := by
  induction M with
  | zero => rw [Nat.le_zero.mp hc]
  | succ M ih =>
    rcases Nat.lt_or_ge M c with h | h
    · rw [show c = M + 1 by omega]
    · exact (ih h).trans (by rw [savesTo_succ]; exact List.prefix_append _ _)

/-- the rows of dataset `k` for a list of saves -/
def saveRows (ns : ℕ) (k : String) (saves : List (NS (Cell α) × NS (Cell α))) : List (Cell β) :=
  saves.map fun v => stored (rowShape ns k) v.1 k

theorem good_of_prefix (h : Base E a hw ns M S f0 sv0 old fr p params t0) {k : String} (hk : k ∈ "time" :: fieldList)
    {good : List (Cell β)} (hg : good <+: saveRows ns k (savesTo E a S sv0 M)) :
    List.Forall₂ (fun fr row => IsFrameRow E a.downsample_factor k fr.1 fr.2 row)
      (fr.take good.length) good := by
  have hall : List.Forall₂ (fun fr row => IsFrameRow E a.downsample_factor k fr.1 fr.2 row) fr
      (saveRows ns k (savesTo E a S sv0 M) : List (Cell β)) := by
    unfold saveRows
    rw [List.forall₂_map_right_iff]
    refine h.frames.imp fun fr v hv => ?_
    refine hv.1.row h.saves hv.2 ?_
    unfold rowShape
    rcases List.mem_cons.mp hk with rfl | hk
    · left; simp
    · right; exact ⟨hk, if_neg (fieldList_ne_time hk)⟩
  have := List.forall₂_take good.length hall
  rwa [← List.prefix_iff_eq_take.mp hg] at this

/-- the buffer and the file hold the saves `sv` -/
structure Holds (a : Args α) (ns : ℕ) (old : String → List (Cell β)) (f : H5 α β) (buf : NS (Buf β)) (n : ℕ)
    (sv : List (NS (Cell α) × NS (Cell α))) : Prop where
  ok : BufOk f a.buffer_length buf
  le : n ≤ a.buffer_length
  rows : ∀ k ∈ "time" :: fieldList, ∃ b, buf.get? k = some b ∧ b.shape = rowShape ns k ∧
    logical f buf n k = old k ++ saveRows ns k sv
  grows : ∀ k ∈ "time" :: fieldList, ∃ r, f.rowsOf k = old k ++ r

theorem Holds.truncated (h : Base E a hw ns M S f0 sv0 old fr p params t0) {f : H5 α β} {buf : NS (Buf β)} {n : ℕ}
    {sv : List (NS (Cell α) × NS (Cell α))} (hh : Holds a ns old f buf n sv) (hsv : sv <+: savesTo E a S sv0 M)
    {f' : H5 α β} (hm : MidAppend f buf n f') : Truncated E a ns old fr f' := by
  obtain ⟨k0, hm⟩ := hm
  refine ⟨k0, sv.length - n, n, hh.le, fun k hk _ => .inr ?_⟩
  obtain ⟨b, hb, hsh, hlog⟩ := hh.rows k hk
  have hlen := hh.ok.len _ (mem_of_get? hb)
  simp only at hlen
  have hpre : saveRows ns k sv <+: (saveRows ns k (savesTo E a S sv0 M) : List (Cell β)) := hsv.map _
  obtain ⟨r, hr⟩ := hh.grows k hk
  unfold logical at hlog
  rw [hb, hr] at hlog
  simp only [Option.map_some, Option.getD_some, List.append_assoc, List.append_cancel_left_eq] at hlog
  have hl : r.length + n = sv.length := by
    have := congrArg List.length hlog
    rw [List.length_append, List.length_take, hlen, Nat.min_eq_left hh.le] at this
    rw [this]; unfold saveRows; rw [List.length_map]
  have hpre' : r <+: (saveRows ns k (savesTo E a S sv0 M) : List (Cell β)) :=
    (List.prefix_append _ (b.rows.take n)).trans (hlog ▸ hpre)
  rcases hm k with e | ⟨b', hb', e⟩
  · refine ⟨r, 0, ?_, good_of_prefix h hk hpre', .inl (by omega), .inl rfl⟩
    rw [e, hh.ok.rows_eq hb, hsh, hr]
    simp
  · rw [hb] at hb'
    injection hb' with hb'
    subst hb'
    rcases e with e | ⟨rfl, e⟩
    · refine ⟨r ++ b.rows.take n, 0, ?_, ?_, .inr ?_, .inl rfl⟩
      · rw [e, hsh, hr]; simp
      · rw [hlog]; exact good_of_prefix h hk hpre
      · rw [hlog]; unfold saveRows; rw [List.length_map]; omega
    · refine ⟨r, n, ?_, good_of_prefix h hk hpre', .inl (by omega), .inr ⟨rfl, by omega, rfl⟩⟩
      rw [e, hsh, hr]

theorem rows_afterSaves {L : ℕ} (saves : List (NS (Cell α) × NS (Cell α))) (f : H5 α β) {buf : NS (Buf β)} {i : ℕ}
    (hb : BufOk f L buf) {k : String} {b : Buf β} (hk : buf.get? k = some b) :
    f.rowsOf k <+: (afterSaves L f buf i saves).1.rowsOf k := by
  induction saves generalizing f buf i b with
  | nil => exact List.prefix_refl _
  | cons v rest ih =>
    unfold afterSaves
    refine List.IsPrefix.trans ?_ (ih _ (bufOk_save hb v.1 v.2)
      (b := { b with rows := b.rows.set i (stored b.shape v.1 k) }) (by rw [get?_filled, hk]; rfl))
    rw [rowsOf_savedFile' hb hk]
    split
    · exact List.prefix_append _ _
    · exact List.prefix_refl _

/-- the situation after `c` steps -/
structure Reach (a : Args α) (ns : ℕ) (f0 : H5 α β) (sv : List (NS (Cell α) × NS (Cell α)))
    (f : H5 α β) (buf : NS (Buf β)) (i : ℕ) : Prop where
  inv : Inv a [] a.grid_pts ns f buf i
  eq : afterSaves a.buffer_length f0 (zeroBuffer (α := α) a.buffer_length ns ns) 0 sv = (f, buf, i)

theorem Reach.holds (h : Base E a hw ns M S f0 sv0 old fr p params t0) {sv : List (NS (Cell α) × NS (Cell α))}
    {f : H5 α β} {buf : NS (Buf β)} {i : ℕ} (hr : Reach a ns f0 sv f buf i) : Holds a ns old f buf i sv := by
  have hI := h.inv0
  have hro : ∀ k ∈ "time" :: fieldList, f0.rowsOf k = old k := fun k hk => by
    unfold H5.rowsOf; rw [h.rows0 k hk]
  refine ⟨hr.inv.ok, hr.inv.lt.le, fun k hk => ?_, fun k hk => ?_⟩
  · obtain ⟨b, hb, hsh⟩ := zeroBuffer_get (α := α) (β := β) a.buffer_length ns hk
    obtain ⟨b', h1, h2⟩ := afterSaves_get? (L := a.buffer_length) sv f0 _ 0 hb
    have hlog := logical_afterSaves sv f0 hI.lt hI.ok hb
    rw [hr.eq] at h1 hlog
    refine ⟨b', h1, h2.trans hsh, ?_⟩
    have h0 : logical f0 (zeroBuffer (α := α) a.buffer_length ns ns) 0 k = old k := by
      unfold logical
      rw [hro k hk, hb]
      simp
    rw [h0, hsh] at hlog
    exact hlog
  · obtain ⟨b, hb, -⟩ := zeroBuffer_get (α := α) (β := β) a.buffer_length ns hk
    have := rows_afterSaves (i := 0) sv f0 hI.ok hb
    rw [hr.eq, hro k hk] at this
    obtain ⟨r, hr⟩ := this
    exact ⟨r, hr.symm⟩

theorem Reach.truncated (h : Base E a hw ns M S f0 sv0 old fr p params t0) {sv : List (NS (Cell α) × NS (Cell α))}
    {f : H5 α β} {buf : NS (Buf β)} {i : ℕ} (hr : Reach a ns f0 sv f buf i) (hsv : sv <+: savesTo E a S sv0 M) :
    Truncated E a ns old fr f :=
  (hr.holds h).truncated h hsv ⟨"", fun _ => .inl rfl⟩

theorem truncated_mono {F f' : H5 α β}
    (hF : Truncated E a ns old fr F) (he : ∀ k ∈ "time" :: fieldList, k ∉ a.properties → f'.dsets k = F.dsets k) :
    Truncated E a ns old fr f' := by
  obtain ⟨k0, c, d, hd, h⟩ := hF
  refine ⟨k0, c, d, hd, fun k hk hp => ?_⟩
  rw [he k hk hp]
  exact h k hk hp

/-- one save -/
theorem Reach.save (h : Base E a hw ns M S f0 sv0 old fr p params t0) {sv : List (NS (Cell α) × NS (Cell α))}
    {f : H5 α β} {buf : NS (Buf β)} {i : ℕ} (hr : Reach a ns f0 sv f buf i) {v : NS (Cell α) × NS (Cell α)}
    (hsv : sv ++ [v] <+: savesTo E a S sv0 M) {t : α} {plasma : NS (Cell α)}
    (hv : IsSave E a.downsample_factor a.saveState t plasma v) (hp : Shaped a.grid_pts plasma) :
    Reach a ns f0 (sv ++ [v]) (savedFile f a.buffer_length i buf v.1 v.2) (filled i v.1 buf)
      (nextIndex a.buffer_length i) ∧
    Tr (fun g => g = upd fs a.output_path (some f)) (CrashOk E a fs ns old fr)
      (save_to_buffered_h5 buf a.buffer_length i v.1 a.output_path v.2 : IOM α β _) fun x g =>
        x = (filled i v.1 buf, nextIndex a.buffer_length i) ∧
        g = upd fs a.output_path (some (savedFile f a.buffer_length i buf v.1 v.2)) := by
  have hr' : Reach a ns f0 (sv ++ [v]) (savedFile f a.buffer_length i buf v.1 v.2) (filled i v.1 buf)
      (nextIndex a.buffer_length i) := by
    refine ⟨hr.inv.save _ _, ?_⟩
    rw [afterSaves_append, hr.eq]
    rfl
  refine ⟨hr', ?_⟩
  -- all contents during the call are truncated files with rows for every dataset
  let Q : H5 α β → Prop := fun f => Truncated E a ns old fr f ∧
    ∀ k ∈ "time" :: fieldList, ∃ s r, f.dsets k = some (.rows s r)
  have hd : DoesP a.output_path Q (save_to_buffered_h5 buf a.buffer_length i v.1 a.output_path v.2 : IOM α β _) f
      (filled i v.1 buf, nextIndex a.buffer_length i) (savedFile f a.buffer_length i buf v.1 v.2) := by
    refine doesP_save hr.inv.lt hr.inv.ok (hv.fits h.saves hp (by simp) hr.inv.buf)
      (hv.statesFit hp hr.inv.states) ?_ ?_
    · intro hfull f' hf'
      have hh : Holds a ns old f (filled i v.1 buf) a.buffer_length (sv ++ [v]) := by
        have h0 := hr.holds h
        refine ⟨bufOk_filled hr.inv.ok _, le_rfl, fun k hk => ?_, h0.grows⟩
        obtain ⟨b, hb, hsh, hlog⟩ := h0.rows k hk
        refine ⟨{ b with rows := b.rows.set i (stored b.shape v.1 k) }, by rw [get?_filled, hb]; rfl, hsh, ?_⟩
        have hlen := hr.inv.ok.len _ (mem_of_get? hb)
        simp only at hlen
        unfold logical at hlog ⊢
        rw [get?_filled, hb]
        rw [hb] at hlog
        simp only [Option.map_some, Option.getD_some] at hlog ⊢
        rw [← hfull, take_set_succ _ _ (by omega), ← List.append_assoc, hlog, hsh]
        unfold saveRows
        rw [List.map_append, List.append_assoc]
        rfl
      refine ⟨hh.truncated h hsv hf', fun k hk => ?_⟩
      obtain ⟨b, hb, -, -⟩ := hh.rows k hk
      obtain ⟨k0, hf'⟩ := hf'
      rcases hf' k with e | ⟨b', -, e | ⟨-, e⟩⟩
      · exact ⟨_, _, by rw [e]; exact hh.ok.rows_eq hb⟩
      · exact ⟨_, _, e⟩
      · exact ⟨_, _, e⟩
    · rintro F f' hf' ⟨h1, h2⟩
      refine ⟨truncated_mono h1 fun k hk _ => ?_, fun k hk => ?_⟩
      · obtain ⟨s, r, e⟩ := h2 k hk
        rw [e, hf' k s r e]
      · obtain ⟨s, r, e⟩ := h2 k hk
        exact ⟨s, r, hf' k s r e⟩
  exact hd.tr (fun f hf => .inr ⟨f, rfl, hf.1⟩) (.inr ⟨_, rfl, hr'.truncated h hsv⟩)

/-! ### the loop -/

/-- the situation after `c` steps -/
def AtStep (E : Env α β) (a : Args α) (fs : FS α β) (ns : ℕ) (S : ℕ → NS (Cell α)) (f0 : H5 α β)
    (sv0 : List (NS (Cell α) × NS (Cell α))) (c : ℕ) (s : RunState α β) (g : FS α β) : Prop :=
  ∃ f, g = upd fs a.output_path (some f) ∧ Reach a ns f0 (savesTo E a S sv0 c) f s.buffer s.buffer_index

theorem AtStep.ok (h : Base E a hw ns M S f0 sv0 old fr p params t0) {c : ℕ} (hc : c ≤ M) {s : RunState α β} {g : FS α β}
    (hg : AtStep E a fs ns S f0 sv0 c s g) : CrashOk E a fs ns old fr g := by
  obtain ⟨f, rfl, hr⟩ := hg
  exact .inr ⟨f, rfl, hr.truncated h (savesTo_prefix hc)⟩

theorem tr_record (h : Base E a hw ns M S f0 sv0 old fr p params t0) {c : ℕ} (hc : c + 1 ≤ M) (s : RunState α β)
    (hs : s.plasma = S (c + 1)) :
    Tr (AtStep E a fs ns S f0 sv0 c s) (CrashOk E a fs ns old fr) (record E a (stepTime a (c + 1)) (c + 1) s)
      fun s' g => s'.plasma = S (c + 1) ∧ AtStep E a fs ns S f0 sv0 (c + 1) s' g := by
  have hS := h.shaped (c + 1) (by omega) hc
  obtain ⟨hsv, hIs⟩ := theSave_ok h.saves a.saveState hS (stepTime a (c + 1))
  refine Tr.split fun f hr => ?_
  have hok : CrashOk E a fs ns old fr (upd fs a.output_path (some f)) :=
    .inr ⟨f, rfl, hr.truncated h (savesTo_prefix (by omega))⟩
  unfold record
  by_cases hrec : isRecorded a (c + 1) = true
  · have hl : loopSaves E a S c 1
        = [theSave E a.downsample_factor a.saveState (stepTime a (c + 1)) (S (c + 1))] := by
      simp [loopSaves, List.range'_one, hrec]
    have hsucc := savesTo_succ (E := E) (a := a) (S := S) (sv0 := sv0) c
    rw [hl] at hsucc
    obtain ⟨hr', htr⟩ := hr.save h (v := theSave E a.downsample_factor a.saveState (stepTime a (c + 1)) (S (c + 1)))
      (by rw [← hsucc]; exact savesTo_prefix hc) hIs hS
    unfold isRecorded at hrec
    simp only [hrec, if_true, hs]
    refine Tr.bind (mid := fun x g => x = theSave E a.downsample_factor a.saveState (stepTime a (c + 1)) (S (c + 1)) ∧
      g = upd fs a.output_path (some f)) ?_ fun x => ?_
    · refine Tr.lift _ (fun g hg => by rw [hg]; exact hok) fun g x hg hx => ⟨?_, hg⟩
      rw [hsv] at hx
      injection hx with hx
      exact hx.symm
    · refine Tr.assume fun e => ?_
      subst e
      refine Tr.bind htr fun y => ?_
      refine Tr.pure _ ?_ ?_
      · rintro g ⟨-, rfl⟩
        exact .inr ⟨_, rfl, hr'.truncated h (by rw [← hsucc]; exact savesTo_prefix hc)⟩
      · rintro g ⟨rfl, rfl⟩
        exact ⟨hs.symm ▸ rfl, _, rfl, by rw [hsucc]; exact hr'⟩
  · have hl : loopSaves E a S c 1 = [] := by simp [loopSaves, List.range'_one, hrec]
    have hsucc := savesTo_succ (E := E) (a := a) (S := S) (sv0 := sv0) c
    rw [hl, List.append_nil] at hsucc
    unfold isRecorded at hrec
    simp only [hrec]
    refine Tr.pure _ (fun g hg => by rw [hg]; exact hok) ?_
    rintro g rfl
    exact ⟨hs, f, rfl, by rw [hsucc]; exact hr⟩

theorem tr_loop (h : Base E a hw ns M S f0 sv0 old fr p params t0) (k : ℕ) : ∀ (c : ℕ) (s : RunState α β), c + k ≤ M → s.plasma = S c →
    Tr (AtStep E a fs ns S f0 sv0 c s) (CrashOk E a fs ns old fr) (loop E hw a k (c + 1) s)
      fun s' g => ∃ c' ≤ M, AtStep E a fs ns S f0 sv0 c' s' g := by
  induction k with
  | zero =>
    intro c s hc _
    exact Tr.pure _ (fun g hg => hg.ok h (by omega)) fun g hg => ⟨c, by omega, hg⟩
  | succ k ih =>
    intro c s hc hs
    unfold loop
    refine Tr.bind (mid := fun p g => p = S (c + 1) ∧ AtStep E a fs ns S f0 sv0 c s g) ?_ fun p => ?_
    · refine Tr.lift _ (fun g hg => hg.ok h (by omega)) fun g p hg hp => ⟨?_, hg⟩
      rw [hs] at hp
      exact h.steps c p (by omega) hp
    · refine Tr.assume fun e => ?_
      subst e
      refine Tr.bind (tr_record h (c := c) (by omega) { s with plasma := S (c + 1) } rfl) fun s1 => ?_
      refine Tr.bind (mid := fun _ g => s1.plasma = S (c + 1) ∧ AtStep E a fs ns S f0 sv0 (c + 1) s1 g) ?_ fun d => ?_
      · exact Tr.lift _ (fun g hg => hg.2.ok h (by omega)) fun g p hg _ => hg
      · split
        · exact Tr.pure _ (fun g hg => hg.2.ok h (by omega)) fun g hg => ⟨c + 1, by omega, hg.2⟩
        · exact Tr.assume fun e => ih (c + 1) s1 (by omega) e

theorem tr_simulate (h : Base E a hw ns M S f0 sv0 old fr p params t0) (s : RunState α β) (hs : s.plasma = p) :
    Tr (AtStep E a fs ns S f0 sv0 0 s) (CrashOk E a fs ns old fr) (simulate E a s params t0)
      fun _ g => ∃ f, g = upd fs a.output_path (some f) ∧ Truncated E a ns old fr f := by
  have ok0 : ∀ g, AtStep E a fs ns S f0 sv0 0 s g → CrashOk E a fs ns old fr g := fun g hg => hg.ok h (by omega)
  unfold simulate
  refine Tr.bind (mid := fun hw' g => hw' = hw ∧ AtStep E a fs ns S f0 sv0 0 s g)
    (Tr.lift _ ok0 fun g x hg hx => ⟨h.solver x hx, hg⟩) fun hw' => ?_
  refine Tr.assume fun e => ?_
  subst e
  refine Tr.bind (mid := fun om g => p.getItem "omega" = .ok om ∧ AtStep E a fs ns S f0 sv0 0 s g)
    (Tr.lift _ ok0 fun g x hg hx => ⟨by rw [← hs]; exact hx, hg⟩) fun om => ?_
  refine Tr.assume fun hom => ?_
  refine Tr.bind (mid := fun dx g => params.getItem "dx" = .ok dx ∧ AtStep E a fs ns S f0 sv0 0 s g)
    (Tr.lift _ ok0 fun g x hg hx => ⟨hx, hg⟩) fun dx => ?_
  refine Tr.assume fun hdx => ?_
  refine Tr.bind (mid := fun phi g => S 0 = p.set "phi" phi ∧ AtStep E a fs ns S f0 sv0 0 s g)
    (Tr.lift _ ok0 fun g x hg hx => ⟨h.start _ _ x hom hdx hx, hg⟩) fun phi => ?_
  refine Tr.assume fun hS0 => ?_
  refine Tr.bind (mid := fun q g => FloatOps.div (FloatOps.sub a.end_time t0) a.step_size = .ok q ∧
    AtStep E a fs ns S f0 sv0 0 s g) (Tr.lift _ ok0 fun g x hg hx => ⟨hx, hg⟩) fun q => ?_
  refine Tr.assume fun hq => ?_
  refine Tr.bind (mid := fun st g => FloatOps.toInt q = .ok st ∧ AtStep E a fs ns S f0 sv0 0 s g)
    (Tr.lift _ ok0 fun g x hg hx => ⟨hx, hg⟩) fun st => ?_
  refine Tr.assume fun hst => ?_
  have hM := h.count q st hq hst
  split
  · exact Tr.raise _ ok0
  refine Tr.bind (tr_loop h st.toNat 0 { s with plasma := s.plasma.set "phi" phi } (by omega) (by rw [hS0, hs]))
    fun s' => ?_
  refine Tr.split' fun c' hc' f hr => ?_
  have hp := savesTo_prefix (E := E) (a := a) (S := S) (sv0 := sv0) hc'
  split
  · next hi =>
    have hh := hr.holds h
    have hfin : Truncated E a ns old fr (appendedRows f s'.buffer s'.buffer_index) := by
      refine hh.truncated h hp ⟨"", fun k => ?_⟩
      unfold appendedRows
      simp only
      cases hk : NS.get? s'.buffer k with
      | none => exact .inl rfl
      | some b => exact .inr ⟨b, rfl, .inl rfl⟩
    refine ((doesP_append_h5 (path := a.output_path) (Q := Truncated E a ns old fr) hi hh.le _ hh.ok
      fun f' hf' => hh.truncated h hp hf').tr (fun f hf => .inr ⟨f, rfl, hf⟩) (.inr ⟨_, rfl, hfin⟩)).weaken
      (fun _ h => h) (fun _ h => h) ?_
    rintro x g ⟨-, rfl⟩
    exact ⟨_, rfl, hfin⟩
  · have ht := hr.truncated h hp
    refine Tr.pure _ ?_ ?_
    · rintro g rfl
      exact .inr ⟨f, rfl, ht⟩
    · rintro g rfl
      exact ⟨f, rfl, ht⟩

/-- the part of `run` after `setup` -/
theorem tr_rest (h : Base E a hw ns M S f0 sv0 old fr p params t0) (s : RunState α β) (hs : s.plasma = p) :
    Tr (AtStep E a fs ns S f0 sv0 0 s) (CrashOk E a fs ns old fr) (simulate E a s params t0 >>=
      fun _ => if !a.properties.isEmpty then
        RunProperties.calculate_properties E.props a.output_path a.buffer_length a.properties true
      else pure ()) fun _ _ => True := by
  refine Tr.bind (tr_simulate h s hs) fun _ => ?_
  refine Tr.split fun f ht => ?_
  split
  · refine (keeps_calculate (path := a.output_path) (fs := upd fs a.output_path (some f)) (f0 := f)
      (names := a.properties) E.props a.buffer_length true).weaken ?_ ?_ fun _ _ _ => trivial
    · rintro g rfl
      exact Keeps.refl (upd_same _ _ _)
    · rintro g hg
      obtain ⟨f', e1, -, e3⟩ := hg.file
      refine .inr ⟨f', ?_, truncated_mono ht fun k _ hp => e3 k hp⟩
      funext q
      by_cases hq : q = a.output_path
      · rw [hq, e1, upd_same]
      · rw [hg.other q hq, upd_ne _ _ hq, upd_ne _ _ hq]
  · refine Tr.pure _ ?_ fun _ _ => trivial
    rintro g rfl
    exact .inr ⟨f, rfl, ht⟩

/-- `run` from the result of `setup` -/
theorem tr_run_of (h : Base E a hw ns M S f0 sv0 old fr p params t0)
    (hset : Tr (fun g => g = fs) (CrashOk E a fs ns old fr) (setup E a) fun x g =>
      ∃ s : RunState α β, x = some (s, params, t0) ∧ s.plasma = p ∧ AtStep E a fs ns S f0 sv0 0 s g) :
    Tr (fun g => g = fs) (CrashOk E a fs ns old fr) (run E a) fun _ _ => True := by
  have ok0 : ∀ g, g = fs → CrashOk E a fs ns old fr g := fun g hg => .inl hg
  unfold run
  split
  · exact Tr.raise _ ok0
  refine Tr.bind hset fun x => ?_
  intro σ hσ
  obtain ⟨s, rfl, hs, hσ⟩ := hσ
  exact tr_rest h s hs σ hσ

/-! ### a new file -/

/-- the saves before the first step -/
def initialSaves (E : Env α β) (a : Args α) : List (NS (Cell α) × NS (Cell α)) :=
  if FloatOps.eq a.recording_start_time (FloatOps.ofInt 0) then
    [firstSave E a.downsample_factor a.saveState (FloatOps.ofInt 0) a.plasma0] else []

theorem StartedRun.base (h : StartedRun E a fs hw ns M S) :
    Base E a hw ns M S (runFile a ns : H5 α β) (initialSaves E a) (fun _ => []) (frames a S M) a.plasma0 a.physics
      (FloatOps.ofInt 0) where
  buffer := h.buffer
  saves := h.saves
  inv0 := inv_runFile a h.buffer
  rows0 := fun _ hk => runFile_rows a ns hk
  frames := by
    unfold frames savesTo initialSaves
    refine List.rel_append (R := fun (fr : α × NS (Cell α)) (v : NS (Cell α) × NS (Cell α)) => _) ?_ ?_
    · split
      · obtain ⟨v, -, -, hs⟩ := firstSave_ok h.saves a.saveState h.init (FloatOps.ofInt 0)
        exact .cons ⟨hs, h.init⟩ .nil
      · exact .nil
    · exact loopSaves_ok h.saves h.shaped
  solver := h.solver
  start := by
    intro om dxa phi h1 h2 h3
    have e1 : a.plasma0.getItem "omega" = .ok a.omega0 := NS.getItem_of_get? rfl
    have e2 : a.physics.getItem "dx" = .ok (.num a.dx) := NS.getItem_of_get? rfl
    rw [e1] at h1
    rw [e2] at h2
    injection h1 with h1
    injection h2 with h2
    subst h1; subst h2
    exact h.start phi h3
  steps := h.steps
  count := h.count
  shaped := h.shaped

theorem tr_setup (h : StartedRun E a fs hw ns M S) :
    Tr (fun g => g = fs) (CrashOk E a fs ns (fun _ => []) (frames a S M)) (setup E a) fun x g =>
      ∃ s : RunState α β, x = some (s, a.physics, FloatOps.ofInt 0) ∧ s.plasma = a.plasma0 ∧
        AtStep E a fs ns S (runFile a ns) (initialSaves E a) 0 s g := by
  have ok0 : ∀ g, g = fs → CrashOk E a fs ns (fun _ => []) (frames a S M) g := fun g hg => .inl hg
  have hB := h.base
  have hr0 : Reach a ns (runFile a ns : H5 α β) [] (runFile a ns : H5 α β)
      (zeroBuffer (α := α) a.buffer_length ns ns) 0 := ⟨inv_runFile a h.buffer, rfl⟩
  unfold setup
  rw [h.saves.dim]
  refine Tr.bind (mid := fun x g => x = ns ∧ g = fs) (Tr.lift _ ok0 fun g x hg hx => ⟨by injection hx with hx; exact hx.symm, hg⟩)
    fun x => ?_
  refine Tr.assume fun e => ?_
  subst e
  refine Tr.bind (mid := fun y g => y = x ∧ g = fs) (Tr.lift _ ok0 fun g y hg hx => ⟨by injection hx with hx; exact hx.symm, hg⟩)
    fun y => ?_
  refine Tr.assume fun e => ?_
  subst e
  refine Tr.bind (mid := fun b g => b = (fs a.output_path).isSome ∧ g = fs) (Tr.read (fun _ => rfl) ok0 fun σ b hσ hb => ⟨?_, hσ⟩)
    fun b => ?_
  · unfold isFile at hb
    injection hb with hb
    rw [← hb, hσ]
  refine Tr.assume fun e => ?_
  subst e
  have hfile : ((fs a.output_path).isSome && !a.force_recompute) = false := by
    rcases h.fresh with h | h <;> simp [h]
  simp only [hfile]
  refine Tr.bind (tr_create a _ fs _ (.inl rfl) fun f hf => .inr ⟨f, rfl, hf.truncated _⟩) fun _ => ?_
  have hok1 : CrashOk E a fs y (fun _ => []) (frames a S M) (upd fs a.output_path (some (runFile a y))) :=
    .inr ⟨_, rfl, hr0.truncated hB (List.nil_prefix)⟩
  by_cases hrec : FloatOps.eq a.recording_start_time (FloatOps.ofInt 0) = true
  · simp only [hrec, if_true]
    obtain ⟨v, e, e', hsv⟩ := firstSave_ok h.saves a.saveState h.init (FloatOps.ofInt 0)
    have hs0 : savesTo E a S (initialSaves E a) 0
        = [firstSave E a.downsample_factor a.saveState (FloatOps.ofInt 0) a.plasma0] := by
      simp [savesTo, initialSaves, hrec, loopSaves]
    rw [e'] at hsv hs0
    obtain ⟨hr', htr⟩ := hr0.save (fs := fs) hB (by rw [List.nil_append, ← hs0]; exact savesTo_prefix (Nat.zero_le _)) hsv h.init
    rw [List.nil_append, ← hs0] at hr'
    refine Tr.bind (mid := fun x g => x = v ∧ g = upd fs a.output_path (some (runFile a y)))
      (Tr.lift _ (fun g hg => by rw [hg]; exact hok1) fun g x hg hx => ⟨?_, hg⟩) fun x => ?_
    · rw [e] at hx
      injection hx with hx
      exact hx.symm
    refine Tr.assume fun e => ?_
    subst e
    refine Tr.bind htr fun z => ?_
    refine Tr.pure _ ?_ ?_
    · rintro g ⟨-, rfl⟩
      exact .inr ⟨_, rfl, hr'.truncated hB (savesTo_prefix (Nat.zero_le _))⟩
    · rintro g ⟨rfl, rfl⟩
      exact ⟨_, rfl, rfl, _, rfl, hr'⟩
  · have hs0 : savesTo E a S (initialSaves E a) 0 = [] := by simp [savesTo, initialSaves, hrec, loopSaves]
    simp only [hrec]
    refine Tr.pure _ (fun g hg => by rw [hg]; exact hok1) ?_
    rintro g rfl
    exact ⟨_, rfl, rfl, _, rfl, by rw [hs0]; exact hr0⟩

theorem tr_run (h : StartedRun E a fs hw ns M S) :
    Tr (fun g => g = fs) (CrashOk E a fs ns (fun _ => []) (frames a S M)) (run E a) fun _ _ => True :=
  tr_run_of h.base (tr_setup h)

/-! ### continuing a file -/

variable {path : String}

theorem read_loadField (k : String) (σ : St α β) : ((loadField path k : IOM α β _) σ).2 = σ := by
  unfold loadField
  refine read_bind (fun σ => read_bind (fun σ => read_content σ) (fun _ _ => rfl) σ) (fun b σ => ?_) σ
  split
  · refine read_bind (fun σ => read_dset _ σ) (fun d σ => ?_) σ
    cases d <;> rfl
  · refine read_bind (fun σ => read_dset _ σ) (fun d σ => ?_) σ
    cases d with
    | rows s r =>
      simp only
      cases r.getLast? with
      | none => rfl
      | some c => cases c <;> rfl
    | full _ => rfl
    | flat _ => rfl

theorem read_loadFields (ks : List String) (σ : St α β) : ((loadFields path ks : IOM α β _) σ).2 = σ := by
  induction ks generalizing σ with
  | nil => rfl
  | cons k ks ih =>
    unfold loadFields
    refine read_bind (fun σ => read_loadField k σ) (fun v σ => ?_) σ
    refine read_bind (fun σ => read_len _ σ) (fun n σ => ?_) σ
    exact read_bind (fun σ => ih σ) (fun _ _ => rfl) σ

theorem read_continue (ks : List String) (σ : St α β) : ((continue_h5_file path ks : IOM α β _) σ).2 = σ := by
  unfold continue_h5_file
  refine read_bind (fun σ => read_openR σ) (fun _ σ => ?_) σ
  refine read_bind (fun σ => read_content σ) (fun _ σ => ?_) σ
  refine read_bind (fun σ => read_loadFields _ σ) (fun _ σ => ?_) σ
  refine read_bind (fun σ => read_dset _ σ) (fun d σ => ?_) σ
  cases d with
  | rows s r =>
    simp only
    cases r.getLast? with
    | none => rfl
    | some c =>
      cases c with
      | num x => exact read_bind (fun _ => rfl) (fun _ σ => read_bind (fun _ => rfl) (fun _ _ => rfl) σ) σ
      | arr x => rfl
  | full _ => rfl
  | flat _ => rfl

variable {f : H5 α β} {d o ph : Arr α}

theorem StartedContinuation.base (h : StartedContinuation E a fs f hw ns d o ph t0 params M S) :
    Base E a hw ns M S f [] f.rowsOf (continuedFrames a S M)
      [("density", .arr d), ("omega", .arr o), ("phi", .arr ph), ("age", .num t0)] params t0 where
  buffer := h.buffer
  saves := h.saves
  inv0 := inv_output a h.buffer h.output
  rows0 := fun k hk => by
    obtain ⟨r, hr⟩ := h.output.rows k hk
    rw [hr]; unfold H5.rowsOf; rw [hr]
  frames := by
    unfold savesTo
    exact loopSaves_ok h.saves h.shaped
  solver := h.solver
  start := by
    intro om dxa phi h1 h2 h3
    have e1 : NS.getItem [("density", Cell.arr d), ("omega", .arr o), ("phi", .arr ph), ("age", .num t0)] "omega"
        = .ok (.arr o) := rfl
    rw [e1] at h1
    injection h1 with h1
    subst h1
    have h2' : params.get? "dx" = some dxa := by
      unfold NS.getItem at h2
      cases hd : params.get? "dx" with
      | none => rw [hd] at h2; cases h2
      | some v => rw [hd] at h2; injection h2 with h2; rw [h2]
    rw [h.start dxa phi h2' h3]
    rfl
  steps := h.steps
  count := h.count
  shaped := h.shaped

theorem tr_setup_continue (h : StartedContinuation E a fs f hw ns d o ph t0 params M S) :
    Tr (fun g => g = fs) (CrashOk E a fs ns f.rowsOf (continuedFrames a S M)) (setup E a) fun x g =>
      ∃ s : RunState α β, x = some (s, params, t0) ∧
        s.plasma = [("density", .arr d), ("omega", .arr o), ("phi", .arr ph), ("age", .num t0)] ∧
        AtStep E a fs ns S f [] 0 s g := by
  have ok0 : ∀ g, g = fs → CrashOk E a fs ns f.rowsOf (continuedFrames a S M) g := fun g hg => .inl hg
  have hr0 : Reach a ns f [] f (zeroBuffer (α := α) a.buffer_length ns ns) 0 :=
    ⟨inv_output a h.buffer h.output, rfl⟩
  unfold setup
  rw [h.saves.dim]
  refine Tr.bind (mid := fun x g => x = ns ∧ g = fs) (Tr.lift _ ok0 fun g x hg hx => ⟨by injection hx with hx; exact hx.symm, hg⟩)
    fun x => ?_
  refine Tr.assume fun e => ?_
  subst e
  refine Tr.bind (mid := fun y g => y = x ∧ g = fs) (Tr.lift _ ok0 fun g y hg hx => ⟨by injection hx with hx; exact hx.symm, hg⟩)
    fun y => ?_
  refine Tr.assume fun e => ?_
  subst e
  refine Tr.bind (mid := fun b g => b = true ∧ g = fs) (Tr.read (fun _ => rfl) ok0 fun σ b hσ hb => ⟨?_, hσ⟩)
    fun b => ?_
  · unfold isFile at hb
    injection hb with hb
    rw [← hb, hσ, h.file]
    rfl
  refine Tr.assume fun e => ?_
  subst e
  simp only [h.keep, h.cont, Bool.not_false, Bool.and_self, if_true]
  obtain ⟨r, x, t1, t2, t3⟩ := h.time
  have hd := does_continue (path := a.output_path) h.output h.density h.omega h.phi t1 t2 h.restored
  rw [t3] at hd
  refine Tr.bind (mid := fun z g => z = ([("density", .arr d), ("omega", .arr o), ("phi", .arr ph), ("age", .num t0)], params)
    ∧ g = fs) (Tr.read (fun σ => read_continue _ σ) ok0 fun σ z hσ hz => ⟨?_, hσ⟩) fun z => ?_
  · obtain ⟨σ', e1, -⟩ := hd σ (by rw [hσ, h.file])
    rw [e1] at hz
    injection hz with hz
    exact hz.symm
  refine Tr.assume fun e => ?_
  subst e
  simp only
  refine Tr.bind (mid := fun z g => z = .num t0 ∧ g = fs) (Tr.lift _ ok0 fun g z hg hz => ⟨?_, hg⟩) fun z => ?_
  · have : NS.getItem [("density", Cell.arr d), ("omega", .arr o), ("phi", .arr ph), ("age", .num t0)] "age"
      = .ok (.num t0) := rfl
    rw [this] at hz
    injection hz with hz
    exact hz.symm
  refine Tr.assume fun e => ?_
  subst e
  simp only
  refine Tr.bind (mid := fun z g => z = t0 ∧ g = fs) (Tr.pure _ ok0 fun g hg => ⟨rfl, hg⟩) fun z => ?_
  refine Tr.assume fun e => ?_
  subst e
  refine Tr.bind (mid := fun _ g => g = fs) (Tr.lift _ ok0 fun g _ hg _ => hg) fun _ => ?_
  refine Tr.pure _ ok0 fun g hg => ⟨_, rfl, rfl, f, ?_, hr0⟩
  rw [hg, ← h.file, upd_self]

theorem tr_run_continue (h : StartedContinuation E a fs f hw ns d o ph t0 params M S) :
    Tr (fun g => g = fs) (CrashOk E a fs ns f.rowsOf (continuedFrames a S M)) (run E a) fun _ _ => True :=
  tr_run_of h.base (tr_setup_continue h)

end Verif
