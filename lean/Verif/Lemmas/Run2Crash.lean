import Verif.Spec.Run2Crash
import Verif.Lemmas.RunCrash2
import Verif.Lemmas.Run2File

/-!
# Crash points of `run2`
-/

set_option linter.unusedSectionVars false

namespace Verif

open H5IO H5 Run Run2

variable {α β : Type} [Casts α β] [Zero α] [Inhabited α] [Inhabited β] [FloatOps α]

theorem Tr.both {X : Type} {pre P : FS α β → Prop} {m : IOM α β X} {post : X → FS α β → Prop} (h : Tr pre P m post) :
    Tr pre P m fun x g => P g ∧ post x g := by
  intro σ hσ
  obtain ⟨l, e1, e2, e3, e4⟩ := h σ hσ
  exact ⟨l, e1, e2, e3, fun x hx => ⟨e3, e4 x hx⟩⟩

theorem Tr.ex₂ {X A B : Type} {q : A → B → Prop} {pre : A → B → FS α β → Prop} {P : FS α β → Prop} {m : IOM α β X}
    {post : X → FS α β → Prop} (h : ∀ a b, q a b → Tr (pre a b) P m post) :
    Tr (fun g => ∃ a b, q a b ∧ pre a b g) P m post := by
  rintro σ ⟨a, b, h1, h2⟩
  exact h a b h1 σ h2

theorem Tr.ex₁ {X A : Type} {q q' : A → Prop} {pre : A → FS α β → Prop} {P : FS α β → Prop} {m : IOM α β X}
    {post : X → FS α β → Prop} (h : ∀ a, q a → q' a → Tr (pre a) P m post) :
    Tr (fun g => ∃ a, q a ∧ q' a ∧ pre a g) P m post := by
  rintro σ ⟨a, h1, h2, h3⟩
  exact h a h1 h2 σ h3

/-! ### datasets and rows -/

/-- the datasets with a row for each frame -/
def keys2 (a : Args2 α) : List String := "time" :: fieldList ++ a.properties.map ("fullres_" ++ ·)

/-- shape of their rows -/
def shape2 (ns : ℕ) (k : String) : RowShape := if k ∈ fieldList then .grid ns ns else .one

theorem shape2_eq (ns : ℕ) {k : String} (hk : k ∈ "time" :: fieldList) : shape2 ns k = rowShape ns k := by
  unfold shape2 rowShape
  rcases List.mem_cons.mp hk with rfl | hk
  · rw [if_pos rfl, if_neg (by decide)]
  · rw [if_pos hk, if_neg (fieldList_ne_time hk)]

theorem shape2_fullres (ns : ℕ) (name : String) : shape2 ns ("fullres_" ++ name) = .one :=
  if_neg fun h => fullres_not_mem (List.mem_cons_of_mem _ h)

theorem mem_keys2 {a : Args2 α} {k : String} :
    k ∈ keys2 a ↔ k ∈ "time" :: fieldList ∨ ∃ name ∈ a.properties, k = "fullres_" ++ name := by
  unfold keys2
  rw [List.mem_append, List.mem_map]
  constructor
  · rintro (h | ⟨name, h, rfl⟩)
    · exact .inl h
    · exact .inr ⟨name, h, rfl⟩
  · rintro (h | ⟨name, h, rfl⟩)
    · exact .inl h
    · exact .inr ⟨name, h, rfl⟩

/-- `row` is the row of dataset `k` for the frame `fr` -/
def Row2 (E : Env2 α β) (a : Args2 α) (k : String) (fr : α × NS (Cell α)) (row : Cell β) : Prop :=
  (k ∈ "time" :: fieldList → IsFrameRow E.toEnv a.downsample_factor k fr.1 fr.2 row) ∧
  ∀ name ∈ a.properties, k = "fullres_" ++ name → ∃ x, IsPropValue E a name fr.2 x ∧ row = .num (Casts.f32 x)

/-- `v` is a save of the frame `fr` -/
def SaveOf (E : Env2 α β) (a : Args2 α) (fr : α × NS (Cell α)) (v : NS (Cell α) × NS (Cell α)) : Prop :=
  IsSave2 E a fr.1 fr.2 v ∧ Shaped a.grid_pts fr.2

theorem SaveOf.row {E : Env2 α β} {a : Args2 α} {ns : ℕ} (hs : SavesAs E.toEnv a.downsample_factor a.grid_pts ns)
    {fr : α × NS (Cell α)} {v : NS (Cell α) × NS (Cell α)} (h : SaveOf E a fr v) (k : String) :
    Row2 E a k fr (stored (shape2 ns k) v.1 k) := by
  constructor
  · intro hk
    rw [shape2_eq ns hk]
    refine h.1.toIsSave.row hs h.2 ?_
    unfold rowShape
    rcases List.mem_cons.mp hk with rfl | hk
    · left; simp
    · right; exact ⟨hk, if_neg (fieldList_ne_time hk)⟩
  · rintro name hn rfl
    rw [shape2_fullres]
    obtain ⟨x, h1, h2⟩ := h.1.props name hn
    exact ⟨x, h2, stored_eq h1 rfl⟩

/-- like `Truncated`, for the datasets of `run2` -/
def Truncated2 (E : Env2 α β) (a : Args2 α) (ns : ℕ) (old : String → List (Cell β)) (fr : List (α × NS (Cell α)))
    (f : H5 α β) : Prop :=
  ∃ k0 c d, d ≤ a.buffer_length ∧ ∀ k ∈ keys2 a, k ∉ a.properties →
    (f.dsets k = none ∧ old "time" = [] ∧ c = 0 ∧ d = 0) ∨
    CutAt f k0 c d k (shape2 ns k) (old k) fr (Row2 E a k)

/-- the file systems of interest -/
def CrashOk2 (E : Env2 α β) (a : Args2 α) (fs : FS α β) (ns : ℕ) (old : String → List (Cell β))
    (fr : List (α × NS (Cell α))) (g : FS α β) : Prop :=
  g = fs ∨ ∃ f, g = upd fs a.output_path (some f) ∧ Truncated2 E a ns old fr f

/-! ### the property values -/

theorem propLoop_of_ok {E : Env2 α β} {a : Args2 α} {plasma : NS (Cell α)} (hp : Shaped a.grid_pts plasma)
    (props : List String) (nv nv' : NS (Cell α)) (h : propLoop E a.dx a.c1 plasma props nv = .ok nv') :
    (∀ k, (∀ name ∈ props, k ≠ "fullres_" ++ name) → nv'.get? k = nv.get? k) ∧
      ∀ name ∈ props, ∃ x, nv'.get? ("fullres_" ++ name) = some (.num x) ∧ IsPropValue E a name plasma x := by
  induction props generalizing nv with
  | nil =>
    injection h with h
    subst h
    exact ⟨fun _ _ => rfl, fun _ h => by cases h⟩
  | cons name props ih =>
    obtain ⟨n, hn, -⟩ := hp.fields "density" (by decide)
    obtain ⟨p, hpp, -⟩ := hp.fields "phi" (by decide)
    obtain ⟨o, ho, -⟩ := hp.fields "omega" (by decide)
    unfold propLoop at h
    cases hF : E.propertyFn name with
    | none => rw [hF] at h; cases h
    | some F =>
      rw [hF] at h
      simp only [NS.getItem_of_get? hn, NS.getItem_of_get? hpp, NS.getItem_of_get? ho, Py.ok_bind] at h
      cases hx : F (.arr n) (.arr p) (.arr o) a.dx a.c1 with
      | error e => rw [hx] at h; cases h
      | ok x =>
        rw [hx] at h
        obtain ⟨h1, h2⟩ := ih _ h
        constructor
        · intro k hk
          rw [h1 k fun name h => hk name (by simp [h]), NS.get?_set, if_neg (hk name (by simp))]
        · intro name' hn'
          by_cases hm : name' ∈ props
          · exact h2 name' hm
          · have : name' = name := by simpa [hm] using hn'
            subst this
            refine ⟨x, ?_, F, .arr n, .arr p, .arr o, hF, hn, hpp, ho, hx⟩
            rw [h1, NS.get?_set, if_pos rfl]
            intro name h e
            exact hm (fullres_inj e ▸ h)

/-- a successful computation of the values saved during the loop -/
theorem save2_of_ok {E : Env2 α β} {a : Args2 α} {ns : ℕ} (hs : SavesAs E.toEnv a.downsample_factor a.grid_pts ns)
    {plasma : NS (Cell α)} (hp : Shaped a.grid_pts plasma) (t : α) {nv : NS (Cell α)} {v : NS (Cell α) × NS (Cell α)}
    (h1 : propLoop E a.dx a.c1 plasma a.properties ((fieldsOf plasma).set "time" (.num t)) = .ok nv)
    (h2 : frameLoop E.toEnv a.downsample_factor a.saveState plasma nv [] = .ok v) : SaveOf E a (t, plasma) v := by
  obtain ⟨p1, p2⟩ := propLoop_of_ok hp _ _ _ h1
  obtain ⟨v', e, g1, g2⟩ := frameLoop_save hs a.saveState hp nv (by
    intro k hk
    rw [p1 k fun name _ e => fullres_ne (List.mem_cons_of_mem _ hk) e.symm, NS.get?_set,
      if_neg (fieldList_ne_time hk), get?_fieldsOf, if_pos (isField_iff.mpr hk)])
  rw [h2] at e
  injection e with e
  subst e
  refine ⟨⟨g2 t v.1 ?_ (fun _ _ => rfl), ?_⟩, hp⟩
  · rw [g1 "time" (by decide), p1 "time" fun name _ e => fullres_ne (by simp) e.symm, NS.get?_set, if_pos rfl]
  · intro name hn
    obtain ⟨x, hx, hv⟩ := p2 name hn
    refine ⟨x, ?_, hv⟩
    rw [g1 _ fun h => fullres_not_mem (List.mem_cons_of_mem _ h), hx]

/-- the same for the initial save -/
theorem firstSave2_of_ok {E : Env2 α β} {a : Args2 α} {ns : ℕ} (hs : SavesAs E.toEnv a.downsample_factor a.grid_pts ns)
    {plasma : NS (Cell α)} (hp : Shaped a.grid_pts plasma) (t : α) {nv : NS (Cell α)} {v : NS (Cell α) × NS (Cell α)}
    (h1 : frameLoop E.toEnv a.downsample_factor a.saveState plasma (fieldsOf plasma) [] = .ok v)
    (h2 : propLoop E a.dx a.c1 plasma a.properties v.1 = .ok nv) :
    SaveOf E a (t, plasma) (nv.set "time" (.num t), v.2) := by
  obtain ⟨v', e, g1, g2⟩ := frameLoop_save hs a.saveState hp (fieldsOf plasma) (by
    intro k hk
    rw [get?_fieldsOf, if_pos (isField_iff.mpr hk)])
  rw [h1] at e
  injection e with e
  subst e
  obtain ⟨p1, p2⟩ := propLoop_of_ok hp _ _ _ h2
  refine ⟨⟨g2 t _ (by rw [NS.get?_set, if_pos rfl]) ?_, ?_⟩, hp⟩
  · intro k hk
    rw [NS.get?_set, if_neg (fieldList_ne_time hk), p1 k fun name _ e => fullres_ne (List.mem_cons_of_mem _ hk) e.symm]
  · intro name hn
    obtain ⟨x, hx, hv⟩ := p2 name hn
    refine ⟨x, ?_, hv⟩
    simp only
    rw [NS.get?_set, if_neg (fullres_ne (by simp)), hx]

/-! ### buffer and file -/

variable {E : Env2 α β} {a : Args2 α} {fs : FS α β} {hw : Solver α} {ns : ℕ} {S : ℕ → NS (Cell α)}
  {f0 : H5 α β} {old : String → List (Cell β)} {fr fr0 dn : List (α × NS (Cell α))}
  {p : NS (Cell α)} {params : NS (Attr α)} {t0 : α} {F : ℕ}

/-- what fresh and continued runs have in common: the loop starts with the state
`p`, after the frames `fr0`; the file was `f0`, with the rows `old` -/
structure Base2 (E : Env2 α β) (a : Args2 α) (hw : Solver α) (ns : ℕ) (S : ℕ → NS (Cell α))
    (f0 : H5 α β) (old : String → List (Cell β))
    (p : NS (Cell α)) (params : NS (Attr α)) (t0 : α) : Prop where
  saves : SavesAs E.toEnv a.downsample_factor a.grid_pts ns
  inv0 : Inv a.toArgs a.properties a.grid_pts ns f0 (zeroBuffer2 (α := α) a.buffer_length ns ns a.properties) 0
  rows0 : ∀ k ∈ keys2 a, f0.dsets k = some (.rows (shape2 ns k) (old k))
  solver : ∀ hw', E.HW params = .ok hw' → hw' = hw
  start : ∀ om dxa phi, p.getItem "omega" = .ok om → params.getItem "dx" = .ok dxa →
    hw.get_phi om (E.attrNum dxa) = .ok phi → S 0 = p.set "phi" phi
  steps : ∀ n p, hw.rk4_step (S n) a.step_size a.dx = .ok p → p = S (n + 1)
  shaped : ∀ n, 1 ≤ n → Shaped a.grid_pts (S n)

theorem zeroBuffer2_shape (L ns : ℕ) {k : String} (hk : k ∈ keys2 a) :
    ∃ b, (zeroBuffer2 (α := α) L ns ns a.properties : NS (Buf β)).get? k = some b ∧ b.shape = shape2 ns k := by
  rcases mem_keys2.mp hk with hk | ⟨name, hn, rfl⟩
  · obtain ⟨b, hb, hsh⟩ := zeroBuffer_get (α := α) (β := β) L ns hk
    refine ⟨b, ?_, by rw [hsh, shape2_eq ns hk]⟩
    rw [zeroBuffer2_get?, if_neg, hb]
    intro h
    obtain ⟨name, -, e⟩ := List.mem_map.mp h
    exact fullres_ne hk e
  · refine ⟨⟨.one, List.replicate L (RowShape.one.zero (Casts.f32 (0 : α)))⟩, ?_, (shape2_fullres ns name).symm⟩
    rw [zeroBuffer2_get?, if_pos (List.mem_map.mpr ⟨name, hn, rfl⟩)]

/-- the rows of dataset `k` for a list of saves -/
def saveRows2 (ns : ℕ) (k : String) (saves : List (NS (Cell α) × NS (Cell α))) : List (Cell β) :=
  saves.map fun v => stored (shape2 ns k) v.1 k

theorem good2_of_prefix (hs : SavesAs E.toEnv a.downsample_factor a.grid_pts ns)
    {sv : List (NS (Cell α) × NS (Cell α))} (hsv : List.Forall₂ (SaveOf E a) dn sv) (hdn : dn <+: fr) {k : String}
    {good : List (Cell β)} (hg : good <+: saveRows2 ns k sv) :
    List.Forall₂ (Row2 E a k) (fr.take good.length) good := by
  have hall : List.Forall₂ (Row2 E a k) dn (saveRows2 ns k sv : List (Cell β)) := by
    unfold saveRows2
    rw [List.forall₂_map_right_iff]
    exact hsv.imp fun fr v hv => hv.row hs k
  have h1 := List.forall₂_take good.length hall
  rw [← List.prefix_iff_eq_take.mp hg] at h1
  have h2 : good.length ≤ dn.length := by
    rw [hall.length_eq]; exact hg.length_le
  rwa [List.prefix_iff_eq_take.mp hdn, List.take_take, Nat.min_eq_left h2] at h1

/-- the buffer and the file hold the saves `sv` -/
structure Holds2 (a : Args2 α) (ns : ℕ) (old : String → List (Cell β)) (f : H5 α β) (buf : NS (Buf β)) (n : ℕ)
    (sv : List (NS (Cell α) × NS (Cell α))) : Prop where
  ok : BufOk f a.buffer_length buf
  le : n ≤ a.buffer_length
  rows : ∀ k ∈ keys2 a, ∃ b, buf.get? k = some b ∧ b.shape = shape2 ns k ∧
    logical f buf n k = old k ++ saveRows2 ns k sv
  grows : ∀ k ∈ keys2 a, ∃ r, f.rowsOf k = old k ++ r

theorem Holds2.truncated (hs : SavesAs E.toEnv a.downsample_factor a.grid_pts ns) {f : H5 α β} {buf : NS (Buf β)} {n : ℕ}
    {sv : List (NS (Cell α) × NS (Cell α))} (hh : Holds2 a ns old f buf n sv)
    (hsv : List.Forall₂ (SaveOf E a) dn sv) (hdn : dn <+: fr)
    {f' : H5 α β} (hm : MidAppend f buf n f') : Truncated2 E a ns old fr f' := by
  obtain ⟨k0, hm⟩ := hm
  refine ⟨k0, sv.length - n, n, hh.le, fun k hk _ => .inr ?_⟩
  obtain ⟨b, hb, hsh, hlog⟩ := hh.rows k hk
  have hlen := hh.ok.len _ (mem_of_get? hb)
  simp only at hlen
  obtain ⟨r, hr⟩ := hh.grows k hk
  unfold logical at hlog
  rw [hb, hr] at hlog
  simp only [Option.map_some, Option.getD_some, List.append_assoc, List.append_cancel_left_eq] at hlog
  have hl : r.length + n = sv.length := by
    have := congrArg List.length hlog
    rw [List.length_append, List.length_take, hlen, Nat.min_eq_left hh.le] at this
    rw [this]; unfold saveRows2; rw [List.length_map]
  have hpre' : r <+: (saveRows2 ns k sv : List (Cell β)) := hlog ▸ List.prefix_append _ (b.rows.take n)
  rcases hm k with e | ⟨b', hb', e⟩
  · refine ⟨r, 0, ?_, good2_of_prefix hs hsv hdn hpre', .inl (by omega), .inl rfl⟩
    rw [e, hh.ok.rows_eq hb, hsh, hr]
    simp
  · rw [hb] at hb'
    injection hb' with hb'
    subst hb'
    rcases e with e | ⟨rfl, e⟩
    · refine ⟨r ++ b.rows.take n, 0, ?_, ?_, .inr ?_, .inl rfl⟩
      · rw [e, hsh, hr]; simp
      · rw [hlog]; exact good2_of_prefix hs hsv hdn (List.prefix_refl _)
      · rw [hlog]; unfold saveRows2; rw [List.length_map]; omega
    · refine ⟨r, n, ?_, good2_of_prefix hs hsv hdn hpre', .inl (by omega), .inr ⟨rfl, by omega, rfl⟩⟩
      rw [e, hsh, hr]

/-- the situation after the frames `dn` -/
structure Reach2 (E : Env2 α β) (a : Args2 α) (ns : ℕ) (f0 : H5 α β) (dn : List (α × NS (Cell α)))
    (sv : List (NS (Cell α) × NS (Cell α))) (f : H5 α β) (buf : NS (Buf β)) (i : ℕ) : Prop where
  inv : Inv a.toArgs a.properties a.grid_pts ns f buf i
  eq : afterSaves a.buffer_length f0 (zeroBuffer2 (α := α) a.buffer_length ns ns a.properties) 0 sv = (f, buf, i)
  frames : List.Forall₂ (SaveOf E a) dn sv

theorem Reach2.holds (h : Base2 E a hw ns S f0 old p params t0) {sv : List (NS (Cell α) × NS (Cell α))}
    {f : H5 α β} {buf : NS (Buf β)} {i : ℕ} (hr : Reach2 E a ns f0 dn sv f buf i) : Holds2 a ns old f buf i sv := by
  have hI := h.inv0
  have hro : ∀ k ∈ keys2 a, f0.rowsOf k = old k := fun k hk => by
    unfold H5.rowsOf; rw [h.rows0 k hk]
  refine ⟨hr.inv.ok, hr.inv.lt.le, fun k hk => ?_, fun k hk => ?_⟩
  · obtain ⟨b, hb, hsh⟩ := zeroBuffer2_shape (α := α) (β := β) a.buffer_length ns hk
    obtain ⟨b', h1, h2⟩ := afterSaves_get? (L := a.buffer_length) sv f0 _ 0 hb
    have hlog := logical_afterSaves sv f0 hI.lt hI.ok hb
    rw [hr.eq] at h1 hlog
    refine ⟨b', h1, h2.trans hsh, ?_⟩
    have h0 : logical f0 (zeroBuffer2 (α := α) a.buffer_length ns ns a.properties) 0 k = old k := by
      unfold logical
      rw [hro k hk, hb]
      simp
    rw [h0, hsh] at hlog
    exact hlog
  · obtain ⟨b, hb, -⟩ := zeroBuffer2_shape (α := α) (β := β) a.buffer_length ns hk
    have := rows_afterSaves (i := 0) sv f0 hI.ok hb
    rw [hr.eq, hro k hk] at this
    obtain ⟨r, hr⟩ := this
    exact ⟨r, hr.symm⟩

theorem Reach2.truncated (h : Base2 E a hw ns S f0 old p params t0) {sv : List (NS (Cell α) × NS (Cell α))}
    {f : H5 α β} {buf : NS (Buf β)} {i : ℕ} (hr : Reach2 E a ns f0 dn sv f buf i) (hdn : dn <+: fr) :
    Truncated2 E a ns old fr f :=
  (hr.holds h).truncated h.saves hr.frames hdn ⟨"", fun _ => .inl rfl⟩

theorem truncated2_mono {F f' : H5 α β} (hF : Truncated2 E a ns old fr F)
    (he : ∀ k ∈ keys2 a, k ∉ a.properties → f'.dsets k = F.dsets k) : Truncated2 E a ns old fr f' := by
  obtain ⟨k0, c, d, hd, h⟩ := hF
  refine ⟨k0, c, d, hd, fun k hk hp => ?_⟩
  unfold CutAt
  rw [he k hk hp]
  exact h k hk hp

/-- one save -/
theorem Reach2.save (h : Base2 E a hw ns S f0 old p params t0) {sv : List (NS (Cell α) × NS (Cell α))}
    {f : H5 α β} {buf : NS (Buf β)} {i : ℕ} (hr : Reach2 E a ns f0 dn sv f buf i) {v : NS (Cell α) × NS (Cell α)}
    {x : α × NS (Cell α)} (hdn : dn ++ [x] <+: fr) (hv : SaveOf E a x v) :
    Reach2 E a ns f0 (dn ++ [x]) (sv ++ [v]) (savedFile f a.buffer_length i buf v.1 v.2) (filled i v.1 buf)
      (nextIndex a.buffer_length i) ∧
    Tr (fun g => g = upd fs a.output_path (some f)) (CrashOk2 E a fs ns old fr)
      (save_to_buffered_h5 buf a.buffer_length i v.1 a.output_path v.2 : IOM α β _) fun x g =>
        x = (filled i v.1 buf, nextIndex a.buffer_length i) ∧
        g = upd fs a.output_path (some (savedFile f a.buffer_length i buf v.1 v.2)) := by
  have hfr : List.Forall₂ (SaveOf E a) (dn ++ [x]) (sv ++ [v]) :=
    List.rel_append (R := SaveOf E a) hr.frames (.cons hv .nil)
  have hr' : Reach2 E a ns f0 (dn ++ [x]) (sv ++ [v]) (savedFile f a.buffer_length i buf v.1 v.2) (filled i v.1 buf)
      (nextIndex a.buffer_length i) := by
    refine ⟨hr.inv.save _ _, ?_, hfr⟩
    rw [afterSaves_append, hr.eq]
    rfl
  refine ⟨hr', ?_⟩
  -- all contents during the call are truncated files with rows for every dataset
  let Q : H5 α β → Prop := fun f => Truncated2 E a ns old fr f ∧
    ∀ k ∈ keys2 a, ∃ s r, f.dsets k = some (.rows s r)
  have hd : DoesP a.output_path Q (save_to_buffered_h5 buf a.buffer_length i v.1 a.output_path v.2 : IOM α β _) f
      (filled i v.1 buf, nextIndex a.buffer_length i) (savedFile f a.buffer_length i buf v.1 v.2) := by
    refine doesP_save hr.inv.lt hr.inv.ok (hv.1.fits h.saves hv.2 hr.inv.buf)
      (hv.1.toIsSave.statesFit hv.2 hr.inv.states) ?_ ?_
    · intro hfull f' hf'
      have hh : Holds2 a ns old f (filled i v.1 buf) a.buffer_length (sv ++ [v]) := by
        have h0 := hr.holds h
        refine ⟨bufOk_filled hr.inv.ok _, le_rfl, fun k hk => ?_, h0.grows⟩
        obtain ⟨b, hb, hsh, hlog⟩ := h0.rows k hk
        refine ⟨{ b with rows := b.rows.set i (stored b.shape v.1 k) }, by rw [get?_filled, hb]; rfl, hsh, ?_⟩
        have hlen := hr.inv.ok.len _ (mem_of_get? hb)
        simp only at hlen
        unfold logical at hlog ⊢
        rw [get?_filled, hb]
        rw [hb] at hlog
        simp only [Option.map_some, Option.getD_some] at hlog ⊢
        rw [← hfull, take_set_succ _ _ (by omega), ← List.append_assoc, hlog, hsh]
        unfold saveRows2
        rw [List.map_append, List.append_assoc]
        rfl
      refine ⟨hh.truncated h.saves hfr hdn hf', fun k hk => ?_⟩
      obtain ⟨b, hb, -, -⟩ := hh.rows k hk
      obtain ⟨k0, hf'⟩ := hf'
      rcases hf' k with e | ⟨b', -, e | ⟨-, e⟩⟩
      · exact ⟨_, _, by rw [e]; exact hh.ok.rows_eq hb⟩
      · exact ⟨_, _, e⟩
      · exact ⟨_, _, e⟩
    · rintro F f' hf' ⟨h1, h2⟩
      refine ⟨truncated2_mono h1 fun k hk _ => ?_, fun k hk => ?_⟩
      · obtain ⟨s, r, e⟩ := h2 k hk
        rw [e, hf' k s r e]
      · obtain ⟨s, r, e⟩ := h2 k hk
        exact ⟨s, r, hf' k s r e⟩
  exact hd.tr (fun f hf => .inr ⟨f, rfl, hf.1⟩) (.inr ⟨_, rfl, hr'.truncated h hdn⟩)

/-! ### the loop -/

/-- the frames after `c` steps -/
def framesTo2 (E : Env2 α β) (a : Args2 α) (t0 : α) (S : ℕ → NS (Cell α)) (fr0 : List (α × NS (Cell α))) (c : ℕ) :
    List (α × NS (Cell α)) := fr0 ++ stepFrames2 E a t0 S c

theorem framesTo2_succ (c : ℕ) : framesTo2 E a t0 S fr0 (c + 1) = framesTo2 E a t0 S fr0 c ++
    if isRecorded2 E a t0 (c + 1) then [(timeAt E a t0 (c + 1), S (c + 1))] else [] := by
  unfold framesTo2 stepFrames2
  rw [List.append_assoc, Nat.add_comm c 1, Nat.add_comm 1 c, ← List.range'_append_1 (s := 1) (m := c) (n := 1),
    List.filter_append, List.map_append, List.range'_one, Nat.add_comm 1 c]
  congr 2
  by_cases h : isRecorded2 E a t0 (c + 1) = true <;> simp [h]

theorem framesTo2_prefix {c : ℕ} (hc : c ≤ F) : framesTo2 E a t0 S fr0 c <+: framesTo2 E a t0 S fr0 F := by
  induction F with
  | zero => rw [Nat.le_zero.mp hc]
  | succ F ih =>
    rcases Nat.lt_or_ge F c with h | h
    · rw [show c = F + 1 by omega]
    · exact (ih h).trans (by rw [framesTo2_succ]; exact List.prefix_append _ _)

/-- the situation after `c` steps -/
def AtStep2 (E : Env2 α β) (a : Args2 α) (fs : FS α β) (ns : ℕ) (S : ℕ → NS (Cell α)) (f0 : H5 α β) (t0 : α)
    (fr0 : List (α × NS (Cell α))) (c : ℕ) (buf : NS (Buf β)) (i : ℕ) (g : FS α β) : Prop :=
  ∃ f, g = upd fs a.output_path (some f) ∧ ∃ sv, Reach2 E a ns f0 (framesTo2 E a t0 S fr0 c) sv f buf i

theorem AtStep2.ok (h : Base2 E a hw ns S f0 old p params t0) {c : ℕ} (hc : c ≤ F) {buf : NS (Buf β)} {i : ℕ}
    {g : FS α β} (hg : AtStep2 E a fs ns S f0 t0 fr0 c buf i g) :
    CrashOk2 E a fs ns old (framesTo2 E a t0 S fr0 F) g := by
  obtain ⟨f, rfl, sv, hr⟩ := hg
  exact .inr ⟨f, rfl, hr.truncated h (framesTo2_prefix hc)⟩

theorem tr_record2 (h : Base2 E a hw ns S f0 old p params t0) {c : ℕ} (hc : c + 1 ≤ F) (buf : NS (Buf β)) (i : ℕ) :
    Tr (AtStep2 E a fs ns S f0 t0 fr0 c buf i) (CrashOk2 E a fs ns old (framesTo2 E a t0 S fr0 F))
      (record2 E a (loopState E a t0 S (c + 1) buf i))
      fun x g => ∃ buf' i', x.1 = loopState E a t0 S (c + 1) buf' i' ∧
        AtStep2 E a fs ns S f0 t0 fr0 (c + 1) buf' i' g := by
  have hS := h.shaped (c + 1) (by omega)
  refine Tr.split fun f hr => ?_
  obtain ⟨sv, hr⟩ := hr
  have hok : CrashOk2 E a fs ns old (framesTo2 E a t0 S fr0 F) (upd fs a.output_path (some f)) :=
    .inr ⟨f, rfl, hr.truncated h (framesTo2_prefix (by omega))⟩
  have hsucc := framesTo2_succ (E := E) (a := a) (S := S) (t0 := t0) (fr0 := fr0) c
  have hpre := framesTo2_prefix (E := E) (a := a) (S := S) (t0 := t0) (fr0 := fr0) hc
  unfold record2
  by_cases hrec : isRecorded2 E a t0 (c + 1) = true
  · rw [if_pos hrec] at hsucc
    have hrec' := hrec
    unfold isRecorded2 at hrec'
    simp only [loopState, hrec', if_true]
    refine Tr.bind (mid := fun nv g => propLoop E a.dx a.c1 (S (c + 1)) a.properties
        ((fieldsOf (S (c + 1))).set "time" (.num (timeAt E a t0 (c + 1)))) = .ok nv ∧
      g = upd fs a.output_path (some f)) ?_ fun nv => ?_
    · exact Tr.lift _ (fun g hg => by rw [hg]; exact hok) fun g x hg hx => ⟨hx, hg⟩
    refine Tr.assume fun e1 => ?_
    refine Tr.bind (mid := fun v g => frameLoop E.toEnv a.downsample_factor a.saveState (S (c + 1)) nv [] = .ok v ∧
      g = upd fs a.output_path (some f)) ?_ fun v => ?_
    · exact Tr.lift _ (fun g hg => by rw [hg]; exact hok) fun g x hg hx => ⟨hx, hg⟩
    refine Tr.assume fun e2 => ?_
    obtain ⟨hr', htr⟩ := hr.save (fs := fs) (fr := framesTo2 E a t0 S fr0 F) h (by rw [← hsucc]; exact hpre)
      (save2_of_ok h.saves hS (timeAt E a t0 (c + 1)) e1 e2)
    rw [← hsucc] at hr'
    refine Tr.bind htr fun y => ?_
    refine Tr.pure _ ?_ ?_
    · rintro g ⟨-, rfl⟩
      exact .inr ⟨_, rfl, hr'.truncated h hpre⟩
    · rintro g ⟨rfl, rfl⟩
      exact ⟨_, _, rfl, _, rfl, _, hr'⟩
  · rw [if_neg hrec, List.append_nil] at hsucc
    have hrec' : isRecorded2 E a t0 (c + 1) = false := by simpa using hrec
    unfold isRecorded2 at hrec'
    simp only [loopState, hrec']
    refine Tr.pure _ (fun g hg => by rw [hg]; exact hok) ?_
    rintro g rfl
    exact ⟨buf, i, rfl, f, rfl, sv, by rw [hsucc]; exact hr⟩

theorem tr_loop2 (h : Base2 E a hw ns S f0 old p params t0) (fuel : ℕ) :
    ∀ (c : ℕ) (buf : NS (Buf β)) (i : ℕ), c + fuel ≤ F →
    Tr (AtStep2 E a fs ns S f0 t0 fr0 c buf i) (CrashOk2 E a fs ns old (framesTo2 E a t0 S fr0 F))
      (loop2 E hw a t0 fuel (loopState E a t0 S c buf i))
      fun x g => ∀ s', x = some s' → ∃ c', c' ≤ F ∧ AtStep2 E a fs ns S f0 t0 fr0 c' s'.buffer s'.buffer_index g := by
  induction fuel with
  | zero =>
    intro c buf i hc
    exact Tr.pure _ (fun g hg => hg.ok h (by omega)) fun g hg s' e => by cases e
  | succ fuel ih =>
    intro c buf i hc
    rw [loop2]
    split
    · have hp : (loopState E a t0 S c buf i : LoopState α β).plasma = S c := rfl
      rw [hp]
      cases hrk : hw.rk4_step (S c) a.step_size a.dx with
      | error e =>
        cases e with
        | baseException m => exact Tr.raise _ fun g hg => hg.ok h (by omega)
        | _ => exact ih c buf i (by omega)
      | ok q =>
        have hq := h.steps c q hrk
        subst hq
        simp only
        have hst : ({ (loopState E a t0 S c buf i : LoopState α β) with
            plasma := S (c + 1), iteration_count := (loopState E a t0 S c buf i : LoopState α β).iteration_count + 1,
            used_time_steps := (if a.adaptive_step_size then
              (loopState E a t0 S c buf i : LoopState α β).used_time_steps ++ [a.step_size]
              else (loopState E a t0 S c buf i : LoopState α β).used_time_steps),
            current_time := nextTime E a t0 ((loopState E a t0 S c buf i : LoopState α β).iteration_count + 1)
              (if a.adaptive_step_size then
              (loopState E a t0 S c buf i : LoopState α β).used_time_steps ++ [a.step_size]
              else (loopState E a t0 S c buf i : LoopState α β).used_time_steps) } : LoopState α β)
            = loopState E a t0 S (c + 1) buf i := by
          simp only [loopState, usedAt_succ, nextTime_eq]
        rw [hst]
        refine Tr.bind (tr_record2 h (by omega) buf i) fun x => ?_
        obtain ⟨s1, b⟩ := x
        refine Tr.ex₂ fun buf' i' e => ?_
        simp only at e
        subst e
        simp only
        split
        · refine Tr.bind (mid := fun _ g => AtStep2 E a fs ns S f0 t0 fr0 (c + 1) buf' i' g)
            (Tr.lift _ (fun g hg => hg.ok h (by omega)) fun g p hg _ => hg) fun d => ?_
          split
          · refine Tr.pure _ (fun g hg => hg.ok h (by omega)) fun g hg s' e => ?_
            injection e with e
            subst e
            exact ⟨c + 1, by omega, hg⟩
          · exact ih (c + 1) buf' i' (by omega)
        · exact ih (c + 1) buf' i' (by omega)
    · refine Tr.pure _ (fun g hg => hg.ok h (by omega)) fun g hg s' e => ?_
      injection e with e
      subst e
      exact ⟨c, by omega, hg⟩

theorem tr_simulate2 (h : Base2 E a hw ns S f0 old p params t0) (s : RunState α β) (hs : s.plasma = p) (fuel : ℕ) :
    Tr (AtStep2 E a fs ns S f0 t0 fr0 0 s.buffer s.buffer_index)
      (CrashOk2 E a fs ns old (framesTo2 E a t0 S fr0 fuel)) (simulate2 E a s params t0 fuel)
      fun x g => CrashOk2 E a fs ns old (framesTo2 E a t0 S fr0 fuel) g ∧ (x ≠ none →
        ∃ f, g = upd fs a.output_path (some f) ∧ Truncated2 E a ns old (framesTo2 E a t0 S fr0 fuel) f) := by
  have ok0 : ∀ g, AtStep2 E a fs ns S f0 t0 fr0 0 s.buffer s.buffer_index g →
      CrashOk2 E a fs ns old (framesTo2 E a t0 S fr0 fuel) g := fun g hg => hg.ok h (by omega)
  unfold simulate2
  refine Tr.bind (mid := fun hw' g => hw' = hw ∧ AtStep2 E a fs ns S f0 t0 fr0 0 s.buffer s.buffer_index g)
    (Tr.lift _ ok0 fun g x hg hx => ⟨h.solver x hx, hg⟩) fun hw' => ?_
  refine Tr.assume fun e => ?_
  subst e
  refine Tr.bind (mid := fun om g => p.getItem "omega" = .ok om ∧ AtStep2 E a fs ns S f0 t0 fr0 0 s.buffer s.buffer_index g)
    (Tr.lift _ ok0 fun g x hg hx => ⟨by rw [← hs]; exact hx, hg⟩) fun om => ?_
  refine Tr.assume fun hom => ?_
  refine Tr.bind (mid := fun dx g => params.getItem "dx" = .ok dx ∧ AtStep2 E a fs ns S f0 t0 fr0 0 s.buffer s.buffer_index g)
    (Tr.lift _ ok0 fun g x hg hx => ⟨hx, hg⟩) fun dx => ?_
  refine Tr.assume fun hdx => ?_
  refine Tr.bind (mid := fun phi g => S 0 = p.set "phi" phi ∧ AtStep2 E a fs ns S f0 t0 fr0 0 s.buffer s.buffer_index g)
    (Tr.lift _ ok0 fun g x hg hx => ⟨h.start _ _ x hom hdx hx, hg⟩) fun phi => ?_
  refine Tr.assume fun hS0 => ?_
  have h0 : (⟨⟨s.plasma.set "phi" phi, s.buffer, s.buffer_index⟩, 0, [], t0⟩ : LoopState α β) = loopState E a t0 S 0 s.buffer s.buffer_index := by
    unfold loopState
    rw [hS0, hs]
    simp [usedAt, timeAt]
  simp only [h0]
  refine Tr.bind (Tr.both (tr_loop2 h fuel 0 s.buffer s.buffer_index (by omega))) fun x => ?_
  cases x with
  | none =>
    refine Tr.pure _ (fun g hg => hg.1) fun g hg => ⟨hg.1, fun e => absurd rfl e⟩
  | some s' =>
    simp only
    refine Tr.weaken (pre := fun g => ∃ c', c' ≤ fuel ∧ ∃ f, g = upd fs a.output_path (some f) ∧
      ∃ sv, Reach2 E a ns f0 (framesTo2 E a t0 S fr0 c') sv f s'.buffer s'.buffer_index)
      (P := CrashOk2 E a fs ns old (framesTo2 E a t0 S fr0 fuel))
      (post := fun x g => ∃ f, g = upd fs a.output_path (some f) ∧
        Truncated2 E a ns old (framesTo2 E a t0 S fr0 fuel) f) ?_ (fun g hg => hg.2 s' rfl) (fun _ h => h)
      (fun x g hx => ⟨.inr hx, fun _ => hx⟩)
    refine Tr.split' fun c' hc' f hr => ?_
    obtain ⟨sv, hr⟩ := hr
    have hp := framesTo2_prefix (E := E) (a := a) (S := S) (t0 := t0) (fr0 := fr0) hc'
    split
    · next hi =>
      have hi' : 0 < s'.buffer_index := by
        rw [Bool.and_eq_true] at hi
        exact of_decide_eq_true hi.2
      have hh := hr.holds h
      have hfin : Truncated2 E a ns old (framesTo2 E a t0 S fr0 fuel) (appendedRows f s'.buffer s'.buffer_index) := by
        refine hh.truncated h.saves hr.frames hp ⟨"", fun k => ?_⟩
        unfold appendedRows
        simp only
        cases hk : NS.get? s'.buffer k with
        | none => exact .inl rfl
        | some b => exact .inr ⟨b, rfl, .inl rfl⟩
      refine Tr.bind ((doesP_append_h5 (path := a.output_path) (Q := Truncated2 E a ns old (framesTo2 E a t0 S fr0 fuel))
        hi' hh.le _ hh.ok fun f' hf' => hh.truncated h.saves hr.frames hp hf').tr (fun f hf => .inr ⟨f, rfl, hf⟩)
        (.inr ⟨_, rfl, hfin⟩)) fun _ => ?_
      refine Tr.pure _ ?_ ?_
      · rintro g ⟨-, rfl⟩
        exact .inr ⟨_, rfl, hfin⟩
      · rintro g ⟨-, rfl⟩
        exact ⟨_, rfl, hfin⟩
    · have ht := hr.truncated h hp
      refine Tr.pure _ ?_ ?_
      · rintro g rfl
        exact .inr ⟨f, rfl, ht⟩
      · rintro g rfl
        exact ⟨f, rfl, ht⟩

/-- `run2` from the result of `setup2` -/
theorem tr_run2_of (h : Base2 E a hw ns S f0 old p params t0) (fuel : ℕ)
    (hset : Tr (fun g => g = fs) (CrashOk2 E a fs ns old (framesTo2 E a t0 S fr0 fuel)) (setup2 E a) fun x g =>
      ∃ s : RunState α β, x = some (s, params, t0) ∧ s.plasma = p ∧
        AtStep2 E a fs ns S f0 t0 fr0 0 s.buffer s.buffer_index g) :
    Tr (fun g => g = fs) (CrashOk2 E a fs ns old (framesTo2 E a t0 S fr0 fuel)) (run2 E a fuel) fun _ _ => True := by
  have ok0 : ∀ g, g = fs → CrashOk2 E a fs ns old (framesTo2 E a t0 S fr0 fuel) g := fun g hg => .inl hg
  unfold run2
  refine Tr.bind (mid := fun _ g => g = fs) (Tr.lift _ ok0 fun g _ hg _ => hg) fun q => ?_
  refine Tr.bind (mid := fun _ g => g = fs) (Tr.lift _ ok0 fun g _ hg _ => hg) fun _ => ?_
  split
  · exact Tr.raise _ ok0
  split
  · exact Tr.raise _ ok0
  refine Tr.bind hset fun x => ?_
  refine Tr.ex₁ fun s e hs => ?_
  subst e
  simp only
  refine Tr.bind (tr_simulate2 h s hs fuel) fun x => ?_
  cases x with
  | none => exact Tr.pure _ (fun g hg => hg.1) fun _ _ => trivial
  | some u =>
    simp only
    refine Tr.weaken (pre := fun g => ∃ f, g = upd fs a.output_path (some f) ∧
      Truncated2 E a ns old (framesTo2 E a t0 S fr0 fuel) f)
      (P := CrashOk2 E a fs ns old (framesTo2 E a t0 S fr0 fuel)) (post := fun _ _ => True) ?_
      (fun g hg => hg.2 (by simp)) (fun _ h => h) fun _ _ h => h
    refine Tr.split fun f ht => ?_
    split
    · refine Tr.bind (mid := fun _ g => CrashOk2 E a fs ns old (framesTo2 E a t0 S fr0 fuel) g) ?_
        fun _ => Tr.pure _ (fun g hg => hg) fun _ _ => trivial
      have hk := keeps_calculate (path := a.output_path) (fs := upd fs a.output_path (some f)) (f0 := f)
        (names := a.properties) E.props a.buffer_length true
      have hK : ∀ g, Keeps a.output_path (upd fs a.output_path (some f)) f a.properties g →
          CrashOk2 E a fs ns old (framesTo2 E a t0 S fr0 fuel) g := by
        intro g hg
        obtain ⟨f', e1, -, e3⟩ := hg.file
        refine .inr ⟨f', ?_, truncated2_mono ht fun k _ hp => e3 k hp⟩
        funext q
        by_cases hq : q = a.output_path
        · rw [hq, e1, upd_same]
        · rw [hg.other q hq, upd_ne _ _ hq, upd_ne _ _ hq]
      refine hk.weaken ?_ hK fun _ g hg => hK g hg.1
      rintro g rfl
      exact Keeps.refl (upd_same _ _ _)
    · refine Tr.pure _ ?_ fun _ _ => trivial
      rintro g rfl
      exact .inr ⟨f, rfl, ht⟩

/-! ### a new file -/

theorem Blank.truncated2 {f : H5 α β} (h : Blank (keys2 a) (shape2 ns) f) (fr : List (α × NS (Cell α))) :
    Truncated2 E a ns (fun _ => []) fr f := by
  refine ⟨"", 0, 0, Nat.zero_le _, fun k hk _ => ?_⟩
  rcases h k hk with h | h
  · exact .inl ⟨h, rfl, rfl, rfl⟩
  · exact .inr ⟨[], 0, by rw [h]; rfl, .nil, .inl rfl, .inl rfl⟩

theorem state_ne_fullres {k name : String} : "state_" ++ k ≠ "fullres_" ++ name := fun h => fullres_ne_state h.symm

theorem tr_create2 (a : Args2 α) (ns : ℕ) (hn : a.properties.Nodup) (fs : FS α β) (P : FS α β → Prop) (h0 : P fs)
    (hP : ∀ f, Blank (keys2 a) (shape2 ns) f → P (upd fs a.output_path (some f))) :
    Tr (fun g => g = fs) P (create_appendable_h5 a.output_path (runParams2 a ns) ns ns a.grid_pts a.grid_pts fieldList
      ("time" :: a.properties.map ("fullres_" ++ ·)) a.saveState : IOM α β Unit)
      fun _ g => g = upd fs a.output_path (some (runFile2 a ns)) := by
  have hB : ∀ g, BlankAt a.output_path fs (keys2 a) (shape2 ns) g → P g := by
    rintro g ⟨f, rfl, hf⟩; exact hP f hf
  have h : Tr (fun g => g = fs) P (create_appendable_h5 a.output_path (runParams2 a ns) ns ns a.grid_pts a.grid_pts
      fieldList ("time" :: a.properties.map ("fullres_" ++ ·)) a.saveState : IOM α β Unit)
      fun _ => BlankAt a.output_path fs (keys2 a) (shape2 ns) := by
    unfold create_appendable_h5
    refine Tr.bind (mid := fun _ => BlankAt a.output_path fs (keys2 a) (shape2 ns)) ?_ fun _ => ?_
    · refine Tr.mutate _ (fun g hg => by rw [hg]; exact h0) fun g hg => ?_
      have : BlankAt a.output_path fs (keys2 a) (shape2 ns) (upd g a.output_path (some H5.empty)) :=
        ⟨_, by rw [hg], fun k _ => .inl rfl⟩
      exact ⟨hB _ this, this⟩
    · refine Tr.weaken (P := BlankAt a.output_path fs (keys2 a) (shape2 ns))
        (pre := BlankAt a.output_path fs (keys2 a) (shape2 ns))
        (post := fun _ => BlankAt a.output_path fs (keys2 a) (shape2 ns)) ?_ (fun _ h => h) hB fun _ _ h => h
      refine (tr_createRows _ _ ?_).bind fun _ => (tr_createRows _ _ ?_).bind fun _ => ?_
      · intro k hk _
        exact (if_pos hk).symm
      · intro k hk _
        rcases List.mem_cons.mp hk with rfl | hk
        · rfl
        · obtain ⟨name, -, rfl⟩ := List.mem_map.mp hk
          exact (shape2_fullres ns name).symm
      · split
        · refine (tr_createStates _ _ _ ?_).bind fun _ => tr_setAttrs _
          intro k hk h
          rcases mem_keys2.mp h with h | ⟨name, -, e⟩
          · exact (by decide : ∀ k ∈ ["density", "phi", "omega"], "state_" ++ k ∉ "time" :: fieldList) k hk h
          · exact state_ne_fullres e
        · exact tr_setAttrs _
  exact (h.makes (makes_runFile2 a ns hn) rfl).weaken (fun _ h => h) (fun _ h => h) fun _ _ h => h.2

theorem StartedRun2.base (h : StartedRun2 E a fs hw ns S) :
    Base2 E a hw ns S (runFile2 a ns : H5 α β) (fun _ => []) a.plasma0 a.physics2 (FloatOps.ofInt 0) where
  saves := h.saves
  inv0 := inv_runFile2 a ns h.buffer
  rows0 := fun k hk => by
    rcases mem_keys2.mp hk with hk | ⟨name, hn, rfl⟩
    · rw [runFile2_rows a ns hk, shape2_eq ns hk]
    · rw [runFile2_fullres a ns hn, shape2_fullres]
  solver := h.solver
  start := by
    intro om dxa phi h1 h2 h3
    have e1 : a.plasma0.getItem "omega" = .ok a.omega0 := NS.getItem_of_get? rfl
    have e2 : a.physics2.getItem "dx" = .ok (.num a.dx) := NS.getItem_of_get? rfl
    rw [e1] at h1
    rw [e2] at h2
    injection h1 with h1
    injection h2 with h2
    subst h1; subst h2
    exact h.start phi h3
  steps := h.steps
  shaped := h.shaped

/-- the frame before the first step -/
def initialFrames2 (a : Args2 α) : List (α × NS (Cell α)) :=
  if FloatOps.eq a.recording_start_time (FloatOps.ofInt 0) then [(FloatOps.ofInt 0, a.plasma0)] else []

theorem framesTo2_initial (E : Env2 α β) (a : Args2 α) (S : ℕ → NS (Cell α)) (m : ℕ) :
    framesTo2 E a (FloatOps.ofInt 0) S (initialFrames2 a) m = frames2 E a S m := rfl

theorem framesTo2_zero : framesTo2 E a t0 S fr0 0 = fr0 := by simp [framesTo2, stepFrames2]

theorem tr_setup2 (h : StartedRun2 E a fs hw ns S) (F : ℕ) :
    Tr (fun g => g = fs) (CrashOk2 E a fs ns (fun _ => []) (frames2 E a S F)) (setup2 E a) fun x g =>
      ∃ s : RunState α β, x = some (s, a.physics2, FloatOps.ofInt 0) ∧ s.plasma = a.plasma0 ∧
        AtStep2 E a fs ns S (runFile2 a ns) (FloatOps.ofInt 0) (initialFrames2 a) 0 s.buffer s.buffer_index g := by
  have ok0 : ∀ g, g = fs → CrashOk2 E a fs ns (fun _ => []) (frames2 E a S F) g := fun g hg => .inl hg
  have hB := h.base
  have hr0 : Reach2 E a ns (runFile2 a ns : H5 α β) [] [] (runFile2 a ns : H5 α β)
      (zeroBuffer2 (α := α) a.buffer_length ns ns a.properties) 0 := ⟨inv_runFile2 a ns h.buffer, rfl, .nil⟩
  have hpre := framesTo2_prefix (E := E) (a := a) (S := S) (t0 := FloatOps.ofInt 0) (fr0 := initialFrames2 a)
    (Nat.zero_le F)
  rw [framesTo2_zero, framesTo2_initial] at hpre
  unfold setup2
  rw [h.saves.dim]
  refine Tr.bind (mid := fun x g => x = ns ∧ g = fs) (Tr.lift _ ok0 fun g x hg hx => ⟨by injection hx with hx; exact hx.symm, hg⟩)
    fun x => ?_
  refine Tr.assume fun e => ?_
  subst e
  refine Tr.bind (mid := fun y g => y = x ∧ g = fs) (Tr.lift _ ok0 fun g y hg hx => ⟨by injection hx with hx; exact hx.symm, hg⟩)
    fun y => ?_
  refine Tr.assume fun e => ?_
  subst e
  refine Tr.bind (mid := fun b g => b = (fs a.output_path).isSome ∧ g = fs) (Tr.read (fun _ => rfl) ok0 fun σ b hσ hb => ⟨?_, hσ⟩)
    fun b => ?_
  · unfold isFile at hb
    injection hb with hb
    rw [← hb, hσ]
  refine Tr.assume fun e => ?_
  subst e
  have hfile : ((fs a.output_path).isSome && !a.force_recompute) = false := by
    rcases h.fresh with h | h <;> simp [h]
  simp only [hfile]
  refine Tr.bind (tr_create2 a _ h.nodup fs _ (.inl rfl) fun f hf => .inr ⟨f, rfl, hf.truncated2 _⟩) fun _ => ?_
  have hok1 : CrashOk2 E a fs y (fun _ => []) (frames2 E a S F) (upd fs a.output_path (some (runFile2 a y))) :=
    .inr ⟨_, rfl, hr0.truncated hB (List.nil_prefix)⟩
  by_cases hrec : FloatOps.eq a.recording_start_time (FloatOps.ofInt 0) = true
  · have hi : initialFrames2 a = [(FloatOps.ofInt 0, a.plasma0)] := by simp [initialFrames2, hrec]
    simp only [hrec, if_true]
    refine Tr.bind (mid := fun v g => frameLoop E.toEnv a.downsample_factor a.saveState a.plasma0 (fieldsOf a.plasma0) []
        = .ok v ∧ g = upd fs a.output_path (some (runFile2 a y)))
      (Tr.lift _ (fun g hg => by rw [hg]; exact hok1) fun g x hg hx => ⟨hx, hg⟩) fun v => ?_
    refine Tr.assume fun e1 => ?_
    obtain ⟨v1, v2⟩ := v
    simp only
    refine Tr.bind (mid := fun nv g => propLoop E a.dx a.c1 a.plasma0 a.properties v1 = .ok nv ∧
        g = upd fs a.output_path (some (runFile2 a y)))
      (Tr.lift _ (fun g hg => by rw [hg]; exact hok1) fun g x hg hx => ⟨hx, hg⟩) fun nv => ?_
    refine Tr.assume fun e2 => ?_
    obtain ⟨hr', htr⟩ := hr0.save (fs := fs) (fr := frames2 E a S F) hB (x := (FloatOps.ofInt 0, a.plasma0))
      (by rw [List.nil_append, ← hi]; exact hpre)
      (firstSave2_of_ok h.saves h.init (FloatOps.ofInt 0) e1 e2)
    rw [List.nil_append, ← hi] at hr'
    refine Tr.bind htr fun z => ?_
    refine Tr.pure _ ?_ ?_
    · rintro g ⟨-, rfl⟩
      exact .inr ⟨_, rfl, hr'.truncated hB hpre⟩
    · rintro g ⟨rfl, rfl⟩
      exact ⟨_, rfl, rfl, _, rfl, _, by rw [framesTo2_zero]; exact hr'⟩
  · have hi : initialFrames2 a = [] := by simp [initialFrames2, hrec]
    simp only [hrec]
    refine Tr.pure _ (fun g hg => by rw [hg]; exact hok1) ?_
    rintro g rfl
    exact ⟨_, rfl, rfl, _, rfl, [], by rw [framesTo2_zero, hi]; exact hr0⟩

theorem tr_run2 (h : StartedRun2 E a fs hw ns S) (fuel : ℕ) :
    Tr (fun g => g = fs) (CrashOk2 E a fs ns (fun _ => []) (frames2 E a S fuel)) (run2 E a fuel) fun _ _ => True :=
  tr_run2_of h.base fuel (tr_setup2 h fuel)

/-! ### continuing a file -/

variable {f : H5 α β} {d o ph : Arr α}

theorem StartedContinuation2.base (h : StartedContinuation2 E a fs f hw ns d o ph t0 params S) :
    Base2 E a hw ns S f f.rowsOf
      [("density", .arr d), ("omega", .arr o), ("phi", .arr ph), ("age", .num t0)] params t0 where
  saves := h.saves
  inv0 := inv2_of h.buffer h.output h.propRows
  rows0 := fun k hk => by
    rcases mem_keys2.mp hk with hk | ⟨name, hn, rfl⟩
    · obtain ⟨r, hr⟩ := h.output.rows k hk
      rw [shape2_eq ns hk, hr]; unfold H5.rowsOf; rw [hr]
    · obtain ⟨r, hr⟩ := h.propRows name hn
      rw [shape2_fullres, hr]; unfold H5.rowsOf; rw [hr]
  solver := h.solver
  start := by
    intro om dxa phi h1 h2 h3
    have e1 : NS.getItem [("density", Cell.arr d), ("omega", .arr o), ("phi", .arr ph), ("age", .num t0)] "omega"
        = .ok (.arr o) := rfl
    rw [e1] at h1
    injection h1 with h1
    subst h1
    have h2' : params.get? "dx" = some dxa := by
      unfold NS.getItem at h2
      cases hd : params.get? "dx" with
      | none => rw [hd] at h2; cases h2
      | some v => rw [hd] at h2; injection h2 with h2; rw [h2]
    rw [h.start dxa phi h2' h3]
    rfl
  steps := h.steps
  shaped := h.shaped

theorem tr_setup2_continue (h : StartedContinuation2 E a fs f hw ns d o ph t0 params S) (F : ℕ) :
    Tr (fun g => g = fs) (CrashOk2 E a fs ns f.rowsOf (stepFrames2 E a t0 S F)) (setup2 E a) fun x g =>
      ∃ s : RunState α β, x = some (s, params, t0) ∧
        s.plasma = [("density", .arr d), ("omega", .arr o), ("phi", .arr ph), ("age", .num t0)] ∧
        AtStep2 E a fs ns S f t0 [] 0 s.buffer s.buffer_index g := by
  have ok0 : ∀ g, g = fs → CrashOk2 E a fs ns f.rowsOf (stepFrames2 E a t0 S F) g := fun g hg => .inl hg
  have hr0 : Reach2 E a ns f [] [] f (zeroBuffer2 (α := α) a.buffer_length ns ns a.properties) 0 :=
    ⟨h.base.inv0, rfl, .nil⟩
  unfold setup2
  rw [h.saves.dim]
  refine Tr.bind (mid := fun x g => x = ns ∧ g = fs) (Tr.lift _ ok0 fun g x hg hx => ⟨by injection hx with hx; exact hx.symm, hg⟩)
    fun x => ?_
  refine Tr.assume fun e => ?_
  subst e
  refine Tr.bind (mid := fun y g => y = x ∧ g = fs) (Tr.lift _ ok0 fun g y hg hx => ⟨by injection hx with hx; exact hx.symm, hg⟩)
    fun y => ?_
  refine Tr.assume fun e => ?_
  subst e
  refine Tr.bind (mid := fun b g => b = true ∧ g = fs) (Tr.read (fun _ => rfl) ok0 fun σ b hσ hb => ⟨?_, hσ⟩)
    fun b => ?_
  · unfold isFile at hb
    injection hb with hb
    rw [← hb, hσ, h.file]
    rfl
  refine Tr.assume fun e => ?_
  subst e
  simp only [h.keep, h.cont, Bool.not_false, Bool.and_self, if_true]
  obtain ⟨r, x, t1, t2, t3⟩ := h.time
  have hd := does_continue (path := a.output_path) h.output h.density h.omega h.phi t1 t2 h.restored
  rw [t3] at hd
  refine Tr.bind (mid := fun z g => z = ([("density", .arr d), ("omega", .arr o), ("phi", .arr ph), ("age", .num t0)], params)
    ∧ g = fs) (Tr.read (fun σ => read_continue _ σ) ok0 fun σ z hσ hz => ⟨?_, hσ⟩) fun z => ?_
  · obtain ⟨σ', e1, -⟩ := hd σ (by rw [hσ, h.file])
    rw [e1] at hz
    injection hz with hz
    exact hz.symm
  refine Tr.assume fun e => ?_
  subst e
  simp only
  refine Tr.bind (mid := fun z g => z = .num t0 ∧ g = fs) (Tr.lift _ ok0 fun g z hg hz => ⟨?_, hg⟩) fun z => ?_
  · have : NS.getItem [("density", Cell.arr d), ("omega", .arr o), ("phi", .arr ph), ("age", .num t0)] "age"
      = .ok (.num t0) := rfl
    rw [this] at hz
    injection hz with hz
    exact hz.symm
  refine Tr.assume fun e => ?_
  subst e
  simp only
  refine Tr.bind (mid := fun z g => z = t0 ∧ g = fs) (Tr.pure _ ok0 fun g hg => ⟨rfl, hg⟩) fun z => ?_
  refine Tr.assume fun e => ?_
  subst e
  refine Tr.bind (mid := fun _ g => g = fs) (Tr.lift _ ok0 fun g _ hg _ => hg) fun _ => ?_
  refine Tr.pure _ ok0 fun g hg => ⟨_, rfl, rfl, f, ?_, [], by rw [framesTo2_zero]; exact hr0⟩
  rw [hg, ← h.file, upd_self]

theorem tr_run2_continue (h : StartedContinuation2 E a fs f hw ns d o ph t0 params S) (fuel : ℕ) :
    Tr (fun g => g = fs) (CrashOk2 E a fs ns f.rowsOf (stepFrames2 E a t0 S fuel)) (run2 E a fuel) fun _ _ => True := by
  have := tr_run2_of (fs := fs) (fr0 := []) h.base fuel
  unfold framesTo2 at this
  rw [List.nil_append] at this
  exact this (tr_setup2_continue h fuel)

end Verif
