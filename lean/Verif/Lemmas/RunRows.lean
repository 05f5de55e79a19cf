import Verif.Lemmas.RunLoop
import Verif.Lemmas.RunProps

/-!
# Contents of the file after `run`
-/

set_option linter.unusedSectionVars false

namespace Verif

open H5IO H5 Run

variable {α β : Type} [Casts α β] [Zero α] [Inhabited α] [Inhabited β] [FloatOps α]

/-- the saves of a run are correct saves of the frames -/
theorem allSaves_ok {E : Env α β} {a : Args α} {σ : St α β} {hw : Solver α} {ns m : ℕ} {steps : ℤ}
    {S : ℕ → NS (Cell α)} (h : FreshRun E a σ hw ns steps m S) :
    List.Forall₂ (fun fr v => IsSave E a.downsample_factor a.saveState fr.1 fr.2 v ∧ Shaped a.grid_pts fr.2)
      (frames a S m) (allSaves E a S m) := by
  unfold frames allSaves
  refine List.rel_append (R := fun (fr : α × NS (Cell α)) (v : NS (Cell α) × NS (Cell α)) => _) ?_ ?_
  · split
    · obtain ⟨v, -, -, hs⟩ := firstSave_ok h.saves a.saveState h.init (FloatOps.ofInt 0)
      exact .cons ⟨hs, h.init⟩ .nil
    · exact .nil
  · unfold loopSaves
    rw [List.forall₂_map_left_iff, List.forall₂_map_right_iff, Nat.zero_add]
    rw [List.forall₂_same]
    intro it hit
    rw [List.mem_filter, List.mem_range'_1] at hit
    have hS := h.shaped it (by omega) (by omega)
    exact ⟨(theSave_ok h.saves a.saveState hS _).2, hS⟩

theorem zeroBuffer_get (L ns : ℕ) {k : String} (hk : k ∈ "time" :: fieldList) :
    ∃ b, (zeroBuffer (α := α) L ns ns : NS (Buf β)).get? k = some b ∧ b.shape = rowShape ns k := by
  simp only [fieldList, List.mem_cons, List.not_mem_nil, or_false] at hk
  rcases hk with rfl | rfl | rfl | rfl <;> exact ⟨_, rfl, rfl⟩

theorem runFile_rows (a : Args α) (ns : ℕ) {k : String} (hk : k ∈ "time" :: fieldList) :
    (runFile a ns : H5 α β).dsets k = some (.rows (rowShape ns k) []) := by
  simp only [fieldList, List.mem_cons, List.not_mem_nil, or_false] at hk
  rcases hk with rfl | rfl | rfl | rfl <;> unfold runFile createdFile <;> simp only <;>
    rw [if_neg (by rintro ⟨-, h⟩; revert h; decide)] <;> rfl

/-- rows of the finished file -/
theorem final_rows {E : Env α β} {a : Args α} {ns : ℕ} {saves : List (NS (Cell α) × NS (Cell α))}
    {fr : List (α × NS (Cell α))} (hL : 1 ≤ a.buffer_length) (hs : SavesAs E a.downsample_factor a.grid_pts ns)
    (hfr : List.Forall₂ (fun fr v => IsSave E a.downsample_factor a.saveState fr.1 fr.2 v ∧ Shaped a.grid_pts fr.2)
      fr saves) {f' : H5 α β} {buf' : NS (Buf β)} {i' : ℕ}
    (e : afterSaves a.buffer_length (runFile a ns) (zeroBuffer (α := α) a.buffer_length ns ns) 0 saves = (f', buf', i'))
    {k : String} (hk : k ∈ "time" :: fieldList) :
    ∃ rows, (finalFile f' buf' i').dsets k = some (.rows (rowShape ns k) rows) ∧
      List.Forall₂ (fun fr row => IsFrameRow E a.downsample_factor k fr.1 fr.2 row) fr rows := by
  obtain ⟨b, hb, hsh⟩ := zeroBuffer_get (α := α) (β := β) a.buffer_length ns hk
  have hI := inv_runFile (β := β) a (ns := ns) hL
  have hok := afterSaves_bufOk (i := 0) saves (runFile a ns) hI.ok
  obtain ⟨b', h1, h2⟩ := afterSaves_get? (L := a.buffer_length) saves (runFile a ns : H5 α β) _ 0 hb
  have hlog := logical_afterSaves saves (runFile a ns : H5 α β) hI.lt hI.ok hb
  rw [e] at hok h1 hlog
  simp only at hok h1 hlog
  have := rowsOf_finalFile (i := i') hok h1
  rw [hlog, h2, hsh] at this
  refine ⟨_, this, ?_⟩
  have h0 : logical (runFile a ns : H5 α β) (zeroBuffer (α := α) a.buffer_length ns ns) 0 k = [] := by
    unfold logical H5.rowsOf
    rw [runFile_rows a ns hk, hb]
    simp
  rw [h0, List.nil_append, List.forall₂_map_right_iff]
  refine hfr.imp fun fr v hv => ?_
  refine hv.1.row hs hv.2 ?_
  unfold rowShape
  rcases List.mem_cons.mp hk with rfl | hk
  · left; simp
  · right; exact ⟨hk, if_neg (fieldList_ne_time hk)⟩

theorem finalFile_state {f : H5 α β} {buf : NS (Buf β)} {i ns : ℕ} {props : List String} (hb : FrameBuf ns props buf) {k : String}
    (hk : k ∈ fieldList) : (finalFile f buf i).dsets ("state_" ++ k) = f.dsets ("state_" ++ k) := by
  unfold finalFile
  split
  · unfold appendedRows
    simp only [get?_eq_none_of_not_mem (state_not_buffered hk hb)]
  · rfl

/-- the `state_*` datasets after any number of saves: the state of the last
save that filled the buffer -/
theorem final_states {E : Env α β} {a : Args α} {props : List String} {ns : ℕ} (hflag : a.saveState = true)
    {f : H5 α β} {buf : NS (Buf β)} (hI : Inv a props a.grid_pts ns f buf 0) {k : String} (hk : k ∈ fieldList)
    (saves : List (NS (Cell α) × NS (Cell α))) :
    ∀ (fr : List (α × NS (Cell α))),
    List.Forall₂ (fun fr v => IsSave E a.downsample_factor a.saveState fr.1 fr.2 v ∧ Shaped a.grid_pts fr.2) fr saves →
    ∃ A, (afterSaves a.buffer_length f buf 0 saves).1.dsets ("state_" ++ k) = some (.full A) ∧ A.h = a.grid_pts ∧
      A.w = a.grid_pts ∧ Inv a props a.grid_pts ns (afterSaves a.buffer_length f buf 0 saves).1
        (afterSaves a.buffer_length f buf 0 saves).2.1 (afterSaves a.buffer_length f buf 0 saves).2.2 ∧
      (fr.length < a.buffer_length → f.dsets ("state_" ++ k) = some (.full A)) ∧
      (∀ x, a.buffer_length ≤ fr.length →
        fr[a.buffer_length * (fr.length / a.buffer_length) - 1]? = some x → x.2.get? k = some (.arr A)) := by
  induction saves using List.reverseRecOn with
  | nil =>
    intro fr hfr
    rw [List.forall₂_nil_right_iff] at hfr
    subst hfr
    obtain ⟨A, h1, h2, h3⟩ := hI.states hflag k hk
    refine ⟨A, h1, h2, h3, hI, fun _ => h1, fun x h => ?_⟩
    have := hI.lt
    simp only [List.length_nil] at h
    omega
  | append_singleton saves v ih =>
    intro fr hfr
    obtain ⟨fr, y, rfl, hfr', hy⟩ : ∃ fr' y, fr = fr' ++ [y] ∧
        List.Forall₂ (fun fr v => IsSave E a.downsample_factor a.saveState fr.1 fr.2 v ∧ Shaped a.grid_pts fr.2)
          fr' saves ∧ (IsSave E a.downsample_factor a.saveState y.1 y.2 v ∧ Shaped a.grid_pts y.2) := by
      have h1 := List.forall₂_reverse_iff.mpr hfr
      rw [List.reverse_append, List.reverse_singleton, List.singleton_append, List.forall₂_cons_right_iff] at h1
      obtain ⟨y, fr', h2, h3, h4⟩ := h1
      refine ⟨fr'.reverse, y, ?_, ?_, h2⟩
      · rw [← List.reverse_reverse fr, h4, List.reverse_cons]
      · have := List.forall₂_reverse_iff.mpr h3
        rwa [List.reverse_reverse] at this
    obtain ⟨A, h1, h2, h3, hI', h4, h5⟩ := ih fr hfr'
    rw [afterSaves_append]
    have hidx := afterSaves_index (L := a.buffer_length) saves f buf hI.lt
    have hlen := hfr'.length_eq
    rw [Nat.zero_add, ← hlen] at hidx
    generalize hAS : afterSaves a.buffer_length f buf 0 saves = R at *
    obtain ⟨f1, buf1, i1⟩ := R
    simp only at h1 hI' hidx ⊢
    have hL : 0 < a.buffer_length := hI.lt
    have hstep : afterSaves a.buffer_length f1 buf1 i1 [v]
        = (savedFile f1 a.buffer_length i1 buf1 v.1 v.2, filled i1 v.1 buf1, nextIndex a.buffer_length i1) := rfl
    rw [hstep]
    simp only
    have hI2 := hI'.save v.1 v.2
    obtain ⟨B, hB, b1, b2⟩ := hI2.states hflag k hk
    have hdm := Nat.div_add_mod fr.length a.buffer_length
    by_cases hfull : i1 + 1 = a.buffer_length
    · -- this save fills the buffer
      obtain ⟨C, hC, c1, c2⟩ := hy.2.fields k hk
      have hval : v.2.get? ("state_" ++ k) = some (.arr C) := by rw [hy.1.stateOn hflag k hk, hC]
      have hst : (savedFile f1 a.buffer_length i1 buf1 v.1 v.2).dsets ("state_" ++ k) = some (.full C) := by
        unfold savedFile
        rw [if_pos hfull]
        unfold withStates
        have : (appendedRows f1 (filled i1 v.1 buf1) a.buffer_length).dsets ("state_" ++ k) = some (.full A) := by
          unfold appendedRows
          simp only [get?_filled, get?_eq_none_of_not_mem (state_not_buffered hk hI'.buf), Option.map_none, h1]
        simp only [this, hval]
        rw [fitState_arr _ _ (by rw [c1, h2]) (by rw [c2, h3])]
      have hq : a.buffer_length * ((fr ++ [y]).length / a.buffer_length) = fr.length + 1 := by
        rw [List.length_append, List.length_singleton]
        have : fr.length + 1 = a.buffer_length * (fr.length / a.buffer_length + 1) := by
          rw [Nat.mul_add, Nat.mul_one]; omega
        rw [this, Nat.mul_div_cancel_left _ hL]
      refine ⟨C, hst, c1, c2, hI2, ?_, ?_⟩
      · intro hlt
        exfalso
        rw [List.length_append, List.length_singleton] at hlt
        have : i1 = fr.length := by rw [hidx]; exact Nat.mod_eq_of_lt (by omega)
        omega
      · intro x _ hx
        rw [hq, Nat.add_sub_cancel, List.getElem?_append_right (le_refl _)] at hx
        simp only [Nat.sub_self, List.getElem?_cons_zero, Option.some.injEq] at hx
        rw [← hx, hC]
    · have hsame : savedFile f1 a.buffer_length i1 buf1 v.1 v.2 = f1 := by unfold savedFile; rw [if_neg hfull]
      rw [hsame] at hI2 ⊢
      have hq : (fr ++ [y]).length / a.buffer_length = fr.length / a.buffer_length := by
        rw [List.length_append, List.length_singleton]
        have hlt := hI'.lt
        have : fr.length + 1 = (i1 + 1) + a.buffer_length * (fr.length / a.buffer_length) := by omega
        rw [this, Nat.add_mul_div_left _ _ hL, Nat.div_eq_of_lt (by omega), Nat.zero_add]
      refine ⟨A, h1, h2, h3, hI2, ?_, ?_⟩
      · intro hlt
        exact h4 (by rw [List.length_append] at hlt; omega)
      · intro x hle hx
        rw [hq] at hx
        have h6 : a.buffer_length ≤ fr.length := by
          by_contra hcon
          have : (fr ++ [y]).length / a.buffer_length = 0 := by rw [hq]; exact Nat.div_eq_of_lt (by omega)
          rw [Nat.div_eq_zero_iff] at this
          omega
        refine h5 x h6 ?_
        rw [List.getElem?_append_left] at hx
        · exact hx
        · have : 1 ≤ fr.length / a.buffer_length := (Nat.one_le_div_iff hL).mpr h6
          have := Nat.mul_le_mul_left a.buffer_length this
          omega

end Verif
