import Verif.Lemmas.RunResult

/-!
# A new run writes no datasets besides its own
-/

set_option linter.unusedSectionVars false

namespace Verif

open H5IO H5 Run

variable {α β : Type} [Casts α β] [Zero α] [Inhabited α] [Inhabited β] [FloatOps α]

theorem savedFile_none {f : H5 α β} {L i : ℕ} {buf : NS (Buf β)} {new_val last : NS (Cell α)} {k : String}
    (hf : f.dsets k = none) (hk : k ∉ buf.keys) : (savedFile f L i buf new_val last).dsets k = none := by
  have hk' : k ∉ (filled i new_val buf).keys := by rwa [keys_filled]
  unfold savedFile
  split
  · simp only [withStates, appendedRows, get?_eq_none_of_not_mem hk', hf]
    cases last.get? k <;> rfl
  · exact hf

theorem afterSaves_none {L : ℕ} {k : String} (saves : List (NS (Cell α) × NS (Cell α))) :
    ∀ (f : H5 α β) (buf : NS (Buf β)) (i : ℕ), f.dsets k = none → k ∉ buf.keys →
      (afterSaves L f buf i saves).1.dsets k = none ∧ k ∉ (afterSaves L f buf i saves).2.1.keys := by
  induction saves with
  | nil => exact fun f buf i h1 h2 => ⟨h1, h2⟩
  | cons v saves ih =>
    intro f buf i h1 h2
    exact ih _ _ _ (savedFile_none h1 h2) (by rwa [keys_filled])

/-- the file of a new run has no datasets but the time, the fields, the states and the properties -/
theorem run_no_other {E : Env α β} {a : Args α} {σ : St α β} {hw : Solver α} {ns m : ℕ} {steps : ℤ}
    {S : ℕ → NS (Cell α)} (h : FreshRun E a σ hw ns steps m S) {k : String} (h1 : k ∉ "time" :: fieldList)
    (h2 : k ∉ stateNames) (h3 : k ∉ a.properties) {f : H5 α β} (hf : (run E a σ).2.fs a.output_path = some f) :
    f.dsets k = none := by
  obtain ⟨σ', f', buf', i', e1, hI, e2, e3⟩ := run_fresh h
  have hp : σ'.fs a.output_path = some (finalFile f' buf' i') := by rw [e2, upd_same]
  have h0 : (runFile a ns : H5 α β).dsets k = none := by
    have h4 : k ∉ fieldList := fun h => h1 (List.mem_cons_of_mem _ h)
    have h5 : k ∉ ["time"] := fun h => h1 (by rw [List.mem_singleton.1 h]; exact List.mem_cons_self)
    unfold runFile createdFile
    simp only [h2, h4, h5, and_false, if_false]
  have hb : k ∉ (zeroBuffer (α := α) (β := β) a.buffer_length ns ns).keys := by
    intro hk
    apply h1
    simp only [zeroBuffer, NS.keys, fieldList, List.map_cons, List.map_nil, List.cons_append, List.nil_append, List.mem_cons,
      List.not_mem_nil, or_false] at hk ⊢
    tauto
  obtain ⟨c1, c2⟩ := afterSaves_none (L := a.buffer_length) (allSaves E a S m) _ _ 0 h0 hb
  rw [e1] at c1 c2
  have hfin : (finalFile f' buf' i').dsets k = none := by
    unfold finalFile
    split
    · simp only [appendedRows, get?_eq_none_of_not_mem c2]
      exact c1
    · exact c1
  rw [e3] at hf
  by_cases hpr : a.properties.isEmpty = true
  · simp only [hpr] at hf
    have : some f = some (finalFile f' buf' i') := hf.symm.trans hp
    rw [Option.some.inj this, hfin]
  · simp only [hpr] at hf
    obtain ⟨l, -, -, hk, -⟩ := keeps_calculate (path := a.output_path) (fs := σ'.fs) (f0 := finalFile f' buf' i')
      (names := a.properties) E.props a.buffer_length true σ' (Keeps.refl hp)
    obtain ⟨g, g1, -, g3⟩ := hk.file
    have : f = g := Option.some.inj (hf.symm.trans g1)
    rw [this, g3 k h3, hfin]

end Verif
