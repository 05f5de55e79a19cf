import Verif.Lemmas.RunRows

/-!
# The result of a fresh `run`
-/

set_option linter.unusedSectionVars false

namespace Verif

open H5IO H5 Run

variable {α β : Type} [Casts α β] [Zero α] [Inhabited α] [Inhabited β] [FloatOps α]

/-- the steps that are multiples of `s` -/
theorem filter_multiples (s m : ℕ) :
    (List.range' 1 m).filter (fun it => it % s == 0) = (List.range' 1 (m / s)).map (· * s) := by
  induction m with
  | zero => simp
  | succ m ih =>
    rw [List.range'_1_concat, List.filter_append, ih]
    have hdm := Nat.div_add_mod m s
    by_cases h : (m + 1) % s = 0
    · have hd : (m + 1) / s = m / s + 1 := by
        rw [Nat.succ_div, if_pos (Nat.dvd_of_mod_eq_zero h)]
      rw [hd, List.range'_1_concat, List.map_append]
      congr 1
      have : (m + 1) = (m / s + 1) * s := by
        have := Nat.div_add_mod (m + 1) s
        rw [h, hd, Nat.add_zero, Nat.mul_comm] at this
        exact this.symm
      simp only [List.map_cons, List.map_nil, Nat.add_comm 1 m, List.filter_cons, h, beq_self_eq_true, if_true,
        List.filter_nil]
      rw [Nat.add_comm 1 (m / s), ← this]
    · have hd : (m + 1) / s = m / s := by
        rw [Nat.succ_div, if_neg (fun hdv => h (Nat.mod_eq_zero_of_dvd hdv)), Nat.add_zero]
      rw [hd]
      simp [Nat.add_comm 1 m, h]

/-- frame `j` of a run that records from the beginning -/
def frameAt (a : Args α) (S : ℕ → NS (Cell α)) (j : ℕ) : α × NS (Cell α) :=
  if j = 0 then (FloatOps.ofInt 0, a.plasma0) else (stepTime a (j * a.snaps), S (j * a.snaps))

theorem frames_from_zero {a : Args α} {S : ℕ → NS (Cell α)} {m : ℕ}
    (h0 : FloatOps.eq a.recording_start_time (FloatOps.ofInt 0) = true)
    (hr : ∀ it, 1 ≤ it → it ≤ m → FloatOps.le a.recording_start_time (stepTime a it) = true) :
    frames a S m = (List.range (m / a.snaps + 1)).map (frameAt a S) := by
  unfold frames
  rw [if_pos h0]
  have h1 : (List.range' 1 m).filter (isRecorded a) = (List.range' 1 m).filter (fun it => it % a.snaps == 0) := by
    apply List.filter_congr
    intro it hit
    rw [List.mem_range'_1] at hit
    unfold isRecorded
    rw [hr it (by omega) (by omega), Bool.true_and]
  rw [h1, filter_multiples, List.map_map, List.range_eq_range', List.range'_succ]
  simp only [List.map_cons, List.singleton_append]
  refine congrArg₂ _ (by simp [frameAt]) ?_
  rw [Nat.zero_add]
  apply List.map_congr_left
  intro j hj
  rw [List.mem_range'_1] at hj
  unfold frameAt
  rw [if_neg (by omega)]
  rfl

theorem runFile_attrs (a : Args α) (ns : ℕ) (k : String) :
    (runFile a ns : H5 α β).attrs k = (runParams a ns).get? k := by
  simp -implicitDefEqProofs only [runFile, createdFile]

theorem finalFile_attrs (f : H5 α β) (buf : NS (Buf β)) (i : ℕ) : (finalFile f buf i).attrs = f.attrs := by
  unfold finalFile; split <;> rfl

/-- What a fresh run leaves behind, whether or not the optional property
computation at the end raises. -/
theorem run_result {E : Env α β} {a : Args α} {σ : St α β} {hw : Solver α} {ns m : ℕ} {steps : ℤ}
    {S : ℕ → NS (Cell α)} (h : FreshRun E a σ hw ns steps m S) :
    ∃ f, (run E a σ).2.fs a.output_path = some f ∧ (∀ q, q ≠ a.output_path → (run E a σ).2.fs q = σ.fs q) ∧
      (a.properties = [] → (run E a σ).1 = .ok ()) ∧
      (∀ k, f.attrs k = (runParams a ns).get? k) ∧
      (∀ k ∈ "time" :: fieldList, k ∉ a.properties → ∃ rows, f.dsets k = some (.rows (rowShape ns k) rows) ∧
        List.Forall₂ (fun fr row => IsFrameRow E a.downsample_factor k fr.1 fr.2 row) (frames a S m) rows) ∧
      (a.saveState = true → ∀ k ∈ fieldList, "state_" ++ k ∉ a.properties →
        ∃ A, f.dsets ("state_" ++ k) = some (.full A) ∧
        ((frames a S m).length < a.buffer_length → A = Arr.tab a.grid_pts a.grid_pts fun _ _ => 0) ∧
        (∀ x, a.buffer_length ≤ (frames a S m).length →
          (frames a S m)[a.buffer_length * ((frames a S m).length / a.buffer_length) - 1]? = some x →
          x.2.get? k = some (.arr A))) := by
  obtain ⟨σ', f', buf', i', e1, hI, e2, e3⟩ := run_fresh h
  have hp : σ'.fs a.output_path = some (finalFile f' buf' i') := by rw [e2, upd_same]
  obtain ⟨g, hg, hother, hattrs, hds⟩ : ∃ g, (run E a σ).2.fs a.output_path = some g ∧
      (∀ q, q ≠ a.output_path → (run E a σ).2.fs q = σ'.fs q) ∧ g.attrs = (finalFile f' buf' i').attrs ∧
      ∀ k, k ∉ a.properties → g.dsets k = (finalFile f' buf' i').dsets k := by
    rw [e3]
    by_cases hpr : a.properties.isEmpty = true
    · simp only [hpr]
      exact ⟨_, hp, fun _ _ => rfl, rfl, fun _ _ => rfl⟩
    · simp only [hpr]
      obtain ⟨l, -, -, hk, -⟩ := keeps_calculate (path := a.output_path) (fs := σ'.fs) (f0 := finalFile f' buf' i')
        (names := a.properties) E.props a.buffer_length true σ' (Keeps.refl hp)
      obtain ⟨g, h1, h2, h3⟩ := hk.file
      exact ⟨g, h1, hk.other, h2, h3⟩
  have hfr := allSaves_ok h
  refine ⟨g, hg, fun q hq => by rw [hother q hq, e2, upd_ne _ _ hq], ?_, ?_, ?_, ?_⟩
  · intro hn
    rw [e3, hn]
    rfl
  · intro k
    rw [hattrs, finalFile_attrs]
    have := afterSaves_attrs (L := a.buffer_length) (allSaves E a S m) (runFile a ns : H5 α β)
      (zeroBuffer (α := α) a.buffer_length ns ns) 0
    rw [e1] at this
    simp only at this
    rw [this, runFile_attrs]
  · intro k hk hkp
    rw [hds k hkp]
    exact final_rows h.buffer h.saves hfr e1 hk
  · intro hst k hk hkp
    obtain ⟨A, h1, -, -, hI', h2, h3⟩ := final_states hst (inv_runFile (β := β) a (ns := ns) h.buffer) hk
      (allSaves E a S m) (frames a S m) hfr
    rw [e1] at h1 hI'
    refine ⟨A, by rw [hds _ hkp, finalFile_state hI'.buf hk]; exact h1, ?_, h3⟩
    intro hlt
    have h4 := h2 hlt
    have : (runFile a ns : H5 α β).dsets ("state_" ++ k)
        = some (.full (Arr.tab a.grid_pts a.grid_pts fun _ _ => 0)) := by
      unfold runFile createdFile
      simp only
      rw [if_pos]
      exact ⟨hst, (by decide : ∀ k ∈ fieldList, "state_" ++ k ∈ stateNames) k hk⟩
    rw [this] at h4
    injection h4 with h4
    injection h4 with h4
    exact h4.symm

end Verif
