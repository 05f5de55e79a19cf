import Verif.Spec.RunResumed
import Verif.Lemmas.BitContinue
import Verif.Lemmas.RunResult
import Verif.Props.RunContinue

/-!
# Continuing a file of `run`, whatever the arithmetic
-/

set_option linter.unusedSectionVars false

namespace Verif

open H5IO H5 Run Props

variable {α β : Type} [Casts α β] [Zero α] [Inhabited α] [Inhabited β] [FloatOps α]
variable {E : Env α β} {a : Args α} {σ : St α β} {hw : Solver α} {ns m m1 k l M : ℕ} {steps1 steps : ℤ}
  {S : ℕ → NS (Cell α)} {T1 T2 : α}

theorem frames_steps (a : Args α) (S : ℕ → NS (Cell α)) (m : ℕ) :
    frames a S m = (runSteps a m).map fun it => (runStamp a it, runState a S it) := by
  unfold frames runSteps
  rw [List.map_append]
  congr 1
  · split <;> rfl
  · refine List.map_congr_left fun it hit => ?_
    rw [List.mem_filter, List.mem_range'_1] at hit
    unfold runState runStamp
    rw [if_neg (by omega), if_neg (by omega)]

theorem mem_runSteps {it : ℕ} (h : it ∈ runSteps a m) :
    it ≤ m ∧ (it ≠ 0 → isRecorded a it = true) ∧
      (it = 0 → FloatOps.eq a.recording_start_time (FloatOps.ofInt 0 : α) = true) := by
  unfold runSteps at h
  rw [List.mem_append] at h
  rcases h with h | h
  · split at h
    · next h0 =>
      rw [List.mem_singleton] at h
      subst h
      exact ⟨by omega, fun h => absurd rfl h, fun _ => h0⟩
    · cases h
  · rw [List.mem_filter, List.mem_range'_1] at h
    exact ⟨by omega, fun _ => h.2, fun h0 => by omega⟩

/-- a recorded step is a multiple of `snaps` -/
theorem runSteps_snaps {it : ℕ} (h : it ∈ runSteps a m) : it % a.snaps = 0 := by
  obtain ⟨-, h2, -⟩ := mem_runSteps h
  by_cases h0 : it = 0
  · subst h0; exact Nat.zero_mod _
  · have := h2 h0
    unfold isRecorded at this
    rw [Bool.and_eq_true] at this
    exact beq_iff_eq.mp this.2

theorem runSteps_sorted (a : Args α) (m : ℕ) : (runSteps a m).Pairwise (· < ·) := by
  unfold runSteps
  rw [List.pairwise_append]
  refine ⟨by split <;> simp, List.Pairwise.filter _ (List.pairwise_lt_range' (s := 1) (n := m)), ?_⟩
  intro x hx y hy
  rw [List.mem_filter, List.mem_range'_1] at hy
  split at hx
  · rw [List.mem_singleton] at hx
    omega
  · cases hx

theorem runSteps_split (a : Args α) (h : k ≤ m) :
    runSteps a m = runSteps a k ++ ((List.range' 1 (m - k)).filter fun j => isRecorded a (k + j)).map (k + ·) := by
  unfold runSteps
  rw [range_split k m h, List.filter_append, List.filter_map, List.append_assoc]
  rfl

theorem runSteps_getLast (h : k ∈ runSteps a m) : (runSteps a k).getLast? = some k := by
  obtain ⟨-, h2, h3⟩ := mem_runSteps h
  unfold runSteps
  cases k with
  | zero => rw [h3 rfl]; rfl
  | succ n =>
    rw [List.range'_1_concat, List.filter_append, ← List.append_assoc, List.getLast?_append]
    have := h2 (by omega)
    simp [Nat.add_comm 1 n, this]

theorem runSteps_index {i : ℕ} (h : (runSteps a m)[i]? = some k) : (runSteps a k).length = i + 1 := by
  have hk : k ∈ runSteps a m := List.mem_of_getElem? h
  have hl := runSteps_getLast hk
  have hkm := (mem_runSteps hk).1
  have hne : (runSteps a k) ≠ [] := by intro e; rw [e] at hl; cases hl
  have hpos := List.length_pos_iff.mpr hne
  rw [List.getLast?_eq_getElem?] at hl
  have h2 : (runSteps a m)[(runSteps a k).length - 1]? = some k := by
    rw [runSteps_split a hkm, List.getElem?_append_left (by omega)]
    exact hl
  have hnd : (runSteps a m).Nodup := (runSteps_sorted a m).imp fun h => Nat.ne_of_lt h
  obtain ⟨h3, h4⟩ := List.getElem?_eq_some_iff.mp h
  obtain ⟨h5, h6⟩ := List.getElem?_eq_some_iff.mp h2
  have := (hnd.getElem_inj_iff (hi := h3) (hj := h5)).mp (h4.trans h6.symm)
  omega

/-- no recorded step comes after the last one -/
theorem runSteps_le_last (hl : (runSteps a m).getLast? = some l) {it : ℕ} (hit : it ∈ runSteps a m) : it ≤ l := by
  obtain ⟨i, hi, e⟩ := List.mem_iff_getElem.mp hit
  rw [List.getLast?_eq_getElem?] at hl
  obtain ⟨hlt, e'⟩ := List.getElem?_eq_some_iff.mp hl
  rcases Nat.lt_or_ge i ((runSteps a m).length - 1) with hlt' | hge
  · have := List.pairwise_iff_getElem.mp (runSteps_sorted a m) i _ hi hlt hlt'
    rw [e, e'] at this
    omega
  · have : i = (runSteps a m).length - 1 := by omega
    subst this
    rw [e'] at e
    omega

theorem runSteps_last (hl : (runSteps a m).getLast? = some l) : runSteps a m = runSteps a l := by
  have hlm : l ≤ m := (mem_runSteps (List.mem_of_getLast? hl)).1
  have hs := runSteps_split a hlm
  have hnil : ((List.range' 1 (m - l)).filter fun j => isRecorded a (l + j)) = [] := by
    rw [List.filter_eq_nil_iff]
    intro j hj hr
    rw [List.mem_range'_1] at hj
    have : l + j ∈ runSteps a m := by
      rw [hs, List.mem_append]
      right
      exact List.mem_map.mpr ⟨j, List.mem_filter.mpr ⟨List.mem_range'_1.mpr hj, hr⟩, rfl⟩
    have := runSteps_le_last hl this
    omega
  rw [hs, hnil, List.map_nil, List.append_nil]

/-- the states of a run, and what it starts from -/
theorem run_good {Good : NS (Cell α) → Prop} (h1 : FreshRun E (a.until T1) σ hw ns steps1 m1 S)
    (hF : ArraySolver hw a.step_size a.dx a.grid_pts Good) (hattr : E.attrNum (.num a.dx) = a.dx)
    (hT : Trajectory hw a.step_size a.dx M S) :
    (∀ k ≤ M, Good (S k)) ∧ ∃ D O P Q : Arr α, a.plasma0 = fieldState D O P (FloatOps.ofInt 0) ∧
      S 0 = fieldState D O Q (FloatOps.ofInt 0) ∧ hw.get_phi (.arr O) a.dx = .ok (.arr Q) ∧
      (D.h = a.grid_pts ∧ D.w = a.grid_pts) ∧ (O.h = a.grid_pts ∧ O.w = a.grid_pts) ∧
      (P.h = a.grid_pts ∧ P.w = a.grid_pts) ∧ (Q.h = a.grid_pts ∧ Q.w = a.grid_pts) := by
  obtain ⟨phi0, hphi0, hS0⟩ := h1.start
  have hphi0 : hw.get_phi a.omega0 a.dx = .ok phi0 := by rw [← hattr]; exact hphi0
  obtain ⟨D0, d1, d2, d3⟩ := h1.init.fields "density" (by decide)
  obtain ⟨O0, o1, o2, o3⟩ := h1.init.fields "omega" (by decide)
  obtain ⟨P0, p1, p2, p3⟩ := h1.init.fields "phi" (by decide)
  have d1 : a.density0 = .arr D0 := Option.some.inj d1
  have o1 : a.omega0 = .arr O0 := Option.some.inj o1
  have p1 : a.phi0 = .arr P0 := Option.some.inj p1
  rw [o1] at hphi0
  obtain ⟨Q0, rfl, q2, q3⟩ := hF.get_phi _ _ ⟨o2, o3⟩ hphi0
  have hp : a.plasma0 = fieldState D0 O0 P0 (FloatOps.ofInt 0) := by
    unfold fieldState
    rw [← d1, ← o1, ← p1]
    rfl
  have hS0 : S 0 = fieldState D0 O0 Q0 (FloatOps.ofInt 0) := by
    rw [hS0]
    have : (a.until T1).plasma0 = fieldState D0 O0 P0 (FloatOps.ofInt 0) := hp
    rw [this]
    rfl
  refine ⟨?_, D0, O0, P0, Q0, hp, hS0, hphi0, ⟨d2, d3⟩, ⟨o2, o3⟩, ⟨p2, p3⟩, ⟨q2, q3⟩⟩
  intro k
  induction k with
  | zero => intro _; rw [hS0]; exact hF.init _ _ _ _ ⟨d2, d3⟩ ⟨o2, o3⟩ ⟨q2, q3⟩
  | succ k ih => exact fun hk => (hF.step _ _ _ (ih (by omega)) (ih (by omega)) (.refl _) (hT k (by omega))).1

theorem run_arrays_at {Good : NS (Cell α) → Prop} (h1 : FreshRun E (a.until T1) σ hw ns steps1 m1 S)
    (hF : ArraySolver hw a.step_size a.dx a.grid_pts Good) (hattr : E.attrNum (.num a.dx) = a.dx)
    (hT : Trajectory hw a.step_size a.dx M S) (hs : ∀ n, 1 ≤ n → n ≤ M → Shaped a.grid_pts (S n)) (hk : k ≤ M) :
    ∃ D O P Q : Arr α, (runState a S k).get? "density" = some (.arr D) ∧
      (runState a S k).get? "omega" = some (.arr O) ∧ (runState a S k).get? "phi" = some (.arr P) ∧
      (S k).get? "density" = some (.arr D) ∧ (S k).get? "omega" = some (.arr O) ∧ (S k).get? "phi" = some (.arr Q) ∧
      hw.get_phi (.arr O) a.dx = .ok (.arr Q) ∧
      (D.h = a.grid_pts ∧ D.w = a.grid_pts) ∧ (O.h = a.grid_pts ∧ O.w = a.grid_pts) ∧
      (P.h = a.grid_pts ∧ P.w = a.grid_pts) ∧ (Q.h = a.grid_pts ∧ Q.w = a.grid_pts) := by
  obtain ⟨hG, D0, O0, P0, Q0, e1, e2, e3, e4, e5, e6, e7⟩ := run_good h1 hF hattr hT
  cases k with
  | zero =>
    refine ⟨D0, O0, P0, Q0, ?_, ?_, ?_, ?_, ?_, ?_, e3, e4, e5, e6, e7⟩
    all_goals first | (rw [e2]; rfl) | (unfold runState; rw [if_pos rfl, e1]; rfl)
  | succ j =>
    have hrs : runState a S (j + 1) = S (j + 1) := if_neg (by omega)
    rw [hrs]
    have hsh := hs (j + 1) (by omega) hk
    obtain ⟨D, D1, D2, D3⟩ := hsh.fields "density" (by decide)
    obtain ⟨O, O1, O2, O3⟩ := hsh.fields "omega" (by decide)
    obtain ⟨q, r1, r2⟩ := hF.phi _ _ _ (hG j (by omega)) (hT j (by omega)) O1
    obtain ⟨Q, rfl, r3, r4⟩ := hF.get_phi _ _ ⟨O2, O3⟩ r1
    exact ⟨D, O, Q, Q, D1, O1, r2, D1, O1, r2, r1, ⟨D2, D3⟩, ⟨O2, O3⟩, ⟨r3, r4⟩, ⟨r3, r4⟩⟩

/-- the file of the first run and the continuing call -/
theorem run_resumed {Good : NS (Cell α) → Prop} (h : RunResumed E a σ hw ns steps1 m1 S T1 T2 k l M steps)
    (hF : ArraySolver hw a.step_size a.dx a.grid_pts Good) {m3 : ℕ} (hkM : k + m3 ≤ M)
    (hstop : StopsAfter E (fun j => S (k + j)) steps.toNat m3) :
    ∃ f d o p S', (run E (a.until T1) σ).2.fs a.output_path = some f ∧ (∀ k, f.attrs k = (runParams a ns).get? k) ∧
      (∀ key ∈ "time" :: fieldList, ∃ rows, f.dsets key = some (.rows (rowShape ns key) rows) ∧
        List.Forall₂ (fun it row => IsFrameRow E a.downsample_factor key (runStamp a it) (runState a S it) row)
          (runSteps a m1) rows) ∧
      ContinuedRun E (a.continued T2) (run E (a.until T1) σ).2 f hw ns d o p (Casts.f64 (Casts.f32 (runStamp a l) : β))
        a.physics steps m3 S' ∧
      ∀ j ≤ m3, SameArrays (S (k + j)) (S' j) := by
  obtain ⟨f, f1, -, -, fa, f2, f3⟩ := run_result h.first
  have fa : ∀ k, f.attrs k = (runParams a ns).get? k := fa
  have hfr : frames (a.until T1) S m1 = (runSteps a m1).map fun it => (runStamp a it, runState a S it) :=
    frames_steps (a.until T1) S m1
  have hlen : (frames (a.until T1) S m1).length = (runSteps a m1).length := by rw [hfr, List.length_map]
  have hrows : ∀ key ∈ "time" :: fieldList, ∃ rows, f.dsets key = some (.rows (rowShape ns key) rows) ∧
      List.Forall₂ (fun it row => IsFrameRow E a.downsample_factor key (runStamp a it) (runState a S it) row)
        (runSteps a m1) rows := by
    intro key hkey
    obtain ⟨rows, r1, r2⟩ := f2 key hkey fun hp => (h.names _ hp).1 hkey
    rw [hfr, List.forall₂_map_left_iff] at r2
    exact ⟨rows, r1, r2⟩
  obtain ⟨D, O, P, Q, r1, r2, r3, s1, s2, s3, s4, s5, s6, s7, s8⟩ :=
    run_arrays_at h.first hF h.dx h.traj h.shaped (k := k) (by omega)
  have hG := (run_good h.first hF h.dx h.traj).1
  have hst : ∀ key ∈ fieldList, ∀ A, (runState a S k).get? key = some (.arr A) →
      f.dsets ("state_" ++ key) = some (.full A) := by
    intro key hkey A hA
    obtain ⟨B, b1, -, b2⟩ := f3 h.stored key hkey fun hp => (h.names _ hp).2 key hkey rfl
    have := b2 (runStamp a k, runState a S k) (by rw [hlen]; exact h.buffer) (by
      rw [hlen, hfr, List.getElem?_map]
      exact congrArg (Option.map _) h.step)
    simp only at this
    rw [hA] at this
    rw [b1, Cell.arr.inj (Option.some.inj this)]
  have hload : ∀ key ∈ fieldList, ∀ A, (runState a S k).get? key = some (.arr A) → loadedValue f key = some (.arr A) := by
    intro key hkey A hA
    unfold loadedValue
    rw [hst key hkey A hA]
  set t0 : α := Casts.f64 (Casts.f32 (runStamp a l) : β) with ht0
  set s0 : NS (Cell α) := fieldState D O Q t0 with hs0
  have hsame : SameArrays (S k) s0 := by
    intro key hkey
    simp only [fieldList, List.mem_cons, List.not_mem_nil, or_false] at hkey
    rcases hkey with rfl | rfl | rfl
    · rw [s1]; rfl
    · rw [s2]; rfl
    · rw [s3]; rfl
  have hcs := resumedStates_spec hF (hF.init D O Q t0 s5 s6 s8) (M := m3) (p := k)
    (fun j hj => h.traj (k + j) (by omega)) (hG k (by omega)) hsame
  have hnanS : ∀ j ≤ m3, nanState E (resumedStates hw a.step_size a.dx s0 j) = nanState E (S (k + j)) := by
    intro j hj
    unfold nanState
    rw [(hcs j hj).2.2.1 "density" (by decide)]
  refine ⟨f, D, O, P, resumedStates hw a.step_size a.dx s0, f1, fa, hrows, ?_, fun j hj => (hcs j hj).2.2.1⟩
  refine { path := h.first.path, file := f1, keep := rfl, cont := rfl, buffer := h.first.buffer, snaps := h.first.snaps,
           saves := h.first.saves, output := ?_, density := hload _ (by decide) _ r1, omega := hload _ (by decide) _ r2,
           phi := hload _ (by decide) _ r3, time := ?_, restored := restore_runParams ns f.attrs fa, noNaN := ?_,
           nonzero := ⟨h.nonzero _ (by simp) _ r1, h.nonzero _ (by simp) _ r2⟩, solver := h.first.solver, start := ?_,
           count := h.count, traj := ?_, shaped := ?_, stops := ?_ }
  · refine ⟨fun key hkey => ?_, fun _ key hkey => ?_⟩
    · obtain ⟨rows, q1, -⟩ := hrows key hkey
      exact ⟨rows, q1⟩
    · simp only [fieldList, List.mem_cons, List.not_mem_nil, or_false] at hkey
      rcases hkey with rfl | rfl | rfl
      · exact ⟨D, hst _ (by decide) _ r1, s5⟩
      · exact ⟨O, hst _ (by decide) _ r2, s6⟩
      · exact ⟨P, hst _ (by decide) _ r3, s7⟩
  · obtain ⟨rows, q1, q2⟩ := hrows "time" (by simp)
    obtain ⟨row, q3, q4⟩ := forall₂_last q2 h.last
    unfold IsFrameRow at q4
    rw [if_pos rfl] at q4
    exact ⟨rows, _, q1, by rw [q3, q4], rfl⟩
  · exact ⟨h.noNaN.2 _ (by decide) _ r1, h.noNaN.2 _ (by decide) _ r2, h.noNaN.2 _ (by decide) _ r3, h.noNaN.1⟩
  · refine ⟨.arr Q, .num a.dx, rfl, ?_, rfl⟩
    rw [h.dx]; exact s4
  · intro j hj
    exact (hcs j hj.le).2.2.2 hj
  · intro j j1 hj
    exact shaped_same (h.shaped (k + j) (by omega) (by omega)) (hcs j hj).2.2.1 (hF.nodup _ (hcs j hj).2.1)
  · refine ⟨fun j j1 j2 => ?_, ?_⟩
    · rw [hnanS j (by omega)]
      exact hstop.before j j1 j2
    · rcases hstop.stop with h | ⟨i1, i2, i3⟩
      · exact .inl h
      · exact .inr ⟨i1, i2, by rw [hnanS _ le_rfl]; exact i3⟩

end Verif
