import Verif.Spec.BitContinue
import Verif.Lemmas.Run2Chain

/-!
# Continuing a file, whatever the arithmetic
-/

set_option linter.unusedSectionVars false

namespace Verif

open H5IO H5 Run Run2 Props

variable {α β : Type} [Casts α β] [Zero α] [Inhabited α] [Inhabited β] [FloatOps α]
variable {E : Env2 α β} {a : Args2 α} {σ : St α β} {hw : Solver α} {ns m m1 k l M : ℕ} {S : ℕ → NS (Cell α)} {T1 T2 : α}

theorem SameArrays.refl (s : NS (Cell α)) : SameArrays s s := fun _ _ => rfl

theorem frames2_steps (E : Env2 α β) (a : Args2 α) (S : ℕ → NS (Cell α)) (m : ℕ) :
    frames2 E a S m = (frameSteps E a m).map fun it =>
      (timeAt E a (FloatOps.ofInt 0) it, recordedState a S it) := by
  unfold frames2 frameSteps
  rw [List.map_append]
  congr 1
  · split <;> rfl
  · unfold stepFrames2
    refine List.map_congr_left fun it hit => ?_
    rw [List.mem_filter, List.mem_range'_1] at hit
    unfold recordedState
    rw [if_neg (by omega)]

theorem frameSteps_length (E : Env2 α β) (a : Args2 α) (S : ℕ → NS (Cell α)) (m : ℕ) :
    (frames2 E a S m).length = (frameSteps E a m).length := by rw [frames2_steps, List.length_map]

theorem mem_frameSteps {it : ℕ} (h : it ∈ frameSteps E a m) :
    it ≤ m ∧ (it ≠ 0 → isRecorded2 E a (FloatOps.ofInt 0) it = true) ∧
      (it = 0 → FloatOps.eq a.recording_start_time (FloatOps.ofInt 0 : α) = true) := by
  unfold frameSteps at h
  rw [List.mem_append] at h
  rcases h with h | h
  · split at h
    · next h0 =>
      rw [List.mem_singleton] at h
      subst h
      exact ⟨by omega, fun h => absurd rfl h, fun _ => h0⟩
    · cases h
  · rw [List.mem_filter, List.mem_range'_1] at h
    exact ⟨by omega, fun _ => h.2, fun h0 => by omega⟩

theorem frameSteps_sorted (E : Env2 α β) (a : Args2 α) (m : ℕ) : (frameSteps E a m).Pairwise (· < ·) := by
  unfold frameSteps
  rw [List.pairwise_append]
  refine ⟨by split <;> simp, List.Pairwise.filter _ (List.pairwise_lt_range' (s := 1) (n := m)), ?_⟩
  intro x hx y hy
  rw [List.mem_filter, List.mem_range'_1] at hy
  split at hx
  · rw [List.mem_singleton] at hx
    omega
  · cases hx

/-- the recorded steps up to step `k` and those after it -/
theorem frameSteps_split (E : Env2 α β) (a : Args2 α) (h : k ≤ m) :
    frameSteps E a m = frameSteps E a k ++
      ((List.range' 1 (m - k)).filter fun j => isRecorded2 E a (FloatOps.ofInt 0) (k + j)).map (k + ·) := by
  unfold frameSteps
  rw [range_split k m h, List.filter_append, List.filter_map, List.append_assoc]
  rfl

/-- a recorded step is the last of the recorded steps up to it -/
theorem frameSteps_getLast (h : k ∈ frameSteps E a m) : (frameSteps E a k).getLast? = some k := by
  obtain ⟨-, h2, h3⟩ := mem_frameSteps h
  unfold frameSteps
  cases k with
  | zero => rw [h3 rfl]; rfl
  | succ n =>
    rw [List.range'_1_concat, List.filter_append, ← List.append_assoc, List.getLast?_append]
    have := h2 (by omega)
    simp [Nat.add_comm 1 n, this]

theorem frameSteps_index {i : ℕ} (h : (frameSteps E a m)[i]? = some k) : (frameSteps E a k).length = i + 1 := by
  have hk : k ∈ frameSteps E a m := List.mem_of_getElem? h
  have hl := frameSteps_getLast hk
  have hkm := (mem_frameSteps hk).1
  have hne : (frameSteps E a k) ≠ [] := by intro e; rw [e] at hl; cases hl
  have hpos := List.length_pos_iff.mpr hne
  rw [List.getLast?_eq_getElem?] at hl
  have h2 : (frameSteps E a m)[(frameSteps E a k).length - 1]? = some k := by
    rw [frameSteps_split E a hkm, List.getElem?_append_left (by omega)]
    exact hl
  have hnd : (frameSteps E a m).Nodup := (frameSteps_sorted E a m).imp fun h => Nat.ne_of_lt h
  obtain ⟨h3, h4⟩ := List.getElem?_eq_some_iff.mp h
  obtain ⟨h5, h6⟩ := List.getElem?_eq_some_iff.mp h2
  have := (hnd.getElem_inj_iff (hi := h3) (hj := h5)).mp (h4.trans h6.symm)
  omega

theorem forall₂_getElem {X R : Type} {P : X → R → Prop} {xs : List X} {rs : List R} (h : List.Forall₂ P xs rs) {i : ℕ} {x : X}
    (hx : xs[i]? = some x) : ∃ r, rs[i]? = some r ∧ P x r := by
  obtain ⟨hlt, e⟩ := List.getElem?_eq_some_iff.mp hx
  rw [List.forall₂_iff_get] at h
  have hlt' : i < rs.length := by rw [← h.1]; exact hlt
  have := h.2 _ hlt hlt'
  simp only [List.get_eq_getElem, e] at this
  exact ⟨_, List.getElem?_eq_getElem hlt', this⟩

/-- the states of the continuation -/
def resumedStates (hw : Solver α) (dt dx : α) (s0 : NS (Cell α)) : ℕ → NS (Cell α)
  | 0 => s0
  | n + 1 => match hw.rk4_step (resumedStates hw dt dx s0 n) dt dx with
    | .ok r => r
    | .error _ => s0

theorem resumedStates_spec {Good : NS (Cell α) → Prop} {dt dx : α} {n : ℕ} (hF : ArraySolver hw dt dx n Good)
    {s0 : NS (Cell α)} (h0 : Good s0) {M p : ℕ} (hT : ∀ k < M, hw.rk4_step (S (p + k)) dt dx = .ok (S (p + k + 1)))
    (hS : Good (S p)) (hs : SameArrays (S p) s0) :
    ∀ k ≤ M, Good (S (p + k)) ∧ Good (resumedStates hw dt dx s0 k) ∧ SameArrays (S (p + k)) (resumedStates hw dt dx s0 k) ∧
      (k < M → hw.rk4_step (resumedStates hw dt dx s0 k) dt dx = .ok (resumedStates hw dt dx s0 (k + 1))) := by
  have key : ∀ k, Good (S (p + k)) → Good (resumedStates hw dt dx s0 k) → SameArrays (S (p + k)) (resumedStates hw dt dx s0 k) →
      k < M → Good (S (p + (k + 1))) ∧ Good (resumedStates hw dt dx s0 (k + 1)) ∧
        SameArrays (S (p + (k + 1))) (resumedStates hw dt dx s0 (k + 1)) ∧
        hw.rk4_step (resumedStates hw dt dx s0 k) dt dx = .ok (resumedStates hw dt dx s0 (k + 1)) := by
    intro k g1 g2 g3 hk
    obtain ⟨q1, r', q2, q3, q4⟩ := hF.step _ _ _ g1 g2 g3 (hT k hk)
    have e : resumedStates hw dt dx s0 (k + 1) = r' := by
      rw [resumedStates, q2]
    rw [e]
    exact ⟨q1, q3, q4, q2⟩
  intro k
  induction k with
  | zero => exact fun hk => ⟨hS, h0, hs, fun h => (key 0 hS h0 hs h).2.2.2⟩
  | succ k ih =>
    intro hk
    obtain ⟨g1, g2, g3, g4⟩ := ih (by omega)
    obtain ⟨q1, q2, q3, -⟩ := key k g1 g2 g3 (by omega)
    exact ⟨q1, q2, q3, fun h => (key (k + 1) q1 q2 q3 h).2.2.2⟩

/-- the state before the first step, and those after it -/
theorem fresh_good {Good : NS (Cell α) → Prop} (h1 : FreshCall2 E (a.until T1) σ hw ns S)
    (hF : ArraySolver hw a.step_size a.dx a.grid_pts Good) (hattr : E.attrNum (.num a.dx) = a.dx)
    (hT : Trajectory hw a.step_size a.dx M S) :
    (∀ k ≤ M, Good (S k)) ∧ ∃ D O P Q : Arr α, a.plasma0 = fieldState D O P (FloatOps.ofInt 0) ∧
      S 0 = fieldState D O Q (FloatOps.ofInt 0) ∧ hw.get_phi (.arr O) a.dx = .ok (.arr Q) ∧
      (D.h = a.grid_pts ∧ D.w = a.grid_pts) ∧ (O.h = a.grid_pts ∧ O.w = a.grid_pts) ∧
      (P.h = a.grid_pts ∧ P.w = a.grid_pts) ∧ (Q.h = a.grid_pts ∧ Q.w = a.grid_pts) := by
  obtain ⟨phi0, hphi0, hS0⟩ := h1.start
  have hphi0 : hw.get_phi a.omega0 a.dx = .ok phi0 := by rw [← hattr]; exact hphi0
  obtain ⟨D0, d1, d2, d3⟩ := h1.init.fields "density" (by decide)
  obtain ⟨O0, o1, o2, o3⟩ := h1.init.fields "omega" (by decide)
  obtain ⟨P0, p1, p2, p3⟩ := h1.init.fields "phi" (by decide)
  have d1 : a.density0 = .arr D0 := Option.some.inj d1
  have o1 : a.omega0 = .arr O0 := Option.some.inj o1
  have p1 : a.phi0 = .arr P0 := Option.some.inj p1
  rw [o1] at hphi0
  obtain ⟨Q0, rfl, q2, q3⟩ := hF.get_phi _ _ ⟨o2, o3⟩ hphi0
  have hp : a.plasma0 = fieldState D0 O0 P0 (FloatOps.ofInt 0) := by
    unfold fieldState
    rw [← d1, ← o1, ← p1]
    rfl
  have hS0 : S 0 = fieldState D0 O0 Q0 (FloatOps.ofInt 0) := by
    rw [hS0]
    have : (a.until T1).plasma0 = fieldState D0 O0 P0 (FloatOps.ofInt 0) := hp
    rw [this]
    rfl
  refine ⟨?_, D0, O0, P0, Q0, hp, hS0, hphi0, ⟨d2, d3⟩, ⟨o2, o3⟩, ⟨p2, p3⟩, ⟨q2, q3⟩⟩
  intro k
  induction k with
  | zero => intro _; rw [hS0]; exact hF.init _ _ _ _ ⟨d2, d3⟩ ⟨o2, o3⟩ ⟨q2, q3⟩
  | succ k ih => exact fun hk => (hF.step _ _ _ (ih (by omega)) (ih (by omega)) (.refl _) (hT k (by omega))).1

/-- the arrays of the state `S k`, its potential being that of its vorticity -/
theorem arrays_at {Good : NS (Cell α) → Prop} (h1 : FreshCall2 E (a.until T1) σ hw ns S)
    (hF : ArraySolver hw a.step_size a.dx a.grid_pts Good) (hattr : E.attrNum (.num a.dx) = a.dx)
    (hT : Trajectory hw a.step_size a.dx M S) (hs : ∀ n, 1 ≤ n → n ≤ M → Shaped a.grid_pts (S n)) (hk : k ≤ M) :
    ∃ D O P Q : Arr α, (recordedState a S k).get? "density" = some (.arr D) ∧
      (recordedState a S k).get? "omega" = some (.arr O) ∧ (recordedState a S k).get? "phi" = some (.arr P) ∧
      (S k).get? "density" = some (.arr D) ∧ (S k).get? "omega" = some (.arr O) ∧ (S k).get? "phi" = some (.arr Q) ∧
      hw.get_phi (.arr O) a.dx = .ok (.arr Q) ∧
      (D.h = a.grid_pts ∧ D.w = a.grid_pts) ∧ (O.h = a.grid_pts ∧ O.w = a.grid_pts) ∧
      (Q.h = a.grid_pts ∧ Q.w = a.grid_pts) := by
  obtain ⟨hG, D0, O0, P0, Q0, e1, e2, e3, e4, e5, e6, e7⟩ := fresh_good h1 hF hattr hT
  cases k with
  | zero =>
    refine ⟨D0, O0, P0, Q0, ?_, ?_, ?_, ?_, ?_, ?_, e3, e4, e5, e7⟩
    all_goals first | (rw [e2]; rfl) | (unfold recordedState; rw [if_pos rfl, e1]; rfl)
  | succ j =>
    have hrs : recordedState a S (j + 1) = S (j + 1) := if_neg (by omega)
    rw [hrs]
    have hsh := hs (j + 1) (by omega) hk
    obtain ⟨D, D1, D2, D3⟩ := hsh.fields "density" (by decide)
    obtain ⟨O, O1, O2, O3⟩ := hsh.fields "omega" (by decide)
    obtain ⟨q, r1, r2⟩ := hF.phi _ _ _ (hG j (by omega)) (hT j (by omega)) O1
    obtain ⟨Q, rfl, r3, r4⟩ := hF.get_phi _ _ ⟨O2, O3⟩ r1
    exact ⟨D, O, Q, Q, D1, O1, r2, D1, O1, r2, r1, ⟨D2, D3⟩, ⟨O2, O3⟩, ⟨r3, r4⟩⟩

theorem shaped_same {n : ℕ} {s s' : NS (Cell α)} (h : Shaped n s) (hs : SameArrays s s') (hn : s'.keys.Nodup) :
    Shaped n s' where
  nodup := hn
  fields key hkey := by rw [← hs key hkey]; exact h.fields key hkey

/-- the file of the first run and the continuing call -/
theorem resumed_run {Good : NS (Cell α) → Prop} (h : Resumed E a σ hw ns m1 S T1 T2 k l M)
    (hF : ArraySolver hw a.step_size a.dx a.grid_pts Good) {m3 : ℕ} (hkM : k + m3 ≤ M) 
    (hstop : StopsAfter2 E (a.continued T2) (restartTime E a l) (fun j => S (k + j)) m3) {fuel1 : ℕ} (hfuel : m1 < fuel1) :
    ∃ f d o p S', (run2 E (a.until T1) fuel1 σ).2.fs a.output_path = some f ∧
      FileOf E a ns (frames2 E (a.until T1) S m1) f ∧
      ContinuedRun2 E (a.continued T2) (run2 E (a.until T1) fuel1 σ).2 f hw ns d o p (restartTime E a l)
        a.toArgs.physics m3 S' ∧
      ∀ j ≤ m3, SameArrays (S (k + j)) (S' j) := by
  obtain ⟨f, f1, -, -, -, fa, f2, f3, f4⟩ := run2_result h.first hfuel
  have hflush : FloatOps.lt (a.until T1).recording_start_time (timeAt E (a.until T1) (FloatOps.ofInt 0) m1) = true := h.flush
  unfold written2 flushes2 at f2 f3
  simp only [hflush, if_true] at f2 f3
  have hp := h.names
  have hfile : FileOf E a ns (frames2 E (a.until T1) S m1) f :=
    ⟨fa, fun k hk => f2 k hk fun h => (hp _ h).1 hk,
    fun name hn => f3 name hn fun h => (hp _ h).2.1 _ rfl,
    fun hst k hk => f4 hst k hk fun h => (hp _ h).2.2 k hk rfl,
    fun hst k hk => run2_noState h.first hfuel hst f1 hk fun h => (hp _ h).2.2 k hk rfl⟩
  have hfr : frames2 E (a.until T1) S m1 = (frameSteps E a m1).map fun it =>
      (timeAt E a (FloatOps.ofInt 0) it, recordedState a S it) := frames2_steps E (a.until T1) S m1
  have hlen : (frames2 E (a.until T1) S m1).length = (frameSteps E a m1).length := by rw [hfr, List.length_map]
  obtain ⟨D, O, P, Q, r1, r2, r3, s1, s2, s3, s4, s5, s6, s7⟩ :=
    arrays_at h.first.toFreshCall2 hF h.dx h.traj h.shaped (k := k) (by omega)
  have hG := (fresh_good h.first.toFreshCall2 hF h.dx h.traj).1
  have hload : ∀ key ∈ fieldList, ∀ A, (recordedState a S k).get? key = some (.arr A) → loadedValue f key = some (.arr A) := by
    intro key hkey A hA
    obtain ⟨B, b1, -, -, -, b2⟩ := hfile.states h.stored key hkey
    have := b2 (timeAt E a (FloatOps.ofInt 0) k, recordedState a S k) (by rw [hlen]; exact h.buffer) (by
      rw [hlen, hfr, List.getElem?_map, h.step]
      rfl)
    simp only at this
    rw [hA] at this
    unfold loadedValue
    rw [b1, Cell.arr.inj (Option.some.inj this)]
  set s0 : NS (Cell α) := fieldState D O Q (restartTime E a l) with hs0
  have hsame : SameArrays (S k) s0 := by
    intro key hkey
    simp only [fieldList, List.mem_cons, List.not_mem_nil, or_false] at hkey
    rcases hkey with rfl | rfl | rfl
    · rw [s1]; rfl
    · rw [s2]; rfl
    · rw [s3]; rfl
  have hcs := resumedStates_spec hF (hF.init D O Q (restartTime E a l) s5 s6 s7) (M := m3) (p := k)
    (fun j hj => h.traj (k + j) (by omega)) (hG k (by omega)) hsame
  have hnanS : ∀ j ≤ m3, nanState E.toEnv (resumedStates hw a.step_size a.dx s0 j) = nanState E.toEnv (S (k + j)) := by
    intro j hj
    unfold nanState
    rw [(hcs j hj).2.2.1 "density" (by decide)]
  refine ⟨f, D, O, P, resumedStates hw a.step_size a.dx s0, f1, hfile, ?_, fun j hj => (hcs j hj).2.2.1⟩
  refine { path := h.first.path, file := f1, keep := rfl, cont := rfl, buffer := h.first.buffer, snaps := h.first.snaps,
           early := h.early, saves := h.first.saves, nodup := h.first.nodup, props := h.first.props, output := ?_,
           propRows := ?_,
           density := hload _ (by decide) _ r1, omega := hload _ (by decide) _ r2, phi := hload _ (by decide) _ r3,
           time := ?_, restored := restored_physics (a := a.until T1) ns fa, notNaN := ?_, nonzero := ?_,
           solver := h.solver, start := ?_, traj := ?_, shaped := ?_, stops := ?_ }
  · refine ⟨fun key hkey => ?_, fun hst key hkey => ?_⟩
    · obtain ⟨r, r1, -⟩ := hfile.rows key hkey
      exact ⟨r, r1⟩
    · obtain ⟨A, a1, a2, a3, -⟩ := hfile.states hst key hkey
      exact ⟨A, a1, a2, a3⟩
  · obtain ⟨r, r1, r2⟩ := hfile.rows "time" (by simp)
    have hlast : (frames2 E (a.until T1) S m1).getLast? = some (timeAt E a (FloatOps.ofInt 0) l, recordedState a S l) := by
      rw [hfr, List.getLast?_map, h.last]
      rfl
    obtain ⟨row, q1, q2⟩ := forall₂_last r2 hlast
    unfold IsFrameRow at q2
    rw [if_pos rfl] at q2
    exact ⟨r, _, r1, by rw [q1, q2], rfl⟩
  · exact ⟨h.noNaN.2 _ (by decide) _ r1, h.noNaN.2 _ (by decide) _ r2, h.noNaN.2 _ (by decide) _ r3, h.noNaN.1⟩
  · exact ⟨h.nonzero _ (by simp) _ r1, h.nonzero _ (by simp) _ r2⟩
  · refine ⟨.arr Q, .num a.dx, rfl, ?_, rfl⟩
    rw [h.dx]; exact s4
  · intro j hj
    exact (hcs j hj.le).2.2.2 hj
  · intro j j1 hj
    exact shaped_same (h.shaped (k + j) (by omega) (by omega)) (hcs j hj).2.2.1 (hF.nodup _ (hcs j hj).2.1)
  · refine ⟨hstop.before, fun j j1 j2 hr => ?_, ?_⟩
    · rw [hnanS j (by omega)]
      exact hstop.noNaN j j1 j2 hr
    · rcases hstop.stop with h | ⟨i1, i2, i3⟩
      · exact .inl h
      · exact .inr ⟨i1, i2, by rw [hnanS _ le_rfl]; exact i3⟩
  · intro name hname
    obtain ⟨r, r1, -⟩ := hfile.props name hname
    exact ⟨r, r1⟩

/-! ### rows -/

theorem fieldRow_unique {E : Env α β} {factor : α} {key : String} (hkey : key ∈ fieldList) {t t' : α}
    {s s' : NS (Cell α)} (h : SameArrays s s') {r r' : Cell β} (h1 : IsFrameRow E factor key t s r)
    (h2 : IsFrameRow E factor key t' s' r') : r = r' := by
  unfold IsFrameRow at h1 h2
  have hne : key ≠ "time" := by rintro rfl; revert hkey; decide
  rw [if_neg hne] at h1 h2
  obtain ⟨A, B, a1, a2, rfl⟩ := h1
  obtain ⟨A', B', b1, b2, rfl⟩ := h2
  rw [h key hkey, b1] at a1
  cases a1
  rw [b2] at a2
  cases a2
  rfl

theorem timeRow {E : Env α β} {factor t : α} {s : NS (Cell α)} {r : Cell β} (h : IsFrameRow E factor "time" t s r) :
    r = .num (Casts.f32 t) := by
  unfold IsFrameRow at h
  rw [if_pos rfl] at h
  exact h

theorem forall₂_cut {X R : Type} {P : X → R → Prop} {xs ys : List X} {rs : List R} (h : List.Forall₂ P (xs ++ ys) rs) :
    ∃ r1 r2, rs = r1 ++ r2 ∧ List.Forall₂ P ys r2 := by
  induction xs generalizing rs with
  | nil => exact ⟨[], rs, rfl, h⟩
  | cons x xs ih =>
    rw [List.cons_append, List.forall₂_cons_left_iff] at h
    obtain ⟨r, rs', -, h2, rfl⟩ := h
    obtain ⟨r1, r2, rfl, h3⟩ := ih h2
    exact ⟨r :: r1, r2, rfl, h3⟩

theorem forall₂_cut' {X R : Type} {P : X → R → Prop} {xs ys : List X} {rs : List R} (h : List.Forall₂ P (xs ++ ys) rs) :
    ∃ r1 r2, rs = r1 ++ r2 ∧ List.Forall₂ P xs r1 := by
  induction xs generalizing rs with
  | nil => exact ⟨[], rs, rfl, .nil⟩
  | cons x xs ih =>
    rw [List.cons_append, List.forall₂_cons_left_iff] at h
    obtain ⟨r, rs', h1, h2, rfl⟩ := h
    obtain ⟨r1, r2, rfl, h3⟩ := ih h2
    exact ⟨r :: r1, r2, rfl, .cons h1 h3⟩

theorem frameRow_same {E : Env α β} {factor : α} {key : String} (hkey : key ∈ "time" :: fieldList) {t : α}
    {s s' : NS (Cell α)} (h : SameArrays s s') {r : Cell β} (h1 : IsFrameRow E factor key t s r) :
    IsFrameRow E factor key t s' r := by
  unfold IsFrameRow at h1 ⊢
  by_cases hkt : key = "time"
  · rw [if_pos hkt] at h1 ⊢
    exact h1
  · rw [if_neg hkt] at h1 ⊢
    obtain ⟨A, B, a1, a2, a3⟩ := h1
    exact ⟨A, B, by rw [← h key (List.mem_of_ne_of_mem hkt hkey), a1], a2, a3⟩

theorem propValue_same {name : String} {s s' : NS (Cell α)} (h : SameArrays s s') {x : α}
    (h1 : IsPropValue E a name s x) : IsPropValue E a name s' x := by
  obtain ⟨F, n, p, o, a1, a2, a3, a4, a5⟩ := h1
  exact ⟨F, n, p, o, a1, by rw [← h _ (by decide), a2], by rw [← h _ (by decide), a3],
    by rw [← h _ (by decide), a4], a5⟩

theorem propValue_det {name : String} {s s' : NS (Cell α)} (h : SameArrays s s') {x x' : α}
    (h1 : IsPropValue E a name s x) (h2 : IsPropValue E a name s' x') : x = x' := by
  obtain ⟨F, n, p, o, a1, a2, a3, a4, a5⟩ := propValue_same h h1
  obtain ⟨F', n', p', o', b1, b2, b3, b4, b5⟩ := h2
  rw [b1] at a1
  rw [b2] at a2
  rw [b3] at a3
  rw [b4] at a4
  cases a1; cases a2; cases a3; cases a4
  rw [b5] at a5
  cases a5
  rfl

theorem written2_forall₂ {fr fr' : List (α × NS (Cell α))} {R : α × NS (Cell α) → α × NS (Cell α) → Prop} (t : α)
    (h : List.Forall₂ R fr fr') : List.Forall₂ R (written2 a t fr) (written2 a t fr') := by
  unfold written2
  split
  · exact h
  · rw [h.length_eq]
    exact List.forall₂_take _ h

theorem stepFrames2_same {S' : ℕ → NS (Cell α)} {t0 : α} {m3 : ℕ} (h : ∀ j ≤ m3, SameArrays (S (k + j)) (S' j)) :
    List.Forall₂ (fun x y : α × NS (Cell α) => x.1 = y.1 ∧ SameArrays y.2 x.2) (stepFrames2 E a t0 S' m3)
      (stepFrames2 E a t0 (fun j => S (k + j)) m3) := by
  unfold stepFrames2
  rw [List.forall₂_map_left_iff, List.forall₂_map_right_iff, List.forall₂_same]
  intro j hj
  rw [List.mem_filter, List.mem_range'_1] at hj
  exact ⟨rfl, h j (by omega)⟩

end Verif
