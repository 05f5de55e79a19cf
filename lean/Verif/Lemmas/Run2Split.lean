import Verif.Spec.Run2Split
import Verif.Lemmas.Run2File
import Verif.Props.Run2

/-!
# Splitting a run of `run2` in two
-/

set_option linter.unusedSectionVars false

namespace Verif

open H5IO H5 Run Run2 Props

theorem SameFields.refl {α : Type} (s : NS (Cell α)) : SameFields s s := fun _ _ => rfl

theorem rows_unique {X Y R : Type} {P : X → R → Prop} {Q : Y → R → Prop} {xs : List X} {ys : List Y} {rs rs' : List R}
    (h1 : List.Forall₂ P xs rs) (h2 : List.Forall₂ Q ys rs')
    (h : List.Forall₂ (fun x y => ∀ r r', P x r → Q y r' → r = r') xs ys) : rs = rs' := by
  induction h generalizing rs rs' with
  | nil =>
    rw [List.forall₂_nil_left_iff] at h1 h2
    rw [h1, h2]
  | cons hh _ ih =>
    rw [List.forall₂_cons_left_iff] at h1 h2
    obtain ⟨r, l, p, q, rfl⟩ := h1
    obtain ⟨r', l', p', q', rfl⟩ := h2
    rw [hh _ _ p p', ih q q']

section lawfree

variable {α β : Type} [Casts α β] [Zero α] [Inhabited α] [Inhabited β] [FloatOps α]

theorem frameRow_unique {E : Env α β} {factor : α} {k : String} (hk : k ∈ ["time", "density", "omega", "phi"]) {t t' : α}
    (ht : t = t') {s s' : NS (Cell α)} (h : SameFields s s') {r r' : Cell β} (h1 : IsFrameRow E factor k t s r)
    (h2 : IsFrameRow E factor k t' s' r') : r = r' := by
  unfold IsFrameRow at h1 h2
  by_cases hkt : k = "time"
  · rw [if_pos hkt] at h1 h2
    rw [h1, h2, ht]
  · rw [if_neg hkt] at h1 h2
    obtain ⟨A, B, a1, a2, rfl⟩ := h1
    obtain ⟨A', B', b1, b2, rfl⟩ := h2
    have hk' : k ∈ ["density", "omega", "phi", "age"] := by
      simp only [List.mem_cons, List.not_mem_nil, or_false] at hk ⊢
      tauto
    rw [h k hk', b1] at a1
    cases a1
    rw [b2] at a2
    cases a2
    rfl

theorem propValue_unique {E : Env2 α β} {a : Args2 α} {name : String} {s s' : NS (Cell α)} (h : SameFields s s')
    {x x' : α} (h1 : IsPropValue E a name s x) (h2 : IsPropValue E a name s' x') : x = x' := by
  obtain ⟨F, n, p, o, a1, a2, a3, a4, a5⟩ := h1
  obtain ⟨F', n', p', o', b1, b2, b3, b4, b5⟩ := h2
  rw [h _ (by simp), b2] at a2
  rw [h _ (by simp), b3] at a3
  rw [h _ (by simp), b4] at a4
  rw [b1] at a1
  cases a1; cases a2; cases a3; cases a4
  rw [b5] at a5
  cases a5
  rfl

/-- the last recorded step of a run, 0 if there is none -/
def lastRecorded (E : Env2 α β) (a : Args2 α) (t0 : α) (m : ℕ) : ℕ :=
  Nat.findGreatest (fun it => isRecorded2 E a t0 it = true) m

theorem lastRecorded_le (E : Env2 α β) (a : Args2 α) (t0 : α) (m : ℕ) : lastRecorded E a t0 m ≤ m :=
  Nat.findGreatest_le m

theorem lastRecorded_none {E : Env2 α β} {a : Args2 α} {t0 : α} {m it : ℕ} (h1 : lastRecorded E a t0 m < it)
    (h2 : it ≤ m) : isRecorded2 E a t0 it = false := by
  have := Nat.findGreatest_is_greatest (P := fun it => isRecorded2 E a t0 it = true) h1 h2
  simpa using this

theorem lastRecorded_spec {E : Env2 α β} {a : Args2 α} {t0 : α} {m : ℕ} (h : lastRecorded E a t0 m ≠ 0) :
    isRecorded2 E a t0 (lastRecorded E a t0 m) = true :=
  Nat.findGreatest_of_ne_zero (P := fun it => isRecorded2 E a t0 it = true) rfl h

theorem lastRecorded_dvd (E : Env2 α β) (a : Args2 α) (t0 : α) (m : ℕ) : a.snaps ∣ lastRecorded E a t0 m := by
  by_cases h : lastRecorded E a t0 m = 0
  · rw [h]; exact Nat.dvd_zero _
  · have := lastRecorded_spec h
    unfold isRecorded2 at this
    rw [Bool.and_eq_true] at this
    exact Nat.dvd_of_mod_eq_zero (by simpa using this.2)

theorem range_split (m n : ℕ) (h : m ≤ n) : List.range' 1 n = List.range' 1 m ++ (List.range' 1 (n - m)).map (m + ·) := by
  rw [List.map_add_range', Nat.add_comm m 1]
  conv_lhs => rw [← Nat.add_sub_cancel' h, ← List.range'_append_1]

/-- frames up to the last recorded step -/
theorem stepFrames2_last (E : Env2 α β) (a : Args2 α) (t0 : α) (S : ℕ → NS (Cell α)) (m : ℕ) :
    stepFrames2 E a t0 S m = stepFrames2 E a t0 S (lastRecorded E a t0 m) := by
  unfold stepFrames2
  rw [range_split _ m (lastRecorded_le E a t0 m), List.filter_append, List.map_append]
  have : ((List.range' 1 (m - lastRecorded E a t0 m)).map (lastRecorded E a t0 m + ·)).filter (isRecorded2 E a t0) = [] := by
    rw [List.filter_eq_nil_iff]
    intro it hit
    obtain ⟨j, hj, rfl⟩ := List.mem_map.mp hit
    rw [List.mem_range'_1] at hj
    rw [lastRecorded_none (m := m) (by omega) (by omega)]
    simp
  rw [this]
  simp

/-- the last frame -/
theorem frames2_last {E : Env2 α β} {a : Args2 α} {S : ℕ → NS (Cell α)} {m : ℕ} {t : α} {s : NS (Cell α)}
    (h : (frames2 E a S m).getLast? = some (t, s)) :
    t = timeAt E a (FloatOps.ofInt 0) (lastRecorded E a (FloatOps.ofInt 0) m) ∧
      s = if lastRecorded E a (FloatOps.ofInt 0) m = 0 then a.plasma0
        else S (lastRecorded E a (FloatOps.ofInt 0) m) := by
  unfold frames2 at h
  rw [stepFrames2_last] at h
  by_cases h0 : lastRecorded E a (FloatOps.ofInt 0) m = 0
  · rw [h0] at h
    simp only [h0, if_true]
    split at h
    · simp only [stepFrames2, List.range', List.filter_nil, List.map_nil, List.append_nil, List.getLast?_singleton,
        Option.some.injEq, Prod.mk.injEq] at h
      refine ⟨?_, h.2.symm⟩
      rw [← h.1]
      unfold timeAt
      rw [if_pos rfl]
    · simp [stepFrames2] at h
  · rw [if_neg h0]
    have hr := lastRecorded_spec h0
    have : stepFrames2 E a (FloatOps.ofInt 0) S (lastRecorded E a (FloatOps.ofInt 0) m)
        = stepFrames2 E a (FloatOps.ofInt 0) S (lastRecorded E a (FloatOps.ofInt 0) m - 1) ++
          [(timeAt E a (FloatOps.ofInt 0) (lastRecorded E a (FloatOps.ofInt 0) m),
            S (lastRecorded E a (FloatOps.ofInt 0) m))] := by
      obtain ⟨n, hn⟩ : ∃ n, lastRecorded E a (FloatOps.ofInt 0) m = n + 1 := ⟨_, (Nat.succ_pred h0).symm⟩
      rw [hn] at hr ⊢
      unfold stepFrames2
      rw [List.range'_1_concat, List.filter_append, List.map_append, Nat.add_sub_cancel]
      simp [Nat.add_comm 1 n, hr]
    rw [this, ← List.append_assoc, List.getLast?_append] at h
    simp only [List.getLast?_singleton, Option.some_or, Option.some.injEq, Prod.mk.injEq] at h
    exact ⟨h.1.symm, h.2.symm⟩

/-- the parameters a continuing call reads from a file written by `run2` -/
theorem restored_physics {a : Args2 α} (ns : ℕ) {attrs : String → Option (Attr α)}
    (fa : ∀ k, attrs k = (runParams2 a ns).get? k) : restoreParams attrs restoredKeys = .ok a.toArgs.physics := by
  have key : ∀ k v, a.physics2.get? k = some v → k ∈ restoredKeys → attrs k = some v := by
    intro k v hv hk
    rw [fa]
    unfold runParams2 get_save_params
    rw [← hv]
    simp only [restoredKeys, List.mem_cons, List.not_mem_nil, or_false] at hk
    simp only [NS.get?_set]
    rcases hk with rfl | rfl | rfl | rfl | rfl | rfl | rfl <;>
    · iterate 9 rw [if_neg (by decide)]
  simp only [restoredKeys, restoreParams]
  rw [key "dx" _ rfl (by decide), key "N" _ rfl (by decide), key "c1" _ rfl (by decide), key "nu" _ rfl (by decide),
    key "k0" _ rfl (by decide), key "poisson_bracket_coeff" _ rfl (by decide), key "kappa_coeff" _ rfl (by decide)]
  rfl

/-- `f` is a file of the call `a` with the frames `fr`: its parameters, one row
per frame in `time`, the fields and the properties, and in `state_*` (if wanted)
the fields of the last frame with which the buffer was full (zeros if there was none). -/
structure FileOf (E : Env2 α β) (a : Args2 α) (ns : ℕ)
    (fr : List (α × NS (Cell α))) (f : H5 α β) : Prop where
  attrs : ∀ k, f.attrs k = (runParams2 a ns).get? k
  rows : ∀ k ∈ "time" :: fieldList, ∃ rows, f.dsets k = some (.rows (rowShape ns k) rows) ∧
    List.Forall₂ (fun fr row => IsFrameRow E.toEnv a.downsample_factor k fr.1 fr.2 row) fr rows
  props : ∀ name ∈ a.properties, ∃ rows, f.dsets ("fullres_" ++ name) = some (.rows .one rows) ∧
    List.Forall₂ (fun fr row => ∃ x, IsPropValue E a name fr.2 x ∧ row = .num (Casts.f32 x)) fr rows
  states : a.saveState = true → ∀ k ∈ fieldList, ∃ A, f.dsets ("state_" ++ k) = some (.full A) ∧ A.h = a.grid_pts ∧ A.w = a.grid_pts ∧
    (fr.length < a.buffer_length → A = Arr.tab a.grid_pts a.grid_pts fun _ _ => 0) ∧
    ∀ x, a.buffer_length ≤ fr.length → fr[a.buffer_length * (fr.length / a.buffer_length) - 1]? = some x →
      x.2.get? k = some (.arr A)
  noStates : a.saveState = false → ∀ k ∈ fieldList, f.dsets ("state_" ++ k) = none

theorem forall₂_last {X R : Type} {P : X → R → Prop} {xs : List X} {rs : List R} (h : List.Forall₂ P xs rs) {x : X}
    (hx : xs.getLast? = some x) : ∃ r, rs.getLast? = some r ∧ P x r := by
  rw [List.getLast?_eq_getElem?] at hx
  obtain ⟨hlt, e⟩ := List.getElem?_eq_some_iff.mp hx
  rw [List.forall₂_iff_get] at h
  have hlt' : xs.length - 1 < rs.length := by rw [← h.1]; exact hlt
  have := h.2 _ hlt hlt'
  simp only [List.get_eq_getElem, e] at this
  refine ⟨_, ?_, this⟩
  exact (by rw [List.getLast?_eq_getElem?, ← h.1] : rs.getLast? = rs[xs.length - 1]?).trans
    (List.getElem?_eq_getElem hlt')

end lawfree

/-! ### exact arithmetic -/

section exact

attribute [local instance] exactOps

variable {K β : Type} [Field K] [LinearOrder K] [IsStrictOrderedRing K] [FloorRing K] [Casts K β] [Inhabited K]
  [Inhabited β]
variable {E : Env2 K β} {a : Args2 K} {σ : St K β} {hw : Solver K} {ns m m1 m2 : ℕ} {S : ℕ → NS (Cell K)}

/-- the states of the continuation -/
def contStates (hw : Solver K) (dt dx : K) (s0 : NS (Cell K)) : ℕ → NS (Cell K)
  | 0 => s0
  | n + 1 => match hw.rk4_step (contStates hw dt dx s0 n) dt dx with
    | .ok r => r
    | .error _ => s0

theorem contStates_spec {Good : NS (Cell K) → Prop} {dt dx : K} {n : ℕ} (hF : FieldSolver hw dt dx n Good)
    {s0 : NS (Cell K)} (h0 : Good s0) {M p : ℕ} (hT : ∀ k < M, hw.rk4_step (S (p + k)) dt dx = .ok (S (p + k + 1)))
    (hS : Good (S p)) (hs : SameFields (S p) s0) :
    ∀ k ≤ M, Good (S (p + k)) ∧ Good (contStates hw dt dx s0 k) ∧ SameFields (S (p + k)) (contStates hw dt dx s0 k) ∧
      (k < M → hw.rk4_step (contStates hw dt dx s0 k) dt dx = .ok (contStates hw dt dx s0 (k + 1))) := by
  have key : ∀ k, Good (S (p + k)) → Good (contStates hw dt dx s0 k) → SameFields (S (p + k)) (contStates hw dt dx s0 k) →
      k < M → Good (S (p + (k + 1))) ∧ Good (contStates hw dt dx s0 (k + 1)) ∧
        SameFields (S (p + (k + 1))) (contStates hw dt dx s0 (k + 1)) ∧
        hw.rk4_step (contStates hw dt dx s0 k) dt dx = .ok (contStates hw dt dx s0 (k + 1)) := by
    intro k g1 g2 g3 hk
    obtain ⟨q1, r', q2, q3, q4⟩ := hF.step _ _ _ g1 g2 g3 (hT k hk)
    have e : contStates hw dt dx s0 (k + 1) = r' := by
      rw [contStates, q2]
    rw [e]
    exact ⟨q1, q3, q4, q2⟩
  intro k
  induction k with
  | zero => exact fun hk => ⟨hS, h0, hs, fun h => (key 0 hS h0 hs h).2.2.2⟩
  | succ k ih =>
    intro hk
    obtain ⟨g1, g2, g3, g4⟩ := ih (by omega)
    obtain ⟨q1, q2, q3, -⟩ := key k g1 g2 g3 (by omega)
    exact ⟨q1, q2, q3, fun h => (key (k + 1) q1 q2 q3 h).2.2.2⟩

theorem steps_le {T1 T2 : K} (hT : T1 ≤ T2) (h1 : FreshRun2 E (a.until T1) σ hw ns m1 S)
    (h2 : FreshRun2 E (a.until T2) σ hw ns m2 S) : m1 ≤ m2 := by
  by_contra hlt
  rcases h2.stops.stop with h | ⟨h3, h4, h5⟩
  · have := h1.stops.before m2 (by omega)
    have ht : timeAt E (a.until T1) (FloatOps.ofInt 0) m2 = timeAt E (a.until T2) (FloatOps.ofInt 0) m2 := rfl
    rw [ht] at this
    exact of_decide_eq_false h (lt_of_lt_of_le (of_decide_eq_true this) hT)
  · have := h1.stops.noNaN m2 h3 (by omega) h4
    rw [h5] at this
    cases this

/-- the file of a run until `T1`, however it came about, can be continued -/
theorem continuation_from {σ' : St K β} {f : H5 K β} {T1 T2 : K} {t : K} {s : NS (Cell K)} {Good : NS (Cell K) → Prop}
    (h1 : FreshRun2 E (a.until T1) σ hw ns m1 S) (h2 : FreshRun2 E (a.until T2) σ hw ns m2 S) (hT : T1 ≤ T2)
    (hsum : a.adaptive_step_size = true → ∀ l, E.sum l = l.sum)
    (hF : FieldSolver hw a.step_size a.dx a.grid_pts Good)
    (hlast : (frames2 E (a.until T1) S m1).getLast? = some (t, s))
    (hL : a.saveState = true → a.buffer_length ∣ (frames2 E (a.until T1) S m1).length)
    (hrow : a.saveState = false → ∀ k ∈ fieldList, ∀ A, s.get? k = some (.arr A) →
      (A.map Casts.f32 : Arr β).map Casts.f64 = A)
    (hz : E.HW a.toArgs.physics = .ok hw)
    (hattr : E.attrNum (.num a.dx) = a.dx) (hf : Casts.f64 (Casts.f32 t : β) = t)
    (hnan : E.hasNaN (.num t) = false ∧ ∀ k ∈ fieldList, ∀ A, s.get? k = some (.arr A) → E.hasNaN (.arr A) = false)
    (hzero : ∀ k ∈ ["density", "omega"], ∀ A, s.get? k = some (.arr A) → E.allZero (.arr A) = false)
    (f1 : σ'.fs a.output_path = some f) (hfile : FileOf E a ns (frames2 E (a.until T1) S m1) f) :
    ∃ d o p S', ContinuedRun2 E (a.continued T2) σ' f hw ns d o p
        ((lastRecorded E a 0 m1 : ℕ) * a.step_size) a.toArgs.physics (m2 - lastRecorded E a 0 m1) S' ∧
      ∀ k ≤ m2 - lastRecorded E a 0 m1, 1 ≤ k → SameFields (S (lastRecorded E a 0 m1 + k)) (S' k) := by
  have hm := steps_le hT h1 h2
  have e0 : (FloatOps.ofInt 0 : K) = 0 := by simp [FloatOps.ofInt]
  have ht : ∀ (t0 : K) (it : ℕ), timeAt E a t0 it = t0 + it * a.step_size := fun t0 it => exact_timeAt hsum t0 it
  set m' := lastRecorded E a 0 m1 with hm'
  have hm1 : m' ≤ m1 := lastRecorded_le _ _ _ _
  obtain ⟨l1, l2⟩ := frames2_last hlast
  have el : lastRecorded E (a.until T1) (FloatOps.ofInt 0) m1 = m' := by rw [e0]; rfl
  rw [el] at l1 l2
  have l1 : t = m' * a.step_size := by
    rw [l1]
    refine (ht _ _).trans ?_
    rw [e0, zero_add]
  -- the states
  obtain ⟨phi0, hphi0, hS0⟩ := h1.start
  have hphi0 : hw.get_phi a.omega0 a.dx = .ok phi0 := by rw [← hattr]; exact hphi0
  obtain ⟨D0, d1, d2, d3⟩ := h1.init.fields "density" (by decide)
  obtain ⟨O0, o1, o2, o3⟩ := h1.init.fields "omega" (by decide)
  obtain ⟨P0, p1, p2, p3⟩ := h1.init.fields "phi" (by decide)
  have d1 : a.density0 = .arr D0 := Option.some.inj d1
  have o1 : a.omega0 = .arr O0 := Option.some.inj o1
  have p1 : a.phi0 = .arr P0 := Option.some.inj p1
  rw [o1] at hphi0
  obtain ⟨Q0, rfl, q2, q3⟩ := hF.get_phi _ _ ⟨o2, o3⟩ hphi0
  have hS0 : S 0 = fieldState D0 O0 Q0 0 := by
    rw [hS0]
    have : (a.until T1).plasma0 = fieldState D0 O0 P0 0 := by
      unfold fieldState
      rw [← d1, ← o1, ← p1, ← e0]
      rfl
    rw [this]
    rfl
  have hG0 : Good (S 0) := by rw [hS0]; exact hF.init _ _ _ _ ⟨d2, d3⟩ ⟨o2, o3⟩ ⟨q2, q3⟩
  have hG : ∀ k ≤ m2, Good (S k) ∧ (S k).get? "age" = some (.num (k * a.step_size)) := by
    intro k
    induction k with
    | zero =>
      intro _
      refine ⟨hG0, ?_⟩
      rw [hS0, Nat.cast_zero, zero_mul]
      rfl
    | succ k ih =>
      intro hk
      obtain ⟨g1, g2⟩ := ih (by omega)
      have hstep := h2.traj k (by omega)
      refine ⟨(hF.step _ _ _ g1 g1 (.refl _) hstep).1, ?_⟩
      rw [hF.age _ _ _ g1 g2 hstep]
      push_cast
      rw [add_mul, one_mul]
  -- the last state
  obtain ⟨D, D1, D2, D3⟩ := (hF.shaped _ (hG m' (by omega)).1).fields "density" (by decide)
  obtain ⟨O, O1, O2, O3⟩ := (hF.shaped _ (hG m' (by omega)).1).fields "omega" (by decide)
  have hphi : ∃ Q : Arr K, (S m').get? "phi" = some (.arr Q) ∧ hw.get_phi (.arr O) a.dx = .ok (.arr Q) ∧
      Q.h = a.grid_pts ∧ Q.w = a.grid_pts := by
    by_cases hm0 : m' = 0
    · rw [hm0, hS0] at O1 ⊢
      have : O0 = O := Cell.arr.inj (Option.some.inj O1)
      rw [← this]
      exact ⟨Q0, rfl, hphi0, q2, q3⟩
    · obtain ⟨j, hj⟩ := Nat.exists_eq_succ_of_ne_zero hm0
      have hstep := h2.traj j (by omega)
      rw [hj] at O1 ⊢
      obtain ⟨q, r1, r2⟩ := hF.phi _ _ _ (hG j (by omega)).1 hstep O1
      obtain ⟨Q, rfl, r3, r4⟩ := hF.get_phi _ _ ⟨O2, O3⟩ r1
      exact ⟨Q, r2, r1, r3, r4⟩
  obtain ⟨Q, Q1, Q2, Q3, Q4⟩ := hphi
  have hsD : s.get? "density" = some (.arr D) := by
    rw [l2]
    split
    · next h =>
      rw [h, hS0] at D1
      rw [← D1]
      exact congrArg some d1
    · exact D1
  have hsO : s.get? "omega" = some (.arr O) := by
    rw [l2]
    split
    · next h =>
      rw [h, hS0] at O1
      rw [← O1]
      exact congrArg some o1
    · exact O1
  have hsP : ∃ P, s.get? "phi" = some (.arr P) := by
    rw [l2]
    split
    · exact ⟨P0, congrArg some p1⟩
    · exact ⟨Q, Q1⟩
  obtain ⟨P, hsP⟩ := hsP
  -- the file
  obtain ⟨fa, f2, f3, f4, f5⟩ := hfile
  have hne : frames2 E (a.until T1) S m1 ≠ [] := by
    intro e; rw [e] at hlast; cases hlast
  have hpos : 0 < (frames2 E (a.until T1) S m1).length := List.length_pos_iff.mpr hne
  have hload : ∀ k ∈ fieldList, ∀ A, s.get? k = some (.arr A) → loadedValue f k = some (.arr A) := by
    intro k hk A hA
    cases hst : a.saveState with
    | true =>
      obtain ⟨B, b1, -, -, -, b2⟩ := f4 hst k hk
      have := b2 (t, s) (Nat.le_of_dvd hpos (hL hst)) (by
        have : a.buffer_length * ((frames2 E (a.until T1) S m1).length / a.buffer_length)
            = (frames2 E (a.until T1) S m1).length := Nat.mul_div_cancel' (hL hst)
        rw [this, ← List.getLast?_eq_getElem?]
        exact hlast)
      simp only at this
      rw [hA] at this
      have := Cell.arr.inj (Option.some.inj this)
      unfold loadedValue
      rw [b1, this]
    | false =>
      obtain ⟨r, r1, r2⟩ := f2 k (List.mem_cons_of_mem _ hk)
      obtain ⟨row, r3, r4⟩ := forall₂_last r2 hlast
      unfold IsFrameRow at r4
      rw [if_neg (fieldList_ne_time hk)] at r4
      obtain ⟨A', B, h3, h4, rfl⟩ := r4
      rw [hA] at h3
      have h3 := Cell.arr.inj (Option.some.inj h3)
      have hd : downsampling a.downsample_factor = false := by
        have := hst
        unfold Run.Args.saveState at this
        exact (Bool.or_eq_false_iff.mp this).2
      unfold recordedValue at h4
      rw [hd] at h4
      have h4 := Cell.arr.inj (Except.ok.inj h4)
      unfold loadedValue
      rw [f5 hst k hk, r1]
      simp only [r3]
      rw [← h4, ← h3, hrow hst k hk A hA]
  have hrest : restoreParams f.attrs restoredKeys = .ok a.toArgs.physics := restored_physics (a := a.until T1) ns fa
  set s0 : NS (Cell K) := fieldState D O Q (m' * a.step_size) with hs0
  have hsame : SameFields (S m') s0 := by
    intro k hk
    simp only [List.mem_cons, List.not_mem_nil, or_false] at hk
    rcases hk with rfl | rfl | rfl | rfl
    · rw [D1]; rfl
    · rw [O1]; rfl
    · rw [Q1]; rfl
    · rw [(hG m' (by omega)).2]; rfl
  have hcs := contStates_spec hF (hF.init D O Q (m' * a.step_size) ⟨D2, D3⟩ ⟨O2, O3⟩ ⟨Q3, Q4⟩) (M := m2 - m') (p := m')
    (fun k hk => h2.traj (m' + k) (by omega)) (hG m' (by omega)).1 hsame
  have htime : ∀ k : ℕ, timeAt E (a.continued T2) (m' * a.step_size) k
      = timeAt E (a.until T2) (FloatOps.ofInt 0) (m' + k) := by
    intro k
    refine (ht _ _).trans (Eq.trans ?_ (ht _ _).symm)
    rw [e0]; push_cast; ring
  have hrec : ∀ k : ℕ, isRecorded2 E (a.continued T2) (m' * a.step_size) k
      = isRecorded2 E (a.until T2) (FloatOps.ofInt 0) (m' + k) := by
    intro k
    unfold isRecorded2
    rw [htime]
    obtain ⟨c, hc⟩ : a.snaps ∣ m' := lastRecorded_dvd _ _ _ _
    have : (m' + k) % (a.until T2).snaps = k % (a.continued T2).snaps := by
      rw [hc]
      exact Nat.mul_add_mod _ _ _
    rw [this]
    rfl
  have hnanS : ∀ k ≤ m2 - m', nanState E.toEnv (contStates hw a.step_size a.dx s0 k) = nanState E.toEnv (S (m' + k)) := by
    intro k hk
    unfold nanState
    rw [(hcs k hk).2.2.1 "density" (by simp)]
  refine ⟨D, O, P, contStates hw a.step_size a.dx s0, ?_, fun k hk _ => (hcs k hk).2.2.1⟩
  have hprops : ∀ name ∈ (a.continued T2).properties, ∃ r, f.dsets ("fullres_" ++ name) = some (.rows .one r) := by
    intro name hname
    obtain ⟨r, r1, -⟩ := f3 name hname
    exact ⟨r, r1⟩
  refine { path := h1.path, file := f1, keep := rfl, cont := rfl, buffer := h1.buffer, snaps := h1.snaps,
           early := h2.early, saves := h1.saves, nodup := h1.nodup, props := h1.props, output := ?_, propRows := hprops,
           density := hload _ (by decide) _ hsD, omega := hload _ (by decide) _ hsO, phi := hload _ (by decide) _ hsP,
           time := ?_, restored := hrest, notNaN := ?_, nonzero := ?_, solver := hz, start := ?_, traj := ?_,
           shaped := ?_, stops := ?_ }
  · refine ⟨fun k hk => ?_, fun hst k hk => ?_⟩
    · obtain ⟨r, r1, -⟩ := f2 k hk
      exact ⟨r, r1⟩
    · obtain ⟨A, a1, a2, a3, -⟩ := f4 hst k hk
      exact ⟨A, a1, a2, a3⟩
  · obtain ⟨r, r1, r2⟩ := f2 "time" (by simp)
    refine ⟨r, Casts.f32 t, r1, ?_, by rw [hf, l1]⟩
    have hg : ∀ {fr : List (K × NS (Cell K))} {r : List (Cell β)},
        List.Forall₂ (fun fr row => IsFrameRow E.toEnv (a.until T1).downsample_factor "time" fr.1 fr.2 row) fr r →
        fr.getLast? = some (t, s) → r.getLast? = some (.num (Casts.f32 t)) := by
      intro fr r hr hl
      rw [List.getLast?_eq_getElem?] at hl ⊢
      rw [← hr.length_eq]
      obtain ⟨hlt, e⟩ := List.getElem?_eq_some_iff.mp hl
      rw [List.forall₂_iff_get] at hr
      have := hr.2 _ hlt (by rw [← hr.1]; exact hlt)
      simp only [List.get_eq_getElem, e] at this
      unfold IsFrameRow at this
      rw [if_pos rfl] at this
      rw [List.getElem?_eq_getElem (by rw [← hr.1]; exact hlt), this]
    exact hg r2 hlast
  · rw [← l1]
    exact ⟨hnan.2 _ (by decide) _ hsD, hnan.2 _ (by decide) _ hsO, hnan.2 _ (by decide) _ hsP, hnan.1⟩
  · exact ⟨hzero _ (by simp) _ hsD, hzero _ (by simp) _ hsO⟩
  · refine ⟨.arr Q, .num a.dx, rfl, ?_, rfl⟩
    rw [hattr]; exact Q2
  · intro k hk
    exact (hcs k hk.le).2.2.2 hk
  · intro k _ hk
    exact hF.shaped _ (hcs k hk).2.1
  · refine ⟨fun j hj => ?_, fun j j1 j2 hr => ?_, ?_⟩
    · rw [htime]; exact h2.stops.before _ (by omega)
    · rw [hnanS j (by omega)]
      rw [hrec] at hr
      exact h2.stops.noNaN _ (by omega) (by omega) hr
    · rw [htime, hrec, hnanS _ le_rfl, Nat.add_sub_cancel' (by omega)]
      rcases h2.stops.stop with h | ⟨i1, i2, i3⟩
      · exact .inl h
      · refine .inr ⟨?_, i2, i3⟩
        by_contra hlt
        have e : m2 = m' := by omega
        rw [e] at i3
        unfold nanState at i3
        rw [D1] at i3
        simp only at i3
        rw [hnan.2 _ (by decide) _ hsD] at i3
        cases i3

/-- the file of a run that creates it -/
theorem fileOf_fresh {T1 : K} (h1 : FreshRun2 E (a.until T1) σ hw ns m1 S)
    (hsum : a.adaptive_step_size = true → ∀ l, E.sum l = l.sum)
    (hend : a.recording_start_time < m1 * a.step_size)
    (hp : ∀ name ∈ a.properties, name ∉ ["time", "density", "omega", "phi"] ∧ (∀ n', name ≠ "fullres_" ++ n') ∧
      ∀ k ∈ fieldList, name ≠ "state_" ++ k) {fuel1 : ℕ} (hfuel : m1 < fuel1) :
    ∃ f, (run2 E (a.until T1) fuel1 σ).2.fs a.output_path = some f ∧
      (∀ q, q ≠ a.output_path → (run2 E (a.until T1) fuel1 σ).2.fs q = σ.fs q) ∧
      (run2 E (a.until T1) fuel1 σ).1 ≠ .ok none ∧ FileOf E a ns (frames2 E (a.until T1) S m1) f := by
  obtain ⟨f, f1, fq, fn, -, fa, f2, f3, f4⟩ := run2_result h1 hfuel
  have hflush : FloatOps.lt (a.until T1).recording_start_time (timeAt E (a.until T1) (FloatOps.ofInt 0) m1) = true := by
    refine decide_eq_true ?_
    refine lt_of_lt_of_eq hend ?_
    refine ((exact_timeAt (a := a) hsum _ _).trans ?_).symm
    simp [FloatOps.ofInt]
  unfold written2 flushes2 at f2 f3
  simp only [hflush, if_true] at f2 f3
  exact ⟨f, f1, fq, fn, fa, fun k hk => f2 k hk fun h => (hp _ h).1 hk,
    fun name hn => f3 name hn fun h => (hp _ h).2.1 _ rfl,
    fun hst k hk => f4 hst k hk fun h => (hp _ h).2.2 k hk rfl,
    fun hst k hk => run2_noState h1 hfuel hst f1 hk fun h => (hp _ h).2.2 k hk rfl⟩

/-- **the continuation**: see `C47_split_partial` -/
theorem continuation {T1 T2 : K} {t : K} {s : NS (Cell K)} {Good : NS (Cell K) → Prop}
    (h1 : FreshRun2 E (a.until T1) σ hw ns m1 S) (h2 : FreshRun2 E (a.until T2) σ hw ns m2 S) (hT : T1 ≤ T2)
    (hsum : a.adaptive_step_size = true → ∀ l, E.sum l = l.sum)
    (hF : FieldSolver hw a.step_size a.dx a.grid_pts Good) (hst : a.saveState = true)
    (hlast : (frames2 E (a.until T1) S m1).getLast? = some (t, s))
    (hL : a.buffer_length ∣ (frames2 E (a.until T1) S m1).length)
    (hend : a.recording_start_time < m1 * a.step_size) (hz : E.HW a.toArgs.physics = .ok hw)
    (hattr : E.attrNum (.num a.dx) = a.dx) (hf : Casts.f64 (Casts.f32 t : β) = t)
    (hnan : E.hasNaN (.num t) = false ∧ ∀ k ∈ fieldList, ∀ A, s.get? k = some (.arr A) → E.hasNaN (.arr A) = false)
    (hzero : ∀ k ∈ ["density", "omega"], ∀ A, s.get? k = some (.arr A) → E.allZero (.arr A) = false)
    (hp : ∀ name ∈ a.properties, name ∉ ["time", "density", "omega", "phi"] ∧ (∀ n', name ≠ "fullres_" ++ n') ∧
      ∀ k ∈ fieldList, name ≠ "state_" ++ k) {fuel1 : ℕ} (hfuel : m1 < fuel1) :
    ∃ f d o p S', (run2 E (a.until T1) fuel1 σ).2.fs a.output_path = some f ∧
      ContinuedRun2 E (a.continued T2) (run2 E (a.until T1) fuel1 σ).2 f hw ns d o p
        ((lastRecorded E a 0 m1 : ℕ) * a.step_size) a.toArgs.physics (m2 - lastRecorded E a 0 m1) S' ∧
      ∀ k ≤ m2 - lastRecorded E a 0 m1, 1 ≤ k → SameFields (S (lastRecorded E a 0 m1 + k)) (S' k) := by
  obtain ⟨f, f1, -, -, hf1⟩ := fileOf_fresh h1 hsum hend hp hfuel
  obtain ⟨d, o, p, S', h3, h4⟩ := continuation_from h1 h2 hT hsum hF hlast (fun _ => hL)
    (fun h => by rw [hst] at h; cases h) hz hattr hf hnan hzero f1 hf1
  exact ⟨f, d, o, p, S', f1, h3, h4⟩

end exact

end Verif
