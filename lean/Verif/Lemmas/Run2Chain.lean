import Verif.Lemmas.Run2Split

/-!
# A run of `run2` in several pieces
-/

set_option linter.unusedSectionVars false

namespace Verif

open H5IO H5 Run Run2 Props

section lawfree

variable {α β : Type} [Casts α β] [Zero α] [Inhabited α] [Inhabited β] [FloatOps α]
variable {E : Env2 α β} {a : Args2 α} {ns : ℕ} {fr fr' : List (α × NS (Cell α))} {f g : H5 α β}

/-- the two lists of frames have the same times and fields -/
def SameFrames (fr fr' : List (α × NS (Cell α))) : Prop :=
  List.Forall₂ (fun x y => x.1 = y.1 ∧ SameFields x.2 y.2) fr fr'

theorem SameFields.symm {s s' : NS (Cell α)} (h : SameFields s s') : SameFields s' s := fun k hk => (h k hk).symm

theorem frameRow_congr {E : Env α β} {factor : α} {k : String} (hk : k ∈ ["time", "density", "omega", "phi"]) {t t' : α}
    (ht : t = t') {s s' : NS (Cell α)} (h : SameFields s s') {r : Cell β} (h1 : IsFrameRow E factor k t s r) :
    IsFrameRow E factor k t' s' r := by
  unfold IsFrameRow at h1 ⊢
  by_cases hkt : k = "time"
  · rw [if_pos hkt] at h1 ⊢
    rw [h1, ht]
  · rw [if_neg hkt] at h1 ⊢
    obtain ⟨A, B, a1, a2, a3⟩ := h1
    have hk' : k ∈ ["density", "omega", "phi", "age"] := by
      simp only [List.mem_cons, List.not_mem_nil, or_false] at hk ⊢
      tauto
    exact ⟨A, B, by rw [← h k hk', a1], a2, a3⟩

theorem propValue_congr {name : String} {s s' : NS (Cell α)} (h : SameFields s s') {x : α}
    (h1 : IsPropValue E a name s x) : IsPropValue E a name s' x := by
  obtain ⟨F, n, p, o, a1, a2, a3, a4, a5⟩ := h1
  exact ⟨F, n, p, o, a1, by rw [← h _ (by simp), a2], by rw [← h _ (by simp), a3], by rw [← h _ (by simp), a4], a5⟩

theorem forall₂_congr_left {X Y R : Type} {P : X → R → Prop} {Q : Y → R → Prop} {D : X → Y → Prop} {xs : List X}
    {ys : List Y} {rs : List R} (h1 : List.Forall₂ P xs rs) (h2 : List.Forall₂ D xs ys)
    (h : ∀ x y r, D x y → P x r → Q y r) : List.Forall₂ Q ys rs := by
  induction h2 generalizing rs with
  | nil => rw [List.forall₂_nil_left_iff] at h1; rw [h1]; exact .nil
  | cons hh _ ih =>
    rw [List.forall₂_cons_left_iff] at h1
    obtain ⟨r, l, p, q, rfl⟩ := h1
    exact .cons (h _ _ _ hh p) (ih q)

theorem FileOf.congr (hf : FileOf E a ns fr f) (h : SameFrames fr fr') : FileOf E a ns fr' f where
  attrs := hf.attrs
  rows k hk := by
    obtain ⟨rows, r1, r2⟩ := hf.rows k hk
    exact ⟨rows, r1, forall₂_congr_left r2 h fun x y r hxy => frameRow_congr hk hxy.1 hxy.2⟩
  props name hn := by
    obtain ⟨rows, r1, r2⟩ := hf.props name hn
    exact ⟨rows, r1, forall₂_congr_left r2 h fun x y r hxy ⟨v, v1, v2⟩ => ⟨v, propValue_congr hxy.2 v1, v2⟩⟩
  noStates := hf.noStates
  states hst k hk := by
    obtain ⟨A, a1, a2, a3, a4, a5⟩ := hf.states hst k hk
    have hlen := h.length_eq
    refine ⟨A, a1, a2, a3, fun hl => a4 (by rw [hlen]; exact hl), fun y hl hy => ?_⟩
    rw [← hlen] at hy hl
    generalize a.buffer_length * (fr.length / a.buffer_length) - 1 = i at a5 hy
    obtain ⟨hlt, e⟩ := List.getElem?_eq_some_iff.mp hy
    have hlt' : i < fr.length := by rw [hlen]; exact hlt
    have hR := (List.forall₂_iff_get.mp h).2 i hlt' hlt
    simp only [List.get_eq_getElem, e] at hR
    have hk' : k ∈ ["density", "omega", "phi", "age"] := by
      simp only [fieldList, List.mem_cons, List.not_mem_nil, or_false] at hk ⊢
      tauto
    rw [← hR.2 k hk']
    exact a5 _ hl (List.getElem?_eq_getElem hlt')

/-- two files of the same frames agree -/
theorem FileOf.agree (hL : 1 ≤ a.buffer_length) (hf : FileOf E a ns fr f) (hg : FileOf E a ns fr g) :
    (∀ k, g.attrs k = f.attrs k) ∧
    (∀ k ∈ "time" :: fieldList, ∃ rows, f.dsets k = some (.rows (rowShape ns k) rows) ∧
      g.dsets k = some (.rows (rowShape ns k) rows) ∧ rows.length = fr.length) ∧
    (∀ name ∈ a.properties, ∃ rows, f.dsets ("fullres_" ++ name) = some (.rows .one rows) ∧
      g.dsets ("fullres_" ++ name) = some (.rows .one rows) ∧ rows.length = fr.length) ∧
    ∀ k ∈ fieldList, g.dsets ("state_" ++ k) = f.dsets ("state_" ++ k) := by
  refine ⟨fun k => by rw [hf.attrs, hg.attrs], fun k hk => ?_, fun name hn => ?_, fun k hk => ?_⟩
  · obtain ⟨r, r1, r2⟩ := hf.rows k hk
    obtain ⟨r', r3, r4⟩ := hg.rows k hk
    refine ⟨r, r1, ?_, r2.length_eq.symm⟩
    rw [r3, Verif.rows_unique r2 r4 (List.forall₂_same.mpr fun x _ r r' => frameRow_unique hk rfl (.refl _))]
  · obtain ⟨r, r1, r2⟩ := hf.props name hn
    obtain ⟨r', r3, r4⟩ := hg.props name hn
    refine ⟨r, r1, ?_, r2.length_eq.symm⟩
    rw [r3, Verif.rows_unique r2 r4 (List.forall₂_same.mpr fun x _ r r' p1 p2 => by
      obtain ⟨v, v1, rfl⟩ := p1
      obtain ⟨v', v2, rfl⟩ := p2
      rw [propValue_unique (.refl _) v1 v2])]
  · cases hst : a.saveState with
    | false => rw [hf.noStates hst k hk, hg.noStates hst k hk]
    | true =>
      obtain ⟨A, a1, -, -, a2, a3⟩ := hf.states hst k hk
      obtain ⟨B, b1, -, -, b2, b3⟩ := hg.states hst k hk
      rw [a1, b1]
      by_cases hl : fr.length < a.buffer_length
      · rw [a2 hl, b2 hl]
      · have hl := Nat.le_of_not_lt hl
        have hlt : a.buffer_length * (fr.length / a.buffer_length) - 1 < fr.length := by
          have := Nat.mul_div_le fr.length a.buffer_length
          omega
        have e := List.getElem?_eq_getElem hlt
        have h1 := a3 _ hl e
        rw [b3 _ hl e] at h1
        rw [Cell.arr.inj (Option.some.inj h1)]

end lawfree

section exact

attribute [local instance] exactOps

variable {K β : Type} [Field K] [LinearOrder K] [IsStrictOrderedRing K] [FloorRing K] [Casts K β] [Inhabited K]
  [Inhabited β]
variable {E : Env2 K β} {a : Args2 K} {σ σ' : St K β} {hw : Solver K} {ns m1 m2 : ℕ} {S S' : ℕ → NS (Cell K)}

theorem continued_time (hsum : a.adaptive_step_size = true → ∀ l, E.sum l = l.sum) (T1 T2 : K) (m k : ℕ) :
    timeAt E (a.continued T2) (m * a.step_size) k = timeAt E (a.until T1) (FloatOps.ofInt 0) (m + k) := by
  refine (exact_timeAt (a := a) hsum _ _).trans (Eq.trans ?_ (exact_timeAt (a := a) hsum _ _).symm)
  have e0 : (FloatOps.ofInt 0 : K) = 0 := by simp [FloatOps.ofInt]
  rw [e0]; push_cast; ring

/-- the frames of a run are those of a shorter run and those of its continuation -/
theorem frames_split {T1 T2 : K} (hsum : a.adaptive_step_size = true → ∀ l, E.sum l = l.sum) (hm : m1 ≤ m2)
    (hsame : ∀ k ≤ m2 - lastRecorded E a 0 m1, 1 ≤ k → SameFields (S (lastRecorded E a 0 m1 + k)) (S' k)) :
    SameFrames (frames2 E (a.until T2) S m2) (frames2 E (a.until T1) S m1 ++
      stepFrames2 E (a.continued T2) (lastRecorded E a 0 m1 * a.step_size) S' (m2 - lastRecorded E a 0 m1)) := by
  have e0 : (FloatOps.ofInt 0 : K) = 0 := by simp [FloatOps.ofInt]
  set m' := lastRecorded E a 0 m1 with hm'
  have hm1 : m' ≤ m1 := lastRecorded_le _ _ _ _
  have htime := continued_time hsum T2 T2 m'
  have hrec : ∀ k : ℕ, isRecorded2 E (a.continued T2) (m' * a.step_size) k
      = isRecorded2 E (a.until T2) (FloatOps.ofInt 0) (m' + k) := by
    intro k
    unfold isRecorded2
    rw [htime]
    obtain ⟨c, hc⟩ : a.snaps ∣ m' := lastRecorded_dvd _ _ _ _
    have : (m' + k) % (a.until T2).snaps = k % (a.continued T2).snaps := by
      rw [hc]
      exact Nat.mul_add_mod _ _ _
    rw [this]
    rfl
  have e1 : frames2 E (a.until T1) S m1 = (if FloatOps.eq a.recording_start_time (FloatOps.ofInt 0) then
      [(FloatOps.ofInt 0, a.plasma0)] else []) ++ stepFrames2 E (a.until T2) (FloatOps.ofInt 0) S m' := by
    unfold frames2
    rw [stepFrames2_last]
    have : lastRecorded E (a.until T1) (FloatOps.ofInt 0) m1 = m' := by rw [e0]; rfl
    rw [this]
    rfl
  have e2 : frames2 E (a.until T2) S m2 = frames2 E (a.until T1) S m1 ++
      ((List.range' 1 (m2 - m')).filter (isRecorded2 E (a.continued T2) (m' * a.step_size))).map
        (fun k => (timeAt E (a.until T2) (FloatOps.ofInt 0) (m' + k), S (m' + k))) := by
    rw [e1]
    unfold frames2 stepFrames2
    rw [range_split m' m2 (by omega), List.filter_append, List.map_append, List.filter_map, List.map_map,
      List.append_assoc]
    have : (isRecorded2 E (a.until T2) (FloatOps.ofInt 0) ∘ fun x => m' + x)
        = isRecorded2 E (a.continued T2) (m' * a.step_size) := by
      funext k
      exact (hrec k).symm
    rw [this]
    rfl
  rw [e2]
  refine List.rel_append (R := fun x y : K × NS (Cell K) => _) ?_ ?_
  · rw [List.forall₂_same]
    exact fun x _ => ⟨rfl, .refl _⟩
  · unfold stepFrames2
    rw [List.forall₂_map_left_iff, List.forall₂_map_right_iff, List.forall₂_same]
    intro k hk
    rw [List.mem_filter, List.mem_range'_1] at hk
    exact ⟨(htime k).symm, hsame k (by omega) (by omega)⟩

/-- **one continuation**: the file of a run until `T1` becomes the file of a run until `T2` -/
theorem piece_step {f : H5 K β} {T1 T2 : K} {t : K} {s : NS (Cell K)} {Good : NS (Cell K) → Prop}
    (h1 : FreshRun2 E (a.until T1) σ hw ns m1 S) (h2 : FreshRun2 E (a.until T2) σ hw ns m2 S) (hT : T1 ≤ T2)
    (hdt : 0 < a.step_size) (hsum : a.adaptive_step_size = true → ∀ l, E.sum l = l.sum)
    (hF : FieldSolver hw a.step_size a.dx a.grid_pts Good)
    (hlast : (frames2 E (a.until T1) S m1).getLast? = some (t, s))
    (hL : a.saveState = true → a.buffer_length ∣ (frames2 E (a.until T1) S m1).length)
    (hrow : a.saveState = false → ∀ k ∈ fieldList, ∀ A, s.get? k = some (.arr A) →
      (A.map Casts.f32 : Arr β).map Casts.f64 = A)
    (hend : a.recording_start_time < m1 * a.step_size) (hz : E.HW a.toArgs.physics = .ok hw)
    (hattr : E.attrNum (.num a.dx) = a.dx) (hf : Casts.f64 (Casts.f32 t : β) = t)
    (hnan : E.hasNaN (.num t) = false ∧ ∀ k ∈ fieldList, ∀ A, s.get? k = some (.arr A) → E.hasNaN (.arr A) = false)
    (hzero : ∀ k ∈ ["density", "omega"], ∀ A, s.get? k = some (.arr A) → E.allZero (.arr A) = false)
    (hp : ∀ name ∈ a.properties, name ∉ ["time", "density", "omega", "phi"] ∧ (∀ n', name ≠ "fullres_" ++ n') ∧
      ∀ k ∈ fieldList, name ≠ "state_" ++ k)
    (f1 : σ'.fs a.output_path = some f) (hfile : FileOf E a ns (frames2 E (a.until T1) S m1) f)
    {fuel : ℕ} (hfuel : m2 < fuel) :
    ∃ g, (run2 E (a.continued T2) fuel σ').2.fs a.output_path = some g ∧
      (∀ q, q ≠ a.output_path → (run2 E (a.continued T2) fuel σ').2.fs q = σ'.fs q) ∧
      (run2 E (a.continued T2) fuel σ').1 ≠ .ok none ∧ FileOf E a ns (frames2 E (a.until T2) S m2) g := by
  obtain ⟨d, o, p, S', hC, hsame⟩ := continuation_from h1 h2 hT hsum hF hlast hL hrow hz hattr hf hnan hzero f1 hfile
  have hm := steps_le hT h1 h2
  have hsplit := frames_split (T1 := T1) (T2 := T2) hsum hm hsame
  have hm1 : lastRecorded E a 0 m1 ≤ m1 := lastRecorded_le _ _ _ _
  have hflush : FloatOps.lt (a.continued T2).recording_start_time
      (timeAt E (a.continued T2) (lastRecorded E a 0 m1 * a.step_size) (m2 - lastRecorded E a 0 m1)) = true := by
    rw [continued_time hsum T2 T2, Nat.add_sub_cancel' (by omega)]
    refine decide_eq_true ?_
    refine lt_of_lt_of_le (b := (m2 : K) * a.step_size) (lt_of_lt_of_le hend ?_) (le_of_eq ?_)
    · have : (m1 : K) ≤ m2 := by exact_mod_cast hm
      exact mul_le_mul_of_nonneg_right this hdt.le
    · refine ((exact_timeAt (a := a) hsum _ _).trans ?_).symm
      simp [FloatOps.ofInt]
  obtain ⟨g, g1, g2, g3, -, g5, g6, g7, -, g9, g10⟩ := continue2_all hC (fuel := fuel) (by omega)
  unfold written2 flushes2 at g6 g7
  simp only [hflush, if_true] at g6 g7
  generalize stepFrames2 E (a.continued T2) (lastRecorded E a 0 m1 * a.step_size) S' (m2 - lastRecorded E a 0 m1) = fr'
    at g6 g7 g9 hsplit
  have hne : frames2 E (a.until T1) S m1 ≠ [] := by
    intro e; rw [e] at hlast; cases hlast
  have hpos : 0 < (frames2 E (a.until T1) S m1).length := List.length_pos_iff.mpr hne
  generalize frames2 E (a.until T1) S m1 = fr at hlast hL hfile hsplit hpos
  refine ⟨g, g1, g2, g3, FileOf.congr (fr := fr ++ fr') ?_ (hsplit.flip.imp fun x y h => ⟨h.1.symm, h.2.symm⟩)⟩
  refine ⟨fun k => by rw [g5, hfile.attrs], fun k hk => ?_, fun name hn => ?_, fun hst k hk => ?_, fun hst k hk => ?_⟩
  · obtain ⟨r, r1, r2⟩ := hfile.rows k hk
    obtain ⟨r', r3, r4⟩ := g6 k hk fun h => (hp _ h).1 hk
    have hro : f.rowsOf k = r := by
      unfold H5.rowsOf
      rw [r1]
    rw [hro] at r3
    exact ⟨_, r3, List.rel_append (R := fun (fr : K × NS (Cell K)) row =>
      IsFrameRow E.toEnv a.downsample_factor k fr.1 fr.2 row) r2 r4⟩
  · obtain ⟨r, r1, r2⟩ := hfile.props name hn
    obtain ⟨r', r3, r4⟩ := g7 name hn fun h => (hp _ h).2.1 _ rfl
    have hro : f.rowsOf ("fullres_" ++ name) = r := by
      unfold H5.rowsOf
      rw [r1]
    rw [hro] at r3
    exact ⟨_, r3, List.rel_append (R := fun (fr : K × NS (Cell K)) row =>
      ∃ x, IsPropValue E a name fr.2 x ∧ row = Cell.num (Casts.f32 x : β)) r2 r4⟩
  · obtain ⟨A, a1, a2, a3, a4, a5⟩ := g9 hst k hk fun h => (hp _ h).2.2 k hk rfl
    obtain ⟨c, hc⟩ := hL hst
    have hLpos : 0 < a.buffer_length := h1.buffer
    have hc0 : 0 < c := by
      rcases Nat.eq_zero_or_pos c with rfl | h
      · omega
      · exact h
    have hle : a.buffer_length ≤ fr.length := by
      rw [hc]; exact Nat.le_mul_of_pos_right _ hc0
    have hidx : a.buffer_length * ((fr ++ fr').length / a.buffer_length)
        = fr.length + a.buffer_length * (fr'.length / a.buffer_length) := by
      rw [List.length_append, hc, Nat.mul_add_div hLpos, Nat.mul_add]
    refine ⟨A, a1, a2, a3, fun hl => ?_, fun x hl hx => ?_⟩
    · rw [List.length_append] at hl
      omega
    · rw [hidx] at hx
      by_cases hl' : fr'.length < a.buffer_length
      · rw [Nat.div_eq_of_lt hl', Nat.mul_zero, Nat.add_zero, List.getElem?_append_left (by omega)] at hx
        obtain ⟨B, b1, -, -, -, b5⟩ := hfile.states hst k hk
        have h3 := a4 hl'
        rw [b1] at h3
        injection h3 with h3
        injection h3 with h3
        rw [← h3]
        refine b5 x hle ?_
        rw [Nat.mul_div_cancel' ⟨c, hc⟩]
        exact hx
      · have hl' := Nat.le_of_not_lt hl'
        have h1' : 1 ≤ a.buffer_length * (fr'.length / a.buffer_length) :=
          Nat.mul_pos hLpos (Nat.div_pos hl' hLpos)
        rw [List.getElem?_append_right (by omega)] at hx
        have : fr.length + a.buffer_length * (fr'.length / a.buffer_length) - 1 - fr.length
            = a.buffer_length * (fr'.length / a.buffer_length) - 1 := by omega
        rw [this] at hx
        exact a5 x hl' hx
  · rw [g10 hst k hk fun h => (hp _ h).2.2 k hk rfl]
    exact hfile.noStates hst k hk

end exact

end Verif
