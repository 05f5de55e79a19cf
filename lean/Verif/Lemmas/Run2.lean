import Verif.Spec.Run2
import Verif.Lemmas.RunContinue

/-!
# Evaluation of `run2.py`
-/

set_option linter.unusedSectionVars false

namespace Verif

open H5IO H5 Run Run2

variable {α β : Type} [Casts α β] [Zero α] [Inhabited α] [Inhabited β] [FloatOps α]

theorem fullres_inj {k k' : String} (h : "fullres_" ++ k = "fullres_" ++ k') : k = k' := by
  have := congrArg String.toList h
  rw [String.toList_append, String.toList_append] at this
  exact String.toList_injective (List.append_cancel_left this)

theorem fullres_not_mem {name : String} : "fullres_" ++ name ∉ "time" :: fieldList := fun h => fullres_ne h rfl

/-! ### property values -/

theorem propLoop_ok {E : Env2 α β} {a : Args2 α} {plasma : NS (Cell α)} (hp : Shaped a.grid_pts plasma)
    (props : List String) (hok : ∀ name ∈ props, ∃ F, E.propertyFn name = some F ∧
    ∀ n p o : Arr α, (n.h = a.grid_pts ∧ n.w = a.grid_pts) → (p.h = a.grid_pts ∧ p.w = a.grid_pts) →
      (o.h = a.grid_pts ∧ o.w = a.grid_pts) → ∃ x, F (.arr n) (.arr p) (.arr o) a.dx a.c1 = .ok x)
    (nv : NS (Cell α)) :
    ∃ nv', propLoop E a.dx a.c1 plasma props nv = .ok nv' ∧
      (∀ k, (∀ name ∈ props, k ≠ "fullres_" ++ name) → nv'.get? k = nv.get? k) ∧
      ∀ name ∈ props, ∃ x, nv'.get? ("fullres_" ++ name) = some (.num x) ∧ IsPropValue E a name plasma x := by
  induction props generalizing nv with
  | nil => exact ⟨nv, rfl, fun _ _ => rfl, fun _ h => by cases h⟩
  | cons name props ih =>
    obtain ⟨F, hF, hv⟩ := hok name (by simp)
    obtain ⟨n, hn, n1⟩ := hp.fields "density" (by decide)
    obtain ⟨p, hpp, p1⟩ := hp.fields "phi" (by decide)
    obtain ⟨o, ho, o1⟩ := hp.fields "omega" (by decide)
    obtain ⟨x, hx⟩ := hv n p o n1 p1 o1
    obtain ⟨nv', e, h1, h2⟩ := ih (fun name h => hok name (by simp [h])) (nv.set ("fullres_" ++ name) (.num x))
    refine ⟨nv', ?_, ?_, ?_⟩
    · unfold propLoop
      rw [hF]
      simp only [NS.getItem_of_get? hn, NS.getItem_of_get? hpp, NS.getItem_of_get? ho, Py.ok_bind, hx]
      exact e
    · intro k hk
      rw [h1 k fun name h => hk name (by simp [h]), NS.get?_set, if_neg (hk name (by simp))]
    · intro name' hn'
      by_cases hm : name' ∈ props
      · exact h2 name' hm
      · have : name' = name := by simpa [hm] using hn'
        subst this
        refine ⟨x, ?_, F, .arr n, .arr p, .arr o, hF, hn, hpp, ho, hx⟩
        rw [h1, NS.get?_set, if_pos rfl]
        intro name h e
        exact hm (fullres_inj e ▸ h)

/-- a correct save of `run2` -/
structure IsSave2 (E : Env2 α β) (a : Args2 α) (t : α) (plasma : NS (Cell α)) (v : NS (Cell α) × NS (Cell α)) : Prop
    extends IsSave E.toEnv a.downsample_factor a.saveState t plasma v where
  props : ∀ name ∈ a.properties, ∃ x, v.1.get? ("fullres_" ++ name) = some (.num x) ∧ IsPropValue E a name plasma x

/-- what the loop of `run2` saves -/
def theSave2 (E : Env2 α β) (a : Args2 α) (t : α) (plasma : NS (Cell α)) : NS (Cell α) × NS (Cell α) :=
  match propLoop E a.dx a.c1 plasma a.properties ((fieldsOf plasma).set "time" (.num t)) with
  | .error _ => ([], [])
  | .ok nv => match frameLoop E.toEnv a.downsample_factor a.saveState plasma nv [] with
    | .ok v => v
    | .error _ => ([], [])

theorem theSave2_ok {E : Env2 α β} {a : Args2 α} {ns : ℕ} (hs : SavesAs E.toEnv a.downsample_factor a.grid_pts ns)
    (hok : PropsOk E a) {plasma : NS (Cell α)} (hp : Shaped a.grid_pts plasma) (t : α) :
    ∃ nv, propLoop E a.dx a.c1 plasma a.properties ((fieldsOf plasma).set "time" (.num t)) = .ok nv ∧
      frameLoop E.toEnv a.downsample_factor a.saveState plasma nv [] = .ok (theSave2 E a t plasma) ∧
      IsSave2 E a t plasma (theSave2 E a t plasma) := by
  obtain ⟨nv, e1, h1, h2⟩ := propLoop_ok hp a.properties hok ((fieldsOf plasma).set "time" (.num t))
  obtain ⟨v, e, g1, g2⟩ := frameLoop_save hs a.saveState hp nv (by
    intro k hk
    rw [h1 k fun name _ e => fullres_ne (List.mem_cons_of_mem _ hk) e.symm, NS.get?_set,
      if_neg (fieldList_ne_time hk), get?_fieldsOf, if_pos (isField_iff.mpr hk)])
  have : theSave2 E a t plasma = v := by unfold theSave2; rw [e1]; simp only; rw [e]
  rw [this]
  refine ⟨nv, e1, e, g2 t v.1 ?_ (fun _ _ => rfl), ?_⟩
  · rw [g1 "time" (by decide), h1 "time" fun name _ e => fullres_ne (by simp) e.symm, NS.get?_set, if_pos rfl]
  · intro name hn
    obtain ⟨x, hx, hv⟩ := h2 name hn
    refine ⟨x, ?_, hv⟩
    rw [g1 _ fun h => fullres_not_mem (List.mem_cons_of_mem _ h), hx]

/-- the initial save of `run2` -/
def firstSave2 (E : Env2 α β) (a : Args2 α) (t : α) (plasma : NS (Cell α)) : NS (Cell α) × NS (Cell α) :=
  match frameLoop E.toEnv a.downsample_factor a.saveState plasma (fieldsOf plasma) [] with
  | .error _ => ([], [])
  | .ok v => match propLoop E a.dx a.c1 plasma a.properties v.1 with
    | .ok nv => (nv.set "time" (.num t), v.2)
    | .error _ => ([], [])

theorem firstSave2_ok {E : Env2 α β} {a : Args2 α} {ns : ℕ} (hs : SavesAs E.toEnv a.downsample_factor a.grid_pts ns)
    (hok : PropsOk E a) {plasma : NS (Cell α)} (hp : Shaped a.grid_pts plasma) (t : α) :
    ∃ v nv, frameLoop E.toEnv a.downsample_factor a.saveState plasma (fieldsOf plasma) [] = .ok v ∧
      propLoop E a.dx a.c1 plasma a.properties v.1 = .ok nv ∧
      firstSave2 E a t plasma = (nv.set "time" (.num t), v.2) ∧ IsSave2 E a t plasma (firstSave2 E a t plasma) := by
  obtain ⟨v, e, g1, g2⟩ := frameLoop_save hs a.saveState hp (fieldsOf plasma) (by
    intro k hk
    rw [get?_fieldsOf, if_pos (isField_iff.mpr hk)])
  obtain ⟨nv, e1, h1, h2⟩ := propLoop_ok hp a.properties hok v.1
  have : firstSave2 E a t plasma = (nv.set "time" (.num t), v.2) := by
    unfold firstSave2; rw [e]; simp only; rw [e1]
  rw [this]
  refine ⟨v, nv, e, e1, rfl, g2 t _ (by rw [NS.get?_set, if_pos rfl]) ?_, ?_⟩
  · intro k hk
    rw [NS.get?_set, if_neg (fieldList_ne_time hk), h1 k fun name _ e => fullres_ne (List.mem_cons_of_mem _ hk) e.symm]
  · intro name hn
    obtain ⟨x, hx, hv⟩ := h2 name hn
    refine ⟨x, ?_, hv⟩
    simp only
    rw [NS.get?_set, if_neg (fullres_ne (by simp)), hx]

theorem IsSave2.fits {E : Env2 α β} {a : Args2 α} {t : α} {plasma : NS (Cell α)} {v : NS (Cell α) × NS (Cell α)}
    (h : IsSave2 E a t plasma v) {ns : ℕ} (hs : SavesAs E.toEnv a.downsample_factor a.grid_pts ns)
    (hp : Shaped a.grid_pts plasma) {buf : NS (Buf β)} (hb : FrameBuf ns a.properties buf) : Fits buf v.1 :=
  h.toIsSave.fits hs hp (fun name hn => (h.props name hn).imp fun _ h => h.1) hb

/-! ### buffers -/

theorem zeroBuffer2_get? (L ns : ℕ) (props : List String) (k : String) :
    (zeroBuffer2 (α := α) L ns ns props : NS (Buf β)).get? k =
      if k ∈ props.map ("fullres_" ++ ·) then some ⟨.one, List.replicate L (RowShape.one.zero (Casts.f32 (0 : α)))⟩
      else (zeroBuffer (α := α) L ns ns : NS (Buf β)).get? k := by
  unfold zeroBuffer2
  generalize (zeroBuffer (α := α) L ns ns : NS (Buf β)) = b
  induction props generalizing b with
  | nil => simp
  | cons name props ih =>
    rw [List.foldl_cons, ih, NS.get?_set]
    by_cases h1 : k ∈ props.map ("fullres_" ++ ·)
    · rw [if_pos h1, if_pos (by rw [List.map_cons]; exact List.mem_cons_of_mem _ h1)]
    · rw [if_neg h1]
      by_cases h2 : k = "fullres_" ++ name
      · rw [if_pos h2, if_pos (by rw [List.map_cons, h2]; simp)]
      · rw [if_neg h2, if_neg]
        rw [List.map_cons, List.mem_cons]
        rintro (h | h)
        · exact h2 h
        · exact h1 h

theorem zeroBuffer2_nodup (L ns : ℕ) (props : List String) :
    (zeroBuffer2 (α := α) L ns ns props : NS (Buf β)).keys.Nodup := by
  unfold zeroBuffer2
  have h0 : (zeroBuffer (α := α) L ns ns : NS (Buf β)).keys.Nodup := by simp [NS.keys, zeroBuffer, fieldList]
  generalize (zeroBuffer (α := α) L ns ns : NS (Buf β)) = b at *
  induction props generalizing b with
  | nil => exact h0
  | cons name props ih =>
    rw [List.foldl_cons]
    exact ih _ (NS.nodup_set h0 _ _)

/-- every entry of the buffer -/
theorem zeroBuffer2_mem {L ns : ℕ} {props : List String} {p : String × Buf β}
    (hp : p ∈ (zeroBuffer2 (α := α) L ns ns props : NS (Buf β))) :
    p.2.rows = List.replicate L (p.2.shape.zero (Casts.f32 (0 : α))) ∧
    ((p.1 = "time" ∧ p.2.shape = .one) ∨ (p.1 ∈ fieldList ∧ p.2.shape = .grid ns ns) ∨
      (∃ name ∈ props, p.1 = "fullres_" ++ name ∧ p.2.shape = .one)) := by
  have h := NS.get?_of_mem (zeroBuffer2_nodup L ns props) hp
  rw [zeroBuffer2_get?] at h
  split at h
  · next hm =>
    obtain ⟨name, hn, e⟩ := List.mem_map.mp hm
    injection h with h
    exact ⟨by rw [← h], .inr (.inr ⟨name, hn, e.symm, by rw [← h]⟩)⟩
  · have hm := mem_of_get? h
    simp only [zeroBuffer, fieldList, List.map_cons, List.map_nil, List.cons_append, List.nil_append, List.mem_cons,
      List.not_mem_nil, or_false, Prod.ext_iff] at hm
    rcases hm with ⟨h1, h2⟩ | ⟨h1, h2⟩ | ⟨h1, h2⟩ | ⟨h1, h2⟩ <;> rw [h1, h2] <;> simp [fieldList]

/-- `f` has the datasets a buffer of `run2` belongs to -/
theorem inv2_of {a : Args2 α} {n ns : ℕ} {f : H5 α β} (hL : 1 ≤ a.buffer_length)
    (hO : OutputFile f n ns a.saveState) (hP : ∀ name ∈ a.properties, ∃ r, f.dsets ("fullres_" ++ name) = some (.rows .one r)) :
    Inv a.toArgs a.properties n ns f (zeroBuffer2 (α := α) a.buffer_length ns ns a.properties) 0 := by
  refine ⟨hL, ⟨zeroBuffer2_nodup _ _ _, ?_, ?_, ?_⟩, ⟨fun p hp => (zeroBuffer2_mem hp).2⟩, hO.states⟩
  · intro p hp
    rw [(zeroBuffer2_mem hp).1, List.length_replicate]
  · intro p hp c hc
    rw [(zeroBuffer2_mem hp).1, List.mem_replicate] at hc
    rw [hc.2]
    exact RowShape.zero_ok _ _
  · intro p hp
    rcases (zeroBuffer2_mem hp).2 with ⟨h1, h2⟩ | ⟨h1, h2⟩ | ⟨name, h1, h2, h3⟩
    · obtain ⟨r, hr⟩ := hO.rows "time" (by simp)
      exact ⟨r, by rw [h1, h2, hr]; rfl⟩
    · obtain ⟨r, hr⟩ := hO.rows p.1 (List.mem_cons_of_mem _ h1)
      refine ⟨r, ?_⟩
      rw [hr, h2]
      unfold rowShape
      rw [if_neg (fieldList_ne_time h1)]
    · obtain ⟨r, hr⟩ := hP name h1
      exact ⟨r, by rw [h2, h3, hr]⟩

/-! ### the loop -/

/-- the saves of the steps `c+1, …, c+m` -/
def loopSaves2 (E : Env2 α β) (a : Args2 α) (t0 : α) (S : ℕ → NS (Cell α)) (c m : ℕ) :
    List (NS (Cell α) × NS (Cell α)) :=
  ((List.range' (c + 1) m).filter (isRecorded2 E a t0)).map fun it => theSave2 E a (timeAt E a t0 it) (S it)

/-- `used_time_steps` after `c` steps -/
def usedAt (a : Args2 α) (c : ℕ) : List α := if a.adaptive_step_size then List.replicate c a.step_size else []

theorem usedAt_succ (a : Args2 α) (c : ℕ) :
    (if a.adaptive_step_size then usedAt a c ++ [a.step_size] else usedAt a c) = usedAt a (c + 1) := by
  unfold usedAt
  split
  · rw [List.replicate_succ']
  · rfl

theorem nextTime_eq (E : Env2 α β) (a : Args2 α) (t0 : α) (c : ℕ) :
    nextTime E a t0 (c + 1) (usedAt a (c + 1)) = timeAt E a t0 (c + 1) := by
  unfold nextTime timeAt usedAt
  rw [if_neg (Nat.succ_ne_zero c)]
  by_cases h : a.adaptive_step_size = true
  · simp only [h, if_true]
  · simp only [h]
    rfl

/-- the state of the loop after `c` steps -/
def loopState (E : Env2 α β) (a : Args2 α) (t0 : α) (S : ℕ → NS (Cell α)) (c : ℕ) (buf : NS (Buf β)) (i : ℕ) :
    LoopState α β :=
  { plasma := S c, buffer := buf, buffer_index := i, iteration_count := c, used_time_steps := usedAt a c,
    current_time := timeAt E a t0 c }

/-- running `M` with file contents `f` is the same as running `M'` with contents `f'` -/
def Steps {X : Type} (path : String) (M : IOM α β X) (f : H5 α β) (M' : IOM α β X) (f' : H5 α β) : Prop :=
  ∀ σ : St α β, σ.fs path = some f → ∃ σ', σ'.fs = upd σ.fs path (some f') ∧ M σ = M' σ'

theorem Steps.refl {X : Type} {path : String} (M : IOM α β X) (f : H5 α β) : Steps path M f M f :=
  fun σ h => ⟨σ, by rw [← h, upd_self], rfl⟩

theorem Steps.trans {X : Type} {path : String} {M M' M'' : IOM α β X} {f f' f'' : H5 α β} (h1 : Steps path M f M' f')
    (h2 : Steps path M' f' M'' f'') : Steps path M f M'' f'' := by
  intro σ hσ
  obtain ⟨σ1, e1, r1⟩ := h1 σ hσ
  obtain ⟨σ2, e2, r2⟩ := h2 σ1 (by rw [e1, upd_same])
  exact ⟨σ2, by rw [e2, e1, upd_upd], by rw [r1, r2]⟩

theorem Steps.does {X : Type} {path : String} {M M' : IOM α β X} {f f' f'' : H5 α β} {x : X} (h1 : Steps path M f M' f')
    (h2 : Does path M' f' x f'') : Does path M f x f'' := by
  intro σ hσ
  obtain ⟨σ1, e1, r1⟩ := h1 σ hσ
  obtain ⟨σ2, r2, e2⟩ := h2 σ1 (by rw [e1, upd_same])
  exact ⟨σ2, by rw [r1, r2], by rw [e2, e1, upd_upd]⟩

theorem Steps.of_does {X Y : Type} {path : String} {M : IOM α β X} {k : X → IOM α β Y} {f f' : H5 α β} {x : X}
    (h : Does path M f x f') : Steps path (M >>= k) f (k x) f' := by
  intro σ hσ
  obtain ⟨σ1, r1, e1⟩ := h σ hσ
  exact ⟨σ1, e1, by rw [IOM.bind_ok r1]⟩

/-- one iteration of the loop, given what is recorded -/
theorem steps_of_record {E : Env2 α β} {hw : Solver α} {a : Args2 α} {t0 : α} {S : ℕ → NS (Cell α)} {c : ℕ}
    {f f1 : H5 α β} {buf buf1 : NS (Buf β)} {i i1 : ℕ}
    (hT0 : hw.rk4_step (S c) a.step_size a.dx = .ok (S (c + 1))) (hS1 : Shaped a.grid_pts (S (c + 1)))
    (hB0 : FloatOps.lt (FloatOps.round4 (timeAt E a t0 c)) a.end_time = true)
    (hd1 : Does a.output_path (record2 E a (loopState E a t0 S (c + 1) buf i)) f
      (loopState E a t0 S (c + 1) buf1 i1, isRecorded2 E a t0 (c + 1)) f1) (fuel : ℕ) :
    Steps a.output_path (loop2 E hw a t0 (fuel + 1) (loopState E a t0 S c buf i)) f
      (if isRecorded2 E a t0 (c + 1) = true ∧ nanState E.toEnv (S (c + 1)) = true
        then pure (some (loopState E a t0 S (c + 1) buf1 i1))
        else loop2 E hw a t0 fuel (loopState E a t0 S (c + 1) buf1 i1)) f1 := by
  obtain ⟨A, hA, -⟩ := hS1.fields "density" (by decide)
  have hnan : nanState E.toEnv (S (c + 1)) = E.hasNaN (.arr A) := by unfold nanState; rw [hA]
  rw [loop2]
  rw [if_pos (by simp only [loopState]; exact hB0)]
  have hrk : hw.rk4_step (loopState E a t0 S c buf i).plasma a.step_size a.dx = .ok (S (c + 1)) := hT0
  rw [hrk]
  simp only
  have hst : ({ (loopState E a t0 S c buf i : LoopState α β) with
      plasma := S (c + 1), iteration_count := (loopState E a t0 S c buf i : LoopState α β).iteration_count + 1,
      used_time_steps := (if a.adaptive_step_size then
        (loopState E a t0 S c buf i : LoopState α β).used_time_steps ++ [a.step_size]
        else (loopState E a t0 S c buf i : LoopState α β).used_time_steps),
      current_time := nextTime E a t0 ((loopState E a t0 S c buf i : LoopState α β).iteration_count + 1)
        (if a.adaptive_step_size then
        (loopState E a t0 S c buf i : LoopState α β).used_time_steps ++ [a.step_size]
        else (loopState E a t0 S c buf i : LoopState α β).used_time_steps) } : LoopState α β)
      = loopState E a t0 S (c + 1) buf i := by
    simp only [loopState, usedAt_succ, nextTime_eq]
  rw [hst]
  refine (Steps.of_does hd1).trans ?_
  simp only
  by_cases hr : isRecorded2 E a t0 (c + 1) = true
  · rw [if_pos hr]
    have hA' : (loopState E a t0 S (c + 1) buf1 i1 : LoopState α β).plasma.getItem "density" = .ok (.arr A) :=
      NS.getItem_of_get? hA
    refine (Steps.of_does (Does.lift hA')).trans ?_
    by_cases hn : E.hasNaN (.arr A) = true
    · rw [if_pos hn, if_pos ⟨hr, by rw [hnan, hn]⟩]
      exact Steps.refl _ _
    · rw [if_neg hn, if_neg (by rw [hnan]; exact fun h => hn h.2)]
      exact Steps.refl _ _
  · rw [if_neg hr, if_neg (fun h => hr h.1)]
    exact Steps.refl _ _

/-- an iteration whose record raises -/
theorem loop2_record_error {E : Env2 α β} {hw : Solver α} {a : Args2 α} {t0 : α} {S : ℕ → NS (Cell α)} {c : ℕ}
    {buf : NS (Buf β)} {i : ℕ} {σ σ' : St α β} {e : PyErr}
    (hT0 : hw.rk4_step (S c) a.step_size a.dx = .ok (S (c + 1)))
    (hB0 : FloatOps.lt (FloatOps.round4 (timeAt E a t0 c)) a.end_time = true)
    (hd1 : record2 E a (loopState E a t0 S (c + 1) buf i) σ = (.error e, σ')) (fuel : ℕ) :
    loop2 E hw a t0 (fuel + 1) (loopState E a t0 S c buf i) σ = (.error e, σ') := by
  rw [loop2]
  rw [if_pos (by simp only [loopState]; exact hB0)]
  have hrk : hw.rk4_step (loopState E a t0 S c buf i).plasma a.step_size a.dx = .ok (S (c + 1)) := hT0
  rw [hrk]
  simp only
  have hst : ({ (loopState E a t0 S c buf i : LoopState α β) with
      plasma := S (c + 1), iteration_count := (loopState E a t0 S c buf i : LoopState α β).iteration_count + 1,
      used_time_steps := (if a.adaptive_step_size then
        (loopState E a t0 S c buf i : LoopState α β).used_time_steps ++ [a.step_size]
        else (loopState E a t0 S c buf i : LoopState α β).used_time_steps),
      current_time := nextTime E a t0 ((loopState E a t0 S c buf i : LoopState α β).iteration_count + 1)
        (if a.adaptive_step_size then
        (loopState E a t0 S c buf i : LoopState α β).used_time_steps ++ [a.step_size]
        else (loopState E a t0 S c buf i : LoopState α β).used_time_steps) } : LoopState α β)
      = loopState E a t0 S (c + 1) buf i := by
    simp only [loopState, usedAt_succ, nextTime_eq]
  rw [hst]
  rw [IOM.bind_error hd1]

/-- one iteration of the loop -/
theorem steps_iter {E : Env2 α β} {hw : Solver α} {a : Args2 α} {ns : ℕ} {t0 : α}
    (hs : SavesAs E.toEnv a.downsample_factor a.grid_pts ns) (hok : PropsOk E a) {S : ℕ → NS (Cell α)} {c : ℕ}
    {f : H5 α β} {buf : NS (Buf β)} {i : ℕ}
    (hT0 : hw.rk4_step (S c) a.step_size a.dx = .ok (S (c + 1))) (hS1 : Shaped a.grid_pts (S (c + 1)))
    (hB0 : FloatOps.lt (FloatOps.round4 (timeAt E a t0 c)) a.end_time = true)
    (hI : Inv a.toArgs a.properties a.grid_pts ns f buf i) :
    ∃ f1 buf1 i1, afterSaves a.buffer_length f buf i (loopSaves2 E a t0 S c 1) = (f1, buf1, i1) ∧
      Inv a.toArgs a.properties a.grid_pts ns f1 buf1 i1 ∧
      ∀ fuel, Steps a.output_path (loop2 E hw a t0 (fuel + 1) (loopState E a t0 S c buf i)) f
        (if isRecorded2 E a t0 (c + 1) = true ∧ nanState E.toEnv (S (c + 1)) = true
          then pure (some (loopState E a t0 S (c + 1) buf1 i1))
          else loop2 E hw a t0 fuel (loopState E a t0 S (c + 1) buf1 i1)) f1 := by
  obtain ⟨nv, hpl, hsv, hIs⟩ := theSave2_ok hs hok hS1 (timeAt E a t0 (c + 1))
  -- the record step
  have hrec : ∃ f1 buf1 i1, afterSaves a.buffer_length f buf i (loopSaves2 E a t0 S c 1) = (f1, buf1, i1) ∧
      Inv a.toArgs a.properties a.grid_pts ns f1 buf1 i1 ∧
      Does a.output_path (record2 E a (loopState E a t0 S (c + 1) buf i)) f
        (loopState E a t0 S (c + 1) buf1 i1, isRecorded2 E a t0 (c + 1)) f1 := by
    unfold record2
    by_cases hr : isRecorded2 E a t0 (c + 1) = true
    · have hl : loopSaves2 E a t0 S c 1 = [theSave2 E a (timeAt E a t0 (c + 1)) (S (c + 1))] := by
        simp [loopSaves2, List.range'_one, hr]
      rw [hl]
      refine ⟨_, _, _, rfl, hI.save _ _, ?_⟩
      rw [hr]
      unfold isRecorded2 at hr
      simp only [loopState, hr, if_true]
      refine (Does.lift hpl).bind ?_
      refine (Does.lift hsv).bind ?_
      refine (does_save hI.lt hI.ok (hIs.fits hs hS1 hI.buf) (hIs.toIsSave.statesFit hS1 hI.states)).bind ?_
      exact Does.pure _
    · have hl : loopSaves2 E a t0 S c 1 = [] := by simp [loopSaves2, List.range'_one, hr]
      rw [hl]
      refine ⟨_, _, _, rfl, hI, ?_⟩
      have hr' : isRecorded2 E a t0 (c + 1) = false := by simpa using hr
      rw [hr']
      unfold isRecorded2 at hr'
      simp only [loopState, hr']
      exact Does.pure _
  obtain ⟨f1, buf1, i1, e1, hI1, hd1⟩ := hrec
  exact ⟨f1, buf1, i1, e1, hI1, fun fuel => steps_of_record hT0 hS1 hB0 hd1 fuel⟩

theorem loopSaves2_split (E : Env2 α β) (a : Args2 α) (t0 : α) (S : ℕ → NS (Cell α)) (c m : ℕ) :
    loopSaves2 E a t0 S c (m + 1) = loopSaves2 E a t0 S c 1 ++ loopSaves2 E a t0 S (c + 1) m := by
  unfold loopSaves2
  rw [← List.map_append, ← List.filter_append, show m + 1 = 1 + m by omega, ← List.range'_append_1]

/-- `m` iterations without leaving the loop -/
theorem steps_loop2 {E : Env2 α β} {hw : Solver α} {a : Args2 α} {ns : ℕ} {t0 : α}
    (hs : SavesAs E.toEnv a.downsample_factor a.grid_pts ns) (hok : PropsOk E a) {S : ℕ → NS (Cell α)} (m : ℕ) :
    ∀ (c : ℕ) (f : H5 α β) (buf : NS (Buf β)) (i : ℕ),
    (∀ j < m, hw.rk4_step (S (c + j)) a.step_size a.dx = .ok (S (c + j + 1))) →
    (∀ j < m, Shaped a.grid_pts (S (c + j + 1))) →
    (∀ j < m, FloatOps.lt (FloatOps.round4 (timeAt E a t0 (c + j))) a.end_time = true) →
    (∀ j < m, isRecorded2 E a t0 (c + j + 1) = true → nanState E.toEnv (S (c + j + 1)) = false) →
    Inv a.toArgs a.properties a.grid_pts ns f buf i →
    ∃ f' buf' i', afterSaves a.buffer_length f buf i (loopSaves2 E a t0 S c m) = (f', buf', i') ∧
      Inv a.toArgs a.properties a.grid_pts ns f' buf' i' ∧
      ∀ fuel, Steps a.output_path (loop2 E hw a t0 (fuel + m) (loopState E a t0 S c buf i)) f
        (loop2 E hw a t0 fuel (loopState E a t0 S (c + m) buf' i')) f' := by
  induction m with
  | zero => exact fun c f buf i _ _ _ _ hI => ⟨f, buf, i, rfl, hI, fun _ => Steps.refl _ _⟩
  | succ m ih =>
    intro c f buf i hT hS hB hN hI
    obtain ⟨f1, buf1, i1, e1, hI1, h1⟩ := steps_iter (t0 := t0) hs hok (hT 0 (by omega)) (hS 0 (by omega))
      (hB 0 (by omega)) hI
    obtain ⟨f', buf', i', e, hI', hd⟩ := ih (c + 1) f1 buf1 i1
      (fun j hj => by have := hT (j + 1) (by omega); rwa [show c + (j + 1) = c + 1 + j by omega] at this)
      (fun j hj => by have := hS (j + 1) (by omega); rwa [show c + (j + 1) = c + 1 + j by omega] at this)
      (fun j hj => by have := hB (j + 1) (by omega); rwa [show c + (j + 1) = c + 1 + j by omega] at this)
      (fun j hj => by have := hN (j + 1) (by omega); rwa [show c + (j + 1) = c + 1 + j by omega] at this) hI1
    rw [loopSaves2_split, afterSaves_append]
    rw [Nat.add_zero] at e1 h1
    rw [e1]
    refine ⟨f', buf', i', e, hI', fun fuel => ?_⟩
    have h2 := h1 (fuel + m)
    rw [if_neg] at h2
    · rw [show c + (m + 1) = c + 1 + m by omega]
      exact h2.trans (hd fuel)
    · rintro ⟨hr, hn⟩
      have := hN 0 (by omega) (by rw [Nat.add_zero]; exact hr)
      rw [Nat.add_zero, hn] at this
      cases this

theorem does_loop2 {E : Env2 α β} {hw : Solver α} {a : Args2 α} {ns : ℕ} {t0 : α}
    (hs : SavesAs E.toEnv a.downsample_factor a.grid_pts ns) (hok : PropsOk E a) {S : ℕ → NS (Cell α)} {m fuel : ℕ}
    (hfuel : m < fuel) (hT : Trajectory hw a.step_size a.dx m S) (hS : ∀ n, 1 ≤ n → n ≤ m → Shaped a.grid_pts (S n))
    (hst : StopsAfter2 E a t0 S m) {f : H5 α β} {buf : NS (Buf β)} {i : ℕ}
    (hI : Inv a.toArgs a.properties a.grid_pts ns f buf i) :
    ∃ f' buf' i', afterSaves a.buffer_length f buf i (loopSaves2 E a t0 S 0 m) = (f', buf', i') ∧
      Inv a.toArgs a.properties a.grid_pts ns f' buf' i' ∧
      Does a.output_path (loop2 E hw a t0 fuel (loopState E a t0 S 0 buf i)) f
        (some (loopState E a t0 S m buf' i')) f' := by
  by_cases hk : 1 ≤ m ∧ isRecorded2 E a t0 m = true ∧ nanState E.toEnv (S m) = true
  · -- the loop is left because of a NaN
    obtain ⟨m, rfl⟩ : ∃ m', m = m' + 1 := ⟨m - 1, by omega⟩
    obtain ⟨f1, buf1, i1, e1, hI1, h1⟩ := steps_loop2 (hw := hw) (t0 := t0) hs hok (S := S) m 0 f buf i
      (fun j hj => by rw [Nat.zero_add]; exact hT j (by omega))
      (fun j hj => by rw [Nat.zero_add]; exact hS (j + 1) (by omega) (by omega))
      (fun j hj => by rw [Nat.zero_add]; exact hst.before j (by omega))
      (fun j hj => by rw [Nat.zero_add]; exact hst.noNaN (j + 1) (by omega) (by omega)) hI
    obtain ⟨f', buf', i', e, hI', h2⟩ := steps_iter (t0 := t0) hs hok (hT m (by omega)) (hS (m + 1) (by omega) (by omega))
      (hst.before m (by omega)) hI1
    have hsplit : loopSaves2 E a t0 S 0 (m + 1) = loopSaves2 E a t0 S 0 m ++ loopSaves2 E a t0 S m 1 := by
      unfold loopSaves2
      rw [← List.map_append, ← List.filter_append, Nat.zero_add, Nat.add_comm m 1, List.range'_append_1, Nat.add_comm 1 m]
    rw [hsplit, afterSaves_append, e1]
    refine ⟨f', buf', i', e, hI', ?_⟩
    have h3 := h1 (fuel - m)
    rw [Nat.sub_add_cancel (by omega), Nat.zero_add] at h3
    obtain ⟨r, hr⟩ : ∃ r, fuel - m = r + 1 := ⟨fuel - m - 1, by omega⟩
    rw [hr] at h3
    have h4 := h2 r
    rw [if_pos hk.2] at h4
    exact (h3.trans h4).does (Does.pure _)
  · have hlt := hst.stop.resolve_right hk
    have hN : ∀ j, 1 ≤ j → j ≤ m → isRecorded2 E a t0 j = true → nanState E.toEnv (S j) = false := by
      intro j h1 h2 h3
      rcases Nat.lt_or_ge j m with h | h
      · exact hst.noNaN j h1 h h3
      · have : j = m := by omega
        subst this
        by_contra hn
        exact hk ⟨h1, h3, by simpa using hn⟩
    obtain ⟨f1, buf1, i1, e1, hI1, h1⟩ := steps_loop2 (hw := hw) (t0 := t0) hs hok (S := S) m 0 f buf i
      (fun j hj => by rw [Nat.zero_add]; exact hT j (by omega))
      (fun j hj => by rw [Nat.zero_add]; exact hS (j + 1) (by omega) (by omega))
      (fun j hj => by rw [Nat.zero_add]; exact hst.before j (by omega))
      (fun j hj => by rw [Nat.zero_add]; exact hN (j + 1) (by omega) (by omega)) hI
    refine ⟨f1, buf1, i1, e1, hI1, ?_⟩
    have h3 := h1 (fuel - m)
    rw [Nat.sub_add_cancel (by omega), Nat.zero_add] at h3
    obtain ⟨r, hr⟩ : ∃ r, fuel - m = r + 1 := ⟨fuel - m - 1, by omega⟩
    rw [hr] at h3
    refine h3.does ?_
    rw [loop2, if_neg (by simp only [loopState]; rw [hlt]; simp)]
    exact Does.pure _

/-- the file at the end: the buffer is emptied only after `recording_start_time` -/
def lastFile2 (a : Args2 α) (t : α) (f : H5 α β) (buf : NS (Buf β)) (i : ℕ) : H5 α β :=
  if flushes2 a t then finalFile f buf i else f

theorem does_simulate2 {E : Env2 α β} {hw : Solver α} {a : Args2 α} {ns : ℕ}
    (hs : SavesAs E.toEnv a.downsample_factor a.grid_pts ns) (hok : PropsOk E a) {S : ℕ → NS (Cell α)} {m fuel : ℕ}
    (hfuel : m < fuel) {p : NS (Cell α)} {params : NS (Attr α)} {t0 : α} {om phi : Cell α} {dxa : Attr α}
    (h1 : E.HW params = .ok hw) (h2 : p.get? "omega" = some om) (h3 : params.get? "dx" = some dxa)
    (h4 : hw.get_phi om (E.attrNum dxa) = .ok phi) (h5 : S 0 = p.set "phi" phi)
    (hT : Trajectory hw a.step_size a.dx m S) (hS : ∀ n, 1 ≤ n → n ≤ m → Shaped a.grid_pts (S n))
    (hst : StopsAfter2 E a t0 S m) {f : H5 α β} {buf : NS (Buf β)} {i : ℕ}
    (hI : Inv a.toArgs a.properties a.grid_pts ns f buf i) :
    ∃ f' buf' i', afterSaves a.buffer_length f buf i (loopSaves2 E a t0 S 0 m) = (f', buf', i') ∧
      Inv a.toArgs a.properties a.grid_pts ns f' buf' i' ∧
      Does a.output_path (simulate2 E a ⟨p, buf, i⟩ params t0 fuel) f (some ()) (lastFile2 a (timeAt E a t0 m) f' buf' i') := by
  obtain ⟨f', buf', i', e, hI', hd⟩ := does_loop2 (hw := hw) (t0 := t0) hs hok hfuel hT hS hst hI
  refine ⟨f', buf', i', e, hI', ?_⟩
  unfold simulate2
  refine (Does.lift h1).bind ?_
  refine (Does.lift (NS.getItem_of_get? h2)).bind ?_
  refine (Does.lift (NS.getItem_of_get? h3)).bind ?_
  refine (Does.lift h4).bind ?_
  have h0 : (⟨⟨p.set "phi" phi, buf, i⟩, 0, [], t0⟩ : LoopState α β) = loopState E a t0 S 0 buf i := by
    unfold loopState
    rw [h5]
    simp [usedAt, timeAt]
  simp only [h0]
  refine hd.bind ?_
  simp only
  unfold lastFile2 flushes2 finalFile
  have hct : (loopState E a t0 S m buf' i' : LoopState α β).current_time = timeAt E a t0 m := rfl
  have hbi : (loopState E a t0 S m buf' i' : LoopState α β).buffer_index = i' := rfl
  rw [hct, hbi]
  by_cases hf : FloatOps.lt a.recording_start_time (timeAt E a t0 m) = true
  · rw [hf]
    by_cases hi : 0 < i'
    · simp only [hi, decide_true, Bool.and_self, if_true]
      exact (does_append_h5 hi hI'.lt.le buf' hI'.ok).bind (Does.pure _)
    · simp only [hi, decide_false, Bool.and_false, if_false, if_true]
      exact Does.pure _
  · have hf' : FloatOps.lt a.recording_start_time (timeAt E a t0 m) = false := by simpa using hf
    rw [hf']
    simp only [Bool.false_and]
    exact Does.pure _

end Verif
