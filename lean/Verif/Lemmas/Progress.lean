import Verif.Model.Progress
import Verif.Lemmas.Run2

/-!
# Lemmas about the progress bar of `run2.py`
-/

set_option linter.unusedSectionVars false

namespace Verif

open H5 H5IO Run Run2

variable {α β : Type} [Casts α β] [Zero α] [Inhabited α] [Inhabited β] [FloatOps α]

/-- apply a function to the result of a call -/
def IOM.mapR {X Y : Type} (g : X → Y) (m : IOM α β X) : IOM α β Y := fun σ => match m σ with
  | (.ok x, σ') => (.ok (g x), σ')
  | (.error e, σ') => (.error e, σ')

theorem IOM.mapR_bind {X Y Z : Type} (g : Y → Z) (m : IOM α β X) (k : X → IOM α β Y) :
    IOM.mapR g (m >>= k) = m >>= fun x => IOM.mapR g (k x) := by
  funext σ
  simp only [IOM.mapR, IOM.bind_apply]
  rcases m σ with ⟨x | x, σ'⟩ <;> rfl

theorem IOM.bind_mapR {X Y Z : Type} (g : X → Y) (m : IOM α β X) (k : Y → IOM α β Z) :
    IOM.mapR g m >>= k = m >>= fun x => k (g x) := by
  funext σ
  simp only [IOM.mapR, IOM.bind_apply]
  rcases m σ with ⟨x | x, σ'⟩ <;> rfl

theorem IOM.mapR_pure {X Y : Type} (g : X → Y) (x : X) : IOM.mapR g (Pure.pure x : IOM α β X) = Pure.pure (g x) := rfl
theorem IOM.mapR_raise {X Y : Type} (g : X → Y) (e : PyErr) : IOM.mapR g (IOM.raise e : IOM α β X) = IOM.raise e := rfl

theorem record2P_forget (E : Env2 α β) (a : Args2 α) (s : LoopState α β) (old : NS (Cell α)) :
    IOM.mapR (fun x => (x.1, x.2.1)) (record2P E a s old) = record2 E a s := by
  unfold record2P record2
  split
  · simp only [IOM.mapR_bind, IOM.mapR_pure]
  · rfl

theorem loop2P_forget (E : Env2 α β) (hw : Solver α) (a : Args2 α) (sp : String) (t0 : α) (fuel : ℕ) (s : BarState α β) :
    IOM.mapR (Option.map BarState.toLoopState) (loop2P E hw a sp t0 fuel s) = loop2 E hw a t0 fuel s.toLoopState := by
  induction fuel generalizing s with
  | zero => rfl
  | succ fuel ih =>
    rw [loop2P, loop2]
    split
    · generalize hw.rk4_step s.plasma a.step_size a.dx = r
      cases r with
      | error e => cases e <;> first | rfl | exact ih s
      | ok plasma =>
        simp only [IOM.mapR_bind]
        rw [← record2P_forget (old := s.new_val), IOM.bind_mapR]
        congr 1
        funext x
        obtain ⟨t, b, nv⟩ := x
        dsimp only
        split
        · rw [IOM.mapR_bind]
          congr 1
          funext d
          split
          · rfl
          · rw [ih]
        · rw [ih]
    · rfl

theorem simulate2P_forget (E : Env2 α β) (a : Args2 α) (sp : String) (s : RunState α β) (pp : NS (Attr α)) (t0 : α)
    (fuel : ℕ) : IOM.mapR (Option.map fun _ => ()) (simulate2P E a sp s pp t0 fuel) = simulate2 E a s pp t0 fuel := by
  unfold simulate2P simulate2
  simp only [IOM.mapR_bind]
  congr 1; funext hw; congr 1; funext o; congr 1; funext dx; congr 1; funext phi
  rw [← loop2P_forget E hw a sp t0 fuel
    { s with plasma := s.plasma.set "phi" phi, iteration_count := 0, used_time_steps := [], current_time := t0,
             new_val := [], shown := [] }, IOM.bind_mapR]
  congr 1
  funext x
  cases x with
  | none => rfl
  | some x =>
    simp only [Option.map_some]
    split
    · rw [IOM.mapR_bind]; rfl
    · rfl

/-- what is displayed does not influence anything else -/
theorem run2P_forget (E : Env2 α β) (a : Args2 α) (sp : String) (fuel : ℕ) :
    IOM.mapR (Option.map fun _ => ()) (run2P E a sp fuel) = run2 E a fuel := by
  unfold run2P run2
  simp only [IOM.mapR_bind]
  congr 1; funext q; congr 1; funext z
  split
  · rfl
  split
  · rfl
  rw [IOM.mapR_bind]
  congr 1; funext x
  cases x with
  | none => rfl
  | some x =>
    simp only [IOM.mapR_bind]
    rw [← simulate2P_forget E a sp, IOM.bind_mapR]
    congr 1; funext y
    cases y with
    | none => rfl
    | some y =>
      simp only [Option.map_some]
      split
      · rw [IOM.mapR_bind]; rfl
      · rfl

/-! ### what is displayed -/

theorem propLoop_keys {E : Env2 α β} {dx c1 : α} {plasma : NS (Cell α)} {names : List String} {nv nv' : NS (Cell α)}
    (h : propLoop E dx c1 plasma names nv = .ok nv') :
    (∀ name ∈ names, E.propertyFn name ≠ none) ∧
      ∀ k, (∀ name, k ≠ "fullres_" ++ name) → nv'.get? k = nv.get? k := by
  induction names generalizing nv with
  | nil =>
    obtain rfl : nv = nv' := by simpa [propLoop] using h
    simp
  | cons name names ih =>
    rw [propLoop] at h
    cases hF : E.propertyFn name with
    | none => rw [hF] at h; cases h
    | some F =>
      rw [hF] at h
      simp only [bind, Except.bind] at h
      repeat' split at h
      all_goals try cases h
      obtain ⟨h1, h2⟩ := ih h
      refine ⟨fun n hn => ?_, fun k hk => ?_⟩
      · rcases List.mem_cons.mp hn with rfl | hn
        · rw [hF]; simp
        · exact h1 n hn
      · rw [h2 k hk, NS.get?_set, if_neg (hk name)]

theorem frameLoop_keys {E : Env α β} {factor : α} {flag : Bool} {rest nv last nv' last' : NS (Cell α)}
    (h : frameLoop E factor flag rest nv last = .ok (nv', last')) (k : String) (hk : isField k = false) :
    nv'.get? k = nv.get? k := by
  induction rest generalizing nv last with
  | nil =>
    obtain ⟨rfl, rfl⟩ : nv = nv' ∧ last = last' := by simpa [frameLoop] using h
    rfl
  | cons p rest ih =>
    obtain ⟨q, v⟩ := p
    rw [frameLoop] at h
    split at h
    · next hq =>
      have hne : k ≠ q := by rintro rfl; simp [hk] at hq
      simp only [bind, Except.bind] at h
      split at h
      · cases h
      · next w hw =>
        rw [ih h]
        unfold putDown at hw
        split at hw
        · simp only [bind, Except.bind] at hw
          split at hw
          · cases hw
          · cases hw
            rw [NS.get?_set, if_neg hne]
        · cases hw
          rfl
    · exact ih h

/-- no property has the name of another entry of a frame -/
def PlainNames (E : Env2 α β) : Prop :=
  ∀ name, E.propertyFn name ≠ none → name ∉ ["time", "density", "omega", "phi"] ∧ ∀ name', name ≠ "fullres_" ++ name'

theorem record2P_new {E : Env2 α β} {a : Args2 α} {sp : String} (hn : PlainNames E) (hp : sp ∈ a.properties)
    {s t : LoopState α β} {b : Bool} {old nv : NS (Cell α)} {σ σ' : St α β} (h0 : old.get? sp = none)
    (h : record2P E a s old σ = (.ok (t, b, nv), σ')) :
    nv.get? sp = none ∧ t.iteration_count = s.iteration_count := by
  unfold record2P at h
  split at h
  · rw [IOM.bind_apply] at h
    split at h
    · next nv1 σ1 e1 =>
      rw [IOM.bind_apply] at h
      split at h
      · next x σ2 e2 =>
        obtain ⟨nv2, l⟩ := x
        dsimp only at h
        rw [IOM.bind_apply] at h
        split at h
        · next y σ3 e3 =>
          obtain ⟨buf, i⟩ := y
          dsimp only at h
          cases h
          have e1 := (Prod.ext_iff.mp e1).1
          have e2 := (Prod.ext_iff.mp e2).1
          obtain ⟨k1, k2⟩ := propLoop_keys e1
          obtain ⟨k3, k4⟩ := hn sp (k1 sp hp)
          have hf : isField sp = false := by
            rw [Bool.eq_false_iff]
            intro h
            have := isField_iff.mp h
            simp only [fieldList, List.mem_cons, List.not_mem_nil, or_false] at this
            simp only [List.mem_cons, List.not_mem_nil, or_false, not_or] at k3
            tauto
          refine ⟨?_, rfl⟩
          rw [frameLoop_keys e2 sp hf, k2 sp k4, NS.get?_set, if_neg (by
            rintro rfl; simp at k3), get?_fieldsOf, if_neg (by simp [hf])]
        · cases h
      · cases h
    · cases h
  · cases h
    exact ⟨h0, rfl⟩

/-- invariant of the loop -/
structure BarInv (sp : String) (z : Cell α) (s : BarState α β) : Prop where
  new : s.new_val.get? sp = none
  shown : s.shown = List.replicate s.iteration_count z

theorem loop2P_shown {E : Env2 α β} {hw : Solver α} {a : Args2 α} {sp : String} {t0 : α} (hn : PlainNames E)
    (hp : sp ∈ a.properties) (hsp : sp ≠ "") {fuel : ℕ} {s s' : BarState α β} {σ σ' : St α β}
    (hI : BarInv sp (.num (FloatOps.ofInt 0)) s) (h : loop2P E hw a sp t0 fuel s σ = (.ok (some s'), σ')) :
    (∃ k, s'.shown = List.replicate k (.num (FloatOps.ofInt 0)) ∧ k ≤ s'.iteration_count ∧ s'.iteration_count ≤ k + 1 ∧
      ((∀ v, E.hasNaN v = false) → k = s'.iteration_count)) ∧
    s.iteration_count ≤ s'.iteration_count ∧
    (FloatOps.lt (FloatOps.round4 s.current_time) a.end_time = true → s.iteration_count < s'.iteration_count) := by
  induction fuel generalizing s σ with
  | zero => cases h
  | succ fuel ih =>
    rw [loop2P] at h
    split at h
    · generalize hw.rk4_step s.plasma a.step_size a.dx = r at h
      cases r with
      | error e => cases e <;> first | cases h | exact ih hI h
      | ok plasma =>
        dsimp only at h
        rw [IOM.bind_apply] at h
        split at h
        · next x σ1 e1 =>
          obtain ⟨t, b, nv⟩ := x
          obtain ⟨n1, n2⟩ := record2P_new hn hp hI.new e1
          dsimp only at h n2
          have hd : display sp nv = [.num (FloatOps.ofInt 0)] := by
            unfold display; rw [if_neg hsp, n1]; rfl
          have hI' : BarInv sp (.num (FloatOps.ofInt 0)) ({ t with new_val := nv, shown := s.shown ++ display sp nv } : BarState α β) := by
            refine ⟨n1, ?_⟩
            change s.shown ++ display sp nv = List.replicate t.iteration_count _
            rw [hd, hI.shown, n2, List.replicate_succ']
          have hrec : ∀ {σ}, loop2P E hw a sp t0 fuel { t with new_val := nv, shown := s.shown ++ display sp nv } σ
              = (.ok (some s'), σ') → _ := fun {σ} e => ih hI' e
          have fin : ∀ {σ}, loop2P E hw a sp t0 fuel { t with new_val := nv, shown := s.shown ++ display sp nv } σ
              = (.ok (some s'), σ') → _ := fun {σ} e =>
            (⟨(hrec e).1, by have := (hrec e).2.1; dsimp only at this; omega,
              fun _ => by have := (hrec e).2.1; dsimp only at this; omega⟩ :
              (∃ k, s'.shown = List.replicate k (.num (FloatOps.ofInt 0)) ∧ k ≤ s'.iteration_count ∧
                s'.iteration_count ≤ k + 1 ∧ ((∀ v, E.hasNaN v = false) → k = s'.iteration_count)) ∧
              s.iteration_count ≤ s'.iteration_count ∧
              (FloatOps.lt (FloatOps.round4 s.current_time) a.end_time = true → s.iteration_count < s'.iteration_count))
          split at h
          · rw [IOM.bind_apply] at h
            split at h
            · next d σ2 e2 =>
              split at h
              · next hnan =>
                cases h
                refine ⟨⟨s.iteration_count, hI.shown, ?_, ?_, fun hN => ?_⟩, ?_, fun _ => ?_⟩
                · change _ ≤ t.iteration_count; omega
                · change t.iteration_count ≤ _; omega
                · rw [hN] at hnan; cases hnan
                · change _ ≤ t.iteration_count; omega
                · change _ < t.iteration_count; omega
              · exact fin h
            · cases h
          · exact fin h
        · cases h
    · next hlt =>
      cases h
      exact ⟨⟨_, hI.shown, le_rfl, Nat.le_succ _, fun _ => rfl⟩, le_rfl, fun h => absurd h hlt⟩

end Verif
