import Verif.Props.Run2

/-!
# C71: broken files are not continued
-/

set_option linter.unusedSectionVars false

namespace Verif.Props

open H5IO H5 Run Run2

variable {α β : Type} [Casts α β] [Zero α] [Inhabited α] [Inhabited β] [FloatOps α]

/-- the state (density, vorticity, potential, time) contains a NaN, or its density
or its vorticity is zero everywhere -/
def BrokenState (E : Env α β) (d o p : Cell α) (t0 : α) : Prop :=
  E.hasNaN d = true ∨ E.hasNaN o = true ∨ E.hasNaN p = true ∨ E.hasNaN (.num t0) = true ∨
    E.allZero d = true ∨ E.allZero o = true

/-- The file `f` is an output file of a run, from which the state `d`, `o`, `p` at
time `t0` and the parameters `params` are loaded. -/
structure Holds (f : H5 α β) (n ns : ℕ) (states : Bool) (d o p : Cell α) (t0 : α) (params : NS (Attr α)) : Prop where
  output : OutputFile f n ns states
  density : loadedValue f "density" = some d
  omega : loadedValue f "omega" = some o
  phi : loadedValue f "phi" = some p
  time : ∃ r x, f.dsets "time" = some (.rows .one r) ∧ r.getLast? = some (.num x) ∧ Casts.f64 x = t0
  restored : restoreParams f.attrs restoredKeys = .ok params

theorem checkLoaded_broken {E : Env α β} {d o p : Cell α} {t0 : α} (h : BrokenState E d o p t0) :
    ∃ msg, checkLoaded E [("density", d), ("omega", o), ("phi", p), ("age", .num t0)]
      = .error (.baseException msg) := by
  unfold BrokenState at h
  simp only [checkLoaded, true_or, or_true, true_and]
  by_cases h1 : E.hasNaN d = true
  · exact ⟨_, if_pos h1⟩
  rw [if_neg h1]
  by_cases h2 : E.allZero d = true
  · exact ⟨_, if_pos h2⟩
  rw [if_neg h2]
  by_cases h3 : E.hasNaN o = true
  · exact ⟨_, if_pos h3⟩
  rw [if_neg h3]
  by_cases h4 : E.allZero o = true
  · exact ⟨_, if_pos h4⟩
  rw [if_neg h4]
  by_cases h5 : E.hasNaN p = true
  · exact ⟨_, if_pos h5⟩
  rw [if_neg h5, if_neg fun h => absurd h.1 (by decide)]
  have h6 : E.hasNaN (.num t0) = true := by simpa [h1, h2, h3, h4, h5] using h
  exact ⟨_, if_pos h6⟩

theorem continue_state {f : H5 α β} {n ns : ℕ} {states : Bool} {d o p : Cell α} {t0 : α} {params : NS (Attr α)}
    (h : Holds f n ns states d o p t0 params) {path : String} {σ : St α β} (hf : σ.fs path = some f) :
    ∃ σ', (continue_h5_file path fieldList : IOM α β _) σ
      = (.ok ([("density", d), ("omega", o), ("phi", p), ("age", .num t0)], params), σ') ∧ σ'.fs = σ.fs := by
  obtain ⟨r, x, t1, t2, t3⟩ := h.time
  have hd := does_continue (path := path) h.output h.density h.omega h.phi t1 t2 h.restored
  rw [t3] at hd
  obtain ⟨σ', e1, e2⟩ := hd σ hf
  refine ⟨σ', e1, ?_⟩
  rw [e2]; funext q
  by_cases hq : q = path
  · subst hq; rw [upd_same, hf]
  · rw [upd_ne _ _ hq]

/-- **C71 for `run`.** A call with `continue_file=True` on a file whose last state
contains a NaN, or has zero density or zero vorticity, raises and changes no file. -/
theorem C71_run_refuses {E : Env α β} {a : Args α} {σ : St α β} {f : H5 α β} {n ns ns' : ℕ} {states : Bool}
    {d o p : Cell α} {t0 : α} {params : NS (Attr α)} (hpath : a.output_path ≠ "")
    (hdim : saveDim a.grid_pts a.downsample_factor = .ok ns') (hf : σ.fs a.output_path = some f)
    (h1 : a.force_recompute = false) (h2 : a.continue_file = true) (h : Holds f n ns states d o p t0 params)
    (hb : BrokenState E d o p t0) :
    (∃ msg, (run E a σ).1 = .error (.baseException msg)) ∧ (run E a σ).2.fs = σ.fs := by
  obtain ⟨msg, hm⟩ := checkLoaded_broken hb
  obtain ⟨σ', e1, e2⟩ := continue_state h hf
  have hl : ∀ {X : Type} (x : X) (σ : St α β), (IOM.lift (.ok x) : IOM α β X) σ = (.ok x, σ) := fun _ _ => rfl
  have hp : ∀ {X : Type} (x : X) (σ : St α β), (pure x : IOM α β X) σ = (.ok x, σ) := fun _ _ => rfl
  have hle : ∀ {X : Type} (e : PyErr) (σ : St α β), (IOM.lift (.error e) : IOM α β X) σ = (.error e, σ) := fun _ _ => rfl
  have key : setup E a σ = (.error (.baseException msg), σ') := by
    unfold setup
    rw [hdim, IOM.bind_ok (hl ns' _), IOM.bind_ok (hl ns' _)]
    have hi : (isFile a.output_path : IOM α β Bool) σ = (.ok (σ.fs a.output_path).isSome, σ) := rfl
    rw [IOM.bind_ok hi, hf, h1, h2]
    simp only [Option.isSome_some, Bool.not_false, Bool.and_self, if_true]
    rw [IOM.bind_ok e1]
    simp only
    have hage : NS.getItem [("density", d), ("omega", o), ("phi", p), ("age", Cell.num t0)] "age" = .ok (.num t0) := rfl
    rw [hage, IOM.bind_ok (hl (Cell.num t0) _)]
    simp only
    rw [IOM.bind_ok (hp t0 _), hm, IOM.bind_error (hle _ _)]
  have : run E a σ = (.error (.baseException msg), σ') := by
    unfold run
    rw [if_neg hpath, IOM.bind_error key]
  rw [this]
  exact ⟨⟨msg, rfl⟩, e2⟩

/-- **C71 for `run2`.** -/
theorem C71_run2_refuses {E : Env2 α β} {a : Args2 α} {σ : St α β} {f : H5 α β} {n ns ns' fuel : ℕ} {states : Bool}
    {d o p : Cell α} {t0 : α} {params : NS (Attr α)} (hpath : a.output_path ≠ "") (hsn : 1 ≤ a.snaps)
    (hearly : ∃ q z, FloatOps.div a.end_time a.step_size = .ok q ∧ FloatOps.toInt q = .ok z)
    (hdim : saveDim a.grid_pts a.downsample_factor = .ok ns') (hf : σ.fs a.output_path = some f)
    (h1 : a.force_recompute = false) (h2 : a.continue_file = true) (h : Holds f n ns states d o p t0 params)
    (hb : BrokenState E.toEnv d o p t0) :
    (∃ msg, (run2 E a fuel σ).1 = .error (.baseException msg)) ∧ (run2 E a fuel σ).2.fs = σ.fs := by
  obtain ⟨q, z, hq, hz⟩ := hearly
  obtain ⟨msg, hm⟩ := checkLoaded_broken hb
  obtain ⟨σ', e1, e2⟩ := continue_state h hf
  have hl : ∀ {X : Type} (x : X) (σ : St α β), (IOM.lift (.ok x) : IOM α β X) σ = (.ok x, σ) := fun _ _ => rfl
  have hp : ∀ {X : Type} (x : X) (σ : St α β), (pure x : IOM α β X) σ = (.ok x, σ) := fun _ _ => rfl
  have hle : ∀ {X : Type} (e : PyErr) (σ : St α β), (IOM.lift (.error e) : IOM α β X) σ = (.error e, σ) := fun _ _ => rfl
  have key : setup2 E a σ = (.error (.baseException msg), σ') := by
    unfold setup2
    rw [hdim, IOM.bind_ok (hl ns' _), IOM.bind_ok (hl ns' _)]
    have hi : (isFile a.output_path : IOM α β Bool) σ = (.ok (σ.fs a.output_path).isSome, σ) := rfl
    rw [IOM.bind_ok hi, hf, h1, h2]
    simp only [Option.isSome_some, Bool.not_false, Bool.and_self, if_true]
    rw [IOM.bind_ok e1]
    simp only
    have hage : NS.getItem [("density", d), ("omega", o), ("phi", p), ("age", Cell.num t0)] "age" = .ok (.num t0) := rfl
    rw [hage, IOM.bind_ok (hl (Cell.num t0) _)]
    simp only
    rw [IOM.bind_ok (hp t0 _), hm, IOM.bind_error (hle _ _)]
  have : run2 E a fuel σ = (.error (.baseException msg), σ') := by
    unfold run2
    rw [hq, IOM.bind_ok (hl q _), hz, IOM.bind_ok (hl z _), if_neg (by omega), if_neg hpath, IOM.bind_error key]
  rw [this]
  exact ⟨⟨msg, rfl⟩, e2⟩

/-! ## non-vacuity -/

/-- `demoOld` with a zero vorticity -/
def brokenOld : H5 ℚ ℚ := { demoOld with
  dsets := fun k => if k = "state_omega" then some (.full (Arr.tab 2 2 fun _ _ => 0)) else demoOld.dsets k }

theorem brokenOld_ne {k : String} (h : k ≠ "state_omega") : brokenOld.dsets k = demoOld.dsets k := if_neg h

theorem broken_holds : Holds brokenOld 2 2 true (.arr (demoField 14)) (.arr (Arr.tab 2 2 fun _ _ => 0))
    (.arr (demoField 14)) 2 demoArgs.physics where
  output := by
    refine ⟨fun k hk => ?_, fun _ k hk => ?_⟩
    · have hk' := hk
      simp only [fieldList, List.mem_cons, List.not_mem_nil, or_false] at hk
      rw [brokenOld_ne (by rintro rfl; simp at hk)]
      exact demo_continued.output.rows k hk'
    · by_cases h : "state_" ++ k = "state_omega"
      · rw [h]
        exact ⟨Arr.tab 2 2 fun _ _ => 0, rfl, rfl, rfl⟩
      · rw [brokenOld_ne h]
        exact demo_continued.output.states rfl k hk
  density := demo_loaded (k := "density") (by decide)
  omega := rfl
  phi := demo_loaded (k := "phi") (by decide)
  time := demo_continued.time
  restored := demo_continued.restored

theorem broken_state (E : Env ℚ ℚ) (hE : E.allZero = demoRunEnv.allZero) :
    BrokenState E (.arr (demoField 14)) (.arr (Arr.tab 2 2 fun _ _ => 0)) (.arr (demoField 14)) 2 := by
  refine .inr (.inr (.inr (.inr (.inr ?_))))
  rw [hE]
  simp only [demoRunEnv]
  rw [Arr.tab_at' _ _ _ (by decide) (by decide), Arr.tab_at' _ _ _ (by decide) (by decide)]
  rfl

example := C71_run_refuses (E := demoRunEnv) (a := demoCont) (σ := ⟨fun _ => some brokenOld, []⟩)
  (by simp [demoCont, demoArgs]) demo_saves.dim rfl rfl rfl broken_holds (broken_state _ rfl)

example := C71_run2_refuses (E := demoEnv2) (a := { demoArgs2 with continue_file := true }) (fuel := 3)
  (σ := ⟨fun _ => some brokenOld, []⟩) (by simp [demoArgs2, demoArgs]) (by simp [demoArgs2, demoArgs]) demo_run2_4.early
  demo_saves.dim rfl rfl rfl broken_holds (broken_state _ rfl)

end Verif.Props
