import Verif.Lemmas.Progress
import Verif.Props.BadNames

/-!
# Property theorem C118: the progress bar of `run2`

The property: while `run2` works, its progress bar displays the current value of the property chosen with
`show_property`; an empty `show_property` switches this off; and displaying does not influence the simulation.
Only the last part holds.
-/

set_option linter.unusedSectionVars false

namespace Verif.Props

open H5IO H5 Run Run2 RunProperties Properties Arr Spec

section
variable {β : Type} [Casts ℝ β] [Inhabited β] [FloatOps ℝ]

theorem table_plain {E : Env2 ℝ β} (hE : E.propertyFn = propertyFncs) : PlainNames E := by
  intro name h
  rw [hE] at h
  have hm : name ∈ ["gamma_n", "gamma_n_spectral", "gamma_c", "energy", "thermal_energy", "kinetic_energy", "enstrophy",
      "enstrophy_phi", "DE", "DU", "dE_dt", "dU_dt"] := by
    by_contra hn
    simp only [List.mem_cons, List.not_mem_nil, or_false, not_or] at hn
    refine h ?_
    simp [propertyFncs, hn]
  simp only [List.mem_cons, List.not_mem_nil, or_false] at hm
  rcases hm with rfl | rfl | rfl | rfl | rfl | rfl | rfl | rfl | rfl | rfl | rfl | rfl
  all_goals
    refine ⟨by decide, fun n' e => ?_⟩
    have := congrArg String.toList e
    simp at this

/-- **C118, displaying.** The progress bar does not influence a run: the same result or exception, and the same files. -/
theorem C118_bar_is_harmless_partial {α : Type} [Casts α β] [Zero α] [Inhabited α] [FloatOps α] (E : Env2 α β) (a : Args2 α)
    (show_property : String) (fuel : ℕ) (σ : St α β) :
    (run2P E a show_property fuel σ).2 = (run2 E a fuel σ).2 ∧
    (∀ e, (run2P E a show_property fuel σ).1 = .error e ↔ (run2 E a fuel σ).1 = .error e) ∧
    ((run2P E a show_property fuel σ).1 = .ok none ↔ (run2 E a fuel σ).1 = .ok none) ∧
    ((∃ r, (run2P E a show_property fuel σ).1 = .ok (some r)) ↔ (run2 E a fuel σ).1 = .ok (some ())) := by
  have h : IOM.mapR (Option.map fun _ => ()) (run2P E a show_property fuel) σ = run2 E a fuel σ := by rw [run2P_forget]
  rw [← h]
  unfold IOM.mapR
  rcases run2P E a show_property fuel σ with ⟨e | r, σ'⟩
  · simp
  · cases r <;> simp

theorem get_ok {X Y : Type} {m : IOM ℝ β X} {k : X → IOM ℝ β Y} {σ : St ℝ β} {y : Y} (h : ((m >>= k) σ).1 = .ok y) :
    ∃ x σ', m σ = (.ok x, σ') ∧ (k x σ').1 = .ok y := by
  rw [IOM.bind_apply] at h
  split at h
  · next x σ' e => exact ⟨x, σ', e, h⟩
  · cases h

theorem setup2_time {E : Env2 ℝ β} {a : Args2 ℝ} {σ : St ℝ β} (hf : σ.fs a.output_path = none ∨ a.force_recompute = true)
    {x : Option (RunState ℝ β × NS (Attr ℝ) × ℝ)} (h : (setup2 E a σ).1 = .ok x) :
    ∃ y, x = some y ∧ y.2.2 = FloatOps.ofInt 0 := by
  unfold setup2 at h
  obtain ⟨y1, σ1, e1, h⟩ := get_ok h
  obtain ⟨y2, σ2, e2, h⟩ := get_ok h
  obtain rfl : σ = σ1 := (Prod.ext_iff.mp e1).2
  obtain rfl : σ = σ2 := (Prod.ext_iff.mp e2).2
  obtain ⟨b, σ3, e3, h⟩ := get_ok h
  cases e3
  have hb : ((σ.fs a.output_path).isSome && !a.force_recompute) = false := by
    rcases hf with hf | hf <;> simp [hf]
  rw [hb] at h
  simp only [Bool.false_eq_true, if_false] at h
  obtain ⟨_, σ4, -, h⟩ := get_ok h
  split at h
  · obtain ⟨v, σ5, -, h⟩ := get_ok h
    obtain ⟨w, σ6, -, h⟩ := get_ok h
    obtain ⟨z, σ7, -, h⟩ := get_ok h
    cases h; exact ⟨_, rfl, rfl⟩
  · cases h; exact ⟨_, rfl, rfl⟩

/-- **C118, violated.** The progress bar of every run displays 0 after every step, whatever the property and its value
(the property is looked up under its name, but stored under `fullres_...`).  Only the last step of a run that ends with a
NaN is not displayed at all. -/
theorem C118_bar_shows_zero_violated {E : Env2 ℝ β} {a : Args2 ℝ} {show_property : String} {fuel : ℕ} {σ : St ℝ β}
    (hE : E.propertyFn = propertyFncs) (hp : show_property ∈ a.properties) (hne : show_property ≠ "") {steps : ℕ}
    {shown : List (Cell ℝ)} (h : (run2P E a show_property fuel σ).1 = .ok (some (steps, shown))) :
    ∃ k, shown = List.replicate k (.num (FloatOps.ofInt 0)) ∧ k ≤ steps ∧ steps ≤ k + 1 ∧
      ((∀ v, E.hasNaN v = false) → k = steps) ∧
      (σ.fs a.output_path = none ∨ a.force_recompute = true →
        FloatOps.lt (FloatOps.round4 (FloatOps.ofInt 0)) a.end_time = true → 1 ≤ steps) := by
  unfold run2P at h
  obtain ⟨q, σ1, e1, h⟩ := get_ok h
  obtain ⟨z, σ2, e2, h⟩ := get_ok h
  obtain rfl : σ = σ1 := (Prod.ext_iff.mp e1).2
  obtain rfl : σ = σ2 := (Prod.ext_iff.mp e2).2
  split at h
  · cases h
  split at h
  · cases h
  obtain ⟨x, σ3, e3, h⟩ := get_ok h
  cases x with
  | none =>
    cases h
    refine ⟨0, rfl, le_rfl, Nat.zero_le _, fun _ => rfl, fun hf => ?_⟩
    obtain ⟨y, e, -⟩ := setup2_time hf (congrArg Prod.fst e3)
    cases e
  | some x =>
    obtain ⟨y, σ4, e4, h⟩ := get_ok h
    cases y with
    | none => cases h
    | some y =>
      have hy : y = (steps, shown) := by
        dsimp only at h
        split at h
        · obtain ⟨u, σ5, -, h⟩ := get_ok h
          cases h; rfl
        · cases h; rfl
      subst hy
      have e4 := (Prod.ext_iff.mp e4).1
      unfold simulate2P at e4
      obtain ⟨hw, σ5, -, h⟩ := get_ok e4
      obtain ⟨o, σ6, -, h⟩ := get_ok h
      obtain ⟨dx, σ7, -, h⟩ := get_ok h
      obtain ⟨phi, σ8, -, h⟩ := get_ok h
      obtain ⟨s, σ9, e9, h⟩ := get_ok h
      cases s with
      | none => cases h
      | some s =>
        have hs : s.iteration_count = steps ∧ s.shown = shown := by
          dsimp only at h
          split at h
          · obtain ⟨u, σ5, -, h⟩ := get_ok h
            cases h; exact ⟨rfl, rfl⟩
          · cases h; exact ⟨rfl, rfl⟩
        obtain ⟨rfl, rfl⟩ := hs
        obtain ⟨⟨k, k1, k2, k3, k4⟩, -, l⟩ := loop2P_shown (table_plain hE) hp hne ⟨rfl, rfl⟩ e9
        refine ⟨k, k1, k2, k3, k4, fun hf hlt => l ?_⟩
        change FloatOps.lt (FloatOps.round4 x.2.2) _ = true
        obtain ⟨y, e, ey⟩ := setup2_time hf (congrArg Prod.fst e3)
        cases e
        rw [ey]
        exact hlt

end

attribute [local instance] exactOps

/-- **C118, violated.** An empty `show_property` does not switch the display off: `run2` adds the empty name to the
properties it computes, and raises `KeyError` (or the error of another unusable name) before the first step. -/
theorem C118_empty_name_violated {β : Type} [Casts ℝ β] [Inhabited β] {E : Env2 ℝ β} {a : Args2 ℝ} {σ : St ℝ β} {ns fuel : ℕ}
    {passed : List String} (hpass : a.properties = withShown "" passed) (hnodup : passed.Nodup)
    (hpath : a.output_path ≠ "") (hfresh : σ.fs a.output_path = none ∨ a.force_recompute = true) (hsnaps : 1 ≤ a.snaps)
    (hstep : a.step_size ≠ 0) (hsaves : SavesAs E.toEnv a.downsample_factor a.grid_pts ns) (hg : 0 < a.grid_pts)
    (hinit : Shaped a.grid_pts a.plasma0) (hE : E.propertyFn = propertyFncs) (hrec : a.recording_start_time = 0) :
    ∃ name ∈ a.properties, name ∉ propertyTable ∧ (run2 E a fuel σ).1 = .error (nameError name) := by
  have hmem : "" ∈ a.properties := by
    rw [hpass]; unfold withShown
    split
    · assumption
    · simp
  have hnd : a.properties.Nodup := by
    rw [hpass]; unfold withShown
    split
    · exact hnodup
    · next hn =>
      rw [List.nodup_append]
      refine ⟨hnodup, by simp, fun x hx y hy => ?_⟩
      rintro rfl
      simp at hy
      exact hn (hy ▸ hx)
  refine (C104_raises_at_once (fuel := fuel) (ns := ns) ⟨hpath, hfresh, hsnaps, ?_, hsaves, hnd, hg, hinit, hE,
    ⟨"", hmem, by decide⟩⟩ (by simp [hrec, FloatOps.eq, FloatOps.ofInt])).1
  refine ⟨a.end_time / a.step_size, truncZ (a.end_time / a.step_size), ?_, rfl⟩
  change (if a.step_size = 0 then _ else _) = _
  rw [if_neg hstep]

/-! ### non-vacuity -/

attribute [-instance] physCasts
attribute [local instance] exactCasts

theorem energy_pos (g p : ℕ → ℕ → ℝ) (hg : ∀ i j, 1 ≤ g i j) (dx : ℝ) :
    ∃ x, get_energy (tab 8 8 g) (tab 8 8 p) dx = .ok x ∧ 0 < x := by
  obtain ⟨f, hf⟩ : ∃ f : Fld 8 8, tab 8 8 g = ofField f := exists_ofField (tab 8 8 g)
  obtain ⟨q, hq⟩ : ∃ f : Fld 8 8, tab 8 8 p = ofField f := exists_ofField (tab 8 8 p)
  have h1 : ∀ i j, 1 ≤ f i j := by
    intro i j
    have e := ofField_at' f (ZMod.val_lt i) (ZMod.val_lt j)
    rw [← hf, tab_at' _ _ _ (ZMod.val_lt i) (ZMod.val_lt j), ZMod.natCast_zmod_val, ZMod.natCast_zmod_val] at e
    rw [← e]; exact hg _ _
  rw [hf, hq]
  refine ⟨_, energy_ofField f q dx, half_pos ?_⟩
  unfold avg
  refine div_pos ?_ (by norm_num)
  unfold S
  refine Finset.sum_pos (fun i _ => Finset.sum_pos (fun j _ => ?_) Finset.univ_nonempty) Finset.univ_nonempty
  have := h1 i j
  positivity

/-- a run whose recorded energy is not 0, displaying 0 after every step -/
example : ∃ fuel steps shown f x rows, (run2P propsEnv (propsArgs 1) "energy" fuel ⟨fun _ => none, []⟩).1 = .ok (some (steps, shown)) ∧
    shown = List.replicate steps (.num 0) ∧ 1 ≤ steps ∧
    (run2P propsEnv (propsArgs 1) "energy" fuel ⟨fun _ => none, []⟩).2.fs "run.h5" = some f ∧
    f.dsets "fullres_energy" = some (.rows .one (.num x :: rows)) ∧ x ≠ 0 := by
  obtain ⟨A, B, C, T, -, -, -, -, hT⟩ := fresh2_physics (props_good 1)
  obtain ⟨m, hm, h⟩ := hT (1 / 5)
  obtain ⟨h0, -⟩ := C96_new_file_partial h rfl rfl (fun _ => rfl) (propsArgs_names 1) (props_noDown 1)
    (by decide : 0 < 8) rfl (Nat.lt_succ_self m)
  obtain ⟨p1, -, -, p2⟩ := C118_bar_is_harmless_partial propsEnv (propsArgs 1) "energy" (m + 1) ⟨fun _ => none, []⟩
  obtain ⟨⟨steps, shown⟩, hr⟩ := p2.2 h0
  obtain ⟨k, k1, -, -, k2, k3⟩ := C118_bar_shows_zero_violated rfl
    (by decide : "energy" ∈ ["gamma_c", "energy", "kinetic_energy"]) (by decide) hr
  obtain rfl := k2 fun _ => rfl
  obtain ⟨f, r1, -, -, -, -, -, r2, -⟩ := run2_result h (Nat.lt_succ_self m)
  obtain ⟨rows, r3, r4⟩ := r2 "energy" (by decide : "energy" ∈ ["gamma_c", "energy", "kinetic_energy"])
    (by decide : "fullres_energy" ∉ ["gamma_c", "energy", "kinetic_energy"])
  have r5 : (run2P propsEnv (propsArgs 1) "energy" (m + 1) ⟨fun _ => none, []⟩).2.fs "run.h5" = some f := by rw [p1]; exact r1
  have ht : timeAt propsEnv ((propsArgs 1).until (1 / 5)) (FloatOps.ofInt 0) m = (m : ℝ) * (1 / 40) := by
    simp only [timeAt]
    simp [propsArgs, physArgs2, physArgs, Args2.until, propsEnv, physEnv2, FloatOps.ofInt, FloatOps.add]
  have hm0 : m ≠ 0 := by
    rintro rfl
    have h2 : (1 / 5 : ℝ) ≤ FloatOps.round4 (((0 : ℕ) : ℝ) * (propsArgs 1).step_size) := hm.1
    have h3 : roundEven (0 : ℝ) ≤ 0 := roundEven_le_int (by norm_num)
    have h4 : (roundEven (0 : ℝ) : ℝ) ≤ 0 := by exact_mod_cast h3
    simp only [FloatOps.round4, Nat.cast_zero, zero_mul] at h2
    linarith [div_le_div_of_nonneg_right h4 (by norm_num : (0 : ℝ) ≤ 10 ^ 4)]
  have hw : ∃ l, written2 ((propsArgs 1).until (1 / 5)) (timeAt propsEnv ((propsArgs 1).until (1 / 5)) (FloatOps.ofInt 0) m)
      (frames2 propsEnv ((propsArgs 1).until (1 / 5)) (fun n => toCells (T n)) m)
      = (FloatOps.ofInt 0, (propsArgs 1).plasma0) :: l := by
    unfold written2 flushes2
    rw [ht, if_pos (by
      have : (0 : ℝ) < m := by exact_mod_cast Nat.pos_of_ne_zero hm0
      simp [FloatOps.lt, Args2.until, propsArgs, physArgs2, physArgs, this])]
    unfold frames2
    rw [if_pos (by simp [FloatOps.eq, FloatOps.ofInt, Args2.until, propsArgs, physArgs2, physArgs])]
    exact ⟨_, rfl⟩
  obtain ⟨l, hw⟩ := hw
  rw [hw] at r4
  cases r4 with
  | cons hx _ =>
    obtain ⟨x, ⟨F, n, p, o, f1, f2, f3, f4, f5⟩, rfl⟩ := hx
    have f1 : propertyFncs "energy" = some F := f1
    rw [propertyFncs_eq (by decide)] at f1
    cases f1
    cases f2; cases f3; cases f4
    refine ⟨m + 1, _, shown, f, _, _, hr, ?_, k3 (.inl rfl) ?_, r5, r3, ?_⟩
    · rw [k1]; simp [FloatOps.ofInt]
    · have h3 : roundEven (0 : ℝ) ≤ 0 := roundEven_le_int (by norm_num)
      have h4 : (roundEven (0 : ℝ) : ℝ) ≤ 0 := by exact_mod_cast h3
      have h5 := div_le_div_of_nonneg_right h4 (by norm_num : (0 : ℝ) ≤ 10 ^ 4)
      change decide ((roundEven (((0 : ℤ) : ℝ) * 10 ^ 4) : ℝ) / 10 ^ 4 < 1 / 5) = true
      rw [Int.cast_zero, zero_mul, decide_eq_true_eq]
      linarith
    · obtain ⟨y, y1, y2⟩ := energy_pos (fun i j => (1 + i * j : ℝ)) (fun i _ => (i : ℝ))
        (fun i j => le_add_of_nonneg_right (by positivity)) (propsArgs 1).dx
      have f5 : get_energy (tab 8 8 fun i j => (1 + i * j : ℝ)) (tab 8 8 fun i _ => (i : ℝ)) (propsArgs 1).dx = .ok x := f5
      rw [y1] at f5
      cases f5
      exact y2.ne'

/-- `properties=["energy"]` and `show_property=""`: `KeyError` -/
example : (run2 propsEnv { propsArgs 1 with properties := withShown "" ["energy"] } 100 ⟨fun _ => none, []⟩).1
    = .error (.keyError "") := by
  have hg := props_good 1
  obtain ⟨A, B, C, T, -, -, -, -, hT⟩ := fresh2_physics hg
  obtain ⟨m, -, h⟩ := hT (1 / 5)
  obtain ⟨name, n1, n2, n3⟩ := C118_empty_name_violated (passed := ["energy"]) (E := propsEnv) (ns := 8) (fuel := 100) (σ := ⟨fun _ => none, []⟩)
    (a := { propsArgs 1 with properties := withShown "" ["energy"] }) rfl (by decide) hg.path (.inl rfl) hg.snaps hg.step.ne'
    hg.saves hg.grid h.init rfl rfl
  have n1 : name = "energy" ∨ name = "" := by simpa [withShown] using n1
  rcases n1 with rfl | rfl
  · exact absurd (by decide) n2
  · exact n3

end Verif.Props
