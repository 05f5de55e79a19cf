import Verif.Props.RunRefuse
import Verif.Lemmas.RunProps

/-!
# C127: files that are not complete simulation files are not continued
-/

set_option linter.unusedSectionVars false

namespace Verif.Props

open H5IO H5 Run Run2

variable {α β : Type} [Casts α β] [Zero α] [Inhabited α] [Inhabited β] [FloatOps α]

/-- a field has a saved state or, without one, at least one recorded frame; in
either case there is a dataset of frames -/
def HasState (f : H5 α β) (field : String) : Prop :=
  (f.dsets field).isSome ∧ ((∃ a, f.dsets ("state_" ++ field) = some (.full a)) ∨
    (f.dsets ("state_" ++ field) = none ∧ ∃ sh r, f.dsets field = some (.rows sh r) ∧ r ≠ []))

/-- A file from which a simulation can be continued: the three fields, at least one
time, and the seven parameters. -/
structure Complete (f : H5 α β) : Prop where
  density : HasState f "density"
  omega : HasState f "omega"
  phi : HasState f "phi"
  time : ∃ sh r x, f.dsets "time" = some (.rows sh r) ∧ r.getLast? = some (.num x)
  dx : (f.attrs "dx").isSome
  N : (f.attrs "N").isSome
  c1 : (f.attrs "c1").isSome
  nu : (f.attrs "nu").isSome
  k0 : (f.attrs "k0").isSome
  poisson_bracket_coeff : (f.attrs "poisson_bracket_coeff").isSome
  kappa_coeff : (f.attrs "kappa_coeff").isSome

section
variable {path : String} {σ : St α β} {f : H5 α β}

private theorem content_ok (hf : σ.fs path = some f) : (content path : IOM α β _) σ = (.ok f, σ) := by
  unfold H5.content; rw [hf]

private theorem dset_some {name : String} {d : Dset α β} (hf : σ.fs path = some f) (h : f.dsets name = some d) :
    (dset path name : IOM α β _) σ = (.ok d, σ) := by
  unfold H5.dset; rw [IOM.bind_ok (content_ok hf)]; simp only [h]; rfl

private theorem dset_none {name : String} (hf : σ.fs path = some f) (h : f.dsets name = none) :
    (dset path name : IOM α β _) σ = (.error (.keyError name), σ) := by
  unfold H5.dset; rw [IOM.bind_ok (content_ok hf)]; simp only [h]; rfl

private theorem hasKey_ok {name : String} (hf : σ.fs path = some f) :
    (hasKey path name : IOM α β _) σ = (.ok (f.dsets name).isSome, σ) := by
  unfold H5.hasKey; rw [IOM.bind_ok (content_ok hf)]; rfl

private theorem len_ok {name : String} (hf : σ.fs path = some f) (h : (f.dsets name).isSome) :
    ∃ n, (len path name : IOM α β _) σ = (.ok n, σ) := by
  obtain ⟨d, hd⟩ := Option.isSome_iff_exists.mp h
  unfold H5.len; rw [IOM.bind_ok (dset_some hf hd)]
  cases d <;> exact ⟨_, rfl⟩

private theorem len_error {name : String} (hf : σ.fs path = some f) (h : f.dsets name = none) :
    (len path name : IOM α β _) σ = (.error (.keyError name), σ) := by
  unfold H5.len; rw [IOM.bind_error (dset_none hf h)]

/-- reading one field succeeds exactly for fields that are there -/
private theorem loadField_iff {field : String} (hf : σ.fs path = some f) :
    (HasState f field ∧ ∃ v n, (loadField path field : IOM α β _) σ = (.ok v, σ)
        ∧ (len path field : IOM α β _) σ = (.ok n, σ)) ∨
    (¬ HasState f field ∧ ((∃ e, (loadField path field : IOM α β _) σ = (.error e, σ)) ∨
      ∃ v, (loadField path field : IOM α β _) σ = (.ok v, σ)
        ∧ (len path field : IOM α β _) σ = (.error (.keyError field), σ))) := by
  unfold loadField
  rw [IOM.bind_ok (hasKey_ok hf)]
  cases hs : f.dsets ("state_" ++ field) with
  | some d =>
    simp only [Option.isSome_some, if_true]
    rw [IOM.bind_ok (dset_some hf hs)]
    cases d with
    | full a =>
      cases hd : f.dsets field with
      | none => exact .inr ⟨fun h => by simp [HasState, hd] at h, .inr ⟨_, rfl, len_error hf hd⟩⟩
      | some d' =>
        obtain ⟨n, hn⟩ := len_ok (name := field) hf (by rw [hd]; rfl)
        exact .inl ⟨⟨by rw [hd]; rfl, .inl ⟨a, hs⟩⟩, _, n, rfl, hn⟩
    | rows sh r => exact .inr ⟨fun h => by simp [HasState, hs] at h, .inl ⟨_, rfl⟩⟩
    | flat r => exact .inr ⟨fun h => by simp [HasState, hs] at h, .inl ⟨_, rfl⟩⟩
  | none =>
    simp only [Option.isSome_none, Bool.false_eq_true, if_false]
    cases hd : f.dsets field with
    | none =>
      rw [IOM.bind_error (dset_none hf hd)]
      exact .inr ⟨fun h => by simp [HasState, hd] at h, .inl ⟨_, rfl⟩⟩
    | some d' =>
      rw [IOM.bind_ok (dset_some hf hd)]
      cases d' with
      | full a => exact .inr ⟨fun h => by simp [HasState, hs, hd] at h, .inl ⟨_, rfl⟩⟩
      | flat r => exact .inr ⟨fun h => by simp [HasState, hs, hd] at h, .inl ⟨_, rfl⟩⟩
      | rows sh r =>
        simp only
        cases hr : r.getLast? with
        | none =>
          have : r = [] := List.getLast?_eq_none_iff.mp hr
          exact .inr ⟨fun h => by simp [HasState, hs, hd, this] at h, .inl ⟨_, rfl⟩⟩
        | some c =>
          have hne : r ≠ [] := by rintro rfl; cases hr
          obtain ⟨n, hn⟩ := len_ok (name := field) hf (by rw [hd]; rfl)
          refine .inl ⟨⟨by rw [hd]; rfl, .inr ⟨hs, sh, r, hd, hne⟩⟩, ?_⟩
          cases c <;> exact ⟨_, n, rfl, hn⟩

private theorem loadFields_iff (hf : σ.fs path = some f) : ∀ l : List String,
    ((∀ x ∈ l, HasState f x) ∧ ∃ v, (loadFields path l : IOM α β _) σ = (.ok v, σ)) ∨
    ((¬ ∀ x ∈ l, HasState f x) ∧ ∃ e, (loadFields path l : IOM α β _) σ = (.error e, σ))
  | [] => .inl ⟨nofun, _, rfl⟩
  | x :: l => by
    unfold loadFields
    rcases loadField_iff (field := x) hf with ⟨h, v, n, e1, e2⟩ | ⟨h, ⟨e, e1⟩ | ⟨v, e1, e2⟩⟩
    · rw [IOM.bind_ok e1, IOM.bind_ok e2]
      rcases loadFields_iff hf l with ⟨h', v', e3⟩ | ⟨h', e, e3⟩
      · rw [IOM.bind_ok e3]
        exact .inl ⟨List.forall_mem_cons.mpr ⟨h, h'⟩, _, rfl⟩
      · rw [IOM.bind_error e3]
        exact .inr ⟨fun hc => h' (List.forall_mem_cons.mp hc).2, _, rfl⟩
    · rw [IOM.bind_error e1]
      exact .inr ⟨fun hc => h (List.forall_mem_cons.mp hc).1, _, rfl⟩
    · rw [IOM.bind_ok e1, IOM.bind_error e2]
      exact .inr ⟨fun hc => h (List.forall_mem_cons.mp hc).1, _, rfl⟩

private theorem restore_iff (attrs : String → Option (Attr α)) : ∀ l : List String,
    ((∀ k ∈ l, (attrs k).isSome) ∧ ∃ v, restoreParams attrs l = .ok v) ∨
    (∃ pre k post, l = pre ++ k :: post ∧ (∀ j ∈ pre, (attrs j).isSome) ∧ attrs k = none ∧
      restoreParams attrs l = .error (.keyError k))
  | [] => .inl ⟨nofun, _, rfl⟩
  | k :: l => by
    cases hk : attrs k with
    | none => exact .inr ⟨[], k, l, rfl, nofun, hk, by simp only [restoreParams, hk]⟩
    | some v =>
      rcases restore_iff attrs l with ⟨h, w, e⟩ | ⟨pre, j, post, rfl, h1, h2, e⟩
      · refine .inl ⟨List.forall_mem_cons.mpr ⟨by rw [hk]; rfl, h⟩, (k, v) :: w, ?_⟩
        simp only [restoreParams, hk, e]; rfl
      · refine .inr ⟨k :: pre, j, post, rfl, List.forall_mem_cons.mpr ⟨by rw [hk]; rfl, h1⟩, h2, ?_⟩
        simp only [restoreParams, hk, e]; rfl

/-- the seven parameters -/
private theorem keys_iff (f : H5 α β) : (∀ k ∈ restoredKeys, (f.attrs k).isSome) ↔
    (f.attrs "dx").isSome ∧ (f.attrs "N").isSome ∧ (f.attrs "c1").isSome ∧ (f.attrs "nu").isSome ∧
      (f.attrs "k0").isSome ∧ (f.attrs "poisson_bracket_coeff").isSome ∧ (f.attrs "kappa_coeff").isSome := by
  simp only [restoredKeys, List.forall_mem_cons, List.not_mem_nil, false_implies, implies_true, and_true]

private theorem fields_iff (f : H5 α β) : (∀ k ∈ fieldList, HasState f k) ↔
    HasState f "density" ∧ HasState f "omega" ∧ HasState f "phi" := by
  simp only [fieldList, List.forall_mem_cons, List.not_mem_nil, false_implies, implies_true, and_true]

private theorem time_iff {Y : Type} (hf : σ.fs path = some f) (k : α → IOM α β Y) :
    let m : IOM α β Y := do
      let age ← match ← dset path "time" with
        | .rows _ r => match r.getLast? with
          | some (.num x) => pure (Casts.f64 x)
          | some (.arr _) => IOM.raise .typeError
          | none => IOM.raise .indexError
        | _ => IOM.raise .typeError
      k age
    ((∃ sh r x, f.dsets "time" = some (.rows sh r) ∧ r.getLast? = some (.num x)) ∧ ∃ v, m σ = k v σ) ∨
    ((¬ ∃ sh r x, f.dsets "time" = some (.rows sh r) ∧ r.getLast? = some (.num x)) ∧ ∃ e, m σ = (.error e, σ)) := by
  intro m
  cases hd : f.dsets "time" with
  | none =>
    exact .inr ⟨fun h => by simp at h, _, IOM.bind_error (dset_none hf hd)⟩
  | some d =>
    have : m σ = _ := IOM.bind_ok (dset_some hf hd)
    cases d with
    | full a => exact .inr ⟨fun h => by simp at h, _, this⟩
    | flat a => exact .inr ⟨fun h => by simp at h, _, this⟩
    | rows sh r =>
      simp only at this
      cases hr : r.getLast? with
      | none =>
        rw [hr] at this
        refine .inr ⟨?_, _, this⟩
        rintro ⟨sh', r', x, h1, h2⟩
        cases h1; rw [hr] at h2; cases h2
      | some c =>
        rw [hr] at this
        cases c with
        | num x => exact .inl ⟨⟨sh, r, x, rfl, hr⟩, _, this⟩
        | arr x =>
          refine .inr ⟨?_, _, this⟩
          rintro ⟨sh', r', x, h1, h2⟩
          cases h1; rw [hr] at h2; cases h2

/-- everything about `continue_h5_file` on an existing file -/
private theorem continue_cases (hf : σ.fs path = some f) :
    (Complete f ∧ ∃ r, (continue_h5_file path fieldList : IOM α β _) σ = (.ok r, σ)) ∨
    (¬ Complete f ∧ ∃ e, (continue_h5_file path fieldList : IOM α β _) σ = (.error e, σ) ∧
      (HasState f "density" → HasState f "omega" → HasState f "phi" →
        (∃ sh r x, f.dsets "time" = some (.rows sh r) ∧ r.getLast? = some (.num x)) →
        ∃ pre k post, restoredKeys = pre ++ k :: post ∧ (∀ j ∈ pre, (f.attrs j).isSome) ∧ f.attrs k = none ∧
          e = .keyError k)) := by
  have ho : (openR path : IOM α β _) σ = (.ok (), σ) := by unfold openR; rw [hf]
  rcases loadFields_iff hf fieldList with ⟨h1, v, e1⟩ | ⟨h1, e, e1⟩
  · rcases time_iff hf (fun age => (do
        let params ← IOM.lift (restoreParams f.attrs restoredKeys)
        return (v ++ [("age", .num age)], params) : IOM α β (NS (Cell α) × NS (Attr α)))) with ⟨h2, v2, e2⟩ | ⟨h2, e, e2⟩
    · have h1' := (fields_iff f).mp h1
      have key : (continue_h5_file path fieldList : IOM α β _) σ = _ :=
        (IOM.bind_ok ho).trans ((IOM.bind_ok (content_ok hf)).trans ((IOM.bind_ok e1).trans e2))
      rw [key]
      rcases restore_iff f.attrs restoredKeys with ⟨h3, v3, e3⟩ | ⟨pre, k, post, h3, h4, h5, e3⟩
      · have h3' := (keys_iff f).mp h3
        rw [e3]
        exact .inl ⟨⟨h1'.1, h1'.2.1, h1'.2.2, h2, h3'.1, h3'.2.1, h3'.2.2.1, h3'.2.2.2.1, h3'.2.2.2.2.1,
          h3'.2.2.2.2.2.1, h3'.2.2.2.2.2.2⟩, _, rfl⟩
      · rw [e3]
        refine .inr ⟨fun hc => ?_, _, rfl, fun _ _ _ _ => ⟨pre, k, post, h3, h4, h5, rfl⟩⟩
        have := (keys_iff f).mpr ⟨hc.dx, hc.N, hc.c1, hc.nu, hc.k0, hc.poisson_bracket_coeff, hc.kappa_coeff⟩ k
          (by rw [h3]; simp)
        rw [h5] at this; cases this
    · have key : (continue_h5_file path fieldList : IOM α β _) σ = _ :=
        (IOM.bind_ok ho).trans ((IOM.bind_ok (content_ok hf)).trans ((IOM.bind_ok e1).trans e2))
      rw [key]
      exact .inr ⟨fun hc => h2 hc.time, _, rfl, fun _ _ _ h => absurd h h2⟩
  · have key : (continue_h5_file path fieldList : IOM α β _) σ = _ :=
      (IOM.bind_ok ho).trans ((IOM.bind_ok (content_ok hf)).trans (IOM.bind_error e1))
    rw [key]
    exact .inr ⟨fun hc => h1 ((fields_iff f).mpr ⟨hc.density, hc.omega, hc.phi⟩), _, rfl,
      fun a b c => absurd ((fields_iff f).mpr ⟨a, b, c⟩) h1⟩

/-- what `setup` does with a file that cannot be continued -/
private theorem setup_error {E : Env α β} {a : Args α} (hf : σ.fs a.output_path = some f) (h1 : a.force_recompute = false)
    (h2 : a.continue_file = true) {e : PyErr}
    (hc : (continue_h5_file a.output_path fieldList : IOM α β _) σ = (.error e, σ)) :
    ∃ e', setup E a σ = (.error e', σ) ∧ ((∃ n, saveDim a.grid_pts a.downsample_factor = .ok n) → e' = e) := by
  have hl : ∀ {X : Type} (x : X) (σ : St α β), (IOM.lift (.ok x) : IOM α β X) σ = (.ok x, σ) := fun _ _ => rfl
  have hle : ∀ {X : Type} (e : PyErr) (σ : St α β), (IOM.lift (.error e) : IOM α β X) σ = (.error e, σ) := fun _ _ => rfl
  have hi : (isFile a.output_path : IOM α β Bool) σ = (.ok (σ.fs a.output_path).isSome, σ) := rfl
  unfold setup
  cases hs : saveDim a.grid_pts a.downsample_factor with
  | error e' =>
    rw [IOM.bind_error (hle e' _)]
    exact ⟨e', rfl, fun ⟨n, hn⟩ => by cases hn⟩
  | ok n =>
    refine ⟨e, ?_, fun _ => rfl⟩
    rw [IOM.bind_ok (hl n _), IOM.bind_ok (hl n _), IOM.bind_ok hi, hf, h1, h2]
    simp only [Option.isSome_some, Bool.not_false, Bool.and_self, if_true]
    rw [IOM.bind_error hc]

/-- what `setup2` does with a file that cannot be continued -/
private theorem setup2_error {E : Env2 α β} {a : Args2 α} (hf : σ.fs a.output_path = some f)
    (h1 : a.force_recompute = false) (h2 : a.continue_file = true) {e : PyErr}
    (hc : (continue_h5_file a.output_path fieldList : IOM α β _) σ = (.error e, σ)) :
    ∃ e', setup2 E a σ = (.error e', σ) ∧ ((∃ n, saveDim a.grid_pts a.downsample_factor = .ok n) → e' = e) := by
  have hl : ∀ {X : Type} (x : X) (σ : St α β), (IOM.lift (.ok x) : IOM α β X) σ = (.ok x, σ) := fun _ _ => rfl
  have hle : ∀ {X : Type} (e : PyErr) (σ : St α β), (IOM.lift (.error e) : IOM α β X) σ = (.error e, σ) := fun _ _ => rfl
  have hi : (isFile a.output_path : IOM α β Bool) σ = (.ok (σ.fs a.output_path).isSome, σ) := rfl
  unfold setup2
  cases hs : saveDim a.grid_pts a.downsample_factor with
  | error e' =>
    rw [IOM.bind_error (hle e' _)]
    exact ⟨e', rfl, fun ⟨n, hn⟩ => by cases hn⟩
  | ok n =>
    refine ⟨e, ?_, fun _ => rfl⟩
    rw [IOM.bind_ok (hl n _), IOM.bind_ok (hl n _), IOM.bind_ok hi, hf, h1, h2]
    simp only [Option.isSome_some, Bool.not_false, Bool.and_self, if_true]
    rw [IOM.bind_error hc]

end

/-- **C127 for `continue_h5_file`.** Loading a simulation changes no file, and
succeeds exactly for complete simulation files. -/
theorem C127_continue (path : String) (σ : St α β) :
    ((continue_h5_file path fieldList : IOM α β _) σ).2 = σ ∧
    ((∃ r, ((continue_h5_file path fieldList : IOM α β _) σ).1 = .ok r) ↔ ∃ f, σ.fs path = some f ∧ Complete f) := by
  cases hf : σ.fs path with
  | none =>
    have ho : (openR path : IOM α β _) σ = (.error .fileError, σ) := by unfold openR; rw [hf]
    unfold continue_h5_file
    rw [IOM.bind_error ho]
    exact ⟨rfl, fun ⟨r, hr⟩ => by simp at hr, fun ⟨f, h, _⟩ => by cases h⟩
  | some f =>
    rcases continue_cases hf with ⟨hc, r, e⟩ | ⟨hc, e, he, _⟩
    · rw [e]; exact ⟨rfl, fun _ => ⟨f, rfl, hc⟩, fun _ => ⟨r, rfl⟩⟩
    · rw [he]; exact ⟨rfl, fun ⟨r, hr⟩ => by simp at hr, fun ⟨g, h, h'⟩ => by cases h; exact absurd h' hc⟩

/-- **C127 for `run`.** A call that is to continue a file that is not a complete
simulation file raises and changes no file. -/
theorem C127_run {E : Env α β} {a : Args α} {σ : St α β} {f : H5 α β} (hf : σ.fs a.output_path = some f)
    (h1 : a.force_recompute = false) (h2 : a.continue_file = true) (h : ¬ Complete f) :
    (∃ e, (run E a σ).1 = .error e) ∧ (run E a σ).2 = σ := by
  rcases continue_cases hf with ⟨hc, _⟩ | ⟨_, e, he, _⟩
  · exact absurd hc h
  obtain ⟨e', he', _⟩ := setup_error (E := E) hf h1 h2 he
  unfold run
  by_cases hp : a.output_path = ""
  · rw [if_pos hp]; exact ⟨⟨_, rfl⟩, rfl⟩
  · rw [if_neg hp, IOM.bind_error he']; exact ⟨⟨_, rfl⟩, rfl⟩

/-- **C127 for `run2`.** -/
theorem C127_run2 {E : Env2 α β} {a : Args2 α} {σ : St α β} {f : H5 α β} (fuel : ℕ) (hf : σ.fs a.output_path = some f)
    (h1 : a.force_recompute = false) (h2 : a.continue_file = true) (h : ¬ Complete f) :
    (∃ e, (run2 E a fuel σ).1 = .error e) ∧ (run2 E a fuel σ).2 = σ := by
  rcases continue_cases hf with ⟨hc, _⟩ | ⟨_, e, he, _⟩
  · exact absurd hc h
  obtain ⟨e', he', _⟩ := setup2_error (E := E) hf h1 h2 he
  have hl : ∀ {X : Type} (x : X) (σ : St α β), (IOM.lift (.ok x) : IOM α β X) σ = (.ok x, σ) := fun _ _ => rfl
  have hle : ∀ {X : Type} (e : PyErr) (σ : St α β), (IOM.lift (.error e) : IOM α β X) σ = (.error e, σ) := fun _ _ => rfl
  unfold run2
  cases hq : FloatOps.div a.end_time a.step_size with
  | error x => rw [IOM.bind_error (hle x _)]; exact ⟨⟨_, rfl⟩, rfl⟩
  | ok q =>
    rw [IOM.bind_ok (hl q _)]
    cases hz : FloatOps.toInt q with
    | error x => rw [IOM.bind_error (hle x _)]; exact ⟨⟨_, rfl⟩, rfl⟩
    | ok z =>
      rw [IOM.bind_ok (hl z _)]
      by_cases hs : a.snaps = 0
      · rw [if_pos hs]; exact ⟨⟨_, rfl⟩, rfl⟩
      rw [if_neg hs]
      by_cases hp : a.output_path = ""
      · rw [if_pos hp]; exact ⟨⟨_, rfl⟩, rfl⟩
      · rw [if_neg hp, IOM.bind_error he']; exact ⟨⟨_, rfl⟩, rfl⟩

/-- **C127, the error.** If only parameters are missing, `run` raises the `KeyError`
of the first missing one. -/
theorem C127_missing_parameter {E : Env α β} {a : Args α} {σ : St α β} {f : H5 α β} {n : ℕ} {k : String}
    {pre post : List String} (hpath : a.output_path ≠ "") (hdim : saveDim a.grid_pts a.downsample_factor = .ok n)
    (hf : σ.fs a.output_path = some f) (h1 : a.force_recompute = false) (h2 : a.continue_file = true)
    (hd : HasState f "density") (ho : HasState f "omega") (hp : HasState f "phi")
    (ht : ∃ sh r x, f.dsets "time" = some (.rows sh r) ∧ r.getLast? = some (.num x))
    (hk : ["dx", "N", "c1", "nu", "k0", "poisson_bracket_coeff", "kappa_coeff"] = pre ++ k :: post)
    (hpre : ∀ j ∈ pre, (f.attrs j).isSome) (hmiss : f.attrs k = none) :
    (run E a σ).1 = .error (.keyError k) := by
  rcases continue_cases hf with ⟨hc, _⟩ | ⟨_, e, he, hkey⟩
  · exfalso
    have := (keys_iff f).mpr ⟨hc.dx, hc.N, hc.c1, hc.nu, hc.k0, hc.poisson_bracket_coeff, hc.kappa_coeff⟩ k
      (by unfold restoredKeys; rw [hk]; simp)
    rw [hmiss] at this; cases this
  obtain ⟨pre', k', post', h3, h4, h5, rfl⟩ := hkey hd ho hp ht
  obtain ⟨e', he', hee⟩ := setup_error (E := E) hf h1 h2 he
  have hkk : k' = k := by
    have heq : pre' ++ k' :: post' = pre ++ k :: post := by rw [← h3, ← hk]; rfl
    rcases List.append_eq_append_iff.mp heq with ⟨as, rfl, h6⟩ | ⟨as, rfl, h6⟩
    · cases as with
      | nil => exact (List.cons.inj h6).1
      | cons b bs =>
        have := hpre b (by simp)
        rw [← (List.cons.inj h6).1, h5] at this; cases this
    · cases as with
      | nil => exact (List.cons.inj h6).1.symm
      | cons b bs =>
        have := h4 b (by simp)
        rw [← (List.cons.inj h6).1, hmiss] at this; cases this
  unfold run
  rw [if_neg hpath, IOM.bind_error he', hee ⟨n, hdim⟩, hkk]

/-! ## non-vacuity -/

/-- `demoOld` without the parameter `nu` -/
def partOld : H5 ℚ ℚ := { demoOld with attrs := fun k => if k = "nu" then none else demoOld.attrs k }

theorem part_incomplete : ¬ Complete partOld := fun h => by
  have := h.nu
  simp [partOld] at this

theorem part_state {k : String} (hk : k ∈ fieldList) : HasState partOld k := by
  refine ⟨?_, .inl ⟨demoField 14, ?_⟩⟩ <;>
  · revert k
    simp only [fieldList, List.forall_mem_cons, List.not_mem_nil, false_implies, implies_true, and_true]
    exact ⟨rfl, rfl, rfl⟩

/-- the file of `demo_continued` is complete -/
example : Complete demoOld :=
  have ⟨f, h1, h2⟩ := (C127_continue "run.h5" oldFiles).2.1
    ⟨_, congrArg Prod.fst (continue_state (path := "run.h5") (σ := oldFiles) ⟨demo_continued.output,
      demo_loaded (k := "density") (by decide), demo_loaded (k := "omega") (by decide),
      demo_loaded (k := "phi") (by decide), demo_continued.time, demo_continued.restored⟩ rfl).choose_spec.1⟩
  Option.some.inj h1 ▸ h2

example := C127_run (E := demoRunEnv) (a := demoCont) (σ := ⟨fun _ => some partOld, []⟩) rfl rfl rfl part_incomplete

example := C127_run2 (E := demoEnv2) (a := { demoArgs2 with continue_file := true }) (σ := ⟨fun _ => some partOld, []⟩)
  7 rfl rfl rfl part_incomplete

example := C127_missing_parameter (E := demoRunEnv) (a := demoCont) (σ := ⟨fun _ => some partOld, []⟩) (k := "nu")
  (pre := ["dx", "N", "c1"]) (by simp [demoCont, demoArgs]) demo_saves.dim rfl rfl rfl (part_state (by decide))
  (part_state (by decide)) (part_state (by decide)) ⟨_, _, _, rfl, rfl⟩ rfl
  (by simp only [List.forall_mem_cons, List.not_mem_nil, false_implies, implies_true, and_true]; exact ⟨rfl, rfl, rfl⟩)
  rfl

end Verif.Props
