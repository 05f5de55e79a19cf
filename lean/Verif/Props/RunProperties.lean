import Verif.Spec.Properties
import Verif.Lemmas.RunProps
import Verif.Props.IO

/-!
# C56, C57: `calculate_properties`
-/

set_option linter.unusedSectionVars false

namespace Verif.Props

open H5IO H5 RunProperties

variable {α β : Type} [Casts α β] [Zero α] [Inhabited α] [Inhabited β]

/-- a file as written by the run functions: the attributes used, and the three
fields with the same number of frames -/
structure RunFile (f : H5 α β) (k0 x_save c1 : Attr α) (n p o : List (Cell β)) : Prop where
  k0 : f.attrs "k0" = some k0
  x_save : f.attrs "x_save" = some x_save
  c1 : f.attrs "c1" = some c1
  frame_dt : ∃ v, f.attrs "frame_dt" = some v
  density : ∃ s, f.dsets "density" = some (.rows s n)
  phi : ∃ s, f.dsets "phi" = some (.rows s p)
  omega : ∃ s, f.dsets "omega" = some (.rows s o)
  phi_length : p.length = n.length
  omega_length : o.length = n.length

/-- evaluation of `calculate_properties` on a well-formed file -/
theorem calculate_eval (E : PropEnv α β) (path : String) (f : H5 α β) (k0 x_save c1 : Attr α)
    (n p o : List (Cell β)) (hf : RunFile f k0 x_save c1 n p o) (names : List String)
    (hnames : "density" ∉ names ∧ "phi" ∉ names ∧ "omega" ∉ names) (force : Bool) (vals : String → List α)
    (hvals : ∀ name ∈ propertyNames, (vals name).length = n.length)
    (hval : ∀ name ∈ propertyNames, name ∈ names → List.Forall₂
      (fun (t : Cell β × Cell β × Cell β) v => E.value name (E.dx k0 x_save) c1 t.1 t.2.1 t.2.2 = .ok v)
      (n.zip (p.zip o)) (vals name)) :
    ∃ sel, (∀ k, k ∈ sel ↔ k ∈ names ∧ (force = true ∨ f.dsets k = none)) ∧ ∀ b, 1 ≤ b →
      Does path (calculate_properties E path b names force) f ()
        (propFile (createdProps f n.length force names) sel n.length vals fun _ => n.length) := by
  obtain ⟨sel, hs, hd⟩ := does_createLoop (path := path) n.length force names f
  refine ⟨sel, hs, fun b hb => ?_⟩
  obtain ⟨v, hv⟩ := hf.frame_dt
  obtain ⟨sn, hn⟩ := hf.density
  obtain ⟨sp, hp⟩ := hf.phi
  obtain ⟨so, ho⟩ := hf.omega
  unfold calculate_properties
  refine Does.openR.bind ?_
  refine Does.content.bind ?_
  have hattr : ∀ {k v}, f.attrs k = some v → attr f k = .ok v := by intro k v h; unfold attr; rw [h]
  refine (Does.lift (hattr hf.k0)).bind ?_
  refine (Does.lift (hattr hf.x_save)).bind ?_
  refine (Does.lift (hattr hf.c1)).bind ?_
  refine (Does.lift (hattr hv)).bind ?_
  refine (Does.len_rows hn).bind ?_
  refine hd.bind ?_
  rw [if_neg (by omega)]
  have hkeep : ∀ {k}, k ∉ names → (createdProps f n.length force names).dsets k = f.dsets k := by
    intro k hk; unfold createdProps; simp only [hk, false_and, if_false]
  have hsn : ∀ k ∈ sel, k ∈ names := fun k hk => ((hs k).mp hk).1
  have := does_batchLoop (path := path) (E := E) (dx := E.dx k0 x_save) (c1 := c1)
    (base := createdProps f n.length force names) (sel := sel) (N := n.length) hb hvals
    ((hkeep hnames.1).trans hn) ((hkeep hnames.2.1).trans hp) ((hkeep hnames.2.2).trans ho) rfl hf.phi_length
    hf.omega_length (fun k hk hks => hval k hk (hsn k hks)) n.length 0 (by omega)
  convert this using 1
  unfold propFile
  refine congrArg₂ H5.mk ?_ rfl
  funext k
  by_cases hk : k ∈ sel ∧ k ∈ propertyNames
  · simp only [hk, and_self, if_true, Nat.min_zero, List.take_zero, List.nil_append, Nat.sub_zero]
    have := (hs k).mp hk.1
    simp only [this.1, true_and, if_pos this.2]
  · simp only [hk, if_false]
    rfl

/-- The value list of a property, from the existence of all values. -/
theorem exists_vals {F : Cell β → Cell β → Cell β → Py α} (n p o : List (Cell β)) (hp : p.length = n.length)
    (ho : o.length = n.length) (h : ∀ i (h : i < n.length), ∃ v, F n[i] p[i] o[i] = .ok v) :
    ∃ vs : List α, vs.length = n.length ∧ List.Forall₂
      (fun (t : Cell β × Cell β × Cell β) v => F t.1 t.2.1 t.2.2 = .ok v) (n.zip (p.zip o)) vs := by
  induction n generalizing p o with
  | nil => exact ⟨[], rfl, by simp⟩
  | cons a n ih =>
    cases p with
    | nil => simp at hp
    | cons b p =>
      cases o with
      | nil => simp at ho
      | cons c o =>
        obtain ⟨v, hv⟩ := h 0 (by simp)
        obtain ⟨vs, h1, h2⟩ := ih p o (by simpa using hp) (by simpa using ho)
          (fun i hi => h (i + 1) (Nat.succ_lt_succ hi))
        exact ⟨v :: vs, by simp [h1], .cons (by simpa using hv) h2⟩

theorem forall₂_get {F : Cell β → Cell β → Cell β → Py α} (n p o : List (Cell β)) (vs : List α)
    (hp : p.length = n.length) (ho : o.length = n.length) (hv : vs.length = n.length)
    (h : List.Forall₂ (fun (t : Cell β × Cell β × Cell β) v => F t.1 t.2.1 t.2.2 = .ok v) (n.zip (p.zip o)) vs)
    (i : ℕ) (hi : i < n.length) : F n[i] p[i] o[i] = .ok vs[i] := by
  rw [List.forall₂_iff_get] at h
  have := h.2 i (by simp; omega) (by omega)
  simpa using this

/-- **C56.** For every number of frames, every batch size `b ≥ 1` and every
list of requested properties, `calculate_properties` succeeds; afterwards each
(re)computed known property has exactly one value per frame, and entry `i` is
the `float32` of the property of frame `i`.  The complete resulting file
system is the same for every other batch size `b'`. -/
theorem C56_batch_independent (E : PropEnv α β) (path : String) (σ : St α β) (f : H5 α β) (hσ : σ.fs path = some f)
    (k0 x_save c1 : Attr α) (n p o : List (Cell β)) (hf : RunFile f k0 x_save c1 n p o) (names : List String)
    (hnames : "density" ∉ names ∧ "phi" ∉ names ∧ "omega" ∉ names) (force : Bool)
    (hval : ∀ name ∈ Spec.propertyTable, name ∈ names → ∀ i (h : i < n.length),
      ∃ v, E.value name (E.dx k0 x_save) c1 n[i] (p[i]'(by rw [hf.phi_length]; exact h))
        (o[i]'(by rw [hf.omega_length]; exact h)) = .ok v)
    (b : ℕ) (hb : 1 ≤ b) :
    ∃ σ' f', calculate_properties E path b names force σ = (.ok (), σ') ∧ σ'.fs path = some f' ∧
      (∀ q, q ≠ path → σ'.fs q = σ.fs q) ∧
      (∀ name ∈ names, name ∈ Spec.propertyTable → force = true ∨ f.dsets name = none →
        ∃ vs : List α, f'.dsets name = some (.flat (vs.map Casts.f32)) ∧ ∃ h : vs.length = n.length,
          ∀ i (hi : i < n.length),
            E.value name (E.dx k0 x_save) c1 n[i] (p[i]'(by rw [hf.phi_length]; exact hi))
              (o[i]'(by rw [hf.omega_length]; exact hi)) = .ok vs[i]) ∧
      ∀ b', 1 ≤ b' → (calculate_properties E path b' names force σ).1 = .ok () ∧
        (calculate_properties E path b' names force σ).2.fs = σ'.fs := by
  classical
  have hex : ∀ name : String, ∃ vs : List α, vs.length = n.length ∧ (name ∈ propertyNames → name ∈ names →
      List.Forall₂ (fun (t : Cell β × Cell β × Cell β) v => E.value name (E.dx k0 x_save) c1 t.1 t.2.1 t.2.2 = .ok v)
        (n.zip (p.zip o)) vs) := by
    intro name
    by_cases h : name ∈ propertyNames ∧ name ∈ names
    · obtain ⟨vs, h1, h2⟩ := exists_vals n p o hf.phi_length hf.omega_length (hval name h.1 h.2)
      exact ⟨vs, h1, fun _ _ => h2⟩
    · exact ⟨List.replicate n.length 0, by simp, fun h1 h2 => absurd ⟨h1, h2⟩ h⟩
  choose vals hv1 hv2 using hex
  obtain ⟨sel, hs, hd⟩ := calculate_eval E path f k0 x_save c1 n p o hf names hnames force vals (fun k _ => hv1 k)
    hv2
  obtain ⟨σ', e1, e2⟩ := hd b hb σ hσ
  refine ⟨σ', _, e1, by rw [e2, upd_same], fun q hq => by rw [e2, upd_ne _ _ hq], ?_, ?_⟩
  · intro name h1 h2 h3
    refine ⟨vals name, ?_, hv1 name, fun i hi => ?_⟩
    · unfold propFile
      simp only [(hs name).mpr ⟨h1, h3⟩, (show name ∈ propertyNames from h2), and_self, if_true, Nat.sub_self, List.replicate_zero, List.append_nil]
      rw [List.take_of_length_le]
      rw [List.length_map, hv1]
    · exact forall₂_get n p o _ hf.phi_length hf.omega_length (hv1 name) (hv2 name h2 h1) i hi
  · intro b' hb'
    obtain ⟨σ'', g1, g2⟩ := hd b' hb' σ hσ
    rw [g1]
    exact ⟨rfl, by rw [g2, e2]⟩

/-! A file with three frames (density 1, 2, 3; phi 4, 5, 6; omega 7, 8, 9), an old `energy` dataset. -/

/-- property values: `n + 10 p + 100 o` for every property -/
def demoEnv : PropEnv ℚ ℚ where
  dx _ _ := 1
  value _ _ _ n p o := match n, p, o with
    | .num n, .num p, .num o => .ok (n + 10 * p + 100 * o)
    | _, _, _ => .error .typeError

/-- the file -/
def demoRun : H5 ℚ ℚ where
  dsets k :=
    if k = "density" then some (.rows .one [.num 1, .num 2, .num 3])
    else if k = "phi" then some (.rows .one [.num 4, .num 5, .num 6])
    else if k = "omega" then some (.rows .one [.num 7, .num 8, .num 9])
    else if k = "energy" then some (.flat [0])
    else none
  attrs _ := some (.num 1)

theorem demoRun_ok : RunFile demoRun (.num 1) (.num 1) (.num 1) [.num 1, .num 2, .num 3] [.num 4, .num 5, .num 6]
    [.num 7, .num 8, .num 9] :=
  ⟨rfl, rfl, rfl, ⟨_, rfl⟩, ⟨_, rfl⟩, ⟨_, rfl⟩, ⟨_, rfl⟩, rfl, rfl⟩

example := C56_batch_independent demoEnv "out.h5" ⟨fun _ => some demoRun, []⟩ demoRun rfl _ _ _ _ _ _ demoRun_ok
  ["energy", "gamma_n"] (by decide) true
  (by intro name _ _ i hi; rcases i with _ | _ | _ | i <;> first | exact ⟨_, rfl⟩ | (simp at hi; omega))
  2 (by decide)

/-! ## C57 -/

/-- **C57 (other data).** Whatever `calculate_properties` does — return, raise,
or die at any point — other files, all attributes and all datasets that are not
requested stay unchanged.  In particular the fields do. -/
theorem C57_others_unchanged (E : PropEnv α β) (path : String) (fs : FS α β) (f : H5 α β) (hf : fs path = some f)
    (b : ℕ) (names : List String) (force : Bool) (g : FS α β)
    (hg : g ∈ IOM.crashStates (calculate_properties E path b names force : IOM α β Unit) fs) :
    (∀ q, q ≠ path → g q = fs q) ∧
      ∃ f', g path = some f' ∧ f'.attrs = f.attrs ∧ ∀ k, k ∉ names → f'.dsets k = f.dsets k := by
  have := (keeps_calculate (path := path) (fs := fs) (f0 := f) (names := names) E b force).crashStates
    (Keeps.refl hf) g hg
  exact ⟨this.other, this.file⟩

example := C57_others_unchanged demoEnv "out.h5" (fun _ => some demoRun) demoRun rfl 2 ["energy", "gamma_n"] true

/-- **C57 (no recomputation).** With `force_recompute=False` an existing dataset
is unchanged even if it is requested; again at every crash point. -/
theorem C57_existing_unchanged (E : PropEnv α β) (path : String) (fs : FS α β) (f : H5 α β) (hf : fs path = some f)
    (b : ℕ) (names : List String) (g : FS α β)
    (hg : g ∈ IOM.crashStates (calculate_properties E path b names false : IOM α β Unit) fs) :
    ∃ f', g path = some f' ∧ ∀ k d, f.dsets k = some d → f'.dsets k = some d := by
  have := (keeps_calculate_false (path := path) (fs := fs) (f0 := f) (names := names) E b).crashStates
    (Keeps.refl hf) g hg
  obtain ⟨f', h1, -, h3⟩ := this.file
  refine ⟨f', h1, fun k d hd => ?_⟩
  rw [h3 k, hd]
  unfold missing
  simp [hd]

example := C57_existing_unchanged demoEnv "out.h5" (fun _ => some demoRun) demoRun rfl 2 ["energy", "gamma_n"]

/-- **C57 ("every requested property is filled") is violated**: a requested name
that is not in the table of known properties gets a dataset of zeros, without
any exception.  `"DE"`, `"DU"`, `"dE_dt"` and `"dU_dt"` are such names although
they are listed in the table of `run2`. -/
theorem C57_unknown_zero_violated (E : PropEnv α β) (path : String) (σ : St α β) (f : H5 α β)
    (hσ : σ.fs path = some f) (k0 x_save c1 : Attr α) (n p o : List (Cell β)) (hf : RunFile f k0 x_save c1 n p o)
    (name : String) (hname : name ∉ Spec.propertyTable ∧ name ∉ ["density", "phi", "omega"]) (b : ℕ) (hb : 1 ≤ b) :
    ∃ σ' f', calculate_properties E path b [name] true σ = (.ok (), σ') ∧ σ'.fs path = some f' ∧
      f'.dsets name = some (.flat (List.replicate n.length (Casts.f32 (0 : α)))) := by
  obtain ⟨sel, hs, hd⟩ := calculate_eval E path f k0 x_save c1 n p o hf [name]
    ⟨by rintro h; simp at h; subst h; simp at hname, by rintro h; simp at h; subst h; simp at hname,
      by rintro h; simp at h; subst h; simp at hname⟩ true (fun _ => List.replicate n.length 0) (by simp)
    (by intro k hk h; simp at h; subst h; exact absurd hk hname.1)
  obtain ⟨σ', e1, e2⟩ := hd b hb σ hσ
  refine ⟨σ', _, e1, by rw [e2, upd_same], ?_⟩
  unfold propFile createdProps
  simp [(show name ∉ propertyNames from hname.1)]

example := C57_unknown_zero_violated demoEnv "out.h5" ⟨fun _ => some demoRun, []⟩ demoRun rfl _ _ _ _ _ _ demoRun_ok
  "DE" (by decide) 2 (by decide)

end Verif.Props
