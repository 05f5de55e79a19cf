import Verif.Lemmas.RunPropsCrash
import Verif.Props.RunProperties

/-!
# C119: interrupted computations of properties
-/

set_option linter.unusedSectionVars false

namespace Verif.Props

open H5IO H5 RunProperties

variable {α β : Type} [Casts α β] [Zero α] [Inhabited α] [Inhabited β]

/-- all values that a call has to compute exist -/
def Computable (E : PropEnv α β) (k0 x_save c1 : Attr α) (n p o : List (Cell β)) (names : List String) : Prop :=
  ∀ name ∈ Spec.propertyTable, name ∈ names → ∀ i (_ : i < n.length) (_ : i < p.length) (_ : i < o.length),
    ∃ v, E.value name (E.dx k0 x_save) c1 n[i] p[i] o[i] = .ok v

/-- the list of the values of a property -/
def AreValues (E : PropEnv α β) (k0 x_save c1 : Attr α) (n p o : List (Cell β)) (name : String) (vs : List α) : Prop :=
  vs.length = n.length ∧ ∀ i (_ : i < n.length) (_ : i < p.length) (_ : i < o.length) (_ : i < vs.length),
    E.value name (E.dx k0 x_save) c1 n[i] p[i] o[i] = .ok vs[i]

theorem exists_values {E : PropEnv α β} {k0 x_save c1 : Attr α} {n p o : List (Cell β)} {names : List String}
    (h : Computable E k0 x_save c1 n p o names) (hp : p.length = n.length) (ho : o.length = n.length) :
    ∃ vals : String → List α, (∀ k, (vals k).length = n.length) ∧ ∀ k ∈ propertyNames, k ∈ names → List.Forall₂
      (fun (t : Cell β × Cell β × Cell β) v => E.value k (E.dx k0 x_save) c1 t.1 t.2.1 t.2.2 = .ok v)
      (n.zip (p.zip o)) (vals k) := by
  classical
  have hex : ∀ name : String, ∃ vs : List α, vs.length = n.length ∧ (name ∈ propertyNames → name ∈ names →
      List.Forall₂ (fun (t : Cell β × Cell β × Cell β) v => E.value name (E.dx k0 x_save) c1 t.1 t.2.1 t.2.2 = .ok v)
        (n.zip (p.zip o)) vs) := by
    intro name
    by_cases hn : name ∈ propertyNames ∧ name ∈ names
    · obtain ⟨vs, h1, h2⟩ := exists_vals n p o hp ho
        fun i hi => h name hn.1 hn.2 i hi (by rw [hp]; exact hi) (by rw [ho]; exact hi)
      exact ⟨vs, h1, fun _ _ => h2⟩
    · exact ⟨List.replicate n.length 0, by simp, fun h1 h2 => absurd ⟨h1, h2⟩ hn⟩
  choose vals hv1 hv2 using hex
  exact ⟨vals, hv1, hv2⟩

/-- What a call of `calculate_properties` that dies leaves behind: other files, the attributes and the
datasets that were not asked for are as before.  Each requested dataset is as before, is
missing, or has one entry per frame: the values of the first `j` batches (`j` may
be 0), then zeros. -/
theorem C119_interrupted (E : PropEnv α β) (path : String) (fs : FS α β) (f : H5 α β) (hf : fs path = some f)
    (k0 x_save c1 : Attr α) (n p o : List (Cell β)) (hr : RunFile f k0 x_save c1 n p o) (names : List String)
    (hnames : "density" ∉ names ∧ "phi" ∉ names ∧ "omega" ∉ names) (force : Bool) (b : ℕ) (hb : 1 ≤ b)
    (hval : Computable E k0 x_save c1 n p o names) (g : FS α β)
    (hg : g ∈ IOM.crashStates (calculate_properties E path b names force : IOM α β Unit) fs) :
    (∀ q, q ≠ path → g q = fs q) ∧ ∃ f', g path = some f' ∧ f'.attrs = f.attrs ∧
      (∀ k, k ∉ names → f'.dsets k = f.dsets k) ∧
      ∀ k ∈ names, f'.dsets k = f.dsets k ∨ f'.dsets k = none ∨
        f'.dsets k = some (.flat (List.replicate n.length (Casts.f32 (0 : α)))) ∨
        ∃ vs : List α, k ∈ Spec.propertyTable ∧ AreValues E k0 x_save c1 n p o k vs ∧ ∃ j,
          f'.dsets k = some (.flat ((vs.map Casts.f32).take (min n.length (j * b)) ++
            List.replicate (n.length - j * b) (Casts.f32 (0 : α)))) := by
  obtain ⟨vals, hv1, hv2⟩ := exists_values hval hr.phi_length hr.omega_length
  let Good : FS α β → Prop := fun g => (∀ q, q ≠ path → g q = fs q) ∧ ∃ f', g path = some f' ∧ f'.attrs = f.attrs ∧
      (∀ k, k ∉ names → f'.dsets k = f.dsets k) ∧
      ∀ k ∈ names, f'.dsets k = f.dsets k ∨ f'.dsets k = none ∨
        f'.dsets k = some (.flat (List.replicate n.length (Casts.f32 (0 : α)))) ∨
        ∃ vs : List α, k ∈ Spec.propertyTable ∧ AreValues E k0 x_save c1 n p o k vs ∧ ∃ j,
          f'.dsets k = some (.flat ((vs.map Casts.f32).take (min n.length (j * b)) ++
            List.replicate (n.length - j * b) (Casts.f32 (0 : α))))
  have hprep : ∀ g, Preparing path fs f names n.length g → Good g := by
    intro g h
    obtain ⟨f', h1, h2, h3, h4⟩ := h.file
    refine ⟨h.other, f', h1, h2, h3, fun k _ => ?_⟩
    rcases h4 k with h | h | h
    · exact .inl h
    · exact .inr (.inl h)
    · exact .inr (.inr (.inl h))
  obtain ⟨sel, hs, hd⟩ := does_createLoop (path := path) n.length force names f
  have hprog : ∀ g, InProgress fs path (createdProps f n.length force names) sel n.length b vals g → Good g := by
    rintro g ⟨prog, hj, hg⟩
    have hg' : g = _ := hg
    subst hg'
    refine ⟨fun q hq => upd_ne _ _ hq, _, upd_same _ _ _, rfl, fun k hk => ?_, fun k hk => ?_⟩
    · unfold propFile
      have : k ∉ sel := fun h => hk ((hs k).mp h).1
      simp only [this, false_and, if_false]
      unfold createdProps
      simp only [hk, false_and, if_false]
    · unfold propFile
      by_cases h : k ∈ sel ∧ k ∈ propertyNames
      · simp only [h, and_self, if_true]
        obtain ⟨j, hj⟩ := hj k
        refine .inr (.inr (.inr ⟨vals k, h.2, ⟨hv1 k, fun i h1 h2 h3 h4 => ?_⟩, j, ?_⟩))
        · exact forall₂_get n p o _ hr.phi_length hr.omega_length (hv1 k) (hv2 k h.2 hk) i h1
        · rw [hj, show n.length - min n.length (j * b) = n.length - j * b by omega]
      · simp only [h, if_false]
        unfold createdProps
        simp only [hk, true_and]
        split
        · exact .inr (.inr (.inl rfl))
        · exact .inl rfl
  have hfs : upd fs path (some f) = fs := by rw [← hf, upd_self]
  have hp0 : Preparing path fs f names n.length fs := ⟨fun _ _ => rfl, f, hf, rfl, fun _ _ => rfl, fun _ => .inl rfl⟩
  have hgood : Good (upd fs path (some f)) := by rw [hfs]; exact hprep _ hp0
  have hattr : ∀ {k v}, f.attrs k = some v → attr f k = .ok v := by intro k v h; unfold attr; rw [h]
  have hread : ∀ {X Y : Type} {m : IOM α β X} {x : X} {k : X → IOM α β Y} {post : Y → FS α β → Prop},
      (∀ σ, (m σ).2 = σ) → Does path m f x f → Tr (At fs path f) Good (k x) post →
      Tr (At fs path f) Good (m >>= k) post := by
    intro X Y m x k post h1 h2 h3
    refine (tr_read_does h1 hgood h2).bind fun y => ?_
    by_cases hy : y = x
    · subst hy
      exact h3.weaken (fun g h => h.2) (fun _ h => h) fun _ _ h => h
    · intro σ hσ; exact absurd hσ.1 hy
  have key : Tr (At fs path f) Good (calculate_properties E path b names force : IOM α β Unit) fun _ _ => True := by
    obtain ⟨v, hv⟩ := hr.frame_dt
    obtain ⟨sn, hn⟩ := hr.density
    obtain ⟨sp, hp⟩ := hr.phi
    obtain ⟨so, ho⟩ := hr.omega
    unfold calculate_properties
    refine hread read_openR Does.openR ?_
    refine hread read_content Does.content ?_
    refine hread (fun _ => rfl) (Does.lift (hattr hr.k0)) ?_
    refine hread (fun _ => rfl) (Does.lift (hattr hr.x_save)) ?_
    refine hread (fun _ => rfl) (Does.lift (hattr hr.c1)) ?_
    refine hread (fun _ => rfl) (Does.lift (hattr hv)) ?_
    refine hread (read_len _) (Does.len_rows hn) ?_
    refine ((tr_does (tr_createLoop force names fun _ h => h) (by rw [hfs]; exact hp0) hd).weaken (fun _ h => h)
      hprep fun _ _ h => h).bind fun sel' => ?_
    by_cases hsel : sel' = sel
    swap
    · intro σ hσ; exact absurd hσ.1 hsel
    subst hsel
    rw [if_neg (by omega)]
    have hkeep : ∀ {k}, k ∉ names → (createdProps f n.length force names).dsets k = f.dsets k := by
      intro k hk; unfold createdProps; simp only [hk, false_and, if_false]
    have hsn : ∀ k ∈ sel', k ∈ names := fun k hk => ((hs k).mp hk).1
    have hloop := tr_batchLoop (fs := fs) (path := path) (E := E) (dx := E.dx k0 x_save) (c1 := c1) (b := b)
      (base := createdProps f n.length force names) (sel := sel') (N := n.length) (fun k _ => hv1 k)
      ((hkeep hnames.1).trans hn) ((hkeep hnames.2.1).trans hp) ((hkeep hnames.2.2).trans ho) rfl hr.phi_length
      hr.omega_length (fun k hk hks => hv2 k hk (hsn k hks)) n.length 0
    rw [Nat.zero_mul] at hloop
    refine hloop.weaken ?_ hprog fun _ _ h => h
    rintro g ⟨-, h⟩
    refine Eq.trans h (congrArg (fun f => upd fs path (some f)) ?_)
    unfold propFile
    refine congrArg₂ H5.mk ?_ rfl
    funext k
    by_cases hk : k ∈ sel' ∧ k ∈ propertyNames
    · simp only [hk, and_self, if_true, Nat.min_zero, List.take_zero, List.nil_append, Nat.sub_zero]
      have := (hs k).mp hk.1
      simp only [this.1, true_and, if_pos this.2]
    · simp only [hk, if_false]
      rfl
  exact key.crashStates hfs.symm g hg

/-- **C119 (forced recomputation).** Take any moment at which a call of `calculate_properties` may die (any batch size, any list of
names, with or without `force_recompute`).  A later call with
`force_recompute=True` (the default; also what the run functions do) that asks at least for the
same properties succeeds and leaves exactly the files it would have left without the first call. -/
theorem C119_retry_partial (E : PropEnv α β) (path : String) (fs : FS α β) (f : H5 α β) (hf : fs path = some f)
    (k0 x_save c1 : Attr α) (n p o : List (Cell β)) (hr : RunFile f k0 x_save c1 n p o) (names names' : List String)
    (hsub : names' ⊆ names) (hnames : "density" ∉ names ∧ "phi" ∉ names ∧ "omega" ∉ names)
    (hval : Computable E k0 x_save c1 n p o names) (force : Bool) (b' : ℕ) (g : FS α β)
    (hg : g ∈ IOM.crashStates (calculate_properties E path b' names' force : IOM α β Unit) fs) (b : ℕ) (hb : 1 ≤ b) :
    (calculate_properties E path b names true ⟨g, []⟩).1 = .ok () ∧
      (calculate_properties E path b names true ⟨fs, []⟩).1 = .ok () ∧
      (calculate_properties E path b names true ⟨g, []⟩).2.fs
        = (calculate_properties E path b names true ⟨fs, []⟩).2.fs := by
  obtain ⟨vals, hv1, hv2⟩ := exists_values hval hr.phi_length hr.omega_length
  have hk := (keeps_calculate (path := path) (fs := fs) (f0 := f) (names := names') E b' force).crashStates
    (Keeps.refl hf) g hg
  obtain ⟨f', h1, h2, h3⟩ := hk.file
  have h3' : ∀ k, k ∉ names → f'.dsets k = f.dsets k := fun k hk => h3 k fun h => hk (hsub h)
  have hr' : RunFile f' k0 x_save c1 n p o :=
    ⟨by rw [h2]; exact hr.k0, by rw [h2]; exact hr.x_save, by rw [h2]; exact hr.c1, by rw [h2]; exact hr.frame_dt,
      by rw [h3' _ hnames.1]; exact hr.density, by rw [h3' _ hnames.2.1]; exact hr.phi,
      by rw [h3' _ hnames.2.2]; exact hr.omega, hr.phi_length, hr.omega_length⟩
  obtain ⟨sel, hs, hd⟩ := calculate_eval E path f k0 x_save c1 n p o hr names hnames true vals (fun k _ => hv1 k) hv2
  obtain ⟨sel', hs', hd'⟩ := calculate_eval E path f' k0 x_save c1 n p o hr' names hnames true vals
    (fun k _ => hv1 k) hv2
  obtain ⟨σ1, e1, e2⟩ := hd b hb ⟨fs, []⟩ hf
  obtain ⟨σ2, e3, e4⟩ := hd' b hb ⟨g, []⟩ h1
  rw [e1, e3]
  refine ⟨rfl, rfl, ?_⟩
  rw [e2, e4]
  funext q
  by_cases hq : q = path
  · subst hq
    rw [upd_same, upd_same]
    congr 1
    unfold propFile createdProps
    refine congrArg₂ H5.mk ?_ h2
    funext k
    have hss : k ∈ sel ↔ k ∈ sel' := by rw [hs, hs']; simp
    by_cases hk : k ∈ names
    · simp only [hss, hk, true_or, and_self, if_true]
    · simp only [hss, hk, false_and, if_false, h3' k hk]
  · rw [upd_ne _ _ hq, upd_ne _ _ hq]
    exact hk.other q hq

/-- **C119 is violated with `force_recompute=False`**: for every file and every list of properties there is a moment at
which the call may die, such that calling it again returns normally but leaves zeros for
all the properties that were to be computed. -/
theorem C119_retry_violated (E : PropEnv α β) (path : String) (fs : FS α β) (f : H5 α β) (hf : fs path = some f)
    (k0 x_save c1 : Attr α) (n p o : List (Cell β)) (hr : RunFile f k0 x_save c1 n p o) (names : List String)
    (hnames : "density" ∉ names ∧ "phi" ∉ names ∧ "omega" ∉ names)
    (hval : Computable E k0 x_save c1 n p o names) (force : Bool) (b b' : ℕ) (hb : 1 ≤ b) (hb' : 1 ≤ b') :
    ∃ g ∈ IOM.crashStates (calculate_properties E path b names force : IOM α β Unit) fs,
      (calculate_properties E path b' names false ⟨g, []⟩).1 = .ok () ∧
      ∃ f', (calculate_properties E path b' names false ⟨g, []⟩).2.fs path = some f' ∧
        ∀ name ∈ names, force = true ∨ f.dsets name = none →
          f'.dsets name = some (.flat (List.replicate n.length (Casts.f32 (0 : α)))) := by
  obtain ⟨vals, hv1, hv2⟩ := exists_values hval hr.phi_length hr.omega_length
  have hkeep : ∀ {k}, k ∉ names → (createdProps f n.length force names).dsets k = f.dsets k := by
    intro k hk; unfold createdProps; simp only [hk, false_and, if_false]
  have hsome : ∀ {k}, k ∈ names → (createdProps f n.length force names).dsets k ≠ none := by
    intro k hk
    unfold createdProps
    simp only [hk, true_and]
    split
    · simp
    · next h => intro h'; exact h (.inr h')
  have hr' : RunFile (createdProps f n.length force names) k0 x_save c1 n p o :=
    ⟨hr.k0, hr.x_save, hr.c1, hr.frame_dt, by rw [hkeep hnames.1]; exact hr.density,
      by rw [hkeep hnames.2.1]; exact hr.phi, by rw [hkeep hnames.2.2]; exact hr.omega, hr.phi_length, hr.omega_length⟩
  obtain ⟨sel', hs', hd'⟩ := calculate_eval E path _ k0 x_save c1 n p o hr' names hnames false vals
    (fun k _ => hv1 k) hv2
  have hsel : sel' = [] := by
    rw [List.eq_nil_iff_forall_not_mem]
    intro k hk
    obtain ⟨h1, h2⟩ := (hs' k).mp hk
    rcases h2 with h2 | h2
    · cases h2
    · exact hsome h1 h2
  refine ⟨upd fs path (some (createdProps f n.length force names)), ?_, ?_⟩
  · obtain ⟨sel, hs, hd⟩ := does_createLoop (path := path) n.length force names f
    obtain ⟨v, hv⟩ := hr.frame_dt
    obtain ⟨sn, hn⟩ := hr.density
    have hattr : ∀ {k v}, f.attrs k = some v → attr f k = .ok v := by intro k v h; unfold attr; rw [h]
    have hpre : ∀ {X Y : Type} {m : IOM α β X} {x : X} {k : X → IOM α β Y} {g : FS α β},
        m ⟨fs, []⟩ = (.ok x, ⟨fs, []⟩) → g ∈ IOM.crashStates (k x) fs → g ∈ IOM.crashStates (m >>= k) fs := by
      intro X Y m x k g hm hg
      show _ ∈ ((m >>= k) ⟨fs, []⟩).2.past ++ [((m >>= k) ⟨fs, []⟩).2.fs]
      rw [IOM.bind_ok hm]
      exact hg
    unfold calculate_properties
    refine hpre (show (H5.openR path : IOM α β Unit) ⟨fs, []⟩ = (.ok (), _) by
      unfold H5.openR; simp only [hf]) ?_
    refine hpre (show (H5.content path : IOM α β _) ⟨fs, []⟩ = (.ok f, _) by
      unfold H5.content; simp only [hf]) ?_
    refine hpre (show (IOM.lift (attr f "k0") : IOM α β _) ⟨fs, []⟩ = (.ok k0, _) by rw [hattr hr.k0]; rfl) ?_
    refine hpre (show (IOM.lift (attr f "x_save") : IOM α β _) ⟨fs, []⟩ = (.ok x_save, _) by
      rw [hattr hr.x_save]; rfl) ?_
    refine hpre (show (IOM.lift (attr f "c1") : IOM α β _) ⟨fs, []⟩ = (.ok c1, _) by rw [hattr hr.c1]; rfl) ?_
    refine hpre (show (IOM.lift (attr f "frame_dt") : IOM α β _) ⟨fs, []⟩ = (.ok v, _) by rw [hattr hv]; rfl) ?_
    refine hpre (x := n.length) (?_ : (H5.len path "density" : IOM α β ℕ) ⟨fs, []⟩ = (.ok n.length, ⟨fs, []⟩)) ?_
    · obtain ⟨σ', e1, -⟩ := Does.len_rows (path := path) hn ⟨fs, []⟩ hf
      have := read_len (path := path) "density" (⟨fs, []⟩ : St α β)
      rw [e1] at this
      rw [e1]
      simp only at this
      rw [this]
    obtain ⟨σ', e1, e2⟩ := hd ⟨fs, []⟩ hf
    have := mem_crashStates_honest (k := fun selection => if b = 0 then IOM.raise .valueError
      else batchLoop E path (E.dx k0 x_save) c1 n.length b selection n.length 0) e1
      (by rw [if_neg (by omega)]; exact honest_batchLoop _ _ _ _ _ _ _ _)
    rw [e2] at this
    exact this
  · obtain ⟨σ', e1, e2⟩ := hd' b' hb' ⟨upd fs path (some (createdProps f n.length force names)), []⟩ (upd_same _ _ _)
    rw [e1]
    refine ⟨rfl, _, by rw [e2, upd_same], fun name hn hc => ?_⟩
    subst hsel
    unfold propFile
    simp only [List.not_mem_nil, false_and, if_false]
    unfold createdProps
    simp [hn, hc]

theorem demo_computable : Computable demoEnv (.num 1) (.num 1) (.num 1) [.num 1, .num 2, .num 3]
    [.num 4, .num 5, .num 6] [.num 7, .num 8, .num 9] ["energy", "gamma_n"] := by
  intro name _ _ i h1 _ _
  rcases i with _ | _ | _ | i
  · exact ⟨_, rfl⟩
  · exact ⟨_, rfl⟩
  · exact ⟨_, rfl⟩
  · simp at h1; omega

example := C119_interrupted demoEnv "out.h5" (fun _ => some demoRun) demoRun rfl _ _ _ _ _ _ demoRun_ok
  ["energy", "gamma_n"] (by decide) true 2 (by decide) demo_computable

example := C119_retry_partial demoEnv "out.h5" (fun _ => some demoRun) demoRun rfl _ _ _ _ _ _ demoRun_ok
  ["energy", "gamma_n"] ["gamma_n"] (by decide) (by decide) demo_computable false 2

example := C119_retry_violated demoEnv "out.h5" (fun _ => some demoRun) demoRun rfl _ _ _ _ _ _ demoRun_ok
  ["energy", "gamma_n"] (by decide) demo_computable false 2 2 (by decide) (by decide)

/-- in the example the second call leaves three zeros, where the uninterrupted call stores 741, 852 and 963 -/
example : (∃ g ∈ IOM.crashStates (calculate_properties demoEnv "out.h5" 2 ["gamma_n"] false : IOM ℚ ℚ Unit)
      (fun _ => some demoRun),
      ∃ f', (calculate_properties demoEnv "out.h5" 2 ["gamma_n"] false ⟨g, []⟩).2.fs "out.h5" = some f' ∧
        f'.dsets "gamma_n" = some (.flat [0, 0, 0])) ∧
    ∃ f', (calculate_properties demoEnv "out.h5" 2 ["gamma_n"] false ⟨fun _ => some demoRun, []⟩).2.fs "out.h5"
      = some f' ∧ f'.dsets "gamma_n" = some (.flat [741, 852, 963]) := by
  constructor
  · obtain ⟨g, hg, -, f', h1, h2⟩ := C119_retry_violated demoEnv "out.h5" (fun _ => some demoRun) demoRun rfl
      _ _ _ _ _ _ demoRun_ok ["gamma_n"] (by decide)
      (fun name h1 h2 => demo_computable name h1 (by simp at h2; simp [h2])) false 2 2 (by decide) (by decide)
    exact ⟨g, hg, f', h1, (h2 "gamma_n" (by simp) (.inr rfl)).trans (by norm_num [Casts.f32]; rfl)⟩
  · refine ⟨_, rfl, ?_⟩
    simp only [upd_same]
    norm_num [Casts.f32]

end Verif.Props
