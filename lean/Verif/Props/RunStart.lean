import Verif.Model.RunStart
import Verif.Props.Init
import Verif.Props.Downsample
import Verif.Props.Run2Physics

/-!
# Property theorem C109: the random seed and the initial fields of `run` and `run2`
-/

set_option linter.unusedSectionVars false

namespace Verif.Props

open H5IO H5 Run Run2 RunStart Arr Spec

/-! ### any scalars, any generator, any simulation -/

section general

variable {G α β : Type} [Casts α β] [Zero α] [Inhabited α] [Inhabited β] [FloatOps α]
variable {S : Starter G α} {c : Call α}

/-- the kinds of initial fields the documentation lists -/
def initTypes : List String := ["fourier", "sine", "random", "normal"]

/-- seeds `np.random.seed` accepts -/
def ValidSeed : Option ℤ → Prop
  | none => True
  | some s => 0 ≤ s ∧ s < 2 ^ 32

theorem seedRng_valid {S : Starter G α} {s : Option ℤ} (h : ValidSeed s) (e : G) :
    ∃ g', (∀ g, seedRng S e s g = (.ok (), g')) ∧ (s ≠ none → ∀ e' g, seedRng S e' s g = (.ok (), g')) := by
  match s, h with
  | none, _ => exact ⟨e, fun _ => rfl, fun h => absurd rfl h⟩
  | some (.ofNat n), h =>
    have hn : n < 2 ^ 32 := by
      have := h.2
      have : (n : ℤ) < 2 ^ 32 := this
      exact_mod_cast this
    refine ⟨S.ofSeed n, fun g => ?_, fun _ e' g => ?_⟩ <;> simp only [seedRng, if_pos hn]
  | some (.negSucc n), h => exact absurd h.1 (by simp)

theorem seedRng_invalid {S : Starter G α} {s : Option ℤ} (h : ¬ ValidSeed s) (e g : G) :
    seedRng S e s g = (.error .valueError, g) := by
  match s, h with
  | none, h => exact absurd trivial h
  | some (.ofNat n), h =>
    have hn : ¬ n < 2 ^ 32 := fun hn => h ⟨Int.natCast_nonneg n, by
      change (n : ℤ) < 2 ^ 32
      exact_mod_cast hn⟩
    simp only [seedRng, if_neg hn]
  | some (.negSucc n), h => rfl

theorem noise_unknown (S : Starter G α) {t : String} (h : t ∉ initTypes) (L dx : α) (n : ℕ) (g : G) :
    noise S t L dx n g = (.error (.keyError t), g) := by
  simp only [initTypes, List.mem_cons, List.not_mem_nil, or_false, not_or] at h
  obtain ⟨h1, h2, h3, h4⟩ := h
  simp only [noise, if_neg h1, if_neg h2, if_neg h3, if_neg h4]

theorem seeded_unknown (h : c.init_type ∉ initTypes) (hs : ValidSeed c.seed) (e : G) (L dx : α) (g : G) :
    ∃ g', seeded S c e L dx g = (.error (.keyError c.init_type), g') := by
  obtain ⟨g1, h1, -⟩ := seedRng_valid (S := S) hs e
  exact ⟨g1, by simp only [seeded, h1, fields, RunStart.field, noise_unknown S h]⟩

/-- what happens after the box is known depends on the seed only -/
theorem seeded_eq (s : Option ℤ) (hs : c.seed = s) (e e' g g' : G) (L dx : α) (he : e = e' ∨ s ≠ none) :
    (seeded S c e L dx g).1 = (seeded S c e' L dx g').1 := by
  subst hs
  by_cases hv : ValidSeed c.seed
  · obtain ⟨g1, h1, h2⟩ := seedRng_valid (S := S) hv e
    have h1' : seedRng S e' c.seed g' = (.ok (), g1) := by
      rcases he with rfl | he
      exacts [h1 g', h2 he e' g']
    simp only [seeded, h1 g, h1']
  · simp only [seeded, seedRng_invalid hv]

/-- **C109.** What `run` does is determined by its arguments and the files: the
random numbers drawn earlier in the process have no influence, and with a `seed`
the operating system's entropy has none either. -/
theorem C109_reproducible (E : Env α β) (c : Call α) (e e' g g' : G) (σ : St α β) (he : e = e' ∨ c.seed ≠ none) :
    (runCall S E c e g σ).1 = (runCall S E c e' g' σ).1 ∧ (runCall S E c e g σ).2.2 = (runCall S E c e' g' σ).2.2 := by
  unfold runCall
  cases box S c with
  | error x => exact ⟨rfl, rfl⟩
  | ok b =>
    have h := seeded_eq (S := S) c.seed rfl e e' g g' b.1 b.2 he
    simp only
    generalize seeded S c e b.1 b.2 g = r at *
    generalize seeded S c e' b.1 b.2 g' = r' at *
    obtain ⟨r1, r2⟩ := r
    obtain ⟨r1', r2'⟩ := r'
    simp only at h
    subst h
    cases r1 <;> exact ⟨rfl, rfl⟩

/-- **C109** for `run2`. -/
theorem C109_reproducible2 (E : Env2 α β) (c : Call α) (ad z : Bool) (e e' g g' : G) (fuel : ℕ) (σ : St α β)
    (he : e = e' ∨ c.seed ≠ none) :
    (run2Call S E c ad z e g fuel σ).1 = (run2Call S E c ad z e' g' fuel σ).1 ∧
    (run2Call S E c ad z e g fuel σ).2.2 = (run2Call S E c ad z e' g' fuel σ).2.2 := by
  unfold run2Call
  cases box S c with
  | error x => exact ⟨rfl, rfl⟩
  | ok b =>
    cases counts c with
    | error x => exact ⟨rfl, rfl⟩
    | ok _ =>
      have h := seeded_eq (S := S) c.seed rfl e e' g g' b.1 b.2 he
      simp only
      generalize seeded S c e b.1 b.2 g = r at *
      generalize seeded S c e' b.1 b.2 g' = r' at *
      obtain ⟨r1, r2⟩ := r
      obtain ⟨r1', r2'⟩ := r'
      simp only at h
      subst h
      cases r1 <;> exact ⟨rfl, rfl⟩

/-- the arguments are valid: `k0` and `grid_pts` give a grid spacing, `np.random.seed`
accepts the seed, the kind of initial fields exists -/
def ValidStart (S : Starter G α) (c : Call α) : Prop :=
  (∃ L dx, FloatOps.div S.twoPi c.k0 = .ok L ∧ FloatOps.div L (FloatOps.ofInt c.grid_pts) = .ok dx) ∧
    ValidSeed c.seed ∧ c.init_type ∈ initTypes

theorem box_ok {L dx : α} (h : box S c = .ok (L, dx)) :
    FloatOps.div S.twoPi c.k0 = .ok L ∧ FloatOps.div L (FloatOps.ofInt c.grid_pts) = .ok dx := by
  unfold box at h
  cases h1 : FloatOps.div S.twoPi c.k0 with
  | error e => rw [h1] at h; cases h
  | ok L' =>
    rw [h1] at h
    simp only [Py.ok_bind] at h
    cases h2 : FloatOps.div L' (FloatOps.ofInt c.grid_pts) with
    | error e => rw [h2] at h; cases h
    | ok dx' =>
      rw [h2] at h
      simp only [Py.ok_bind, Py.pure_eq] at h
      injection h with h
      injection h with h3 h4
      subst h3; subst h4
      exact ⟨rfl, h2⟩

theorem seeded_ok {e g g' : G} {L dx : α} {a : Args α} (h : seeded S c e L dx g = (.ok a, g')) :
    ValidSeed c.seed ∧ c.init_type ∈ initTypes := by
  have hs : ValidSeed c.seed := by
    by_contra hs
    rw [seeded, seedRng_invalid hs] at h
    cases h
  refine ⟨hs, ?_⟩
  by_contra ht
  obtain ⟨g1, e1⟩ := seeded_unknown (S := S) ht hs e L dx g
  rw [e1] at h
  cases h

/-- **C109.** `run` with invalid arguments (an unknown `init_type`, a seed NumPy
refuses, a `k0` or `grid_pts` without grid spacing) raises an exception and
touches no file — in particular an existing `output_path` is still there, even
with `force_recompute=True`. -/
theorem C109_invalid_start (E : Env α β) (c : Call α) (e g : G) (σ : St α β) (h : ¬ ValidStart S c) :
    (∃ x, (runCall S E c e g σ).1 = .error x) ∧ (runCall S E c e g σ).2.2 = σ := by
  unfold runCall
  cases hb : box S c with
  | error x => exact ⟨⟨x, rfl⟩, rfl⟩
  | ok b =>
    obtain ⟨L, dx⟩ := b
    simp only
    cases hr : seeded S c e L dx g with
    | mk r g' =>
      cases r with
      | error x => exact ⟨⟨x, rfl⟩, rfl⟩
      | ok a => exact absurd ⟨⟨L, dx, box_ok hb⟩, seeded_ok hr⟩ h

/-- **C109** for `run2`. -/
theorem C109_invalid_start2 (E : Env2 α β) (c : Call α) (ad z : Bool) (e g : G) (fuel : ℕ) (σ : St α β)
    (h : ¬ ValidStart S c) :
    (∃ x, (run2Call S E c ad z e g fuel σ).1 = .error x) ∧ (run2Call S E c ad z e g fuel σ).2.2 = σ := by
  unfold run2Call
  cases hb : box S c with
  | error x => exact ⟨⟨x, rfl⟩, rfl⟩
  | ok b =>
    obtain ⟨L, dx⟩ := b
    simp only
    cases counts c with
    | error x => exact ⟨⟨x, rfl⟩, rfl⟩
    | ok _ =>
      simp only
      cases hr : seeded S c e L dx g with
      | mk r g' =>
        cases r with
        | error x => exact ⟨⟨x, rfl⟩, rfl⟩
        | ok a => exact absurd ⟨⟨L, dx, box_ok hb⟩, seeded_ok hr⟩ h

/-- **C109.** The exceptions name the cause: `KeyError` for an unknown
`init_type`, `ValueError` for a seed NumPy refuses. -/
theorem C109_errors (E : Env α β) (c : Call α) (e g : G) (σ : St α β) {L dx : α}
    (h1 : FloatOps.div S.twoPi c.k0 = .ok L) (h2 : FloatOps.div L (FloatOps.ofInt c.grid_pts) = .ok dx) :
    (¬ ValidSeed c.seed → (runCall S E c e g σ).1 = .error .valueError) ∧
    (ValidSeed c.seed → c.init_type ∉ initTypes → (runCall S E c e g σ).1 = .error (.keyError c.init_type)) := by
  have hb : box S c = .ok (L, dx) := by
    unfold box
    rw [h1]
    simp only [Py.ok_bind]
    rw [h2]
    rfl
  refine ⟨fun hs => ?_, fun hs ht => ?_⟩
  · simp only [runCall, hb, seeded, seedRng_invalid hs]
  · obtain ⟨g1, e1⟩ := seeded_unknown (S := S) ht hs e L dx g
    simp only [runCall, hb, e1]

/-- **C109.** If `2 * np.pi / k0` or the division by `grid_pts` raises, `run` and
`run2` raise the same exception. -/
theorem C109_no_spacing (E : Env2 α β) (c : Call α) (ad z : Bool) (e g : G) (fuel : ℕ) (σ : St α β) {x : PyErr}
    (h : FloatOps.div S.twoPi c.k0 = .error x ∨
      ∃ L, FloatOps.div S.twoPi c.k0 = .ok L ∧ FloatOps.div L (FloatOps.ofInt c.grid_pts) = .error x) :
    (runCall S E.toEnv c e g σ).1 = .error x ∧ (run2Call S E c ad z e g fuel σ).1 = .error x := by
  have hb : box S c = .error x := by
    unfold box
    rcases h with h | ⟨L, h1, h2⟩
    · rw [h]; rfl
    · rw [h1]
      simp only [Py.ok_bind]
      rw [h2]; rfl
  simp only [runCall, run2Call, hb, and_self]

/-- **C109.** `init_type="sine"` is deterministic: `run` does the same with
every (valid) seed and without one. -/
theorem C109_sine_ignores_seed (E : Env α β) (c : Call α) (hc : c.init_type = "sine") (s : Option ℤ) (hs : ValidSeed s)
    (hs' : ValidSeed c.seed) (e e' g g' : G) (σ : St α β) :
    (runCall S E { c with seed := s } e g σ).1 = (runCall S E c e' g' σ).1 ∧
    (runCall S E { c with seed := s } e g σ).2.2 = (runCall S E c e' g' σ).2.2 := by
  have hn : ∀ (L dx : α) (n : ℕ) (g : G), noise S "sine" L dx n g = (S.sine n L, g) := fun L dx n g => by
    unfold noise
    rw [if_neg (by decide), if_pos rfl]
  obtain ⟨g1, h1, -⟩ := seedRng_valid (S := S) hs e
  obtain ⟨g2, h2, -⟩ := seedRng_valid (S := S) hs' e'
  unfold runCall
  have hb : box S { c with seed := s } = box S c := rfl
  rw [hb]
  cases box S c with
  | error x => exact ⟨rfl, rfl⟩
  | ok b =>
    simp only [seeded, h1, h2, fields, RunStart.field, hc, hn]
    cases S.sine c.grid_pts b.1 <;> exact ⟨rfl, rfl⟩

/-- what `seeded` hands to the simulation -/
theorem seeded_args {e g g' : G} {L dx : α} {a : Args α} (h : seeded S c e L dx g = (.ok a, g')) :
    ∃ d o p, a = c.args dx d o p := by
  unfold seeded at h
  cases h1 : seedRng S e c.seed g with
  | mk r g1 =>
    rw [h1] at h
    cases r with
    | error x => cases h
    | ok _ =>
      simp only at h
      cases h2 : fields S c L dx g1 with
      | mk r g2 =>
        rw [h2] at h
        cases r with
        | error x => cases h
        | ok t =>
          obtain ⟨d, o, p⟩ := t
          simp only [Prod.mk.injEq, Except.ok.injEq] at h
          exact ⟨d, o, p, h.1.symm⟩

/-- **C109.** A call of `run` with neither `force_recompute` nor `continue_file` leaves an existing
`output_path` as it is, whatever the other arguments, the seed and the initial fields are. -/
theorem C109_existing_kept (E : Env α β) (c : Call α) (e g : G) (σ : St α β) (hpath : c.output_path ≠ "")
    (hf : (σ.fs c.output_path).isSome = true) (h1 : c.force_recompute = false) (h2 : c.continue_file = false) :
    (runCall S E c e g σ).2.2 = σ := by
  unfold runCall
  cases box S c with
  | error x => rfl
  | ok b =>
    obtain ⟨L, dx⟩ := b
    simp only
    cases hr : seeded S c e L dx g with
    | mk r g' =>
      cases r with
      | error x => rfl
      | ok a =>
        obtain ⟨d, o, p, rfl⟩ := seeded_args hr
        exact (C50_protected (a := c.args dx d o p) hpath hf h1 h2).1

/-- **C109** for `run2`. -/
theorem C109_existing_kept2 (E : Env2 α β) (c : Call α) (ad z : Bool) (e g : G) (fuel : ℕ) (σ : St α β)
    (hpath : c.output_path ≠ "") (hf : (σ.fs c.output_path).isSome = true) (h1 : c.force_recompute = false)
    (h2 : c.continue_file = false) : (run2Call S E c ad z e g fuel σ).2.2 = σ := by
  unfold run2Call
  cases box S c with
  | error x => rfl
  | ok b =>
    obtain ⟨L, dx⟩ := b
    simp only
    cases hc : counts c with
    | error x => rfl
    | ok _ =>
      simp only
      cases hr : seeded S c e L dx g with
      | mk r g' =>
        cases r with
        | error x => rfl
        | ok a =>
          obtain ⟨d, o, p, rfl⟩ := seeded_args hr
          unfold counts at hc
          cases hq : FloatOps.div c.end_time c.step_size with
          | error x => rw [hq] at hc; cases hc
          | ok q =>
            rw [hq] at hc
            simp only [Py.ok_bind] at hc
            cases hz : FloatOps.toInt q with
            | error x => rw [hz] at hc; cases hc
            | ok z =>
              rw [hz] at hc
              simp only [Py.ok_bind] at hc
              have hsn : c.snaps ≠ 0 := fun h0 => by rw [if_pos h0] at hc; cases hc
              exact (C50_run2_protected (a := { c.args dx d o p with adaptive_step_size := ad, zonal := _ }) hpath hf h1 h2
                (Nat.one_le_iff_ne_zero.mpr hsn) ⟨q, z, hq, hz⟩).1

end general

/-! ### the initial fields of `initializations/`, exact arithmetic -/

attribute [local instance] exactOps

variable {G β : Type} [Casts ℝ β] [Inhabited β]

/-- Arguments of `run` for a simulation into a new file, cf. `GoodArgs`. -/
structure GoodCall (E : Env ℝ β) (b : Backend) (c : Call ℝ) (σ : St ℝ β) (ns : ℕ) : Prop where
  grid : 0 < c.grid_pts
  k0 : 0 < c.k0
  seed : ValidSeed c.seed
  backend : Std b c.grid_pts c.grid_pts
  path : c.output_path ≠ ""
  fresh : σ.fs c.output_path = none ∨ c.force_recompute = true
  buffer : 1 ≤ c.buffer_length
  snaps : 1 ≤ c.snaps
  step : 0 < c.step_size
  saves : SavesAs E c.downsample_factor c.grid_pts ns
  sim : E.HW = fun p => (hwOf b p).map hwSolver
  attr : E.attrNum = attrReal
  nan : ∀ v, E.hasNaN v = false

/-- grid spacing of the run -/
noncomputable def Call.dx (c : Call ℝ) : ℝ := 2 * Real.pi / c.k0 / c.grid_pts

theorem GoodCall.args {E : Env ℝ β} {b : Backend} {c : Call ℝ} {σ : St ℝ β} {ns : ℕ} (h : GoodCall E b c σ ns) {dx : ℝ}
    {A B C : Arr ℝ} (a1 : A.h = c.grid_pts) (a2 : A.w = c.grid_pts) (b1 : B.h = c.grid_pts) (b2 : B.w = c.grid_pts)
    (c1 : C.h = c.grid_pts) (c2 : C.w = c.grid_pts) : GoodArgs E b (c.args dx (.arr A) (.arr B) (.arr C)) σ ns where
  grid := h.grid
  backend := h.backend
  density := ⟨A, rfl, a1, a2⟩
  omega := ⟨B, rfl, b1, b2⟩
  phi := ⟨C, rfl, c1, c2⟩
  path := h.path
  fresh := h.fresh
  buffer := h.buffer
  snaps := h.snaps
  step := h.step
  saves := h.saves
  sim := h.sim
  attr := h.attr
  nan := h.nan

theorem GoodCall.box {E : Env ℝ β} {b : Backend} {c : Call ℝ} {σ : St ℝ β} {ns : ℕ} (h : GoodCall E b c σ ns)
    (R : Rng G ℝ) (nan : Arr ℝ) : RunStart.box (exactStart R nan) c = .ok (2 * Real.pi / c.k0, Call.dx c) := by
  have hk := h.k0.ne'
  have hg : ((c.grid_pts : ℤ) : ℝ) ≠ 0 := by
    have := h.grid
    exact_mod_cast this.ne'
  unfold RunStart.box
  simp only [FloatOps.div, FloatOps.ofInt, if_neg hk, Py.ok_bind, if_neg hg]
  simp [Call.dx, exactStart]

/-- the initial fields are drawn by three calls; `P` is what is known about their results -/
theorem runCall_start {E : Env ℝ β} {b : Backend} {c : Call ℝ} {σ : St ℝ β} {ns : ℕ} (h : GoodCall E b c σ ns)
    (R : Rng G ℝ) (nan : Arr ℝ) (P : Arr ℝ → Prop) (e g : G)
    (hP : ∀ g, ∃ A g', noise (exactStart R nan) c.init_type (2 * Real.pi / c.k0) (Call.dx c) c.grid_pts g = (.ok A, g') ∧
      A.h = c.grid_pts ∧ A.w = c.grid_pts ∧ P (A.map fun x => x * c.init_scale)) :
    ∃ A B C : Arr ℝ, P A ∧ P B ∧ P C ∧ GoodArgs E b (c.args (Call.dx c) (.arr A) (.arr B) (.arr C)) σ ns ∧
      (∃ g', seeded (exactStart R nan) c e (2 * Real.pi / c.k0) (Call.dx c) g
        = (.ok (c.args (Call.dx c) (.arr A) (.arr B) (.arr C)), g')) ∧
      (runCall (exactStart R nan) E c e g σ).1 = (run E (c.args (Call.dx c) (.arr A) (.arr B) (.arr C)) σ).1 ∧
      (runCall (exactStart R nan) E c e g σ).2.2 = (run E (c.args (Call.dx c) (.arr A) (.arr B) (.arr C)) σ).2 := by
  obtain ⟨g1, h1, -⟩ := seedRng_valid (S := exactStart R nan) h.seed e
  obtain ⟨A, g2, eA, a1, a2, pA⟩ := hP g1
  obtain ⟨B, g3, eB, b1, b2, pB⟩ := hP g2
  obtain ⟨C, g4, eC, c1, c2, pC⟩ := hP g3
  have hs : seeded (exactStart R nan) c e (2 * Real.pi / c.k0) (Call.dx c) g
      = (.ok (c.args (Call.dx c) (.arr (A.map fun x => x * c.init_scale)) (.arr (B.map fun x => x * c.init_scale))
          (.arr (C.map fun x => x * c.init_scale))), g4) := by
    simp only [seeded, h1, fields, RunStart.field, eA, eB, eC]
    rfl
  refine ⟨_, _, _, pA, pB, pC, h.args a1 a2 b1 b2 c1 c2, ⟨g4, hs⟩, ?_, ?_⟩ <;> simp only [runCall, h.box R nan, hs]

/-- frame 0 holds the initial fields -/
theorem first_frame {E : Env ℝ β} {b : Backend} {c : Call ℝ} {σ : St ℝ β} {ns : ℕ} {A B C : Arr ℝ}
    (hg : GoodArgs E b (c.args (Call.dx c) (.arr A) (.arr B) (.arr C)) σ ns) (he : 0 ≤ c.end_time)
    (h0 : c.recording_start_time = 0) :
    ∃ f, (run E (c.args (Call.dx c) (.arr A) (.arr B) (.arr C)) σ).2.fs c.output_path = some f ∧
      ∀ k D, (k, D) ∈ [("density", A), ("omega", B), ("phi", C)] → k ∉ c.properties →
        ∃ (W : Arr ℝ) (rows : List (Cell β)), recordedValue E c.downsample_factor (.arr D) = .ok (.arr W) ∧
          f.dsets k = some (.rows (.grid ns ns) (.arr (W.map Casts.f32) :: rows)) := by
  obtain ⟨_, _, _, T, -, -, -, -, hfr⟩ := fresh_physics hg he
  obtain ⟨f, f1, -, -, -, f2, -⟩ := run_result hfr
  refine ⟨f, f1, fun k D hkD hp => ?_⟩
  have hk : k ∈ ["density", "omega", "phi"] := by
    simp only [List.mem_cons, List.not_mem_nil, or_false, Prod.mk.injEq] at hkD ⊢
    tauto
  obtain ⟨rows, r1, r2⟩ := f2 k (List.mem_cons_of_mem _ (by simpa [fieldList] using hk)) hp
  have hz : FloatOps.eq c.recording_start_time (FloatOps.ofInt 0 : ℝ) = true := by
    simp [FloatOps.eq, FloatOps.ofInt, h0]
  unfold frames at r2
  simp only [Call.args, hz, if_true, List.cons_append, List.nil_append] at r2
  cases r2 with
  | cons hd _ =>
    have hkt : k ≠ "time" := by
      simp only [List.mem_cons, List.not_mem_nil, or_false] at hk
      rcases hk with rfl | rfl | rfl <;> decide
    simp only [IsFrameRow, if_neg hkt] at hd
    obtain ⟨V, W, v1, v2, rfl⟩ := hd
    refine ⟨W, _, ?_, by rw [r1, rowShape, if_neg hkt]⟩
    have hV : V = D := by
      simp only [List.mem_cons, List.not_mem_nil, or_false, Prod.mk.injEq] at hkD
      rcases hkD with ⟨rfl, rfl⟩ | ⟨rfl, rfl⟩ | ⟨rfl, rfl⟩ <;>
      · have v1' : some (Cell.arr _) = some (Cell.arr V) := v1
        injection v1' with v1'
        injection v1' with v1'
        exact v1'.symm
    rw [← hV]
    exact v2

/-- **C109.** With `init_type="sine"` and recording from the start, frame 0 of
density, vorticity and potential is the same product of sine waves times
`init_scale` (downsampled if requested, rounded to `float32`). -/
theorem C109_sine_first_frame {E : Env ℝ β} {b : Backend} {c : Call ℝ} {σ : St ℝ β} {ns : ℕ} (h : GoodCall E b c σ ns)
    (R : Rng G ℝ) (nan : Arr ℝ) (e g : G) (hc : c.init_type = "sine") (he : 0 ≤ c.end_time)
    (h0 : c.recording_start_time = 0) :
    ∃ f, (runCall (exactStart R nan) E c e g σ).2.2.fs c.output_path = some f ∧
      ∀ k ∈ ["density", "omega", "phi"], k ∉ c.properties → ∃ (W : Arr ℝ) (rows : List (Cell β)),
        recordedValue E c.downsample_factor (.arr (tab c.grid_pts c.grid_pts fun i j =>
          Real.sin (2 * Real.pi * (j * Call.dx c) + 1) * Real.sin (2 * Real.pi * (i * Call.dx c) + 1) * c.init_scale))
          = .ok (.arr W) ∧
        f.dsets k = some (.rows (.grid ns ns) (.arr (W.map Casts.f32) :: rows)) := by
  set A0 : Arr ℝ := tab c.grid_pts c.grid_pts fun i j =>
    Real.sin (2 * Real.pi * (j * Call.dx c) + 1) * Real.sin (2 * Real.pi * (i * Call.dx c) + 1) * c.init_scale with hA0
  obtain ⟨A, B, C, pA, pB, pC, hg, -, -, e2⟩ := runCall_start h R nan (fun A => A = A0) e g (fun g => by
    rw [hc]
    refine ⟨_, g, by
      unfold noise
      rw [if_neg (by decide), if_pos rfl]
      change (Init.get_2d_sine c.grid_pts c.grid_pts (2 * Real.pi / c.k0), g) = _
      rw [sine_eq], rfl, rfl, ?_⟩
    rw [map_tab, hA0]
    have q : ∀ x : ℝ, x * (2 * Real.pi / c.k0) / c.grid_pts = x * Call.dx c := fun x => by
      unfold Call.dx; ring
    simp only [q])
  subst pA
  subst pB
  subst pC
  obtain ⟨f, f1, f2⟩ := first_frame hg he h0
  rw [e2]
  refine ⟨f, f1, fun k hk hp => f2 k A0 ?_ hp⟩
  simp only [List.mem_cons, List.not_mem_nil, or_false, Prod.mk.injEq, and_true] at hk ⊢
  exact hk

/-- the `m`-th of successive draws from a generator -/
def draws (d : G → Arr ℝ × G) (g : G) : ℕ → Arr ℝ
  | 0 => (d g).1
  | m + 1 => draws d (d g).2 m

/-- frame 0 for any way of drawing the fields one after the other -/
theorem drawn_first_frame {E : Env ℝ β} {b : Backend} {c : Call ℝ} {σ : St ℝ β} {ns : ℕ} (h : GoodCall E b c σ ns)
    (R : Rng G ℝ) (nan : Arr ℝ) (e g : G) (s : ℕ) (hs : c.seed = some s) (d : ℕ → G → Arr ℝ × G)
    (hn : ∀ g, noise (exactStart R nan) c.init_type (2 * Real.pi / c.k0) (Call.dx c) c.grid_pts g
      = (.ok (d c.grid_pts g).1, (d c.grid_pts g).2))
    (hd : ∀ g, (d c.grid_pts g).1.h = c.grid_pts ∧ (d c.grid_pts g).1.w = c.grid_pts) (he : 0 ≤ c.end_time)
    (h0 : c.recording_start_time = 0) :
    ∃ f, (runCall (exactStart R nan) E c e g σ).2.2.fs c.output_path = some f ∧
      ∀ k m, (k, m) ∈ [("density", 0), ("omega", 1), ("phi", 2)] → k ∉ c.properties →
        ∃ (W : Arr ℝ) (rows : List (Cell β)),
          recordedValue E c.downsample_factor
            (.arr ((draws (d c.grid_pts) (R.ofSeed s) m).map fun x => x * c.init_scale)) = .ok (.arr W) ∧
          f.dsets k = some (.rows (.grid ns ns) (.arr (W.map Casts.f32) :: rows)) := by
  have hlt : s < 2 ^ 32 := by
    have := h.seed
    rw [hs] at this
    exact_mod_cast this.2
  have h1 : seedRng (exactStart R nan) e c.seed g = (.ok (), R.ofSeed s) := by
    rw [hs]
    change (if s < 2 ^ 32 then _ else _) = _
    rw [if_pos hlt]
    rfl
  set g1 := R.ofSeed s
  set A := (d c.grid_pts g1).1.map fun x => x * c.init_scale with hA
  set g2 := (d c.grid_pts g1).2
  set B := (d c.grid_pts g2).1.map fun x => x * c.init_scale with hB
  set g3 := (d c.grid_pts g2).2
  set C := (d c.grid_pts g3).1.map fun x => x * c.init_scale with hC
  have hseed : seeded (exactStart R nan) c e (2 * Real.pi / c.k0) (Call.dx c) g
      = (.ok (c.args (Call.dx c) (.arr A) (.arr B) (.arr C)), (d c.grid_pts g3).2) := by
    simp only [seeded, h1, fields, RunStart.field, hn]
    rfl
  have e2 : (runCall (exactStart R nan) E c e g σ).2.2 = (run E (c.args (Call.dx c) (.arr A) (.arr B) (.arr C)) σ).2 := by
    simp only [runCall, h.box R nan, hseed]
  have hg : GoodArgs E b (c.args (Call.dx c) (.arr A) (.arr B) (.arr C)) σ ns :=
    h.args (hd _).1 (hd _).2 (hd _).1 (hd _).2 (hd _).1 (hd _).2
  obtain ⟨f, f1, f2⟩ := first_frame hg he h0
  rw [e2]
  refine ⟨f, f1, fun k m hkm hp => f2 k _ ?_ hp⟩
  simp only [List.mem_cons, List.not_mem_nil, or_false, Prod.mk.injEq] at hkm
  rcases hkm with ⟨rfl, rfl⟩ | ⟨rfl, rfl⟩ | ⟨rfl, rfl⟩
  · exact List.mem_cons_self
  · exact List.mem_cons_of_mem _ List.mem_cons_self
  · exact List.mem_cons_of_mem _ (List.mem_cons_of_mem _ List.mem_cons_self)

/-- **C109.** With a seed, `init_type` "normal" or "random" and recording from the start, frame 0 of
density, vorticity and potential is `init_scale` times the first, second and third `grid_pts × grid_pts`
array the generator yields after seeding, each by one call of `np.random.normal` or `np.random.rand`
(downsampled if requested, rounded to `float32`). -/
theorem C109_random_first_frame {E : Env ℝ β} {b : Backend} {c : Call ℝ} {σ : St ℝ β} {ns : ℕ} (h : GoodCall E b c σ ns)
    (R : Rng G ℝ) (nan : Arr ℝ) (e g : G) (s : ℕ) (hs : c.seed = some s) (d : ℕ → G → Arr ℝ × G)
    (hc : c.init_type = "normal" ∧ d = R.normal ∨ c.init_type = "random" ∧ d = R.rand)
    (hd : ∀ g, (d c.grid_pts g).1.h = c.grid_pts ∧ (d c.grid_pts g).1.w = c.grid_pts) (he : 0 ≤ c.end_time)
    (h0 : c.recording_start_time = 0) :
    ∃ f, (runCall (exactStart R nan) E c e g σ).2.2.fs c.output_path = some f ∧
      ∀ k m, (k, m) ∈ [("density", 0), ("omega", 1), ("phi", 2)] → k ∉ c.properties →
        ∃ (W : Arr ℝ) (rows : List (Cell β)),
          recordedValue E c.downsample_factor
            (.arr ((draws (d c.grid_pts) (R.ofSeed s) m).map fun x => x * c.init_scale)) = .ok (.arr W) ∧
          f.dsets k = some (.rows (.grid ns ns) (.arr (W.map Casts.f32) :: rows)) := by
  have hn : ∀ g, noise (exactStart R nan) c.init_type (2 * Real.pi / c.k0) (Call.dx c) c.grid_pts g
      = (.ok (d c.grid_pts g).1, (d c.grid_pts g).2) := by
    intro g
    unfold noise
    rcases hc with ⟨hc, rfl⟩ | ⟨hc, rfl⟩ <;> rw [hc]
    · rw [if_neg (by decide), if_neg (by decide), if_neg (by decide), if_pos rfl]; rfl
    · rw [if_neg (by decide), if_neg (by decide), if_pos rfl]; rfl
  exact drawn_first_frame h R nan e g s hs d hn hd he h0

/-- every draw of complex random numbers contains a wave (the numbers are not all zero up to symmetry) -/
def DrawsWaves (R : Rng G ℝ) (n : ℕ) : Prop := ∀ g, ∃ k l, k < n ∧ l < n ∧ ¬ (k = 0 ∧ l = 0) ∧
  (complexNoise R n g).1 k l + (starRingEnd ℂ) ((complexNoise R n g).1 ((n - k) % n) ((n - l) % n)) ≠ 0

theorem fourier_noise {R : Rng G ℝ} {c : Call ℝ} (nan : Arr ℝ) (hk : 0 < c.k0) (hR : DrawsWaves R c.grid_pts) (g : G) :
    ∃ A g', noise (exactStart R nan) "fourier" (2 * Real.pi / c.k0) (Call.dx c) c.grid_pts g = (.ok A, g') ∧
      A.h = c.grid_pts ∧ A.w = c.grid_pts ∧
      amean (A.map fun x => x * c.init_scale) = 0 := by
  obtain ⟨k, l, h1, h2, h3, h4⟩ := hR g
  obtain ⟨A, e, a1, a2, a3, -⟩ := C63_run c.grid_pts c.k0 hk _ k l h1 h2 h3 h4
  refine ⟨A, (complexNoise R c.grid_pts g).2, ?_, a1, a2, ?_⟩
  · unfold noise
    rw [if_pos rfl]
    simp only [exactStart]
    change ((Init.get_fft_noise (Init.runNoise c.grid_pts c.k0) _).map _, _) = _
    rw [e]
    rfl
  · unfold amean
    change Spec.mean A.h A.w _ = 0
    rw [a1, a2]
    have : Spec.mean c.grid_pts c.grid_pts (A.map fun x => x * c.init_scale).at'
        = Spec.mean c.grid_pts c.grid_pts A.at' * c.init_scale := by
      unfold Spec.mean
      rw [div_mul_eq_mul_div, Finset.sum_mul]
      congr 1
      refine Finset.sum_congr rfl fun i hi => ?_
      rw [Finset.sum_mul]
      refine Finset.sum_congr rfl fun j hj => ?_
      have hi' : i < A.h := by rw [a1]; exact Finset.mem_range.mp hi
      have hj' : j < A.w := by rw [a2]; exact Finset.mem_range.mp hj
      simp [Arr.at', Arr.map, hi', hj']
    rw [this, a3, zero_mul]

/-- **C109.** With a seed, `init_type="fourier"` and recording from the start, frame 0 of density, vorticity and potential
is `init_scale` times the noise `get_fft_noise` makes (C63, C114) of the first and second, third and fourth, fifth and sixth
`grid_pts × grid_pts` array of normally distributed numbers the generator yields after seeding: real and imaginary parts. -/
theorem C109_fourier_first_frame {E : Env ℝ β} {b : Backend} {c : Call ℝ} {σ : St ℝ β} {ns : ℕ} (h : GoodCall E b c σ ns)
    (R : Rng G ℝ) (nan : Arr ℝ) (e g : G) (s : ℕ) (hs : c.seed = some s) (hc : c.init_type = "fourier")
    (hR : DrawsWaves R c.grid_pts) (he : 0 ≤ c.end_time) (h0 : c.recording_start_time = 0) :
    ∃ f, (runCall (exactStart R nan) E c e g σ).2.2.fs c.output_path = some f ∧
      ∀ k m, (k, m) ∈ [("density", 0), ("omega", 1), ("phi", 2)] → k ∉ c.properties →
        ∃ (A W : Arr ℝ) (rows : List (Cell β)),
          Init.get_fft_noise (Init.runNoise c.grid_pts c.k0) (fun i j =>
            ⟨(draws (R.normal c.grid_pts) (R.ofSeed s) (2 * m)).at' i j,
             (draws (R.normal c.grid_pts) (R.ofSeed s) (2 * m + 1)).at' i j⟩) = .ok (some A) ∧
          recordedValue E c.downsample_factor (.arr (A.map fun x => x * c.init_scale)) = .ok (.arr W) ∧
          f.dsets k = some (.rows (.grid ns ns) (.arr (W.map Casts.f32) :: rows)) := by
  have key : ∀ g, ∃ A, Init.get_fft_noise (Init.runNoise c.grid_pts c.k0) (complexNoise R c.grid_pts g).1 = .ok (some A) ∧
      A.h = c.grid_pts ∧ A.w = c.grid_pts := by
    intro g
    obtain ⟨k, l, h1, h2, h3, h4⟩ := hR g
    obtain ⟨A, e, a1, a2, -⟩ := C63_run c.grid_pts c.k0 h.k0 _ k l h1 h2 h3 h4
    exact ⟨A, e, a1, a2⟩
  choose F hF using key
  obtain ⟨f, f1, f2⟩ := drawn_first_frame h R nan e g s hs (fun _ g => (F g, (complexNoise R c.grid_pts g).2)) (fun g => by
    rw [hc]
    unfold noise
    rw [if_pos rfl]
    simp only [exactStart]
    change ((Init.get_fft_noise (Init.runNoise c.grid_pts c.k0) _).map _, _) = _
    rw [(hF g).1]
    rfl) (fun g => (hF g).2) he h0
  refine ⟨f, f1, fun k m hkm hp => ?_⟩
  obtain ⟨W, rows, w1, w2⟩ := f2 k m hkm hp
  refine ⟨_, W, rows, ?_, w1, w2⟩
  simp only [List.mem_cons, List.not_mem_nil, or_false, Prod.mk.injEq] at hkm
  rcases hkm with ⟨-, rfl⟩ | ⟨-, rfl⟩ | ⟨-, rfl⟩ <;> exact (hF _).1

/-- fields without mean stay so -/
theorem zero_means {hw : HW} {n : ℕ} (h0 : 0 < n) (hb : Std hw.backend n n) (hN : 1 ≤ hw.N ∨ hw.nu = 0) (dt dx : ℝ)
    {A B C : Arr ℝ} (a1 : A.h = n) (a2 : A.w = n) (b1 : B.h = n) (b2 : B.w = n)
    (hC : ∀ c, ∃ c', hw.get_phi B dx c = .ok (C, c')) (mA : amean A = 0) (mB : amean B = 0) {T : ℕ → NS Val}
    (hT : ∀ n c, ∃ c', history hw dx (List.replicate n (.rk4 dt)) (startState A B C) c = .ok (T n, c')) (k : ℕ) :
    amean (arrOf (T k) "density") = 0 ∧ amean (arrOf (T k) "omega") = 0 ∧ amean (arrOf (T k) "phi") = 0 := by
  have : NeZero n := ⟨h0.ne'⟩
  have hphi : ∀ {B C : Arr ℝ}, B.h = n → B.w = n → (∀ c, ∃ c', hw.get_phi B dx c = .ok (C, c')) →
      C.h = n ∧ C.w = n ∧ amean C = 0 := by
    intro B C b1 b2 hC
    have e := get_phi_ofField hw hb.good (toFld B : Fld n n) dx {}
    rw [ofField_toFld b1 b2] at e
    obtain ⟨c', e'⟩ := hC {}
    rw [e] at e'
    injection e' with e'
    injection e' with e' _
    subst e'
    exact ⟨rfl, rfl, by rw [amean_ofField, avg_phiF]⟩
  obtain ⟨c1, c2, mC⟩ := hphi b1 b2 hC
  have hs := startState_isState hw.TEST_CONSERVATION a1 a2 b1 b2 c1 c2
  have d0 : arrOf (startState A B C) "density" = A := rfl
  have o0 : arrOf (startState A B C) "omega" = B := rfl
  have p0 : arrOf (startState A B C) "phi" = C := rfl
  obtain ⟨s1, q1, e1, -, m1⟩ := C27_mean_difference_conserved hw dx h0 h0 hb hN (List.replicate k (.rk4 dt)) _ hs {}
  obtain ⟨s2, q2, e2, m2, m3⟩ := C28_mean_density hw dx h0 h0 hb hN (List.replicate k (.rk4 dt)) _ hs {}
  obtain ⟨q3, e3⟩ := hT k {}
  rw [e3] at e1 e2
  obtain ⟨rfl, -⟩ := Prod.ext_iff.mp (Except.ok.inj e1)
  have es : T k = s2 := (Prod.ext_iff.mp (Except.ok.inj e2)).1
  rw [← es] at m2 m3
  have md : amean (arrOf (T k) "density") = 0 := by
    cases hz : hw.zonal with
    | false => rw [m2 hz (by rw [p0]; exact mC), d0, mA, mul_zero]
    | true => rw [(m3 (.inl hz)).1, d0, mA]
  refine ⟨md, ?_, ?_⟩
  · simp only [d0, o0] at m1
    linarith
  · cases k with
    | zero =>
      have : T 0 = startState A B C := by
        injection e3 with e3
        injection e3 with e3 _
        exact e3.symm
      rw [this, p0, mC]
    | succ k =>
      obtain ⟨s4, q4, e4, i4, m4⟩ := C32_phi_consistent hw dx h0 h0 hb (List.replicate (k + 1) (.rk4 dt)) (by simp) _ hs {}
      rw [e3] at e4
      have es : T (k + 1) = s4 := (Prod.ext_iff.mp (Except.ok.inj e4)).1
      rw [← es] at m4 i4
      obtain ⟨O, hO, o1, o2⟩ := i4.omega
      have eO : arrOf (T (k + 1)) "omega" = O := by simp only [arrOf, hO]
      exact (hphi (by rw [eO, o1]) (by rw [eO, o2]) m4).2.2

/-- the frames are written as they are, or downsampled by `fourier_downsample` -/
def Downsamples (E : Env ℝ β) (factor : ℝ) : Prop := factor = 1 ∨ E.downsample = Downsample.downsampleCell

theorem recorded_mean {E : Env ℝ β} {factor : ℝ} (hd : Downsamples E factor) {V W : Arr ℝ}
    (h : recordedValue E factor (.arr V) = .ok (.arr W)) (hV : amean V = 0) : amean W = 0 := by
  unfold recordedValue at h
  by_cases hf : downsampling factor = true
  · rw [if_pos hf] at h
    rcases hd with rfl | hd
    · simp [downsampling, FloatOps.eq, FloatOps.ofInt] at hf
    · rw [hd] at h
      simp only [Downsample.downsampleCell] at h
      cases hx : Downsample.fourier_downsample V factor with
      | error e => rw [hx] at h; cases h
      | ok X =>
        rw [hx] at h
        simp only [Py.ok_bind, Py.pure_eq] at h
        injection h with h
        injection h with h
        subst h
        exact (C78_mean V X factor hx).trans hV
  · rw [if_neg hf] at h
    injection h with h
    injection h with h
    subst h
    exact hV

theorem frame_rows {E : Env ℝ β} {factor : ℝ} (hd : Downsamples E factor) {k : String} (hk : k ≠ "time")
    {fr : List (ℝ × NS (Cell ℝ))} {rows : List (Cell β)}
    (h : List.Forall₂ (fun x row => IsFrameRow E factor k x.1 x.2 row) fr rows)
    (hm : ∀ x ∈ fr, ∀ V, x.2.get? k = some (.arr V) → amean V = 0) :
    ∀ row ∈ rows, ∃ W : Arr ℝ, row = .arr (W.map Casts.f32) ∧ amean W = 0 := by
  induction h with
  | nil => intro row hr; cases hr
  | @cons x row fr rows hx hrest ih =>
    intro r hr
    rcases List.mem_cons.mp hr with rfl | hr
    · simp only [IsFrameRow, if_neg hk] at hx
      obtain ⟨V, W, v1, v2, v3⟩ := hx
      exact ⟨W, v3, recorded_mean hd v2 (hm _ List.mem_cons_self V v1)⟩
    · exact ih (fun x hx => hm x (List.mem_cons_of_mem _ hx)) r hr

theorem state_means {T : NS Val} {k : String} (hk : k ∈ ["density", "omega", "phi"])
    (h : amean (arrOf T "density") = 0 ∧ amean (arrOf T "omega") = 0 ∧ amean (arrOf T "phi") = 0) {V : Arr ℝ}
    (hV : (toCells T).get? k = some (.arr V)) : amean V = 0 := by
  have e : arrOf T k = V := by
    rw [get?_toCells] at hV
    unfold arrOf
    cases hT : T.get? k with
    | none => rw [hT] at hV; cases hV
    | some v =>
      rw [hT] at hV
      cases v with
      | num x => cases hV
      | arr X =>
        simp only [Option.map_some, Val.toCell] at hV
        injection hV with hV
        injection hV with hV
  simp only [List.mem_cons, List.not_mem_nil, or_false] at hk
  rcases hk with rfl | rfl | rfl
  · rw [← e]; exact h.1
  · rw [← e]; exact h.2.1
  · rw [← e]; exact h.2.2

/-- the initial fields have mean zero -/
theorem plasma0_means {c : Call ℝ} {dx : ℝ} {A B C : Arr ℝ} (pA : amean A = 0) (pB : amean B = 0) (pC : amean C = 0)
    {k : String} (hk : k ∈ ["density", "omega", "phi"]) {V : Arr ℝ}
    (hV : (c.args dx (.arr A) (.arr B) (.arr C)).plasma0.get? k = some (.arr V)) : amean V = 0 := by
  simp only [List.mem_cons, List.not_mem_nil, or_false] at hk
  rcases hk with rfl | rfl | rfl
  · have q : some (Cell.arr A) = some (Cell.arr V) := hV
    injection q with q
    injection q with q
    rw [← q]; exact pA
  · have q : some (Cell.arr B) = some (Cell.arr V) := hV
    injection q with q
    injection q with q
    rw [← q]; exact pB
  · have q : some (Cell.arr C) = some (Cell.arr V) := hV
    injection q with q
    injection q with q
    rw [← q]; exact pC

theorem field_ne_time {k : String} (hk : k ∈ ["density", "omega", "phi"]) : k ≠ "time" := by
  simp only [List.mem_cons, List.not_mem_nil, or_false] at hk
  rcases hk with rfl | rfl | rfl <;> decide

/-- **C109.** With `init_type="fourier"` every frame of density, vorticity and
potential in the file has mean zero (before the rounding to `float32`), for
every seed, every grid and however long the run is. -/
theorem C109_fourier_zero_mean {E : Env ℝ β} {b : Backend} {c : Call ℝ} {σ : St ℝ β} {ns : ℕ} (h : GoodCall E b c σ ns)
    {R : Rng G ℝ} (hR : DrawsWaves R c.grid_pts) (nan : Arr ℝ) (e g : G) (hc : c.init_type = "fourier")
    (he : 0 ≤ c.end_time) (hN : 1 ≤ c.N ∨ c.nu = 0) (hd : Downsamples E c.downsample_factor) :
    ∃ f, (runCall (exactStart R nan) E c e g σ).2.2.fs c.output_path = some f ∧
      ∀ k ∈ ["density", "omega", "phi"], k ∉ c.properties → ∃ rows, f.dsets k = some (.rows (.grid ns ns) rows) ∧
        ∀ row ∈ rows, ∃ W : Arr ℝ, row = .arr (W.map Casts.f32) ∧ amean W = 0 := by
  obtain ⟨A, B, C, pA, pB, pC, hg, -, -, e2⟩ := runCall_start h R nan (fun A => amean A = 0) e g
    (fun g => by rw [hc]; exact fourier_noise nan h.k0 hR g)
  obtain ⟨A', B', C', T, hA, hB, hC, hT, hfr⟩ := fresh_physics hg he
  obtain ⟨A2, hA2, a1, a2⟩ := hg.density
  obtain ⟨B2, hB2, b1, b2⟩ := hg.omega
  have eA : A = A' := by injection hA
  have eB : B = B' := by injection hB
  have eA2 : A = A2 := by injection hA2
  have eB2 : B = B2 := by injection hB2
  rw [← eA2] at a1 a2
  rw [← eB2] at b1 b2
  subst eA
  subst eB
  obtain ⟨f, f1, -, -, -, f2, -⟩ := run_result hfr
  rw [e2]
  refine ⟨f, f1, fun k hk hp => ?_⟩
  obtain ⟨rows, r1, r2⟩ := f2 k (List.mem_cons_of_mem _ (by simpa [fieldList] using hk)) hp
  have hkt := field_ne_time hk
  refine ⟨rows, by rw [r1, rowShape, if_neg hkt], frame_rows hd hkt r2 fun x hx V hV => ?_⟩
  unfold frames at hx
  rcases List.mem_append.mp hx with hx | hx
  · split at hx
    · rw [List.mem_singleton] at hx
      subst hx
      exact plasma0_means pA pB pC hk hV
    · cases hx
  · obtain ⟨it, -, rfl⟩ := List.mem_map.mp hx
    have hN' : 1 ≤ (theHW b (c.args (Call.dx c) (.arr A) (.arr B) (.arr C))).N ∨
        (theHW b (c.args (Call.dx c) (.arr A) (.arr B) (.arr C))).nu = 0 :=
      hN.imp id fun e => by simp [theHW, HW.init, Call.args, e]
    exact state_means hk (zero_means hg.grid hg.backend hN' _ _ a1 a2 b1 b2 hC pA pB hT it) hV

/-- Arguments of `run2` for a simulation into a new file: in addition the
properties to record are known and distinct. -/
structure GoodCall2 (E : Env2 ℝ β) (b : Backend) (c : Call ℝ) (ad : Bool) (σ : St ℝ β) (ns : ℕ) : Prop
    extends GoodCall E.toEnv b c σ ns where
  nodup : c.properties.Nodup
  props : ∀ name ∈ c.properties, ∃ F, E.propertyFn name = some F ∧
    ∀ n p o : Arr ℝ, (n.h = c.grid_pts ∧ n.w = c.grid_pts) → (p.h = c.grid_pts ∧ p.w = c.grid_pts) →
      (o.h = c.grid_pts ∧ o.w = c.grid_pts) → ∃ x, F (.arr n) (.arr p) (.arr o) (Call.dx c) c.c1 = .ok x
  sum : ad = true → ∀ l, E.sum l = l.sum

/-- **C109**: also with `run2`, with and without `zonal`. -/
theorem C109_fourier_zero_mean2 {E : Env2 ℝ β} {b : Backend} {c : Call ℝ} {ad z : Bool} {σ : St ℝ β} {ns : ℕ}
    (h : GoodCall2 E b c ad σ ns) {R : Rng G ℝ} (hR : DrawsWaves R c.grid_pts) (nan : Arr ℝ) (e g : G)
    (hc : c.init_type = "fourier") (hN : 1 ≤ c.N ∨ c.nu = 0) (hd : Downsamples E.toEnv c.downsample_factor) :
    ∃ m, ∀ fuel, m < fuel → ∃ f, (run2Call (exactStart R nan) E c ad z e g fuel σ).2.2.fs c.output_path = some f ∧
      ∀ k ∈ ["density", "omega", "phi"], k ∉ c.properties → ∃ rows, f.dsets k = some (.rows (.grid ns ns) rows) ∧
        ∀ row ∈ rows, ∃ W : Arr ℝ, row = .arr (W.map Casts.f32) ∧ amean W = 0 := by
  obtain ⟨A, B, C, pA, pB, pC, hg, ⟨g', es⟩, -, -⟩ := runCall_start h.toGoodCall R nan (fun A => amean A = 0) e g
    (fun g => by rw [hc]; exact fourier_noise nan h.k0 hR g)
  set a : Args2 ℝ := { c.args (Call.dx c) (.arr A) (.arr B) (.arr C) with adaptive_step_size := ad, zonal := z } with ha
  have hg2 : GoodArgs2 E b a σ ns := { hg with nodup := h.nodup, props := h.props, sum := h.sum }
  obtain ⟨A', B', C', T, hA, hB, hC, hT, hfr⟩ := fresh2_physics hg2
  obtain ⟨m, -, hfr⟩ := hfr c.end_time
  obtain ⟨A2, hA2, a1, a2⟩ := hg.density
  obtain ⟨B2, hB2, b1, b2⟩ := hg.omega
  have eA : A = A' := by injection hA
  have eB : B = B' := by injection hB
  have eA2 : A = A2 := by injection hA2
  have eB2 : B = B2 := by injection hB2
  rw [← eA2] at a1 a2
  rw [← eB2] at b1 b2
  subst eA
  subst eB
  refine ⟨m, fun fuel hf => ?_⟩
  obtain ⟨f, f1, -, -, -, -, f2, -⟩ := run2_result hfr hf
  have hcount : counts c = .ok () := by
    unfold counts
    simp only [FloatOps.div, if_neg h.step.ne', Py.ok_bind, FloatOps.toInt]
    rw [if_neg (Nat.one_le_iff_ne_zero.mp h.snaps)]
  have e2 : (run2Call (exactStart R nan) E c ad z e g fuel σ).2.2 = (run2 E a fuel σ).2 := by
    simp only [run2Call, h.box R nan, hcount, es]
    rfl
  rw [e2]
  refine ⟨f, f1, fun k hk hp => ?_⟩
  obtain ⟨rows, r1, r2⟩ := f2 k (List.mem_cons_of_mem _ (by simpa [fieldList] using hk)) hp
  have hkt := field_ne_time hk
  refine ⟨rows, by rw [r1, rowShape, if_neg hkt], frame_rows hd hkt r2 fun x hx V hV => ?_⟩
  have hx : x ∈ frames2 E (a.until c.end_time) (fun n => toCells (T n)) m := by
    unfold written2 at hx
    split at hx
    · exact hx
    · exact List.mem_of_mem_take hx
  unfold frames2 at hx
  rcases List.mem_append.mp hx with hx | hx
  · split at hx
    · rw [List.mem_singleton] at hx
      subst hx
      exact plasma0_means (c := c) (dx := Call.dx c) pA pB pC hk hV
    · cases hx
  · unfold stepFrames2 at hx
    obtain ⟨it, -, rfl⟩ := List.mem_map.mp hx
    exact state_means hk (zero_means (hw := theHW2 b a) hg.grid hg.backend
      (hN.imp id fun e => by simp [theHW2, HW.init, ha, Call.args, e]) _ _ a1 a2 b1 b2 hC pA pB hT it) hV

/-! ### non-vacuity -/

/-- a generator whose state counts the draws -/
noncomputable def demoRng : Rng ℕ ℝ where
  ofSeed s := s
  rand n g := (tab n n fun i j => 1 / (1 + i + 2 * j + g), g + 1)
  normal n g := (tab n n fun i j => 1 + i + 2 * j + g, g + 1)

theorem demoRng_waves : DrawsWaves demoRng 8 := fun g => ⟨1, 0, by decide, by decide, by decide, fun h => by
  have := congrArg Complex.re h
  have e1 := tab_at' 8 8 (fun i j => (1 + i + 2 * j + g : ℝ)) (i := 1) (j := 0) (by decide) (by decide)
  have e2 := tab_at' 8 8 (fun i j => (1 + i + 2 * j + g : ℝ)) (i := 7) (j := 0) (by decide) (by decide)
  simp [complexNoise, demoRng, e1, e2] at this
  have hg : (0 : ℝ) ≤ g := Nat.cast_nonneg g
  linarith⟩

noncomputable def demoCall (init_type : String) (seed : Option ℤ) : Call ℝ where
  step_size := 1 / 40
  end_time := 10
  grid_pts := 8
  k0 := 3 / 20
  N := 3
  nu := 1 / 10
  c1 := 1
  kappa_coeff := 1
  poisson_bracket_coeff := 1
  seed := seed
  init_type := init_type
  init_scale := 1 / 100
  output_path := "run.h5"
  recording_start_time := 0
  continue_file := false
  buffer_length := 100
  snaps := 3
  downsample_factor := 1
  add_last_state := true
  properties := []
  force_recompute := true

theorem demoCall_good (t : String) (s : ℕ) (hs : s < 2 ^ 32) (σ : St ℝ ℝ) :
    GoodCall physEnv numpyBackend (demoCall t (some s)) σ 8 where
  grid := by simp [demoCall]
  k0 := by norm_num [demoCall]
  seed := ⟨Int.natCast_nonneg s, by exact_mod_cast hs⟩
  backend := .inl rfl
  path := by simp [demoCall]
  fresh := .inr rfl
  buffer := by simp [demoCall]
  snaps := by simp [demoCall]
  step := by norm_num [demoCall]
  saves := by
    refine ⟨by simp [saveDim, downsampling, FloatOps.eq, FloatOps.ofInt, demoCall], fun h => ?_⟩
    simp [downsampling, FloatOps.eq, FloatOps.ofInt, demoCall] at h
  sim := rfl
  attr := rfl
  nan _ := rfl

/-- a run of 400 steps with seed 42 -/
example (σ : St ℝ ℝ) (nan : Arr ℝ) (e g : ℕ) := C109_fourier_zero_mean (demoCall_good "fourier" 42 (by norm_num) σ)
  (R := demoRng) demoRng_waves nan e g rfl (by norm_num [demoCall]) (.inl (by decide : 1 ≤ 3)) (.inl rfl)

example (σ : St ℝ ℝ) (nan : Arr ℝ) (e g : ℕ) := C109_sine_first_frame (demoCall_good "sine" 42 (by norm_num) σ)
  demoRng nan e g rfl (by norm_num [demoCall]) rfl

example (σ : St ℝ ℝ) (nan : Arr ℝ) (e g : ℕ) := C109_random_first_frame (demoCall_good "normal" 42 (by norm_num) σ)
  demoRng nan e g 42 rfl demoRng.normal (.inl ⟨rfl, rfl⟩) (fun _ => ⟨rfl, rfl⟩) (by norm_num [demoCall]) rfl

example (σ : St ℝ ℝ) (nan : Arr ℝ) (e g : ℕ) := C109_fourier_first_frame (demoCall_good "fourier" 42 (by norm_num) σ)
  demoRng nan e g 42 rfl rfl demoRng_waves (by norm_num [demoCall]) rfl

/-- `run2` with the same arguments -/
example (σ : St ℝ ℝ) (nan : Arr ℝ) (e g : ℕ) := C109_fourier_zero_mean2 (E := physEnv2) (ad := true) (z := true) (σ := σ)
  { demoCall_good "fourier" 42 (by norm_num) σ with
    saves := by
      refine ⟨(demoCall_good "fourier" 42 (by norm_num) σ).saves.dim, fun h => ?_⟩
      simp [downsampling, FloatOps.eq, FloatOps.ofInt, demoCall] at h
    nodup := List.nodup_nil
    props := fun _ h => absurd h List.not_mem_nil
    sum := fun _ _ => rfl } (R := demoRng) demoRng_waves nan e g rfl (.inl (by decide : 1 ≤ 3)) (.inl rfl)

/-- `k0 = 0` -/
example (σ : St ℝ ℝ) (nan : Arr ℝ) (e g : ℕ) : (runCall (exactStart demoRng nan) physEnv2.toEnv
    { demoCall "sine" none with k0 := 0 } e g σ).1 = .error .zeroDivisionError :=
  (C109_no_spacing physEnv2 _ true true e g 0 σ (.inl (if_pos rfl))).1

/-- a mistyped `init_type`, and a negative seed, raise and touch no file -/
example (σ : St ℝ ℝ) (nan : Arr ℝ) (e g : ℕ) :
    (runCall (exactStart demoRng nan) physEnv (demoCall "Fourier" none) e g σ).2.2 = σ ∧
    (runCall (exactStart demoRng nan) physEnv (demoCall "fourier" (some (-1))) e g σ).2.2 = σ :=
  ⟨(C109_invalid_start physEnv _ e g σ (fun h => by simpa [initTypes, demoCall] using h.2.2)).2,
    (C109_invalid_start physEnv _ e g σ (fun h => by simpa [ValidSeed, demoCall] using h.2.1.1)).2⟩

example (σ : St ℝ ℝ) (nan : Arr ℝ) := C109_reproducible (S := exactStart demoRng nan) physEnv (demoCall "fourier" (some 42)) 1 2 3 4 σ
  (.inr (by simp [demoCall]))

example (σ : St ℝ ℝ) (nan : Arr ℝ) := C109_reproducible2 (S := exactStart demoRng nan) physEnv2 (demoCall "fourier" (some 42)) true true
  1 2 3 4 100 σ (.inr (by simp [demoCall]))

example (σ : St ℝ ℝ) (nan : Arr ℝ) (e g : ℕ) := C109_invalid_start2 (S := exactStart demoRng nan) physEnv2 (demoCall "Fourier" none) true true
  e g 100 σ (fun h => by simpa [initTypes, demoCall] using h.2.2)

example (σ : St ℝ ℝ) (nan : Arr ℝ) (e e' g g' : ℕ) := C109_sine_ignores_seed (S := exactStart demoRng nan) physEnv (demoCall "sine" (some 42)) rfl
  (some 7) (by simp [ValidSeed]) (by simp [ValidSeed, demoCall]) e e' g g' σ

/-- a second call with the same path keeps the file of the first one -/
example (f : H5 ℝ ℝ) (nan : Arr ℝ) (e g : ℕ) :
    (runCall (exactStart demoRng nan) physEnv { demoCall "fourier" none with continue_file := false, force_recompute := false } e g
      ⟨fun _ => some f, []⟩).2.2 = ⟨fun _ => some f, []⟩ ∧
    (run2Call (exactStart demoRng nan) physEnv2 { demoCall "fourier" none with continue_file := false, force_recompute := false } true true
      e g 100 ⟨fun _ => some f, []⟩).2.2 = ⟨fun _ => some f, []⟩ :=
  ⟨C109_existing_kept physEnv _ e g _ (by simp [demoCall]) rfl rfl rfl,
    C109_existing_kept2 physEnv2 _ true true e g 100 _ (by simp [demoCall]) rfl rfl rfl⟩

end Verif.Props
