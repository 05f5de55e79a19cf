import Verif.Props.FileMeans

/-!
# C109 for `run2`: both commands record the same first frame
-/

set_option linter.unusedSectionVars false

namespace Verif.Props

open H5IO H5 Run Run2 RunStart Arr Spec Set

attribute [local instance] exactOps

variable {G β : Type} [Casts ℝ β] [Inhabited β]

/-- frame 0 of `run2` holds the initial fields -/
theorem first_frame2 {E : Env2 ℝ β} {b : Backend} {a : Args2 ℝ} {σ : St ℝ β} {ns : ℕ} (hg : GoodArgs2 E b a σ ns)
    (hstart : a.recording_start_time = 0) (hendp : 0 < a.end_time) :
    ∃ count, IsLeast {k : ℕ | a.end_time ≤ FloatOps.round4 ((k : ℝ) * a.step_size)} count ∧ ∀ fuel, count < fuel →
      ∃ f : H5 ℝ β, (run2 E a fuel σ).2.fs a.output_path = some f ∧
        ∀ k ∈ ["density", "omega", "phi"], k ∉ a.properties → ∃ (V W : Arr ℝ) (rows : List (Cell β)),
          a.plasma0.get? k = some (.arr V) ∧ recordedValue E.toEnv a.downsample_factor (.arr V) = .ok (.arr W) ∧
          f.dsets k = some (.rows (.grid ns ns) (.arr (W.map Casts.f32) :: rows)) := by
  obtain ⟨_, _, _, S, -, -, -, -, hR⟩ := fresh2_physics hg
  obtain ⟨count, hcount, hrun⟩ := hR a.end_time
  have hua : a.until a.end_time = a := rfl
  rw [hua] at hrun
  have hcpos : 0 < count := by
    rcases Nat.eq_zero_or_pos count with rfl | h
    · have := hcount.1
      simp only [mem_ofPred_eq, Nat.cast_zero, zero_mul] at this
      have e0 : (FloatOps.round4 (0 : ℝ)) = 0 := by simp [FloatOps.round4, roundEven]
      rw [e0] at this
      exact absurd hendp (not_lt.mpr this)
    · exact h
  refine ⟨count, hcount, fun fuel hfuel => ?_⟩
  have hend : FloatOps.lt a.recording_start_time (timeAt E a (FloatOps.ofInt 0) count) = true := by
    rw [exact_timeAt hg.sum, hstart]
    refine decide_eq_true ?_
    have e0 : (FloatOps.ofInt 0 : ℝ) = 0 := by simp [FloatOps.ofInt]
    rw [e0, zero_add]
    have : (0 : ℝ) < count := by exact_mod_cast hcpos
    exact mul_pos this hg.step
  obtain ⟨f, f1, -, f2, -⟩ := C52_all_written_partial hrun hfuel hend
  refine ⟨f, f1, fun k hk hp => ?_⟩
  obtain ⟨rows, r1, r2⟩ := f2 k (List.mem_cons_of_mem _ hk) hp
  have hkt := field_ne_time hk
  have hfr := frames2_zero (E := E) (S := fun n => toCells (S n)) (m := count) hstart
  generalize frames2 E a (fun n => toCells (S n)) count = fr at r2 hfr
  cases r2 with
  | nil => cases hfr
  | @cons fr row frs rows' hd htl =>
    have e0 := Option.some.inj hfr
    rw [e0] at hd
    simp only [IsFrameRow, if_neg hkt] at hd
    obtain ⟨V, W, v1, v2, rfl⟩ := hd
    exact ⟨V, W, rows', v1, v2, by rw [r1, rowShape, if_neg hkt]⟩

/-- **C109 (`run2`).**  Called with the same arguments and a start that succeeds, `run2` records the same frame 0 of density, vorticity and potential
as `run`; so what C109 says about frame 0 of `run` holds for `run2`. -/
theorem C109_first_frame2 {E : Env2 ℝ β} {b : Backend} {c : Call ℝ} {ad z : Bool} {σ : St ℝ β} {ns : ℕ}
    (h : GoodCall2 E b c ad σ ns) (R : Rng G ℝ) (nan : Arr ℝ) (e g : G) (he : 0 < c.end_time) (h0 : c.recording_start_time = 0)
    (hn : ∀ g, ∃ A g', noise (exactStart R nan) c.init_type (2 * Real.pi / c.k0) (Call.dx c) c.grid_pts g = (.ok A, g') ∧
      A.h = c.grid_pts ∧ A.w = c.grid_pts) :
    ∃ m, ∀ fuel, m < fuel → ∃ f f', (runCall (exactStart R nan) E.toEnv c e g σ).2.2.fs c.output_path = some f ∧
      (run2Call (exactStart R nan) E c ad z e g fuel σ).2.2.fs c.output_path = some f' ∧
      ∀ k ∈ ["density", "omega", "phi"], k ∉ c.properties → ∃ (row : Cell β) (rows rows' : List (Cell β)),
        f.dsets k = some (.rows (.grid ns ns) (row :: rows)) ∧ f'.dsets k = some (.rows (.grid ns ns) (row :: rows')) := by
  obtain ⟨A, B, C, -, -, -, hg, ⟨g', es⟩, -, e2⟩ := runCall_start h.toGoodCall R nan (fun _ => True) e g
    (fun g => by obtain ⟨A, g', h1, h2, h3⟩ := hn g; exact ⟨A, g', h1, h2, h3, trivial⟩)
  obtain ⟨a, ha⟩ : ∃ a : Args2 ℝ, a = { c.args (Call.dx c) (.arr A) (.arr B) (.arr C) with adaptive_step_size := ad, zonal := z } := ⟨_, rfl⟩
  have hg2 : GoodArgs2 E b a σ ns := by
    rw [ha]
    exact { hg with nodup := h.nodup, props := h.props, sum := h.sum }
  obtain ⟨f, f1, f2⟩ := first_frame hg he.le h0
  obtain ⟨m, -, H⟩ := first_frame2 hg2 (by rw [ha]; exact h0) (by rw [ha]; exact he)
  refine ⟨m, fun fuel hf => ?_⟩
  obtain ⟨f', f1', f2'⟩ := H fuel hf
  have hcount : counts c = .ok () := by
    unfold counts
    simp only [FloatOps.div, if_neg h.step.ne', Py.ok_bind, FloatOps.toInt]
    rw [if_neg (Nat.one_le_iff_ne_zero.mp h.snaps)]
  have e3 : (run2Call (exactStart R nan) E c ad z e g fuel σ).2.2 = (run2 E a fuel σ).2 := by
    simp only [run2Call, h.box R nan, hcount, es, ha]
  rw [e2, e3]
  have ep : a.output_path = c.output_path := by rw [ha]; rfl
  rw [ep] at f1'
  refine ⟨f, f', f1, f1', fun k hk hp => ?_⟩
  obtain ⟨V, W, rows', v1, v2, v3⟩ := f2' k hk (by rw [ha]; exact hp)
  have hD : (k, V) ∈ [("density", A), ("omega", B), ("phi", C)] := by
    rw [ha] at v1
    simp only [List.mem_cons, List.not_mem_nil, or_false] at hk
    rcases hk with rfl | rfl | rfl
    · have q : some (Cell.arr A) = some (Cell.arr V) := v1
      rw [Cell.arr.inj (Option.some.inj q)]
      exact List.mem_cons_self
    · have q : some (Cell.arr B) = some (Cell.arr V) := v1
      rw [Cell.arr.inj (Option.some.inj q)]
      exact List.mem_cons_of_mem _ List.mem_cons_self
    · have q : some (Cell.arr C) = some (Cell.arr V) := v1
      rw [Cell.arr.inj (Option.some.inj q)]
      exact List.mem_cons_of_mem _ (List.mem_cons_of_mem _ List.mem_cons_self)
  obtain ⟨W', rows, w1, w2⟩ := f2 k V hD hp
  have ed : a.downsample_factor = c.downsample_factor := by rw [ha]; rfl
  rw [ed, w1] at v2
  have eW : W' = W := Cell.arr.inj (Except.ok.inj v2)
  rw [eW] at w2
  exact ⟨_, rows, rows', w2, v3⟩

theorem demoCall_good2 (t : String) (s : ℕ) (hs : s < 2 ^ 32) (ad : Bool) (σ : St ℝ ℝ) :
    GoodCall2 physEnv2 numpyBackend (demoCall t (some s)) ad σ 8 :=
  { demoCall_good t s hs σ with
    saves := by
      refine ⟨(demoCall_good "fourier" 42 (by norm_num) σ).saves.dim, fun h => ?_⟩
      simp [downsampling, FloatOps.eq, FloatOps.ofInt, demoCall] at h
    nodup := List.nodup_nil
    props := fun _ h => absurd h List.not_mem_nil
    sum := fun _ _ => rfl }

/-- the first frame of a seeded run of 400 steps, with and without zonal coupling -/
example (σ : St ℝ ℝ) (nan : Arr ℝ) (e g : ℕ) (ad z : Bool) := C109_first_frame2 (z := z) (demoCall_good2 "normal" 42 (by norm_num) ad σ)
  demoRng nan e g (by norm_num [demoCall]) rfl fun g => ⟨_, _, by
    unfold noise
    rw [if_neg (by simp [demoCall]), if_neg (by simp [demoCall]), if_neg (by simp [demoCall]), if_pos (by simp [demoCall])], rfl, rfl⟩

end Verif.Props
