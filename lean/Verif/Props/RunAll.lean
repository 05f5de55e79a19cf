import Verif.Model.RunAll
import Verif.Props.MovieFile
import Verif.Props.Timetrace
import Verif.Props.Image
import Verif.Props.RunProperties
import Verif.Lemmas.NoOther

/-!
# C126: complete calls of `run`, with movie and plots
-/

set_option linter.unusedSectionVars false

namespace Verif.Props

open H5IO H5 Run Run2 Movie Timetrace RunAll

section

attribute [local instance] exactOps

variable {K : Type} [Field K] [LinearOrder K] [IsStrictOrderedRing K] [FloorRing K] [Casts K K] [Inhabited K]

/-- the same call without properties -/
def noProps (a : Args K) : Args K := { a with properties := [] }

private theorem loop_noProps (E : Env K K) (hw : Solver K) (a : Args K) (k : ℕ) :
    ∀ it s, loop E hw (noProps a) k it s = loop E hw a k it s := by
  induction k with
  | zero => exact fun _ _ => rfl
  | succ k ih =>
    intro it s
    unfold loop
    simp only [ih]
    rfl

private theorem simulate_noProps (E : Env K K) (a : Args K) (s : RunState K K) (p : NS (Attr K)) (t : K) :
    simulate E (noProps a) s p t = simulate E a s p t := by
  unfold simulate
  simp only [loop_noProps]
  rfl

private theorem movie_state (path : String) (t0 : K) (t1 : Option K) (z : Bool) (o : List String) (fps : ℤ) (speed : K)
    (σ : St K K) : (create_movie path t0 t1 z o fps speed σ).2 = σ := by
  cases hf : σ.fs path with
  | none =>
    unfold create_movie
    rw [IOM.bind_error (e := .fileError) (σ' := σ) (by unfold openR; simp only [hf])]
  | some f =>
    unfold create_movie
    rw [IOM.bind_ok (x := ()) (σ' := σ) (by unfold openR; simp only [hf]),
      IOM.bind_ok (x := f) (σ' := σ) (by unfold content; simp only [hf])]
    cases ha : RunProperties.attr f "adaptive_step_size" with
    | error e => rfl
    | ok v =>
      rw [IOM.bind_ok (m := IOM.lift (.ok v)) (x := v) (σ' := σ) rfl]
      split <;> rfl

theorem makeMovie_state (path : String) (x : Extras K) (σ : St K K) : (makeMovie path x σ).2 = σ := by
  unfold makeMovie
  split
  · rw [IOM.bind_apply]
    have h := movie_state path 0 none false fieldList x.min_fps x.speed σ
    rcases hm : create_movie path 0 none false fieldList x.min_fps x.speed σ with ⟨r, σ'⟩
    rw [hm] at h
    cases r with
    | error e => exact h
    | ok film => exact h
  · rfl

private theorem makePlot_state (sqrt : K → K) (path : String) (x : Extras K) (σ : St K K) :
    (makePlot sqrt path x σ).2 = σ := by
  unfold makePlot
  split
  · cases hf : σ.fs path with
    | none => rw [IOM.bind_error (e := .fileError) (σ' := σ) (by unfold openR; simp only [hf])]
    | some f =>
      rw [IOM.bind_ok (x := ()) (σ' := σ) (by unfold openR; simp only [hf]),
        IOM.bind_ok (x := f) (σ' := σ) (by unfold content; simp only [hf])]
      rfl
  · rfl

/-- movie, properties and figure of `run` -/
private def finish (E : Env K K) (a : Args K) (x : Extras K) (sqrt : K → K) : IOM K K (Output K (List (Curve K))) := do
  let film ← makeMovie a.output_path x
  makeProperties E.props a.output_path a.buffer_length a.properties
  let curves ← makePlot sqrt a.output_path x
  return ⟨film, curves⟩

/-- the state in which `movie` is made -/
private theorem runAll_split (E : Env K K) (a : Args K) (x : Extras K) (sqrt : K → K) (σ : St K K) :
    (runAll E a x sqrt σ = ((run E a σ).1.map fun _ => ⟨none, none⟩, (run E a σ).2)) ∨
    ∃ σ', run E (noProps a) σ = (.ok (), σ') ∧
      run E a σ = makeProperties E.props a.output_path a.buffer_length a.properties σ' ∧
      runAll E a x sqrt σ = finish E a x sqrt σ' := by
  unfold runAll run
  by_cases hpath : a.output_path = ""
  · left
    simp only [hpath, if_true]
    rfl
  · have h1 : setup E (noProps a) = setup E a := rfl
    have h2 : (noProps a).output_path = a.output_path := rfl
    simp only [if_neg hpath, h1, h2, IOM.bind_apply]
    rcases hs : setup E a σ with ⟨r, σ1⟩
    cases r with
    | error e => left; rfl
    | ok r => cases r with
      | none => left; rfl
      | some r =>
        obtain ⟨s, p, t⟩ := r
        simp only [simulate_noProps, IOM.bind_apply]
        rcases hm : simulate E a s p t σ1 with ⟨r, σ2⟩
        cases r with
        | error e => left; rfl
        | ok u =>
          right
          exact ⟨σ2, rfl, rfl, rfl⟩

private theorem makeProperties_noProps (E : Env K K) (a : Args K) (σ : St K K) (h : a.properties = []) :
    makeProperties E.props a.output_path a.buffer_length a.properties σ = (.ok (), σ) := by
  unfold makeProperties
  rw [h]
  rfl

/-- **C126 (files).**  Movie and figure of `run` do not change any file: the files are the same as without them, unless the
movie fails.  If the movie fails (with the exception of `create_movie`), the files are those of a call without
properties. -/
theorem C126_files (E : Env K K) (a : Args K) (x : Extras K) (sqrt : K → K) (σ : St K K) :
    (runAll E a x sqrt σ).2 = (run E a σ).2 ∨
    (x.movie = true ∧ ∃ e, runAll E a x sqrt σ = (.error e, (run E (noProps a) σ).2) ∧
      (create_movie a.output_path 0 none false fieldList x.min_fps x.speed (run E (noProps a) σ).2).1 = .error e) := by
  rcases runAll_split E a x sqrt σ with h | ⟨σ', h1, h2, h3⟩
  · left; rw [h]
  · rw [h1, h2, h3]
    unfold finish
    simp only [IOM.bind_apply]
    have hst := makeMovie_state a.output_path x σ'
    rcases hm : makeMovie a.output_path x σ' with ⟨r, σ1⟩
    rw [hm] at hst
    simp only at hst
    subst hst
    cases r with
    | error e =>
      right
      unfold makeMovie at hm
      by_cases hx : x.movie = true
      · rw [if_pos hx, IOM.bind_apply] at hm
        refine ⟨hx, e, rfl, ?_⟩
        rcases hc : create_movie a.output_path 0 none false fieldList x.min_fps x.speed σ1 with ⟨r, σ2⟩
        rw [hc] at hm
        cases r with
        | error e' => cases (Prod.mk.inj hm).1; rfl
        | ok film => cases (Prod.mk.inj hm).1
      · rw [if_neg hx] at hm
        cases (Prod.mk.inj hm).1
    | ok film =>
      left
      simp only
      rcases hp : makeProperties E.props a.output_path a.buffer_length a.properties σ1 with ⟨r, σ2⟩
      cases r with
      | error e => rfl
      | ok u =>
        simp only
        have hst := makePlot_state sqrt a.output_path x σ2
        rcases hq : makePlot sqrt a.output_path x σ2 with ⟨r, σ3⟩
        rw [hq] at hst
        cases r with
        | error e => exact hst
        | ok c => exact hst

/-- `v` is the property `name` of the recorded fields of the frame `fr`, as stored -/
def IsRecordedProp (E : Env K K) (a : Args K) (ns : ℕ) (name : String) (fr : K × NS (Cell K)) (y : K) : Prop :=
  ∃ n p o v, IsFrameRow E a.downsample_factor "density" fr.1 fr.2 n ∧ IsFrameRow E a.downsample_factor "phi" fr.1 fr.2 p ∧
    IsFrameRow E a.downsample_factor "omega" fr.1 fr.2 o ∧
    E.props.value name (E.props.dx (.num a.k0) (.int ns)) (.num a.c1) n p o = .ok v ∧ y = Casts.f32 v

/-- every property asked for is known and can be computed for every recorded frame -/
def PropsDefined (E : Env K K) (a : Args K) (ns : ℕ) (frs : List (K × NS (Cell K))) : Prop :=
  ∀ name ∈ a.properties, name ∈ Spec.propertyTable ∧ ∀ fr ∈ frs, ∀ n p o,
    IsFrameRow E a.downsample_factor "density" fr.1 fr.2 n → IsFrameRow E a.downsample_factor "phi" fr.1 fr.2 p →
    IsFrameRow E a.downsample_factor "omega" fr.1 fr.2 o →
    ∃ v, E.props.value name (E.props.dx (.num a.k0) (.int ns)) (.num a.c1) n p o = .ok v

private theorem fresh_noProps {E : Env K K} {a : Args K} {σ : St K K} {hw : Solver K} {ns m : ℕ} {steps : ℤ}
    {S : ℕ → NS (Cell K)} (h : FreshRun E a σ hw ns steps m S) : FreshRun E (noProps a) σ hw ns steps m S :=
  { h with }

private theorem split_fresh {E : Env K K} {a : Args K} {σ : St K K} {hw : Solver K} {ns m : ℕ} {steps : ℤ}
    {S : ℕ → NS (Cell K)} (h : FreshRun E a σ hw ns steps m S) (x : Extras K) (sqrt : K → K) :
    run E (noProps a) σ = (.ok (), (run E (noProps a) σ).2) ∧
      run E a σ = makeProperties E.props a.output_path a.buffer_length a.properties (run E (noProps a) σ).2 ∧
      runAll E a x sqrt σ = finish E a x sqrt (run E (noProps a) σ).2 := by
  obtain ⟨σ1, f1, buf1, i1, e1, hI1, e2, e3⟩ := setup_fresh (E := E) h.fresh h.buffer h.saves h.init
  obtain ⟨phi, hphi, hS0⟩ := h.start
  obtain ⟨q, hq, hst⟩ := h.count
  obtain ⟨f', buf', i', g1, g2, g3⟩ := does_simulate (S := S) h.saves h.solver (p := a.plasma0) (om := a.omega0) (by rfl)
    (dxa := .num a.dx) (by rfl) hphi hS0 hq hst h.snaps h.traj h.shaped h.stops hI1
  obtain ⟨σ2, r1, r2⟩ := g3 σ1 (by rw [e3, upd_same])
  have h1 : setup E (noProps a) = setup E a := rfl
  have h2 : (noProps a).output_path = a.output_path := rfl
  have k0 : run E (noProps a) σ = (.ok (), σ2) := by
    unfold run
    simp only [h1, h2]
    rw [if_neg h.path, IOM.bind_ok e2]
    simp only [simulate_noProps]
    rw [IOM.bind_ok r1]
    rfl
  rw [k0]
  refine ⟨rfl, ?_, ?_⟩
  · unfold run
    rw [if_neg h.path, IOM.bind_ok e2]
    simp only
    rw [IOM.bind_ok r1]
    rfl
  · unfold runAll
    rw [if_neg h.path, IOM.bind_ok e2]
    simp only
    rw [IOM.bind_ok r1]
    rfl

/-- the properties of the file of a new run -/
private theorem props_of_run {E : Env K K} {a : Args K} {σ : St K K} {hw : Solver K} {ns m : ℕ} {steps : ℤ}
    {S : ℕ → NS (Cell K)} (h : FreshRun E a σ hw ns steps m S) (hv : PropsDefined E a ns (frames a S m)) :
    ∃ f, run E a σ = (.ok (), (run E a σ).2) ∧ (run E a σ).2.fs a.output_path = some f ∧
      ∀ name ∈ a.properties, ∃ l : List K, f.dsets name = some (.flat l) ∧
        List.Forall₂ (IsRecordedProp E a ns name) (frames a S m) l := by
  obtain ⟨-, hrun, -⟩ := split_fresh h ⟨false, 0, 0, []⟩ id
  have h0 := fresh_noProps h
  obtain ⟨f, g1, hd, -, -⟩ := C73_run_parameters h0
  obtain ⟨f', g1', -, -, -, g2, -⟩ := run_result h0
  obtain rfl : f' = f := Option.some.inj (g1'.symm.trans g1)
  obtain ⟨n, n1, n2⟩ := g2 "density" (by simp [fieldList]) (by simp [noProps])
  obtain ⟨p, p1, p2⟩ := g2 "phi" (by simp [fieldList]) (by simp [noProps])
  obtain ⟨o, o1, o2⟩ := g2 "omega" (by simp [fieldList]) (by simp [noProps])
  change List.Forall₂ _ (frames a S m) _ at n2 p2 o2
  have hf : RunFile f' (.num a.k0) (.int ns) (.num a.c1) n p o :=
    ⟨hd.k0, hd.x_save, hd.c1, ⟨_, hd.frame_dt⟩, ⟨_, n1⟩, ⟨_, p1⟩, ⟨_, o1⟩, p2.length_eq.symm.trans n2.length_eq,
      o2.length_eq.symm.trans n2.length_eq⟩
  have hnm : ∀ k, k ∈ ["density", "phi", "omega"] → k ∉ a.properties := by
    intro k hk hka
    have := (hv k hka).1
    simp only [List.mem_cons, List.not_mem_nil, or_false] at hk
    rcases hk with rfl | rfl | rfl <;> simp [Spec.propertyTable] at this
  have row : ∀ {k : String} {r : List (Cell K)}, List.Forall₂ (fun fr row => IsFrameRow E a.downsample_factor k fr.1 fr.2 row)
      (frames a S m) r → ∀ i (hi : i < (frames a S m).length) (hi' : i < r.length),
      IsFrameRow E a.downsample_factor k (frames a S m)[i].1 (frames a S m)[i].2 r[i] := fun h i hi hi' =>
    (List.forall₂_iff_get.1 h).2 i hi hi'
  have hlen := n2.length_eq
  by_cases hp : a.properties = []
  · rw [hrun, makeProperties_noProps E a _ hp]
    exact ⟨f', rfl, g1, by rw [hp]; simp⟩
  · obtain ⟨σ', f, c1, c2, -, c4, -⟩ := C56_batch_independent E.props a.output_path (run E (noProps a) σ).2 f' g1 _ _ _ n p o hf
      a.properties ⟨hnm _ (by simp), hnm _ (by simp), hnm _ (by simp)⟩ true (fun name _ h2 i hi =>
        (hv name h2).2 _ (List.getElem_mem (hlen ▸ hi)) _ _ _ (row n2 i _ hi) (row p2 i (hlen ▸ hi) _) (row o2 i (hlen ▸ hi) _))
      a.buffer_length h.buffer
    have hmk : run E a σ = (.ok (), σ') := by
      rw [hrun]
      unfold makeProperties
      rw [if_pos (by simpa using hp), c1]
    rw [hmk]
    refine ⟨f, rfl, c2, fun name hname => ?_⟩
    obtain ⟨vs, d1, d2, d3⟩ := c4 name hname (hv name hname).1 (Or.inl rfl)
    refine ⟨_, d1, List.forall₂_iff_get.2 ⟨by rw [List.length_map, d2, hlen], fun i hi hi' => ?_⟩⟩
    have hin : i < n.length := hlen ▸ hi
    exact ⟨_, _, _, _, row n2 i hi hin, row p2 i hi _, row o2 i hi _, d3 i hin, by simp⟩

private theorem plot_of_file (sqrt : K → K) {path : String} {x : Extras K} {σ : St K K} {f : H5 K K} (hf : σ.fs path = some f)
    (hx : x.plot_properties ≠ []) :
    makePlot sqrt path x σ = (plot_timetraces sqrt f x.plot_properties 0 300, σ) := by
  unfold makePlot
  rw [if_pos (by simpa using hx), IOM.bind_ok (x := ()) (σ' := σ) (by unfold openR; simp only [hf]),
    IOM.bind_ok (x := f) (σ' := σ) (by unfold content; simp only [hf])]
  rfl

/-- **C126.**  A complete call of `run`, recorded from the start, with movie, properties and figure.  It succeeds; the
files are those described by C43 and C56.  The movie shows every `s`-th recorded frame, in order from the first one on,
captioned with its time.  The figure has a curve for every property asked for; it has a point for every recorded frame:
its time and the property of the recorded fields. -/
theorem C126_run_partial {E : Env K K} {a : Args K} {σ : St K K} {hw : Solver K} {ns m : ℕ} {steps : ℤ}
    {S : ℕ → NS (Cell K)} (h : FreshRun E a σ hw ns steps m S) (hns : 1 ≤ ns) (hdt : 0 < a.step_size)
    (hr : a.recording_start_time = 0) (hv : PropsDefined E a ns (frames a S m)) (x : Extras K) (sqrt : K → K)
    (hmovie : x.movie = true) (hfps : x.min_fps ≠ 0) (hx : x.plot_properties ≠ [])
    (hsub : ∀ p ∈ x.plot_properties, p ∈ a.properties) :
    ∃ (film : Film K) (curves : List (Curve K)) (s : ℕ),
      runAll E a x sqrt σ = (.ok ⟨some film, some curves⟩, (run E a σ).2) ∧
      film.title = runTitle a ∧ (s : ℤ) = max 1 ((truncZ (x.speed / (a.step_size * a.snaps))).fdiv x.min_fps) ∧
      film.fps = (truncZ (x.speed / (a.step_size * a.snaps)) : K) / s ∧
      List.Forall₂ (fun i p => ∃ fr, (frames a S m)[s * i]? = some fr ∧ p.caption = fr.1 ∧
          Depicts E a.downsample_factor false fr p) (List.range ((m / a.snaps) / s + 1)) film.pictures ∧
      List.Forall₂ (fun name c => List.Forall₂ (fun fr q => q.1 = fr.1 ∧ IsRecordedProp E a ns name fr q.2)
        (frames a S m) c.points) x.plot_properties curves := by
  obtain ⟨-, hrun, hall⟩ := split_fresh h x sqrt
  have h0 := fresh_noProps h
  obtain ⟨film, s, q1, q2, q3, q4, q5⟩ := C123_run h0 hns hdt hr (by simp [noProps]) false x.min_fps hfps x.speed
  obtain ⟨f, r1, r2, r3⟩ := props_of_run h hv
  obtain ⟨f', g1, hd, had, -⟩ := C73_run_parameters h
  obtain rfl : f' = f := Option.some.inj (g1.symm.trans r2)
  have hfd0 : 0 < a.step_size * (a.snaps : K) := mul_pos hdt (by exact_mod_cast h.snaps)
  have hfr : frames a S m = (List.range (m / a.snaps + 1)).map (frameAt a S) :=
    frames_from_zero (by rw [hr]; simp [FloatOps.eq, FloatOps.ofInt]) fun it _ _ => by
      rw [hr, exact_time]
      exact decide_eq_true (by positivity)
  have hlen : (frames a S m).length = m / a.snaps + 1 := by rw [hfr]; simp
  obtain ⟨cs, c1, c2⟩ := C124_label_violated sqrt f' (a.step_size * a.snaps) (by rw [hd.frame_dt]; simp [FloatOps.mul, FloatOps.ofInt])
    hfd0 (.inr had) (m / a.snaps + 1) (Nat.le_add_left _ _) x.plot_properties hx (fun p hp => by
      obtain ⟨l, l1, l2⟩ := r3 p (hsub p hp)
      exact ⟨l, Or.inl l1, by rw [← l2.length_eq, hlen]⟩) 300
  refine ⟨film, cs, s, ?_, q2, q3, q4, q5, ?_⟩
  · rw [hall]
    unfold finish
    rw [IOM.bind_ok (x := some film) (σ' := (run E (noProps a) σ).2) (by
      unfold makeMovie
      rw [if_pos hmovie, IOM.bind_ok (m := create_movie a.output_path 0 none false fieldList x.min_fps x.speed) (x := film) (σ' := (run E (noProps a) σ).2) q1]
      rfl)]
    rw [IOM.bind_ok (x := ()) (σ' := (run E a σ).2) (by rw [← hrun]; exact r1),
      IOM.bind_ok (x := some cs) (σ' := (run E a σ).2) (by rw [plot_of_file sqrt r2 hx, c1])]
    rfl
  · refine List.forall₂_iff_get.2 ⟨c2.length_eq, fun i hi hi' => ?_⟩
    obtain ⟨⟨data, d1, d2, d3⟩, -⟩ := (List.forall₂_iff_get.1 c2).2 i hi hi'
    obtain ⟨l, l1, l2⟩ := r3 _ (hsub _ (List.get_mem _ ⟨i, hi⟩))
    have hdl : data = l := by
      rcases d1 with d1 | d1
      · rw [l1] at d1
        injection Option.some.inj d1 with d1
        exact d1.symm
      · rw [l1] at d1
        cases d1
    subst hdl
    refine List.forall₂_iff_get.2 ⟨by rw [l2.length_eq, d2], fun j hj hj' => ?_⟩
    have hjd : j < data.length := by rw [← d2]; exact hj'
    obtain ⟨e1, e2⟩ := d3 j _ _ (List.getElem?_eq_getElem hj')
    have hp := (List.forall₂_iff_get.1 l2).2 j hj hjd
    rw [List.getElem?_eq_getElem hjd] at e2
    have e2 := Option.some.inj e2
    refine ⟨?_, ?_⟩
    · refine e1.trans ?_
      simp only [List.get_eq_getElem]
      have hget : (frames a S m)[j]? = some (frameAt a S j) := by
        rw [hfr, List.getElem?_map, List.getElem?_range (by omega)]
        rfl
      rw [List.getElem?_eq_getElem hj] at hget
      rw [Option.some.inj hget]
      unfold frameAt
      by_cases h0 : j = 0
      · rw [if_pos h0, h0]
        simp [FloatOps.ofInt]
      · rw [if_neg h0, exact_time]
        push_cast
        ring
    · exact e2 ▸ hp

/-- **C126 is violated for recordings that start in the second half of the run**, with the default `movie=True`: recording
starts with the frame `q + 1`, and fewer than `q + 1` frames are recorded.  The call ends with an `IndexError`, and none
of the properties is in the file. -/
theorem C126_late_violated {E : Env K K} {a : Args K} {σ : St K K} {hw : Solver K} {ns m : ℕ} {steps : ℤ}
    {S : ℕ → NS (Cell K)} (h : FreshRun E a σ hw ns steps m S) (hns : 1 ≤ ns) (hdt : 0 < a.step_size) (q : ℕ)
    (hr : a.recording_start_time = (q + 1) * (a.snaps * a.step_size)) (hm1 : (q + 1) * a.snaps ≤ m)
    (hm2 : m < (2 * q + 1) * a.snaps) (x : Extras K) (sqrt : K → K) (hmovie : x.movie = true) (hfps : x.min_fps ≠ 0) :
    ∃ f, runAll E a x sqrt σ = (.error .indexError, (run E (noProps a) σ).2) ∧
      (run E (noProps a) σ).2.fs a.output_path = some f ∧
      (∀ name ∈ Spec.propertyTable, f.dsets name = none) ∧
      (PropsDefined E a ns (frames a S m) → run E a σ = (.ok (), (run E a σ).2)) := by
  obtain ⟨-, hrun, hall⟩ := split_fresh h x sqrt
  have h0 := fresh_noProps h
  obtain ⟨f, g1, hd, had, -⟩ := C73_run_parameters h0
  obtain ⟨f', g1', -, -, -, g2, -⟩ := run_result h0
  obtain rfl : f' = f := Option.some.inj (g1'.symm.trans g1)
  obtain ⟨hF, -⟩ := hasFrames_of_rows h0.saves hns (frames_shaped h0) fun k hk =>
    g2 k (List.mem_cons_of_mem _ hk) (by simp [noProps])
  obtain ⟨v, hv, -⟩ := describes_title hd
  have hfd0 : 0 < a.step_size * (a.snaps : K) := mul_pos hdt (by exact_mod_cast h.snaps)
  have hsp : 0 < (a.snaps : K) * a.step_size := by rwa [mul_comm]
  have hlen : (frames a S m).length = m / a.snaps - q := by
    rw [frames_late (S := S) (q := q) hdt h.snaps (by rw [hr]; linarith) (by rw [hr]; positivity) (by rw [hr])
      (le_trans (Nat.mul_le_mul_right _ (by omega)) hm1)]
    simp
  have hM1 : q + 1 ≤ m / a.snaps := (Nat.le_div_iff_mul_le h.snaps).2 hm1
  have hM2 : m / a.snaps < 2 * q + 1 := (Nat.div_lt_iff_lt_mul h.snaps).2 hm2
  have hmov := C123_late_raises_violated a.output_path (run E (noProps a) σ).2 f' g1 had v hv (a.step_size * a.snaps)
    (by rw [hd.frame_dt]; simp [noProps, FloatOps.mul, FloatOps.ofInt]) hfd0 (frames a S m).length (by omega) (q + 1) (by omega)
    (by
      rw [hd.initial_time]
      refine congrArg (fun x => some (Attr.num x)) ?_
      refine Eq.trans hr ?_
      push_cast
      ring) "density" "omega" "phi" [] hF false x.min_fps hfps x.speed
  refine ⟨f', ?_, g1, fun name hname => ?_, fun hv => ?_⟩
  · rw [hall]
    unfold finish
    rw [IOM.bind_error (e := .indexError) (σ' := (run E (noProps a) σ).2)]
    unfold makeMovie
    rw [if_pos hmovie]
    exact IOM.bind_error hmov
  · refine run_no_other h0 ?_ ?_ (by simp [noProps]) g1 <;> revert name <;> decide
  · obtain ⟨-, r1, -⟩ := props_of_run h hv
    exact r1

/-- **C126 is violated for calls without properties**, `properties=[]`: the figure is asked for by default, so the call
ends with a `KeyError` (after file and movie are complete). -/
theorem C126_no_properties_violated {E : Env K K} {a : Args K} {σ : St K K} {hw : Solver K} {ns m : ℕ} {steps : ℤ}
    {S : ℕ → NS (Cell K)} (h : FreshRun E a σ hw ns steps m S) (hdt : 0 < a.step_size)
    (hp : a.properties = []) (x : Extras K) (sqrt : K → K) (hmovie : x.movie = false) (p : String) (rest : List String)
    (hx : x.plot_properties = p :: rest) (hpk : p ∈ Spec.propertyTable) :
    runAll E a x sqrt σ = (.error (.keyError p), (run E a σ).2) ∧ run E a σ = (.ok (), (run E a σ).2) := by
  obtain ⟨hr0, hrun, hall⟩ := split_fresh h x sqrt
  rw [makeProperties_noProps E a _ hp] at hrun
  obtain ⟨f, g1, hd, had, -⟩ := C73_run_parameters h
  have hfd0 : 0 < a.step_size * (a.snaps : K) := mul_pos hdt (by exact_mod_cast h.snaps)
  have hno : f.dsets p = none := by
    refine run_no_other h ?_ ?_ (by simp [hp]) g1 <;> clear hx <;> revert p <;> decide
  have hplot : plot_timetraces sqrt f (p :: rest) 0 300 = .error (.keyError p) := by
    have hfd : FloatOps.mul a.step_size (FloatOps.ofInt (a.snaps : ℤ)) ≠ 0 := by
      simpa [FloatOps.mul, FloatOps.ofInt] using hfd0.ne'
    have hidx : ∃ i, timeIndex f false ((0 : ℤ) : K) = .ok i := by
      unfold timeIndex
      simp only [RunProperties.attr, hd.frame_dt, Py.ok_bind, Bool.false_eq_true, if_false, frameOf, Timetrace.value]
      exact ⟨_, if_neg hfd⟩
    obtain ⟨i, hi⟩ := hidx
    unfold plot_timetraces
    simp only [had, truth, hi, Py.ok_bind, maxLength, series, hno]
    rfl
  refine ⟨?_, by rw [hrun]⟩
  have hst : (run E (noProps a) σ).2 = (run E a σ).2 := by rw [hrun]
  rw [hall, hst]
  unfold finish
  rw [IOM.bind_ok (x := none) (σ' := (run E a σ).2) (by unfold makeMovie; rw [if_neg (by simp [hmovie])]; rfl),
    IOM.bind_ok (x := ()) (σ' := (run E a σ).2) (makeProperties_noProps E a _ hp),
    IOM.bind_error (e := .keyError p) (σ' := (run E a σ).2)]
  rw [plot_of_file sqrt g1 (by simp [hx]), hx, hplot]

end

/-! ### Concrete cases -/

section

attribute [local instance] exactOps demoCasts

/-- the arguments of `demo_fresh4`, with two properties -/
def demoArgsProps : Args ℚ := { demoArgs with properties := ["gamma_n", "energy"] }

/-- every property is the value in the corner of the density -/
def demoEnvProps : Env ℚ ℚ :=
  { demoRunEnv with
    props := ⟨fun _ _ => 1, fun _ _ _ n _ _ => match n with
      | .arr a => .ok (a.at' 0 0)
      | .num _ => .error .typeError⟩ }

theorem demo_fresh_props : FreshRun demoEnvProps demoArgsProps noFiles demoSolver 2 4 4 (demoStates (1 / 2) demoStart) :=
  { demo_fresh4 with
    saves := ⟨demo_fresh4.saves.dim, demo_fresh4.saves.down⟩
    stops := ⟨demo_fresh4.stops.before, demo_fresh4.stops.stop⟩ }

theorem demo_propsDefined : PropsDefined demoEnvProps demoArgsProps 2 (frames demoArgsProps (demoStates (1 / 2) demoStart) 4) := by
  intro name hname
  refine ⟨?_, fun fr _ n p o hn _ _ => ?_⟩
  · revert name
    decide
  · unfold IsFrameRow at hn
    rw [if_neg (by decide)] at hn
    obtain ⟨A, B, -, -, rfl⟩ := hn
    exact ⟨_, rfl⟩

example := C126_files demoEnvProps demoArgsProps ⟨true, 10, 5, ["energy"]⟩ id noFiles
example := C126_run_partial demo_fresh_props (by norm_num) (by norm_num [demoArgsProps, demoArgs]) rfl demo_propsDefined
  ⟨true, 10, 5, ["energy"]⟩ id rfl (by norm_num) (by simp) (by simp [demoArgsProps])
/-- two steps, recording from the second one on -/
example := C126_late_violated (demo_fresh 1 2 (by norm_num) (by decide) 1 2 1 (by decide) (by decide) noFiles rfl)
  (by norm_num) (by norm_num [demoArgs]) 1 (by norm_num [demoArgs]) (by norm_num) (by norm_num) ⟨true, 10, 5, ["energy"]⟩ id rfl
  (by norm_num)
example := C126_no_properties_violated demo_fresh4 (by norm_num [demoArgs]) rfl ⟨false, 10, 5, ["gamma_c"]⟩ id rfl "gamma_c" [] rfl
  (by decide)

end

end Verif.Props
