import Verif.Props.RunAll
import Verif.Props.Run2Props

/-!
# C126: complete calls of `run` of the second module, with movie and plots
-/

set_option linter.unusedSectionVars false

namespace Verif.Props

open H5IO H5 Run Run2 Movie Timetrace RunAll

section

attribute [local instance] exactOps

variable {K : Type} [Field K] [LinearOrder K] [IsStrictOrderedRing K] [FloorRing K] [Casts K K] [Inhabited K]

private theorem makePlot2_state (sqrt : K → K) (path : String) (x : Extras K) (t0_std : K) (σ : St K K) :
    (makePlot2 sqrt path x t0_std σ).2 = σ := by
  unfold makePlot2
  split
  · cases hf : σ.fs path with
    | none => rw [IOM.bind_error (e := .fileError) (σ' := σ) (by unfold openR; simp only [hf])]
    | some f =>
      rw [IOM.bind_ok (x := ()) (σ' := σ) (by unfold openR; simp only [hf]),
        IOM.bind_ok (x := f) (σ' := σ) (by unfold content; simp only [hf])]
      rfl
  · rfl

/-- movie, properties and figure -/
private def finish2 (E : Env2 K K) (a : Args2 K) (x : Extras K) (t0_std : K) (sqrt : K → K) :
    IOM K K (Option (Output K (List (Curve K) × List (Curve K)))) := do
  let film ← makeMovie a.output_path x
  makeProperties E.props a.output_path a.buffer_length a.properties
  let curves ← makePlot2 sqrt a.output_path x t0_std
  return some ⟨film, curves⟩

private theorem finalProps_eq (E : Env2 K K) (a : Args2 K) (σ : St K K) :
    finalProps E a σ = ((makeProperties E.props a.output_path a.buffer_length a.properties σ).1.map some,
      (makeProperties E.props a.output_path a.buffer_length a.properties σ).2) := by
  unfold finalProps makeProperties
  by_cases h : (!a.properties.isEmpty) = true
  · simp only [h, if_true, IOM.bind_apply]
    rcases RunProperties.calculate_properties E.props a.output_path a.buffer_length a.properties true σ with ⟨r, σ'⟩
    cases r <;> rfl
  · simp only [h]
    rfl

/-- the state in which the movie is made -/
private theorem runAll2_split (E : Env2 K K) (a : Args2 K) (x : Extras K) (t0_std : K) (sqrt : K → K) (fuel : ℕ) (σ : St K K) :
    ((runAll2 E a x t0_std sqrt fuel σ).2 = (run2 E a fuel σ).2) ∨
    ∃ σ', run2 E a fuel σ = finalProps E a σ' ∧ runAll2 E a x t0_std sqrt fuel σ = finish2 E a x t0_std sqrt σ' := by
  unfold runAll2 run2
  cases hq : FloatOps.div a.end_time a.step_size with
  | error e => left; rfl
  | ok q =>
    rw [IOM.bind_ok (m := IOM.lift (.ok q)) (x := q) (σ' := σ) rfl, IOM.bind_ok (m := IOM.lift (.ok q)) (x := q) (σ' := σ) rfl]
    cases hz : FloatOps.toInt q with
    | error e => left; rfl
    | ok z =>
      rw [IOM.bind_ok (m := IOM.lift (.ok z)) (x := z) (σ' := σ) rfl, IOM.bind_ok (m := IOM.lift (.ok z)) (x := z) (σ' := σ) rfl]
      by_cases hs : a.snaps = 0
      · left; simp only [hs, if_true]; rfl
      by_cases hp : a.output_path = ""
      · left; simp only [hs, hp, if_true, if_false]; rfl
      simp only [if_neg hs, if_neg hp, IOM.bind_apply]
      rcases setup2 E a σ with ⟨r, σ1⟩
      cases r with
      | error e => left; rfl
      | ok r => cases r with
        | none => left; rfl
        | some r =>
          obtain ⟨s, p, t⟩ := r
          simp only [IOM.bind_apply]
          rcases simulate2 E a s p t fuel σ1 with ⟨r, σ2⟩
          cases r with
          | error e => left; rfl
          | ok r => cases r with
            | none => left; rfl
            | some u => right; exact ⟨σ2, rfl, rfl⟩

/-- **C126 (files, second module).**  Movie and figure do not change any file: the files are the same as without them,
unless the movie fails.  If it does, the files are those of the call before the properties are calculated. -/
theorem C126_files2 (E : Env2 K K) (a : Args2 K) (x : Extras K) (t0_std : K) (sqrt : K → K) (fuel : ℕ) (σ : St K K) :
    (runAll2 E a x t0_std sqrt fuel σ).2 = (run2 E a fuel σ).2 ∨
    (x.movie = true ∧ ∃ e σ', runAll2 E a x t0_std sqrt fuel σ = (.error e, σ') ∧
      (run2 E a fuel σ).2 = (makeProperties E.props a.output_path a.buffer_length a.properties σ').2 ∧
      (create_movie a.output_path 0 none false fieldList x.min_fps x.speed σ').1 = .error e) := by
  rcases runAll2_split E a x t0_std sqrt fuel σ with h | ⟨σ', h1, h2⟩
  · left; rw [h]
  · rw [h1, h2, finalProps_eq]
    unfold finish2
    simp only [IOM.bind_apply]
    have hst := makeMovie_state a.output_path x σ'
    rcases hm : makeMovie a.output_path x σ' with ⟨r, σ1⟩
    rw [hm] at hst
    simp only at hst
    subst hst
    cases r with
    | error e =>
      right
      unfold makeMovie at hm
      by_cases hx : x.movie = true
      · rw [if_pos hx, IOM.bind_apply] at hm
        refine ⟨hx, e, _, rfl, rfl, ?_⟩
        rcases hc : create_movie a.output_path 0 none false fieldList x.min_fps x.speed σ1 with ⟨r, σ2⟩
        rw [hc] at hm
        cases r with
        | error e' => cases (Prod.mk.inj hm).1; rfl
        | ok film => cases (Prod.mk.inj hm).1
      · rw [if_neg hx] at hm
        cases (Prod.mk.inj hm).1
    | ok film =>
      left
      simp only
      rcases hp : makeProperties E.props a.output_path a.buffer_length a.properties σ1 with ⟨r, σ2⟩
      cases r with
      | error e => rfl
      | ok u =>
        simp only
        have hst := makePlot2_state sqrt a.output_path x t0_std σ2
        rcases hq : makePlot2 sqrt a.output_path x t0_std σ2 with ⟨r, σ3⟩
        rw [hq] at hst
        cases r with
        | error e => exact hst
        | ok c => exact hst

private theorem plot2_of_file (sqrt : K → K) {path : String} {x : Extras K} {t0_std : K} {σ : St K K} {f : H5 K K}
    (hf : σ.fs path = some f) (hx : x.plot_properties ≠ []) :
    makePlot2 sqrt path x t0_std σ
      = (plot_timetrace_comparison sqrt f x.plot_properties "fullres_" (.int 0) t0_std 100, σ) := by
  unfold makePlot2
  rw [if_pos (by simpa using hx), IOM.bind_ok (x := ()) (σ' := σ) (by unfold openR; simp only [hf]),
    IOM.bind_ok (x := f) (σ' := σ) (by unfold content; simp only [hf])]
  rfl

private theorem numbers {X : Type} {P : X → K → Prop} {l : List X} {rows : List (Cell K)}
    (h : List.Forall₂ (fun fr row => ∃ v, P fr v ∧ row = .num (Casts.f32 v)) l rows) :
    ∃ ys : List K, rows = ys.map .num ∧ List.Forall₂ (fun fr y => ∃ v, P fr v ∧ y = Casts.f32 v) l ys := by
  induction h with
  | nil => exact ⟨[], rfl, .nil⟩
  | cons hx _ ih =>
    obtain ⟨v, hv, rfl⟩ := hx
    obtain ⟨l, rfl, hl⟩ := ih
    exact ⟨_ :: l, rfl, .cons ⟨v, hv, rfl⟩ hl⟩

/-- the state in which the movie of a new run is made, and the file at the end -/
private theorem split2_fresh {E : Env2 K K} {a : Args2 K} {σ : St K K} {hw : Solver K} {ns m fuel : ℕ}
    {S : ℕ → NS (Cell K)} (h : FreshRun2 E a σ hw ns m S) (hfuel : m < fuel)
    (hend : FloatOps.lt a.recording_start_time (timeAt E a (FloatOps.ofInt 0) m) = true)
    (hv : PropsDefined E.toEnv a.toArgs ns (frames2 E a S m)) (x : Extras K) (t0_std : K) (sqrt : K → K) :
    ∃ σ2 f0 f, σ2.fs a.output_path = some f0 ∧ SameFrames f0 f ∧
      (run2 E a fuel σ).2.fs a.output_path = some f ∧
      runAll2 E a x t0_std sqrt fuel σ = finish2 E a x t0_std sqrt σ2 ∧
      makeProperties E.props a.output_path a.buffer_length a.properties σ2 = (.ok (), (run2 E a fuel σ).2) ∧
      run2 E a fuel σ = (.ok (some ()), (run2 E a fuel σ).2) ∧
      Describes f a.toArgs ns ∧ f.attrs "adaptive_step_size" = some (.bool a.adaptive_step_size) ∧
      (∀ k ∈ "time" :: fieldList, ∃ rows, f.dsets k = some (.rows (rowShape ns k) rows) ∧
        List.Forall₂ (fun fr row => IsFrameRow E.toEnv a.downsample_factor k fr.1 fr.2 row) (frames2 E a S m) rows) ∧
      (∀ name ∈ a.properties, ∃ l : List K, f.dsets name = some (.flat l) ∧
        List.Forall₂ (IsRecordedProp E.toEnv a.toArgs ns name) (frames2 E a S m) l) ∧
      (∀ name ∈ a.properties, ∃ l : List K, f.dsets ("fullres_" ++ name) = some (.rows .one (l.map .num)) ∧
        List.Forall₂ (fun fr y => ∃ v, IsPropValue E a name fr.2 v ∧ y = Casts.f32 v) (frames2 E a S m) l) := by
  obtain ⟨σ2, f0, e1, e2, e3, e4, e5, s, params, t0, σ1, e6, e7⟩ := fresh2_before h hfuel
  obtain ⟨q, z, hq, hz⟩ := h.early
  obtain ⟨f, g1, hd, had, -⟩ := C73_run2_parameters h hfuel
  have hall : runAll2 E a x t0_std sqrt fuel σ = finish2 E a x t0_std sqrt σ2 := by
    unfold runAll2
    have hl : ∀ {X : Type} (x : X), (IOM.lift (.ok x) : IOM K K X) σ = (.ok x, σ) := fun _ => rfl
    rw [hq, IOM.bind_ok (hl q), hz, IOM.bind_ok (hl z), if_neg (by have := h.snaps; omega), if_neg h.path, IOM.bind_ok e6]
    simp only
    rw [IOM.bind_ok e7]
    rfl
  have hw2 : written2 a (timeAt E a (FloatOps.ofInt 0) m) (frames2 E a S m) = frames2 E a S m := by
    unfold written2 flushes2
    simp only [hend, if_true]
  rw [hw2] at e4 e5
  obtain ⟨n, n1, n2⟩ := e4 "density" (by simp [fieldList])
  obtain ⟨p, p1, p2⟩ := e4 "phi" (by simp [fieldList])
  obtain ⟨o, o1, o2⟩ := e4 "omega" (by simp [fieldList])
  have hlen := n2.length_eq
  have hf0 : RunFile f0 (.num a.k0) (.int ns) (.num a.c1) n p o := by
    refine ⟨?_, ?_, ?_, ⟨.num (FloatOps.mul a.step_size (FloatOps.ofInt a.snaps)), ?_⟩, ⟨_, n1⟩, ⟨_, p1⟩, ⟨_, o1⟩,
      p2.length_eq.symm.trans n2.length_eq, o2.length_eq.symm.trans n2.length_eq⟩
    iterate 4
      · rw [e3]
        unfold runParams2 get_save_params
        simp only [NS.get?_set]
        simp [Args2.physics2, Args.physics, NS.get?]
  have row : ∀ {k : String} {r : List (Cell K)}, List.Forall₂ (fun fr row => IsFrameRow E.toEnv a.downsample_factor k fr.1 fr.2 row)
      (frames2 E a S m) r → ∀ i (hi : i < (frames2 E a S m).length) (hi' : i < r.length),
      IsFrameRow E.toEnv a.downsample_factor k (frames2 E a S m)[i].1 (frames2 E a S m)[i].2 r[i] := fun h i hi hi' =>
    (List.forall₂_iff_get.1 h).2 i hi hi'
  obtain ⟨r1, f', r2, r3, r4, r5⟩ := does_finalProps (fun name hname => (hv name hname).1) h.buffer e2 hf0
    (fun name hname i hi => (hv name hname).2 _ (List.getElem_mem (hlen ▸ hi)) _ _ _ (row n2 i (hlen ▸ hi) hi)
      (row p2 i (hlen ▸ hi) _) (row o2 i (hlen ▸ hi) _))
  rw [← e1] at r1 r2
  obtain rfl : f' = f := Option.some.inj (r2.symm.trans g1)
  have hnp : ∀ k ∈ "time" :: fieldList, k ∉ a.properties := by
    intro k hk hka
    have := (hv k hka).1
    simp only [fieldList, List.mem_cons, List.not_mem_nil, or_false] at hk
    rcases hk with rfl | rfl | rfl | rfl <;> simp [Spec.propertyTable] at this
  have hfr : ∀ k ∈ "time" :: fieldList, f0.dsets k = f'.dsets k := fun k hk => (r4 k (hnp k hk)).symm
  refine ⟨σ2, f0, f', e2, ⟨r3.symm, hfr⟩, g1, hall, ?_, ?_, hd, had, fun k hk => ?_, fun name hname => ?_, fun name hname => ?_⟩
  · rw [e1, finalProps_eq] at r1 ⊢
    rcases hm : makeProperties E.props a.output_path a.buffer_length a.properties σ2 with ⟨r, σ3⟩
    rw [hm] at r1
    cases r with
    | error e => cases r1
    | ok u => rfl
  · rw [← r1]
  · rw [← hfr k hk]
    exact e4 k hk
  · obtain ⟨vs, d1, d2, d3⟩ := r5 name hname
    refine ⟨_, d1, List.forall₂_iff_get.2 ⟨by rw [List.length_map, d2, hlen], fun i hi hi' => ?_⟩⟩
    have hin : i < n.length := hlen ▸ hi
    exact ⟨_, _, _, _, row n2 i hi hin, row p2 i hi _, row o2 i hi _, d3 i hin, by simp⟩
  · obtain ⟨rows, d1, d2⟩ := e5 name hname
    obtain ⟨l, rfl, hl⟩ := numbers d2
    exact ⟨l, by rw [r4 _ fun hc => fullres_not_propertyName name (hv _ hc).1, d1], hl⟩

/-- the points of a curve and the frames of a run with fixed time steps -/
private theorem points_of_frames {E : Env2 K K} {a : Args2 K} (hdt : 0 < a.step_size) (hr : a.recording_start_time = 0)
    (had : a.adaptive_step_size = false) {S : ℕ → NS (Cell K)} {m : ℕ} {R : K × NS (Cell K) → K → Prop} {data : List K}
    (h : List.Forall₂ R (frames2 E a S m) data) {points : List (K × K)}
    (hp : AtFrameTimes (a.step_size * a.snaps) data points) :
    List.Forall₂ (fun fr q => q.1 = fr.1 ∧ R fr q.2) (frames2 E a S m) points := by
  obtain ⟨d2, d3⟩ := hp
  refine List.forall₂_iff_get.2 ⟨by rw [h.length_eq, d2], fun j hj hj' => ?_⟩
  have hjd : j < data.length := by rw [← d2]; exact hj'
  obtain ⟨e1, e2⟩ := d3 j _ _ (List.getElem?_eq_getElem hj')
  have hp := (List.forall₂_iff_get.1 h).2 j hj hjd
  rw [List.getElem?_eq_getElem hjd] at e2
  refine ⟨?_, Option.some.inj e2 ▸ hp⟩
  refine e1.trans ?_
  simp only [List.get_eq_getElem]
  have hget : (frames2 E a S m)[j]? = some (((j * a.snaps : ℕ) : K) * a.step_size,
      if j = 0 then a.plasma0 else S (j * a.snaps)) := by
    have hfr := frames2_fixed (E := E) hdt hr had S m
    have hj2 : j < m / a.snaps + 1 := by rw [hfr] at hj; simpa using hj
    rw [hfr, List.getElem?_map, List.getElem?_range hj2]
    rfl
  rw [List.getElem?_eq_getElem hj] at hget
  rw [Option.some.inj hget]
  push_cast
  ring

private theorem snd_of_times {fd : K} {data : List K} {points : List (K × K)} (h : AtFrameTimes fd data points) :
    points.map Prod.snd = data := by
  refine List.ext_getElem (by rw [List.length_map, h.1]) fun j h1 h2 => ?_
  have h3 : j < points.length := by simpa using h1
  have := (h.2 j _ _ (List.getElem?_eq_getElem h3)).2
  rw [List.getElem?_eq_getElem h2] at this
  rw [List.getElem_map, Option.some.inj this]
  rfl

private theorem records_flat {f : H5 K K} {p : String} {l data : List K} (l1 : f.dsets p = some (.flat l))
    (d1 : Records f p data) : data = l := by
  rcases d1 with d1 | d1
  · rw [l1] at d1
    injection Option.some.inj d1 with d1
    exact d1.symm
  · rw [l1] at d1
    cases d1

private theorem records_rows {f : H5 K K} {p : String} {l data : List K} (l1 : f.dsets p = some (.rows .one (l.map .num)))
    (d1 : Records f p data) : data = l := by
  rcases d1 with d1 | d1
  · rw [l1] at d1
    cases d1
  · rw [l1] at d1
    injection Option.some.inj d1 with _ d1
    exact (List.map_injective_iff.2 (fun _ _ h => Cell.num.inj h) d1).symm

/-- **C126 (second module).**  A complete call with fixed time steps, recorded from the start, with movie, properties and
figure.  It succeeds; the files are those of C52 and C56.  The movie shows every `s`-th recorded frame, in order from the
first one on, captioned with its time.  The upper panel has a curve for every property asked for, with a point for every
recorded frame: its time and the property of the recorded fields.  The lower panel has a curve for each of them with the
property of the fields before downsampling.  The statistics are mean and standard deviation of the values from the frame
`⌊t0_std / frame_dt⌋` on, if there are any, else of all values.  Missing: `t0_std` exactly one frame after the last
(C124) and adaptive time steps. -/
theorem C126_run2_partial {E : Env2 K K} {a : Args2 K} {σ : St K K} {hw : Solver K} {ns m fuel : ℕ}
    {S : ℕ → NS (Cell K)} (h : FreshRun2 E a σ hw ns m S) (hfuel : m < fuel) (hns : 1 ≤ ns) (hdt : 0 < a.step_size)
    (hm1 : 1 ≤ m) (hr : a.recording_start_time = 0) (had : a.adaptive_step_size = false)
    (hv : PropsDefined E.toEnv a.toArgs ns (frames2 E a S m)) (x : Extras K) (sqrt : K → K)
    (hmovie : x.movie = true) (hfps : x.min_fps ≠ 0) (hx : x.plot_properties ≠ [])
    (hsub : ∀ p ∈ x.plot_properties, p ∈ a.properties) (t0_std : K) (k : ℕ)
    (hk : (k : ℤ) = ⌊t0_std / (a.step_size * a.snaps)⌋) (hkn : k ≠ m / a.snaps + 1) :
    ∃ (film : Film K) (upper lower : List (Curve K)) (s : ℕ),
      runAll2 E a x t0_std sqrt fuel σ = (.ok (some ⟨some film, some (upper, lower)⟩), (run2 E a fuel σ).2) ∧
      film.title = runTitle a.toArgs ∧ (s : ℤ) = max 1 ((truncZ (x.speed / (a.step_size * a.snaps))).fdiv x.min_fps) ∧
      film.fps = (truncZ (x.speed / (a.step_size * a.snaps)) : K) / s ∧
      List.Forall₂ (fun i p => ∃ fr, (frames2 E a S m)[s * i]? = some fr ∧ p.caption = fr.1 ∧
          Depicts E.toEnv a.downsample_factor false fr p) (List.range ((m / a.snaps) / s + 1)) film.pictures ∧
      List.Forall₂ (fun name c => List.Forall₂ (fun fr q => q.1 = fr.1 ∧ IsRecordedProp E.toEnv a.toArgs ns name fr q.2)
          (frames2 E a S m) c.points ∧
        IsStats sqrt ((c.points.map Prod.snd).drop (if k ≤ m / a.snaps then k else 0)) c.stats) x.plot_properties upper ∧
      List.Forall₂ (fun name c => List.Forall₂ (fun fr q => q.1 = fr.1 ∧ ∃ v, IsPropValue E a name fr.2 v ∧ q.2 = Casts.f32 v)
          (frames2 E a S m) c.points ∧
        IsStats sqrt ((c.points.map Prod.snd).drop (if k ≤ m / a.snaps then k else 0)) c.stats) x.plot_properties lower := by
  obtain ⟨σ2, f0, f, g1, hsame, g2, hall, hprops, hrun, hd, hada, hrows, hp1, hp2⟩ := split2_fresh h hfuel (by
    rw [hr, timeAt_fixed had]
    exact decide_eq_true (mul_pos (by exact_mod_cast hm1) hdt)) hv x t0_std sqrt
  have hnp : ∀ k ∈ fieldList, k ∉ a.properties := by
    intro k hk hka
    have := (hv k hka).1
    simp only [fieldList, List.mem_cons, List.not_mem_nil, or_false] at hk
    rcases hk with rfl | rfl | rfl <;> simp [Spec.propertyTable] at this
  obtain ⟨film, s, q1, q2, q3, q4, q5⟩ := movie_run2_fixed h hfuel g1 (fun g hg => by
    obtain rfl := Option.some.inj (g2.symm.trans hg)
    exact hsame) hns hdt hm1 hr had hnp false x.min_fps hfps x.speed
  have hfd0 : 0 < a.step_size * (a.snaps : K) := mul_pos hdt (by exact_mod_cast h.snaps)
  have hlen : (frames2 E a S m).length = m / a.snaps + 1 := by rw [frames2_fixed hdt hr had]; simp
  obtain ⟨rows, den, -⟩ := hrows "density" (by simp [fieldList])
  obtain ⟨upper, lower, c1, c2, c3⟩ := C124_comparison_partial sqrt f (a.step_size * a.snaps)
    (by rw [hd.frame_dt]; simp [FloatOps.mul, FloatOps.ofInt]) hfd0 (.inr (by rw [hada, had])) (Or.inr (by rw [hd.initial_time, hr]))
    (m / a.snaps + 1) (Nat.le_add_left _ _) _ rows den x.plot_properties hx (fun p hp => by
      obtain ⟨l, l1, l2⟩ := hp1 p (hsub p hp)
      exact ⟨l, Or.inl l1, by rw [← l2.length_eq, hlen]⟩) (fun p hp => by
      obtain ⟨l, l1, l2⟩ := hp2 p (hsub p hp)
      exact .inr ⟨l, Or.inr l1, by rw [← l2.length_eq, hlen]⟩) t0_std k hk hkn 100
  have hfil : (x.plot_properties.filter fun p => (f.dsets ("fullres_" ++ p)).isSome) = x.plot_properties := by
    refine List.filter_eq_self.2 fun p hp => ?_
    obtain ⟨l, l1, -⟩ := hp2 p (hsub p hp)
    rw [l1]
    rfl
  rw [hfil] at c3
  have hdrop : ∀ data : List K, (if k < m / a.snaps + 1 then data.drop k else data)
      = data.drop (if k ≤ m / a.snaps then k else 0) := fun data => by
    by_cases hc : k ≤ m / a.snaps
    · rw [if_pos (Nat.lt_succ_of_le hc), if_pos hc]
    · rw [if_neg (fun h => hc (Nat.le_of_lt_succ h)), if_neg hc, List.drop_zero]
  refine ⟨film, upper, lower, s, ?_, q2, q3, q4, q5, ?_, ?_⟩
  · rw [hall]
    unfold finish2
    rw [IOM.bind_ok (x := some film) (σ' := σ2) (by
      unfold makeMovie
      rw [if_pos hmovie, IOM.bind_ok (m := create_movie a.output_path 0 none false fieldList x.min_fps x.speed) (x := film) (σ' := σ2) q1]
      rfl)]
    rw [IOM.bind_ok (x := ()) (σ' := (run2 E a fuel σ).2) hprops,
      IOM.bind_ok (x := some (upper, lower)) (σ' := (run2 E a fuel σ).2) (by rw [plot2_of_file sqrt g2 hx, c1])]
    rfl
  · refine List.forall₂_iff_get.2 ⟨c2.length_eq, fun i hi hi' => ?_⟩
    obtain ⟨-, data, d1, d2, d3⟩ := (List.forall₂_iff_get.1 c2).2 i hi hi'
    obtain ⟨l, l1, l2⟩ := hp1 _ (hsub _ (List.get_mem _ ⟨i, hi⟩))
    obtain rfl := records_flat l1 d1
    exact ⟨points_of_frames hdt hr had l2 d2, by rw [snd_of_times d2, ← hdrop]; exact d3⟩
  · refine List.forall₂_iff_get.2 ⟨c3.length_eq, fun i hi hi' => ?_⟩
    obtain ⟨-, data, d1, d2, d3⟩ := (List.forall₂_iff_get.1 c3).2 i hi hi'
    obtain ⟨l, l1, l2⟩ := hp2 _ (hsub _ (List.get_mem _ ⟨i, hi⟩))
    obtain rfl := records_rows l1 d1
    exact ⟨points_of_frames hdt hr had l2 d2, by rw [snd_of_times d2, ← hdrop]; exact d3⟩

/-- the points of a curve drawn from the first frame on and the frames of a run with adaptive time steps -/
private theorem points_of_times {X : Type} {l : List (K × X)} {R : K × X → K → Prop} {data : List K}
    (h : List.Forall₂ R l data) {points : List (K × K)}
    (hp : AtRecordedTimes (l.map fun fr => (Casts.f32 fr.1 : K)) data 0 points) :
    List.Forall₂ (fun fr q => q.1 = Casts.f32 fr.1 ∧ R fr q.2) l points ∧ points.map Prod.snd = data := by
  obtain ⟨d2, d3⟩ := hp
  rw [Nat.sub_zero] at d2
  have key : ∀ j (hj : j < points.length) (hl : j < l.length) (hd : j < data.length),
      points[j].1 = Casts.f32 l[j].1 ∧ data[j] = points[j].2 := fun j hj hl hd => by
    obtain ⟨e1, e2⟩ := d3 j _ _ (List.getElem?_eq_getElem hj)
    rw [Nat.zero_add, List.getElem?_map, List.getElem?_eq_getElem hl] at e1
    rw [Nat.zero_add, List.getElem?_eq_getElem hd] at e2
    exact ⟨(Option.some.inj e1).symm, Option.some.inj e2⟩
  constructor
  · refine List.forall₂_iff_get.2 ⟨by rw [h.length_eq, d2], fun j hj hj' => ?_⟩
    have hjd : j < data.length := by rw [← d2]; exact hj'
    obtain ⟨e1, e2⟩ := key j hj' hj hjd
    have hp := (List.forall₂_iff_get.1 h).2 j hj hjd
    exact ⟨e1, e2 ▸ hp⟩
  · refine List.ext_getElem (by rw [List.length_map, d2]) fun j h1 h2 => ?_
    have h3 : j < points.length := by simpa using h1
    rw [List.getElem_map, (key j h3 (by rw [h.length_eq]; exact h2) h2).2]

/-- **C126 (second module, adaptive time steps).**  A complete call, recorded from the start.  It succeeds; the files are
those of C52 and C56.  The picture `i` of the movie belongs to the movie time `i * speed / min_fps`: it shows the first
recorded frame that is not earlier, captioned with its recorded time.  The curves of the upper panel have a point for
every recorded frame: its recorded time and the property of the recorded fields; those of the lower panel the property of
the fields before downsampling.  The statistics are those of the values from the frame nearest to `t0_std` on. -/
theorem C126_run2_adaptive {E : Env2 K K} {a : Args2 K} {σ : St K K} {hw : Solver K} {ns m fuel : ℕ}
    {S : ℕ → NS (Cell K)} (h : FreshRun2 E a σ hw ns m S) (hfuel : m < fuel) (hns : 1 ≤ ns)
    (hend : a.recording_start_time < timeAt E a 0 m) (hr : a.recording_start_time = 0) (had : a.adaptive_step_size = true)
    (hv : PropsDefined E.toEnv a.toArgs ns (frames2 E a S m)) (hz : (Casts.f32 (0 : K) : K) = 0) (last : K × NS (Cell K))
    (hlast : (frames2 E a S m).getLast? = some last) (hpos : 0 ≤ (Casts.f32 last.1 : K)) (x : Extras K) (sqrt : K → K)
    (hmovie : x.movie = true) (hfps : 1 ≤ x.min_fps) (hspeed : 0 < x.speed) (hx : x.plot_properties ≠ [])
    (hsub : ∀ p ∈ x.plot_properties, p ∈ a.properties) (t0_std : K) :
    ∃ (film : Film K) (upper lower : List (Curve K)) (k : ℕ),
      runAll2 E a x t0_std sqrt fuel σ = (.ok (some ⟨some film, some (upper, lower)⟩), (run2 E a fuel σ).2) ∧
      film.title = runTitle a.toArgs ∧ film.fps = x.min_fps ∧
      List.Forall₂ (fun (i : ℕ) p => ∃ (j : ℕ) (fr : K × NS (Cell K)), (frames2 E a S m)[j]? = some fr ∧
          j = ((frames2 E a S m).map fun fr => (Casts.f32 fr.1 : K)).countP
            (fun t => decide (t < (i : K) * (x.speed / x.min_fps))) ∧
          p.caption = Casts.f32 fr.1 ∧ Depicts E.toEnv a.downsample_factor false fr p)
        (List.range (⌊(Casts.f32 last.1 : K) / (x.speed / x.min_fps)⌋₊ + 1)) film.pictures ∧
      Nearest ((frames2 E a S m).map fun fr => (Casts.f32 fr.1 : K)) t0_std k ∧
      List.Forall₂ (fun name c => List.Forall₂ (fun fr q => q.1 = Casts.f32 fr.1 ∧
            IsRecordedProp E.toEnv a.toArgs ns name fr q.2) (frames2 E a S m) c.points ∧
          IsStats sqrt ((c.points.map Prod.snd).drop k) c.stats) x.plot_properties upper ∧
      List.Forall₂ (fun name c => List.Forall₂ (fun fr q => q.1 = Casts.f32 fr.1 ∧
            ∃ v, IsPropValue E a name fr.2 v ∧ q.2 = Casts.f32 v) (frames2 E a S m) c.points ∧
          IsStats sqrt ((c.points.map Prod.snd).drop k) c.stats) x.plot_properties lower := by
  have ez : (FloatOps.ofInt 0 : K) = 0 := by simp [FloatOps.ofInt]
  obtain ⟨σ2, f0, f, g1, hsame, g2, hall, hprops, hrun, hd, hada, hrows, hp1, hp2⟩ := split2_fresh h hfuel (by
    rw [ez]
    exact decide_eq_true hend) hv x t0_std sqrt
  have hnp : ∀ k ∈ "time" :: fieldList, k ∉ a.properties := by
    intro k hk hka
    have := (hv k hka).1
    simp only [fieldList, List.mem_cons, List.not_mem_nil, or_false] at hk
    rcases hk with rfl | rfl | rfl | rfl <;> simp [Spec.propertyTable] at this
  obtain ⟨film, q1, q2, q3, q4⟩ := movie_run2_adaptive h hfuel g1 (fun g hg => by
    obtain rfl := Option.some.inj (g2.symm.trans hg)
    exact hsame) hns hend had hnp last hlast hpos false x.min_fps hfps x.speed hspeed
  obtain ⟨trows, t1, t2⟩ := hrows "time" (by simp)
  rw [time_rows t2, show rowShape ns "time" = .one from rfl] at t1
  have hne : (frames2 E a S m).map (fun fr => (Casts.f32 fr.1 : K)) ≠ [] := by
    intro hc
    rw [List.map_eq_nil_iff] at hc
    rw [hc] at hlast
    cases hlast
  obtain ⟨upper, lower, i, k, c0, ck, c1, c2, c3⟩ := C124_adaptive_partial sqrt f (a.step_size * a.snaps)
    (by rw [hd.frame_dt]; simp [FloatOps.mul, FloatOps.ofInt]) (by rw [hada, had]) (Or.inr (by rw [hd.initial_time, hr]))
    _ hne t1 x.plot_properties hx (fun p hp => by
      obtain ⟨l, l1, l2⟩ := hp1 p (hsub p hp)
      exact ⟨l, Or.inl l1, by rw [← l2.length_eq, List.length_map]⟩) (fun p hp => by
      obtain ⟨l, l1, l2⟩ := hp2 p (hsub p hp)
      exact .inr ⟨l, Or.inr l1, by rw [← l2.length_eq, List.length_map]⟩) t0_std 100
  have hi : i = 0 := by
    obtain ⟨y, -, -, y3⟩ := c0
    by_contra hi
    have := y3 0 (by omega) 0 (by
      unfold frames2
      rw [if_pos (by rw [hr]; simp [FloatOps.eq, FloatOps.ofInt])]
      simp [ez, hz])
    rw [sub_zero, sub_zero, abs_zero] at this
    exact absurd this (not_lt.2 (abs_nonneg _))
  subst hi
  have hfil : (x.plot_properties.filter fun p => (f.dsets ("fullres_" ++ p)).isSome) = x.plot_properties := by
    refine List.filter_eq_self.2 fun p hp => ?_
    obtain ⟨l, l1, -⟩ := hp2 p (hsub p hp)
    rw [l1]
    rfl
  rw [hfil] at c3
  refine ⟨film, upper, lower, k, ?_, q2, q3, q4, ck, ?_, ?_⟩
  · rw [hall]
    unfold finish2
    rw [IOM.bind_ok (x := some film) (σ' := σ2) (by
      unfold makeMovie
      rw [if_pos hmovie, IOM.bind_ok (m := create_movie a.output_path 0 none false fieldList x.min_fps x.speed) (x := film) (σ' := σ2) q1]
      rfl)]
    rw [IOM.bind_ok (x := ()) (σ' := (run2 E a fuel σ).2) hprops,
      IOM.bind_ok (x := some (upper, lower)) (σ' := (run2 E a fuel σ).2) (by rw [plot2_of_file sqrt g2 hx, c1])]
    rfl
  · refine List.forall₂_iff_get.2 ⟨c2.length_eq, fun i hi hi' => ?_⟩
    obtain ⟨-, data, d1, d2, d3⟩ := (List.forall₂_iff_get.1 c2).2 i hi hi'
    obtain ⟨l, l1, l2⟩ := hp1 _ (hsub _ (List.get_mem _ ⟨i, hi⟩))
    obtain rfl := records_flat l1 d1
    obtain ⟨w1, w2⟩ := points_of_times l2 d2
    exact ⟨w1, by rw [w2]; exact d3⟩
  · refine List.forall₂_iff_get.2 ⟨c3.length_eq, fun i hi hi' => ?_⟩
    obtain ⟨-, data, d1, d2, d3⟩ := (List.forall₂_iff_get.1 c3).2 i hi hi'
    obtain ⟨l, l1, l2⟩ := hp2 _ (hsub _ (List.get_mem _ ⟨i, hi⟩))
    obtain rfl := records_rows l1 d1
    obtain ⟨w1, w2⟩ := points_of_times l2 d2
    exact ⟨w1, by rw [w2]; exact d3⟩

private theorem frames2_eq_frames {E : Env2 K K} {a : Args2 K} (had : a.adaptive_step_size = false) (S : ℕ → NS (Cell K)) (m : ℕ) :
    frames2 E a S m = frames a.toArgs S m := by
  unfold frames2 frames stepFrames2
  refine congrArg _ ?_
  have h1 : (List.range' 1 m).filter (isRecorded2 E a (FloatOps.ofInt 0)) = (List.range' 1 m).filter (isRecorded a.toArgs) :=
    List.filter_congr fun it _ => by
      unfold isRecorded2 isRecorded
      rw [timeAt_fixed had, exact_time]
  rw [h1]
  refine List.map_congr_left fun it _ => ?_
  rw [timeAt_fixed had, exact_time]

/-- **C126 is violated by the second module for recordings that start later** (fixed time steps; recording starts with the
frame `q + 1`).  The simulation and all properties are written, but there is no figure: if at most `q + 1` frames are
recorded none is drawn, without an error; else the call ends with a `TypeError`, unless the file has 1500 time units or
more. -/
theorem C126_run2_late_violated {E : Env2 K K} {a : Args2 K} {σ : St K K} {hw : Solver K} {ns m fuel : ℕ}
    {S : ℕ → NS (Cell K)} (h : FreshRun2 E a σ hw ns m S) (hfuel : m < fuel) (hdt : 0 < a.step_size)
    (had : a.adaptive_step_size = false) (q : ℕ) (hr : a.recording_start_time = (q + 1) * (a.snaps * a.step_size))
    (hm1 : (q + 1) * a.snaps < m) (hv : PropsDefined E.toEnv a.toArgs ns (frames2 E a S m)) (x : Extras K) (sqrt : K → K)
    (hmovie : x.movie = false) (hx : x.plot_properties ≠ []) (hsub : ∀ p ∈ x.plot_properties, p ∈ a.properties) (t0_std : K) :
    run2 E a fuel σ = (.ok (some ()), (run2 E a fuel σ).2) ∧
    ((frames2 E a S m).length ≤ q + 1 →
      runAll2 E a x t0_std sqrt fuel σ = (.ok (some ⟨none, none⟩), (run2 E a fuel σ).2)) ∧
    (q + 1 < (frames2 E a S m).length → (frames2 E a S m).length * (a.step_size * a.snaps) < 1500 →
      runAll2 E a x t0_std sqrt fuel σ = (.error .typeError, (run2 E a fuel σ).2)) := by
  have hsn : (0 : K) < a.snaps := by exact_mod_cast h.snaps
  obtain ⟨σ2, f0, f, g1, hsame, g2, hall, hprops, hrun, hd, hada, hrows, hp1, hp2⟩ := split2_fresh h hfuel (by
    rw [hr, timeAt_fixed had]
    refine decide_eq_true ?_
    rw [← mul_assoc]
    exact mul_lt_mul_of_pos_right (by exact_mod_cast hm1) hdt) hv x t0_std sqrt
  obtain ⟨rows, den, den2⟩ := hrows "density" (by simp [fieldList])
  obtain ⟨c1, c2⟩ := C124_late_violated sqrt f (a.step_size * a.snaps) (by rw [hd.frame_dt]; simp [FloatOps.mul, FloatOps.ofInt])
    (mul_pos hdt hsn) (.inr (by rw [hada, had])) (q + 1) (Nat.le_add_left _ _) (by
      rw [hd.initial_time, hr]
      push_cast
      rw [mul_comm (a.snaps : K)]) (frames2 E a S m).length _ rows den den2.length_eq.symm x.plot_properties hx
    (fun p hp => by
      obtain ⟨l, l1, l2⟩ := hp1 p (hsub p hp)
      exact ⟨l, Or.inl l1, l2.length_eq.symm⟩) (fun p hp => by
      obtain ⟨l, l1, l2⟩ := hp2 p (hsub p hp)
      exact .inr ⟨l, Or.inr l1, l2.length_eq.symm⟩) t0_std 100 (by norm_num)
  have hfin : ∀ r, plot_timetrace_comparison sqrt f x.plot_properties "fullres_" (.int 0) t0_std 100 = r →
      runAll2 E a x t0_std sqrt fuel σ = (r.map fun c => some ⟨none, c⟩, (run2 E a fuel σ).2) := by
    intro r hplot
    rw [hall]
    unfold finish2
    rw [IOM.bind_ok (x := none) (σ' := σ2) (by
      unfold makeMovie
      rw [hmovie]
      rfl), IOM.bind_ok (x := ()) (σ' := (run2 E a fuel σ).2) hprops, IOM.bind_apply, plot2_of_file sqrt g2 hx, hplot]
    cases r <;> rfl
  refine ⟨hrun, fun hle => hfin _ (c1 hle), fun hlt hb => hfin _ (c2 hlt ?_)⟩
  push_cast
  linarith

/-- both cases occur: `m / snaps - q` frames are recorded -/
theorem C126_run2_late_frames {E : Env2 K K} {a : Args2 K} (hdt : 0 < a.step_size) (hs : 0 < a.snaps)
    (had : a.adaptive_step_size = false) (q : ℕ) (hr : a.recording_start_time = (q + 1) * (a.snaps * a.step_size))
    (S : ℕ → NS (Cell K)) (m : ℕ) (hm1 : (q + 1) * a.snaps < m) : (frames2 E a S m).length = m / a.snaps - q := by
  have hsp : 0 < (a.snaps : K) * a.step_size := mul_pos (by exact_mod_cast hs) hdt
  rw [frames2_eq_frames had, frames_late (S := S) (q := q) hdt hs (by rw [hr]; linarith) (by rw [hr]; positivity) (by rw [hr])
    (le_trans (Nat.mul_le_mul_right _ (by omega)) hm1.le)]
  simp

end

/-! ### Concrete cases -/

section

attribute [local instance] exactOps demoCasts

/-- every property is the value in the corner of the density -/
def demoEnvProps2 : Env2 ℚ ℚ := { demoEnv2 with props := demoEnvProps.props }

private theorem demo_timeProps (a : Args2 ℚ) (t0 : ℚ) (it : ℕ) : timeAt demoEnvProps2 a t0 it = t0 + it * a.step_size :=
  exact_timeAt (fun _ _ => rfl) t0 it

/-- `m` steps of size `1/2` -/
def demoArgsProps2 (m s : ℕ) (r : ℚ) (adaptive : Bool) : Args2 ℚ :=
  { demoArgs2 with
    end_time := (m : ℚ) / 2, buffer_length := 2, snaps := s, recording_start_time := r, adaptive_step_size := adaptive }

theorem demo_run2_props (m : ℕ) (hm : m < 90) (r : ℚ) (s : ℕ) (hs : 1 ≤ s) (adaptive : Bool) :
    FreshRun2 demoEnvProps2 (demoArgsProps2 m s r adaptive) noFiles demoSolver 2 m (demoStates (1 / 2) demoStart) := by
  have h0 := demo_run2 ((m : ℚ) / 2) m rfl hm r 2 s (by norm_num) hs noFiles rfl
  have h := h0.stops
  refine { toFreshCall2 := { h0.toFreshCall2 with saves := ⟨demo_saves.dim, demo_saves.down⟩ }, traj := h0.traj, shaped := h0.shaped, stops := ?_ }
  refine ⟨fun j hj => ?_, fun j h1 h2 hr => ?_, ?_⟩
  · have := h.before j hj
    rw [demo_time2] at this
    rw [demo_timeProps]
    exact this
  · refine h.noNaN j h1 h2 ?_
    unfold isRecorded2 at hr ⊢
    rw [demo_timeProps] at hr
    rw [demo_time2]
    exact hr
  · refine h.stop.imp (fun h => ?_) fun h => ?_
    · rw [demo_time2] at h
      rw [demo_timeProps]
      exact h
    · refine ⟨h.1, ?_, h.2.2⟩
      have := h.2.1
      unfold isRecorded2 at this ⊢
      rw [demo_time2] at this
      rw [demo_timeProps]
      exact this

theorem demo_propsDefined2 (m s : ℕ) (r : ℚ) (adaptive : Bool) (frs : List (ℚ × NS (Cell ℚ))) :
    PropsDefined demoEnvProps2.toEnv (demoArgsProps2 m s r adaptive).toArgs 2 frs := by
  intro name hname
  refine ⟨?_, fun fr _ n p o hn _ _ => ?_⟩
  · simp only [demoArgsProps2, demoArgs2, List.mem_singleton] at hname
    rw [hname]
    decide
  · unfold IsFrameRow at hn
    rw [if_neg (by decide)] at hn
    obtain ⟨A, B, -, -, rfl⟩ := hn
    exact ⟨_, rfl⟩

example := C126_files2 demoEnvProps2 (demoArgsProps2 4 2 0 false) ⟨true, 10, 5, ["gamma_n"]⟩ 300 id 9 noFiles
/-- four steps, three frames; the statistics start with the second one -/
example := C126_run2_partial (demo_run2_props 4 (by norm_num) 0 2 (by norm_num) false) (fuel := 9) (by norm_num) (by norm_num)
  (by norm_num [demoArgsProps2, demoArgs2, demoArgs]) (by norm_num) rfl rfl (demo_propsDefined2 _ _ _ _ _)
  ⟨true, 10, 5, ["gamma_n"]⟩ id rfl (by norm_num) (by simp) (by simp [demoArgsProps2, demoArgs2]) 1 1
  (by norm_num [demoArgsProps2, demoArgs2, demoArgs]) (by norm_num [demoArgsProps2])
example := C126_run2_adaptive (demo_run2_props 4 (by norm_num) 0 2 (by norm_num) true) (fuel := 9) (by norm_num) (by norm_num)
  (by rw [demo_timeProps]; norm_num [demoArgsProps2, demoArgs2, demoArgs]) rfl rfl (demo_propsDefined2 _ _ _ _ _)
  (by show (⌊100 * (0 : ℚ)⌋ : ℚ) / 100 = 0; norm_num) (2, demoStates (1 / 2) demoStart 4) (by
    simp [frames2, stepFrames2, isRecorded2, demo_timeProps, FloatOps.eq, FloatOps.le, FloatOps.ofInt, demoArgsProps2, demoArgs2,
      demoArgs, List.range']
    norm_num)
  (by show (0 : ℚ) ≤ (⌊100 * (2 : ℚ)⌋ : ℚ) / 100; norm_num)
  ⟨true, 10, 5, ["gamma_n"]⟩ id rfl (by norm_num) (by norm_num) (by simp) (by simp [demoArgsProps2, demoArgs2]) 1
/-- six steps of which the last five are recorded: an error -/
example := (C126_run2_late_violated (demo_run2_props 6 (by norm_num) (1 / 2) 1 (by norm_num) false) (fuel := 9) (by norm_num)
  (by norm_num [demoArgsProps2, demoArgs2, demoArgs]) rfl 0 (by norm_num [demoArgsProps2, demoArgs2, demoArgs])
  (by norm_num [demoArgsProps2]) (demo_propsDefined2 _ _ _ _ _) ⟨false, 10, 5, ["gamma_n"]⟩ id rfl (by simp)
  (by simp [demoArgsProps2, demoArgs2]) 300).2.2
example := C126_run2_late_frames (E := demoEnvProps2) (a := demoArgsProps2 6 1 (1 / 2) false)
  (by norm_num [demoArgsProps2, demoArgs2, demoArgs]) (by norm_num [demoArgsProps2]) rfl 0
  (by norm_num [demoArgsProps2, demoArgs2, demoArgs]) (demoStates (1 / 2) demoStart) 6 (by norm_num [demoArgsProps2])

end

end Verif.Props
