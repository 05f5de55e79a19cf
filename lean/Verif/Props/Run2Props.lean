import Verif.Lemmas.Run2Props
import Verif.Props.Run2Physics

/-!
# C96: the properties recorded during a run and those computed afterwards

`run2` stores every requested property twice: `fullres_<name>` is computed
during the run from the state, `<name>` after the run from the file.
`propertyFncs` and `hwProps` are the functions of the code (see
`Model/RunPropsHW.lean`), in exact arithmetic; `hx` says that storing is exact.
-/

set_option linter.unusedSectionVars false

namespace Verif.Props

open H5IO H5 Run Run2 RunProperties Arr Spec

section general

variable {β : Type} [Casts ℝ β] [Inhabited β] [FloatOps ℝ]
variable {E : Env2 ℝ β} {a : Args2 ℝ} {σ : St ℝ β} {hw : Solver ℝ} {ns m fuel : ℕ} {S : ℕ → NS (Cell ℝ)}

theorem f64_f32 (hx : ∀ x : ℝ, Casts.f64 (Casts.f32 x : β) = x) (A : Arr ℝ) :
    (A.map (Casts.f32 : ℝ → β)).map (Casts.f64 : β → ℝ) = A := by
  conv_rhs => rw [eq_tab A]
  rw [eq_tab A, map_tab, map_tab]
  refine tab_congr rfl rfl fun i j _ _ => ?_
  rw [hx, ← eq_tab A]

/-- a recorded field, without downsampling -/
theorem row_plain {k : String} (hk : k ≠ "time") (hds : downsampling a.downsample_factor = false) {t : ℝ}
    {s : NS (Cell ℝ)} {row : Cell β} (h : IsFrameRow E.toEnv a.downsample_factor k t s row) :
    ∃ A : Arr ℝ, s.get? k = some (.arr A) ∧ row = .arr (A.map Casts.f32) := by
  unfold IsFrameRow at h
  rw [if_neg hk] at h
  obtain ⟨A, B, h1, h2, h3⟩ := h
  unfold recordedValue at h2
  rw [hds] at h2
  simp only [Bool.false_eq_true, if_false, Except.ok.injEq, Cell.arr.injEq] at h2
  subst h2
  exact ⟨A, h1, h3⟩

/-- all cells are `n × n` arrays -/
def AllSquare (n : ℕ) (l : List (Cell β)) : Prop := ∀ c ∈ l, ∃ A : Arr β, c = .arr A ∧ A.h = n ∧ A.w = n

omit [FloatOps ℝ] in
/-- **C56 with the property functions of the code.** On every file whose fields
are square, `calculate_properties` succeeds, and entry `i` of every property
it (re)computes is the value of the function on frame `i`, with `dx` and `c1`
from the attributes. -/
theorem C56_square_files (path : String) (f : H5 ℝ β) (hσ : σ.fs path = some f) (k0 x_save c1 : Attr ℝ)
    (n p o : List (Arr β)) (m : ℕ) (hm : 0 < m) (hsq : ∀ A, A ∈ n ∨ A ∈ p ∨ A ∈ o → A.h = m ∧ A.w = m)
    (hf : RunFile f k0 x_save c1 (n.map .arr) (p.map .arr) (o.map .arr)) (names : List String)
    (hnames : "density" ∉ names ∧ "phi" ∉ names ∧ "omega" ∉ names) (force : Bool) (b : ℕ) (hb : 1 ≤ b) :
    ∃ σ' f', calculate_properties hwProps path b names force σ = (.ok (), σ') ∧ σ'.fs path = some f' ∧
      ∀ name ∈ names, name ∈ propertyTable → force = true ∨ f.dsets name = none →
        ∃ vs : List ℝ, f'.dsets name = some (.flat (vs.map Casts.f32)) ∧ vs.length = n.length ∧
          ∀ (i : ℕ) (N P O : Arr β) (v : ℝ), n[i]? = some N → p[i]? = some P → o[i]? = some O → vs[i]? = some v →
            propValue name (2 * Real.pi / attrReal k0 / attrReal x_save) (attrReal c1) (N.map Casts.f64)
              (P.map Casts.f64) (O.map Casts.f64) = .ok v := by
  have hp := hf.phi_length
  have ho := hf.omega_length
  simp only [List.length_map] at hp ho
  obtain ⟨σ', f', e1, e2, -, e4, -⟩ := C56_batch_independent (hwProps : PropEnv ℝ β) path σ f hσ k0 x_save c1 _ _ _ hf
    names hnames force (fun name h1 _ i hi => by
      have hi : i < n.length := by simpa using hi
      simp only [List.getElem_map]
      exact propValue_ok h1 _ _ hm (hsq _ (.inl (List.getElem_mem hi)))
        (hsq _ (.inr (.inl (List.getElem_mem (by omega))))) (hsq _ (.inr (.inr (List.getElem_mem (by omega)))))) b hb
  refine ⟨σ', f', e1, e2, fun name h1 h2 h3 => ?_⟩
  obtain ⟨vs, v1, v2, v3⟩ := e4 name h1 h2 h3
  rw [List.length_map] at v2
  refine ⟨vs, v1, v2, fun i N P O v a1 a2 a3 a4 => ?_⟩
  obtain ⟨hi, rfl⟩ := List.getElem?_eq_some_iff.mp a1
  obtain ⟨hi2, rfl⟩ := List.getElem?_eq_some_iff.mp a2
  obtain ⟨hi3, rfl⟩ := List.getElem?_eq_some_iff.mp a3
  obtain ⟨hi4, rfl⟩ := List.getElem?_eq_some_iff.mp a4
  have := v3 i (by simpa using hi)
  simp only [List.getElem_map] at this
  exact this

theorem final_agree (hE : E.propertyFn = propertyFncs) (hP : E.props = hwProps)
    (hx : ∀ x : ℝ, Casts.f64 (Casts.f32 x : β) = x) (hp : ∀ name ∈ a.properties, name ∈ propertyTable)
    (hb : 1 ≤ a.buffer_length) (hds : downsampling a.downsample_factor = false) (hg : 0 < a.grid_pts)
    {f : H5 ℝ β} (hσ : σ.fs a.output_path = some f) {k0 x_save c1 : Attr ℝ} {n0 p0 o0 rn rp ro : List (Cell β)}
    (hf : RunFile f k0 x_save c1 (n0 ++ rn) (p0 ++ rp) (o0 ++ ro)) (hn0 : AllSquare a.grid_pts n0)
    (hp0 : AllSquare a.grid_pts p0) (ho0 : AllSquare a.grid_pts o0) {W : List (ℝ × NS (Cell ℝ))}
    (hW : ∀ fr ∈ W, Shaped a.grid_pts fr.2)
    (hn : List.Forall₂ (fun fr row => IsFrameRow E.toEnv a.downsample_factor "density" fr.1 fr.2 row) W rn)
    (hph : List.Forall₂ (fun fr row => IsFrameRow E.toEnv a.downsample_factor "phi" fr.1 fr.2 row) W rp)
    (ho : List.Forall₂ (fun fr row => IsFrameRow E.toEnv a.downsample_factor "omega" fr.1 fr.2 row) W ro) :
    (finalProps E a σ).1 = .ok (some ()) ∧ ∃ f', (finalProps E a σ).2.fs a.output_path = some f' ∧
      (∀ k, k ∉ a.properties → f'.dsets k = f.dsets k) ∧
      ∀ name ∈ a.properties, ∃ vs : List β, f'.dsets name = some (.flat vs) ∧ vs.length = n0.length + W.length ∧
        ∀ rf : List (Cell β), List.Forall₂ (fun fr row => ∃ x, IsPropValue E a name fr.2 x ∧ row = .num (Casts.f32 x)) W rf →
        ∀ i (hi : i < W.length), ∃ n p o x y, W[i].2.get? "density" = some (.arr n) ∧ W[i].2.get? "phi" = some (.arr p) ∧
          W[i].2.get? "omega" = some (.arr o) ∧ propValue name (propDx (attrReal k0) (attrReal x_save)) (attrReal c1) n p o = .ok x ∧
          vs[n0.length + i]? = some (Casts.f32 x) ∧ propValue name a.dx a.c1 n p o = .ok y ∧
          rf[i]? = some (.num (Casts.f32 y)) := by
  have hsq : ∀ {k : String} {l : List (Cell β)}, k ∈ fieldList →
      List.Forall₂ (fun fr row => IsFrameRow E.toEnv a.downsample_factor k fr.1 fr.2 row) W l → AllSquare a.grid_pts l := by
    intro k l hk hl c hc
    obtain ⟨i, hi, rfl⟩ := List.getElem_of_mem hc
    rw [List.forall₂_iff_get] at hl
    have hiW : i < W.length := hl.1 ▸ hi
    obtain ⟨A, h1, h2⟩ := row_plain (by rintro rfl; simp [fieldList] at hk) hds (hl.2 i hiW hi)
    obtain ⟨A', h3, h4, h5⟩ := (hW _ (List.getElem_mem hiW)).fields k hk
    have h6 := Cell.arr.inj (Option.some.inj (h1.symm.trans h3))
    subst h6
    exact ⟨_, by simpa using h2, h4, h5⟩
  have happ : ∀ {l l' : List (Cell β)}, AllSquare a.grid_pts l → AllSquare a.grid_pts l' → AllSquare a.grid_pts (l ++ l') := by
    intro l l' h h' c hc
    rcases List.mem_append.mp hc with hc | hc
    · exact h c hc
    · exact h' c hc
  have an := happ hn0 (hsq (by decide) hn)
  have ap := happ hp0 (hsq (by decide) hph)
  have ao := happ ho0 (hsq (by decide) ho)
  have hval : ∀ name ∈ a.properties, ∀ i (h : i < (n0 ++ rn).length),
      ∃ v, E.props.value name (E.props.dx k0 x_save) c1 (n0 ++ rn)[i] ((p0 ++ rp)[i]'(by rw [hf.phi_length]; exact h))
        ((o0 ++ ro)[i]'(by rw [hf.omega_length]; exact h)) = .ok v := by
    intro name hname i hi
    obtain ⟨A, e1, s1⟩ := an _ (List.getElem_mem hi)
    obtain ⟨B, e2, s2⟩ := ap _ (List.getElem_mem (by rw [hf.phi_length]; exact hi))
    obtain ⟨C, e3, s3⟩ := ao _ (List.getElem_mem (by rw [hf.omega_length]; exact hi))
    rw [e1, e2, e3, hP]
    exact propValue_ok (hp name hname) _ _ hg s1 s2 s3
  obtain ⟨r1, f', r2, -, r3, r4⟩ := does_finalProps hp hb hσ hf hval
  have hl : p0.length = n0.length ∧ o0.length = n0.length := by
    have h1 := hf.phi_length
    have h2 := hf.omega_length
    rw [List.length_append, List.length_append, ← hph.length_eq, ← hn.length_eq] at h1
    rw [List.length_append, List.length_append, ← ho.length_eq, ← hn.length_eq] at h2
    omega
  refine ⟨r1, f', r2, r3, fun name hname => ?_⟩
  obtain ⟨vs, v1, v2, v3⟩ := r4 name hname
  refine ⟨_, v1, by rw [List.length_map, v2, List.length_append, hn.length_eq], fun rf hrf i hi => ?_⟩
  rw [List.forall₂_iff_get] at hn hph ho hrf
  have i1 : i < rn.length := hn.1 ▸ hi
  have i2 : i < rp.length := hph.1 ▸ hi
  have i3 : i < ro.length := ho.1 ▸ hi
  have i4 : i < rf.length := hrf.1 ▸ hi
  obtain ⟨A, a1, a2⟩ := row_plain (by decide) hds (hn.2 i hi i1)
  obtain ⟨B, b1, b2⟩ := row_plain (by decide) hds (hph.2 i hi i2)
  obtain ⟨C, c1', c2⟩ := row_plain (by decide) hds (ho.2 i hi i3)
  obtain ⟨y, ⟨F, n, p, o, q1, q2, q3, q4, q5⟩, hy⟩ := hrf.2 i hi i4
  simp only [List.get_eq_getElem] at a1 a2 b1 b2 c1' c2 q2 q3 q4 hy
  have hi' : n0.length + i < (n0 ++ rn).length := by rw [List.length_append]; omega
  have := v3 (n0.length + i) hi'
  rw [hP, List.getElem_append_right (by omega), List.getElem_append_right (by omega),
    List.getElem_append_right (by omega)] at this
  simp only [hl.1, hl.2, Nat.add_sub_cancel_left, a2, b2, c2] at this
  change propValue name (propDx (attrReal k0) (attrReal x_save)) (attrReal c1) _ _ _ = _ at this
  rw [f64_f32 hx, f64_f32 hx, f64_f32 hx] at this
  have z1 : n = .arr A := Option.some.inj (q2.symm.trans a1)
  have z2 : p = .arr B := Option.some.inj (q3.symm.trans b1)
  have z3 : o = .arr C := Option.some.inj (q4.symm.trans c1')
  subst z1 z2 z3
  rw [hE, propertyFncs_eq (hp name hname)] at q1
  have q1 := Option.some.inj q1
  subst q1
  refine ⟨A, B, C, _, y, a1, b1, c1', this, ?_, q5, ?_⟩
  · rw [List.getElem?_map, List.getElem?_eq_getElem (by omega)]
    rfl
  · rw [List.getElem?_eq_getElem i4, hy]

/-- **C96 (new files), partial.** In exact arithmetic and without downsampling,
after a `run2` that creates a file both datasets of every property hold the same
numbers, one per frame in the file.  (With downsampling they are
values of different fields; in floating-point arithmetic they differ by the
rounding of the stored fields.) -/
theorem C96_new_file_partial (h : FreshRun2 E a σ hw ns m S) (hE : E.propertyFn = propertyFncs) (hP : E.props = hwProps)
    (hx : ∀ x : ℝ, Casts.f64 (Casts.f32 x : β) = x) (hp : ∀ name ∈ a.properties, name ∈ propertyTable)
    (hds : downsampling a.downsample_factor = false) (hg : 0 < a.grid_pts)
    (hdx : a.dx = 2 * Real.pi / a.k0 / a.grid_pts) (hfuel : m < fuel) :
    (run2 E a fuel σ).1 = .ok (some ()) ∧ ∃ f, (run2 E a fuel σ).2.fs a.output_path = some f ∧
      ∀ name ∈ a.properties, ∃ vs : List β, f.dsets name = some (.flat vs) ∧
        f.dsets ("fullres_" ++ name) = some (.rows .one (vs.map .num)) ∧
        vs.length = (written2 a (timeAt E a (FloatOps.ofInt 0) m) (frames2 E a S m)).length := by
  obtain ⟨σ2, f, e1, e2, e3, e4, e5, -⟩ := fresh2_before h hfuel
  have hns : ns = a.grid_pts := by
    have := h.saves.dim
    unfold saveDim at this
    rw [hds] at this
    simpa using this.symm
  subst hns
  obtain ⟨rn, n1, n2⟩ := e4 "density" (by decide)
  obtain ⟨rp, p1, p2⟩ := e4 "phi" (by decide)
  obtain ⟨ro, o1, o2⟩ := e4 "omega" (by decide)
  have hf : RunFile f (.num a.k0) (.int a.grid_pts) (.num a.c1) ([] ++ rn) ([] ++ rp) ([] ++ ro) := by
    refine ⟨?_, ?_, ?_, ⟨.num (FloatOps.mul a.step_size (FloatOps.ofInt a.snaps)), ?_⟩, ⟨_, n1⟩, ⟨_, p1⟩, ⟨_, o1⟩, ?_, ?_⟩
    iterate 4
      · rw [e3]
        unfold runParams2 get_save_params
        simp only [NS.get?_set]
        simp [Args2.physics2, Args.physics, NS.get?]
    · simp only [List.nil_append]; rw [← p2.length_eq, ← n2.length_eq]
    · simp only [List.nil_append]; rw [← o2.length_eq, ← n2.length_eq]
  have hW : ∀ fr ∈ written2 a (timeAt E a (FloatOps.ofInt 0) m) (frames2 E a S m), Shaped a.grid_pts fr.2 := by
    intro fr hfr
    have hfr : fr ∈ frames2 E a S m := by
      unfold written2 at hfr
      split_ifs at hfr
      · exact hfr
      · exact List.mem_of_mem_take hfr
    unfold frames2 stepFrames2 at hfr
    rcases List.mem_append.mp hfr with hfr | hfr
    · split_ifs at hfr
      · obtain rfl := List.mem_singleton.mp hfr
        exact h.init
      · simp at hfr
    · obtain ⟨it, hit, rfl⟩ := List.mem_map.mp hfr
      have := List.mem_range'_1.mp (List.mem_of_mem_filter hit)
      exact h.shaped it (by omega) (by omega)
  have hnil : AllSquare (β := β) a.grid_pts [] := by intro c hc; simp at hc
  obtain ⟨r1, f', r2, r3, r4⟩ := final_agree hE hP hx hp h.buffer hds hg e2 hf hnil hnil hnil hW n2 p2 o2
  rw [e1]
  refine ⟨r1, f', r2, fun name hname => ?_⟩
  obtain ⟨vs, v1, v2, v3⟩ := r4 name hname
  obtain ⟨rf, q1, q2⟩ := e5 name hname
  refine ⟨vs, v1, ?_, by simpa using v2⟩
  rw [r3 _ fun hc => fullres_not_propertyName name (hp _ hc), q1]
  congr 2
  have hlen := q2.length_eq
  refine List.ext_getElem? fun i => ?_
  by_cases hi : i < rf.length
  · obtain ⟨n, p, o, x, y, -, -, -, w1, w2, w3, w4⟩ := v3 rf q2 i (by omega)
    have hdx' : propDx (attrReal (.num a.k0)) (attrReal (.int a.grid_pts)) = a.dx := by
      rw [hdx]
      simp [propDx, attrReal]
    rw [hdx'] at w1
    have hxy : x = y := Except.ok.inj (w1.symm.trans w3)
    simp only [List.length_nil, Nat.zero_add] at w2
    rw [w4, List.getElem?_map, w2, hxy]
    rfl
  · rw [List.getElem?_eq_none (by omega), List.getElem?_eq_none]
    rw [List.length_map, v2, List.length_nil]
    omega

/-- what `run2` leaves in a continued file -/
theorem continued_values {f : H5 ℝ β} {d o p : Arr ℝ} {t0 : ℝ} {params : NS (Attr ℝ)}
    (h : ContinuedRun2 E a σ f hw ns d o p t0 params m S) (hE : E.propertyFn = propertyFncs) (hP : E.props = hwProps)
    (hx : ∀ x : ℝ, Casts.f64 (Casts.f32 x : β) = x) (hp : ∀ name ∈ a.properties, name ∈ propertyTable)
    (hds : downsampling a.downsample_factor = false) (hg : 0 < a.grid_pts) {k0 x_save c1 : Attr ℝ}
    {n0 p0 o0 : List (Cell β)} (hf : RunFile f k0 x_save c1 n0 p0 o0) (hn0 : AllSquare a.grid_pts n0)
    (hp0 : AllSquare a.grid_pts p0) (ho0 : AllSquare a.grid_pts o0) (hfuel : m < fuel) :
    (run2 E a fuel σ).1 = .ok (some ()) ∧ ∃ f', (run2 E a fuel σ).2.fs a.output_path = some f' ∧
      ∀ name ∈ a.properties, ∃ (vs : List β) (rf : List (Cell β)), f'.dsets name = some (.flat vs) ∧
        f'.dsets ("fullres_" ++ name) = some (.rows .one (f.rowsOf ("fullres_" ++ name) ++ rf)) ∧
        vs.length = n0.length + (written2 a (timeAt E a t0 m) (stepFrames2 E a t0 S m)).length ∧
        rf.length = (written2 a (timeAt E a t0 m) (stepFrames2 E a t0 S m)).length ∧
        ∀ i (hi : i < (written2 a (timeAt E a t0 m) (stepFrames2 E a t0 S m)).length), ∃ n p o x y,
          (written2 a (timeAt E a t0 m) (stepFrames2 E a t0 S m))[i].2.get? "density" = some (.arr n) ∧
          (written2 a (timeAt E a t0 m) (stepFrames2 E a t0 S m))[i].2.get? "phi" = some (.arr p) ∧
          (written2 a (timeAt E a t0 m) (stepFrames2 E a t0 S m))[i].2.get? "omega" = some (.arr o) ∧
          propValue name (propDx (attrReal k0) (attrReal x_save)) (attrReal c1) n p o = .ok x ∧
          vs[n0.length + i]? = some (Casts.f32 x) ∧ propValue name a.dx a.c1 n p o = .ok y ∧
          rf[i]? = some (.num (Casts.f32 y)) := by
  obtain ⟨σ2, f2, e1, e2, e3, e4, e5⟩ := continue2_before h hfuel
  have hns : ns = a.grid_pts := by
    have := h.saves.dim
    unfold saveDim at this
    rw [hds] at this
    simpa using this.symm
  subst hns
  obtain ⟨rn, n1, n2⟩ := e4 "density" (by decide)
  obtain ⟨rp, p1, p2⟩ := e4 "phi" (by decide)
  obtain ⟨ro, o1, o2⟩ := e4 "omega" (by decide)
  have hrow : ∀ {k l}, (∃ s, f.dsets k = some (.rows s l)) → f.rowsOf k = l := by
    rintro k l ⟨s, e⟩
    unfold H5.rowsOf
    rw [e]
  rw [hrow hf.density] at n1
  rw [hrow hf.phi] at p1
  rw [hrow hf.omega] at o1
  have hf2 : RunFile f2 k0 x_save c1 (n0 ++ rn) (p0 ++ rp) (o0 ++ ro) := by
    refine ⟨?_, ?_, ?_, ?_, ⟨_, n1⟩, ⟨_, p1⟩, ⟨_, o1⟩, ?_, ?_⟩
    · rw [e3]; exact hf.k0
    · rw [e3]; exact hf.x_save
    · rw [e3]; exact hf.c1
    · rw [e3]; exact hf.frame_dt
    · rw [List.length_append, List.length_append, ← p2.length_eq, ← n2.length_eq, hf.phi_length]
    · rw [List.length_append, List.length_append, ← o2.length_eq, ← n2.length_eq, hf.omega_length]
  have hW : ∀ fr ∈ written2 a (timeAt E a t0 m) (stepFrames2 E a t0 S m), Shaped a.grid_pts fr.2 := by
    intro fr hfr
    have hfr : fr ∈ stepFrames2 E a t0 S m := by
      unfold written2 at hfr
      split_ifs at hfr
      · exact hfr
      · exact List.mem_of_mem_take hfr
    unfold stepFrames2 at hfr
    obtain ⟨it, hit, rfl⟩ := List.mem_map.mp hfr
    have := List.mem_range'_1.mp (List.mem_of_mem_filter hit)
    exact h.shaped it (by omega) (by omega)
  obtain ⟨r1, f', r2, r3, r4⟩ := final_agree hE hP hx hp h.buffer hds hg e2 hf2 hn0 hp0 ho0 hW n2 p2 o2
  rw [e1]
  refine ⟨r1, f', r2, fun name hname => ?_⟩
  obtain ⟨vs, v1, v2, v3⟩ := r4 name hname
  obtain ⟨rf, q1, q2⟩ := e5 name hname
  exact ⟨vs, rf, v1, by rw [r3 _ fun hc => fullres_not_propertyName name (hp _ hc), q1], v2, q2.length_eq.symm, v3 rf q2⟩

/-- **C96 (continued files), partial.** As above for the frames a continued run
adds, if `c1` and the grid spacing of the call are those of the file. -/
theorem C96_continued_partial {f : H5 ℝ β} {d o p : Arr ℝ} {t0 : ℝ} {params : NS (Attr ℝ)}
    (h : ContinuedRun2 E a σ f hw ns d o p t0 params m S) (hE : E.propertyFn = propertyFncs) (hP : E.props = hwProps)
    (hx : ∀ x : ℝ, Casts.f64 (Casts.f32 x : β) = x) (hp : ∀ name ∈ a.properties, name ∈ propertyTable)
    (hds : downsampling a.downsample_factor = false) (hg : 0 < a.grid_pts) {k0 x_save c1 : Attr ℝ}
    {n0 p0 o0 : List (Cell β)} (hf : RunFile f k0 x_save c1 n0 p0 o0) (hn0 : AllSquare a.grid_pts n0)
    (hp0 : AllSquare a.grid_pts p0) (ho0 : AllSquare a.grid_pts o0) (hfuel : m < fuel)
    (hc : attrReal c1 = a.c1) (hdx : a.dx = 2 * Real.pi / attrReal k0 / attrReal x_save) :
    (run2 E a fuel σ).1 = .ok (some ()) ∧ ∃ f', (run2 E a fuel σ).2.fs a.output_path = some f' ∧
      ∀ name ∈ a.properties, ∃ vs : List β, f'.dsets name = some (.flat vs) ∧
        f'.dsets ("fullres_" ++ name)
          = some (.rows .one (f.rowsOf ("fullres_" ++ name) ++ (vs.drop n0.length).map .num)) ∧
        vs.length = n0.length + (written2 a (timeAt E a t0 m) (stepFrames2 E a t0 S m)).length := by
  obtain ⟨r1, f', r2, r3⟩ := continued_values h hE hP hx hp hds hg hf hn0 hp0 ho0 hfuel
  refine ⟨r1, f', r2, fun name hname => ?_⟩
  obtain ⟨vs, rf, v1, v2, v3, v4, v5⟩ := r3 name hname
  refine ⟨vs, v1, ?_, v3⟩
  rw [v2]
  congr 3
  refine List.ext_getElem? fun i => ?_
  by_cases hi : i < rf.length
  · obtain ⟨n, p, o, x, y, -, -, -, w1, w2, w3, w4⟩ := v5 i (by omega)
    rw [hc, show propDx (attrReal k0) (attrReal x_save) = a.dx from hdx.symm] at w1
    have hxy : x = y := Except.ok.inj (w1.symm.trans w3)
    rw [w4, List.getElem?_map, List.getElem?_drop, w2, hxy]
    rfl
  · rw [List.getElem?_eq_none (by omega), List.getElem?_eq_none]
    rw [List.length_map, List.length_drop]
    omega

/-- **C96 is violated** by a continued run whose argument `c1` is not the one of
the file: the simulation continues with the `c1` of the file, `gamma_c` is
computed with it, but `fullres_gamma_c` with the argument.  The two differ
in every new frame in which density and potential are not equal. -/
theorem C96_continued_violated {f : H5 ℝ β} {d o p : Arr ℝ} {t0 : ℝ} {params : NS (Attr ℝ)}
    (h : ContinuedRun2 E a σ f hw ns d o p t0 params m S) (hE : E.propertyFn = propertyFncs) (hP : E.props = hwProps)
    (hx : ∀ x : ℝ, Casts.f64 (Casts.f32 x : β) = x) (hp : ∀ name ∈ a.properties, name ∈ propertyTable)
    (hds : downsampling a.downsample_factor = false) (hg : 0 < a.grid_pts) {k0 x_save c1 : Attr ℝ}
    {n0 p0 o0 : List (Cell β)} (hf : RunFile f k0 x_save c1 n0 p0 o0) (hn0 : AllSquare a.grid_pts n0)
    (hp0 : AllSquare a.grid_pts p0) (ho0 : AllSquare a.grid_pts o0) (hfuel : m < fuel)
    (hc : attrReal c1 ≠ a.c1) (hgc : "gamma_c" ∈ a.properties) :
    ∃ f' vs rf, (run2 E a fuel σ).2.fs a.output_path = some f' ∧ f'.dsets "gamma_c" = some (.flat vs) ∧
      f'.dsets "fullres_gamma_c" = some (.rows .one (f.rowsOf "fullres_gamma_c" ++ rf)) ∧
      ∀ i (hi : i < (written2 a (timeAt E a t0 m) (stepFrames2 E a t0 S m)).length),
        (written2 a (timeAt E a t0 m) (stepFrames2 E a t0 S m))[i].2.get? "density" ≠
          (written2 a (timeAt E a t0 m) (stepFrames2 E a t0 S m))[i].2.get? "phi" →
        ∃ u v, vs[n0.length + i]? = some u ∧ rf[i]? = some (.num v) ∧ u ≠ v := by
  obtain ⟨-, f', r2, r3⟩ := continued_values h hE hP hx hp hds hg hf hn0 hp0 ho0 hfuel
  obtain ⟨vs, rf, v1, v2, -, -, v5⟩ := r3 "gamma_c" hgc
  refine ⟨f', vs, rf, r2, v1, v2, fun i hi hne => ?_⟩
  obtain ⟨n, p, o, x, y, g1, g2, g3, w1, w2, w3, w4⟩ := v5 i hi
  refine ⟨_, _, w2, w4, fun huv => ?_⟩
  have hxy : x = y := by rw [← hx x, huv, hx y]
  have hsh : ∀ fr ∈ written2 a (timeAt E a t0 m) (stepFrames2 E a t0 S m), Shaped a.grid_pts fr.2 := by
    intro fr hfr
    have hfr : fr ∈ stepFrames2 E a t0 S m := by
      unfold written2 at hfr
      split_ifs at hfr
      · exact hfr
      · exact List.mem_of_mem_take hfr
    unfold stepFrames2 at hfr
    obtain ⟨it, hit, rfl⟩ := List.mem_map.mp hfr
    have := List.mem_range'_1.mp (List.mem_of_mem_filter hit)
    exact h.shaped it (by omega) (by omega)
  have hs := (hsh _ (List.getElem_mem hi)).fields
  obtain ⟨n', s1, s2⟩ := hs "density" (by decide)
  obtain ⟨p', s3, s4⟩ := hs "phi" (by decide)
  have z1 := Cell.arr.inj (Option.some.inj (s1.symm.trans g1))
  have z2 := Cell.arr.inj (Option.some.inj (s3.symm.trans g2))
  subst z1 z2
  have : NeZero a.grid_pts := ⟨hg.ne'⟩
  rw [g1, g2] at hne
  have e1 : Properties.get_gamma_c n' p' (attrReal c1) (propDx (attrReal k0) (attrReal x_save)) = .ok x := w1
  have e2 : Properties.get_gamma_c n' p' a.c1 a.dx = .ok y := w3
  rw [← ofField_toFld s2.1 s2.2, ← ofField_toFld s4.1 s4.2, gamma_c_ofField] at e1 e2
  have hne : (toFld n' : Fld a.grid_pts a.grid_pts) ≠ toFld p' := by
    intro e
    apply hne
    rw [← ofField_toFld s2.1 s2.2, ← ofField_toFld s4.1 s4.2, e]
  have hav : avg (fun i j => ((toFld n' : Fld a.grid_pts a.grid_pts) i j - toFld p' i j) ^ 2) ≠ 0 := by
    intro e
    unfold avg at e
    rw [div_eq_zero_iff, or_iff_left card_ne, S_eq_zero_iff fun i j => sq_nonneg _] at e
    refine hne (funext fun i => funext fun j => ?_)
    have := e i j
    rw [pow_eq_zero_iff two_ne_zero] at this
    linarith
  rw [← Except.ok.inj e1, ← Except.ok.inj e2] at hxy
  exact hc (mul_right_cancel₀ hav hxy)

end general

/-! ### non-vacuity -/

section demo

attribute [local instance] exactOps
attribute [-instance] physCasts
attribute [local instance] exactCasts

/-- `physEnv2` with the property functions of the code -/
noncomputable def propsEnv : Env2 ℝ ℝ := { physEnv2 with propertyFn := propertyFncs, props := hwProps }

/-- eight steps of a run with `c1 = c`, a frame every second step -/
noncomputable def propsArgs (c : ℝ) : Args2 ℝ :=
  { physArgs2 with
    dx := 2 * Real.pi / 1 / (8 : ℕ)
    c1 := c
    end_time := 1 / 5
    snaps := 2
    buffer_length := 3
    continue_file := true
    add_last_state := false
    properties := ["gamma_c", "energy", "kinetic_energy"] }

theorem propsArgs_names (c : ℝ) : ∀ name ∈ (propsArgs c).properties, name ∈ propertyTable := by
  change ∀ name ∈ ["gamma_c", "energy", "kinetic_energy"], name ∈ propertyTable
  decide

theorem propsEnv_ok (c : ℝ) : PropsOk propsEnv (propsArgs c) := by
  intro name hn
  refine ⟨_, propertyFncs_eq (propsArgs_names c name hn), fun n p o h1 h2 h3 => ?_⟩
  exact propValue_ok (propsArgs_names c name hn) _ _ (by decide : 0 < 8) h1 h2 h3

theorem props_good (c : ℝ) : GoodArgs2 propsEnv numpyBackend (propsArgs c) ⟨fun _ => none, []⟩ 8 where
  grid := (by decide : 0 < 8)
  backend := .inl rfl
  density := ⟨_, rfl, rfl, rfl⟩
  omega := ⟨_, rfl, rfl, rfl⟩
  phi := ⟨_, rfl, rfl, rfl⟩
  path := phys_good2.path
  fresh := .inl rfl
  buffer := (by decide : 1 ≤ 3)
  snaps := (by decide : 1 ≤ 2)
  step := phys_good2.step
  saves := ⟨phys_good2.saves.dim, phys_good2.saves.down⟩
  sim := rfl
  attr := rfl
  nan _ := rfl
  nodup := (by decide : ["gamma_c", "energy", "kinetic_energy"].Nodup)
  props := propsEnv_ok c
  sum _ _ := rfl

theorem props_noDown (c : ℝ) : downsampling (propsArgs c).downsample_factor = false := by
  have e : (propsArgs c).downsample_factor = 1 := rfl
  simp [downsampling, FloatOps.eq, FloatOps.ofInt, e]

example : ∃ fuel f, (run2 propsEnv (propsArgs 1) fuel ⟨fun _ => none, []⟩).2.fs "run.h5" = some f ∧
    ∃ vs, f.dsets "energy" = some (.flat vs) ∧ f.dsets "fullres_energy" = some (.rows .one (vs.map .num)) := by
  obtain ⟨A, B, C, T, -, -, -, -, hT⟩ := fresh2_physics (props_good 1)
  obtain ⟨m, -, h⟩ := hT (1 / 5)
  obtain ⟨-, f, h1, h2⟩ := C96_new_file_partial h rfl rfl (fun _ => rfl) (propsArgs_names 1) (props_noDown 1)
    (by decide : 0 < 8) rfl (Nat.lt_succ_self m)
  obtain ⟨vs, v1, v2, -⟩ := h2 "energy" (by decide : "energy" ∈ ["gamma_c", "energy", "kinetic_energy"])
  exact ⟨_, f, h1, vs, v1, v2⟩

/-- a file with one frame, written by a run with `c1 = 1` -/
noncomputable def propsFile : H5 ℝ ℝ where
  dsets k :=
    if k = "density" then some (.rows (.grid 8 8) [.arr (tab 8 8 fun i j => (1 + i * j : ℝ))])
    else if k = "omega" then some (.rows (.grid 8 8) [.arr (tab 8 8 fun i _ => (1 + i : ℝ))])
    else if k = "phi" then some (.rows (.grid 8 8) [.arr (tab 8 8 fun i _ => (i : ℝ))])
    else if k = "time" then some (.rows .one [.num 0])
    else if k = "fullres_gamma_c" ∨ k = "fullres_energy" ∨ k = "fullres_kinetic_energy" then some (.rows .one [.num 7])
    else none
  attrs k := (runParams2 (propsArgs 1) 8).get? k

theorem propsFile_run : RunFile propsFile (.num 1) (.int 8) (.num 1) [.arr (tab 8 8 fun i j => (1 + i * j : ℝ))]
    [.arr (tab 8 8 fun i _ => (i : ℝ))] [.arr (tab 8 8 fun i _ => (1 + i : ℝ))] := by
  have key : ∀ k, propsFile.attrs k = (runParams2 (propsArgs 1) 8).get? k := fun _ => rfl
  simp only [runParams2, get_save_params, NS.get?_set] at key
  refine ⟨?_, ?_, ?_, ⟨.num (FloatOps.mul (propsArgs 1).step_size (FloatOps.ofInt (propsArgs 1).snaps)), ?_⟩, ⟨_, rfl⟩,
    ⟨_, rfl⟩, ⟨_, rfl⟩, rfl, rfl⟩ <;>
  · rw [key]
    simp only [String.reduceEq, if_true, if_false]
    try rfl

example := C56_square_files "run.h5" propsFile (σ := ⟨fun _ => some propsFile, []⟩) rfl _ _ _ [_] [_] [_] 8 (by decide)
  (by intro A hA; simp only [List.mem_singleton] at hA; rcases hA with rfl | rfl | rfl <;> exact ⟨rfl, rfl⟩)
  propsFile_run ["energy", "gamma_n"] (by decide) true 2 (by decide)

theorem square_one (f : ℕ → ℕ → ℝ) : AllSquare (β := ℝ) 8 [.arr (tab 8 8 f)] := by
  intro c hc
  obtain rfl := List.mem_singleton.mp hc
  exact ⟨_, rfl, rfl, rfl⟩

theorem props_continued (c : ℝ) : ∃ d o p S, ContinuedRun2 propsEnv (propsArgs c)
    ⟨fun q => if q = "run.h5" then some propsFile else none, []⟩ propsFile
    (hwSolver (theHW2 numpyBackend (propsArgs 1))) 8 d o p 0 (propsArgs 1).toArgs.physics 8 S := by
  obtain ⟨C, c1, c2, hC⟩ := get_phi_exists (hw := theHW2 numpyBackend (propsArgs 1)) (n := 8)
    (by decide) (.inl rfl) (propsArgs 1).dx (B := tab 8 8 fun i _ => (1 + i : ℝ)) rfl rfl
  have hs0 := startState_isState (theHW2 numpyBackend (propsArgs 1)).TEST_CONSERVATION
    (A := tab 8 8 fun i j => (1 + i * j : ℝ)) (B := tab 8 8 fun i _ => (1 + i : ℝ)) (n := 8) rfl rfl rfl rfl c1 c2
  obtain ⟨T, t0, t1, t2⟩ := states_exist (hw := theHW2 numpyBackend (propsArgs 1)) (n := 8)
    (by decide) (.inl rfl) (propsArgs 1).step_size (propsArgs 1).dx hs0
  have hcount := C53_step_count (a := propsArgs c) 8 2000 (by simp [propsArgs, physArgs2, physArgs]; norm_num)
    (by simp [propsArgs]; norm_num) (by simp [propsArgs, physArgs2, physArgs]; norm_num)
  have htime : ∀ j : ℕ, timeAt propsEnv (propsArgs c) 0 j = j * (propsArgs c).step_size := by
    intro j
    rw [exact_timeAt (fun _ _ => rfl), zero_add]
  refine ⟨tab 8 8 fun i j => (1 + i * j : ℝ), tab 8 8 fun i _ => (1 + i : ℝ), tab 8 8 fun i _ => (i : ℝ),
    fun n => toCells (T n), ?_⟩
  exact {
    path := (props_good c).path, file := rfl, keep := rfl, cont := rfl, buffer := (by decide : 1 ≤ 3)
    snaps := (by decide : 1 ≤ 2)
    early := by
      refine ⟨(propsArgs c).end_time / (propsArgs c).step_size, truncZ ((propsArgs c).end_time / (propsArgs c).step_size),
        ?_, rfl⟩
      change (if (propsArgs c).step_size = 0 then _ else _) = _
      rw [if_neg (props_good c).step.ne']
    saves := (props_good c).saves, nodup := (props_good c).nodup, props := propsEnv_ok c
    output := by
      refine ⟨?_, fun h => ?_⟩
      · intro k hk
        simp only [fieldList, List.mem_cons, List.not_mem_nil, or_false] at hk
        rcases hk with rfl | rfl | rfl | rfl <;> exact ⟨_, rfl⟩
      · have : (propsArgs c).saveState = false := by
          unfold Args.saveState
          rw [props_noDown]
          rfl
        rw [this] at h
        cases h
    propRows := by
      intro name hn
      change name ∈ ["gamma_c", "energy", "kinetic_energy"] at hn
      simp only [List.mem_cons, List.not_mem_nil, or_false] at hn
      rcases hn with rfl | rfl | rfl <;> exact ⟨_, rfl⟩
    density := by simp [loadedValue, propsFile, map_tab]; rfl
    omega := by simp [loadedValue, propsFile, map_tab]; rfl
    phi := by simp [loadedValue, propsFile, map_tab]; rfl
    time := ⟨[.num 0], 0, rfl, rfl, rfl⟩
    restored := restored_physics (a := propsArgs 1) 8 fun _ => by rfl
    notNaN := ⟨rfl, rfl, rfl, rfl⟩
    nonzero := ⟨not_allZero (amean_pos (by decide) fun i j => by positivity),
      not_allZero (amean_pos (by decide) fun i j => by positivity)⟩
    solver := by rfl
    start := by
      refine ⟨.arr C, .num (propsArgs 1).dx, rfl, ?_, ?_⟩
      · obtain ⟨c', e⟩ := hC {}
        have e1 : (hwSolver (theHW2 numpyBackend (propsArgs 1))).get_phi
            (.arr (tab 8 8 fun i _ => (1 + i : ℝ))) (attrReal (.num (propsArgs 1).dx))
          = ((theHW2 numpyBackend (propsArgs 1)).get_phi (tab 8 8 fun i _ => (1 + i : ℝ))
              (propsArgs 1).dx {} >>= fun r => .ok (.arr r.1)) := rfl
        exact (e1.trans (by rw [e]; rfl))
      · simp only [t0]
        rfl
    traj := fun n _ => hwSolver_step (t2 n)
    shaped := fun n _ _ => shaped_toCells (t1 n)
    stops := by
      refine ⟨fun j hj => ?_, fun j _ _ _ => ?_, .inl ?_⟩
      · rw [htime]
        refine decide_eq_true ?_
        by_contra h
        exact absurd (hcount.2 (not_lt.mp h)) (by omega)
      · unfold nanState
        split <;> rfl
      · rw [htime]
        refine decide_eq_false ?_
        exact not_lt.mpr hcount.1 }

example : ∃ f, (run2 propsEnv (propsArgs 1) 9 ⟨fun q => if q = "run.h5" then some propsFile else none, []⟩).2.fs
      "run.h5" = some f ∧
    ∃ vs, f.dsets "energy" = some (.flat vs) ∧
      f.dsets "fullres_energy" = some (.rows .one (propsFile.rowsOf "fullres_energy" ++ (vs.drop 1).map .num)) := by
  obtain ⟨d, o, p, S, h⟩ := props_continued 1
  obtain ⟨-, f, h1, h2⟩ := C96_continued_partial h rfl rfl (fun _ => rfl) (propsArgs_names 1) (props_noDown 1)
    (by decide : 0 < 8) propsFile_run (square_one _) (square_one _) (square_one _) (by decide : 8 < 9) rfl rfl
  obtain ⟨vs, v1, v2, -⟩ := h2 "energy" (by decide : "energy" ∈ ["gamma_c", "energy", "kinetic_energy"])
  exact ⟨f, h1, vs, v1, v2⟩

example : ∃ f vs rf,
    (run2 propsEnv (propsArgs 2) 9 ⟨fun q => if q = "run.h5" then some propsFile else none, []⟩).2.fs "run.h5" = some f ∧
    f.dsets "gamma_c" = some (.flat vs) ∧
    f.dsets "fullres_gamma_c" = some (.rows .one (propsFile.rowsOf "fullres_gamma_c" ++ rf)) := by
  obtain ⟨d, o, p, S, h⟩ := props_continued 2
  obtain ⟨f, vs, rf, h1, h2, h3, -⟩ := C96_continued_violated h rfl rfl (fun _ => rfl) (propsArgs_names 2)
    (props_noDown 2) (by decide : 0 < 8) propsFile_run (square_one _) (square_one _) (square_one _) (by decide : 8 < 9)
    (by change (1 : ℝ) ≠ 2; norm_num) (by decide : "gamma_c" ∈ ["gamma_c", "energy", "kinetic_energy"])
  exact ⟨f, vs, rf, h1, h2, h3⟩

end demo

end Verif.Props
