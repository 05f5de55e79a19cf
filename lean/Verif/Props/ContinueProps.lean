import Verif.Props.RunContinueProps
import Verif.Props.ContinueFloat

/-!
# Property theorems C143: the properties of a continued file of `run2`
-/

set_option linter.unusedSectionVars false

namespace Verif.Props

open H5IO H5 Run Run2 Arr Spec Set Rounding RunProperties

section files
variable {α β : Type} [Casts α β] [Zero α] [Inhabited α] [Inhabited β] [FloatOps α]
  {E : Env2 α β} {a : Args2 α} {σ : St α β} {hw : Solver α} {ns m1 m3 k l M fuel1 fuel2 : ℕ}
  {S : ℕ → NS (Cell α)} {T1 T2 : α} {Good : NS (Cell α) → Prop}

/-- the frames (time, state) of a file that `run2` has continued: those of the `m1` steps of the first call and those of the
`m3` steps of the second, which starts from the state of step `k` and the recorded time of step `l` -/
def resumedFrames2 (E : Env2 α β) (a : Args2 α) (S : ℕ → NS (Cell α)) (m1 k l m3 : ℕ) : List (α × NS (Cell α)) :=
  (frameSteps E a m1).map (fun it => (timeAt E a (FloatOps.ofInt 0) it, recordedState a S it)) ++
    stepFrames2 E a (restartTime E a l) (fun j => S (k + j)) m3

theorem forall₂_choose {X Y Z : Type} {P : X → Y → Prop} {g : Y → Z} {xs : List X} {zs : List Z}
    (h : List.Forall₂ (fun x z => ∃ y, P x y ∧ z = g y) xs zs) : ∃ ys, zs = List.map g ys ∧ List.Forall₂ P xs ys := by
  induction h with
  | nil => exact ⟨[], rfl, .nil⟩
  | cons hh _ ih =>
    obtain ⟨ys, i1, i2⟩ := ih
    obtain ⟨y, y1, y2⟩ := hh
    exact ⟨y :: ys, by rw [i1, y2]; rfl, .cons y1 i2⟩

/-- the end of `run2`: the properties of the frames `frs` of its file -/
theorem final_fromFrames {frs : List (α × NS (Cell α))} {g : H5 α β} (hσ : σ.fs a.output_path = some g)
    (hat : ∀ k, g.attrs k = (runParams2 a ns).get? k) (hb : 1 ≤ a.buffer_length)
    (hrows : ∀ k ∈ fieldList, ∃ rows, g.dsets k = some (.rows (rowShape ns k) rows) ∧
      List.Forall₂ (fun fr row => IsFrameRow E.toEnv a.downsample_factor k fr.1 fr.2 row) frs rows)
    (hv : FramesDefined E.toEnv a.toArgs ns frs) :
    (finalProps E a σ).1 = .ok (some ()) ∧ ∃ f, (finalProps E a σ).2.fs a.output_path = some f ∧
      (∀ k, k ∉ a.properties → f.dsets k = g.dsets k) ∧ ∀ name ∈ a.properties, ∃ vs : List α,
      f.dsets name = some (.flat (vs.map Casts.f32)) ∧ List.Forall₂ (FromFrame E.toEnv a.toArgs ns name) frs vs := by
  obtain ⟨n, n1, n2⟩ := hrows "density" (by simp [fieldList])
  obtain ⟨p, p1, p2⟩ := hrows "phi" (by simp [fieldList])
  obtain ⟨o, o1, o2⟩ := hrows "omega" (by simp [fieldList])
  have hlen := n2.length_eq
  have hf0 : RunFile g (.num a.k0) (.int ns) (.num a.c1) n p o := by
    refine ⟨?_, ?_, ?_, ⟨.num (FloatOps.mul a.step_size (FloatOps.ofInt a.snaps)), ?_⟩, ⟨_, n1⟩, ⟨_, p1⟩, ⟨_, o1⟩,
      p2.length_eq.symm.trans n2.length_eq, o2.length_eq.symm.trans n2.length_eq⟩
    iterate 4
      · rw [hat]
        unfold runParams2 get_save_params
        simp only [NS.get?_set]
        simp [Args2.physics2, Args.physics, NS.get?]
  obtain ⟨r1, f', r2, -, r4, r5⟩ := does_finalProps (fun name hname => (hv name hname).1) hb hσ hf0
    (fun name hname i hi => (hv name hname).2 _ (List.getElem_mem (hlen ▸ hi)) _ _ _ (forall₂_at n2 (hlen ▸ hi) hi)
      (forall₂_at p2 (hlen ▸ hi) _) (forall₂_at o2 (hlen ▸ hi) _))
  refine ⟨r1, f', r2, r4, fun name hname => ?_⟩
  obtain ⟨vs, d1, d2, d3⟩ := r5 name hname
  refine ⟨vs, d1, List.forall₂_iff_get.2 ⟨by rw [d2, hlen], fun i hi hi' => ?_⟩⟩
  have hin : i < n.length := hlen ▸ hi
  exact ⟨_, _, _, forall₂_at n2 hi hin, forall₂_at p2 hi (by rw [← p2.length_eq]; exact hi),
    forall₂_at o2 hi (by rw [← o2.length_eq]; exact hi), d3 i hin⟩

/-- **C143.** A call of `run2` that continues a file as in C136 and writes the rest of its buffer ends with a file that covers
old and new frames alike, in every arithmetic: it returns normally; every dataset of a property has one number per frame,
computed from the stored fields of that frame; every dataset `fullres_<name>` has one number per frame, computed from the
state of that frame before it was stored. -/
theorem C143_every_frame (h : Resumed E a σ hw ns m1 S T1 T2 k l M)
    (hF : ArraySolver hw a.step_size a.dx a.grid_pts Good) (hM : k + m3 ≤ M)
    (hstop : StopsAfter2 E (a.continued T2) (restartTime E a l) (fun j => S (k + j)) m3)
    (hend : FloatOps.lt a.recording_start_time (timeAt E a (restartTime E a l) m3) = true)
    (hv : FramesDefined E.toEnv a.toArgs ns (resumedFrames2 E a S m1 k l m3)) (hfuel1 : m1 < fuel1) (hfuel2 : m3 < fuel2) :
    (run2 E (a.continued T2) fuel2 (run2 E (a.until T1) fuel1 σ).2).1 = .ok (some ()) ∧
    ∃ g, (run2 E (a.continued T2) fuel2 (run2 E (a.until T1) fuel1 σ).2).2.fs a.output_path = some g ∧
      (∀ key ∈ ["time", "density", "omega", "phi"], ∃ rows, g.dsets key = some (.rows (rowShape ns key) rows) ∧
        List.Forall₂ (fun fr row => IsFrameRow E.toEnv a.downsample_factor key fr.1 fr.2 row)
          (resumedFrames2 E a S m1 k l m3) rows) ∧
      (∀ name ∈ a.properties, ∃ vs : List α, g.dsets name = some (.flat (vs.map Casts.f32)) ∧
        List.Forall₂ (FromFrame E.toEnv a.toArgs ns name) (resumedFrames2 E a S m1 k l m3) vs) ∧
      ∀ name ∈ a.properties, ∃ rows, g.dsets ("fullres_" ++ name) = some (.rows .one rows) ∧
        List.Forall₂ (fun fr row => ∃ x, IsPropValue E a name fr.2 x ∧ row = .num (Casts.f32 x))
          (resumedFrames2 E a S m1 k l m3) rows := by
  obtain ⟨f, d, o, p, S', f1, hfile, hC, hsame⟩ := resumed_run h hF hM hstop hfuel1
  obtain ⟨σ2, g0, e1, e2, e3, e4, e5⟩ := continue2_before hC hfuel2
  have hw2 : written2 (a.continued T2) (timeAt E (a.continued T2) (restartTime E a l) m3)
      (stepFrames2 E (a.continued T2) (restartTime E a l) S' m3) = stepFrames2 E a (restartTime E a l) S' m3 := by
    have hend' : FloatOps.lt (a.continued T2).recording_start_time (timeAt E (a.continued T2) (restartTime E a l) m3) = true := hend
    unfold written2 flushes2
    simp only [hend', if_true]
    rfl
  rw [hw2] at e4 e5
  have hfr := stepFrames2_same (E := E) (a := a) (t0 := restartTime E a l) hsame
  have q1 : frames2 E (a.until T1) S m1 = (frameSteps E a m1).map fun it =>
    (timeAt E a (FloatOps.ofInt 0) it, recordedState a S it) := frames2_steps E (a.until T1) S m1
  rw [q1] at hfile
  have rows0 : ∀ key ∈ "time" :: fieldList, ∃ rows, g0.dsets key = some (.rows (rowShape ns key) rows) ∧
      List.Forall₂ (fun fr row => IsFrameRow E.toEnv a.downsample_factor key fr.1 fr.2 row)
        (resumedFrames2 E a S m1 k l m3) rows := by
    intro key hkey
    obtain ⟨r, r1, r2⟩ := hfile.rows key hkey
    obtain ⟨r', r3, r4⟩ := e4 key hkey
    have hro : f.rowsOf key = r := by
      unfold H5.rowsOf
      rw [r1]
    rw [hro] at r3
    refine ⟨_, r3, List.rel_append (R := fun (fr : α × NS (Cell α)) row =>
      IsFrameRow E.toEnv a.downsample_factor key fr.1 fr.2 row) r2 (forall₂_congr_left r4 hfr fun x y r hxy hr => ?_)⟩
    rw [← hxy.1]
    exact frameRow_same hkey (fun k hk => (hxy.2 k hk).symm) hr
  have props0 : ∀ name ∈ a.properties, ∃ rows, g0.dsets ("fullres_" ++ name) = some (.rows .one rows) ∧
      List.Forall₂ (fun fr row => ∃ x, IsPropValue E a name fr.2 x ∧ row = .num (Casts.f32 x))
        (resumedFrames2 E a S m1 k l m3) rows := by
    intro name hname
    obtain ⟨r, r1, r2⟩ := hfile.props name hname
    obtain ⟨r', r3, r4⟩ := e5 name hname
    have hro : f.rowsOf ("fullres_" ++ name) = r := by
      unfold H5.rowsOf
      rw [r1]
    rw [hro] at r3
    refine ⟨_, r3, List.rel_append (R := fun (fr : α × NS (Cell α)) row =>
      ∃ x, IsPropValue E a name fr.2 x ∧ row = Cell.num (Casts.f32 x : β)) r2 (forall₂_congr_left r4 hfr ?_)⟩
    rintro x y r hxy ⟨v, v1, v2⟩
    exact ⟨v, propValue_same (fun k hk => (hxy.2 k hk).symm) v1, v2⟩
  obtain ⟨c1, g, c2, c3, c4⟩ := final_fromFrames (a := a.continued T2) (ns := ns) (E := E) e2
    (fun k => by rw [e3]; exact hfile.attrs k) h.first.buffer
    (fun k hk => rows0 k (List.mem_cons_of_mem _ hk)) hv
  rw [← e1] at c1 c2
  refine ⟨c1, g, c2, fun key hkey => ?_, c4, fun name hname => ?_⟩
  · obtain ⟨r, r1, r2⟩ := rows0 key hkey
    exact ⟨r, (c3 key fun hk => (h.names _ hk).1 hkey).trans r1, r2⟩
  · obtain ⟨r, r1, r2⟩ := props0 name hname
    exact ⟨r, (c3 _ fun hk => (h.names _ hk).2.1 _ rfl).trans r1, r2⟩

end files

section float
variable {u : ℝ} {R : Rounded u} {β : Type} [Casts (Rd R) β] [Inhabited β]

/-- the steps of the computation that the frames of a continued file show: the recorded ones of the first call, then those of
the second, counted from the step `k` it starts from -/
noncomputable def shownSteps (E : Env2 (Rd R) β) (a : Args2 (Rd R)) (count1 k l count2 : ℕ) : List ℕ :=
  floatRecorded E a count1 ++ (continuedSteps E a (storedTime E a l) count2).map (k + ·)

/-- the frames of a continued file, by number -/
theorem resumedFrames2_float (E : Env2 (Rd R) β) (a : Args2 (Rd R)) (S : ℕ → NS (Cell (Rd R))) (m1 k l m3 : ℕ) :
    (resumedFrames2 E a S m1 k l m3).map (·.2) = (shownSteps E a m1 k l m3).map (recordedState a S) := by
  unfold resumedFrames2 shownSteps
  rw [restart_stored, stepFrames2_float, frameSteps_float, List.map_append, List.map_append, List.map_map, List.map_map,
    List.map_map]
  congr 1
  refine List.map_congr_left fun j hj => ?_
  unfold continuedSteps at hj
  rw [List.mem_filter, List.mem_range'_1] at hj
  exact (if_neg (by omega : k + j ≠ 0)).symm

end float

/-- **C143, accuracy.** Let `n, w, p` be a smooth solution of the Hasegawa–Wakatani equations with the original coupling on the
box `[0, L]²` and the interval `[0, T]`.  There is one constant `C` such that for every grid size there are a `δ > 0` and an `M`
with: let a call of `run2` until `T1` and a call that continues its file until `T2` be as in C137, now with a list of properties,
computed from the file with accuracy `ε ≤ δ` as in C139, and numbers stored with relative error `v ≤ δ`.  The second call
returns normally, and afterwards the dataset of every property has one number per frame of the file.  The number of a frame
that shows a step `q ≥ 1` is, before it is rounded to be stored, within `C dx²` of the physical quantity of that name of the
solution at the time `q step_size`, whether the first or the second call has written the frame.  If the properties recorded
during the simulation are computed as in C138, the same holds for the datasets `fullres_<name>`. -/
theorem C143_continued_properties_partial (P : Params) (hnu : 0 ≤ P.nu) (hzonal : P.zonal = false) {L T B : ℝ} {r : ℕ} (hT : 0 ≤ T)
    (hL : 0 < L) (hr : 4 ≤ r) (hr' : 2 * P.N + 2 ≤ r) {nf wf pf : ℝ → ℕ → ℕ → ℝ → ℝ → ℝ}
    (H : HWSolution P L L T r B nf wf pf) :
    ∃ C, 0 ≤ C ∧ ∀ (m : ℕ) (b : Backend), 0 < m → Std b m m →
      ∃ δ M, 0 < δ ∧ ∀ (u : ℝ) (R : Rounded u) (A : Gen.Arith (Rd R)) (η θ v ε : ℝ), 0 ≤ u → 0 ≤ η → u ≤ θ → θ ≤ 1 / 4 →
        0 ≤ v → v ≤ δ → ε ≤ δ →
        ∀ (β : Type) (_ : Casts (Rd R) β) (_ : Inhabited β) (E : Env2 (Rd R) β) (a : Args2 (Rd R)) (σ : St (Rd R) β) (T1 T2 : Rd R),
        (∀ x : Rd R, |(Casts.f64 (Casts.f32 x : β) : Rd R).val - x.val| ≤ v * |x.val|) →
        Accurate A b η m m a.dx → AccurateProps E.props a.k0 a.dx a.c1 ε M m →
        FloatPoses2 E A (a.until T1) σ P L (nf 0 0 0) (wf 0 0 0) (u + η) θ m →
        a.step_size.val ≤ δ → u + η ≤ δ * a.step_size.val → (∀ name ∈ a.properties, name ∈ propertyTable) →
        a.saveState = true → (1 + u) * (a.recording_start_time.val + 1 / 20000) < T2.val →
        ∀ count1, IsLeast {k : ℕ | T1.val ≤ round4R R (stamp E a k)} count1 →
        ∀ n, n = (floatRecorded E a count1).length → a.buffer_length ≤ n →
        ∃ k l count2, (floatRecorded E a count1)[a.buffer_length * (n / a.buffer_length) - 1]? = some k ∧
          (floatRecorded E a count1).getLast? = some l ∧ (a.buffer_length ∣ n → k = l) ∧
          IsLeast {j : ℕ | T2.val ≤ round4R R (stampFrom E a (storedTime E a l) j)} count2 ∧
          ∀ fuel1 fuel2, count1 < fuel1 → count2 < fuel2 →
          ∃ f : H5 (Rd R) β, (run2 E (a.until T1) fuel1 σ).2.fs a.output_path = some f ∧
          -- the stored states do not vanish
          ((∀ key ∈ ["density", "omega"], ∀ X, f.dsets ("state_" ++ key) = some (.full X) → E.allZero (.arr X) = false) →
          (run2 E (a.continued T2) fuel2 (run2 E (a.until T1) fuel1 σ).2).1 = .ok (some ()) ∧
          ∃ g : H5 (Rd R) β,
            (run2 E (a.continued T2) fuel2 (run2 E (a.until T1) fuel1 σ).2).2.fs a.output_path = some g ∧
            ∀ name ∈ a.properties, ∃ vs ws : List (Rd R), g.dsets name = some (.flat (vs.map Casts.f32)) ∧
              g.dsets ("fullres_" ++ name) = some (.rows .one (ws.map fun w => .num (Casts.f32 w))) ∧
              vs.length = (shownSteps E a count1 k l count2).length ∧ ws.length = (shownSteps E a count1 k l count2).length ∧
              ((name = "gamma_n_spectral" → Even m) →
                ∀ i q : ℕ, (shownSteps E a count1 k l count2)[i]? = some q → q ≠ 0 → ∀ t, t = (q : ℝ) * a.step_size.val → t ≤ T →
                  (∃ x : Rd R, vs[i]? = some x ∧ |x.val - physical L L P.c1 (nf t) (wf t) (pf t) name| ≤ C * a.dx.val ^ 2) ∧
                  ∀ Z, AccurateSpectra Z η m a.dx → E.propertyFn = Gen.propertyFncs A Z →
                    ∃ x : Rd R, ws[i]? = some x ∧ |x.val - physical L L P.c1 (nf t) (wf t) (pf t) name| ≤ C * a.dx.val ^ 2)) := by
  obtain ⟨K, hK, HK⟩ := float_core P hnu hT hL hr hr' H
  obtain ⟨C1, hC1, HC⟩ := stored_core P hT hL hr H hK
  obtain ⟨C2, hC2, HD⟩ := measured_core P hT hL hr H hK
  refine ⟨max C1 C2, le_max_of_le_left hC1, fun m b hm hb => ?_⟩
  obtain ⟨δ1, hδ1, HK⟩ := HK m b hm hb
  obtain ⟨δ2, M, hδ2, HC⟩ := HC m b hm hb
  obtain ⟨δ3, hδ3, HD⟩ := HD m b hm hb
  refine ⟨min (min δ1 (min δ2 δ3)) (1 / 4), M, by positivity, ?_⟩
  intro u R A η θ v ε u0 η0 hu hθ v0 hv hε β _ _ E a σ T1 T2 hcast hA hE hp hle hprec hnames hsave hT2 count1 hc1 n hn hbuf
  have hdt : 0 < a.step_size.val := hp.step
  have c1' : min (min δ1 (min δ2 δ3)) (1 / 4) ≤ δ1 := (min_le_left _ _).trans (min_le_left _ _)
  have c2' : min (min δ1 (min δ2 δ3)) (1 / 4) ≤ δ2 := (min_le_left _ _).trans ((min_le_right _ _).trans (min_le_left _ _))
  have c3' : min (min δ1 (min δ2 δ3)) (1 / 4) ≤ δ3 := (min_le_left _ _).trans ((min_le_right _ _).trans (min_le_right _ _))
  have l2 : a.step_size.val ≤ 1 := hle.trans ((min_le_right _ _).trans (by norm_num))
  have p1 : u + η ≤ δ1 * a.step_size.val := hprec.trans (mul_le_mul_of_nonneg_right c1' hdt.le)
  have p2 : u + η ≤ δ2 :=
    (hprec.trans (mul_le_mul_of_nonneg_right c2' hdt.le)).trans (mul_le_of_le_one_right hδ2.le l2)
  have p3 : u + η ≤ δ3 :=
    (hprec.trans (mul_le_mul_of_nonneg_right c3' hdt.le)).trans (mul_le_of_le_one_right hδ3.le l2)
  obtain ⟨X, hX, hX'⟩ := hp.density
  obtain ⟨Y, hY, hY'⟩ := hp.omega
  obtain ⟨V, hV, hV'⟩ := hp.phi
  obtain ⟨-, Z, x, hZ, x0, x1, x2, hx⟩ := HK u R A η u0 η0 a.dx a.step_size hp.spacing hp.step hA (hle.trans c1') p1 X Y hX' hY'
  have htable : ∀ name ∈ propertyTable, name ∉ ["time", "density", "omega", "phi"] ∧
      ∀ k ∈ ["density", "omega", "phi"], name ≠ "state_" ++ k := by
    decide
  have hnames' : ∀ name ∈ a.properties, name ∉ ["time", "density", "omega", "phi"] ∧ (∀ n', name ≠ "fullres_" ++ n') ∧
      ∀ k ∈ ["density", "omega", "phi"], name ≠ "state_" ++ k := fun name hname =>
    ⟨(htable _ (hnames _ hname)).1, fun n' h => fullres_not_propertyName n' (h ▸ hnames _ hname), (htable _ (hnames _ hname)).2⟩
  obtain ⟨S, k, l, count2, hS, hk, hl, hlast, hcount2, hsol, hstop, hend2, H2⟩ := resumed2_float (T2 := T2) hp u0 hu hθ
    (hv.trans (min_le_right _ _)) hcast hm hzonal hA hX ⟨hX'.1, hX'.2.1⟩ hY ⟨hY'.1, hY'.2.1⟩ hZ x0 x1 x2 hsave hnames' hT2 hc1 hn hbuf
  refine ⟨k, l, count2, hk, hl, hlast, hcount2, fun fuel1 fuel2 hf1 hf2 => ?_⟩
  obtain ⟨f, f1, hres⟩ := H2 fuel1 hf1
  refine ⟨f, f1, fun hnz => ?_⟩
  have hfull : a.downsample_factor.val = 1 := hp.full
  have hfr := resumedFrames2_float E a S count1 k l count2
  -- the fields of every frame
  have hfield : ∀ fr ∈ resumedFrames2 E a S count1 k l count2, ∀ k ∈ ["density", "phi", "omega"], ∃ W : Arr (Rd R),
      fr.2.get? k = some (.arr W) ∧ W.h = m ∧ W.w = m := by
    intro fr hmem k' hk
    have hmem := List.mem_map_of_mem (f := (·.2)) hmem
    rw [hfr] at hmem
    obtain ⟨q, -, hq⟩ := List.mem_map.1 hmem
    rw [← hq]
    simp only [List.mem_cons, List.not_mem_nil, or_false] at hk
    unfold recordedState
    split
    · rcases hk with rfl | rfl | rfl
      · exact ⟨X, by rw [← hX]; rfl, hX'.1, hX'.2.1⟩
      · exact ⟨V, by rw [← hV]; rfl, hV'⟩
      · exact ⟨Y, by rw [← hY]; rfl, hY'.1, hY'.2.1⟩
    · obtain ⟨S1, S2, S3⟩ := hS q
      obtain ⟨q1, q2, q3⟩ := x1 q
      rcases hk with rfl | rfl | rfl
      · exact ⟨_, S1, q1⟩
      · exact ⟨_, S3, q3⟩
      · exact ⟨_, S2, q2⟩
  have hdef : FramesDefined E.toEnv a.toArgs m (resumedFrames2 E a S count1 k l count2) := by
    refine fun name hname => ⟨hnames _ hname, fun fr hmem n p o hn hp ho => ?_⟩
    obtain ⟨N, n1, n2⟩ := hfield fr hmem "density" (by simp)
    obtain ⟨Q, q1, q2⟩ := hfield fr hmem "phi" (by simp)
    obtain ⟨O, o1, o2⟩ := hfield fr hmem "omega" (by simp)
    rw [frameRow_full hfull (by decide) hn n1, frameRow_full hfull (by decide) hp q1, frameRow_full hfull (by decide) ho o1,
      hE.spacing]
    exact hE.returns _ _ _ n2 q2 o2 name (hnames _ hname)
  obtain ⟨g0, g, g1, -, g3, g4⟩ := C143_every_frame (hres hnz) hsol le_rfl hstop hend2 hdef hf1 hf2
  refine ⟨g0, g, g1, fun name hname => ?_⟩
  obtain ⟨vs, v1, v2⟩ := g3 name hname
  obtain ⟨rows, w1, w2⟩ := g4 name hname
  obtain ⟨ws, rfl, w3⟩ := forall₂_choose (P := fun (fr : Rd R × NS (Cell (Rd R))) w => IsPropValue E a name fr.2 w)
    (g := fun w => Cell.num (Casts.f32 w : β)) w2
  have hlen : (resumedFrames2 E a S count1 k l count2).length = (shownSteps E a count1 k l count2).length := by
    rw [← List.length_map (f := (·.2)), hfr, List.length_map]
  refine ⟨vs, ws, v1, w1, by rw [← v2.length_eq, hlen], by rw [← w3.length_eq, hlen], fun hev i q hiq hq0 t ht htT => ?_⟩
  have hil : i < (resumedFrames2 E a S count1 k l count2).length := by
    rw [hlen]
    exact (List.getElem?_eq_some_iff.1 hiq).1
  have hst : (resumedFrames2 E a S count1 k l count2)[i].2 = S q := by
    have e1 : ((resumedFrames2 E a S count1 k l count2).map (·.2))[i]? = some (resumedFrames2 E a S count1 k l count2)[i].2 := by
      rw [List.getElem?_map, List.getElem?_eq_getElem hil]
      rfl
    rw [hfr, List.getElem?_map, hiq] at e1
    have e2 := Option.some.inj e1
    unfold recordedState at e2
    rw [if_neg hq0] at e2
    exact e2.symm
  obtain ⟨S1, S2, S3⟩ := hS q
  have hc1 : a.c1 = ⟨P.c1⟩ := by
    have : a.c1.val = P.c1 := hp.c1
    rw [← this]
  obtain ⟨b1, b2, -⟩ := hx (Rd R) ⟨id, id⟩ inferInstance 0 le_rfl (fun y => by change |y.val - y.val| ≤ _; simp) q
    (Nat.pos_of_ne_zero hq0) t ht htT
  obtain ⟨b1, b1'⟩ := stored_id b1
  obtain ⟨b2, b2'⟩ := stored_id b2
  have hphi : Gen.get_phi A (x q).omega a.dx = .ok (x q).phi := by
    obtain ⟨q', rfl⟩ := Nat.exists_eq_succ_of_ne_zero hq0
    exact gen_rk4_phi (x2 q')
  have t0 : 0 ≤ t := by rw [ht]; positivity
  have hmono : ∀ c, c ≤ max C1 C2 → c * a.dx.val ^ 2 ≤ max C1 C2 * a.dx.val ^ 2 := fun c hc =>
    mul_le_mul_of_nonneg_right hc (by positivity)
  refine ⟨?_, fun Z' hZ' hfn => ?_⟩
  · have hiv : i < vs.length := by rw [← v2.length_eq]; exact hil
    refine ⟨vs[i], List.getElem?_eq_getElem hiv, ?_⟩
    obtain ⟨n', p', o', r1, r2, r3, r4⟩ := forall₂_at v2 hil hiv
    rw [hst] at r1 r2 r3
    have r4 : E.props.value name (E.props.dx (.num a.k0) (.int m)) (.num a.c1) n' p' o' = .ok vs[i] := r4
    rw [frameRow_full hfull (by decide) r1 S1, frameRow_full hfull (by decide) r2 S3, frameRow_full hfull (by decide) r3 S2,
      hE.spacing, hc1] at r4
    rw [hc1] at hE
    obtain ⟨w, k1, k2⟩ := HC u R A η v ε u0 η0 p2 v0 (hv.trans c2') (hε.trans c2') β _ _ E.props a.k0 a.dx hcast hp.spacing hA hE
      t t0 htT (x q) (x1 _).1 (x1 _).2.1 hphi b1 b2 b1' b2' name (hnames _ hname) hev
    rw [r4] at k1
    rw [Except.ok.inj k1]
    exact k2.trans (hmono _ (le_max_left _ _))
  · have hiv : i < ws.length := by rw [← w3.length_eq]; exact hil
    refine ⟨ws[i], List.getElem?_eq_getElem hiv, ?_⟩
    obtain ⟨F, n', p', o', r0, r1, r2, r3, r4⟩ := forall₂_at w3 hil hiv
    rw [hst] at r1 r2 r3
    rw [S1] at r1
    rw [S3] at r2
    rw [S2] at r3
    have r1 := Option.some.inj r1
    have r2 := Option.some.inj r2
    have r3 := Option.some.inj r3
    subst r1 r2 r3
    rw [hfn, gen_propertyFncs_eq A Z' (hnames _ hname)] at r0
    have r0 := Option.some.inj r0
    subst r0
    have r4' : Gen.propValue A Z' name a.dx ⟨P.c1⟩ (x q).density (x q).phi (x q).omega = .ok ws[i] := by
      rw [← hc1]; exact r4
    obtain ⟨w, k1, k2⟩ := HD u R A Z' η u0 η0 p3 a.dx hp.spacing hA hZ' t t0 htT (x q) (x1 q).1 (x1 q).2.1
      hphi b1 b2 b1' b2' name (hnames _ hname) hev
    rw [r4'] at k1
    rw [Except.ok.inj k1]
    exact k2.trans (hmono _ (le_max_right _ _))

/-! ### non-vacuity -/

section examples

attribute [local instance] exactOps

/-- the environment of the example of C136, with a property that can be computed from the fields -/
def cornerEnv2 : Env2 ℚ ℚ := { splitEnv with props := cornerEnv.props }

theorem corner_resumed2 : Resumed cornerEnv2 (bufArgs 2) noFiles splitSolver 2 4 splitStates 2 4 2 4 6 :=
  let h := buf_resumed (L := 2) (by decide) (by decide) (k := 2) (by decide) (by decide) (T2 := 4) (M := 6) (by decide)
  { h with
    first := { h.first with
      saves := ⟨h.first.saves.dim, h.first.saves.down⟩
      stops := ⟨h.first.stops.before, h.first.stops.noNaN, h.first.stops.stop⟩ } }

/-- a buffer of length 2: the states are stored at step 2, the last frame is that of step 4; continued until time 4, with
`gamma_n` -/
example := C143_every_frame corner_resumed2 (split_arraySolver _ _) le_rfl
  ⟨(buf_stops 2 (k := 2) (by decide)).before, (buf_stops 2 (k := 2) (by decide)).noNaN, (buf_stops 2 (k := 2) (by decide)).stop⟩
  (by
    have e : timeAt cornerEnv2 (bufArgs 2) (restartTime cornerEnv2 (bufArgs 2) 4) 4
      = timeAt splitEnv (bufArgs 2) (restartTime splitEnv (bufArgs 2) 4) 4 := rfl
    rw [e, buf_restart, split_time]
    have : (0 : ℚ) < 2 + (4 : ℕ) * (1 / 2) := by norm_num
    exact decide_eq_true this)
  (by
    intro name hn
    obtain rfl := List.mem_singleton.mp hn
    refine ⟨by decide, fun fr _ n p o h1 h2 h3 => ?_⟩
    have e : ∀ {key : String} {c : Cell ℚ}, key ≠ "time" →
        IsFrameRow cornerEnv2.toEnv (bufArgs 2).downsample_factor key fr.1 fr.2 c → ∃ W, c = .arr W := by
      intro key c hk h
      unfold IsFrameRow at h
      rw [if_neg hk] at h
      obtain ⟨_, W, -, -, h⟩ := h
      exact ⟨_, h⟩
    obtain ⟨_, rfl⟩ := e (by decide) h1
    obtain ⟨_, rfl⟩ := e (by decide) h2
    obtain ⟨_, rfl⟩ := e (by decide) h3
    exact ⟨_, rfl⟩)
  (fuel1 := 9) (fuel2 := 9) (by decide) (by decide)

end examples

noncomputable def rdArgs4 {u : ℝ} (R : Rounded u) (m : ℕ) (dt : ℝ) : Args2 (Rd R) :=
  { rdArgs3 R m dt with properties := propertyTable }

/-- the growing particle flux of the drift wave until time 2, continued until time 4: computed from the file, and recorded
during the simulation -/
example : ∃ C, ∀ m : ℕ, 0 < m → ∃ dt : ℝ, 0 < dt ∧ ∃ (p q : ℕ) (A : Gen.Arith (Rd (Rounded.binary p))) (l count1 count2 : ℕ),
    ∀ fuel1 fuel2, count1 < fuel1 → count2 < fuel2 → ∃ (g : H5 (Rd (Rounded.binary p)) (Rd (Rounded.binary q)))
      (vs ws : List (Rd (Rounded.binary p))),
      let _ := rdBits (Rounded.binary p) q
      (run2 (rdEnvS q A) ((rdArgs4 (Rounded.binary p) m dt).continued ⟨4⟩) fuel2
        (run2 (rdEnvS q A) ((rdArgs4 (Rounded.binary p) m dt).until ⟨2⟩) fuel1 ⟨fun _ => none, []⟩).2).2.fs "run.h5" = some g ∧
      g.dsets "gamma_n" = some (.flat (vs.map Casts.f32)) ∧
      g.dsets "fullres_gamma_n" = some (.rows .one (ws.map fun w => .num (Casts.f32 w))) ∧
      ∀ i s : ℕ, (shownSteps (rdEnvS q A) (rdArgs4 (Rounded.binary p) m dt) count1 l l count2)[i]? = some s → s ≠ 0 →
        (s : ℝ) * dt ≤ 5 → ∃ x y : Rd (Rounded.binary p), vs[i]? = some x ∧ ws[i]? = some y ∧
          |x.val - 2 / 3 * amp (s * dt) ^ 2| ≤ C * (2 * Real.pi / m) ^ 2 ∧
          |y.val - 2 / 3 * amp (s * dt) ^ 2| ≤ C * (2 * Real.pi / m) ^ 2 := by
  obtain ⟨C, -, H⟩ := C143_continued_properties_partial _ (by norm_num) rfl (by norm_num) (by positivity) le_rfl (by norm_num)
    (drift_wave 5)
  refine ⟨C, fun m hm => ?_⟩
  obtain ⟨δ, M, hδ, H⟩ := H m numpyBackend hm (.inl rfl)
  obtain ⟨κ, hκ, Hκ⟩ := rdProps_accurate hm M δ hδ
  obtain ⟨p, A, η, η0, hp, hA⟩ := C103_arithmetic_exists (hw := HW.init numpyBackend 1 1 1 1 1) (h := m) (w := m) hm hm (.inl rfl)
    (2 * Real.pi / m) (min (min (δ * δ) κ) (1 / 28)) (by positivity)
  obtain ⟨q, hq⟩ := exists_pow_lt_of_lt_one hδ (by norm_num : (1 / 2 : ℝ) < 1)
  have hq' : (2 : ℝ) ^ (-(q : ℤ)) ≤ δ := by
    rw [zpow_neg, zpow_natCast, ← inv_pow]
    rw [one_div] at hq
    exact hq.le
  have u0 : (0 : ℝ) ≤ 2 ^ (-(p : ℤ)) := by positivity
  have hs : 28 * ((2 : ℝ) ^ (-(p : ℤ)) + η) ≤ 1 := by linarith [hp.trans (min_le_right _ _)]
  have hu : (2 : ℝ) ^ (-(p : ℤ)) ≤ 1 / 4 := by linarith
  have hd := hp.trans ((min_le_left _ _).trans (min_le_left _ _))
  have hk := hp.trans ((min_le_left _ _).trans (min_le_right _ _))
  have h0 := rd_poses3 A m hm δ (2 ^ (-(p : ℤ)) + η) hδ (by positivity) hu
  have h1 := rd_posesP A m hm δ η hδ u0 η0 hs hA
  let _ := rdBits (Rounded.binary p) q
  have hpose : FloatPoses2 (rdEnvS q A) A ((rdArgs4 (Rounded.binary p) m δ).until ⟨2⟩) ⟨fun _ => none, []⟩
      ⟨0, 1, 3, 1 / 10, 1, 40 / 3, false⟩ (2 * Real.pi) (modeFam (5 / 3 * amp 0) (4 / 3 * amp 0) (4 * 0) 0 0)
      (modeFam (- amp 0) 0 (4 * 0) 0 0) (2 ^ (-(p : ℤ)) + η) (1 / 4) m :=
    { h0 with sim := rfl, attr := fun _ => rfl, flag := fun _ => rfl, nan := fun _ => rfl, fresh := .inl rfl, sum := h0.sum,
              props := h1.props, names := h1.names, nodup := h1.nodup }
  classical
  have hex := stamp_reaches hpose u0 hu le_rfl
  obtain ⟨k, l, count2, -, -, hkl, -, H⟩ := H _ (Rounded.binary p) A η (1 / 4) (2 ^ (-(q : ℤ))) δ u0 η0 hu le_rfl (by positivity) hq'
    le_rfl _ (rdBits _ q) inferInstance (rdEnvS q A) (rdArgs4 (Rounded.binary p) m δ) ⟨fun _ => none, []⟩ ⟨2⟩ ⟨4⟩
    (fun x => nearest_err q x.val) hA (Hκ _ _ A η q u0 η0 hk hA) hpose le_rfl hd (fun _ h => h) rfl
    (by change (1 + (2 : ℝ) ^ (-(p : ℤ))) * ((0 : ℝ) + 1 / 20000) < 4; nlinarith)
    (Nat.find hex) ⟨Nat.find_spec hex, fun j hj => Nat.find_min' hex hj⟩ _ rfl
    (by simp [floatRecorded, rdArgs4, rdArgs3])
  obtain rfl : k = l := hkl (by simp [rdArgs4, rdArgs3])
  refine ⟨δ, hδ, p, q, A, k, Nat.find hex, count2, fun fuel1 fuel2 h1 h2 => ?_⟩
  obtain ⟨f, f1, H⟩ := H fuel1 fuel2 h1 h2
  obtain ⟨-, g, g1, H⟩ := H fun _ _ _ _ => rfl
  obtain ⟨vs, ws, r1, r2, -, -, r3⟩ := H "gamma_n" (by change _ ∈ propertyTable; decide)
  refine ⟨g, vs, ws, g1, r1, r2, fun i s hi hs0 hsT => ?_⟩
  obtain ⟨⟨x, x1, x2⟩, r4⟩ := r3 (fun h => absurd h (by decide)) i s hi hs0 _ rfl hsT
  obtain ⟨y, y1, y2⟩ := r4 (exactSpectra _) (exactSpectra_accurate _ η0 hm _) rfl
  have x2 : |_ - physical (2 * Real.pi) (2 * Real.pi) 3 _ _ _ "gamma_n"| ≤ _ := x2
  have y2 : |_ - physical (2 * Real.pi) (2 * Real.pi) 3 _ _ _ "gamma_n"| ≤ _ := y2
  rw [wave_flux] at x2 y2
  exact ⟨x, y, x1, y1, x2, y2⟩

end Verif.Props
