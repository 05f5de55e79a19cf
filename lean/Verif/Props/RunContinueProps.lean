import Verif.Props.RunContinueFloat

/-!
# Property theorems C142: the properties of a continued file of `run`
-/

set_option linter.unusedSectionVars false

namespace Verif.Props

open H5IO H5 Run Arr Spec Set Rounding RunProperties

section files
variable {α β : Type} [Casts α β] [Zero α] [Inhabited α] [Inhabited β] [FloatOps α]
  {E : Env α β} {a : Args α} {σ : St α β} {hw : Solver α} {ns m1 m3 k l M : ℕ} {steps1 steps : ℤ}
  {S : ℕ → NS (Cell α)} {T1 T2 : α} {Good : NS (Cell α) → Prop}

/-- the frames (time, state) of a file that `run` has continued: those of the `m1` steps of the first call and those of the
`m3` steps of the second, which starts at step `k` -/
def resumedFrames (a : Args α) (S : ℕ → NS (Cell α)) (m1 k m3 : ℕ) : List (α × NS (Cell α)) :=
  frames a S m1 ++ ((List.range' 1 m3).filter (isRecorded a)).map fun j => (stepTime a j, S (k + j))

/-- the end of `run`: the properties of the frames `frs` of its file -/
theorem calculate_fromFrames {frs : List (α × NS (Cell α))} {g : H5 α β} (hσ : σ.fs a.output_path = some g)
    (hat : ∀ k, g.attrs k = (runParams a ns).get? k) (hb : 1 ≤ a.buffer_length)
    (hrows : ∀ k ∈ fieldList, ∃ rows, g.dsets k = some (.rows (rowShape ns k) rows) ∧
      List.Forall₂ (fun fr row => IsFrameRow E a.downsample_factor k fr.1 fr.2 row) frs rows)
    (hv : FramesDefined E a ns frs) :
    let io := (if !a.properties.isEmpty then calculate_properties E.props a.output_path a.buffer_length a.properties true
      else pure () : IOM α β Unit)
    (io σ).1 = .ok () ∧ ∃ f, (io σ).2.fs a.output_path = some f ∧ ∀ name ∈ a.properties, ∃ vs : List α,
      f.dsets name = some (.flat (vs.map Casts.f32)) ∧ List.Forall₂ (FromFrame E a ns name) frs vs := by
  intro io
  obtain ⟨n, n1, n2⟩ := hrows "density" (by simp [fieldList])
  obtain ⟨p, p1, p2⟩ := hrows "phi" (by simp [fieldList])
  obtain ⟨o, o1, o2⟩ := hrows "omega" (by simp [fieldList])
  have hlen := n2.length_eq
  have hf : RunFile g (.num a.k0) (.int ns) (.num a.c1) n p o := by
    refine ⟨?_, ?_, ?_, ⟨.num (FloatOps.mul a.step_size (FloatOps.ofInt a.snaps)), ?_⟩, ⟨_, n1⟩, ⟨_, p1⟩, ⟨_, o1⟩,
      p2.length_eq.symm.trans hlen, o2.length_eq.symm.trans hlen⟩
    iterate 4
      · rw [hat]
        unfold runParams get_save_params
        simp only [NS.get?_set]
        simp [Args.physics, NS.get?]
  by_cases hp : a.properties = []
  · have e : io = pure () := by simp only [io, hp]; rfl
    rw [e, hp]
    exact ⟨rfl, _, hσ, by simp⟩
  · have hnm : ∀ k, k ∈ ["density", "phi", "omega"] → k ∉ a.properties := by
      intro k hk hka
      have := (hv k hka).1
      simp only [List.mem_cons, List.not_mem_nil, or_false] at hk
      rcases hk with rfl | rfl | rfl <;> simp [Spec.propertyTable] at this
    obtain ⟨σ'', f, c1, c2, -, c4, -⟩ := C56_batch_independent E.props a.output_path σ _ hσ _ _ _ n p o hf
      a.properties ⟨hnm _ (by simp), hnm _ (by simp), hnm _ (by simp)⟩ true (fun name _ h2 i hi =>
        (hv name h2).2 _ (List.getElem_mem (hlen ▸ hi)) _ _ _ (forall₂_at n2 _ hi) (forall₂_at p2 (hlen ▸ hi) _)
          (forall₂_at o2 (hlen ▸ hi) _))
      a.buffer_length hb
    have e : io = calculate_properties E.props a.output_path a.buffer_length a.properties true := if_pos (by simpa using hp)
    rw [e, c1]
    refine ⟨rfl, f, c2, fun name hname => ?_⟩
    obtain ⟨vs, d1, d2, d3⟩ := c4 name hname (hv name hname).1 (Or.inl rfl)
    refine ⟨vs, d1, List.forall₂_iff_get.2 ⟨by rw [d2, hlen], fun i hi hi' => ?_⟩⟩
    have hin : i < n.length := hlen ▸ hi
    exact ⟨_, _, _, forall₂_at n2 hi hin, forall₂_at p2 hi (by rw [← p2.length_eq]; exact hi),
      forall₂_at o2 hi (by rw [← o2.length_eq]; exact hi), d3 i hin⟩

/-- **C142.** A call of `run` that continues a file as in C140 computes its properties again for all frames of the file, in
every arithmetic: it returns normally, and every dataset of a property has one number per frame of the file, old or new,
computed from the fields of that frame. -/
theorem C142_every_frame (h : RunResumed E a σ hw ns steps1 m1 S T1 T2 k l M steps)
    (hF : ArraySolver hw a.step_size a.dx a.grid_pts Good) (hM : k + m3 ≤ M)
    (hstop : StopsAfter E (fun j => S (k + j)) steps.toNat m3)
    (hv : FramesDefined E a ns (resumedFrames a S m1 k m3)) :
    (run E (a.continued T2) (run E (a.until T1) σ).2).1 = .ok () ∧
    ∃ g, (run E (a.continued T2) (run E (a.until T1) σ).2).2.fs a.output_path = some g ∧
      (∀ key ∈ ["time", "density", "omega", "phi"], ∃ rows, g.dsets key = some (.rows (rowShape ns key) rows) ∧
        List.Forall₂ (fun fr row => IsFrameRow E a.downsample_factor key fr.1 fr.2 row) (resumedFrames a S m1 k m3) rows) ∧
      ∀ name ∈ a.properties, ∃ vs : List α, g.dsets name = some (.flat (vs.map Casts.f32)) ∧
        List.Forall₂ (FromFrame E a ns name) (resumedFrames a S m1 k m3) vs := by
  obtain ⟨f, d, o, p, S', f1, fa, frows, hC, hsame⟩ := run_resumed h hF hM hstop
  obtain ⟨σ', g0, e1, e2, -, e4, e5⟩ := continue_before hC
  have conv : ∀ (g : H5 α β) (key : String), key ∈ "time" :: fieldList →
      (∃ rows, g.dsets key = some (.rows (rowShape ns key) (f.rowsOf key ++ rows)) ∧
        List.Forall₂ (fun fr row => IsFrameRow E a.downsample_factor key fr.1 fr.2 row) (continuedFrames (a.continued T2) S' m3) rows) →
      ∃ rows, g.dsets key = some (.rows (rowShape ns key) rows) ∧
      List.Forall₂ (fun fr row => IsFrameRow E a.downsample_factor key fr.1 fr.2 row) (resumedFrames a S m1 k m3) rows := by
    rintro g key hkey ⟨r', r3, r4⟩
    obtain ⟨r, r1, r2⟩ := frows key hkey
    have hro : f.rowsOf key = r := by
      unfold H5.rowsOf
      rw [r1]
    rw [hro] at r3
    refine ⟨_, r3, ?_⟩
    unfold resumedFrames
    rw [frames_steps]
    refine List.rel_append (List.forall₂_map_left_iff.2 r2) (List.forall₂_map_left_iff.2 ?_)
    unfold continuedFrames at r4
    rw [List.forall₂_map_left_iff] at r4
    have r4 : List.Forall₂ (fun j row => IsFrameRow E a.downsample_factor key (stepTime a j) (S' j) row)
        ((List.range' 1 m3).filter (isRecorded a)) r' := r4
    refine forall₂_congr_left r4 (D := fun x y => x = y ∧ x ≤ m3) ?_ ?_
    · rw [List.forall₂_same]
      intro j hj
      rw [List.mem_filter, List.mem_range'_1] at hj
      exact ⟨rfl, by omega⟩
    · rintro j _ r ⟨rfl, hj⟩ hr
      exact frameRow_same hkey (fun key hk => (hsame j hj key hk).symm) hr
  obtain ⟨c1, g, c2, c3⟩ := calculate_fromFrames (a := a) (ns := ns) e2 (fun k => by rw [e4]; exact fa k) h.first.buffer
    (fun k hk => conv g0 k (List.mem_cons_of_mem _ hk) (e5 k (List.mem_cons_of_mem _ hk))) hv
  have e1' : run E (a.continued T2) (run E (a.until T1) σ).2 =
    (if !a.properties.isEmpty then calculate_properties E.props a.output_path a.buffer_length a.properties true
      else pure () : IOM α β Unit) σ' := e1
  rw [← e1'] at c1 c2
  obtain ⟨g', g1, -, -, -, g4⟩ := continue_result hC
  obtain rfl : g' = g := Option.some.inj (g1.symm.trans c2)
  exact ⟨c1, g', c2, fun key hkey => conv g' key hkey (g4 key hkey fun hk => (h.names _ hk).1 hkey), c3⟩

end files

section float
variable {u : ℝ} {R : Rounded u}

/-- the step of the computation that frame `i` of a continued file shows: the frames of the first call are those of the
multiples of `snaps`, and those of the second follow the step at which the states were stored -/
noncomputable def frameStep (a : Args (Rd R)) (i : ℕ) : ℕ :=
  if i < floatFrames a then i * a.snaps else storedStep a + (i + 1 - floatFrames a) * a.snaps

/-- the frames of a continued file, by number -/
theorem resumedFrames_float {a : Args (Rd R)} {S : ℕ → NS (Cell (Rd R))} (T1 : Rd R) (n : ℕ) (hu : u ≤ 1) (hs : 0 < a.step_size.val)
    (h0 : a.recording_start_time.val = 0) (hsn1 : 1 ≤ a.snaps) :
    (resumedFrames a S (floatSteps (a.until T1)) (storedStep (a.until T1)) n).length
      = floatFrames (a.until T1) + n / a.snaps ∧
    ∀ i (hi : i < (resumedFrames a S (floatSteps (a.until T1)) (storedStep (a.until T1)) n).length),
      (resumedFrames a S (floatSteps (a.until T1)) (storedStep (a.until T1)) n)[i].2 =
        if i = 0 then a.plasma0 else S (frameStep (a.until T1) i) := by
  have e1 : frames a S (floatSteps (a.until T1)) = ((List.range (floatFrames (a.until T1))).map (· * a.snaps)).map
      fun it => (runStamp a it, runState a S it) := by
    rw [frames_steps, runSteps_float hu hs h0]
    rfl
  have hsn : (a.until T1).snaps = a.snaps := rfl
  have hf : 1 ≤ floatFrames (a.until T1) := Nat.succ_pos _
  unfold resumedFrames
  rw [recorded_filter hu hs h0, e1]
  refine ⟨by simp, fun i hi => ?_⟩
  rw [List.getElem_append]
  split
  · rename_i h
    simp only [List.length_map, List.length_range] at h
    simp only [List.getElem_map, List.getElem_range]
    unfold runState frameStep
    rw [if_pos h, hsn]
    by_cases h0 : i = 0
    · subst h0
      simp
    · rw [if_neg h0, if_neg (Nat.mul_pos (Nat.pos_of_ne_zero h0) hsn1).ne']
  · rename_i h
    simp only [List.length_map, List.length_range] at h
    simp only [List.getElem_map, List.getElem_range', List.length_map, List.length_range, one_mul]
    unfold frameStep
    rw [if_neg (by omega), if_neg h, hsn]
    congr 3
    omega

end float

/-- **C142, accuracy.** Let `n, w, p` be a smooth solution of the Hasegawa–Wakatani equations on the box `[0, L]²` and the
interval `[0, T]`.  There is one constant `C` such that for every grid size there are a `δ > 0` and an `M` with: let a call of
`run` until `T1` and a call that continues its file until `T2` be as in C141, now with a list of properties, computed with
accuracy `ε ≤ δ` as in C139, and numbers stored with relative error `v ≤ δ`.  The second call returns normally, and afterwards
the dataset of every property has one number per frame of the file.  The number of frame `i ≥ 1` is, before it is rounded to be
stored, within `C dx²` of the physical quantity of that name of the solution at the time of the step that the frame shows,
whether the first or the second call has written the frame. -/
theorem C142_continued_properties (P : Params) (hnu : 0 ≤ P.nu) {L T B : ℝ} {r : ℕ} (hT : 0 ≤ T) (hL : 0 < L)
    (hr : 4 ≤ r) (hr' : 2 * P.N + 2 ≤ r) {nf wf pf : ℝ → ℕ → ℕ → ℝ → ℝ → ℝ} (H : HWSolution P L L T r B nf wf pf) :
    ∃ C, 0 ≤ C ∧ ∀ (m : ℕ) (b : Backend), 0 < m → Std b m m →
      ∃ δ M, 0 < δ ∧ ∀ (u : ℝ) (R : Rounded u) (A : Gen.Arith (Rd R)) (η v ε : ℝ), 0 ≤ u → 0 ≤ η → 0 ≤ v → v ≤ δ → ε ≤ δ →
        ∀ (β : Type) (_ : Casts (Rd R) β) (_ : Inhabited β) (E : Env (Rd R) β) (a : Args (Rd R)) (σ : St (Rd R) β) (T1 T2 : Rd R),
        (∀ x : Rd R, |(Casts.f64 (Casts.f32 x : β) : Rd R).val - x.val| ≤ v * |x.val|) →
        Accurate A b η m m a.dx → AccurateProps E.props a.k0 a.dx a.c1 ε M m →
        FloatPoses E A { a.until T1 with properties := [] } σ P L (nf 0 0 0) (wf 0 0 0) (u + η) m →
        a.step_size.val ≤ δ → u + η ≤ δ * a.step_size.val → (∀ name ∈ a.properties, name ∈ propertyTable) →
        a.saveState = true → a.buffer_length ≤ floatFrames (a.until T1) →
        ∃ f : H5 (Rd R) β, (run E (a.until T1) σ).2.fs a.output_path = some f ∧
          -- the stored states do not vanish
          ((∀ key ∈ ["density", "omega"], ∀ X, f.dsets ("state_" ++ key) = some (.full X) → E.allZero (.arr X) = false) →
          (run E (a.continued T2) (run E (a.until T1) σ).2).1 = .ok () ∧
          ∃ g : H5 (Rd R) β, (run E (a.continued T2) (run E (a.until T1) σ).2).2.fs a.output_path = some g ∧
            ∀ name ∈ a.properties, ∃ vs : List (Rd R), g.dsets name = some (.flat (vs.map Casts.f32)) ∧
              vs.length = floatFrames (a.until T1) + moreSteps β (a.until T1) T2.val / a.snaps ∧
              ((name = "gamma_n_spectral" → Even m) →
                ∀ i (hi : i < vs.length), i ≠ 0 → ∀ t, t = (frameStep (a.until T1) i : ℝ) * a.step_size.val → t ≤ T →
                  |vs[i].val - physical L L P.c1 (nf t) (wf t) (pf t) name| ≤ C * a.dx.val ^ 2)) := by
  obtain ⟨K, hK, HK⟩ := float_core P hnu hT hL hr hr' H
  obtain ⟨C, hC, HC⟩ := stored_core P hT hL hr H hK
  refine ⟨C, hC, fun m b hm hb => ?_⟩
  obtain ⟨δ1, hδ1, HK⟩ := HK m b hm hb
  obtain ⟨δ2, M, hδ2, HC⟩ := HC m b hm hb
  refine ⟨min (min δ1 δ2) 1, M, by positivity, ?_⟩
  intro u R A η v ε u0 η0 v0 hv hε β _ _ E a σ T1 T2 hcast hA hE hp hle hprec hnames hsave hbuf
  have hdt : 0 < a.step_size.val := hp.step
  have hst : a.recording_start_time.val = 0 := hp.start
  have l1 : a.step_size.val ≤ δ1 := hle.trans ((min_le_left _ _).trans (min_le_left _ _))
  have l2 : a.step_size.val ≤ 1 := hle.trans (min_le_right _ _)
  have d2 : min (min δ1 δ2) 1 ≤ δ2 := (min_le_left _ _).trans (min_le_right _ _)
  have p1 : u + η ≤ δ1 * a.step_size.val :=
    hprec.trans (mul_le_mul_of_nonneg_right ((min_le_left _ _).trans (min_le_left _ _)) hdt.le)
  have p2 : u + η ≤ δ2 :=
    (hprec.trans (mul_le_mul_of_nonneg_right d2 hdt.le)).trans (mul_le_of_le_one_right hδ2.le l2)
  obtain ⟨X, hX, hX'⟩ := hp.density
  obtain ⟨Y, hY, hY'⟩ := hp.omega
  obtain ⟨V, hV, hV'⟩ := hp.phi
  have hsn : 1 ≤ a.snaps := hp.snaps
  obtain ⟨s28, Z, x, hZ, x0, x1, x2, hx⟩ := HK u R A η u0 η0 a.dx a.step_size hp.spacing hp.step hA l1 p1 X Y hX' hY'
  have hu1 : u ≤ 1 := by linarith
  have htable : ∀ name ∈ propertyTable, name ∉ ["time", "density", "omega", "phi"] ∧ ∀ k ∈ fieldList, name ≠ "state_" ++ k := by
    decide
  obtain ⟨S, f, hS, f1, hres, hsol, hnan⟩ := resumed_float (T2 := T2) hp hu1 hm hA (fun name hn => htable name (hnames name hn)) hX
    ⟨hX'.1, hX'.2.1⟩ hY ⟨hY'.1, hY'.2.1⟩ hZ x0 x1 x2 hsave hbuf
  refine ⟨f, f1, fun hnz => ?_⟩
  have hR := hres hnz (storedStep (a.until T1) + moreSteps β (a.until T1) T2.val)
  have hfull : a.downsample_factor.val = 1 := hp.full
  obtain ⟨hflen, hfr⟩ := resumedFrames_float (a := a) (S := S) T1 (moreSteps β (a.until T1) T2.val) hu1 hdt hst hsn
  -- the fields of every frame
  have hfield : ∀ fr ∈ resumedFrames a S (floatSteps (a.until T1)) (storedStep (a.until T1)) (moreSteps β (a.until T1) T2.val),
      ∀ k ∈ ["density", "phi", "omega"], ∃ W : Arr (Rd R), fr.2.get? k = some (.arr W) ∧ W.h = m ∧ W.w = m := by
    intro fr hmem k hk
    obtain ⟨i, hi, rfl⟩ := List.mem_iff_getElem.1 hmem
    rw [hfr i hi]
    simp only [List.mem_cons, List.not_mem_nil, or_false] at hk
    split
    · rcases hk with rfl | rfl | rfl
      · exact ⟨X, by rw [← hX]; rfl, hX'.1, hX'.2.1⟩
      · exact ⟨V, by rw [← hV]; rfl, hV'⟩
      · exact ⟨Y, by rw [← hY]; rfl, hY'.1, hY'.2.1⟩
    · obtain ⟨S1, S2, S3⟩ := hS (frameStep (a.until T1) i)
      obtain ⟨q1, q2, q3⟩ := x1 (frameStep (a.until T1) i)
      rcases hk with rfl | rfl | rfl
      · exact ⟨_, S1, q1⟩
      · exact ⟨_, S3, q3⟩
      · exact ⟨_, S2, q2⟩
  have hdef : FramesDefined E a m
      (resumedFrames a S (floatSteps (a.until T1)) (storedStep (a.until T1)) (moreSteps β (a.until T1) T2.val)) := by
    refine fun name hname => ⟨hnames _ hname, fun fr hmem n p o hn hp ho => ?_⟩
    obtain ⟨N, n1, n2⟩ := hfield fr hmem "density" (by simp)
    obtain ⟨Q, q1, q2⟩ := hfield fr hmem "phi" (by simp)
    obtain ⟨O, o1, o2⟩ := hfield fr hmem "omega" (by simp)
    rw [frameRow_full hfull (by decide) hn n1, frameRow_full hfull (by decide) hp q1, frameRow_full hfull (by decide) ho o1,
      hE.spacing]
    exact hE.returns _ _ _ n2 q2 o2 name (hnames _ hname)
  obtain ⟨g0, g, g1, -, g3⟩ := C142_every_frame hR hsol (m3 := moreSteps β (a.until T1) T2.val) le_rfl
    ⟨fun j _ _ => hnan _, .inl rfl⟩ hdef
  refine ⟨g0, g, g1, fun name hname => ?_⟩
  obtain ⟨vs, v1, v2⟩ := g3 name hname
  have hlen := v2.length_eq
  refine ⟨vs, v1, by rw [← hlen, hflen], fun hev i hi hi0 t ht htT => ?_⟩
  have hil : i < (resumedFrames a S (floatSteps (a.until T1)) (storedStep (a.until T1)) (moreSteps β (a.until T1) T2.val)).length := by
    rw [hlen]; exact hi
  obtain ⟨n, p, o, w1, w2, w3, w4⟩ := forall₂_at v2 hil hi
  rw [hfr i hil, if_neg hi0] at w1 w2 w3
  have hk0 : 0 < frameStep (a.until T1) i := by
    unfold frameStep
    split
    · exact Nat.mul_pos (Nat.pos_of_ne_zero hi0) hsn
    · exact Nat.add_pos_right _ (Nat.mul_pos (by omega) hsn)
  generalize hq : frameStep (a.until T1) i = q at *
  obtain ⟨S1, S2, S3⟩ := hS q
  have hc1 : a.c1 = ⟨P.c1⟩ := by
    have : a.c1.val = P.c1 := hp.c1
    rw [← this]
  rw [frameRow_full hfull (by decide) w1 S1, frameRow_full hfull (by decide) w2 S3, frameRow_full hfull (by decide) w3 S2,
    hE.spacing, hc1] at w4
  rw [hc1] at hE
  obtain ⟨b1, b2, -⟩ := hx (Rd R) ⟨id, id⟩ inferInstance 0 le_rfl (fun y => by change |y.val - y.val| ≤ _; simp) q hk0 t ht htT
  obtain ⟨b1, b1'⟩ := stored_id b1
  obtain ⟨b2, b2'⟩ := stored_id b2
  have hphi : Gen.get_phi A (x q).omega a.dx = .ok (x q).phi := by
    obtain ⟨q', hq'⟩ := Nat.exists_eq_succ_of_ne_zero hk0.ne'
    rw [hq']
    exact gen_rk4_phi (x2 q')
  obtain ⟨w, k1, k2⟩ := HC u R A η v ε u0 η0 p2 v0 (hv.trans d2) (hε.trans d2) β _ _ E.props a.k0 a.dx hcast hp.spacing hA hE
    t (by rw [ht]; positivity) htT (x q) (x1 _).1 (x1 _).2.1 hphi b1 b2 b1' b2' name (hnames _ hname) hev
  rw [w4] at k1
  rw [Except.ok.inj k1]
  exact k2

/-! ### non-vacuity -/

/-- the environment of the example of C140, with a property that can be computed from the fields -/
def cornerEnv : Env ℚ ℚ := { splitEnv.toEnv with
  props := { dx := fun _ _ => 1
             value := fun _ _ _ n p o => match n, p, o with
               | .arr n, .arr p, .arr o => .ok (n.at' 0 0 + 10 * p.at' 0 0 + 100 * o.at' 0 0)
               | _, _, _ => .error .typeError } }

theorem corner_resumed : RunResumed cornerEnv (recArgs 2 0) noFiles splitSolver 2 4 4 splitStates 2 4 2 4 6 4 :=
  let h := rec_resumed (L := 2) (by decide) (rec_steps0 2) (by decide) (k := 2) (by decide) rfl
    (by decide) (T2 := 4) (M := 6) (m := 4) (by norm_num) (by decide)
  { h with
    first := { h.first with
      saves := ⟨h.first.saves.dim, h.first.saves.down⟩
      stops := ⟨h.first.stops.before, h.first.stops.stop⟩ } }

/-- a buffer of length 2: the states are stored at step 2, the last frame is that of step 4; continued until time 4, with
`gamma_n` -/
example := C142_every_frame corner_resumed (split_arraySolver _ _) le_rfl
  ⟨(rec_stop (k := 2) (m := 4) (by decide)).before, (rec_stop (k := 2) (m := 4) (by decide)).stop⟩
  (by
    intro name hn
    obtain rfl := List.mem_singleton.mp hn
    refine ⟨by decide, fun fr _ n p o h1 h2 h3 => ?_⟩
    have e : ∀ {key : String} {c : Cell ℚ}, key ≠ "time" →
        IsFrameRow cornerEnv (recArgs 2 0).downsample_factor key fr.1 fr.2 c → ∃ W, c = .arr W := by
      intro key c hk h
      unfold IsFrameRow at h
      rw [if_neg hk] at h
      obtain ⟨_, W, -, -, h⟩ := h
      exact ⟨_, h⟩
    obtain ⟨_, rfl⟩ := e (by decide) h1
    obtain ⟨_, rfl⟩ := e (by decide) h2
    obtain ⟨_, rfl⟩ := e (by decide) h3
    exact ⟨_, rfl⟩)

/-- the growing particle flux of the drift wave until time 2, continued until time 4, computed from the file -/
example : ∃ C, ∀ m : ℕ, 0 < m → ∃ dt : ℝ, 0 < dt ∧ ∃ (p q : ℕ) (A : Gen.Arith (Rd (Rounded.binary p)))
    (g : H5 (Rd (Rounded.binary p)) (Rd (Rounded.binary q))) (vs : List (Rd (Rounded.binary p))),
    let a : Args (Rd (Rounded.binary p)) :=
      { rdArgs (Rounded.binary p) m dt with buffer_length := 1, properties := propertyTable }
    (@run _ _ (rdBits _ q) _ _ _ _ (rdEnvS q A).toEnv (a.continued ⟨4⟩)
      (@run _ _ (rdBits _ q) _ _ _ _ (rdEnvS q A).toEnv (a.until ⟨2⟩) ⟨fun _ => none, []⟩).2).2.fs "run.h5" = some g ∧
    g.dsets "gamma_n" = some (.flat (vs.map fun v => ⟨nearest q v.val⟩)) ∧
    vs.length = floatFrames (a.until ⟨2⟩) + @moreSteps _ _ (Rd (Rounded.binary q)) (rdBits _ q) (a.until ⟨2⟩) 4 / 3 ∧
    ∀ i (hi : i < vs.length), i ≠ 0 → ((i * 3 : ℕ) : ℝ) * dt ≤ 5 →
      |vs[i].val - 2 / 3 * amp ((i * 3 : ℕ) * dt) ^ 2| ≤ C * (2 * Real.pi / m) ^ 2 := by
  obtain ⟨C, -, H⟩ := C142_continued_properties _ (by norm_num) (by norm_num) (by positivity) le_rfl (by norm_num)
    (drift_wave 5)
  refine ⟨C, fun m hm => ?_⟩
  obtain ⟨δ, M, hδ, H⟩ := H m numpyBackend hm (.inl rfl)
  obtain ⟨κ, hκ, Hκ⟩ := rdProps_accurate hm M δ hδ
  obtain ⟨p, A, η, η0, hp, hA⟩ := C103_arithmetic_exists (hw := HW.init numpyBackend 1 1 1 1 1) (h := m) (w := m) hm hm (.inl rfl)
    (2 * Real.pi / m) (min (δ * δ) κ) (by positivity)
  obtain ⟨q, hq⟩ := exists_pow_lt_of_lt_one hδ (by norm_num : (1 / 2 : ℝ) < 1)
  have hq' : (2 : ℝ) ^ (-(q : ℤ)) ≤ δ := by
    rw [zpow_neg, zpow_natCast, ← inv_pow]
    rw [one_div] at hq
    exact hq.le
  have u0 : (0 : ℝ) ≤ 2 ^ (-(p : ℤ)) := by positivity
  set a : Args (Rd (Rounded.binary p)) :=
    { rdArgs (Rounded.binary p) m δ with buffer_length := 1, properties := propertyTable } with ha
  have hpose : FloatPoses (rdEnvS q A).toEnv A { a.until ⟨2⟩ with properties := [] } ⟨fun _ => none, []⟩
      ⟨0, 1, 3, 1 / 10, 1, 40 / 3, false⟩ (2 * Real.pi) (modeFam (5 / 3 * amp 0) (4 / 3 * amp 0) (4 * 0) 0 0)
      (modeFam (- amp 0) 0 (4 * 0) 0 0) (2 ^ (-(p : ℤ)) + η) m :=
    { rd_poses A m hm δ _ hδ (by positivity) with
      sim := rfl, attr := fun _ => rfl, nan := fun _ => rfl, fresh := .inl rfl, buffer := le_rfl }
  obtain ⟨f, f1, H⟩ := H _ (Rounded.binary p) A η (2 ^ (-(q : ℤ))) δ u0 η0 (by positivity) hq' le_rfl _ (rdBits _ q) inferInstance
    (rdEnvS q A).toEnv a ⟨fun _ => none, []⟩ ⟨2⟩ ⟨4⟩ (fun x => nearest_err q x.val) hA
    (Hκ _ _ A η q u0 η0 (hp.trans (min_le_right _ _)) hA) hpose le_rfl (hp.trans (min_le_left _ _)) (fun _ h => h) rfl
    (Nat.succ_pos _)
  obtain ⟨-, g, g1, H⟩ := H fun _ _ _ _ => rfl
  obtain ⟨vs, v1, v2, v3⟩ := H "gamma_n" (by change _ ∈ propertyTable; decide)
  refine ⟨δ, hδ, p, q, A, g, vs, g1, v1, v2, fun i hi hi0 hiT => ?_⟩
  -- with a buffer of length 1, the second call starts where the first has ended
  have hstep : frameStep (a.until ⟨2⟩) i = i * 3 := by
    have hs : (a.until ⟨2⟩).snaps = 3 := rfl
    have hf : 1 ≤ floatFrames (a.until ⟨2⟩) := Nat.succ_pos _
    unfold frameStep
    rw [hs]
    split
    · rfl
    · rw [storedStep_eq (a := a.until ⟨2⟩) (one_dvd _), hs, ← Nat.add_mul]
      congr 1
      omega
  have := v3 (fun h => absurd h (by decide)) i hi hi0 _ (by rw [hstep]; rfl) hiT
  have this : |_ - physical (2 * Real.pi) (2 * Real.pi) 3 _ _ _ "gamma_n"| ≤ _ := this
  rw [wave_flux] at this
  exact this

end Verif.Props
