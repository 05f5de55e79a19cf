import Verif.Props.FileDecay
import Verif.Props.StoredFloat

/-!
# C147 and C151 for `run`: the properties computed from the file

`run` records no properties of its own; it calls `calculate_properties` on the file when the simulation is over.
`hx` says that storing is exact.
-/

set_option linter.unusedSectionVars false

namespace Verif.Props

open Arr NS Spec Set H5IO Run Run2 RunProperties Properties

attribute [local instance] exactOps

variable {hw : HW} {dx : ℝ} {m : ℕ} {P : Params} {b : Backend} {dx0 k0 : ℝ} {test : Bool}

/-- a field in the file of `run`, without downsampling -/
theorem plain_row {β : Type} [Casts ℝ β] {E : Env ℝ β} {factor : ℝ} {k : String} (hk : k ≠ "time") (hds : downsampling factor = false)
    {t : ℝ} {s : NS (Cell ℝ)} {row : Cell β} (h : IsFrameRow E factor k t s row) :
    ∃ A : Arr ℝ, s.get? k = some (.arr A) ∧ row = .arr (A.map Casts.f32) := by
  unfold IsFrameRow at h
  rw [if_neg hk] at h
  obtain ⟨A, B, h1, h2, h3⟩ := h
  unfold recordedValue at h2
  rw [hds] at h2
  simp only [Bool.false_eq_true, if_false, Except.ok.injEq, Cell.arr.injEq] at h2
  subst h2
  exact ⟨A, h1, h3⟩

/-- what the dataset `<name>` of the file of `run` holds: the value of the property function on the states of the simulation -/
theorem computed_frames {β : Type} [Casts ℝ β] [Inhabited β] {E : Env ℝ β} {b : Backend} {a : Args ℝ} {σ : St ℝ β} {ns : ℕ}
    (hg : GoodArgs E b a σ ns) (hstart : a.recording_start_time = 0) (he : 0 ≤ a.end_time) (hP : E.props = hwProps)
    (hx : ∀ x : ℝ, Casts.f64 (Casts.f32 x : β) = x) (hds : downsampling a.downsample_factor = false)
    (hdx : a.dx = 2 * Real.pi / a.k0 / a.grid_pts) (hnames : ∀ name ∈ a.properties, name ∈ propertyTable) :
    ∃ (A B D : Arr ℝ) (S : ℕ → NS Val), a.density0 = .arr A ∧ a.omega0 = .arr B ∧
      (∀ c, ∃ c', (theHW b a).get_phi B a.dx c = .ok (D, c')) ∧
      (∀ n c, ∃ c', history (theHW b a) a.dx (List.replicate n (.rk4 a.step_size)) (startState A B D) c = .ok (S n, c')) ∧
      (run E a σ).1 = .ok () ∧ ∃ f : H5 ℝ β, (run E a σ).2.fs a.output_path = some f ∧
        ∀ name ∈ a.properties, ∃ vs : List ℝ, f.dsets name = some (.flat (vs.map Casts.f32)) ∧
          vs.length = ⌊a.end_time / a.step_size⌋.toNat / a.snaps + 1 ∧
          ∀ j, j ≠ 0 → j < vs.length → ∃ x, vs[j]? = some x ∧
            propValue name a.dx a.c1 (arrOf (S (j * a.snaps)) "density") (arrOf (S (j * a.snaps)) "phi")
              (arrOf (S (j * a.snaps)) "omega") = .ok x := by
  obtain ⟨A, B, D, S, qA, qB, qD, hS, hrun⟩ := fresh_physics hg he
  have hns : ns = a.grid_pts := by
    have := hrun.saves.dim
    unfold saveDim at this
    rw [hds] at this
    simpa using this.symm
  subst hns
  have hdx' : propDx (attrReal (.num a.k0)) (attrReal (.int a.grid_pts)) = a.dx := by
    rw [hdx]
    simp [propDx, attrReal]
  have h0 : FloatOps.eq a.recording_start_time (FloatOps.ofInt 0) = true := by rw [hstart]; simp [FloatOps.eq, FloatOps.ofInt]
  have hr : ∀ it, 1 ≤ it → it ≤ ⌊a.end_time / a.step_size⌋.toNat → FloatOps.le a.recording_start_time (stepTime a it) = true := by
    intro it _ _
    refine decide_eq_true ?_
    rw [hstart]
    have := hg.step
    simp only [stepTime, FloatOps.mul, FloatOps.ofInt]
    positivity
  have hfr := frames_from_zero (S := fun n => toCells (S n)) h0 hr
  have hsh : ∀ fr ∈ frames a (fun n => toCells (S n)) ⌊a.end_time / a.step_size⌋.toNat, Shaped a.grid_pts fr.2 := by
    intro fr h
    obtain ⟨i, hi, rfl⟩ := List.getElem_of_mem h
    have := allSaves_ok hrun
    exact (forall₂_at this hi (by rw [← this.length_eq]; exact hi)).2
  have hdef : FramesDefined E a a.grid_pts (frames a (fun n => toCells (S n)) ⌊a.end_time / a.step_size⌋.toNat) := by
    intro name hname
    refine ⟨hnames _ hname, fun fr hfr n p o hn hp ho => ?_⟩
    obtain ⟨N, n1, rfl⟩ := plain_row (by decide) hds hn
    obtain ⟨Q, p1, rfl⟩ := plain_row (by decide) hds hp
    obtain ⟨O, o1, rfl⟩ := plain_row (by decide) hds ho
    obtain ⟨N', n2, n3⟩ := (hsh fr hfr).fields "density" (by decide)
    obtain ⟨Q', p2, p3⟩ := (hsh fr hfr).fields "phi" (by decide)
    obtain ⟨O', o2, o3⟩ := (hsh fr hfr).fields "omega" (by decide)
    obtain rfl := Cell.arr.inj (Option.some.inj (n1.symm.trans n2))
    obtain rfl := Cell.arr.inj (Option.some.inj (p1.symm.trans p2))
    obtain rfl := Cell.arr.inj (Option.some.inj (o1.symm.trans o2))
    rw [hP]
    exact propValue_ok (hnames _ hname) _ _ hg.grid n3 p3 o3
  obtain ⟨r1, f, r2, r3⟩ := run_fromFrames hrun hdef
  refine ⟨A, B, D, S, qA, qB, qD, hS, r1, f, r2, fun name hname => ?_⟩
  obtain ⟨vs, v1, v2⟩ := r3 name hname
  have hlen : vs.length = ⌊a.end_time / a.step_size⌋.toNat / a.snaps + 1 := by
    rw [← v2.length_eq, hfr, List.length_map, List.length_range]
  refine ⟨vs, v1, hlen, fun j hj0 hj => ?_⟩
  rw [hfr] at v2
  have hj' : j < ((List.range (⌊a.end_time / a.step_size⌋.toNat / a.snaps + 1)).map (frameAt a fun n => toCells (S n))).length := by
    rw [v2.length_eq]; exact hj
  obtain ⟨n, p, o, hn, hp, ho, hval⟩ := forall₂_at v2 hj' hj
  rw [List.getElem_map, List.getElem_range] at hn hp ho
  unfold frameAt at hn hp ho
  rw [if_neg hj0] at hn hp ho
  obtain ⟨N, n1, rfl⟩ := plain_row (by decide) hds hn
  obtain ⟨Q, p1, rfl⟩ := plain_row (by decide) hds hp
  obtain ⟨O, o1, rfl⟩ := plain_row (by decide) hds ho
  refine ⟨vs[j], List.getElem?_eq_getElem hj, ?_⟩
  rw [arrOf_of_toCells n1, arrOf_of_toCells p1, arrOf_of_toCells o1]
  rw [hP] at hval
  change propValue name (propDx (attrReal (.num a.k0)) (attrReal (.int a.grid_pts))) (attrReal (.num a.c1)) _ _ _ = _ at hval
  rw [hdx', f64_f32 hx, f64_f32 hx, f64_f32 hx] at hval
  exact hval

/-- the same for a simulation whose states and properties are known -/
theorem computed_known {β : Type} [Casts ℝ β] [Inhabited β] {E : Env ℝ β} {b : Backend} {a : Args ℝ} {σ : St ℝ β} {ns : ℕ}
    (hg : GoodArgs E b a σ ns) (hstart : a.recording_start_time = 0) (he : 0 ≤ a.end_time) (hP : E.props = hwProps)
    (hx : ∀ x : ℝ, Casts.f64 (Casts.f32 x : β) = x) (hds : downsampling a.downsample_factor = false)
    (hdx : a.dx = 2 * Real.pi / a.k0 / a.grid_pts) (hnames : ∀ name ∈ a.properties, name ∈ propertyTable)
    {A B D : Arr ℝ} (eA : a.density0 = .arr A) (eB : a.omega0 = .arr B) (hD : ∀ c, ∃ c', (theHW b a).get_phi B a.dx c = .ok (D, c'))
    {S : ℕ → NS Val} {v : String → ℕ → ℝ}
    (hS : ∀ j c, ∃ c', history (theHW b a) a.dx (List.replicate j (.rk4 a.step_size)) (startState A B D) c = .ok (S j, c'))
    (hv : ∀ name ∈ propertyTable, ∀ j,
      propValue name a.dx a.c1 (arrOf (S j) "density") (arrOf (S j) "phi") (arrOf (S j) "omega") = .ok (v name j)) :
    (run E a σ).1 = .ok () ∧ ∃ f : H5 ℝ β, (run E a σ).2.fs a.output_path = some f ∧
      ∀ name ∈ a.properties, ∃ vs : List ℝ, f.dsets name = some (.flat (vs.map Casts.f32)) ∧
        vs.length = ⌊a.end_time / a.step_size⌋.toNat / a.snaps + 1 ∧
        ∀ j, j ≠ 0 → j < vs.length → vs[j]? = some (v name (j * a.snaps)) := by
  obtain ⟨A', B', D', S', qA, qB, qD, hS', r1, f, r2, r3⟩ := computed_frames hg hstart he hP hx hds hdx hnames
  obtain rfl : A' = A := by rw [eA] at qA; cases qA; rfl
  obtain rfl : B' = B := by rw [eB] at qB; cases qB; rfl
  obtain rfl : D' = D := by
    obtain ⟨c1, q1⟩ := qD {}
    obtain ⟨c2, q2⟩ := hD {}
    rw [q2] at q1
    injection q1 with q1
    injection q1 with q1 _
    exact q1.symm
  have eS : ∀ j, S' j = S j := by
    intro j
    obtain ⟨c1, q1⟩ := hS' j {}
    obtain ⟨c2, q2⟩ := hS j {}
    rw [q1] at q2
    injection q2 with q2
    injection q2 with q2 _
  refine ⟨r1, f, r2, fun name hname => ?_⟩
  obtain ⟨vs, q1, q2, q3⟩ := r3 name hname
  refine ⟨vs, q1, q2, fun j hj0 hj => ?_⟩
  obtain ⟨x, x1, x2⟩ := q3 j hj0 hj
  rw [eS, hv name (hnames _ hname)] at x2
  rw [x1, Except.ok.inj x2]

/-- **C147 (`run`).**  For every simulation with non-negative coupling and viscosity, every initial density `A` and vorticity `B` with
thermal energy `N0`, kinetic energy `V0` (of the potential of `B`) and enstrophy `U0`, and every time `T`: there are a constant
`C` and a largest step size such that for every call of `run` to a new file with these data, without downsampling, the
properties in the file obey the bounds of `C147_recorded_growth` at every frame `j ≥ 1` up to the time `T`. -/
theorem C147_run_growth (b : Backend) (hm : 0 < m) (hb : Std b m m) (hw : HW) (hdx : dx ≠ 0) (A B : Arr ℝ) (hA : A.h = m ∧ A.w = m)
    (hB : B.h = m ∧ B.w = m) (hbw : hw.backend = b) (hc1 : 0 ≤ hw.c1) (T : ℝ) (hT : 0 ≤ T) :
    ∃ (D : Arr ℝ) (N0 V0 U0 : ℝ), (∀ c, ∃ c', hw.get_phi B dx c = .ok (D, c')) ∧ get_energy_N_spectrally A = .ok N0 ∧
      get_energy_V_spectrally D dx = .ok V0 ∧ get_enstrophy A B dx = .ok U0 ∧
    ∃ C dt0, 0 ≤ C ∧ 0 < dt0 ∧
      ∀ (β : Type) (_ : Casts ℝ β) (_ : Inhabited β) (E : Env ℝ β) (a : Args ℝ) (σ : St ℝ β) (ns : ℕ),
        GoodArgs E b a σ ns → theHW b a = hw → 0 ≤ a.nu → a.dx = dx → a.density0 = .arr A → a.omega0 = .arr B →
        a.recording_start_time = 0 → 0 ≤ a.end_time → a.step_size ≤ dt0 →
        E.props = hwProps → (∀ x : ℝ, Casts.f64 (Casts.f32 x : β) = x) → downsampling a.downsample_factor = false →
        a.dx = 2 * Real.pi / a.k0 / a.grid_pts → (∀ name ∈ a.properties, name ∈ propertyTable) →
        (run E a σ).1 = .ok () ∧ ∃ f : H5 ℝ β, (run E a σ).2.fs a.output_path = some f ∧
          ∃ v : String → ℕ → ℝ,
            (∀ name ∈ a.properties, ∃ vs : List ℝ, f.dsets name = some (.flat (vs.map Casts.f32)) ∧
              vs.length = ⌊a.end_time / a.step_size⌋.toNat / a.snaps + 1 ∧
              ∀ j, j ≠ 0 → j < vs.length → vs[j]? = some (v name j)) ∧
            ∀ j : ℕ, ∀ t : ℝ, t = ((j * a.snaps : ℕ) : ℝ) * a.step_size → t ≤ T →
              v "thermal_energy" j + v "kinetic_energy" j ≤ Real.exp (|a.kappa_coeff| * t) * (N0 + V0) + C * a.step_size ^ 4 ∧
              v "enstrophy" j ≤ U0 + (Real.exp (|a.kappa_coeff| * t) - 1) * (N0 + V0) + C * a.step_size ^ 4 := by
  have hb' : Std hw.backend m m := by rw [hbw]; exact hb
  obtain ⟨D, c1, c2, hD⟩ := get_phi_exists (hw := hw) hm hb' dx hB.1 hB.2
  have hs0 := startState_isState hw.TEST_CONSERVATION hA.1 hA.2 hB.1 hB.2 c1 c2
  have hc : Consistent hw dx (startState A B D) := hD
  have val : ∀ name ∈ propertyTable, ∃ x, propValue name dx hw.c1 A D B = .ok x := fun name h =>
    propValue_ok h dx hw.c1 hm hA ⟨c1, c2⟩ hB
  obtain ⟨N0, hN⟩ := val "thermal_energy" (by decide)
  obtain ⟨V0, hV⟩ := val "kinetic_energy" (by decide)
  obtain ⟨U0, hU⟩ := val "enstrophy" (by decide)
  have hN' : get_energy_N_spectrally A = .ok N0 := by
    unfold propValue at hN
    simpa only [String.reduceEq, if_false, if_true] using hN
  have hV' : get_energy_V_spectrally D dx = .ok V0 := by
    unfold propValue at hV
    simpa only [String.reduceEq, if_false, if_true] using hV
  have hU' : get_enstrophy A B dx = .ok U0 := by
    unfold propValue at hU
    simpa only [String.reduceEq, if_false, if_true] using hU
  refine ⟨D, N0, V0, U0, hD, hN', hV', hU', ?_⟩
  by_cases hnu : 0 ≤ (-1) ^ (hw.N + 1) * hw.nu
  swap
  · -- no call has such data
    refine ⟨0, 1, le_rfl, one_pos, fun β _ _ E a σ ns hg ehw hnu' => ?_⟩
    exfalso
    refine hnu ?_
    rw [← ehw]
    unfold theHW HW.init
    simp only
    rw [← mul_assoc, ← mul_pow]
    norm_num [hnu']
  obtain ⟨C, dt0, hC, hdt0, H⟩ := reported_growth hm hb' hdx hc1 hnu _ hs0 hc T hT
  refine ⟨C, dt0, hC, hdt0, fun β _ _ E a σ ns hg ehw hnu' ed eA eB hstart hend hle hP hx hds hdxk hnames => ?_⟩
  obtain ⟨S, v, hS0, hS, hv, hbud⟩ := H a.step_size hg.step.le hle
  have v0 : ∀ name ∈ propertyTable, propValue name dx hw.c1 A D B = .ok (v name 0) := by
    intro name h
    have := hv name h 0
    rw [hS0] at this
    exact this
  have eN : v "thermal_energy" 0 = N0 := Except.ok.inj ((v0 _ (by decide)).symm.trans hN)
  have eV : v "kinetic_energy" 0 = V0 := Except.ok.inj ((v0 _ (by decide)).symm.trans hV)
  have eU : v "enstrophy" 0 = U0 := Except.ok.inj ((v0 _ (by decide)).symm.trans hU)
  have ec : hw.c1 = a.c1 := by rw [← ehw]; rfl
  have ek : hw.kappa_coeff = a.kappa_coeff := by rw [← ehw]; rfl
  rw [← ehw, ← ed] at hS hD
  rw [← ed, ec] at hv
  obtain ⟨r1, f, r2, r3⟩ := computed_known hg hstart hend hP hx hds hdxk hnames eA eB hD hS hv
  refine ⟨r1, f, r2, fun name j => v name (j * a.snaps), r3, fun j t ht htT => ?_⟩
  have R := hbud (j * a.snaps) (by rw [← ht]; exact htT)
  rw [eN, eV, eU, ek, ← ht] at R
  exact R

/-- **C151 (`run`).**  The same for `C151_recorded_decay`: the kinetic energy and the particle flux in the file of `run` are at most
`exp((|kappa| - 2 slowest) t) (N0 + V0 - mean(A)²/2) + C * step_size⁴`. -/
theorem C151_run_decay (hm : 0 < m) (hb : Std b m m)
    (ehw : hw = HW.init b dx0 P.N P.c1 P.nu k0 P.pb P.kappa P.zonal test) (hdx : P.dx ≠ 0) (hN : 1 ≤ P.N)
    (hc1 : 0 ≤ P.c1) (hnu : 0 ≤ P.nu) (A B : Arr ℝ) (hA : A.h = m ∧ A.w = m) (hB : B.h = m ∧ B.w = m) :
    ∃ (D : Arr ℝ) (N0 V0 : ℝ), (∀ c, ∃ c', hw.get_phi B P.dx c = .ok (D, c')) ∧ get_energy_N_spectrally A = .ok N0 ∧
      get_energy_V_spectrally D P.dx = .ok V0 ∧ ∀ T : ℝ, 0 ≤ T →
    ∃ C dt0, 0 ≤ C ∧ 0 < dt0 ∧
      ∀ (β : Type) (_ : Casts ℝ β) (_ : Inhabited β) (E : Env ℝ β) (a : Args ℝ) (σ : St ℝ β) (ns : ℕ),
        GoodArgs E b a σ ns → theHW b a = hw → a.dx = P.dx → a.density0 = .arr A → a.omega0 = .arr B →
        a.recording_start_time = 0 → 0 ≤ a.end_time → a.step_size ≤ dt0 →
        E.props = hwProps → (∀ x : ℝ, Casts.f64 (Casts.f32 x : β) = x) → downsampling a.downsample_factor = false →
        a.dx = 2 * Real.pi / a.k0 / a.grid_pts → (∀ name ∈ a.properties, name ∈ propertyTable) →
        (run E a σ).1 = .ok () ∧ ∃ f : H5 ℝ β, (run E a σ).2.fs a.output_path = some f ∧
          ∃ v : String → ℕ → ℝ,
            (∀ name ∈ a.properties, ∃ vs : List ℝ, f.dsets name = some (.flat (vs.map Casts.f32)) ∧
              vs.length = ⌊a.end_time / a.step_size⌋.toNat / a.snaps + 1 ∧
              ∀ j, j ≠ 0 → j < vs.length → vs[j]? = some (v name j)) ∧
            ∀ j : ℕ, ∀ t : ℝ, t = ((j * a.snaps : ℕ) : ℝ) * a.step_size → t ≤ T →
              0 ≤ v "kinetic_energy" j ∧
              v "kinetic_energy" j ≤ Real.exp ((|P.kappa| - 2 * slowest P m m) * t) * (N0 + V0 - Spec.mean m m A.at' ^ 2 / 2)
                + C * a.step_size ^ 4 ∧
              |v "gamma_n" j| ≤ Real.exp ((|P.kappa| - 2 * slowest P m m) * t) * (N0 + V0 - Spec.mean m m A.at' ^ 2 / 2)
                + C * a.step_size ^ 4 := by
  have hb' : Std hw.backend m m := by rw [ehw]; exact hb
  obtain ⟨D, c1, c2, hD⟩ := get_phi_exists (hw := hw) hm hb' P.dx hB.1 hB.2
  have hs0 := startState_isState test hA.1 hA.2 hB.1 hB.2 c1 c2
  have hc : Consistent hw P.dx (startState A B D) := hD
  have val : ∀ name ∈ propertyTable, ∃ x, propValue name P.dx hw.c1 A D B = .ok x := fun name h =>
    propValue_ok h P.dx hw.c1 hm hA ⟨c1, c2⟩ hB
  obtain ⟨N0, hN0⟩ := val "thermal_energy" (by decide)
  obtain ⟨V0, hV0⟩ := val "kinetic_energy" (by decide)
  have hN' : get_energy_N_spectrally A = .ok N0 := by
    unfold propValue at hN0
    simpa only [String.reduceEq, if_false, if_true] using hN0
  have hV' : get_energy_V_spectrally D P.dx = .ok V0 := by
    unfold propValue at hV0
    simpa only [String.reduceEq, if_false, if_true] using hV0
  refine ⟨D, N0, V0, hD, hN', hV', fun T hT => ?_⟩
  obtain ⟨C, dt0, hC, hdt0, H⟩ := reported_decay hm hb ehw hdx hN hc1 hnu _ hs0 hc T hT
  refine ⟨C, dt0, hC, hdt0, fun β _ _ E a σ ns hg eha ed eA eB hstart hend hle hP hx hds hdxk hnames => ?_⟩
  obtain ⟨S, v, hS0, hS, hv, hbud⟩ := H a.step_size hg.step.le hle
  have v0 : ∀ name ∈ propertyTable, propValue name P.dx hw.c1 A D B = .ok (v name 0) := by
    intro name h
    have := hv name h 0
    rw [hS0] at this
    exact this
  have eN : v "thermal_energy" 0 = N0 := Except.ok.inj ((v0 _ (by decide)).symm.trans hN0)
  have eV : v "kinetic_energy" 0 = V0 := Except.ok.inj ((v0 _ (by decide)).symm.trans hV0)
  have ec : hw.c1 = a.c1 := by rw [← eha]; rfl
  rw [← eha, ← ed] at hS hD
  rw [← ed, ec] at hv
  obtain ⟨r1, f, r2, r3⟩ := computed_known hg hstart hend hP hx hds hdxk hnames eA eB hD hS hv
  refine ⟨r1, f, r2, fun name j => v name (j * a.snaps), r3, fun j t ht htT => ?_⟩
  have R := hbud (j * a.snaps) (by rw [← ht]; exact htT)
  rw [eN, eV, ← ht] at R
  exact R

/-- **C151 (`run`), the transport dies out.**  If the slowest damping rate exceeds `|kappa|/2`, the kinetic energy and the particle flux
in the file of `run` fall below every `ε > 0` at the frames between a time `T0` and any horizon `T`, for a small enough step size. -/
theorem C151_run_dies_out (hm : 0 < m) (hb : Std b m m)
    (ehw : hw = HW.init b dx0 P.N P.c1 P.nu k0 P.pb P.kappa P.zonal test) (hdx : P.dx ≠ 0) (hN : 1 ≤ P.N)
    (hc1 : 0 ≤ P.c1) (hnu : 0 ≤ P.nu) (hk : |P.kappa| < 2 * slowest P m m) (A B : Arr ℝ) (hA : A.h = m ∧ A.w = m)
    (hB : B.h = m ∧ B.w = m) (ε : ℝ) (hε : 0 < ε) :
    ∃ T0 : ℝ, 0 ≤ T0 ∧ ∀ T : ℝ, ∃ dt0 : ℝ, 0 < dt0 ∧
      ∀ (β : Type) (_ : Casts ℝ β) (_ : Inhabited β) (E : Env ℝ β) (a : Args ℝ) (σ : St ℝ β) (ns : ℕ),
        GoodArgs E b a σ ns → theHW b a = hw → a.dx = P.dx → a.density0 = .arr A → a.omega0 = .arr B →
        a.recording_start_time = 0 → 0 ≤ a.end_time → a.step_size ≤ dt0 →
        E.props = hwProps → (∀ x : ℝ, Casts.f64 (Casts.f32 x : β) = x) → downsampling a.downsample_factor = false →
        a.dx = 2 * Real.pi / a.k0 / a.grid_pts → (∀ name ∈ a.properties, name ∈ propertyTable) →
        (run E a σ).1 = .ok () ∧ ∃ f : H5 ℝ β, (run E a σ).2.fs a.output_path = some f ∧
          ∃ v : String → ℕ → ℝ,
            (∀ name ∈ a.properties, ∃ vs : List ℝ, f.dsets name = some (.flat (vs.map Casts.f32)) ∧
              vs.length = ⌊a.end_time / a.step_size⌋.toNat / a.snaps + 1 ∧
              ∀ j, j ≠ 0 → j < vs.length → vs[j]? = some (v name j)) ∧
            ∀ j : ℕ, ∀ t : ℝ, t = ((j * a.snaps : ℕ) : ℝ) * a.step_size → T0 ≤ t → t ≤ T →
              0 ≤ v "kinetic_energy" j ∧ v "kinetic_energy" j ≤ ε ∧ |v "gamma_n" j| ≤ ε := by
  obtain ⟨D, N0, V0, -, -, -, G⟩ := C151_run_decay hm hb ehw hdx hN hc1 hnu A B hA hB
  set r := 2 * slowest P m m - |P.kappa| with hr
  have r0 : 0 < r := by linarith
  have er : |P.kappa| - 2 * slowest P m m = -r := by rw [hr]; ring
  rw [er] at G
  generalize N0 + V0 - Spec.mean m m A.at' ^ 2 / 2 = F at G
  obtain ⟨T0, t0, hT0⟩ : ∃ T0 : ℝ, 0 ≤ T0 ∧ ∀ t, T0 ≤ t → Real.exp (-r * t) * F ≤ ε / 2 := by
    refine ⟨2 * |F| / (r * ε), by positivity, fun t ht => ?_⟩
    have t1 : 2 * |F| ≤ t * (r * ε) := (div_le_iff₀ (by positivity)).1 ht
    have e1 : r * t + 1 ≤ Real.exp (r * t) := Real.add_one_le_exp _
    rw [neg_mul, Real.exp_neg, inv_mul_le_iff₀ (Real.exp_pos _)]
    have := le_abs_self F
    nlinarith
  refine ⟨T0, t0, fun T => ?_⟩
  obtain ⟨C, d, hC, hd, H⟩ := G (max T 0) (le_max_right _ _)
  refine ⟨min d (min 1 (ε / (2 * (C + 1)))), by positivity,
    fun β _ _ E a σ ns hg eha ed eA eB hstart hend hle hP hx hds hdxk hnames => ?_⟩
  obtain ⟨r1, f, r2, v, r3, r4⟩ := H β _ _ E a σ ns hg eha ed eA eB hstart hend (hle.trans (min_le_left _ _)) hP hx hds hdxk hnames
  refine ⟨r1, f, r2, v, r3, fun j t ht h1 h2 => ?_⟩
  obtain ⟨a1, a2, a3⟩ := r4 j t ht (h2.trans (le_max_left _ _))
  have hdt := hg.step.le
  have d1 : a.step_size ≤ 1 := hle.trans ((min_le_right _ _).trans (min_le_left _ _))
  have d2 : a.step_size ≤ ε / (2 * (C + 1)) := hle.trans ((min_le_right _ _).trans (min_le_right _ _))
  have d4 : a.step_size ^ 4 ≤ a.step_size := by
    have := pow_le_one₀ (n := 3) hdt d1
    nlinarith
  have d5 : C * a.step_size ^ 4 ≤ ε / 2 := by
    rw [le_div_iff₀ (by positivity)] at d2
    nlinarith [mul_le_mul_of_nonneg_left d4 hC]
  have d6 := hT0 _ h1
  exact ⟨a1, by linarith, by linarith⟩

/-! ### non-vacuity -/

attribute [-instance] physCasts
attribute [local instance] exactCasts

/-- `physEnv` with the property functions of the code -/
noncomputable def reportEnv : Env ℝ ℝ := { physEnv with props := hwProps }

/-- the wave of the other examples with viscosity `nu`, recorded up to `Te` -/
noncomputable def reportArgs (m : ℕ) (dt nu Te : ℝ) : Args ℝ := { waveArgs m dt with nu := nu, end_time := Te, properties := propertyTable }

theorem report_good (m : ℕ) (hm : 0 < m) (dt nu Te : ℝ) (hdt : 0 < dt) :
    GoodArgs reportEnv numpyBackend (reportArgs m dt nu Te) ⟨fun _ => none, []⟩ m :=
  let h := wave_good m hm dt hdt ⟨fun _ => none, []⟩ rfl
  { h with
    saves := ⟨h.saves.dim, h.saves.down⟩
    sim := rfl
    attr := rfl
    nan := fun _ => rfl }

theorem report_noDown (m : ℕ) (dt nu Te : ℝ) : downsampling (reportArgs m dt nu Te).downsample_factor = false := by
  simp [downsampling, FloatOps.eq, FloatOps.ofInt, reportArgs, waveArgs, physArgs]

theorem report_dx (m : ℕ) (dt nu Te : ℝ) :
    (reportArgs m dt nu Te).dx = 2 * Real.pi / (reportArgs m dt nu Te).k0 / (reportArgs m dt nu Te).grid_pts := by
  simp [reportArgs, waveArgs, physArgs]

/-- the energy of the viscous drift wave in the file -/
example (m : ℕ) (hm : 0 < m) : ∃ C dt0 E0 : ℝ, 0 < dt0 ∧ ∀ dt, 0 < dt → dt ≤ dt0 → ∃ (f : H5 ℝ ℝ) (v : String → ℕ → ℝ),
    (run reportEnv (reportArgs m dt (1 / 10) 5) ⟨fun _ => none, []⟩).2.fs "run.h5" = some f ∧
    (∀ name ∈ propertyTable, ∃ vs : List ℝ, f.dsets name = some (.flat (vs.map Casts.f32)) ∧ vs.length = ⌊5 / dt⌋.toNat / 3 + 1 ∧
      ∀ j, j ≠ 0 → j < vs.length → vs[j]? = some (v name j)) ∧
    ∀ j : ℕ, ((j * 3 : ℕ) : ℝ) * dt ≤ 5 →
      v "thermal_energy" j + v "kinetic_energy" j ≤ Real.exp (|40 / 3| * (((j * 3 : ℕ) : ℝ) * dt)) * E0 + C * dt ^ 4 := by
  have hgood := report_good m hm 1 (1 / 10) 5 one_pos
  obtain ⟨A, hA, a1, a2⟩ := hgood.density
  obtain ⟨B, hB, b1, b2⟩ := hgood.omega
  obtain ⟨D, N0, V0, U0, -, -, -, -, C, dt0, -, hdt0, H⟩ := C147_run_growth (m := m) (dx := 2 * Real.pi / m) numpyBackend hm
    (.inl rfl) (theHW numpyBackend (reportArgs m 1 (1 / 10) 5)) (by positivity) A B ⟨a1, a2⟩ ⟨b1, b2⟩ rfl
    (by norm_num [theHW, HW.init, reportArgs, waveArgs]) 5 (by norm_num)
  refine ⟨C, dt0, N0 + V0, hdt0, fun dt hdt hle => ?_⟩
  obtain ⟨-, f, f1, v, h1, h2⟩ := H ℝ _ inferInstance reportEnv (reportArgs m dt (1 / 10) 5) ⟨fun _ => none, []⟩ m
    (report_good m hm dt _ _ hdt) rfl (by norm_num [reportArgs]) rfl hA hB rfl (by norm_num [reportArgs]) hle rfl (fun _ => rfl)
    (report_noDown ..) (report_dx ..) (fun _ h => h)
  exact ⟨f, v, f1, h1, fun j hj => (h2 j _ rfl hj).1⟩

/-- the particle flux of the wave with viscosity 100 in the file falls below one millionth -/
example (m : ℕ) (hm : 2 ≤ m) : ∃ T0 : ℝ, 0 ≤ T0 ∧ ∀ T : ℝ, T0 < T → ∃ dt0 : ℝ, 0 < dt0 ∧ ∀ dt, 0 < dt → dt ≤ dt0 →
    ∃ (f : H5 ℝ ℝ) (v : String → ℕ → ℝ), (run reportEnv (reportArgs m dt 100 T) ⟨fun _ => none, []⟩).2.fs "run.h5" = some f ∧
      (∀ name ∈ propertyTable, ∃ vs : List ℝ, f.dsets name = some (.flat (vs.map Casts.f32)) ∧ vs.length = ⌊T / dt⌋.toNat / 3 + 1 ∧
        ∀ j, j ≠ 0 → j < vs.length → vs[j]? = some (v name j)) ∧
      ∀ j : ℕ, T0 ≤ ((j * 3 : ℕ) : ℝ) * dt → ((j * 3 : ℕ) : ℝ) * dt ≤ T →
        v "kinetic_energy" j ≤ 1 / 1000000 ∧ |v "gamma_n" j| ≤ 1 / 1000000 := by
  have m0 : 0 < m := by omega
  have mr : (2 : ℝ) ≤ m := by exact_mod_cast hm
  have hp := Real.pi_pos
  have hp4 := Real.pi_lt_four
  have hgood := report_good m m0 1 100 1 one_pos
  obtain ⟨A, hA, a1, a2⟩ := hgood.density
  obtain ⟨B, hB, b1, b2⟩ := hgood.omega
  obtain ⟨T0, t0, H⟩ := C151_run_dies_out (m := m) (b := numpyBackend)
    (P := ⟨2 * Real.pi / m, 1, 3, 100, (reportArgs m 1 100 1).poisson_bracket_coeff, 40 / 3, false⟩)
    (hw := theHW numpyBackend (reportArgs m 1 100 1)) m0 (.inl rfl) rfl (by positivity) le_rfl (by norm_num) (by norm_num) (by
      have a := Real.mul_le_sin (x := Real.pi / m) (by positivity) (by
        rw [div_le_div_iff₀ (by positivity) two_pos]; nlinarith)
      have e : 2 / Real.pi * (Real.pi / m) = 2 / m := by field_simp
      rw [e] at a
      have b : (2 / (m : ℝ)) ^ 2 ≤ Real.sin (Real.pi / m) ^ 2 := pow_le_pow_left₀ (by positivity) a 2
      unfold slowest
      simp only [max_self, pow_one]
      have c : (1 : ℝ) / 4 ≤ 4 * Real.sin (Real.pi / m) ^ 2 / (2 * Real.pi / m) ^ 2 := by
        rw [le_div_iff₀ (by positivity)]
        have : (2 * Real.pi / m) ^ 2 = (2 / (m : ℝ)) ^ 2 * Real.pi ^ 2 := by ring
        rw [this]
        have : Real.pi ^ 2 ≤ 16 := by nlinarith
        nlinarith [sq_nonneg (2 / (m : ℝ))]
      rw [abs_of_pos (by norm_num)]
      linarith) A B ⟨a1, a2⟩ ⟨b1, b2⟩ (1 / 1000000) (by norm_num)
  refine ⟨T0, t0, fun T hT => ?_⟩
  obtain ⟨dt0, hdt0, H⟩ := H T
  refine ⟨dt0, hdt0, fun dt hdt hle => ?_⟩
  obtain ⟨-, f, f1, v, h1, h2⟩ := H ℝ _ inferInstance reportEnv (reportArgs m dt 100 T) ⟨fun _ => none, []⟩ m
    (report_good m m0 dt _ _ hdt) rfl rfl hA hB rfl (t0.trans hT.le) hle rfl (fun _ => rfl)
    (report_noDown ..) (report_dx ..) (fun _ h => h)
  exact ⟨f, v, f1, h1, fun j hj1 hj2 => (h2 j _ rfl hj1 hj2).2⟩

end Verif.Props
