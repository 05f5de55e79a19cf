import Verif.Props.FileBudget

/-!
# C147: how fast the recorded energy and enstrophy can grow
-/

set_option linter.unusedSectionVars false

namespace Verif.Props

open Arr NS Spec Set H5IO Run Run2 RunProperties Properties

attribute [local instance] exactOps

variable {hw : HW} {dx : ℝ} {m : ℕ}

/-- what `fullres_<name>` holds: the value of the property function on the states of the simulation -/
theorem recorded_frames {β : Type} [Casts ℝ β] [Inhabited β] {E : Env2 ℝ β} {b : Backend} {a : Args2 ℝ} {σ : St ℝ β} {ns : ℕ}
    (hg : GoodArgs2 E b a σ ns) (hstart : a.recording_start_time = 0) (hendp : 0 < a.end_time) (hE : E.propertyFn = propertyFncs)
    (hnames : ∀ name ∈ a.properties, name ∈ propertyTable) :
    ∃ (A B D : Arr ℝ) (S : ℕ → NS Val), a.density0 = .arr A ∧ a.omega0 = .arr B ∧
      (∀ c, ∃ c', (theHW2 b a).get_phi B a.dx c = .ok (D, c')) ∧
      (∀ n c, ∃ c', history (theHW2 b a) a.dx (List.replicate n (.rk4 a.step_size)) (startState A B D) c = .ok (S n, c')) ∧
      ∃ count, IsLeast {k : ℕ | a.end_time ≤ FloatOps.round4 ((k : ℝ) * a.step_size)} count ∧ ∀ fuel, count < fuel →
        (run2 E a fuel σ).1 ≠ .ok none ∧ ∃ f : H5 ℝ β, (run2 E a fuel σ).2.fs a.output_path = some f ∧
          ∀ name ∈ a.properties, ∃ rows, f.dsets ("fullres_" ++ name) = some (.rows .one rows) ∧ rows.length = count / a.snaps + 1 ∧
            ∀ j, j ≠ 0 → j ≤ count / a.snaps → ∃ x, rows[j]? = some (.num (Casts.f32 x)) ∧
              propValue name a.dx a.c1 (arrOf (S (j * a.snaps)) "density") (arrOf (S (j * a.snaps)) "phi")
                (arrOf (S (j * a.snaps)) "omega") = .ok x := by
  obtain ⟨A, B, D, S, qA, qB, qD, hS, hR⟩ := fresh2_physics hg
  obtain ⟨count, hcount, hrun⟩ := hR a.end_time
  have hua : a.until a.end_time = a := rfl
  rw [hua] at hrun
  have hcpos : 0 < count := by
    rcases Nat.eq_zero_or_pos count with rfl | h
    · have := hcount.1
      simp only [mem_ofPred_eq, Nat.cast_zero, zero_mul] at this
      have e0 : (FloatOps.round4 (0 : ℝ)) = 0 := by simp [FloatOps.round4, roundEven]
      rw [e0] at this
      exact absurd hendp (not_lt.mpr this)
    · exact h
  refine ⟨A, B, D, S, qA, qB, qD, hS, count, hcount, fun fuel hfuel => ?_⟩
  have hend : FloatOps.lt a.recording_start_time (timeAt E a (FloatOps.ofInt 0) count) = true := by
    rw [exact_timeAt hg.sum, hstart]
    refine decide_eq_true ?_
    have e0 : (FloatOps.ofInt 0 : ℝ) = 0 := by simp [FloatOps.ofInt]
    rw [e0, zero_add]
    have : (0 : ℝ) < count := by exact_mod_cast hcpos
    exact mul_pos this hg.step
  obtain ⟨f, f1, f2, -, f3⟩ := C52_all_written_partial hrun hfuel hend
  refine ⟨f2, f, f1, fun name hname => ?_⟩
  obtain ⟨rows, r1, r2⟩ := f3 name hname fun hc => fullres_not_propertyName name (hnames _ hc)
  have hlen : rows.length = count / a.snaps + 1 := by
    rw [← r2.length_eq, frames2_length hg.sum hg.step hstart]
  refine ⟨rows, r1, hlen, fun j hj0 hj => ?_⟩
  have hfr := frames2_get (S := fun n => toCells (S n)) (m := count) hg.sum hg.step hstart hj0 hj
  have hj' : j < rows.length := by omega
  have hjf : j < (frames2 E a (fun n => toCells (S n)) count).length := by rw [r2.length_eq]; exact hj'
  obtain ⟨x, ⟨F, n, p, o, v1, v2, v3, v4, v5⟩, v6⟩ := List.forall₂_iff_get.mp r2 |>.2 j hjf hj'
  have hget : (frames2 E a (fun n => toCells (S n)) count).get ⟨j, hjf⟩ = (((j * a.snaps : ℕ) : ℝ) * a.step_size, toCells (S (j * a.snaps))) := by
    rw [List.getElem?_eq_getElem hjf] at hfr
    exact Option.some.inj hfr
  rw [hget] at v2 v3 v4
  refine ⟨x, by rw [List.getElem?_eq_getElem hj']; exact congrArg some v6, ?_⟩
  rw [hE, propertyFncs_eq (hnames _ hname)] at v1
  have v1 := Option.some.inj v1
  subst v1
  cases n with
  | num x => cases v5
  | arr n =>
    cases p with
    | num x => cases v5
    | arr p =>
      cases o with
      | num x => cases v5
      | arr o => rw [arrOf_of_toCells v2, arrOf_of_toCells v3, arrOf_of_toCells v4]; exact v5

/-- the reported values along the simulation -/
theorem reported_growth (m0 : 0 < m) (hb : Std hw.backend m m) (hdx : dx ≠ 0) (hc1 : 0 ≤ hw.c1) (hnu : 0 ≤ (-1) ^ (hw.N + 1) * hw.nu)
    (s : NS Val) (hs : IsState hw.TEST_CONSERVATION m m s) (hc : Consistent hw dx s) (T : ℝ) (hT : 0 ≤ T) :
    ∃ C dt0, 0 ≤ C ∧ 0 < dt0 ∧ ∀ dt, 0 ≤ dt → dt ≤ dt0 →
      ∃ (S : ℕ → NS Val) (v : String → ℕ → ℝ), S 0 = s ∧
        (∀ j c, ∃ c', history hw dx (List.replicate j (.rk4 dt)) s c = .ok (S j, c')) ∧
        (∀ name ∈ propertyTable, ∀ j,
          propValue name dx hw.c1 (arrOf (S j) "density") (arrOf (S j) "phi") (arrOf (S j) "omega") = .ok (v name j)) ∧
        ∀ k : ℕ, k * dt ≤ T →
          v "thermal_energy" k + v "kinetic_energy" k
            ≤ Real.exp (|hw.kappa_coeff| * (k * dt)) * (v "thermal_energy" 0 + v "kinetic_energy" 0) + C * dt ^ 4 ∧
          v "enstrophy" k ≤ v "enstrophy" 0
            + (Real.exp (|hw.kappa_coeff| * (k * dt)) - 1) * (v "thermal_energy" 0 + v "kinetic_energy" 0) + C * dt ^ 4 := by
  have : NeZero m := ⟨m0.ne'⟩
  obtain ⟨ks, u, hk, hn, rfl⟩ := hs.exists_mk
  rw [consistent_mk hw hb.good dx hk] at hc
  obtain ⟨C, d0, hC, hd0, H⟩ := energy_fields (parOf hw dx) hw.dx hdx hc1 hnu u hc T hT
  refine ⟨C, d0, hC, hd0, fun dt hdt hd => ?_⟩
  let t : ℕ → Sta m m := fun j => histS (parOf hw dx) hw.dx (List.replicate j (.rk4 dt)) u
  have ht : ∀ j, (t j).2.2.1 = phiF dx (t j).2.1 := fun j => histS_phi (parOf hw dx) hw.dx _ u hc
  have hkj : ∀ j, GoodKeys (histKeys (List.replicate j (.rk4 dt)) ks) hw.TEST_CONSERVATION :=
    fun j => goodKeys_hist _ hk
  let S : ℕ → NS Val := fun j => NS.mk (histKeys (List.replicate j (.rk4 dt)) ks) (st (t j))
  let v : String → ℕ → ℝ := fun name j => reportedVal dx hw.c1 (t j).1 (t j).2.1 name
  have hv : ∀ name ∈ propertyTable, ∀ j,
      propValue name dx hw.c1 (arrOf (S j) "density") (arrOf (S j) "phi") (arrOf (S j) "omega") = .ok (v name j) := by
    intro name h j
    simp only [S, arrOf_density (hkj j), arrOf_omega (hkj j), arrOf_phi (hkj j), ht j]
    obtain ⟨x, hx⟩ := propValue_ok h dx hw.c1 m0 (n := ofField (t j).1) (p := ofField (phiF dx (t j).2.1)) (o := ofField (t j).2.1)
      ⟨rfl, rfl⟩ ⟨rfl, rfl⟩ ⟨rfl, rfl⟩
    exact hx.trans (congrArg Except.ok (reportedVal_eq hx).symm)
  have vU : ∀ j, v "enstrophy" j = usC (prj (t j)) (prj (t j)) := fun j => reported_enstrophy _ _ _ _
  have vE : ∀ j, v "thermal_energy" j + v "kinetic_energy" j = enC dx (prj (t j)) (prj (t j)) := fun j =>
    reported_energy hdx _ _ _
  have hS : ∀ j c, ∃ c', history hw dx (List.replicate j (.rk4 dt)) (NS.mk ks (st u)) c = .ok (S j, c') :=
    fun j c => ⟨_, history_eval hw dx hb.good hk _ u c⟩
  refine ⟨S, v, rfl, hS, hv, fun k hkT => ?_⟩
  clear_value v S
  have R := H dt hdt hd k hkT _ rfl
  rw [vE, vE, vU, vU]
  exact R

/-- **C147.**  For every simulation (backend `b`, parameters in `hw`, spacing `dx`) with non-negative coupling and viscosity, every
initial density `A` and vorticity `B` with thermal energy `N0`, kinetic energy `V0` (of the potential of `B`) and enstrophy
`U0`, and every time `T`: there are a constant `C` and a largest step size such that for every call of `run2` to a new file with these
data, the sum of the recorded thermal and kinetic energy of frame `j ≥ 1`, up to the time `T`, is at most
`exp(|kappa| t) (N0 + V0)` and the recorded enstrophy at most `U0 + (exp(|kappa| t) - 1) (N0 + V0)`, both up to
`C * step_size⁴`, at the time `t` of the frame (up to the rounding to `float32`). -/
theorem C147_recorded_growth (b : Backend) (hm : 0 < m) (hb : Std b m m) (hw : HW) (hdx : dx ≠ 0) (A B : Arr ℝ) (hA : A.h = m ∧ A.w = m)
    (hB : B.h = m ∧ B.w = m) (hbw : hw.backend = b) (hc1 : 0 ≤ hw.c1) (T : ℝ) (hT : 0 ≤ T) :
    ∃ (D : Arr ℝ) (N0 V0 U0 : ℝ), (∀ c, ∃ c', hw.get_phi B dx c = .ok (D, c')) ∧ get_energy_N_spectrally A = .ok N0 ∧
      get_energy_V_spectrally D dx = .ok V0 ∧ get_enstrophy A B dx = .ok U0 ∧
    ∃ C dt0, 0 ≤ C ∧ 0 < dt0 ∧
      ∀ (β : Type) (_ : Casts ℝ β) (_ : Inhabited β) (E : Env2 ℝ β) (a : Args2 ℝ) (σ : St ℝ β) (ns : ℕ),
        GoodArgs2 E b a σ ns → theHW2 b a = hw → 0 ≤ a.nu → a.dx = dx → a.density0 = .arr A → a.omega0 = .arr B →
        a.recording_start_time = 0 → 0 < a.end_time → a.step_size ≤ dt0 →
        E.propertyFn = propertyFncs → (∀ name ∈ a.properties, name ∈ propertyTable) →
        ∃ count, IsLeast {k : ℕ | a.end_time ≤ FloatOps.round4 ((k : ℝ) * a.step_size)} count ∧ ∀ fuel, count < fuel →
        (run2 E a fuel σ).1 ≠ .ok none ∧ ∃ f : H5 ℝ β, (run2 E a fuel σ).2.fs a.output_path = some f ∧
          ∃ v : String → ℕ → ℝ,
            (∀ name ∈ a.properties, ∃ rows, f.dsets ("fullres_" ++ name) = some (.rows .one rows) ∧ rows.length = count / a.snaps + 1 ∧
              ∀ j, j ≠ 0 → j ≤ count / a.snaps → rows[j]? = some (.num (Casts.f32 (v name j)))) ∧
            ∀ j : ℕ, ∀ t : ℝ, t = ((j * a.snaps : ℕ) : ℝ) * a.step_size → t ≤ T →
              v "thermal_energy" j + v "kinetic_energy" j ≤ Real.exp (|a.kappa_coeff| * t) * (N0 + V0) + C * a.step_size ^ 4 ∧
              v "enstrophy" j ≤ U0 + (Real.exp (|a.kappa_coeff| * t) - 1) * (N0 + V0) + C * a.step_size ^ 4 := by
  have hb' : Std hw.backend m m := by rw [hbw]; exact hb
  obtain ⟨D, c1, c2, hD⟩ := get_phi_exists (hw := hw) hm hb' dx hB.1 hB.2
  have hs0 := startState_isState hw.TEST_CONSERVATION hA.1 hA.2 hB.1 hB.2 c1 c2
  have hc : Consistent hw dx (startState A B D) := hD
  have val : ∀ name ∈ propertyTable, ∃ x, propValue name dx hw.c1 A D B = .ok x := fun name h =>
    propValue_ok h dx hw.c1 hm hA ⟨c1, c2⟩ hB
  obtain ⟨N0, hN⟩ := val "thermal_energy" (by decide)
  obtain ⟨V0, hV⟩ := val "kinetic_energy" (by decide)
  obtain ⟨U0, hU⟩ := val "enstrophy" (by decide)
  have hN' : get_energy_N_spectrally A = .ok N0 := by
    unfold propValue at hN
    simpa only [String.reduceEq, if_false, if_true] using hN
  have hV' : get_energy_V_spectrally D dx = .ok V0 := by
    unfold propValue at hV
    simpa only [String.reduceEq, if_false, if_true] using hV
  have hU' : get_enstrophy A B dx = .ok U0 := by
    unfold propValue at hU
    simpa only [String.reduceEq, if_false, if_true] using hU
  refine ⟨D, N0, V0, U0, hD, hN', hV', hU', ?_⟩
  by_cases hnu : 0 ≤ (-1) ^ (hw.N + 1) * hw.nu
  swap
  · -- no call has such data
    refine ⟨0, 1, le_rfl, one_pos, fun β _ _ E a σ ns hg ehw hnu' => ?_⟩
    exfalso
    refine hnu ?_
    rw [← ehw]
    unfold theHW2 HW.init
    simp only
    rw [← mul_assoc, ← mul_pow]
    norm_num [hnu']
  obtain ⟨C, dt0, hC, hdt0, H⟩ := reported_growth hm hb' hdx hc1 hnu _ hs0 hc T hT
  refine ⟨C, dt0, hC, hdt0, fun β _ _ E a σ ns hg ehw hnu' ed eA eB hstart hendp hle hE hnames => ?_⟩
  obtain ⟨A', B', D', S, qA, qB, qD, hS, count, hcount, hrec⟩ := recorded_frames hg hstart hendp hE hnames
  have eA : A' = A := by rw [eA] at qA; cases qA; rfl
  have eB : B' = B := by rw [eB] at qB; cases qB; rfl
  have eD : D' = D := by
    obtain ⟨c1, q1⟩ := qD {}
    obtain ⟨c2, q2⟩ := hD {}
    rw [ehw, eB, ed, q2] at q1
    injection q1 with q1
    injection q1 with q1 _
    exact q1.symm
  rw [ehw, eA, eB, eD, ed] at hS
  obtain ⟨S', v, hS0, hS', hv, hbud⟩ := H a.step_size hg.step.le hle
  have eS : ∀ j, S j = S' j := by
    intro j
    obtain ⟨c1, q1⟩ := hS j {}
    obtain ⟨c2, q2⟩ := hS' j {}
    rw [q1] at q2
    injection q2 with q2
    injection q2 with q2 _
  have v0 : ∀ name ∈ propertyTable, propValue name dx hw.c1 A D B = .ok (v name 0) := by
    intro name h
    have := hv name h 0
    rw [hS0] at this
    exact this
  have eN : v "thermal_energy" 0 = N0 := Except.ok.inj ((v0 _ (by decide)).symm.trans hN)
  have eV : v "kinetic_energy" 0 = V0 := Except.ok.inj ((v0 _ (by decide)).symm.trans hV)
  have eU : v "enstrophy" 0 = U0 := Except.ok.inj ((v0 _ (by decide)).symm.trans hU)
  refine ⟨count, hcount, fun fuel hfuel => ?_⟩
  obtain ⟨r1, f, r2, r3⟩ := hrec fuel hfuel
  refine ⟨r1, f, r2, fun name j => v name (j * a.snaps), fun name hname => ?_, fun j t ht htT => ?_⟩
  · obtain ⟨rows, q1, q2, q3⟩ := r3 name hname
    refine ⟨rows, q1, q2, fun j hj0 hj => ?_⟩
    obtain ⟨x, x1, x2⟩ := q3 j hj0 hj
    have ec : a.c1 = hw.c1 := by rw [← ehw]; rfl
    rw [ed, ec, eS, hv name (hnames _ hname)] at x2
    rw [x1]
    exact congrArg (fun y => some (Cell.num (Casts.f32 y))) (Except.ok.inj x2).symm
  · have R := hbud (j * a.snaps) (by rw [← ht]; exact htT)
    have ek : hw.kappa_coeff = a.kappa_coeff := by rw [← ehw]; rfl
    rw [eN, eV, eU, ek, ← ht] at R
    exact R

/-- the energy of the viscous drift wave in the file, every third step recorded -/
example (m : ℕ) (hm : 0 < m) : ∃ C dt0 E0 : ℝ, 0 < dt0 ∧ ∀ dt, 0 < dt → dt ≤ dt0 → ∃ count, ∀ fuel, count < fuel →
    ∃ (f : H5 ℝ ℝ) (v : String → ℕ → ℝ),
      (run2 propsEnv (waveArgsN m dt (1 / 10)) fuel ⟨fun _ => none, []⟩).2.fs "run.h5" = some f ∧
      (∀ name ∈ propertyTable, ∃ rows, f.dsets ("fullres_" ++ name) = some (.rows .one rows) ∧ rows.length = count / 3 + 1 ∧
        ∀ j, j ≠ 0 → j ≤ count / 3 → rows[j]? = some (.num (Casts.f32 (v name j)))) ∧
      ∀ j : ℕ, ((j * 3 : ℕ) : ℝ) * dt ≤ 5 →
        v "thermal_energy" j + v "kinetic_energy" j ≤ Real.exp (|40 / 3| * (((j * 3 : ℕ) : ℝ) * dt)) * E0 + C * dt ^ 4 := by
  have hgood := waveArgsN_good m hm 1 (1 / 10) one_pos
  obtain ⟨A, hA, a1, a2⟩ := hgood.density
  obtain ⟨B, hB, b1, b2⟩ := hgood.omega
  obtain ⟨D, N0, V0, U0, -, -, -, -, C, dt0, -, hdt0, H⟩ := C147_recorded_growth (m := m) (dx := (waveArgsN m 1 (1 / 10)).dx) numpyBackend hm
    (.inl rfl) (theHW2 numpyBackend (waveArgsN m 1 (1 / 10)))
    (by
      have h := (waveArgs2_poses m hm 1).spacing
      intro h0
      have h0 : (waveArgs2 m 1).dx = 0 := h0
      rw [h0, mul_zero] at h
      exact absurd h.symm (by positivity)) A B ⟨a1, a2⟩ ⟨b1, b2⟩ rfl (by norm_num [theHW2, HW.init, waveArgsN, waveArgs2, waveArgs]) 5 (by norm_num)
  refine ⟨C, dt0, N0 + V0, hdt0, fun dt hdt hle => ?_⟩
  obtain ⟨count, -, H⟩ := H ℝ _ inferInstance propsEnv (waveArgsN m dt (1 / 10)) ⟨fun _ => none, []⟩ m (waveArgsN_good m hm dt _ hdt) rfl
    (by norm_num [waveArgsN]) rfl hA hB rfl (by norm_num [waveArgsN, waveArgs2, waveArgs]) hle rfl (fun _ h => h)
  refine ⟨count, fun fuel hf => ?_⟩
  obtain ⟨-, f, f1, v, h1, h2⟩ := H fuel hf
  exact ⟨f, v, f1, h1, fun j hj => (h2 j _ rfl hj).1⟩

end Verif.Props
