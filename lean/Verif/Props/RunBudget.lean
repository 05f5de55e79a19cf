import Verif.Props.RunReported

/-!
# C145 for `run`: the budgets of energy and enstrophy from the properties `run` computes
-/

set_option linter.unusedSectionVars false

namespace Verif.Props

open Arr NS Spec Set H5IO Run Run2 RunProperties Properties

attribute [local instance] exactOps

variable {hw : HW} {dx : ℝ} {m : ℕ}

/-- **C145 (`run`).**  For every simulation (`b`, parameters in `hw`, spacing `dx`) with non-negative viscosity, every initial density
and vorticity and every time `T`: there are a constant `C` and a largest step size such that for every call of `run` to a
new file with these data, without downsampling, the entries `1, 2, ...` of the datasets `<name>` satisfy the budgets of
`C145_file_budgets` (`run` has the original coupling only). -/
theorem C145_run_budgets (b : Backend) (hm : 0 < m) (hb : Std b m m) (hw : HW) (hdx : dx ≠ 0) (A B : Arr ℝ) (T : ℝ) (hT : 0 ≤ T) :
    ∃ C dt0, 0 ≤ C ∧ 0 < dt0 ∧
      ∀ (β : Type) (_ : Casts ℝ β) (_ : Inhabited β) (E : Env ℝ β) (a : Args ℝ) (σ : St ℝ β) (ns : ℕ),
        GoodArgs E b a σ ns → a.grid_pts = m → theHW b a = hw → 0 ≤ a.nu → a.dx = dx → a.density0 = .arr A → a.omega0 = .arr B →
        a.recording_start_time = 0 → 0 ≤ a.end_time → a.step_size ≤ dt0 →
        E.props = hwProps → (∀ x : ℝ, Casts.f64 (Casts.f32 x : β) = x) → downsampling a.downsample_factor = false →
        a.dx = 2 * Real.pi / a.k0 / a.grid_pts → (∀ name ∈ a.properties, name ∈ propertyTable) →
        (run E a σ).1 = .ok () ∧ ∃ f : H5 ℝ β, (run E a σ).2.fs a.output_path = some f ∧
          ∃ v : String → ℕ → ℝ,
            (∀ name ∈ a.properties, ∃ vs : List ℝ, f.dsets name = some (.flat (vs.map Casts.f32)) ∧
              vs.length = ⌊a.end_time / a.step_size⌋.toNat / a.snaps + 1 ∧
              ∀ j, j ≠ 0 → j < vs.length → vs[j]? = some (v name j)) ∧
            ∀ i k : ℕ, i ≠ 0 → i ≤ k → k ≤ ⌊a.end_time / a.step_size⌋.toNat / a.snaps → k * (a.snaps * a.step_size) ≤ T →
              ("enstrophy" ∈ a.properties → "gamma_n" ∈ a.properties →
                v "enstrophy" k - v "enstrophy" i
                  ≤ trapez (a.snaps * a.step_size) (fun j => a.kappa_coeff * v "gamma_n" j) i k + C * (a.snaps * a.step_size) ^ 2 ∧
                (a.nu = 0 → |v "enstrophy" k - v "enstrophy" i
                  - trapez (a.snaps * a.step_size) (fun j => a.kappa_coeff * v "gamma_n" j) i k| ≤ C * (a.snaps * a.step_size) ^ 2)) ∧
              ("thermal_energy" ∈ a.properties → "kinetic_energy" ∈ a.properties → "gamma_n" ∈ a.properties →
                "gamma_c" ∈ a.properties →
                v "thermal_energy" k + v "kinetic_energy" k - (v "thermal_energy" i + v "kinetic_energy" i)
                  ≤ trapez (a.snaps * a.step_size) (fun j => a.kappa_coeff * v "gamma_n" j - v "gamma_c" j) i k + C * (a.snaps * a.step_size) ^ 2 ∧
                (a.nu = 0 → |v "thermal_energy" k + v "kinetic_energy" k - (v "thermal_energy" i + v "kinetic_energy" i)
                  - trapez (a.snaps * a.step_size) (fun j => a.kappa_coeff * v "gamma_n" j - v "gamma_c" j) i k| ≤ C * (a.snaps * a.step_size) ^ 2)) := by
  by_cases hdata : hw.backend = b ∧ 0 ≤ (-1) ^ (hw.N + 1) * hw.nu ∧ (A.h = m ∧ A.w = m) ∧ (B.h = m ∧ B.w = m)
  swap
  · -- no call has such data
    refine ⟨0, 1, le_rfl, one_pos, fun β _ _ E a σ ns hg hgrid ehw hnu ed hA hB => ?_⟩
    exfalso
    refine hdata ⟨by rw [← ehw]; rfl, ?_, ?_, ?_⟩
    · rw [← ehw]
      unfold theHW HW.init
      simp only
      rw [← mul_assoc, ← mul_pow]
      norm_num [hnu]
    · obtain ⟨A', q1, q2, q3⟩ := hg.density
      rw [hA] at q1
      cases q1
      exact ⟨q2.trans hgrid, q3.trans hgrid⟩
    · obtain ⟨A', q1, q2, q3⟩ := hg.omega
      rw [hB] at q1
      cases q1
      exact ⟨q2.trans hgrid, q3.trans hgrid⟩
  obtain ⟨eb, hnu, ⟨a1, a2⟩, b1, b2⟩ := hdata
  have hb' : Std hw.backend m m := eb ▸ hb
  obtain ⟨D, c1, c2, hD⟩ := get_phi_exists (hw := hw) hm hb' dx b1 b2
  have hs0 := startState_isState hw.TEST_CONSERVATION a1 a2 b1 b2 c1 c2
  have hc : Consistent hw dx (startState A B D) := hD
  obtain ⟨C, dt0, hC, hdt0, H⟩ := reported_budget hm hb' hdx hnu _ hs0 hc T hT
  refine ⟨C, dt0, hC, hdt0, fun β _ _ E a σ ns hg hgrid ehw hnu' ed eA eB hstart hend hle hP hx hds hdxk hnames => ?_⟩
  obtain ⟨S, v, hS, hv, hbud⟩ := H a.step_size hg.step.le hle
  have ec : hw.c1 = a.c1 := by rw [← ehw]; rfl
  have ek : hw.kappa_coeff = a.kappa_coeff := by rw [← ehw]; rfl
  have ez : hw.zonal = false := by rw [← ehw]; rfl
  have en : a.nu = 0 → hw.nu = 0 := by
    intro h
    rw [← ehw]
    unfold theHW HW.init
    simp only
    rw [h, mul_zero]
  rw [← ehw, ← ed] at hS hD
  rw [← ed, ec] at hv
  obtain ⟨r1, f, r2, r3⟩ := computed_known hg hstart hend hP hx hds hdxk hnames eA eB hD hS hv
  refine ⟨r1, f, r2, fun name j => v name (j * a.snaps), r3, fun i k hi hik hk hkT => ?_⟩
  obtain ⟨⟨R1, R2⟩, R3⟩ := hbud a.snaps hg.snaps i k hik hkT
  have R3 := R3 ez
  rw [ek] at R1 R2 R3
  exact ⟨fun _ _ => ⟨R1, fun h => R2 (en h)⟩, fun _ _ _ _ => ⟨R3.1, fun h => R3.2 (en h)⟩⟩

attribute [-instance] physCasts
attribute [local instance] exactCasts

/-- the energy of the inviscid wave changes as `gamma_n - gamma_c` in the file says -/
example (m : ℕ) (hm : 0 < m) : ∃ C dt0 : ℝ, 0 < dt0 ∧ ∀ dt, 0 < dt → dt ≤ dt0 → ∃ (f : H5 ℝ ℝ) (v : String → ℕ → ℝ),
    (run reportEnv (reportArgs m dt 0 5) ⟨fun _ => none, []⟩).2.fs "run.h5" = some f ∧
    (∀ name ∈ propertyTable, ∃ vs : List ℝ, f.dsets name = some (.flat (vs.map Casts.f32)) ∧ vs.length = ⌊5 / dt⌋.toNat / 3 + 1 ∧
      ∀ j, j ≠ 0 → j < vs.length → vs[j]? = some (v name j)) ∧
    ∀ k : ℕ, k ≠ 0 → k ≤ ⌊5 / dt⌋.toNat / 3 → k * (3 * dt) ≤ 5 →
      |v "thermal_energy" k + v "kinetic_energy" k - (v "thermal_energy" 1 + v "kinetic_energy" 1)
        - trapez (3 * dt) (fun j => 40 / 3 * v "gamma_n" j - v "gamma_c" j) 1 k| ≤ C * (3 * dt) ^ 2 := by
  obtain ⟨C, dt0, -, hdt0, H⟩ := C145_run_budgets (m := m) (dx := 2 * Real.pi / m) numpyBackend hm (.inl rfl)
    (theHW numpyBackend (reportArgs m 1 0 5)) (by positivity) _ _ 5 (by norm_num)
  refine ⟨C, dt0, hdt0, fun dt hdt hle => ?_⟩
  obtain ⟨-, f, f1, v, h1, h2⟩ := H ℝ _ inferInstance reportEnv (reportArgs m dt 0 5) ⟨fun _ => none, []⟩ m
    (report_good m hm dt 0 5 hdt) rfl rfl le_rfl rfl rfl rfl rfl (by norm_num [reportArgs]) hle rfl (fun _ => rfl)
    (report_noDown ..) (report_dx ..) (fun _ h => h)
  refine ⟨f, v, f1, h1, fun k hk hkc hkT => ?_⟩
  have mem : ∀ name ∈ propertyTable, name ∈ (reportArgs m dt 0 5).properties := fun _ h => h
  exact ((h2 1 k one_ne_zero (Nat.pos_of_ne_zero hk) hkc hkT).2 (mem _ (by decide)) (mem _ (by decide)) (mem _ (by decide))
    (mem _ (by decide))).2 rfl

end Verif.Props
