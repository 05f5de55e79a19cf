import Verif.Props.Budget
import Verif.Lemmas.BudgetSnaps
import Verif.Props.EnergyBound
import Verif.Props.Measured

/-!
# C145: the budgets of energy and enstrophy hold for the properties in the file
-/

set_option linter.unusedSectionVars false

namespace Verif.Props

open Arr NS Spec Set H5IO Run Run2 RunProperties Properties

attribute [local instance] exactOps

variable {hw : HW} {dx : ℝ} {m : ℕ}

/-- The trapezoidal rule for the time integral of `r` from frame `i` to frame `k` -/
noncomputable def trapez (dt : ℝ) (r : ℕ → ℝ) (i k : ℕ) : ℝ := dt * ∑ j ∈ Finset.Ico i k, (r j + r (j + 1)) / 2

theorem trapez_le {dt : ℝ} (hdt : 0 ≤ dt) {r r' : ℕ → ℝ} (h : ∀ j, r j ≤ r' j) (i k : ℕ) : trapez dt r i k ≤ trapez dt r' i k := by
  unfold trapez
  refine mul_le_mul_of_nonneg_left (Finset.sum_le_sum fun j _ => ?_) hdt
  have := h j
  have := h (j + 1)
  linarith

theorem trapez_diff {dt B : ℝ} {r q : ℕ → ℝ} {i k : ℕ} (hik : i ≤ k)
    (h1 : |q i - q 0 - dt * ∑ j ∈ Finset.range i, (r j + r (j + 1)) / 2| ≤ B)
    (h2 : |q k - q 0 - dt * ∑ j ∈ Finset.range k, (r j + r (j + 1)) / 2| ≤ B) :
    |q k - q i - trapez dt r i k| ≤ 2 * B := by
  unfold trapez
  rw [Finset.sum_Ico_eq_sub _ hik]
  rw [abs_le] at h1 h2 ⊢
  constructor <;> nlinarith [h1.1, h1.2, h2.1, h2.2]

section fields
variable [NeZero m]

/-- what the property functions report of a state with density `n`, vorticity `o` and the potential of `o` -/
noncomputable def reportedVal (dx c1 : ℝ) (n o : Fld m m) (name : String) : ℝ :=
  match propValue name dx c1 (ofField n) (ofField (phiF dx o)) (ofField o) with
  | .ok x => x
  | .error _ => 0

theorem reportedVal_eq {dx c1 : ℝ} {n o : Fld m m} {name : String} {x : ℝ}
    (h : propValue name dx c1 (ofField n) (ofField (phiF dx o)) (ofField o) = .ok x) : reportedVal dx c1 n o name = x := by
  unfold reportedVal
  rw [h]

theorem reported_gamma_n (dx c1 : ℝ) (n o : Fld m m) : reportedVal dx c1 n o "gamma_n" = gamN dx n (phiF dx o) := by
  refine reportedVal_eq ?_
  unfold propValue
  simp only [if_true]
  exact gamma_n_ofField _ _ _

theorem reported_gamma_c (dx c1 : ℝ) (n o : Fld m m) : reportedVal dx c1 n o "gamma_c" = gamC c1 n (phiF dx o) := by
  refine reportedVal_eq ?_
  unfold propValue
  simp only [String.reduceEq, if_false, if_true]
  exact gamma_c_ofField _ _ _ _

theorem reported_enstrophy (dx c1 : ℝ) (n o : Fld m m) : reportedVal dx c1 n o "enstrophy" = usC (n, o) (n, o) := by
  refine reportedVal_eq ?_
  unfold propValue
  simp only [String.reduceEq, if_false, if_true]
  rw [enstrophy_ofField, usC_apply]
  simp only [sq]

theorem reported_energy {dx : ℝ} (hdx : dx ≠ 0) (c1 : ℝ) (n o : Fld m m) :
    reportedVal dx c1 n o "thermal_energy" + reportedVal dx c1 n o "kinetic_energy" = enC dx (n, o) (n, o) := by
  have h1 : propValue "thermal_energy" dx c1 (ofField n) (ofField (phiF dx o)) (ofField o) = get_energy_N_spectrally (ofField n) := by
    unfold propValue
    simp only [String.reduceEq, if_false, if_true]
  have h2 : propValue "kinetic_energy" dx c1 (ofField n) (ofField (phiF dx o)) (ofField o)
      = get_energy_V_spectrally (ofField (phiF dx o)) dx := by
    unfold propValue
    simp only [String.reduceEq, if_false, if_true]
  rw [reportedVal_eq (h1.trans (energy_N_ofField n)), reportedVal_eq (h2.trans (energy_V_ofField (phiF dx o) dx)), energy_V_phi _ hdx, enC_apply]
  unfold avg
  rw [S_sub]
  simp only [sq]
  ring

/-- two forms along a sequence of states whose sources are those of the equations -/
theorem budget_pairs (P : Params) (hP : 0 ≤ P.nu) {dt B : ℝ} (hdt : 0 ≤ dt) {u : ℕ → Pair m m} {U E G K : ℕ → ℝ} {i k : ℕ}
    (hG : ∀ j, G j = gamN P.dx (u j).1 (phiF P.dx (u j).2)) (hK : ∀ j, K j = gamC P.c1 (u j).1 (phiF P.dx (u j).2))
    {rU rE : ℕ → ℝ} (hrU : ∀ j, rU j = ODE.rate (linC P) (bilC P) usC (u j))
    (hrE : ∀ j, rE j = ODE.rate (linC P) (bilC P) (enC P.dx) (u j))
    (hB : ∀ q ∈ [i, k], |U q - U 0 - dt * ∑ j ∈ Finset.range q, (rU j + rU (j + 1)) / 2| ≤ B ∧
      |E q - E 0 - dt * ∑ j ∈ Finset.range q, (rE j + rE (j + 1)) / 2| ≤ B) (hik : i ≤ k) :
    (U k - U i ≤ trapez dt (fun j => P.kappa * G j) i k + 2 * B ∧
      (P.nu = 0 → |U k - U i - trapez dt (fun j => P.kappa * G j) i k| ≤ 2 * B)) ∧
    (P.zonal = false →
      (E k - E i ≤ trapez dt (fun j => P.kappa * G j - K j) i k + 2 * B ∧
        (P.nu = 0 → |E k - E i - trapez dt (fun j => P.kappa * G j - K j) i k| ≤ 2 * B))) := by
  have Bi := hB i (by simp)
  have Bk := hB k (by simp)
  have D1 := trapez_diff (r := rU) (q := U) hik Bi.1 Bk.1
  have D2 := trapez_diff (r := rE) (q := E) hik Bi.2 Bk.2
  have zero : ∀ f : Fld m m, P.nu = 0 → hyper P f = 0 := by
    intro f h0
    funext i j
    unfold hyper
    simp [h0]
  refine ⟨⟨?_, fun h0 => ?_⟩, fun hz => ⟨?_, fun h0 => ?_⟩⟩
  · have : trapez dt rU i k ≤ trapez dt (fun j => P.kappa * G j) i k := by
      refine trapez_le hdt (fun j => ?_) i k
      rw [hrU, rate_us, hG]
      have := enstrophy_hyper_nonpos P hP (u j).1 (u j).2
      linarith
    linarith [(abs_le.mp D1).2]
  · have : rU = fun j => P.kappa * G j := by
      funext j
      rw [hrU, rate_us, hG]
      simp only [zero _ h0, Pi.zero_apply, sub_self, mul_zero, avg_const, add_zero]
    rw [this] at D1
    exact D1
  · have : trapez dt rE i k ≤ trapez dt (fun j => P.kappa * G j - K j) i k := by
      refine trapez_le hdt (fun j => ?_) i k
      rw [hrE, rate_en, hG, hK]
      have := energy_hyper_nonpos P hP (u j).1 (u j).2
      simp only [hz, cpl, Bool.false_eq_true, if_false]
      linarith
    linarith [(abs_le.mp D2).2]
  · have : rE = fun j => P.kappa * G j - K j := by
      funext j
      rw [hrE, rate_en, hG, hK]
      simp only [zero _ h0, hz, cpl, Bool.false_eq_true, if_false, Pi.zero_apply, sub_self, mul_zero, avg_const, add_zero]
    rw [this] at D2
    exact D2

end fields

/-- The reported values along the simulation: from every consistent state, for small enough steps. -/
theorem reported_budget (m0 : 0 < m) (hb : Std hw.backend m m) (hdx : dx ≠ 0) (hnu : 0 ≤ (-1) ^ (hw.N + 1) * hw.nu) (s : NS Val)
    (hs : IsState hw.TEST_CONSERVATION m m s) (hc : Consistent hw dx s) (T : ℝ) (hT : 0 ≤ T) :
    ∃ C dt0, 0 ≤ C ∧ 0 < dt0 ∧ ∀ dt, 0 ≤ dt → dt ≤ dt0 →
      ∃ (S : ℕ → NS Val) (v : String → ℕ → ℝ),
        (∀ j c, ∃ c', history hw dx (List.replicate j (.rk4 dt)) s c = .ok (S j, c')) ∧
        (∀ name ∈ propertyTable, ∀ j,
          propValue name dx hw.c1 (arrOf (S j) "density") (arrOf (S j) "phi") (arrOf (S j) "omega") = .ok (v name j)) ∧
        ∀ n : ℕ, 1 ≤ n → ∀ i k : ℕ, i ≤ k → k * (n * dt) ≤ T →
          (v "enstrophy" (k * n) - v "enstrophy" (i * n)
              ≤ trapez (n * dt) (fun j => hw.kappa_coeff * v "gamma_n" (j * n)) i k + C * (n * dt) ^ 2 ∧
            (hw.nu = 0 → |v "enstrophy" (k * n) - v "enstrophy" (i * n)
              - trapez (n * dt) (fun j => hw.kappa_coeff * v "gamma_n" (j * n)) i k| ≤ C * (n * dt) ^ 2)) ∧
          (hw.zonal = false →
            (v "thermal_energy" (k * n) + v "kinetic_energy" (k * n) - (v "thermal_energy" (i * n) + v "kinetic_energy" (i * n))
                ≤ trapez (n * dt) (fun j => hw.kappa_coeff * v "gamma_n" (j * n) - v "gamma_c" (j * n)) i k + C * (n * dt) ^ 2 ∧
              (hw.nu = 0 →
                |v "thermal_energy" (k * n) + v "kinetic_energy" (k * n) - (v "thermal_energy" (i * n) + v "kinetic_energy" (i * n))
                - trapez (n * dt) (fun j => hw.kappa_coeff * v "gamma_n" (j * n) - v "gamma_c" (j * n)) i k|
                  ≤ C * (n * dt) ^ 2))) := by
  have : NeZero m := ⟨m0.ne'⟩
  obtain ⟨ks, u, hk, hn, rfl⟩ := hs.exists_mk
  rw [consistent_mk hw hb.good dx hk] at hc
  obtain ⟨Y, e0, hY⟩ := exists_solutionU (parOf hw dx) hT (prj u)
  obtain ⟨C1, d1, hC1, hd1, H1⟩ := ODE.rk4_budget_snaps _ _ (enC (parOf hw dx).dx) hT hY
  obtain ⟨C2, d2, hC2, hd2, H2⟩ := ODE.rk4_budget_snaps _ _ usC hT hY
  refine ⟨2 * max C1 C2, min d1 d2, by positivity, lt_min hd1 hd2, fun dt hdt hd => ?_⟩
  let t : ℕ → Sta m m := fun j => histS (parOf hw dx) hw.dx (List.replicate j (.rk4 dt)) u
  have ht : ∀ j, (t j).2.2.1 = phiF dx (t j).2.1 := fun j => histS_phi (parOf hw dx) hw.dx _ u hc
  have hp : ∀ j, prj (t j) = (ODE.rk4 (ODE.F (linC (parOf hw dx)) (bilC (parOf hw dx))) dt)^[j] (prj u) :=
    fun j => histS_replicate _ _ _ _ (fun s hs => stepS_rk4_prj _ _ _ s hs) j u hc
  have hkj : ∀ j, GoodKeys (histKeys (List.replicate j (.rk4 dt)) ks) hw.TEST_CONSERVATION :=
    fun j => goodKeys_hist _ hk
  let S : ℕ → NS Val := fun j => NS.mk (histKeys (List.replicate j (.rk4 dt)) ks) (st (t j))
  let v : String → ℕ → ℝ := fun name j => reportedVal dx hw.c1 (t j).1 (t j).2.1 name
  have hv : ∀ name ∈ propertyTable, ∀ j,
      propValue name dx hw.c1 (arrOf (S j) "density") (arrOf (S j) "phi") (arrOf (S j) "omega") = .ok (v name j) := by
    intro name h j
    simp only [S, arrOf_density (hkj j), arrOf_omega (hkj j), arrOf_phi (hkj j), ht j]
    obtain ⟨x, hx⟩ := propValue_ok h dx hw.c1 m0 (n := ofField (t j).1) (p := ofField (phiF dx (t j).2.1)) (o := ofField (t j).2.1)
      ⟨rfl, rfl⟩ ⟨rfl, rfl⟩ ⟨rfl, rfl⟩
    exact hx.trans (congrArg Except.ok (reportedVal_eq hx).symm)
  have gN : ∀ j, v "gamma_n" j = gamN dx (t j).1 (phiF dx (t j).2.1) := fun j => reported_gamma_n _ _ _ _
  have gC : ∀ j, v "gamma_c" j = gamC hw.c1 (t j).1 (phiF dx (t j).2.1) := fun j => reported_gamma_c _ _ _ _
  have vU : ∀ j, v "enstrophy" j = usC (prj (t j)) (prj (t j)) := fun j => reported_enstrophy _ _ _ _
  have vE : ∀ j, v "thermal_energy" j + v "kinetic_energy" j = enC dx (prj (t j)) (prj (t j)) := fun j =>
    reported_energy hdx _ _ _
  have hS : ∀ j c, ∃ c', history hw dx (List.replicate j (.rk4 dt)) (NS.mk ks (st u)) c = .ok (S j, c') :=
    fun j c => ⟨_, history_eval hw dx hb.good hk _ u c⟩
  clear_value v S
  refine ⟨S, v, hS, hv, fun n hn1 i k hik hkT => ?_⟩
  have hd0 : 0 ≤ n * dt := by positivity
  obtain ⟨rU, hrU⟩ : ∃ r : ℕ → ℝ, ∀ j, r j = ODE.rate (linC (parOf hw dx)) (bilC (parOf hw dx)) usC (prj (t (j * n))) := ⟨_, fun _ => rfl⟩
  obtain ⟨rE, hrE⟩ : ∃ r : ℕ → ℝ, ∀ j, r j = ODE.rate (linC (parOf hw dx)) (bilC (parOf hw dx)) (enC (parOf hw dx).dx) (prj (t (j * n))) :=
    ⟨_, fun _ => rfl⟩
  have hB : ∀ q ∈ [i, k],
      |v "enstrophy" (q * n) - v "enstrophy" (0 * n) - (n * dt) * ∑ j ∈ Finset.range q, (rU j + rU (j + 1)) / 2|
        ≤ max C1 C2 * (n * dt) ^ 2 ∧
      |(v "thermal_energy" (q * n) + v "kinetic_energy" (q * n)) - (v "thermal_energy" (0 * n) + v "kinetic_energy" (0 * n))
        - (n * dt) * ∑ j ∈ Finset.range q, (rE j + rE (j + 1)) / 2| ≤ max C1 C2 * (n * dt) ^ 2 := by
    intro q hq
    have hq : q * (n * dt) ≤ T := by
      simp only [List.mem_cons, List.not_mem_nil, or_false] at hq
      rcases hq with rfl | rfl
      · exact (mul_le_mul_of_nonneg_right (Nat.cast_le.mpr hik) hd0).trans hkT
      · exact hkT
    have B1 := H1 dt hdt (hd.trans (min_le_left _ _)) n hn1 q hq
    have B2 := H2 dt hdt (hd.trans (min_le_right _ _)) n hn1 q hq
    rw [e0] at B1 B2
    simp only [vU, vE, hrU, hrE, hp, Nat.zero_mul, Function.iterate_zero, id]
    exact ⟨B2.trans (mul_le_mul_of_nonneg_right (le_max_right _ _) (by positivity)),
      B1.trans (mul_le_mul_of_nonneg_right (le_max_left _ _) (by positivity))⟩
  have hn0 : hw.nu = 0 → (parOf hw dx).nu = 0 := fun h => by unfold parOf; rw [h, mul_zero]
  have R := budget_pairs (parOf hw dx) hnu hd0 (u := fun j => prj (t (j * n))) (U := fun j => v "enstrophy" (j * n))
    (E := fun j => v "thermal_energy" (j * n) + v "kinetic_energy" (j * n)) (G := fun j => v "gamma_n" (j * n))
    (K := fun j => v "gamma_c" (j * n)) (fun j => gN _) (fun j => gC _) hrU hrE hB hik
  rw [← mul_assoc] at R
  exact ⟨⟨R.1.1, fun h => R.1.2 (hn0 h)⟩, fun hz => ⟨(R.2 hz).1, fun h => (R.2 hz).2 (hn0 h)⟩⟩

/-- **C145.**  For every simulation (`b`, parameters in `hw`, spacing `dx`) with non-negative viscosity, every initial density
and vorticity and every time `T`: there are a constant `C` and a largest step size such that for every call of `run2` to a
new file with these data, the values of the frames `1, 2, ...` in the datasets `fullres_<name>` (up
to the rounding to `float32`) satisfy the budgets of the equations with the trapezoidal rule over the frames: the enstrophy
grows by at most the time integral of `kappa * gamma_n`, and without viscosity by exactly this, up to `C * (snaps * step_size)²`;
the sum of thermal and kinetic energy likewise by that of `kappa * gamma_n - gamma_c` (original coupling). -/
theorem C145_file_budgets (b : Backend) (hm : 0 < m) (hb : Std b m m) (hw : HW) (hdx : dx ≠ 0) (A B : Arr ℝ) (T : ℝ) (hT : 0 ≤ T) :
    ∃ C dt0, 0 ≤ C ∧ 0 < dt0 ∧
      ∀ (β : Type) (_ : Casts ℝ β) (_ : Inhabited β) (E : Env2 ℝ β) (a : Args2 ℝ) (σ : St ℝ β) (ns : ℕ),
        GoodArgs2 E b a σ ns → a.grid_pts = m → theHW2 b a = hw → 0 ≤ a.nu → a.dx = dx → a.density0 = .arr A → a.omega0 = .arr B →
        a.recording_start_time = 0 → 0 < a.end_time → a.step_size ≤ dt0 →
        E.propertyFn = propertyFncs → (∀ name ∈ a.properties, name ∈ propertyTable) →
        ∃ count, IsLeast {k : ℕ | a.end_time ≤ FloatOps.round4 ((k : ℝ) * a.step_size)} count ∧ ∀ fuel, count < fuel →
        (run2 E a fuel σ).1 ≠ .ok none ∧ ∃ f : H5 ℝ β, (run2 E a fuel σ).2.fs a.output_path = some f ∧
          ∃ v : String → ℕ → ℝ,
            (∀ name ∈ a.properties, ∃ rows, f.dsets ("fullres_" ++ name) = some (.rows .one rows) ∧ rows.length = count / a.snaps + 1 ∧
              ∀ j, j ≠ 0 → j ≤ count / a.snaps → rows[j]? = some (.num (Casts.f32 (v name j)))) ∧
            ∀ i k : ℕ, i ≠ 0 → i ≤ k → k ≤ count / a.snaps → k * (a.snaps * a.step_size) ≤ T →
              ("enstrophy" ∈ a.properties → "gamma_n" ∈ a.properties →
                v "enstrophy" k - v "enstrophy" i
                  ≤ trapez (a.snaps * a.step_size) (fun j => a.kappa_coeff * v "gamma_n" j) i k + C * (a.snaps * a.step_size) ^ 2 ∧
                (a.nu = 0 → |v "enstrophy" k - v "enstrophy" i
                  - trapez (a.snaps * a.step_size) (fun j => a.kappa_coeff * v "gamma_n" j) i k| ≤ C * (a.snaps * a.step_size) ^ 2)) ∧
              ("thermal_energy" ∈ a.properties → "kinetic_energy" ∈ a.properties → "gamma_n" ∈ a.properties →
                "gamma_c" ∈ a.properties → a.zonal = false →
                v "thermal_energy" k + v "kinetic_energy" k - (v "thermal_energy" i + v "kinetic_energy" i)
                  ≤ trapez (a.snaps * a.step_size) (fun j => a.kappa_coeff * v "gamma_n" j - v "gamma_c" j) i k + C * (a.snaps * a.step_size) ^ 2 ∧
                (a.nu = 0 → |v "thermal_energy" k + v "kinetic_energy" k - (v "thermal_energy" i + v "kinetic_energy" i)
                  - trapez (a.snaps * a.step_size) (fun j => a.kappa_coeff * v "gamma_n" j - v "gamma_c" j) i k| ≤ C * (a.snaps * a.step_size) ^ 2)) := by
  by_cases hdata : hw.backend = b ∧ 0 ≤ (-1) ^ (hw.N + 1) * hw.nu ∧ (A.h = m ∧ A.w = m) ∧ (B.h = m ∧ B.w = m)
  swap
  · -- no call has such data
    refine ⟨0, 1, le_rfl, one_pos, fun β _ _ E a σ ns hg hgrid ehw hnu ed hA hB => ?_⟩
    exfalso
    refine hdata ⟨by rw [← ehw]; rfl, ?_, ?_, ?_⟩
    · rw [← ehw]
      unfold theHW2 HW.init
      simp only
      rw [← mul_assoc, ← mul_pow]
      norm_num [hnu]
    · obtain ⟨A', q1, q2, q3⟩ := hg.density
      rw [hA] at q1
      cases q1
      exact ⟨q2.trans hgrid, q3.trans hgrid⟩
    · obtain ⟨A', q1, q2, q3⟩ := hg.omega
      rw [hB] at q1
      cases q1
      exact ⟨q2.trans hgrid, q3.trans hgrid⟩
  obtain ⟨eb, hnu, ⟨a1, a2⟩, b1, b2⟩ := hdata
  have hb' : Std hw.backend m m := eb ▸ hb
  obtain ⟨D, c1, c2, hD⟩ := get_phi_exists (hw := hw) hm hb' dx b1 b2
  have hs0 := startState_isState hw.TEST_CONSERVATION a1 a2 b1 b2 c1 c2
  have hc : Consistent hw dx (startState A B D) := hD
  obtain ⟨C, dt0, hC, hdt0, H⟩ := reported_budget hm hb' hdx hnu _ hs0 hc T hT
  refine ⟨C, dt0, hC, hdt0, fun β _ _ E a σ ns hg hgrid ehw hnu' ed hA hB hstart hendp hle hE hnames => ?_⟩
  obtain ⟨A', B', D', S, qA, qB, qD, hS, hR⟩ := fresh2_physics hg
  obtain ⟨count, hcount, hrun⟩ := hR a.end_time
  have hua : a.until a.end_time = a := rfl
  rw [hua] at hrun
  have eA : A' = A := by rw [hA] at qA; cases qA; rfl
  have eB : B' = B := by rw [hB] at qB; cases qB; rfl
  have eD : D' = D := by
    obtain ⟨c1, q1⟩ := qD {}
    obtain ⟨c2, q2⟩ := hD {}
    rw [ehw, eB, ed, q2] at q1
    injection q1 with q1
    injection q1 with q1 _
    exact q1.symm
  rw [ehw, eA, eB, eD, ed] at hS
  obtain ⟨S', v, hS', hv, hbud⟩ := H a.step_size hg.step.le hle
  have eS : ∀ j, S j = S' j := by
    intro j
    obtain ⟨c1, q1⟩ := hS j {}
    obtain ⟨c2, q2⟩ := hS' j {}
    rw [q1] at q2
    injection q2 with q2
    injection q2 with q2 _
  have hcpos : 0 < count := by
    rcases Nat.eq_zero_or_pos count with rfl | h
    · have := hcount.1
      simp only [mem_ofPred_eq, Nat.cast_zero, zero_mul] at this
      have e0 : (FloatOps.round4 (0 : ℝ)) = 0 := by simp [FloatOps.round4, roundEven]
      rw [e0] at this
      exact absurd hendp (not_lt.mpr this)
    · exact h
  refine ⟨count, hcount, fun fuel hfuel => ?_⟩
  have hend : FloatOps.lt a.recording_start_time (timeAt E a (FloatOps.ofInt 0) count) = true := by
    rw [exact_timeAt hg.sum, hstart]
    refine decide_eq_true ?_
    have e0 : (FloatOps.ofInt 0 : ℝ) = 0 := by simp [FloatOps.ofInt]
    rw [e0, zero_add]
    have : (0 : ℝ) < count := by exact_mod_cast hcpos
    exact mul_pos this hg.step
  obtain ⟨f, f1, f2, -, f3⟩ := C52_all_written_partial hrun hfuel hend
  refine ⟨f2, f, f1, fun name j => v name (j * a.snaps), fun name hname => ?_, fun i k hi hik hk hkT => ?_⟩
  · obtain ⟨rows, r1, r2⟩ := f3 name hname fun hc => fullres_not_propertyName name (hnames _ hc)
    have hlen : rows.length = count / a.snaps + 1 := by
      rw [← r2.length_eq, frames2_length hg.sum hg.step hstart]
    refine ⟨rows, r1, hlen, fun j hj0 hj => ?_⟩
    have hfr := frames2_get (S := fun n => toCells (S n)) (m := count) hg.sum hg.step hstart hj0 hj
    have hj' : j < rows.length := by omega
    have hjf : j < (frames2 E a (fun n => toCells (S n)) count).length := by rw [r2.length_eq]; exact hj'
    obtain ⟨x, ⟨F, n, p, o, v1, v2, v3, v4, v5⟩, v6⟩ := List.forall₂_iff_get.mp r2 |>.2 j hjf hj'
    have hget : (frames2 E a (fun n => toCells (S n)) count).get ⟨j, hjf⟩ = (((j * a.snaps : ℕ) : ℝ) * a.step_size, toCells (S (j * a.snaps))) := by
      rw [List.getElem?_eq_getElem hjf] at hfr
      exact Option.some.inj hfr
    rw [hget] at v2 v3 v4
    rw [List.getElem?_eq_getElem hj']
    refine congrArg some (Eq.trans v6 ?_)
    rw [hE, propertyFncs_eq (hnames _ hname)] at v1
    have v1 := Option.some.inj v1
    subst v1
    have v5' : propValue name dx hw.c1 (arrOf (S (j * a.snaps)) "density") (arrOf (S (j * a.snaps)) "phi")
        (arrOf (S (j * a.snaps)) "omega") = .ok x := by
      have ec : hw.c1 = a.c1 := by rw [← ehw]; rfl
      rw [← ed, ec]
      cases n with
      | num x => cases v5
      | arr n =>
        cases p with
        | num x => cases v5
        | arr p =>
          cases o with
          | num x => cases v5
          | arr o => rw [arrOf_of_toCells v2, arrOf_of_toCells v3, arrOf_of_toCells v4]; exact v5
    rw [eS, hv name (hnames _ hname) (j * a.snaps)] at v5'
    exact congrArg (fun y => Cell.num (Casts.f32 y)) (Except.ok.inj v5').symm
  · obtain ⟨⟨R1, R2⟩, R3⟩ := hbud a.snaps hg.snaps i k hik hkT
    have ek : hw.kappa_coeff = a.kappa_coeff := by rw [← ehw]; rfl
    have ez : hw.zonal = a.zonal := by rw [← ehw]; rfl
    have en : a.nu = 0 → hw.nu = 0 := by
      intro h
      rw [← ehw]
      unfold theHW2 HW.init
      simp only
      rw [h, mul_zero]
    rw [ek] at R1 R2 R3
    rw [ez] at R3
    exact ⟨fun _ _ => ⟨R1, fun h => R2 (en h)⟩, fun _ _ _ _ hz => ⟨(R3 hz).1, fun h => (R3 hz).2 (en h)⟩⟩

/-- the drift wave of C102 with every third step recorded and viscosity `nu` -/
noncomputable def waveArgsN (m : ℕ) (dt nu : ℝ) : Args2 ℝ := { waveArgs2 m dt with snaps := 3, nu := nu }

theorem waveArgsN_good (m : ℕ) (hm : 0 < m) (dt nu : ℝ) (hdt : 0 < dt) :
    GoodArgs2 propsEnv numpyBackend (waveArgsN m dt nu) ⟨fun _ => none, []⟩ m :=
  let h := waveArgs2_good m hm dt hdt
  { h with
    snaps := (by decide : 1 ≤ 3)
    saves := ⟨h.saves.dim, h.saves.down⟩
    sim := rfl
    attr := rfl
    props := fun name hn => ⟨_, propertyFncs_eq hn, fun _ _ _ h1 h2 h3 => propValue_ok hn _ _ hm h1 h2 h3⟩ }

/-- the energy of the inviscid wave changes as `gamma_n - gamma_c` in the file says -/
example (m : ℕ) (hm : 0 < m) : ∃ C dt0 : ℝ, 0 < dt0 ∧ ∀ dt, 0 < dt → dt ≤ dt0 → ∃ count, ∀ fuel, count < fuel →
    ∃ (f : H5 ℝ ℝ) (v : String → ℕ → ℝ),
      (run2 propsEnv (waveArgsN m dt 0) fuel ⟨fun _ => none, []⟩).2.fs "run.h5" = some f ∧
      (∀ name ∈ propertyTable, ∃ rows, f.dsets ("fullres_" ++ name) = some (.rows .one rows) ∧ rows.length = count / 3 + 1 ∧
        ∀ j, j ≠ 0 → j ≤ count / 3 → rows[j]? = some (.num (Casts.f32 (v name j)))) ∧
      ∀ k : ℕ, k ≠ 0 → k ≤ count / 3 → k * (3 * dt) ≤ 5 →
        |v "thermal_energy" k + v "kinetic_energy" k - (v "thermal_energy" 1 + v "kinetic_energy" 1)
          - trapez (3 * dt) (fun j => 40 / 3 * v "gamma_n" j - v "gamma_c" j) 1 k| ≤ C * (3 * dt) ^ 2 := by
  obtain ⟨C, dt0, -, hdt0, H⟩ := C145_file_budgets (m := m) (dx := (waveArgsN m 1 0).dx) numpyBackend hm (.inl rfl)
    (theHW2 numpyBackend (waveArgsN m 1 0))
    (by
      have h := (waveArgs2_poses m hm 1).spacing
      intro h0
      have h0 : (waveArgs2 m 1).dx = 0 := h0
      rw [h0, mul_zero] at h
      exact absurd h.symm (by positivity)) _ _ 5 (by norm_num)
  refine ⟨C, dt0, hdt0, fun dt hdt hle => ?_⟩
  obtain ⟨count, -, H⟩ := H ℝ _ inferInstance propsEnv (waveArgsN m dt 0) ⟨fun _ => none, []⟩ m (waveArgsN_good m hm dt 0 hdt) rfl rfl
    le_rfl rfl rfl rfl rfl (by norm_num [waveArgsN, waveArgs2, waveArgs]) hle rfl (fun _ h => h)
  refine ⟨count, fun fuel hf => ?_⟩
  obtain ⟨-, f, f1, v, h1, h2⟩ := H fuel hf
  refine ⟨f, v, f1, h1, fun k hk hkc hkT => ?_⟩
  have mem : ∀ name ∈ propertyTable, name ∈ (waveArgsN m dt 0).properties := fun _ h => h
  exact ((h2 1 k one_ne_zero (Nat.pos_of_ne_zero hk) hkc hkT).2 (mem _ (by decide)) (mem _ (by decide)) (mem _ (by decide))
    (mem _ (by decide)) rfl).2 rfl

end Verif.Props
