import Verif.Props.Convergence
import Verif.Props.HW
import Verif.Props.Diagnostics
import Verif.Lemmas.Budget

/-!
# Property theorem C92: energy and enstrophy budgets over a simulation

C24 and C25 give the rates at one instant.  Here the energies of the states produced by repeated
`rk4_step` are compared with the time integral (trapezoidal rule) of the sources the diagnostic
functions report for the same states.
-/

set_option linter.unusedSectionVars false

namespace Verif.Props

open Arr NS Spec Set

variable (hw : HW) (dx : ℝ) (h w : ℕ)

/-- the energy `mean(n² - phi·omega)/2` of a state (for square grids the sum of
`get_energy_N_spectrally` and `get_energy_V_spectrally`, `C92_energy_reported`) -/
noncomputable def energyOf (s : NS Val) : ℝ :=
  Spec.mean h w (fun i j => (arrOf s "density").at' i j ^ 2
    - (arrOf s "phi").at' i j * (arrOf s "omega").at' i j) / 2

/-- `r` is the source of energy of a state: `kappa` times `get_gamma_n`, minus `get_gamma_c` (of the
non-zonal parts if `zonal`), plus what the hyperdiffusion of `diffuse` contributes -/
def EnergySource (s : NS Val) (r : ℝ) : Prop :=
  ∃ gn gc nn pp Ln LO, (∀ c, ∃ c', hw.diffuse (arrOf s "density") dx hw.N c = .ok (Ln, c')) ∧
    (∀ c, ∃ c', hw.diffuse (arrOf s "omega") dx hw.N c = .ok (LO, c')) ∧
    Properties.get_gamma_n (arrOf s "density") (arrOf s "phi") dx = .ok gn ∧
    (if hw.zonal then Zonal.zonal_transform (arrOf s "density") = .ok nn ∧
        Zonal.zonal_transform (arrOf s "phi") = .ok pp
      else nn = arrOf s "density" ∧ pp = arrOf s "phi") ∧
    Properties.get_gamma_c nn pp hw.c1 dx = .ok gc ∧
    r = hw.kappa_coeff * gn - gc + Spec.mean h w (fun i j =>
      (arrOf s "density").at' i j * (hw.nu * Ln.at' i j) - (arrOf s "phi").at' i j * (hw.nu * LO.at' i j))

/-- `r` is the source of enstrophy of a state: `kappa` times `get_gamma_n` plus what the
hyperdiffusion of `diffuse` contributes -/
def EnstrophySource (s : NS Val) (r : ℝ) : Prop :=
  ∃ gn Ln LO, (∀ c, ∃ c', hw.diffuse (arrOf s "density") dx hw.N c = .ok (Ln, c')) ∧
    (∀ c, ∃ c', hw.diffuse (arrOf s "omega") dx hw.N c = .ok (LO, c')) ∧
    Properties.get_gamma_n (arrOf s "density") (arrOf s "phi") dx = .ok gn ∧
    r = hw.kappa_coeff * gn + Spec.mean h w (fun i j =>
      ((arrOf s "density").at' i j - (arrOf s "omega").at' i j) * (hw.nu * Ln.at' i j - hw.nu * LO.at' i j))

variable {hw dx h w}

section fields
variable [NeZero h] [NeZero w]

/-- the energy as a bilinear form -/
noncomputable def enBil (dx : ℝ) : Pair h w →ₗ[ℝ] Pair h w →ₗ[ℝ] ℝ :=
  LinearMap.mk₂ ℝ (fun u v => avg (fun i j => u.1 i j * v.1 i j - phiF dx u.2 i j * v.2 i j) / 2)
    (fun u u' v => by
      simp only [avg, Prod.fst_add, Prod.snd_add, phiF_add, Pi.add_apply]
      rw [← add_div, ← add_div, ← S_add]
      congr 2; exact S_congr fun i j => by ring)
    (fun c u v => by
      simp only [avg, Prod.smul_fst, Prod.smul_snd, phiF_smul, Pi.smul_apply, smul_eq_mul]
      rw [← mul_div_assoc, ← mul_div_assoc]
      congr 2
      simp only [S, Finset.mul_sum]
      exact Finset.sum_congr rfl fun i _ => Finset.sum_congr rfl fun j _ => by ring)
    (fun u v v' => by
      simp only [avg, Prod.fst_add, Prod.snd_add, Pi.add_apply]
      rw [← add_div, ← add_div, ← S_add]
      congr 2; exact S_congr fun i j => by ring)
    (fun c u v => by
      simp only [avg, Prod.smul_fst, Prod.smul_snd, Pi.smul_apply, smul_eq_mul]
      rw [← mul_div_assoc, ← mul_div_assoc]
      congr 2
      simp only [S, Finset.mul_sum]
      exact Finset.sum_congr rfl fun i _ => Finset.sum_congr rfl fun j _ => by ring)

/-- the enstrophy as a bilinear form -/
noncomputable def usBil : Pair h w →ₗ[ℝ] Pair h w →ₗ[ℝ] ℝ :=
  LinearMap.mk₂ ℝ (fun u v => avg (fun i j => (u.1 i j - u.2 i j) * (v.1 i j - v.2 i j)) / 2)
    (fun u u' v => by
      simp only [avg, Prod.fst_add, Prod.snd_add, Pi.add_apply]
      rw [← add_div, ← add_div, ← S_add]
      congr 2; exact S_congr fun i j => by ring)
    (fun c u v => by
      simp only [avg, Prod.smul_fst, Prod.smul_snd, Pi.smul_apply, smul_eq_mul]
      rw [← mul_div_assoc, ← mul_div_assoc]
      congr 2
      simp only [S, Finset.mul_sum]
      exact Finset.sum_congr rfl fun i _ => Finset.sum_congr rfl fun j _ => by ring)
    (fun u v v' => by
      simp only [avg, Prod.fst_add, Prod.snd_add, Pi.add_apply]
      rw [← add_div, ← add_div, ← S_add]
      congr 2; exact S_congr fun i j => by ring)
    (fun c u v => by
      simp only [avg, Prod.smul_fst, Prod.smul_snd, Pi.smul_apply, smul_eq_mul]
      rw [← mul_div_assoc, ← mul_div_assoc]
      congr 2
      simp only [S, Finset.mul_sum]
      exact Finset.sum_congr rfl fun i _ => Finset.sum_congr rfl fun j _ => by ring)

noncomputable def enC (dx : ℝ) : Pair h w →L[ℝ] Pair h w →L[ℝ] ℝ := (enBil dx).toContinuousBilinearMap
noncomputable def usC : Pair h w →L[ℝ] Pair h w →L[ℝ] ℝ := usBil.toContinuousBilinearMap

theorem enC_apply (u v : Pair h w) :
    enC dx u v = avg (fun i j => u.1 i j * v.1 i j - phiF dx u.2 i j * v.2 i j) / 2 := rfl
theorem usC_apply (u v : Pair h w) :
    usC u v = avg (fun i j => (u.1 i j - u.2 i j) * (v.1 i j - v.2 i j)) / 2 := rfl

theorem enC_comm (u v : Pair h w) : enC dx u v = enC dx v u := by
  rw [enC_apply, enC_apply]
  have e := phiF_symm dx u.2 v.2
  have e1 : S (fun i j => u.1 i j * v.1 i j - phiF dx u.2 i j * v.2 i j)
      = S (fun i j => v.1 i j * u.1 i j - phiF dx v.2 i j * u.2 i j) := by
    rw [S_sub, S_sub, ← e]
    simp only [mul_comm]
  unfold avg
  rw [e1]
theorem usC_comm (u v : Pair h w) : usC u v = usC v u := by
  rw [usC_apply, usC_apply]
  simp only [mul_comm]

theorem rate_en (P : Params) (u : Pair h w) : ODE.rate (linC P) (bilC P) (enC P.dx) u
    = P.kappa * gamN P.dx u.1 (phiF P.dx u.2) - gamC P.c1 (cpl P.zonal u.1) (cpl P.zonal (phiF P.dx u.2))
      + avg (fun i j => u.1 i j * hyper P u.1 i j - phiF P.dx u.2 i j * hyper P u.2 i j) := by
  unfold ODE.rate
  rw [enC_comm (ODE.F _ _ u) u, ← energy_budget, ← rhsU_eq, enC_apply, add_halves]
  rfl

theorem rate_us (P : Params) (u : Pair h w) : ODE.rate (linC P) (bilC P) usC u
    = P.kappa * gamN P.dx u.1 (phiF P.dx u.2)
      + avg (fun i j => (u.1 i j - u.2 i j) * (hyper P u.1 i j - hyper P u.2 i j)) := by
  unfold ODE.rate
  rw [usC_comm (ODE.F _ _ u) u, ← enstrophy_budget P u.1 u.2 _ rfl, ← rhsU_eq, usC_apply, add_halves]
  rfl

theorem energyOf_mk {test : Bool} {ks : List String} (hk : GoodKeys ks test) (t : Sta h w)
    (ht : t.2.2.1 = phiF dx t.2.1) : energyOf h w (NS.mk ks (st t)) = enC dx (prj t) (prj t) := by
  unfold energyOf
  rw [arrOf_density hk, arrOf_omega hk, arrOf_phi hk, ht, enC_apply]
  rw [spec_mean_of (g := fun i j => t.1 i j * t.1 i j - phiF dx t.2.1 i j * t.2.1 i j) fun i j hi hj => by
    rw [ofField_at' _ hi hj, ofField_at' _ hi hj, ofField_at' _ hi hj, sq]]
  rfl

theorem energySource_mk (hb : hw.backend.Good h w) {ks : List String} {test : Bool} (hk : GoodKeys ks test)
    (t : Sta h w) (ht : t.2.2.1 = phiF dx t.2.1) :
    EnergySource hw dx h w (NS.mk ks (st t))
      (ODE.rate (linC (parOf hw dx)) (bilC (parOf hw dx)) (enC (parOf hw dx).dx) (prj t)) := by
  unfold EnergySource
  rw [arrOf_density hk, arrOf_omega hk, arrOf_phi hk, ht, rate_en]
  refine ⟨_, _, ofField (cpl hw.zonal t.1), ofField (cpl hw.zonal (phiF dx t.2.1)), _, _,
    fun c => ⟨_, diffuse_ofField hw hb t.1 dx hw.N c⟩, fun c => ⟨_, diffuse_ofField hw hb t.2.1 dx hw.N c⟩,
    gamma_n_ofField _ _ dx, ?_, gamma_c_ofField _ _ _ _, ?_⟩
  · cases hw.zonal
    · simp [cpl]
    · simp [cpl, zonal_ofField]
  · rw [spec_mean_of (g := fun i j => t.1 i j * hyper (parOf hw dx) t.1 i j
        - phiF dx t.2.1 i j * hyper (parOf hw dx) t.2.1 i j) fun i j hi hj => by
      rw [ofField_at' _ hi hj, ofField_at' _ hi hj, ofField_at' _ hi hj, ofField_at' _ hi hj,
        hyper_parOf, hyper_parOf]]
    rfl

theorem enstrophySource_mk (hb : hw.backend.Good h w) {ks : List String} {test : Bool} (hk : GoodKeys ks test)
    (t : Sta h w) (ht : t.2.2.1 = phiF dx t.2.1) :
    EnstrophySource hw dx h w (NS.mk ks (st t))
      (ODE.rate (linC (parOf hw dx)) (bilC (parOf hw dx)) usC (prj t)) := by
  unfold EnstrophySource
  rw [arrOf_density hk, arrOf_omega hk, arrOf_phi hk, ht, rate_us]
  refine ⟨_, _, _, fun c => ⟨_, diffuse_ofField hw hb t.1 dx hw.N c⟩,
    fun c => ⟨_, diffuse_ofField hw hb t.2.1 dx hw.N c⟩, gamma_n_ofField _ _ dx, ?_⟩
  rw [spec_mean_of (g := fun i j => (t.1 i j - t.2.1 i j) * (hyper (parOf hw dx) t.1 i j
        - hyper (parOf hw dx) t.2.1 i j)) fun i j hi hj => by
      rw [ofField_at' _ hi hj, ofField_at' _ hi hj, ofField_at' _ hi hj, ofField_at' _ hi hj,
        hyper_parOf, hyper_parOf]]
  rfl

theorem histS_phi (P : Params) (dx0 : ℝ) (l : List Step) (s : Sta h w) (hs : s.2.2.1 = phiF P.dx s.2.1) :
    (histS P dx0 l s).2.2.1 = phiF P.dx (histS P dx0 l s).2.1 := by
  induction l generalizing s with
  | nil => exact hs
  | cons a l ih => exact ih _ (stepS_phi P dx0 a s)

end fields

/-- **C92.** Over every time horizon and from every consistent state: `k` calls of `rk4_step` with a
small enough `dt` change energy and enstrophy by the time integral (trapezoidal rule over the states
produced) of the sources, up to `C dt²`; without sources (`kappa = c1 = nu = 0`, respectively
`kappa = nu = 0`) they are conserved up to `C dt⁴`. -/
theorem C92_budgets_over_time (h0 : 0 < h) (w0 : 0 < w) (hb : Std hw.backend h w) (s : NS Val)
    (hs : IsState hw.TEST_CONSERVATION h w s) (hc : Consistent hw dx s) (T : ℝ) (hT : 0 ≤ T) :
    ∃ C dt0, 0 ≤ C ∧ 0 < dt0 ∧ ∀ dt, 0 ≤ dt → dt ≤ dt0 → ∀ k : ℕ, k * dt ≤ T → ∀ c,
      ∃ (S : ℕ → NS Val) (rE rU U : ℕ → ℝ), S 0 = s ∧
        (∀ j, ∃ c', history hw dx (List.replicate j (.rk4 dt)) s c = .ok (S j, c')) ∧
        (∀ j, EnergySource hw dx h w (S j) (rE j)) ∧ (∀ j, EnstrophySource hw dx h w (S j) (rU j)) ∧
        (∀ j, Properties.get_enstrophy (arrOf (S j) "density") (arrOf (S j) "omega") dx = .ok (U j)) ∧
        |energyOf h w (S k) - energyOf h w s - dt * ∑ j ∈ Finset.range k, (rE j + rE (j + 1)) / 2| ≤ C * dt ^ 2 ∧
        |U k - U 0 - dt * ∑ j ∈ Finset.range k, (rU j + rU (j + 1)) / 2| ≤ C * dt ^ 2 ∧
        (hw.kappa_coeff = 0 → hw.c1 = 0 → hw.nu = 0 → |energyOf h w (S k) - energyOf h w s| ≤ C * dt ^ 4) ∧
        (hw.kappa_coeff = 0 → hw.nu = 0 → |U k - U 0| ≤ C * dt ^ 4) := by
  have : NeZero h := ⟨h0.ne'⟩
  have : NeZero w := ⟨w0.ne'⟩
  obtain ⟨ks, u, hk, hn, rfl⟩ := hs.exists_mk
  rw [consistent_mk hw hb.good dx hk] at hc
  obtain ⟨Y, e0, hY⟩ := exists_solutionU (parOf hw dx) hT (prj u)
  obtain ⟨C1, d1, hC1, hd1, H1⟩ := ODE.rk4_budget _ _ (enC (parOf hw dx).dx) hT hY
  obtain ⟨C2, d2, hC2, hd2, H2⟩ := ODE.rk4_budget _ _ usC hT hY
  refine ⟨max C1 C2, min d1 d2, le_max_of_le_left hC1, lt_min hd1 hd2, fun dt hdt hd k hkT c => ?_⟩
  have B1 := H1 dt hdt (hd.trans (min_le_left _ _)) k hkT
  have B2 := H2 dt hdt (hd.trans (min_le_right _ _)) k hkT
  rw [e0] at B1 B2
  let t : ℕ → Sta h w := fun j => histS (parOf hw dx) hw.dx (List.replicate j (.rk4 dt)) u
  have ht : ∀ j, (t j).2.2.1 = phiF dx (t j).2.1 := fun j => histS_phi (parOf hw dx) hw.dx _ u hc
  have hp : ∀ j, prj (t j) = (ODE.rk4 (ODE.F (linC (parOf hw dx)) (bilC (parOf hw dx))) dt)^[j] (prj u) :=
    fun j => histS_replicate _ _ _ _ (fun s hs => stepS_rk4_prj _ _ _ s hs) j u hc
  have hkj : ∀ j, GoodKeys (histKeys (List.replicate j (.rk4 dt)) ks) hw.TEST_CONSERVATION :=
    fun j => goodKeys_hist _ hk
  have hU : ∀ j, avg (fun a b => ((t j).1 a b - (t j).2.1 a b) ^ 2) / 2 = usC (prj (t j)) (prj (t j)) := by
    intro j; rw [usC_apply]; simp only [sq]; rfl
  refine ⟨fun j => NS.mk (histKeys (List.replicate j (.rk4 dt)) ks) (st (t j)),
    fun j => ODE.rate (linC (parOf hw dx)) (bilC (parOf hw dx)) (enC (parOf hw dx).dx) (prj (t j)),
    fun j => ODE.rate (linC (parOf hw dx)) (bilC (parOf hw dx)) usC (prj (t j)),
    fun j => avg (fun a b => ((t j).1 a b - (t j).2.1 a b) ^ 2) / 2, rfl,
    fun j => ⟨_, history_eval hw dx hb.good hk _ u c⟩, fun j => energySource_mk hb.good (hkj j) _ (ht j),
    fun j => enstrophySource_mk hb.good (hkj j) _ (ht j), fun j => ?_, ?_, ?_, fun z1 z2 z3 => ?_,
    fun z1 z3 => ?_⟩
  · rw [arrOf_density (hkj j), arrOf_omega (hkj j)]
    exact enstrophy_ofField _ _ _
  · rw [energyOf_mk (hkj k) _ (ht k), energyOf_mk hk _ hc]
    simp only [hp]
    exact B1.1.trans (mul_le_mul_of_nonneg_right (le_max_left _ _) (by positivity))
  · simp only [hU, hp]
    exact B2.1.trans (mul_le_mul_of_nonneg_right (le_max_right _ _) (by positivity))
  · rw [energyOf_mk (hkj k) _ (ht k), energyOf_mk hk _ hc, hp]
    refine (B1.2 fun y => ?_).trans (mul_le_mul_of_nonneg_right (le_max_left _ _) (by positivity))
    rw [rate_en]
    simp only [hyper_parOf, z3, zero_mul, mul_zero, sub_self, avg_const, add_zero]
    simp only [parOf, z1, z2, gamC, zero_mul, sub_self]
  · simp only [hU, hp]
    refine (B2.2 fun y => ?_).trans (mul_le_mul_of_nonneg_right (le_max_right _ _) (by positivity))
    rw [rate_us]
    simp only [hyper_parOf, z3, zero_mul, mul_zero, sub_self, avg_const, add_zero]
    simp only [parOf, z1, zero_mul]

/-- a consistent state with all terms switched on -/
example : ∃ s, IsState true 4 5 s ∧ Consistent (HW.init numpyBackend 1 3 1 (1 / 10) 1 1 1 false true) 1 s := by
  obtain ⟨s, c, -, hs, hc⟩ := C32_phi_consistent (HW.init numpyBackend 1 3 1 (1 / 10) 1 1 1 false true) 1
    (h := 4) (w := 5) (by decide) (by decide) (.inl rfl) [.rk4 (1 / 10)] (by simp) demoState demoState_isState {}
  exact ⟨s, hs, hc⟩

/-- **C92.** On square grids the energy of C92 is what the spectral diagnostics report. -/
theorem C92_energy_reported (h0 : 0 < h) (hb : Std hw.backend h h) (hdx : dx ≠ 0) (s : NS Val)
    (hs : IsState hw.TEST_CONSERVATION h h s) (hc : Consistent hw dx s) :
    ∃ a b, Properties.get_energy_N_spectrally (arrOf s "density") = .ok a ∧
      Properties.get_energy_V_spectrally (arrOf s "phi") dx = .ok b ∧ energyOf h h s = a + b := by
  have : NeZero h := ⟨h0.ne'⟩
  obtain ⟨ks, u, hk, hn, rfl⟩ := hs.exists_mk
  rw [consistent_mk hw hb.good dx hk] at hc
  rw [energyOf_mk hk _ hc, arrOf_density hk, arrOf_phi hk, hc]
  refine ⟨_, _, energy_N_ofField _, energy_V_ofField _ _, ?_⟩
  rw [energy_V_phi _ hdx, enC_apply]
  unfold avg
  rw [S_sub]
  simp only [prj, sq]
  ring

example : ∃ s, IsState true 4 4 s ∧ Consistent (HW.init numpyBackend 1 3 1 (1 / 10) 1) 1 s := by
  let z : Fld 4 4 := fun i j => (i.val : ℝ) * j.val
  refine ⟨[("density", .arr (ofField z)), ("omega", .arr (ofField z)), ("phi", .arr (ofField (phiF 1 z))),
    ("age", .num 0)], ⟨by decide, by decide, ⟨_, rfl, rfl, rfl⟩, ⟨_, rfl, rfl, rfl⟩, ⟨_, rfl, rfl, rfl⟩,
    ⟨_, rfl⟩, fun v hv => by simp [NS.get?] at hv, fun v hv => by simp [NS.get?] at hv⟩, fun c => ⟨{ c with get_phi := c.get_phi + 1 }, ?_⟩⟩
  exact get_phi_ofField _ (Std.good (.inl rfl)) z 1 c

end Verif.Props
