import Verif.Lemmas.Decay
import Verif.Props.EnergyBound

/-!
# Property theorem C116: viscosity that beats the drive extinguishes the fluctuations
-/

set_option linter.unusedSectionVars false

namespace Verif.Props

open Arr NS Spec Set

variable {hw : HW} {dx : ℝ} {h w : ℕ} {P : Params} {b : Backend} {dx0 k0 : ℝ} {test : Bool}

/-- mean square deviation of the density of a state from its mean -/
noncomputable def densVar (h w : ℕ) (s : NS Val) : ℝ :=
  Spec.mean h w fun i j => ((arrOf s "density").at' i j - Spec.mean h w (arrOf s "density").at') ^ 2

/-- twice the kinetic energy of a state, `-mean(phi·omega)` -/
noncomputable def kin2 (h w : ℕ) (s : NS Val) : ℝ :=
  -Spec.mean h w fun i j => (arrOf s "phi").at' i j * (arrOf s "omega").at' i j

/-- `F` is the energy `mean((n - mean n)² - phi·omega)/2` of the fluctuations of density `n` and vorticity `o`, with the
potential of `get_phi` -/
def HasFluct (hw : HW) (dx : ℝ) (h w : ℕ) (n o : Arr ℝ) (F : ℝ) : Prop :=
  ∃ p, (∀ c, ∃ c', hw.get_phi o dx c = .ok (p, c')) ∧
    F = Spec.mean h w (fun i j => (n.at' i j - Spec.mean h w n.at') ^ 2 - p.at' i j * o.at' i j) / 2

/-- slowest damping rate of hyperdiffusion on an `h × w` grid: `nu (4 sin²(π / max h w) / dx²)^N` -/
noncomputable def slowest (P : Params) (h w : ℕ) : ℝ :=
  P.nu * (4 * Real.sin (Real.pi / (max h w : ℕ)) ^ 2 / P.dx ^ 2) ^ P.N

section fields
variable [NeZero h] [NeZero w]

/-- the mean density as a linear map -/
noncomputable def mnL : Pair h w →ₗ[ℝ] ℝ where
  toFun u := avg u.1
  map_add' u v := by
    simp only [Prod.fst_add]
    exact avg_add u.1 v.1
  map_smul' c u := by
    simp only [Prod.smul_fst]
    exact avg_smul c u.1

/-- the energy of the fluctuations as a bilinear form -/
noncomputable def flBil (dx : ℝ) : Pair h w →ₗ[ℝ] Pair h w →ₗ[ℝ] ℝ :=
  enBil dx - (2⁻¹ : ℝ) • (LinearMap.mul ℝ ℝ).compl₁₂ mnL mnL

noncomputable def flC (dx : ℝ) : Pair h w →L[ℝ] Pair h w →L[ℝ] ℝ := (flBil dx).toContinuousBilinearMap

theorem flC_apply (u v : Pair h w) : flC dx u v = enC dx u v - avg u.1 * avg v.1 / 2 := by
  have : flC dx u v = enC dx u v - 2⁻¹ * (avg u.1 * avg v.1) := rfl
  rw [this]; ring

theorem flC_self (u : Pair h w) : flC dx u u = flE dx u.1 u.2 := by
  rw [flC_apply, flE_eq, enC_apply]

theorem rate_fl_le (P : Params) (hdx : P.dx ≠ 0) (hN : 1 ≤ P.N) (hc : 0 ≤ P.c1) (hn : 0 ≤ P.nu) (u : Pair h w) :
    ODE.rate (linC P) (bilC P) (flC P.dx) u ≤ (|P.kappa| - 2 * slowest P h w) * flC P.dx u u := by
  have e : ODE.rate (linC P) (bilC P) (flC P.dx) u
      = ODE.rate (linC P) (bilC P) (enC P.dx) u - avg u.1 * avg (rhsN P u.1 (phiF P.dx u.2)) := by
    have e1 : ODE.F (linC P) (bilC P) u = rhsU P u := by rw [rhsU_eq]
    unfold ODE.rate
    rw [e1, flC_apply, flC_apply]
    have : (rhsU P u).1 = rhsN P u.1 (phiF P.dx u.2) := rfl
    rw [this]
    ring
  rw [e, rate_en, avg_rhsN P (.inl hN), avg_phiF, flC_self]
  have a := gamN_flE hdx u.1 u.2
  have g := gamC_mean P hc u.1 (phiF P.dx u.2) (avg_phiF _ _)
  have c := hyper_flE P hN hn u.1 u.2
  have d := mul_le_mul_of_nonneg_left a (abs_nonneg P.kappa)
  rw [← abs_mul] at d
  have f := le_abs_self (P.kappa * gamN P.dx u.1 (phiF P.dx u.2))
  have sl : slowest P h w = P.nu * muF h w P.dx ^ P.N := rfl
  rw [sl]
  nlinarith

theorem mean_density {n : Arr ℝ} (n1 : n.h = h) (n2 : n.w = w) : Spec.mean h w n.at' = avg (toFld n : Fld h w) := by
  have en : n = ofField (toFld n : Fld h w) := (ofField_toFld n1 n2).symm
  rw [spec_mean_of (g := (toFld n : Fld h w)) fun i j hi hj => by
    conv_lhs => rw [en]
    rw [ofField_at' _ hi hj]]

theorem hasFluct_pairOf (hb : hw.backend.Good h w) {n o : Arr ℝ} (n1 : n.h = h) (n2 : n.w = w) (o1 : o.h = h)
    (o2 : o.w = w) : HasFluct hw dx h w n o (flC dx (pairOf n o : Pair h w) (pairOf n o)) := by
  have en : n = ofField (toFld n : Fld h w) := (ofField_toFld n1 n2).symm
  have eo : o = ofField (toFld o : Fld h w) := (ofField_toFld o1 o2).symm
  refine ⟨ofField (phiF dx (toFld o : Fld h w)), fun c => ⟨{ c with get_phi := c.get_phi + 1 }, ?_⟩, ?_⟩
  · conv_lhs => rw [eo]
    exact get_phi_ofField hw hb _ dx c
  · rw [flC_self, mean_density n1 n2]
    rw [spec_mean_of (g := fun i j => ((toFld n : Fld h w) i j - avg (toFld n : Fld h w)) ^ 2
      - phiF dx (toFld o : Fld h w) i j * (toFld o : Fld h w) i j) fun i j hi hj => by
        conv_lhs => rw [en, eo]
        rw [ofField_at' _ hi hj, ofField_at' _ hi hj, ofField_at' _ hi hj, toFld_ofField, toFld_ofField]]
    rfl

theorem phi_o_nonpos {dx : ℝ} (hdx : dx ≠ 0) (o : Fld h w) : avg (fun i j => phiF dx o i j * o i j) ≤ 0 := by
  have g := gradY_phi_le hdx o
  have c : 0 ≤ S (fun i j => gradY dx (phiF dx o) i j ^ 2) := S_nonneg fun i j => sq_nonneg _
  exact div_nonpos_of_nonpos_of_nonneg (by linarith) cardR_pos.le

theorem fluct_mk {test : Bool} {ks : List String} (hk : GoodKeys ks test) (t : Sta h w)
    (ht : t.2.2.1 = phiF dx t.2.1) :
    densVar h w (NS.mk ks (st t)) = avg (fun i j => (t.1 i j - avg t.1) ^ 2) ∧
    kin2 h w (NS.mk ks (st t)) = -avg (fun i j => phiF dx t.2.1 i j * t.2.1 i j) := by
  unfold densVar kin2
  have em : Spec.mean h w (ofField t.1).at' = avg t.1 := spec_mean_of fun i j hi hj => ofField_at' _ hi hj
  rw [arrOf_density hk, arrOf_omega hk, arrOf_phi hk, ht, em]
  constructor
  · rw [spec_mean_of (g := fun i j => (t.1 i j - avg t.1) ^ 2) fun i j hi hj => by rw [ofField_at' _ hi hj]]
  · rw [spec_mean_of (g := fun i j => phiF dx t.2.1 i j * t.2.1 i j) fun i j hi hj => by
      rw [ofField_at' _ hi hj, ofField_at' _ hi hj]]

theorem fluct_flC (hdx : dx ≠ 0) {test : Bool} {ks : List String} (hk : GoodKeys ks test) (t : Sta h w)
    (ht : t.2.2.1 = phiF dx t.2.1) : 0 ≤ densVar h w (NS.mk ks (st t)) ∧ 0 ≤ kin2 h w (NS.mk ks (st t)) ∧
    (densVar h w (NS.mk ks (st t)) + kin2 h w (NS.mk ks (st t))) / 2 = flC dx (prj t) (prj t) := by
  obtain ⟨e1, e2⟩ := fluct_mk hk t ht
  rw [e1, e2]
  refine ⟨div_nonneg (S_nonneg fun i j => sq_nonneg _) cardR_pos.le, neg_nonneg.2 (phi_o_nonpos hdx _), ?_⟩
  rw [flC_self]
  unfold flE
  rw [avg_sub, sub_eq_add_neg]
  rfl

attribute [local irreducible] flC linC bilC ODE.rate

theorem exact_fl (P : Params) (hdx : P.dx ≠ 0) (hN : 1 ≤ P.N) (hc1 : 0 ≤ P.c1) (hnu : 0 ≤ P.nu) {T : ℝ}
    {Y : ℝ → Pair h w} (hY : ODE.Solves (ODE.F (linC P) (bilC P)) T Y) : ∀ t ∈ Icc 0 T,
    flC P.dx (Y t) (Y t) ≤ Real.exp ((|P.kappa| - 2 * slowest P h w) * t) * flC P.dx (Y 0) (Y 0) := by
  have := ODE.form_gronwall (E := Pair h w) (linC P) (bilC P) (flC P.dx) (K := |P.kappa| - 2 * slowest P h w) hY
    (rate_fl_le P hdx hN hc1 hnu)
  exact this

theorem fluct_fields (P : Params) (d : ℝ) (hdx : P.dx ≠ 0) (hN : 1 ≤ P.N) (hc1 : 0 ≤ P.c1) (hnu : 0 ≤ P.nu)
    (u : Sta h w) (hc : u.2.2.1 = phiF P.dx u.2.1) (T : ℝ) (hT : 0 ≤ T) :
    ∃ C dt0, 0 ≤ C ∧ 0 < dt0 ∧ ∀ dt, 0 ≤ dt → dt ≤ dt0 → ∀ k : ℕ, k * dt ≤ T → ∀ v : Pair h w,
      prj (histS P d (List.replicate k (.rk4 dt)) u) = v →
      flC P.dx v v ≤ Real.exp ((|P.kappa| - 2 * slowest P h w) * (k * dt)) * flC P.dx (prj u) (prj u) + C * dt ^ 4 := by
  obtain ⟨Y, e0, hY⟩ := exists_solutionU P hT (prj u)
  obtain ⟨C1, d1, hC1, hd1, H1⟩ := steps_form P d (flC P.dx) u hc hT hY e0
  have G1 := exact_fl P hdx hN hc1 hnu hY
  rw [e0] at G1
  refine ⟨C1, d1, hC1, hd1, fun dt hdt hd k hkT v hv => ?_⟩
  have B1 := H1 dt hdt hd k hkT v hv
  have D1 := G1 (k * dt) ⟨by positivity, hkT⟩
  clear hv G1 H1 hY e0
  generalize flC P.dx v v = x1 at *
  generalize flC P.dx (Y (k * dt)) (Y (k * dt)) = x3 at *
  generalize flC P.dx (prj u) (prj u) = x5 at *
  linarith

end fields

/-- **C116, exact solutions.** Along every exact solution of the discretised equations (`c1, nu ≥ 0`, `N ≥ 1`) the energy
of the fluctuations is at most `exp ((|kappa| - 2 slowest) t)` times its initial value. -/
theorem C116_exact_fluctuations (h0 : 0 < h) (w0 : 0 < w) (hb : Std b h w)
    (ehw : hw = HW.init b dx0 P.N P.c1 P.nu k0 P.pb P.kappa P.zonal test) (hdx : P.dx ≠ 0) (hN : 1 ≤ P.N) (hc : 0 ≤ P.c1)
    (hn : 0 ≤ P.nu) {T : ℝ} {N O : ℝ → Arr ℝ} (H : ExactSolution hw P.dx h w T N O) :
    ∃ F : ℝ → ℝ, (∀ t ∈ Icc 0 T, HasFluct hw P.dx h w (N t) (O t) (F t)) ∧
      ∀ t ∈ Icc 0 T, 0 ≤ F t ∧ F t ≤ Real.exp ((|P.kappa| - 2 * slowest P h w) * t) * F 0 := by
  have : NeZero h := ⟨h0.ne'⟩
  have : NeZero w := ⟨w0.ne'⟩
  have hb' : hw.backend.Good h w := by rw [ehw]; exact hb.good
  have ep : parOf hw P.dx = P := by rw [ehw]; exact parOf_init ..
  obtain ⟨s1, s2, hY⟩ := (exact_iff hb').1 H
  rw [ep] at hY
  refine ⟨fun t => flC P.dx (pairOf (N t) (O t) : Pair h w) (pairOf (N t) (O t)),
    fun t _ => hasFluct_pairOf hb' (s1 t).1 (s1 t).2 (s2 t).1 (s2 t).2, fun t ht => ⟨?_, ?_⟩⟩
  · beta_reduce
    rw [flC_self]
    exact flE_nonneg hdx _ _
  · exact exact_fl P hdx hN hc hn hY t ht

/-- **C116, simulations.** The states produced by `rk4_step` exceed this bound by at most `C dt⁴`. -/
theorem C116_run_fluctuations (h0 : 0 < h) (w0 : 0 < w) (hb : Std b h w)
    (ehw : hw = HW.init b dx0 P.N P.c1 P.nu k0 P.pb P.kappa P.zonal test) (hdx : P.dx ≠ 0) (hN : 1 ≤ P.N)
    (hc1 : 0 ≤ P.c1) (hnu : 0 ≤ P.nu) (s : NS Val) (hs : IsState test h w s) (hc : Consistent hw P.dx s) (T : ℝ)
    (hT : 0 ≤ T) :
    ∃ C dt0, 0 ≤ C ∧ 0 < dt0 ∧ ∀ dt, 0 ≤ dt → dt ≤ dt0 → ∀ k : ℕ, k * dt ≤ T → ∀ c,
      ∃ s' c', history hw P.dx (List.replicate k (.rk4 dt)) s c = .ok (s', c') ∧
        0 ≤ densVar h w s' ∧ 0 ≤ kin2 h w s' ∧
        densVar h w s' + kin2 h w s' ≤ Real.exp ((|P.kappa| - 2 * slowest P h w) * (k * dt))
          * (densVar h w s + kin2 h w s) + C * dt ^ 4 := by
  have : NeZero h := ⟨h0.ne'⟩
  have : NeZero w := ⟨w0.ne'⟩
  have hb' : hw.backend.Good h w := by rw [ehw]; exact hb.good
  have ep : parOf hw P.dx = P := by rw [ehw]; exact parOf_init ..
  have et : hw.TEST_CONSERVATION = test := by rw [ehw]; rfl
  obtain ⟨ks, u, hk, hn, rfl⟩ := hs.exists_mk
  rw [consistent_mk hw hb' P.dx hk] at hc
  obtain ⟨C, d, hC, hd, H⟩ := fluct_fields P hw.dx hdx hN hc1 hnu u hc T hT
  refine ⟨2 * C, d, by linarith, hd, fun dt hdt hd k hkT c => ?_⟩
  have hist := history_eval hw P.dx hb' (et ▸ hk) (List.replicate k (.rk4 dt)) u c
  rw [ep] at hist
  have ht := histS_phi P hw.dx (List.replicate k (.rk4 dt)) u hc
  have H' := H dt hdt hd k hkT _ rfl
  clear H
  generalize histS P hw.dx (List.replicate k (.rk4 dt)) u = t at *
  have hkj : GoodKeys (histKeys (List.replicate k (.rk4 dt)) ks) test := goodKeys_hist _ hk
  generalize histKeys (List.replicate k (.rk4 dt)) ks = ks' at *
  obtain ⟨a1, a2, a3⟩ := fluct_flC hdx hkj t ht
  obtain ⟨-, -, b3⟩ := fluct_flC hdx hk u hc
  rw [← a3, ← b3] at H'
  refine ⟨_, _, hist, a1, a2, ?_⟩
  linarith

/-- **C116.** If the slowest damping rate exceeds `|kappa|/2`, the fluctuations of every simulation die out: for every
`ε > 0` there is a time after which, up to any horizon and for every small enough time step, the density is constant and
the plasma at rest up to `ε` (in the mean square). -/
theorem C116_fluctuations_die_out (h0 : 0 < h) (w0 : 0 < w) (hb : Std b h w)
    (ehw : hw = HW.init b dx0 P.N P.c1 P.nu k0 P.pb P.kappa P.zonal test) (hdx : P.dx ≠ 0) (hN : 1 ≤ P.N)
    (hc1 : 0 ≤ P.c1) (hnu : 0 ≤ P.nu) (hk : |P.kappa| < 2 * slowest P h w) (s : NS Val) (hs : IsState test h w s)
    (hc : Consistent hw P.dx s) (ε : ℝ) (hε : 0 < ε) :
    ∃ T0 : ℝ, 0 ≤ T0 ∧ ∀ T : ℝ, ∃ dt0 : ℝ, 0 < dt0 ∧ ∀ dt : ℝ, 0 ≤ dt → dt ≤ dt0 → ∀ k : ℕ, T0 ≤ k * dt → k * dt ≤ T →
      ∀ c,
      ∃ s' c', history hw P.dx (List.replicate k (.rk4 dt)) s c = .ok (s', c') ∧
        0 ≤ densVar h w s' ∧ densVar h w s' ≤ ε ∧ 0 ≤ kin2 h w s' ∧ kin2 h w s' ≤ ε := by
  set r := 2 * slowest P h w - |P.kappa| with hr
  have r0 : 0 < r := by linarith
  set F := densVar h w s + kin2 h w s with hF
  obtain ⟨T0, t0, hT0⟩ : ∃ T0 : ℝ, 0 ≤ T0 ∧ ∀ t, T0 ≤ t → Real.exp (-r * t) * F ≤ ε / 2 := by
    refine ⟨2 * |F| / (r * ε), by positivity, fun t ht => ?_⟩
    have t1 : 2 * |F| ≤ t * (r * ε) := (div_le_iff₀ (by positivity)).1 ht
    have e1 : r * t + 1 ≤ Real.exp (r * t) := Real.add_one_le_exp _
    rw [neg_mul, Real.exp_neg, inv_mul_le_iff₀ (Real.exp_pos _)]
    have := le_abs_self F
    nlinarith
  refine ⟨T0, t0, fun T => ?_⟩
  obtain ⟨C, d, hC, hd, H⟩ := C116_run_fluctuations h0 w0 hb ehw hdx hN hc1 hnu s hs hc (max T 0) (le_max_right _ _)
  refine ⟨min d (min 1 (ε / (2 * (C + 1)))), by positivity, fun dt hdt hd' k hk1 hk2 c => ?_⟩
  obtain ⟨s', c', e, a1, a2, a3⟩ := H dt hdt (hd'.trans (min_le_left _ _)) k (hk2.trans (le_max_left _ _)) c
  have d1 : dt ≤ 1 := hd'.trans ((min_le_right _ _).trans (min_le_left _ _))
  have d2 : dt ≤ ε / (2 * (C + 1)) := hd'.trans ((min_le_right _ _).trans (min_le_right _ _))
  have d4 : dt ^ 4 ≤ dt := by
    have := pow_le_one₀ (n := 3) hdt d1
    nlinarith
  have d5 : C * dt ^ 4 ≤ ε / 2 := by
    rw [le_div_iff₀ (by positivity)] at d2
    nlinarith [mul_le_mul_of_nonneg_left d4 hC]
  have d6 := hT0 _ hk1
  have er : |P.kappa| - 2 * slowest P h w = -r := by rw [hr]; ring
  rw [er] at a3
  exact ⟨s', c', e, a1, by linarith, a2, by linarith⟩

example : ∃ s, IsState true 4 5 s ∧ Consistent (HW.init numpyBackend 1 1 1 1 1 1 1 false true) 1 s ∧ ∀ ε : ℝ, 0 < ε →
    ∃ T0 : ℝ, 0 ≤ T0 ∧ ∀ T : ℝ, ∃ dt0 : ℝ, 0 < dt0 ∧ ∀ dt : ℝ, 0 ≤ dt → dt ≤ dt0 → ∀ k : ℕ, T0 ≤ k * dt → k * dt ≤ T →
      ∃ s' c', history (HW.init numpyBackend 1 1 1 1 1 1 1 false true) 1 (List.replicate k (.rk4 dt)) s {} = .ok (s', c') ∧
        densVar 4 5 s' ≤ ε ∧ kin2 4 5 s' ≤ ε := by
  obtain ⟨s, c, -, hs, hc⟩ := C32_phi_consistent (HW.init numpyBackend 1 1 1 1 1 1 1 false true) 1
    (h := 4) (w := 5) (by decide) (by decide) (.inl rfl) [.rk4 (1 / 10)] (by simp) demoState demoState_isState {}
  refine ⟨s, hs, hc, fun ε hε => ?_⟩
  obtain ⟨T0, t0, H⟩ := C116_fluctuations_die_out (P := ⟨1, 1, 1, 1, 1, 1, false⟩) (b := numpyBackend)
    (dx0 := 1) (k0 := 1) (test := true) (h := 4) (w := 5) (by decide) (by decide) (.inl rfl) rfl one_ne_zero (by norm_num)
    (by norm_num) (by norm_num) (by
      have hp := Real.pi_pos
      have a := Real.mul_le_sin (x := Real.pi / 5) (by positivity) (by linarith)
      have e : 2 / Real.pi * (Real.pi / 5) = 2 / 5 := by field_simp
      rw [e] at a
      unfold slowest
      norm_num
      nlinarith) s hs hc ε hε
  refine ⟨T0, t0, fun T => ?_⟩
  obtain ⟨d, hd, H⟩ := H T
  refine ⟨d, hd, fun dt h1 h2 k h3 h4 => ?_⟩
  obtain ⟨s', c', e1, -, e2, -, e3⟩ := H dt h1 h2 k h3 h4 {}
  exact ⟨s', c', e1, e2, e3⟩

example : ∃ (N O : ℝ → Arr ℝ) (F : ℝ → ℝ), N 0 = tab 4 5 (fun i j => (i * i + 3 * j : ℝ)) ∧
    ExactSolution (HW.init numpyBackend 1 1 1 1 1) 1 4 5 100 N O ∧
    ∀ t ∈ Icc (0 : ℝ) 100, HasFluct (HW.init numpyBackend 1 1 1 1 1) 1 4 5 (N t) (O t) (F t) ∧
      F t ≤ Real.exp ((|1| - 2 * slowest ⟨1, 1, 1, 1, 1, 1, false⟩ 4 5) * t) * F 0 := by
  obtain ⟨N, O, h1, -, H, -⟩ := C34_exact_solution_exists (hw := HW.init numpyBackend 1 1 1 1 1) (dx := 1) (h := 4) (w := 5)
    (by decide) (by decide) (.inl rfl) (tab 4 5 fun i j => (i * i + 3 * j : ℝ)) (tab 4 5 fun i j => (i - 2 * j : ℝ)) ⟨rfl, rfl⟩
    ⟨rfl, rfl⟩ 100 (by norm_num)
  obtain ⟨F, hF, hle⟩ := C116_exact_fluctuations (P := ⟨1, 1, 1, 1, 1, 1, false⟩) (b := numpyBackend) (dx0 := 1) (k0 := 1)
    (test := true) (by decide) (by decide) (.inl rfl) rfl one_ne_zero le_rfl (by norm_num) (by norm_num) H
  exact ⟨N, O, F, h1, H, fun t ht => ⟨hF t ht, (hle t ht).2⟩⟩

example : ∃ s, IsState true 4 5 s ∧ ∃ C dt0 : ℝ, 0 ≤ C ∧ 0 < dt0 ∧ ∀ dt, 0 ≤ dt → dt ≤ dt0 → ∀ k : ℕ, k * dt ≤ 10 → ∃ s' c',
    history (HW.init numpyBackend 1 1 1 1 1) 1 (List.replicate k (.rk4 dt)) s {} = .ok (s', c') ∧
    densVar 4 5 s' + kin2 4 5 s' ≤ Real.exp ((|1| - 2 * slowest ⟨1, 1, 1, 1, 1, 1, false⟩ 4 5) * (k * dt))
          * (densVar 4 5 s + kin2 4 5 s) + C * dt ^ 4 := by
  obtain ⟨s, c, -, hs, hc⟩ := C32_phi_consistent (HW.init numpyBackend 1 1 1 1 1) 1
    (h := 4) (w := 5) (by decide) (by decide) (.inl rfl) [.rk4 (1 / 10)] (by simp) demoState demoState_isState {}
  obtain ⟨C, d, hC, hd, H⟩ := C116_run_fluctuations (P := ⟨1, 1, 1, 1, 1, 1, false⟩) (b := numpyBackend) (dx0 := 1) (k0 := 1)
    (test := true) (by decide) (by decide) (.inl rfl) rfl one_ne_zero le_rfl (by norm_num) (by norm_num) s hs hc 10 (by norm_num)
  refine ⟨s, hs, C, d, hC, hd, fun dt h1 h2 k h3 => ?_⟩
  obtain ⟨s', c', e, -, -, h⟩ := H dt h1 h2 k h3 {}
  exact ⟨s', c', e, h⟩

end Verif.Props
