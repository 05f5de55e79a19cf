import Verif.Lemmas.EnergyBound
import Verif.Props.Budget
import Verif.Props.Modes

/-!
# Property theorem C100: how fast energy and enstrophy can grow
-/

set_option linter.unusedSectionVars false

namespace Verif.Props

open Arr NS Spec Set

variable {hw : HW} {dx : ℝ} {h w : ℕ} {P : Params} {b : Backend} {dx0 k0 : ℝ} {test : Bool}

/-- `E` is the energy `mean(n² - phi·omega)/2` of density `n` and vorticity `o`, with the potential of `get_phi` -/
def HasEnergy (hw : HW) (dx : ℝ) (h w : ℕ) (n o : Arr ℝ) (E : ℝ) : Prop :=
  ∃ p, (∀ c, ∃ c', hw.get_phi o dx c = .ok (p, c')) ∧
    E = Spec.mean h w (fun i j => n.at' i j ^ 2 - p.at' i j * o.at' i j) / 2

section fields
variable [NeZero h] [NeZero w]

theorem rate_en_le (P : Params) (hdx : P.dx ≠ 0) (hc : 0 ≤ P.c1) (hn : 0 ≤ P.nu) (u : Pair h w) :
    ODE.rate (linC P) (bilC P) (enC P.dx) u ≤ |P.kappa| * enC P.dx u u := by
  rw [rate_en, enC_apply]
  have a := gamN_le hdx u.1 u.2
  have b := gamC_nonneg hc (cpl P.zonal u.1) (cpl P.zonal (phiF P.dx u.2))
  have c := energy_hyper_nonpos P hn u.1 u.2
  have d := mul_le_mul_of_nonneg_left a (abs_nonneg P.kappa)
  rw [← abs_mul] at d
  have e := le_abs_self (P.kappa * gamN P.dx u.1 (phiF P.dx u.2))
  linarith

theorem rate_us_le (P : Params) (hdx : P.dx ≠ 0) (hn : 0 ≤ P.nu) (u : Pair h w) :
    ODE.rate (linC P) (bilC P) usC u ≤ |P.kappa| * enC P.dx u u := by
  rw [rate_us, enC_apply]
  have a := gamN_le hdx u.1 u.2
  have c := enstrophy_hyper_nonpos P hn u.1 u.2
  have d := mul_le_mul_of_nonneg_left a (abs_nonneg P.kappa)
  rw [← abs_mul] at d
  have e := le_abs_self (P.kappa * gamN P.dx u.1 (phiF P.dx u.2))
  linarith

theorem hasEnergy_pairOf (hb : hw.backend.Good h w) {n o : Arr ℝ} (n1 : n.h = h) (n2 : n.w = w) (o1 : o.h = h)
    (o2 : o.w = w) : HasEnergy hw dx h w n o (enC dx (pairOf n o : Pair h w) (pairOf n o)) := by
  have en : n = ofField (toFld n : Fld h w) := (ofField_toFld n1 n2).symm
  have eo : o = ofField (toFld o : Fld h w) := (ofField_toFld o1 o2).symm
  refine ⟨ofField (phiF dx (toFld o : Fld h w)), fun c => ⟨{ c with get_phi := c.get_phi + 1 }, ?_⟩, ?_⟩
  · conv_lhs => rw [eo]
    exact get_phi_ofField hw hb _ dx c
  · rw [enC_apply]
    rw [spec_mean_of (g := fun i j => (toFld n : Fld h w) i j * (toFld n : Fld h w) i j
      - phiF dx (toFld o : Fld h w) i j * (toFld o : Fld h w) i j) fun i j hi hj => by
        conv_lhs => rw [en, eo]
        rw [ofField_at' _ hi hj, ofField_at' _ hi hj, toFld_ofField, ofField_at' _ hi hj, sq]]
    rfl

end fields

/-- **C100, exact solutions.** Along every exact solution of the discretised equations (`c1, nu ≥ 0`) the energy grows
at most like `exp (|kappa| t)`; without background gradient it never grows. -/
theorem C100_exact_energy_bound (h0 : 0 < h) (w0 : 0 < w) (hb : Std b h w)
    (ehw : hw = HW.init b dx0 P.N P.c1 P.nu k0 P.pb P.kappa P.zonal test) (hdx : P.dx ≠ 0) (hc : 0 ≤ P.c1)
    (hn : 0 ≤ P.nu) {T : ℝ} {N O : ℝ → Arr ℝ} (H : ExactSolution hw P.dx h w T N O) :
    ∃ E : ℝ → ℝ, (∀ t ∈ Icc 0 T, HasEnergy hw P.dx h w (N t) (O t) (E t)) ∧
      ∀ t ∈ Icc 0 T, 0 ≤ E t ∧ E t ≤ Real.exp (|P.kappa| * t) * E 0 := by
  have : NeZero h := ⟨h0.ne'⟩
  have : NeZero w := ⟨w0.ne'⟩
  have hb' : hw.backend.Good h w := by rw [ehw]; exact hb.good
  have ep : parOf hw P.dx = P := by rw [ehw]; exact parOf_init ..
  obtain ⟨s1, s2, hY⟩ := (exact_iff hb').1 H
  rw [ep] at hY
  refine ⟨fun t => enC P.dx (pairOf (N t) (O t) : Pair h w) (pairOf (N t) (O t)),
    fun t _ => hasEnergy_pairOf hb' (s1 t).1 (s1 t).2 (s2 t).1 (s2 t).2, fun t ht => ⟨?_, ?_⟩⟩
  · beta_reduce
    rw [enC_apply]
    exact (abs_nonneg _).trans (gamN_le hdx _ _)
  · exact ODE.form_gronwall _ _ (enC P.dx) hY (rate_en_le P hdx hc hn) t ht

section fieldRun
variable [NeZero h] [NeZero w]

attribute [local irreducible] enC usC linC bilC ODE.rate

theorem exact_en (P : Params) (hdx : P.dx ≠ 0) (hc1 : 0 ≤ P.c1) (hnu : 0 ≤ P.nu) {T : ℝ} {Y : ℝ → Pair h w}
    (hY : ODE.Solves (ODE.F (linC P) (bilC P)) T Y) : ∀ t ∈ Icc 0 T,
    enC P.dx (Y t) (Y t) ≤ Real.exp (|P.kappa| * t) * enC P.dx (Y 0) (Y 0) := by
  have := ODE.form_gronwall (E := Pair h w) (linC P) (bilC P) (enC P.dx) (K := |P.kappa|) hY (rate_en_le P hdx hc1 hnu)
  exact this

theorem exact_us (P : Params) (hdx : P.dx ≠ 0) (hc1 : 0 ≤ P.c1) (hnu : 0 ≤ P.nu) {T : ℝ} {Y : ℝ → Pair h w}
    (hY : ODE.Solves (ODE.F (linC P) (bilC P)) T Y) : ∀ t ∈ Icc 0 T,
    usC (Y t) (Y t) ≤ usC (Y 0) (Y 0) + (Real.exp (|P.kappa| * t) - 1) * enC P.dx (Y 0) (Y 0) := by
  have := ODE.form_driven (E := Pair h w) (linC P) (bilC P) (enC P.dx) (K := |P.kappa|) hY usC (rate_en_le P hdx hc1 hnu)
    (rate_us_le P hdx hnu) (abs_nonneg _)
  exact this

theorem steps_form (P : Params) (d : ℝ) (Q : Pair h w →L[ℝ] Pair h w →L[ℝ] ℝ) (u : Sta h w)
    (hc : u.2.2.1 = phiF P.dx u.2.1) {T : ℝ} (hT : 0 ≤ T) {Y : ℝ → Pair h w}
    (hY : ODE.Solves (ODE.F (linC P) (bilC P)) T Y) (e0 : Y 0 = prj u) :
    ∃ C dt0 : ℝ, 0 ≤ C ∧ 0 < dt0 ∧ ∀ dt, 0 ≤ dt → dt ≤ dt0 → ∀ k : ℕ, k * dt ≤ T → ∀ v : Pair h w,
      prj (histS P d (List.replicate k (.rk4 dt)) u) = v → Q v v ≤ Q (Y (k * dt)) (Y (k * dt)) + C * dt ^ 4 := by
  obtain ⟨C, d', hC, hd, H⟩ := ODE.rk4_form (E := Pair h w) (linC P) (bilC P) Q hT hY
  refine ⟨C, d', hC, hd, fun dt hdt hd k hkT v hv => ?_⟩
  have B := (abs_le.1 (H dt hdt hd k hkT)).2
  have hp : v = (ODE.rk4 (ODE.F (linC P) (bilC P)) dt)^[k] (prj u) :=
    hv.symm.trans (histS_replicate _ _ _ _ (fun s hs => stepS_rk4_prj _ _ _ s hs) k u hc)
  rw [e0, ← hp] at B
  exact sub_le_iff_le_add'.1 B

/-- The two bounds for the fields computed by the steps. -/
theorem energy_fields (P : Params) (d : ℝ) (hdx : P.dx ≠ 0) (hc1 : 0 ≤ P.c1) (hnu : 0 ≤ P.nu) (u : Sta h w)
    (hc : u.2.2.1 = phiF P.dx u.2.1) (T : ℝ) (hT : 0 ≤ T) :
    ∃ C dt0, 0 ≤ C ∧ 0 < dt0 ∧ ∀ dt, 0 ≤ dt → dt ≤ dt0 → ∀ k : ℕ, k * dt ≤ T → ∀ v : Pair h w,
      prj (histS P d (List.replicate k (.rk4 dt)) u) = v →
      enC P.dx v v ≤ Real.exp (|P.kappa| * (k * dt)) * enC P.dx (prj u) (prj u) + C * dt ^ 4 ∧
      usC v v ≤ usC (prj u) (prj u) + (Real.exp (|P.kappa| * (k * dt)) - 1) * enC P.dx (prj u) (prj u) + C * dt ^ 4 := by
  obtain ⟨Y, e0, hY⟩ := exists_solutionU P hT (prj u)
  obtain ⟨C1, d1, hC1, hd1, H1⟩ := steps_form P d (enC P.dx) u hc hT hY e0
  obtain ⟨C2, d2, hC2, hd2, H2⟩ := steps_form P d usC u hc hT hY e0
  have G1 := exact_en P hdx hc1 hnu hY
  have G2 := exact_us P hdx hc1 hnu hY
  rw [e0] at G1 G2
  refine ⟨max C1 C2, min d1 d2, le_max_of_le_left hC1, lt_min hd1 hd2, fun dt hdt hd k hkT v hv => ?_⟩
  have B1 := H1 dt hdt (hd.trans (min_le_left _ _)) k hkT v hv
  have B2 := H2 dt hdt (hd.trans (min_le_right _ _)) k hkT v hv
  have D1 := G1 (k * dt) ⟨by positivity, hkT⟩
  have D2 := G2 (k * dt) ⟨by positivity, hkT⟩
  have m1 : C1 * dt ^ 4 ≤ max C1 C2 * dt ^ 4 := mul_le_mul_of_nonneg_right (le_max_left _ _) (by positivity)
  have m2 : C2 * dt ^ 4 ≤ max C1 C2 * dt ^ 4 := mul_le_mul_of_nonneg_right (le_max_right _ _) (by positivity)
  clear hv G1 G2 H1 H2 hY e0
  generalize enC P.dx v v = x1 at *
  generalize usC v v = x2 at *
  generalize enC P.dx (Y (k * dt)) (Y (k * dt)) = x3 at *
  generalize usC (Y (k * dt)) (Y (k * dt)) = x4 at *
  generalize enC P.dx (prj u) (prj u) = x5 at *
  generalize usC (prj u) (prj u) = x6 at *
  constructor <;> linarith

theorem half_usC (t : Sta h w) : avg (fun a b => (t.1 a b - t.2.1 a b) ^ 2) / 2 = usC (prj t) (prj t) := by
  rw [usC_apply]; simp only [sq]; rfl

end fieldRun

/-- **C100, simulations.** Energy and enstrophy of the states produced by `rk4_step` exceed these bounds by at most
`C dt⁴`. -/
theorem C100_energy_bound (h0 : 0 < h) (w0 : 0 < w) (hb : Std b h w)
    (ehw : hw = HW.init b dx0 P.N P.c1 P.nu k0 P.pb P.kappa P.zonal test) (hdx : P.dx ≠ 0) (hc1 : 0 ≤ P.c1)
    (hnu : 0 ≤ P.nu) (s : NS Val) (hs : IsState test h w s) (hc : Consistent hw P.dx s) (T : ℝ)
    (hT : 0 ≤ T) :
    ∃ C dt0, 0 ≤ C ∧ 0 < dt0 ∧ ∀ dt, 0 ≤ dt → dt ≤ dt0 → ∀ k : ℕ, k * dt ≤ T → ∀ c,
      ∃ s' c' U U', history hw P.dx (List.replicate k (.rk4 dt)) s c = .ok (s', c') ∧
        Properties.get_enstrophy (arrOf s "density") (arrOf s "omega") P.dx = .ok U ∧
        Properties.get_enstrophy (arrOf s' "density") (arrOf s' "omega") P.dx = .ok U' ∧
        energyOf h w s' ≤ Real.exp (|P.kappa| * (k * dt)) * energyOf h w s + C * dt ^ 4 ∧
        U' ≤ U + (Real.exp (|P.kappa| * (k * dt)) - 1) * energyOf h w s + C * dt ^ 4 := by
  have : NeZero h := ⟨h0.ne'⟩
  have : NeZero w := ⟨w0.ne'⟩
  have hb' : hw.backend.Good h w := by rw [ehw]; exact hb.good
  have ep : parOf hw P.dx = P := by rw [ehw]; exact parOf_init ..
  have et : hw.TEST_CONSERVATION = test := by rw [ehw]; rfl
  obtain ⟨ks, u, hk, hn, rfl⟩ := hs.exists_mk
  rw [consistent_mk hw hb' P.dx hk] at hc
  obtain ⟨C, d, hC, hd, H⟩ := energy_fields P hw.dx hdx hc1 hnu u hc T hT
  refine ⟨C, d, hC, hd, fun dt hdt hd k hkT c => ?_⟩
  have hist := history_eval hw P.dx hb' (et ▸ hk) (List.replicate k (.rk4 dt)) u c
  rw [ep] at hist
  have ht := histS_phi P hw.dx (List.replicate k (.rk4 dt)) u hc
  have H' := H dt hdt hd k hkT _ rfl
  clear H
  generalize histS P hw.dx (List.replicate k (.rk4 dt)) u = t at *
  have hkj : GoodKeys (histKeys (List.replicate k (.rk4 dt)) ks) test := goodKeys_hist _ hk
  generalize histKeys (List.replicate k (.rk4 dt)) ks = ks' at *
  have e1 := energyOf_mk hkj t ht
  have e2 := energyOf_mk hk u hc
  rw [← half_usC, ← half_usC, ← e1, ← e2] at H'
  refine ⟨_, _, _, _, hist, ?_, ?_, H'.1, H'.2⟩
  · rw [arrOf_density hk, arrOf_omega hk]
    exact enstrophy_ofField _ _ _
  · rw [arrOf_density hkj, arrOf_omega hkj]
    exact enstrophy_ofField _ _ _

example : ∃ s, IsState true 4 5 s ∧ Consistent (HW.init numpyBackend 1 3 1 (1 / 10) 1 1 1 false true) 1 s ∧
    ∃ C dt0 : ℝ, 0 ≤ C ∧ 0 < dt0 ∧ ∀ dt : ℝ, 0 ≤ dt → dt ≤ dt0 → ∀ k : ℕ, k * dt ≤ 10 → ∃ s' c',
      history (HW.init numpyBackend 1 3 1 (1 / 10) 1 1 1 false true) 1 (List.replicate k (.rk4 dt)) s {} = .ok (s', c') ∧
      energyOf 4 5 s' ≤ Real.exp (|1| * (k * dt)) * energyOf 4 5 s + C * dt ^ 4 := by
  obtain ⟨s, c, -, hs, hc⟩ := C32_phi_consistent (HW.init numpyBackend 1 3 1 (1 / 10) 1 1 1 false true) 1
    (h := 4) (w := 5) (by decide) (by decide) (.inl rfl) [.rk4 (1 / 10)] (by simp) demoState demoState_isState {}
  obtain ⟨C, d, hC, hd, H⟩ := C100_energy_bound (P := ⟨1, 3, 1, 1 / 10, 1, 1, false⟩) (b := numpyBackend)
    (dx0 := 1) (k0 := 1) (test := true) (by decide) (by decide) (.inl rfl) rfl one_ne_zero (by norm_num) (by norm_num)
    s hs hc 10 (by norm_num)
  refine ⟨s, hs, hc, C, d, hC, hd, fun dt h1 h2 k h3 => ?_⟩
  obtain ⟨s', c', _, _, e1, -, -, e2, -⟩ := H dt h1 h2 k h3 {}
  exact ⟨s', c', e1, e2⟩

example : ∃ (N O : ℝ → Arr ℝ) (E : ℝ → ℝ), N 0 = tab 4 5 (fun i j => (i * i + 3 * j : ℝ)) ∧
    ExactSolution (HW.init numpyBackend 1 3 1 (1 / 10) 1) 1 4 5 100 N O ∧
    ∀ t ∈ Icc (0 : ℝ) 100, HasEnergy (HW.init numpyBackend 1 3 1 (1 / 10) 1) 1 4 5 (N t) (O t) (E t) ∧
      E t ≤ Real.exp (|1| * t) * E 0 := by
  obtain ⟨N, O, h1, -, H, -⟩ := C34_exact_solution_exists (hw := HW.init numpyBackend 1 3 1 (1 / 10) 1) (dx := 1) (h := 4) (w := 5)
    (by decide) (by decide) (.inl rfl) (tab 4 5 fun i j => (i * i + 3 * j : ℝ)) (tab 4 5 fun i j => (i - 2 * j : ℝ)) ⟨rfl, rfl⟩
    ⟨rfl, rfl⟩ 100 (by norm_num)
  obtain ⟨E, hE, hle⟩ := C100_exact_energy_bound (P := ⟨1, 3, 1, 1 / 10, 1, 1, false⟩) (b := numpyBackend) (dx0 := 1) (k0 := 1)
    (test := true) (by decide) (by decide) (.inl rfl) rfl one_ne_zero (by norm_num) (by norm_num) H
  exact ⟨N, O, E, h1, H, fun t ht => ⟨hE t ht, (hle t ht).2⟩⟩

end Verif.Props
