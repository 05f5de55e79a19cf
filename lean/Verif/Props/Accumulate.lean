import Verif.Props.Budget
import Verif.Lemmas.Augment

/-!
# Property theorem C110: the accumulated `dE` and `dU` entries

With `TEST_CONSERVATION=True` the entries `dE` and `dU` of a state are advanced with the reported
rates.  Started from the energy and enstrophy they are meant to follow them (this is what
`tests/test_prop_preservation.py` checks for one state and three steps).
-/

set_option linter.unusedSectionVars false

namespace Verif.Props

open Arr NS Spec Set

section fields
variable {h w : ℕ} [NeZero h] [NeZero w]

/-- reported energy rate as a bilinear form -/
noncomputable def repEC (P : Params) (dx0 : ℝ) : Pair h w →L[ℝ] Pair h w →L[ℝ] ℝ :=
  (LinearMap.mk₂ ℝ (fun u v : Pair h w => avg fun i j => -(u.1 i j * gradY dx0 (phiF P.dx v.2) i j)
      - P.c1 * ((u.1 i j - phiF P.dx u.2 i j) * (v.1 i j - phiF P.dx v.2 i j))
      - (u.1 i j * hyper P v.1 i j - phiF P.dx u.2 i j * hyper P (phiF P.dx v.2) i j))
    (fun u u' v => by
      rw [← avg_add]
      refine avg_congr fun i j => ?_
      simp only [Prod.fst_add, Prod.snd_add, phiF_add, Pi.add_apply]
      ring)
    (fun c u v => by
      rw [smul_eq_mul, ← avg_smul]
      refine avg_congr fun i j => ?_
      simp only [Prod.smul_fst, Prod.smul_snd, phiF_smul, Pi.smul_apply, smul_eq_mul]
      ring)
    (fun u v v' => by
      rw [← avg_add]
      refine avg_congr fun i j => ?_
      simp only [Prod.fst_add, Prod.snd_add, phiF_add, gradY_add, hyper_add, Pi.add_apply]
      ring)
    (fun c u v => by
      rw [smul_eq_mul, ← avg_smul]
      refine avg_congr fun i j => ?_
      simp only [Prod.smul_fst, Prod.smul_snd, phiF_smul, gradY_smul, hyper_smul, Pi.smul_apply, smul_eq_mul]
      ring)).toContinuousBilinearMap

/-- reported enstrophy rate as a bilinear form -/
noncomputable def repUC (P : Params) (dx0 : ℝ) : Pair h w →L[ℝ] Pair h w →L[ℝ] ℝ :=
  (LinearMap.mk₂ ℝ (fun u v : Pair h w => avg fun i j => -(u.1 i j * gradY dx0 (phiF P.dx v.2) i j)
      + (u.1 i j - u.2 i j) * (hyper P v.1 i j - hyper P (phiF P.dx v.2) i j))
    (fun u u' v => by
      rw [← avg_add]
      refine avg_congr fun i j => ?_
      simp only [Prod.fst_add, Prod.snd_add, Pi.add_apply]
      ring)
    (fun c u v => by
      rw [smul_eq_mul, ← avg_smul]
      refine avg_congr fun i j => ?_
      simp only [Prod.smul_fst, Prod.smul_snd, Pi.smul_apply, smul_eq_mul]
      ring)
    (fun u v v' => by
      rw [← avg_add]
      refine avg_congr fun i j => ?_
      simp only [Prod.fst_add, Prod.snd_add, phiF_add, gradY_add, hyper_add, Pi.add_apply]
      ring)
    (fun c u v => by
      rw [smul_eq_mul, ← avg_smul]
      refine avg_congr fun i j => ?_
      simp only [Prod.smul_fst, Prod.smul_snd, phiF_smul, gradY_smul, hyper_smul, Pi.smul_apply, smul_eq_mul]
      ring)).toContinuousBilinearMap

theorem repEC_self (P : Params) (dx0 : ℝ) (u : Pair h w) :
    repEC P dx0 u u = repE P dx0 u.1 (phiF P.dx u.2) := by
  change avg (fun i j => -(u.1 i j * gradY dx0 (phiF P.dx u.2) i j)
      - P.c1 * ((u.1 i j - phiF P.dx u.2 i j) * (u.1 i j - phiF P.dx u.2 i j))
      - (u.1 i j * hyper P u.1 i j - phiF P.dx u.2 i j * hyper P (phiF P.dx u.2) i j)) = _
  unfold repE gamN gamC
  rw [← avg_neg, ← avg_smul, ← avg_sub, ← avg_sub]
  exact avg_congr fun i j => by ring

theorem repUC_self (P : Params) (dx0 : ℝ) (u : Pair h w) :
    repUC P dx0 u u = repU P dx0 u.1 u.2 (phiF P.dx u.2) := by
  change avg (fun i j => -(u.1 i j * gradY dx0 (phiF P.dx u.2) i j)
      + (u.1 i j - u.2 i j) * (hyper P u.1 i j - hyper P (phiF P.dx u.2) i j)) = _
  unfold repU gamN
  rw [sub_neg_eq_add, ← avg_neg, ← avg_add]

/-- an accumulated entry of a state, with the form of its reported rate -/
structure Entry (h w : ℕ) [NeZero h] [NeZero w] where
  key : String
  sel : Sta h w → ℝ
  frm : Params → ℝ → Pair h w →L[ℝ] Pair h w →L[ℝ] ℝ

noncomputable def entE : Entry h w := ⟨"dE", fun s => s.2.2.2.2.1, repEC⟩
noncomputable def entU : Entry h w := ⟨"dU", fun s => s.2.2.2.2.2, repUC⟩

/-- right-hand side of the extended system -/
noncomputable def augF (P : Params) (dx0 : ℝ) (t : Entry h w) : Pair h w × ℝ × ℝ → Pair h w × ℝ × ℝ :=
  ODE.F (ODE.augA (linC P)) (ODE.augB (bilC P) (t.frm P dx0))

theorem augF_E (P : Params) (dx0 : ℝ) : (augF P dx0 entE : Pair h w × ℝ × ℝ → _)
    = fun z => (rhsU P z.1, repE P dx0 z.1.1 (phiF P.dx z.1.2), 0) := by
  funext z
  unfold augF
  rw [ODE.F_aug, ← rhsU_eq]
  exact Prod.ext rfl (Prod.ext (repEC_self ..) rfl)
theorem augF_U (P : Params) (dx0 : ℝ) : (augF P dx0 entU : Pair h w × ℝ × ℝ → _)
    = fun z => (rhsU P z.1, repU P dx0 z.1.1 z.1.2 (phiF P.dx z.1.2), 0) := by
  funext z
  unfold augF
  rw [ODE.F_aug, ← rhsU_eq]
  exact Prod.ext rfl (Prod.ext (repUC_self ..) rfl)

/-- the extended state -/
def ext (t : Entry h w) (s : Sta h w) : Pair h w × ℝ × ℝ := (prj s, t.sel s, 1)

/-- `M dt` is what one step of kind `a` does to the extended state -/
def Advances (P : Params) (dx0 : ℝ) (t : Entry h w) (a : Step) (G : Pair h w × ℝ × ℝ → Pair h w × ℝ × ℝ) : Prop :=
  ∀ s : Sta h w, s.2.2.1 = phiF P.dx s.2.1 → ext t (stepS P dx0 a s) = G (ext t s)

theorem advances_rk4_E (P : Params) (dx0 dt : ℝ) :
    Advances (h := h) (w := w) P dx0 entE (.rk4 dt) (ODE.rk4 (augF P dx0 entE) dt) := by
  intro s hs
  rw [← rk4U_eq, augF_E]
  change ext entE (rk4S P dx0 dt s) = _
  unfold rk4S rk4U
  rw [hs]
  exact Prod.ext rfl (Prod.ext rfl (by simp [ext]))
theorem advances_rk4_U (P : Params) (dx0 dt : ℝ) :
    Advances (h := h) (w := w) P dx0 entU (.rk4 dt) (ODE.rk4 (augF P dx0 entU) dt) := by
  intro s hs
  rw [← rk4U_eq, augF_U]
  change ext entU (rk4S P dx0 dt s) = _
  unfold rk4S rk4U
  rw [hs]
  exact Prod.ext rfl (Prod.ext rfl (by simp [ext]))
theorem advances_euler_E (P : Params) (dx0 dt : ℝ) :
    Advances (h := h) (w := w) P dx0 entE (.euler dt) (ODE.euler (augF P dx0 entE) dt) := by
  intro s hs
  rw [augF_E]
  unfold ODE.euler
  rw [add_comm]
  change ext entE (eulerS P dx0 dt s.2.2.1 s) = _
  unfold eulerS
  rw [hs]
  exact Prod.ext rfl (Prod.ext rfl (by simp [ext]))
theorem advances_euler_U (P : Params) (dx0 dt : ℝ) :
    Advances (h := h) (w := w) P dx0 entU (.euler dt) (ODE.euler (augF P dx0 entU) dt) := by
  intro s hs
  rw [augF_U]
  unfold ODE.euler
  rw [add_comm]
  change ext entU (eulerS P dx0 dt s.2.2.1 s) = _
  unfold eulerS
  rw [hs]
  exact Prod.ext rfl (Prod.ext rfl (by simp [ext]))

theorem ext_hist {P : Params} {dx0 : ℝ} {t : Entry h w} {a : Step} {G : Pair h w × ℝ × ℝ → Pair h w × ℝ × ℝ}
    (hG : Advances P dx0 t a G) (k : ℕ) (s : Sta h w) (hs : s.2.2.1 = phiF P.dx s.2.1) :
    ext t (histS P dx0 (List.replicate k a) s) = G^[k] (ext t s) := by
  induction k generalizing s with
  | zero => rfl
  | succ k ih =>
    rw [List.replicate_succ, Function.iterate_succ_apply, ← hG s hs]
    exact ih _ (stepS_phi P dx0 a s)

theorem mem_hist {k : String} (hk : k ≠ "phi") {ks : List String} (l : List Step) (H : k ∈ ks) :
    k ∈ histKeys l ks := by
  induction l generalizing ks with
  | nil => exact H
  | cons a l ih =>
    refine ih ?_
    unfold stepKeys
    rw [List.mem_append, List.mem_filter]
    exact .inl ⟨H, by simpa using hk⟩

theorem get_dE {ks : List String} (hk : "dE" ∈ ks) (t : Sta h w) :
    (NS.mk ks (st t)).get? "dE" = some (.num (entE.sel t)) := by rw [get?_mk, if_pos hk, st_dE]; rfl
theorem get_dU {ks : List String} (hk : "dU" ∈ ks) (t : Sta h w) :
    (NS.mk ks (st t)).get? "dU" = some (.num (entU.sel t)) := by rw [get?_mk, if_pos hk, st_dU]; rfl

theorem enstrophy_mk {test : Bool} {ks : List String} (hk : GoodKeys ks test) (t : Sta h w) (dx : ℝ) :
    Properties.get_enstrophy (arrOf (NS.mk ks (st t)) "density") (arrOf (NS.mk ks (st t)) "omega") dx
      = .ok (usC (prj t) (prj t)) := by
  rw [arrOf_density hk, arrOf_omega hk, enstrophy_ofField, usC_apply]
  simp only [sq]
  rfl

end fields

variable (hw : HW) (dx : ℝ) (h w : ℕ)

/-- the rates `dE`, `dU` that `gradient_2d` reports for a state -/
def ReportedRates (s : NS Val) (rE rU : ℝ) : Prop :=
  ∀ c, ∃ p c0 g c', hw.get_phi (arrOf s "omega") dx c = .ok (p, c0) ∧
    hw.gradient_2d (s.without "phi") (some (.arr p)) 0 dx hw.zonal c = .ok (g, c') ∧
    g.get? "dE" = some (.num rE) ∧ g.get? "dU" = some (.num rU)

/-- over the time `T` the entries `dE`, `dU` change by as much as energy and enstrophy, with an error
of order `dt ^ p` -/
def Follows (a : ℝ → Step) (p : ℕ) (s : NS Val) (T : ℝ) : Prop :=
  ∃ C dt0, 0 ≤ C ∧ 0 < dt0 ∧ ∀ dt, 0 ≤ dt → dt ≤ dt0 → ∀ k : ℕ, k * dt ≤ T → ∀ c,
    ∃ s' c' E E' U U' V V', history hw dx (List.replicate k (a dt)) s c = .ok (s', c') ∧
      s.get? "dE" = some (.num E) ∧ s'.get? "dE" = some (.num E') ∧
      s.get? "dU" = some (.num U) ∧ s'.get? "dU" = some (.num U') ∧
      Properties.get_enstrophy (arrOf s "density") (arrOf s "omega") dx = .ok V ∧
      Properties.get_enstrophy (arrOf s' "density") (arrOf s' "omega") dx = .ok V' ∧
      |(E' - E) - (energyOf h w s' - energyOf h w s)| ≤ C * dt ^ p ∧
      |(U' - U) - (V' - V)| ≤ C * dt ^ p

variable {hw dx h w}

theorem keys_of {ks : List String} {t : Sta h w} {k : String} {v : Val}
    (e : (NS.mk ks (st t)).get? k = some v) : k ∈ ks := by
  rw [get?_mk] at e
  split at e
  · assumption
  · cases e

section
variable [NeZero h] [NeZero w]

/-- without hyperdiffusion, with `kappa = 1`, without zonal coupling and with the constructor's `dx` the
reported rates are the rates of the energies -/
theorem repEC_rate {P : Params} (hnu : P.nu = 0) (hk : P.kappa = 1) (hz : P.zonal = false) (y : Pair h w) :
    repEC P P.dx y y = ODE.rate (linC P) (bilC P) (enC P.dx) y := by
  have h0 : ∀ f : Fld h w, hyper P f = 0 := fun f => by funext i j; simp [hyper, hnu]
  rw [repEC_self, rate_en]
  unfold repE
  simp only [h0, Pi.zero_apply, mul_zero, sub_self, avg_const, sub_zero, add_zero, hk, hz, cpl,
    Bool.false_eq_true, if_false, one_mul]
theorem repUC_rate {P : Params} (hnu : P.nu = 0) (hk : P.kappa = 1) (y : Pair h w) :
    repUC P P.dx y y = ODE.rate (linC P) (bilC P) usC y := by
  have h0 : ∀ f : Fld h w, hyper P f = 0 := fun f => by funext i j; simp [hyper, hnu]
  rw [repUC_self, rate_us]
  unfold repU
  simp only [h0, Pi.zero_apply, mul_zero, sub_self, avg_const, neg_zero, sub_zero, add_zero, hk, one_mul]

end

theorem follow_of (a : ℝ → Step) (p : ℕ) (h0 : 0 < h) (w0 : 0 < w) (hb : Std hw.backend h w)
    (hnu : hw.nu = 0) (hk : hw.kappa_coeff = 1) (hz : hw.zonal = false) {s : NS Val}
    (hs : IsState hw.TEST_CONSERVATION h w s) (hc : Consistent hw hw.dx s)
    {E U : ℝ} (hE : s.get? "dE" = some (.num E)) (hU : s.get? "dU" = some (.num U)) {T : ℝ} (hT : 0 ≤ T)
    (M : ∀ [NeZero h] [NeZero w], Entry h w → ℝ → Pair h w × ℝ × ℝ → Pair h w × ℝ × ℝ)
    (HE : ∀ [NeZero h] [NeZero w] dt, Advances (parOf hw hw.dx) hw.dx entE (a dt) (M entE dt))
    (HU : ∀ [NeZero h] [NeZero w] dt, Advances (parOf hw hw.dx) hw.dx entU (a dt) (M entU dt))
    (hM : ∀ [NeZero h] [NeZero w] (t : Entry h w), ODE.Converges (A := linC (parOf hw hw.dx))
      (B := bilC (parOf hw hw.dx)) (Q := t.frm (parOf hw hw.dx) hw.dx) (M t) p) :
    Follows hw hw.dx h w a (p + 1) s T := by
  have : NeZero h := ⟨h0.ne'⟩
  have : NeZero w := ⟨w0.ne'⟩
  obtain ⟨ks, u, hks, hn, e⟩ := hs.exists_mk
  subst e
  have kE : "dE" ∈ ks := keys_of hE
  have kU : "dU" ∈ ks := keys_of hU
  rw [consistent_mk hw hb.good hw.dx hks] at hc
  obtain ⟨Y, e0, hY⟩ := exists_solutionU (parOf hw hw.dx) hT (prj u)
  have pnu : (parOf hw hw.dx).nu = 0 := by simp [parOf, hnu]
  obtain ⟨C1, d1, hC1, hd1, H1⟩ := ODE.aug_track (G := enC hw.dx) (hM entE) hT hY
    (repEC_rate (P := parOf hw hw.dx) pnu hk hz) (entE.sel u)
  obtain ⟨C2, d2, hC2, hd2, H2⟩ := ODE.aug_track (G := usC) (hM entU) hT hY
    (repUC_rate (P := parOf hw hw.dx) pnu hk) (entU.sel u)
  refine ⟨max C1 C2, min d1 d2, le_max_of_le_left hC1, lt_min hd1 hd2, fun dt hdt hd k hkT c => ?_⟩
  have B1 := H1 dt hdt (hd.trans (min_le_left _ _)) k hkT
  have B2 := H2 dt hdt (hd.trans (min_le_right _ _)) k hkT
  rw [e0] at B1 B2
  rw [show (prj u, entE.sel u, (1 : ℝ)) = ext entE u from rfl, ← ext_hist (HE dt) k u hc] at B1
  rw [show (prj u, entU.sel u, (1 : ℝ)) = ext entU u from rfl, ← ext_hist (HU dt) k u hc] at B2
  have hk' := goodKeys_hist (List.replicate k (a dt)) hks
  have hphi := histS_phi (parOf hw hw.dx) hw.dx (List.replicate k (a dt)) u hc
  refine ⟨_, _, _, _, _, _, _, _, history_eval hw hw.dx hb.good hks _ u c, get_dE kE u,
    get_dE (mem_hist (by decide) _ kE) _, get_dU kU u, get_dU (mem_hist (by decide) _ kU) _,
    enstrophy_mk hks u _, enstrophy_mk hk' _ _, ?_, ?_⟩
  · rw [energyOf_mk hk' _ hphi, energyOf_mk hks _ hc]
    have : ∀ t : Sta h w, ODE.gap (enC hw.dx) (ext entE t) = entE.sel t - enC hw.dx (prj t) (prj t) :=
      fun _ => rfl
    rw [this, this] at B1
    refine le_trans (le_of_eq ?_) (B1.trans (mul_le_mul_of_nonneg_right (le_max_left _ _) (by positivity)))
    congr 1
    change _ - _ - (enC hw.dx _ _ - enC hw.dx _ _) = _
    ring
  · have : ∀ t : Sta h w, ODE.gap usC (ext entU t) = entU.sel t - usC (prj t) (prj t) := fun _ => rfl
    rw [this, this] at B2
    refine le_trans (le_of_eq ?_) (B2.trans (mul_le_mul_of_nonneg_right (le_max_right _ _) (by positivity)))
    congr 1
    ring

/-- **C110 (the part that holds).** Without hyperdiffusion, with `kappa = 1`, without zonal coupling and
with the constructor's `dx`: over every time `T` the entries `dE` and `dU` change under repeated
`rk4_step` by as much as energy and enstrophy, up to `C dt⁴`.  Missing: all other parameters (refuted
below for `nu > 0`). -/
theorem C110_rk4_partial (h0 : 0 < h) (w0 : 0 < w) (hb : Std hw.backend h w)
    (hnu : hw.nu = 0) (hk : hw.kappa_coeff = 1) (hz : hw.zonal = false) (s : NS Val)
    (hs : IsState hw.TEST_CONSERVATION h w s) (hc : Consistent hw hw.dx s)
    {E U : ℝ} (hE : s.get? "dE" = some (.num E)) (hU : s.get? "dU" = some (.num U)) (T : ℝ) (hT : 0 ≤ T) :
    Follows hw hw.dx h w .rk4 4 s T :=
  follow_of .rk4 3 h0 w0 hb hnu hk hz hs hc hE hU hT
    (fun {_ _} t dt => ODE.rk4 (augF (parOf hw hw.dx) hw.dx t) dt)
    (fun {_ _} dt => advances_rk4_E _ _ dt) (fun {_ _} dt => advances_rk4_U _ _ dt)
    (fun {_ _} _ => ODE.converges_rk4)

/-- **C110 (the part that holds).** The same for `euler_step`, up to `C dt`. -/
theorem C110_euler_partial (h0 : 0 < h) (w0 : 0 < w) (hb : Std hw.backend h w)
    (hnu : hw.nu = 0) (hk : hw.kappa_coeff = 1) (hz : hw.zonal = false) (s : NS Val)
    (hs : IsState hw.TEST_CONSERVATION h w s) (hc : Consistent hw hw.dx s)
    {E U : ℝ} (hE : s.get? "dE" = some (.num E)) (hU : s.get? "dU" = some (.num U)) (T : ℝ) (hT : 0 ≤ T) :
    Follows hw hw.dx h w .euler 1 s T :=
  follow_of .euler 0 h0 w0 hb hnu hk hz hs hc hE hU hT
    (fun {_ _} t dt => ODE.euler (augF (parOf hw hw.dx) hw.dx t) dt)
    (fun {_ _} dt => advances_euler_E _ _ dt) (fun {_ _} dt => advances_euler_U _ _ dt)
    (fun {_ _} _ => ODE.converges_euler)

/-- parameters without hyperdiffusion -/
noncomputable def demoHW : HW := HW.init numpyBackend 1 3 1 0 1

/-- fields of an example state -/
noncomputable def demoSta : Sta 4 5 :=
  (fun i j => (i.val * j.val : ℝ), fun i _ => (i.val : ℝ), phiF 1 (fun i _ => (i.val : ℝ)), 0, 2, 3)

theorem demoKeys_good : GoodKeys ["density", "omega", "phi", "age", "dE", "dU"] true := by
  constructor <;> simp [gradKeys]

example : ∃ s : NS Val, IsState true 4 5 s ∧ Consistent demoHW 1 s ∧ s.get? "dE" = some (.num 2) ∧
    s.get? "dU" = some (.num 3) ∧ Follows demoHW 1 4 5 .rk4 4 s 10 := by
  have hs := isState_mk (h := 4) (w := 5) demoKeys_good (by decide) demoSta
  have hb : Std demoHW.backend 4 5 := .inl rfl
  have hc : Consistent demoHW 1 (NS.mk ["density", "omega", "phi", "age", "dE", "dU"] (st demoSta)) :=
    (consistent_mk demoHW hb.good 1 demoKeys_good _).2 rfl
  have e1 := get_dE (ks := ["density", "omega", "phi", "age", "dE", "dU"]) (by decide) demoSta
  have e2 := get_dU (ks := ["density", "omega", "phi", "age", "dE", "dU"]) (by decide) demoSta
  exact ⟨_, hs, hc, e1, e2, C110_rk4_partial (hw := demoHW) (by decide) (by decide) hb
    (by simp [demoHW, HW.init]) rfl rfl _ hs hc e1 e2 10 (by norm_num)⟩

theorem rates_mk [NeZero h] [NeZero w] (hb : hw.backend.Good h w) {ks : List String}
    (ht : hw.TEST_CONSERVATION = true) (hk : GoodKeys ks hw.TEST_CONSERVATION) (t : Sta h w) :
    ReportedRates hw dx (NS.mk ks (st t)) (repEC (parOf hw dx) hw.dx (prj t) (prj t))
      (repUC (parOf hw dx) hw.dx (prj t) (prj t)) := by
  intro c
  have hmem : ∀ k, k ∈ ks → k ≠ "phi" → k ∈ ks.filter (· ≠ "phi") := fun k h1 h2 => by simp [h1, h2]
  have hres : ∀ k ∈ (NS.mk (ks.filter (· ≠ "phi")) (st t)).keys, k ∉ reservedNames := by
    intro k hk'
    rw [keys_mk, List.mem_filter] at hk'
    have := hk.sub k hk'.1
    have hne : k ≠ "phi" := by simpa using hk'.2
    rw [ht] at this
    simp only [gradKeys, if_true, List.cons_append, List.nil_append, List.mem_cons, List.not_mem_nil,
      or_false] at this
    rcases this with rfl | rfl | rfl | rfl | rfl | rfl
    · exact absurd rfl hne
    all_goals simp [reservedNames]
  obtain ⟨g, c', e, -, -, -, -, e5⟩ := gradient_2d_fields hw hb dx 0 _ hres t.1 t.2.1
    (phiF dx t.2.1) (by rw [get?_mk, if_pos (hmem _ hk.density (by decide)), st_density])
    (by rw [get?_mk, if_pos (hmem _ hk.omega (by decide)), st_omega])
    (.inr ⟨_, by rw [get?_mk, if_pos (hmem _ hk.age (by decide)), st_age]⟩) c
  rw [arrOf_omega hk, without_mk]
  refine ⟨_, _, g, c', get_phi_ofField hw hb t.2.1 dx c, e, ?_, ?_⟩
  · rw [(e5 ht).1, repEC_self]; rfl
  · rw [(e5 ht).2, repUC_self]; rfl

/-- **C110.** For all parameters: the entries `dE` and `dU` change under repeated `rk4_step` by the time
integral (trapezoidal rule over the states produced) of the rates `gradient_2d` reports for these states,
up to `C dt²`. -/
theorem C110_accumulates (h0 : 0 < h) (w0 : 0 < w) (hb : Std hw.backend h w)
    (ht : hw.TEST_CONSERVATION = true) (s : NS Val)
    (hs : IsState hw.TEST_CONSERVATION h w s) (hc : Consistent hw dx s)
    {E U : ℝ} (hE : s.get? "dE" = some (.num E)) (hU : s.get? "dU" = some (.num U)) (T : ℝ) (hT : 0 ≤ T) :
    ∃ C dt0, 0 ≤ C ∧ 0 < dt0 ∧ ∀ dt, 0 ≤ dt → dt ≤ dt0 → ∀ k : ℕ, k * dt ≤ T → ∀ c,
      ∃ (S : ℕ → NS Val) (rE rU : ℕ → ℝ) (E' U' : ℝ), S 0 = s ∧
        (∀ j, ∃ c', history hw dx (List.replicate j (.rk4 dt)) s c = .ok (S j, c')) ∧
        (∀ j, ReportedRates hw dx (S j) (rE j) (rU j)) ∧
        (S k).get? "dE" = some (.num E') ∧ (S k).get? "dU" = some (.num U') ∧
        |E' - E - dt * ∑ j ∈ Finset.range k, (rE j + rE (j + 1)) / 2| ≤ C * dt ^ 2 ∧
        |U' - U - dt * ∑ j ∈ Finset.range k, (rU j + rU (j + 1)) / 2| ≤ C * dt ^ 2 := by
  have : NeZero h := ⟨h0.ne'⟩
  have : NeZero w := ⟨w0.ne'⟩
  obtain ⟨ks, u, hks, hn, e⟩ := hs.exists_mk
  subst e
  have kE : "dE" ∈ ks := keys_of hE
  have kU : "dU" ∈ ks := keys_of hU
  rw [get_dE kE] at hE
  rw [get_dU kU] at hU
  obtain rfl : entE.sel u = E := by simpa using hE
  obtain rfl : entU.sel u = U := by simpa using hU
  rw [consistent_mk hw hb.good dx hks] at hc
  obtain ⟨Y, e0, hY⟩ := exists_solutionU (parOf hw dx) hT (prj u)
  obtain ⟨eE, i1, -, hZ1⟩ := ODE.aug_solution _ _ (repEC (parOf hw dx) hw.dx) hT hY (entE.sel u)
  obtain ⟨eU, i2, -, hZ2⟩ := ODE.aug_solution _ _ (repUC (parOf hw dx) hw.dx) hT hY (entU.sel u)
  obtain ⟨C1, d1, hC1, hd1, H1⟩ := ODE.rk4_budget _ _ ODE.augE hT hZ1
  obtain ⟨C2, d2, hC2, hd2, H2⟩ := ODE.rk4_budget _ _ ODE.augE hT hZ2
  refine ⟨max C1 C2, min d1 d2, le_max_of_le_left hC1, lt_min hd1 hd2, fun dt hdt hd k hkT c => ?_⟩
  have B1 := (H1 dt hdt (hd.trans (min_le_left _ _)) k hkT).1
  have B2 := (H2 dt hdt (hd.trans (min_le_right _ _)) k hkT).1
  rw [e0, i1] at B1
  rw [e0, i2] at B2
  let t : ℕ → Sta h w := fun j => histS (parOf hw dx) hw.dx (List.replicate j (.rk4 dt)) u
  have p1 : ∀ j, (ODE.rk4 (augF (parOf hw dx) hw.dx entE) dt)^[j] (prj u, entE.sel u, 1) = ext entE (t j) :=
    fun j => (ext_hist (advances_rk4_E _ _ dt) j u hc).symm
  have p2 : ∀ j, (ODE.rk4 (augF (parOf hw dx) hw.dx entU) dt)^[j] (prj u, entU.sel u, 1) = ext entU (t j) :=
    fun j => (ext_hist (advances_rk4_U _ _ dt) j u hc).symm
  unfold augF at p1 p2
  simp only [entE, entU] at p1 p2 B1 B2
  simp only [p1, p2, ODE.rate_augE, ODE.augE_apply] at B1 B2
  simp only [ext, mul_one] at B1 B2
  refine ⟨fun j => NS.mk (histKeys (List.replicate j (.rk4 dt)) ks) (st (t j)),
    fun j => repEC (parOf hw dx) hw.dx (prj (t j)) (prj (t j)),
    fun j => repUC (parOf hw dx) hw.dx (prj (t j)) (prj (t j)), _, _, rfl,
    fun j => ⟨_, history_eval hw dx hb.good hks _ u c⟩,
    fun j => rates_mk hb.good ht (goodKeys_hist _ hks) _, get_dE (mem_hist (by decide) _ kE) _,
    get_dU (mem_hist (by decide) _ kU) _, ?_, ?_⟩
  · exact B1.trans (mul_le_mul_of_nonneg_right (le_max_left _ _) (by positivity))
  · exact B2.trans (mul_le_mul_of_nonneg_right (le_max_right _ _) (by positivity))

/-- a state with parameters for which `C110_accumulates` has all sources -/
example := C110_accumulates (hw := HW.init numpyBackend 1 3 1 (1 / 10) 1) (dx := 1) (h := 4) (w := 5) (by decide)
  (by decide) (.inl rfl) rfl _ (isState_mk demoKeys_good (by decide) demoSta)
  ((consistent_mk _ (Std.good (.inl rfl)) 1 demoKeys_good _).2 rfl)
  (get_dE (by decide) demoSta) (get_dU (by decide) demoSta) 10 (by norm_num)

section
variable [NeZero h] [NeZero w]

theorem drift_of {a : ℝ → Step} {p : ℕ} {P : Params} {dx0 : ℝ} {t : Entry h w}
    {M : ℝ → Pair h w × ℝ × ℝ → Pair h w × ℝ × ℝ} (HM : ∀ dt, Advances P dx0 t (a dt) (M dt))
    (hM : ODE.Converges (A := linC P) (B := bilC P) (Q := t.frm P dx0) M p)
    {G : Pair h w →L[ℝ] Pair h w →L[ℝ] ℝ} {u : Sta h w} (hc : u.2.2.1 = phiF P.dx u.2.1)
    (hQ : ODE.rate (linC P) (bilC P) G (prj u) < t.frm P dx0 (prj u) (prj u)) :
    ∃ T δ dt0 : ℝ, 0 < T ∧ 0 < δ ∧ 0 < dt0 ∧ ∀ dt, 0 ≤ dt → dt ≤ dt0 → ∀ k : ℕ, T / 2 ≤ k * dt → k * dt ≤ T →
      δ ≤ t.sel (histS P dx0 (List.replicate k (a dt)) u) - t.sel u
        - (G (prj (histS P dx0 (List.replicate k (a dt)) u)) (prj (histS P dx0 (List.replicate k (a dt)) u))
          - G (prj u) (prj u)) := by
  obtain ⟨Y, e0, hY⟩ := exists_solutionU P (zero_le_one (α := ℝ)) (prj u)
  rw [← e0] at hQ
  obtain ⟨T, δ, dt0, hT, hδ, hd, H⟩ := ODE.aug_drift hM zero_lt_one hY hQ (t.sel u)
  refine ⟨T, δ, dt0, hT, hδ, hd, fun dt h0 h1 k hk1 hk2 => ?_⟩
  have := H dt h0 h1 k hk1 hk2
  rw [e0, show (prj u, t.sel u, (1 : ℝ)) = ext t u from rfl, ← ext_hist (HM dt) k u hc] at this
  have e : ∀ s : Sta h w, ODE.gap G (ext t s) = t.sel s - G (prj s) (prj s) := fun _ => rfl
  rw [e, e] at this
  linarith

variable {b : Backend} {c1 nu k0 : ℝ}

theorem rateE_lt (hb : Std b h w) (hdx : dx ≠ 0) (hnu : 0 < nu) {f : Fld h w} (hf : ∃ i j, f i j ≠ f 0 0) :
    let P := parOf (HW.init b dx 1 c1 nu k0) dx
    ODE.rate (linC P) (bilC P) (enC P.dx) (f, 0) < repEC P dx (f, 0) (f, 0) := by
  intro P
  obtain ⟨p, c0, g, c', dn, dO, dE, h1, h2, h3, h4, h5, lt⟩ :=
    (C26_reported_rates_violated b hb dx c1 nu k0 0 hdx hnu f hf {}).1
  have e1 := get_phi_ofField (HW.init b dx 1 c1 nu k0) hb.good (fun _ _ => 0 : Fld h w) dx {}
  rw [e1] at h1
  obtain ⟨rfl, -⟩ : _ = p ∧ _ = c0 := by simpa using h1
  obtain ⟨g', c'', e2, e3, e4, -, -, e5⟩ := gradient_2d_fields (HW.init b dx 1 c1 nu k0) hb.good dx 0
    [("density", .arr (ofField f)), ("omega", .arr (ofField (fun _ _ => 0 : Fld h w)))]
    (by simp [keys, reservedNames]) f (fun _ _ => 0) _ rfl rfl (.inl rfl) {}
  rw [show (HW.init b dx 1 c1 nu k0).zonal = false from rfl, h2] at e2
  obtain ⟨rfl, -⟩ : g = g' ∧ _ = c'' := by simpa using e2
  rw [h3] at e3
  rw [h4] at e4
  rw [(e5 rfl).1] at h5
  obtain rfl : dn = _ := by simpa using e3
  obtain rfl : dO = _ := by simpa using e4
  obtain rfl : _ = dE := by simpa using h5
  rw [energyRate_ofField, energy_budget] at lt
  rw [rate_en, repEC_self]
  exact lt

theorem rateU_lt (hb : Std b h w) (hdx : dx ≠ 0) (hnu : 0 < nu) {f : Fld h w} (hf : ∃ i j, f i j ≠ f 0 0) :
    let P := parOf (HW.init b dx 1 c1 nu k0) dx
    ODE.rate (linC P) (bilC P) usC (0, f) < repUC P dx (0, f) (0, f) := by
  intro P
  obtain ⟨p, c0, g, c', dn, dO, dU, h1, h2, h3, h4, h5, lt⟩ :=
    (C26_reported_rates_violated b hb dx c1 nu k0 0 hdx hnu f hf {}).2
  have e1 := get_phi_ofField (HW.init b dx 1 c1 nu k0) hb.good f dx {}
  rw [e1] at h1
  obtain ⟨rfl, -⟩ : _ = p ∧ _ = c0 := by simpa using h1
  obtain ⟨g', c'', e2, e3, e4, -, -, e5⟩ := gradient_2d_fields (HW.init b dx 1 c1 nu k0) hb.good dx 0
    [("density", .arr (ofField (fun _ _ => 0 : Fld h w))), ("omega", .arr (ofField f))]
    (by simp [keys, reservedNames]) (fun _ _ => 0) f _ rfl rfl (.inl rfl) {}
  rw [show (HW.init b dx 1 c1 nu k0).zonal = false from rfl, h2] at e2
  obtain ⟨rfl, -⟩ : g = g' ∧ _ = c'' := by simpa using e2
  rw [h3] at e3
  rw [h4] at e4
  rw [(e5 rfl).2] at h5
  obtain rfl : dn = _ := by simpa using e3
  obtain rfl : dO = _ := by simpa using e4
  obtain rfl : _ = dU := by simpa using h5
  rw [enstrophyRate_ofField, enstrophy_budget P _ f (phiF dx f) rfl] at lt
  rw [rate_us, repUC_self]
  exact lt

end

/-- **C110 is violated** by every run with ordinary diffusion (`N = 1`, `nu > 0`), with both methods: from a
consistent state with a non-constant density and no vorticity `dE` exceeds the change of the energy after a
time about `T` by at least `δ > 0` however small `dt` is; from a consistent state with a non-constant
vorticity and no density `dU` exceeds the change of the enstrophy. -/
theorem C110_follow_violated (b : Backend) (h0 : 0 < h) (w0 : 0 < w) (hb : Std b h w) (c1 nu k0 age E U : ℝ)
    (hdx : dx ≠ 0) (hnu : 0 < nu) (f : ℕ → ℕ → ℝ) (hf : ∃ i j, i < h ∧ j < w ∧ f i j ≠ f 0 0)
    (a : ℝ → Step) (ha : a = .rk4 ∨ a = .euler) :
    let hw := HW.init b dx 1 c1 nu k0
    (∃ s : NS Val, IsState true h w s ∧ Consistent hw dx s ∧ arrOf s "density" = tab h w f ∧
      arrOf s "omega" = tab h w (fun _ _ => 0) ∧ s.get? "age" = some (.num age) ∧ s.get? "dE" = some (.num E) ∧
      ∃ T δ dt0 : ℝ, 0 < T ∧ 0 < δ ∧ 0 < dt0 ∧ ∀ dt, 0 ≤ dt → dt ≤ dt0 → ∀ k : ℕ, T / 2 ≤ k * dt →
        k * dt ≤ T → ∀ c, ∃ s' c' E', history hw dx (List.replicate k (a dt)) s c = .ok (s', c') ∧
          s'.get? "dE" = some (.num E') ∧ δ ≤ (E' - E) - (energyOf h w s' - energyOf h w s)) ∧
    (∃ s : NS Val, IsState true h w s ∧ Consistent hw dx s ∧ arrOf s "omega" = tab h w f ∧
      arrOf s "density" = tab h w (fun _ _ => 0) ∧ s.get? "age" = some (.num age) ∧ s.get? "dU" = some (.num U) ∧
      ∃ T δ dt0 : ℝ, 0 < T ∧ 0 < δ ∧ 0 < dt0 ∧ ∀ dt, 0 ≤ dt → dt ≤ dt0 → ∀ k : ℕ, T / 2 ≤ k * dt →
        k * dt ≤ T → ∀ c, ∃ s' c' U' V V', history hw dx (List.replicate k (a dt)) s c = .ok (s', c') ∧
          s'.get? "dU" = some (.num U') ∧
          Properties.get_enstrophy (arrOf s "density") (arrOf s "omega") dx = .ok V ∧
          Properties.get_enstrophy (arrOf s' "density") (arrOf s' "omega") dx = .ok V' ∧
          δ ≤ (U' - U) - (V' - V)) := by
  intro hw
  have : NeZero h := ⟨h0.ne'⟩
  have : NeZero w := ⟨w0.ne'⟩
  have hb' : Std hw.backend h w := hb
  let F : Fld h w := toFld (tab h w f)
  have eF : ofField F = tab h w f := ofField_toFld rfl rfl
  have e0 : ofField (0 : Fld h w) = tab h w (fun _ _ => 0) := rfl
  have hF : ∃ i j, F i j ≠ F 0 0 := by
    obtain ⟨i, j, hi, hj, hij⟩ := hf
    refine ⟨i, j, ?_⟩
    simp only [F, toFld, ZMod.val_natCast, Nat.mod_eq_of_lt hi, Nat.mod_eq_of_lt hj, ZMod.val_zero,
      tab_at' _ _ _ hi hj, tab_at' _ _ _ h0 w0]
    exact hij
  have kE : "dE" ∈ ["density", "omega", "phi", "age", "dE", "dU"] := by decide
  have kU : "dU" ∈ ["density", "omega", "phi", "age", "dE", "dU"] := by decide
  have kA : "age" ∈ ["density", "omega", "phi", "age", "dE", "dU"] := by decide
  have hks : GoodKeys ["density", "omega", "phi", "age", "dE", "dU"] hw.TEST_CONSERVATION := demoKeys_good
  have drift : ∀ (t : Entry h w) (G : Pair h w →L[ℝ] Pair h w →L[ℝ] ℝ) (u : Sta h w), t = entE ∨ t = entU →
      u.2.2.1 = phiF dx u.2.1 →
      ODE.rate (linC (parOf hw dx)) (bilC (parOf hw dx)) G (prj u) < t.frm (parOf hw dx) dx (prj u) (prj u) →
      ∃ T δ dt0 : ℝ, 0 < T ∧ 0 < δ ∧ 0 < dt0 ∧ ∀ dt, 0 ≤ dt → dt ≤ dt0 → ∀ k : ℕ, T / 2 ≤ k * dt →
        k * dt ≤ T → δ ≤ t.sel (histS (parOf hw dx) dx (List.replicate k (a dt)) u) - t.sel u
        - (G (prj (histS (parOf hw dx) dx (List.replicate k (a dt)) u))
            (prj (histS (parOf hw dx) dx (List.replicate k (a dt)) u)) - G (prj u) (prj u)) := by
    intro t G u ht hc hQ
    rcases ha with rfl | rfl <;> rcases ht with rfl | rfl
    · exact drift_of (advances_rk4_E _ _) ODE.converges_rk4 hc hQ
    · exact drift_of (advances_rk4_U _ _) ODE.converges_rk4 hc hQ
    · exact drift_of (advances_euler_E _ _) ODE.converges_euler hc hQ
    · exact drift_of (advances_euler_U _ _) ODE.converges_euler hc hQ
  constructor
  · let u : Sta h w := (F, 0, phiF dx 0, age, E, U)
    have hc : u.2.2.1 = phiF dx u.2.1 := rfl
    obtain ⟨T, δ, dt0, hT, hδ, hd, H⟩ := drift entE (enC dx) u (.inl rfl) hc (rateE_lt hb hdx hnu hF)
    refine ⟨NS.mk _ (st u), isState_mk hks (by decide) u, (consistent_mk hw hb'.good dx hks _).2 hc,
      (arrOf_density hks u).trans eF, (arrOf_omega hks u).trans e0, by rw [get?_mk, if_pos kA, st_age],
      get_dE kE u, T, δ, dt0, hT, hδ, hd, fun dt d0 d1 k k1 k2 c => ?_⟩
    have hk' := goodKeys_hist (List.replicate k (a dt)) hks
    refine ⟨_, _, _, history_eval hw dx hb'.good hks _ u c, get_dE (mem_hist (by decide) _ kE) _, ?_⟩
    rw [energyOf_mk hk' _ (histS_phi (parOf hw dx) hw.dx _ u hc), energyOf_mk hks _ hc]
    exact H dt d0 d1 k k1 k2
  · let u : Sta h w := (0, F, phiF dx F, age, E, U)
    have hc : u.2.2.1 = phiF dx u.2.1 := rfl
    obtain ⟨T, δ, dt0, hT, hδ, hd, H⟩ := drift entU usC u (.inr rfl) hc (rateU_lt hb hdx hnu hF)
    refine ⟨NS.mk _ (st u), isState_mk hks (by decide) u, (consistent_mk hw hb'.good dx hks _).2 hc,
      (arrOf_omega hks u).trans eF, (arrOf_density hks u).trans e0, by rw [get?_mk, if_pos kA, st_age],
      get_dU kU u, T, δ, dt0, hT, hδ, hd, fun dt d0 d1 k k1 k2 c => ?_⟩
    have hk' := goodKeys_hist (List.replicate k (a dt)) hks
    exact ⟨_, _, _, _, _, history_eval hw dx hb'.good hks _ u c, get_dU (mem_hist (by decide) _ kU) _,
      enstrophy_mk hks u _, enstrophy_mk hk' _ _, H dt d0 d1 k k1 k2⟩

example := C110_follow_violated (h := 4) (w := 3) (dx := 1) numpyBackend (by decide) (by decide) (.inl rfl) 1 (1 / 10) 1 0 2 3
  (by norm_num) (by norm_num) (fun i _ => (i : ℝ)) ⟨1, 0, by decide, by decide, by norm_num⟩ .rk4 (.inl rfl)

example : ∃ s : NS Val, IsState true 4 5 s ∧ Follows demoHW 1 4 5 .euler 1 s 10 := by
  have hs := isState_mk (h := 4) (w := 5) demoKeys_good (by decide) demoSta
  have hb : Std demoHW.backend 4 5 := .inl rfl
  exact ⟨_, hs, C110_euler_partial (hw := demoHW) (by decide) (by decide) hb
    (by simp [demoHW, HW.init]) rfl rfl _ hs ((consistent_mk demoHW hb.good 1 demoKeys_good _).2 rfl)
    (get_dE (by decide) demoSta) (get_dU (by decide) demoSta) 10 (by norm_num)⟩

end Verif.Props
