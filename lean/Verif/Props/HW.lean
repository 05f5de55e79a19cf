import Verif.Props.HWCommon

/-!
# Property theorems C09, C23–C26: the right-hand side and its budgets
-/

set_option linter.unusedSectionVars false

namespace Verif.Props

open Arr NS Spec

/-! ## C09 -/

/-- **C09.** For every order `N` and every `nu ≥ 0` the hyperdiffusion term
`hw.nu * diffuse(f)` never increases the mean square of the field. -/
theorem C09_hyperdiffusion_dissipative (b : Backend) (dx0 : ℝ) (N : ℕ) (c1 nu k0 pb kappa : ℝ) (z test : Bool)
    (f : Arr ℝ) (dx : ℝ) (c : Calls) (h0 : 0 < f.h) (w0 : 0 < f.w) (hb : Std b f.h f.w) (hnu : 0 ≤ nu) :
    let hw := HW.init b dx0 N c1 nu k0 pb kappa z test
    ∃ r c', hw.diffuse f dx hw.N c = .ok (r, c') ∧ r.h = f.h ∧ r.w = f.w ∧
      Spec.mean f.h f.w (fun i j => f.at' i j * (hw.nu * r.at' i j)) ≤ 0 := by
  obtain ⟨h, w, f, _, e1, e2, rfl, -⟩ := exists_fields f f rfl rfl
  rw [← e1] at h0; rw [← e2] at w0
  have : NeZero h := ⟨h0.ne'⟩
  have : NeZero w := ⟨w0.ne'⟩
  simp only [ofField_h, ofField_w] at *
  refine ⟨_, _, diffuse_ofField _ hb.good f dx _ c, rfl, rfl, ?_⟩
  rw [spec_mean_of (g := fun i j => f i j * hyper ⟨dx, N, c1, nu, pb, kappa, z⟩ f i j) fun i j hi hj => by
    rw [ofField_at' f hi hj, ofField_at' _ hi hj]; rfl]
  exact avg_hyper_nonpos _ hnu f

example := C09_hyperdiffusion_dissipative numpyBackend 1 3 1 (1 / 10) 1 1 1 false true
  (tab 4 5 fun i j => (i * j : ℝ)) 1 {} (by decide) (by decide) (.inl rfl) (by norm_num)

/-! ## C23 -/

variable {h w : ℕ} [NeZero h] [NeZero w]

/-- **C23.** `gradient_2d` evaluates the right-hand side of the semi-discrete
Hasegawa–Wakatani equations (`Spec.rhsN`, `Spec.rhsO`) at every grid point,
whatever the coefficients (zero coefficients included), with or without zonal
coupling, and adds `dt` to `age`.  `n o p` are the fields sampled by the arrays. -/
theorem C23_gradient_2d (b : Backend) (hb : Std b h w) (P : Params) (dx0 k0 : ℝ) (test : Bool)
    (y : NS Val) (hres : ∀ k ∈ y.keys, k ∉ reservedNames) (n o p : Fld h w)
    (hn : y.get? "density" = some (.arr (ofField n))) (ho : y.get? "omega" = some (.arr (ofField o)))
    (hage : y.get? "age" = none ∨ ∃ a, y.get? "age" = some (.num a)) (dt : ℝ) (c : Calls) :
    let hw := HW.init b dx0 P.N P.c1 P.nu k0 P.pb P.kappa P.zonal test
    (∃ g c', hw.gradient_2d y (some (.arr (ofField p))) dt P.dx P.zonal c = .ok (g, c') ∧
      g.get? "density" = some (.arr (ofField (rhsN P n p))) ∧
      g.get? "omega" = some (.arr (ofField (rhsO P n o p))) ∧
      (y.get? "age" = none → g.get? "age" = none) ∧
      ∀ a, y.get? "age" = some (.num a) → g.get? "age" = some (.num (a + dt))) ∧
    ∃ q c', hw.get_phi (ofField o) P.dx c = .ok (q, c') ∧
      hw.gradient_2d y none dt P.dx P.zonal c = hw.gradient_2d y (some (.arr q)) dt P.dx P.zonal c' := by
  have hP : parOf (HW.init b dx0 P.N P.c1 P.nu k0 P.pb P.kappa P.zonal test) P.dx = P := by
    unfold parOf HW.init
    cases P
    simp only [Params.mk.injEq, true_and, and_true]
    rw [← mul_assoc, ← mul_pow]; norm_num
  have hb' : (HW.init b dx0 P.N P.c1 P.nu k0 P.pb P.kappa P.zonal test).backend.Good h w := hb.good
  constructor
  · obtain ⟨g, c', e, e1, e2, e3, e4, -⟩ := gradient_2d_fields
      (HW.init b dx0 P.N P.c1 P.nu k0 P.pb P.kappa P.zonal test) hb' P.dx dt y hres n o p hn ho hage c
    rw [hP] at e1 e2
    exact ⟨g, c', e, e1, e2, e3, e4⟩
  · refine ⟨_, _, get_phi_ofField _ hb' o P.dx c, ?_⟩
    refine gradient_2d_none _ hb' y o (ofField n) dt P.dx P.zonal ?_ hn ho c
    rw [List.any_eq_false]; intro k hk; simpa using hres k hk

example := C23_gradient_2d (h := 4) (w := 3) numpyBackend (.inl rfl) ⟨1 / 2, 3, 1, 1 / 10, 1, 1, true⟩ 1 1 true
  [("density", .arr (ofField fun i _ => (i.val : ℝ))), ("omega", .arr (ofField fun _ j => (j.val : ℝ))),
    ("age", .num 7)] (by decide)
  (fun i _ => (i.val : ℝ)) (fun _ j => (j.val : ℝ)) (fun i j => (i.val * j.val : ℝ)) rfl rfl
  (.inr ⟨7, rfl⟩) (1 / 10) {}

/-! ## C24 -/

/-- **C24.** Energy budget.  For every object, every density, vorticity and
potential on the same grid (in particular `phi = get_phi(omega)`), with
`Γ_n`, `Γ_c` as returned by `get_gamma_n`, `get_gamma_c` (with `zonal=True` the
latter evaluated on the non-zonal parts, as the coupling is). -/
theorem C24_energy_budget (hw : HW) (dx dt : ℝ) (n o p : Arr ℝ) (h0 : 0 < n.h) (w0 : 0 < n.w)
    (oh : o.h = n.h) (ow : o.w = n.w) (ph : p.h = n.h) (pw : p.w = n.w) (hb : Std hw.backend n.h n.w)
    (y : NS Val) (hres : ∀ k ∈ y.keys, k ∉ reservedNames)
    (hn : y.get? "density" = some (.arr n)) (ho : y.get? "omega" = some (.arr o))
    (hage : y.get? "age" = none ∨ ∃ a, y.get? "age" = some (.num a)) (c : Calls) :
    ∃ g c' dn dO Ln LO c1' c2' gn gc nn pp,
      hw.gradient_2d y (some (.arr p)) dt dx hw.zonal c = .ok (g, c') ∧
      g.get? "density" = some (.arr dn) ∧ g.get? "omega" = some (.arr dO) ∧
      hw.diffuse n dx hw.N c = .ok (Ln, c1') ∧ hw.diffuse o dx hw.N c = .ok (LO, c2') ∧
      Properties.get_gamma_n n p dx = .ok gn ∧
      (if hw.zonal then Zonal.zonal_transform n = .ok nn ∧ Zonal.zonal_transform p = .ok pp
        else nn = n ∧ pp = p) ∧
      Properties.get_gamma_c nn pp hw.c1 dx = .ok gc ∧
      Spec.mean n.h n.w (fun i j => n.at' i j * dn.at' i j - p.at' i j * dO.at' i j)
        = hw.kappa_coeff * gn - gc
          + Spec.mean n.h n.w (fun i j =>
              n.at' i j * (hw.nu * Ln.at' i j) - p.at' i j * (hw.nu * LO.at' i j)) := by
  obtain ⟨h, w, hh, hw'⟩ : ∃ h w, n.h = h ∧ n.w = w := ⟨_, _, rfl, rfl⟩
  rw [hh] at h0 oh ph hb; rw [hw'] at w0 ow pw hb
  have : NeZero h := ⟨h0.ne'⟩
  have : NeZero w := ⟨w0.ne'⟩
  obtain ⟨fn, rfl⟩ : ∃ f : Fld h w, n = ofField f := ⟨_, (ofField_toFld hh hw').symm⟩
  obtain ⟨fo, rfl⟩ : ∃ f : Fld h w, o = ofField f := ⟨_, (ofField_toFld oh ow).symm⟩
  obtain ⟨fp, rfl⟩ : ∃ f : Fld h w, p = ofField f := ⟨_, (ofField_toFld ph pw).symm⟩
  obtain ⟨g, c', e, e1, e2, -⟩ := gradient_2d_fields hw hb.good dx dt y hres fn fo fp hn ho hage c
  refine ⟨g, c', _, _, _, _, _, _, _, _, ofField (cpl hw.zonal fn), ofField (cpl hw.zonal fp), e, e1, e2,
    diffuse_ofField hw hb.good fn dx hw.N c, diffuse_ofField hw hb.good fo dx hw.N c, gamma_n_ofField fn fp dx,
    ?_, gamma_c_ofField _ _ _ _, ?_⟩
  · cases hw.zonal
    · simp [cpl]
    · simp [cpl, zonal_ofField]
  · simp only [ofField_h, ofField_w]
    rw [spec_mean_of (g := fun i j => fn i j * rhsN (parOf hw dx) fn fp i j
        - fp i j * rhsO (parOf hw dx) fn fo fp i j) fun i j hi hj => by
      rw [ofField_at' _ hi hj, ofField_at' _ hi hj, ofField_at' _ hi hj, ofField_at' _ hi hj]]
    rw [spec_mean_of (g := fun i j => fn i j * hyper (parOf hw dx) fn i j
        - fp i j * hyper (parOf hw dx) fo i j) fun i j hi hj => by
      rw [ofField_at' _ hi hj, ofField_at' _ hi hj, ofField_at' _ hi hj, ofField_at' _ hi hj,
        hyper_parOf, hyper_parOf]]
    exact energy_budget (parOf hw dx) fn fo fp

example := C24_energy_budget (HW.init numpyBackend 1 3 1 (1 / 10) 1 (zonal := true)) 1 0
  (tab 4 5 fun i j => (i * j : ℝ)) (tab 4 5 fun i _ => (i : ℝ)) (tab 4 5 fun _ j => (j * j : ℝ))
  (by decide) (by decide) rfl rfl rfl rfl (.inl rfl)
  [("density", .arr (tab 4 5 fun i j => (i * j : ℝ))), ("omega", .arr (tab 4 5 fun i _ => (i : ℝ)))]
  (by decide) rfl rfl (.inl rfl) {}

/-! ## C25 -/

/-- **C25.** Enstrophy budget for `phi = get_phi(omega)` (the mean of the
vorticity does not matter). -/
theorem C25_enstrophy_budget (hw : HW) (dx dt : ℝ) (n o : Arr ℝ) (h0 : 0 < n.h) (w0 : 0 < n.w)
    (oh : o.h = n.h) (ow : o.w = n.w) (hb : Std hw.backend n.h n.w)
    (y : NS Val) (hres : ∀ k ∈ y.keys, k ∉ reservedNames)
    (hn : y.get? "density" = some (.arr n)) (ho : y.get? "omega" = some (.arr o))
    (hage : y.get? "age" = none ∨ ∃ a, y.get? "age" = some (.num a)) (c : Calls) :
    ∃ p c0 g c' dn dO Ln LO c1' c2' gn,
      hw.get_phi o dx c = .ok (p, c0) ∧
      hw.gradient_2d y (some (.arr p)) dt dx hw.zonal c = .ok (g, c') ∧
      g.get? "density" = some (.arr dn) ∧ g.get? "omega" = some (.arr dO) ∧
      hw.diffuse n dx hw.N c = .ok (Ln, c1') ∧ hw.diffuse o dx hw.N c = .ok (LO, c2') ∧
      Properties.get_gamma_n n p dx = .ok gn ∧
      Spec.mean n.h n.w (fun i j => (n.at' i j - o.at' i j) * (dn.at' i j - dO.at' i j))
        = hw.kappa_coeff * gn
          + Spec.mean n.h n.w (fun i j =>
              (n.at' i j - o.at' i j) * (hw.nu * Ln.at' i j - hw.nu * LO.at' i j)) := by
  obtain ⟨h, w, hh, hw'⟩ : ∃ h w, n.h = h ∧ n.w = w := ⟨_, _, rfl, rfl⟩
  rw [hh] at h0 oh hb; rw [hw'] at w0 ow hb
  have : NeZero h := ⟨h0.ne'⟩
  have : NeZero w := ⟨w0.ne'⟩
  obtain ⟨fn, rfl⟩ : ∃ f : Fld h w, n = ofField f := ⟨_, (ofField_toFld hh hw').symm⟩
  obtain ⟨fo, rfl⟩ : ∃ f : Fld h w, o = ofField f := ⟨_, (ofField_toFld oh ow).symm⟩
  obtain ⟨g, c', e, e1, e2, -⟩ := gradient_2d_fields hw hb.good dx dt y hres fn fo (phiF dx fo) hn ho hage c
  refine ⟨_, _, g, c', _, _, _, _, _, _, _, get_phi_ofField hw hb.good fo dx c, e, e1, e2,
    diffuse_ofField hw hb.good fn dx hw.N c, diffuse_ofField hw hb.good fo dx hw.N c, gamma_n_ofField _ _ dx, ?_⟩
  simp only [ofField_h, ofField_w]
  rw [spec_mean_of (g := fun i j => (fn i j - fo i j) * (rhsN (parOf hw dx) fn (phiF dx fo) i j
      - rhsO (parOf hw dx) fn fo (phiF dx fo) i j)) fun i j hi hj => by
    rw [ofField_at' _ hi hj, ofField_at' _ hi hj, ofField_at' _ hi hj, ofField_at' _ hi hj]]
  rw [spec_mean_of (g := fun i j => (fn i j - fo i j) * (hyper (parOf hw dx) fn i j
      - hyper (parOf hw dx) fo i j)) fun i j hi hj => by
    rw [ofField_at' _ hi hj, ofField_at' _ hi hj, ofField_at' _ hi hj, ofField_at' _ hi hj,
      hyper_parOf, hyper_parOf]]
  exact enstrophy_budget (parOf hw dx) fn fo _ rfl

example := C25_enstrophy_budget (HW.init numpyBackend 1 3 1 (1 / 10) 1) 1 0
  (tab 4 5 fun i j => (i * j : ℝ)) (tab 4 5 fun i _ => (i : ℝ)) (by decide) (by decide) rfl rfl (.inl rfl)
  [("density", .arr (tab 4 5 fun i j => (i * j : ℝ))), ("omega", .arr (tab 4 5 fun i _ => (i : ℝ)))]
  (by decide) rfl rfl (.inl rfl) {}

/-! ## C26 -/

/-- rate of change of the energy `(mean(n²) - mean(phi*omega))/2` for given time
derivatives of density and vorticity (`phi` depends linearly and symmetrically
on the vorticity, C13) -/
noncomputable def energyRate (n p dn dO : Arr ℝ) : ℝ :=
  Spec.mean n.h n.w fun i j => n.at' i j * dn.at' i j - p.at' i j * dO.at' i j

/-- rate of change of the enstrophy `mean((n - omega)²)/2` -/
noncomputable def enstrophyRate (n o dn dO : Arr ℝ) : ℝ :=
  Spec.mean n.h n.w fun i j => (n.at' i j - o.at' i j) * (dn.at' i j - dO.at' i j)

theorem energyRate_ofField (n p dn dO : Fld h w) :
    energyRate (ofField n) (ofField p) (ofField dn) (ofField dO)
      = avg fun i j => n i j * dn i j - p i j * dO i j := by
  unfold energyRate
  exact spec_mean_of (h := h) (w := w) fun i j hi hj => by
    rw [ofField_at' _ hi hj, ofField_at' _ hi hj, ofField_at' _ hi hj, ofField_at' _ hi hj]

theorem enstrophyRate_ofField (n o dn dO : Fld h w) :
    enstrophyRate (ofField n) (ofField o) (ofField dn) (ofField dO)
      = avg fun i j => (n i j - o i j) * (dn i j - dO i j) := by
  unfold enstrophyRate
  exact spec_mean_of (h := h) (w := w) fun i j hi hj => by
    rw [ofField_at' _ hi hj, ofField_at' _ hi hj, ofField_at' _ hi hj, ofField_at' _ hi hj]

/-- **C26 (the part that holds).** Without hyperdiffusion, with `kappa = 1`,
without zonal coupling and with the constructor's `dx`, the reported `dE`, `dU`
are the true rates.  Missing: every other parameter set (refuted below for
`nu > 0`). -/
theorem C26_reported_rates_partial (hw : HW) (dt : ℝ) (n o : Arr ℝ) (h0 : 0 < n.h) (w0 : 0 < n.w)
    (oh : o.h = n.h) (ow : o.w = n.w) (hb : Std hw.backend n.h n.w)
    (hnu : hw.nu = 0) (hk : hw.kappa_coeff = 1) (hz : hw.zonal = false) (ht : hw.TEST_CONSERVATION = true)
    (y : NS Val) (hres : ∀ k ∈ y.keys, k ∉ reservedNames)
    (hn : y.get? "density" = some (.arr n)) (ho : y.get? "omega" = some (.arr o))
    (hage : y.get? "age" = none ∨ ∃ a, y.get? "age" = some (.num a)) (c : Calls) :
    ∃ p c0 g c' dn dO, hw.get_phi o hw.dx c = .ok (p, c0) ∧
      hw.gradient_2d y (some (.arr p)) dt hw.dx hw.zonal c = .ok (g, c') ∧
      g.get? "density" = some (.arr dn) ∧ g.get? "omega" = some (.arr dO) ∧
      g.get? "dE" = some (.num (energyRate n p dn dO)) ∧
      g.get? "dU" = some (.num (enstrophyRate n o dn dO)) := by
  obtain ⟨h, w, hh, hw'⟩ : ∃ h w, n.h = h ∧ n.w = w := ⟨_, _, rfl, rfl⟩
  rw [hh] at h0 oh hb; rw [hw'] at w0 ow hb
  have : NeZero h := ⟨h0.ne'⟩
  have : NeZero w := ⟨w0.ne'⟩
  obtain ⟨fn, rfl⟩ : ∃ f : Fld h w, n = ofField f := ⟨_, (ofField_toFld hh hw').symm⟩
  obtain ⟨fo, rfl⟩ : ∃ f : Fld h w, o = ofField f := ⟨_, (ofField_toFld oh ow).symm⟩
  obtain ⟨g, c', e, e1, e2, -, -, e5⟩ :=
    gradient_2d_fields hw hb.good hw.dx dt y hres fn fo (phiF hw.dx fo) hn ho hage c
  obtain ⟨e5, e6⟩ := e5 ht
  refine ⟨_, _, g, c', _, _, get_phi_ofField hw hb.good fo hw.dx c, e, e1, e2, ?_, ?_⟩
  · rw [e5, energyRate_ofField, energy_budget]
    unfold repE
    simp only [hyper_parOf, hnu, zero_mul, mul_zero, sub_self, avg_const, sub_zero, add_zero]
    simp only [parOf, hk, hz, cpl, Bool.false_eq_true, if_false, one_mul]
  · rw [e6, enstrophyRate_ofField, enstrophy_budget (parOf hw hw.dx) fn fo (phiF hw.dx fo) rfl]
    unfold repU
    simp only [hyper_parOf, hnu, zero_mul, mul_zero, sub_self, avg_const, sub_zero, add_zero, neg_zero]
    simp only [parOf, hk, one_mul]

example := C26_reported_rates_partial (HW.init numpyBackend 1 3 1 0 1) 0
  (tab 4 5 fun i j => (i * j : ℝ)) (tab 4 5 fun i _ => (i : ℝ)) (by decide) (by decide) rfl rfl (.inl rfl)
  (by simp [HW.init]) rfl rfl rfl
  [("density", .arr (tab 4 5 fun i j => (i * j : ℝ))), ("omega", .arr (tab 4 5 fun i _ => (i : ℝ)))]
  (by decide) rfl rfl (.inl rfl) {}

/-- **C26 is violated** by every run with ordinary diffusion (`N = 1`, `nu > 0`):
for every non-constant density with zero vorticity the reported `dE` is strictly
larger than the true rate (the dissipation enters with the wrong sign), and for
every non-constant vorticity with zero density the reported `dU` is strictly
larger than the true rate (the potential is diffused instead of the vorticity). -/
theorem C26_reported_rates_violated (b : Backend) (hb : Std b h w) (dx c1 nu k0 dt : ℝ) (hdx : dx ≠ 0)
    (hnu : 0 < nu) (f : Fld h w) (hf : ∃ i j, f i j ≠ f 0 0) (c : Calls) :
    let hw := HW.init b dx 1 c1 nu k0
    let zero : Fld h w := fun _ _ => 0
    (∃ p c0 g c' dn dO dE, hw.get_phi (ofField zero) dx c = .ok (p, c0) ∧
      hw.gradient_2d [("density", .arr (ofField f)), ("omega", .arr (ofField zero))] (some (.arr p)) dt dx
        false c = .ok (g, c') ∧
      g.get? "density" = some (.arr dn) ∧ g.get? "omega" = some (.arr dO) ∧ g.get? "dE" = some (.num dE) ∧
      energyRate (ofField f) p dn dO < dE) ∧
    (∃ p c0 g c' dn dO dU, hw.get_phi (ofField f) dx c = .ok (p, c0) ∧
      hw.gradient_2d [("density", .arr (ofField zero)), ("omega", .arr (ofField f))] (some (.arr p)) dt dx
        false c = .ok (g, c') ∧
      g.get? "density" = some (.arr dn) ∧ g.get? "omega" = some (.arr dO) ∧ g.get? "dU" = some (.num dU) ∧
      enstrophyRate (ofField zero) (ofField f) dn dO < dU) := by
  intro hw zero
  have hb' : hw.backend.Good h w := hb.good
  have hnu' : hw.nu = nu := by change (-1) ^ (1 + 1) * nu = nu; norm_num
  have hN : hw.N = 1 := rfl
  have hneg : avg (fun i j => f i j * lap dx f i j) < 0 := by
    unfold avg
    refine div_neg_of_neg_of_pos ?_ (lt_of_le_of_ne (by positivity) card_ne.symm)
    rw [S_lap_dirichlet]
    have h1 := dirichlet_self_nonneg f
    have h2 : dirichlet f f ≠ 0 := by
      intro e
      obtain ⟨i, j, hij⟩ := hf
      exact hij (dirichlet_self_eq_zero f e i j)
    have : 0 < dirichlet f f / dx ^ 2 := div_pos (lt_of_le_of_ne h1 h2.symm) (by positivity)
    linarith
  constructor
  · obtain ⟨g, c', e, e1, e2, -, -, e5⟩ := gradient_2d_fields hw hb' dx dt
      [("density", .arr (ofField f)), ("omega", .arr (ofField zero))] (by simp [keys, reservedNames])
      f zero (phiF dx zero) rfl rfl (.inl rfl) c
    obtain ⟨e5, -⟩ := e5 rfl
    refine ⟨_, _, g, c', _, _, _, get_phi_ofField hw hb' zero dx c, e, e1, e2, e5, ?_⟩
    have hp : phiF dx zero = zero := by
      have := phiF_lin dx 0 0 0 zero zero
      simpa using this
    rw [energyRate_ofField, energy_budget, hp]
    unfold repE
    simp only [hyper_parOf, hnu', hN, Function.iterate_one, zero, zero_mul, sub_zero]
    have e3 : avg (fun i j => f i j * (nu * lap dx f i j)) = nu * avg (fun i j => f i j * lap dx f i j) := by
      rw [← avg_smul]; exact avg_congr fun i j => by ring
    rw [e3]
    have : nu * avg (fun i j => f i j * lap dx f i j) < 0 := mul_neg_of_pos_of_neg hnu hneg
    simp only [parOf, cpl]
    have hk : hw.kappa_coeff = 1 := rfl
    have hz : hw.zonal = false := rfl
    have hd : hw.dx = dx := rfl
    simp only [hk, hz, hd, Bool.false_eq_true, if_false, one_mul]
    linarith
  · obtain ⟨g, c', e, e1, e2, -, -, e5⟩ := gradient_2d_fields hw hb' dx dt
      [("density", .arr (ofField zero)), ("omega", .arr (ofField f))] (by simp [keys, reservedNames])
      zero f (phiF dx f) rfl rfl (.inl rfl) c
    obtain ⟨-, e5⟩ := e5 rfl
    refine ⟨_, _, g, c', _, _, _, get_phi_ofField hw hb' f dx c, e, e1, e2, e5, ?_⟩
    rw [enstrophyRate_ofField, enstrophy_budget (parOf hw dx) zero f (phiF dx f) rfl]
    have hpos : 0 ≤ avg (fun i j => f i j * lap dx (phiF dx f) i j) := by
      unfold avg
      refine div_nonneg ?_ (by positivity)
      rw [S_lap_dirichlet, ← neg_div]
      refine div_nonneg ?_ (by positivity)
      have hd : ∀ s t, (fun i j => shift s t (phiF dx f) i j - phiF dx f i j)
          = phiF dx fun i j => shift s t f i j - f i j := by
        intro s t
        have := phiF_lin dx 1 (-1) 0 (shift s t f) f
        rw [← phiF_shift]
        simp only [one_mul, neg_mul, add_zero, ← sub_eq_add_neg] at this
        exact this.symm
      have h1 := phiF_neg dx fun i j => shift (-1) 0 f i j - f i j
      have h2 := phiF_neg dx fun i j => shift 0 (-1) f i j - f i j
      rw [← hd] at h1 h2
      have : dirichlet f (phiF dx f)
          = S (fun i j => (shift (-1) 0 f i j - f i j) * (shift (-1) 0 (phiF dx f) i j - phiF dx f i j))
          + S (fun i j => (shift 0 (-1) f i j - f i j) * (shift 0 (-1) (phiF dx f) i j - phiF dx f i j)) := by
        rw [← S_add]
        unfold dirichlet
        exact S_congr fun i j => by simp only [shift, sub_neg_eq_add, sub_zero]
      rw [this]; linarith
    unfold repU
    have hh0 : ∀ i j, hyper (parOf hw dx) zero i j = 0 := by
      intro i j
      rw [hyper_parOf, hN, Function.iterate_one]
      simp [lap, zero]
    simp only [hh0]
    simp only [hyper_parOf, hnu', hN, Function.iterate_one, zero, zero_sub]
    have e3 : ∀ u : Fld h w, avg (fun i j => -f i j * -(nu * u i j)) = nu * avg (fun i j => f i j * u i j) := by
      intro u
      rw [← avg_smul]; exact avg_congr fun i j => by ring
    rw [e3, e3]
    have h3 : nu * avg (fun i j => f i j * lap dx f i j) < 0 := mul_neg_of_pos_of_neg hnu hneg
    have h4 : 0 ≤ nu * avg (fun i j => f i j * lap dx (phiF dx f) i j) := mul_nonneg hnu.le hpos
    have hk : hw.kappa_coeff = 1 := rfl
    have hd : hw.dx = dx := rfl
    simp only [parOf, hk, hd, one_mul]
    linarith

example := C26_reported_rates_violated (h := 4) (w := 3) numpyBackend (.inl rfl) 1 1 (1 / 10) 1 0 (by norm_num)
  (by norm_num) (fun i _ => (i.val : ℝ)) ⟨1, 0, by norm_num [show ZMod.val (1 : ZMod 4) = 1 from rfl]⟩ {}

end Verif.Props
