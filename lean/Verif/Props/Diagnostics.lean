import Verif.Props.Common
import Verif.Lemmas.Spectral

/-!
# Property theorems C18–C22: physical diagnostics
-/

set_option linter.unusedSectionVars false

namespace Verif.Props

open Arr Spec Properties

/-! ## C18 -/

/-- **C18.** Signs and zero sets of the diagnostics, for equally shaped
non-empty fields. -/
theorem C18_signs (n p : Arr ℝ) (dx c1 : ℝ) (hh : p.h = n.h) (hw : p.w = n.w)
    (h0 : 0 < n.h) (w0 : 0 < n.w) :
    (∃ r, get_gamma_c n p c1 dx = .ok r ∧ (0 ≤ c1 → 0 ≤ r) ∧ (0 < c1 → (r = 0 ↔ n = p))) ∧
    (∃ r, get_energy n p dx = .ok r ∧ 0 ≤ r) ∧
    (∃ r, get_enstrophy n p dx = .ok r ∧ 0 ≤ r ∧ (r = 0 ↔ n = p)) ∧
    (∃ r, get_enstrophy_phi n p dx = .ok r ∧ 0 ≤ r) ∧
    (∃ r, get_energy_N_spectrally n = .ok r ∧ 0 ≤ r) ∧
    (n.h = n.w → ∃ r, get_energy_V_spectrally p dx = .ok r ∧ 0 ≤ r) := by
  obtain ⟨h, w, f, g, e1, e2, rfl, rfl⟩ := exists_fields n p hh hw
  rw [← e1] at h0; rw [← e2] at w0
  have : NeZero h := ⟨h0.ne'⟩
  have : NeZero w := ⟨w0.ne'⟩
  have anon : ∀ u : Fld h w, (∀ i j, 0 ≤ u i j) → 0 ≤ avg u := fun u hu =>
    div_nonneg (S_nonneg hu) hw_pos.le
  have azero : avg (fun i j => (f i j - g i j) ^ 2) = 0 ↔ (ofField f : Arr ℝ) = ofField g := by
    unfold avg
    rw [div_eq_zero_iff, or_iff_left card_ne, S_eq_zero_iff fun i j => sq_nonneg _]
    constructor
    · intro H
      congr 1
      funext i j
      have := H i j
      rw [pow_eq_zero_iff two_ne_zero] at this
      linarith
    · intro H i j
      rw [ofField_inj H]; simp
  refine ⟨⟨_, gamma_c_ofField f g c1 dx, fun hc => ?_, fun hc => ?_⟩, ⟨_, energy_ofField f g dx, ?_⟩,
    ⟨_, enstrophy_ofField f g dx, ?_, ?_⟩, ⟨_, enstrophy_phi_ofField f g dx, ?_⟩,
    ⟨_, energy_N_ofField f, ?_⟩, fun hsq => ?_⟩
  · exact mul_nonneg hc (anon _ fun i j => sq_nonneg _)
  · unfold gamC
    rw [mul_eq_zero, or_iff_right hc.ne', azero]
  · exact div_nonneg (anon _ fun i j => by positivity) (by norm_num)
  · exact div_nonneg (anon _ fun i j => sq_nonneg _) (by norm_num)
  · rw [div_eq_zero_iff, or_iff_left (by norm_num), azero]
  · exact div_nonneg (anon _ fun i j => sq_nonneg _) (by norm_num)
  · exact div_nonneg (anon _ fun i j => sq_nonneg _) (by norm_num)
  · simp only [ofField_h, ofField_w] at hsq
    subst hsq
    refine ⟨_, energy_V_ofField g dx, ?_⟩
    refine div_nonneg (div_nonneg (anon _ fun i j => ?_) hw_pos.le) (by norm_num)
    exact mul_nonneg (div_nonneg (neg_nonneg.mpr (lamb_nonpos _ _)) (sq_nonneg _)) (sq_nonneg _)

example := C18_signs (tab 3 3 fun i j => (i * i + 3 * j : ℝ)) (tab 3 3 fun i j => (i - 2 * j : ℝ)) (1 / 2) 1
  rfl rfl (by decide) (by decide)

/-! ## C19 -/

/-- **C19 (Parseval).** The spectral thermal energy is half the mean square. -/
theorem C19_parseval (n : Arr ℝ) (h0 : 0 < n.h) (w0 : 0 < n.w) :
    get_energy_N_spectrally n = .ok (Spec.mean n.h n.w (fun i j => n.at' i j ^ 2) / 2) := by
  obtain ⟨h, w, f, _, e1, e2, rfl, -⟩ := exists_fields n n rfl rfl
  rw [← e1] at h0; rw [← e2] at w0
  have : NeZero h := ⟨h0.ne'⟩
  have : NeZero w := ⟨w0.ne'⟩
  rw [energy_N_ofField]
  simp only [ofField_h, ofField_w]
  rw [spec_mean_of (g := fun i j => f i j ^ 2) fun i j hi hj => by rw [ofField_at' f hi hj]]

example := C19_parseval (tab 3 4 fun i j => (i * i + 3 * j : ℝ)) (by decide) (by decide)

/-! ## C20 -/

/-- **C20 (square grids).** For the potential returned by `get_phi`, the
spectral kinetic energy is `-mean(phi*omega)/2`. -/
theorem C20_kinetic_energy (hw : HW) (omega : Arr ℝ) (dx : ℝ) (c : Calls) (hdx : dx ≠ 0)
    (h0 : 0 < omega.h) (hsq : omega.w = omega.h) (hb : Std hw.backend omega.h omega.w) :
    ∃ phi c', hw.get_phi omega dx c = .ok (phi, c') ∧
      get_energy_V_spectrally phi dx
        = .ok (-Spec.mean omega.h omega.w (fun i j => phi.at' i j * omega.at' i j) / 2) := by
  obtain ⟨h, w, o, _, e1, e2, rfl, -⟩ := exists_fields omega omega rfl rfl
  simp only [ofField_h, ofField_w] at *
  subst hsq
  have : NeZero w := ⟨h0.ne'⟩
  refine ⟨_, _, get_phi_ofField hw hb.good o dx c, ?_⟩
  rw [energy_V_ofField, energy_V_phi o hdx]
  rw [spec_mean_of (g := fun i j => phiF dx o i j * o i j) fun i j hi hj => by
    rw [ofField_at' o hi hj, ofField_at' _ hi hj]]

example := C20_kinetic_energy (HW.init numpyBackend 1 3 1 1 1)
  (tab 4 4 fun i j => (i * i + 3 * j : ℝ)) (1 / 2) {} (by norm_num) (by decide) rfl (.inl rfl)

/-- **C20 (other grids).** On a non-square grid with both sides ≥ 2 the call
raises `ValueError`. -/
theorem C20_nonsquare_raises (p : Arr ℝ) (dx : ℝ) (h2 : 2 ≤ p.h) (w2 : 2 ≤ p.w) (hne : p.h ≠ p.w) :
    get_energy_V_spectrally p dx = .error .valueError := by
  obtain ⟨h, w, f, _, e1, e2, rfl, -⟩ := exists_fields p p rfl rfl
  simp only [ofField_h, ofField_w] at *
  have : NeZero h := ⟨by omega⟩
  have : NeZero w := ⟨by omega⟩
  unfold get_energy_V_spectrally get_energy_V_ky
  rw [fft2Ortho_ofField]
  unfold meshKy meshKx
  simp only [ofField_h, ofField_w, map_tab, ok_add, Py.ok_bind]
  have : ∀ (u : ℕ → ℕ → ℝ) (v : ZMod h → ZMod w → ℂ),
      (.ok (tab w h u).toComplex * .ok (ofField v) : Py (Arr ℂ)) = .error .valueError := by
    intro u v
    change Arr.zip (fun x y : ℂ => x * y) (tab w h fun i j => (u i j : ℂ)) (tab h w fun i j => v i j) = _
    unfold Arr.zip
    have : bdim w h = none := by
      unfold bdim; rw [if_neg hne.symm, if_neg (by omega), if_neg (by omega)]
    simp only [tab_h, tab_w, this]
  rw [this]
  rfl

example := C20_nonsquare_raises (tab 2 3 fun i j => (i * i + 3 * j : ℝ)) 1 (by decide) (by decide) (by decide)

/-! ## C21 -/

/-- **C21 (even square grids).** The spectral y-derivative `d` of `p` exists and
the spectral flux is `-mean(n * d)`. -/
theorem C21_spectral_flux_partial (n p : Arr ℝ) (dx : ℝ) (m : ℕ) (hm : 1 ≤ m) (h1 : n.h = 2 * m)
    (h2 : n.w = 2 * m) (h3 : p.h = 2 * m) (h4 : p.w = 2 * m) :
    (∃ d : Arr ℝ, d.h = 2 * m ∧ d.w = 2 * m ∧ IsDy (2 * m) (2 * m) dx p.at' d.at') ∧
    ∀ d : ℕ → ℕ → ℝ, IsDy (2 * m) (2 * m) dx p.at' d →
      get_gamma_n_spectrally n p dx = .ok (-Spec.mean (2 * m) (2 * m) fun i j => n.at' i j * d i j) := by
  obtain ⟨h, w, f, g, e1, e2, rfl, rfl⟩ := exists_fields n p (by omega) (by omega)
  simp only [ofField_h, ofField_w] at *
  subst h3; subst h4
  have : NeZero (2 * m) := ⟨by omega⟩
  constructor
  · obtain ⟨d, hd⟩ := exists_dy g dx
    exact ⟨ofField d, rfl, rfl, (isDy_iff (at_ofField g) (at_ofField d)).mpr hd⟩
  · intro d hd
    have ed : ∀ i j, i < 2 * m → j < 2 * m →
        d i j = (fun (a b : ZMod (2 * m)) => d a.val b.val) i j := fun i j hi hj => by
      simp only [ZMod.val_natCast, Nat.mod_eq_of_lt hi, Nat.mod_eq_of_lt hj]
    have := (isDy_iff (g := fun (a b : ZMod (2 * m)) => d a.val b.val) (at_ofField g) ed).mp hd
    rw [gamma_n_spectral_ofField, gamma_n_spectral_even f g _ dx m rfl this]
    rw [spec_mean_of (g := fun i j => f i j * d i.val j.val) fun i j hi hj => by
      rw [ofField_at' f hi hj, ed i j hi hj]]

example := C21_spectral_flux_partial (tab 4 4 fun i j => (i * i + 3 * j : ℝ))
  (tab 4 4 fun i j => (i + j * j : ℝ)) (1 / 2) 2 (by decide) rfl rfl rfl rfl

/-- **C21 violated on odd grids**: on a 3×3 grid the spectral flux is always 0,
although the physical flux is not. -/
theorem C21_odd_grid_violated :
    (∀ (n p : Arr ℝ) (dx : ℝ), n.h = 3 → n.w = 3 → p.h = 3 → p.w = 3 →
      get_gamma_n_spectrally n p dx = .ok 0) ∧
    ∃ (n p d : Arr ℝ), n.h = 3 ∧ n.w = 3 ∧ p.h = 3 ∧ p.w = 3 ∧ d.h = 3 ∧ d.w = 3 ∧
      IsDy 3 3 1 p.at' d.at' ∧ Spec.mean 3 3 (fun i j => n.at' i j * d.at' i j) ≠ 0 := by
  constructor
  · intro n p dx h1 h2 h3 h4
    obtain ⟨h, w, f, g, e1, e2, rfl, rfl⟩ := exists_fields n p (by omega) (by omega)
    simp only [ofField_h, ofField_w] at *
    subst h3; subst h4
    have : NeZero 3 := ⟨by decide⟩
    rw [gamma_n_spectral_ofField]
    have : rowSum (fluxK dx f g) 0 = 0 := by
      unfold rowSum fluxK
      refine Finset.sum_eq_zero fun l _ => ?_
      rw [(kap_eq_zero _).mpr rfl]; simp
    simp [this]
  · have : NeZero 3 := ⟨by decide⟩
    obtain ⟨d, hd⟩ := exists_dy (h := 3) (w := 3) (fun i _ => if i = 0 then 1 else 0) 1
    refine ⟨ofField d, ofField fun i _ => if i = 0 then 1 else 0, ofField d, rfl, rfl, rfl, rfl, rfl, rfl,
      (isDy_iff (at_ofField _) (at_ofField d)).mpr hd, ?_⟩
    rw [spec_mean_of (g := fun i j => d i j * d i j) fun i j hi hj => by rw [ofField_at' d hi hj]]
    intro h0
    unfold avg at h0
    rw [div_eq_zero_iff, or_iff_left card_ne, S_eq_zero_iff fun i j => mul_self_nonneg _] at h0
    have hz : d = fun _ _ => 0 := by
      funext i j; exact mul_self_eq_zero.mp (h0 i j)
    have h1 := hd 1 0
    rw [hz] at h1
    have e0 : (cx fun (_ : ZMod 3) (_ : ZMod 3) => (0 : ℝ)) = fun _ _ => (0 : ℂ) := by
      funext i j; simp
    rw [e0, D_const] at h1
    simp only [mul_zero, ite_self] at h1
    rw [if_neg (by decide)] at h1
    have hp : D (cx fun (i : ZMod 3) (_ : ZMod 3) => if i = 0 then 1 else 0) 1 0 = 3 := by
      unfold D S
      rw [Finset.sum_eq_single 0]
      · simp [ZMod.card]
      · intro b _ hb
        refine Finset.sum_eq_zero fun j _ => ?_
        change ((if b = 0 then (1 : ℝ) else 0 : ℝ) : ℂ) * _ = 0
        rw [if_neg hb]; simp
      · simp
    rw [hp] at h1
    have hk : kap (1 : ZMod 3) ≠ 0 := by rw [Ne, kap_eq_zero]; decide
    have : (Complex.I * ((2 * Real.pi * kap (1 : ZMod 3) / 1 : ℝ) : ℂ) * 3) ≠ 0 := by
      refine mul_ne_zero (mul_ne_zero Complex.I_ne_zero ?_) (by norm_num)
      rw [Complex.ofReal_ne_zero]
      have := Real.pi_pos
      positivity
    exact this h1.symm

/-! ## C22 -/

/-- **C22.** On square grids the finite-difference energy is at most the
spectral energy. -/
theorem C22_energy_le_spectral (n p : Arr ℝ) (dx : ℝ) (h0 : 0 < n.h) (hsq : n.w = n.h)
    (hh : p.h = n.h) (hw : p.w = n.w) :
    ∃ e eN eV, get_energy n p dx = .ok e ∧ get_energy_N_spectrally n = .ok eN ∧
      get_energy_V_spectrally p dx = .ok eV ∧ e ≤ eN + eV := by
  obtain ⟨h, w, f, g, e1, e2, rfl, rfl⟩ := exists_fields n p hh hw
  simp only [ofField_h, ofField_w] at *
  subst hsq
  have : NeZero w := ⟨h0.ne'⟩
  refine ⟨_, _, _, energy_ofField f g dx, energy_N_ofField f, energy_V_ofField g dx, ?_⟩
  have h1 := grad_sq_le dx g
  have h2 : avg (fun i j => f i j ^ 2 + (gradX dx g i j ^ 2 + gradY dx g i j ^ 2))
      = avg (fun i j => f i j ^ 2) + S (fun i j => gradX dx g i j ^ 2 + gradY dx g i j ^ 2) / ((w : ℝ) * w) := by
    unfold avg
    rw [S_add, add_div]
  have h3 : S (fun i j => gradX dx g i j ^ 2 + gradY dx g i j ^ 2) / ((w : ℝ) * w)
      ≤ avg (fun k l => -lamb k l / dx ^ 2 * ‖D (cx g) k l‖ ^ 2) / ((w : ℝ) * w) := by
    refine div_le_div_of_nonneg_right ?_ hw_pos.le
    exact h1
  rw [h2]
  linarith

example := C22_energy_le_spectral (tab 3 3 fun i j => (i * i + 3 * j : ℝ))
  (tab 3 3 fun i j => (i - 2 * j : ℝ)) (1 / 2) (by decide) rfl rfl rfl

end Verif.Props
